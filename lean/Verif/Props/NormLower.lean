import Verif.Props.Monotone
import Verif.Props.Padding

/-!
# C109: `dnrm2` on binary64 is at least the magnitude of every element, and exact if there is only one
-/

namespace Verif
open Float.Model F64 Scalar Spec

namespace F64

theorem rne_near {t : ℝ} {M : Nat} (h1 : (M : ℝ) - 1 / 2 < t) (h2 : t < M + 1 / 2) (h0 : 0 ≤ t) : rne t = M := by
  rcases le_or_gt (M : ℝ) t with h | h
  · exact (rne_of h (by linarith)).1 h2
  · obtain ⟨N, rfl⟩ : ∃ N, M = N + 1 := by
      refine ⟨M - 1, ?_⟩
      have : M ≠ 0 := by
        rintro rfl
        norm_num at h
        linarith
      omega
    push_cast at h h1
    rw [(rne_of (m := N) (by linarith) (by linarith)).2.1 (by linarith)]
    push_cast
    rfl

/-- Every positive grid point has 53 bits, the first one set, if it is not subnormal. -/
theorem grid_normal {a : ℝ} (h : Grid a) (ha : (2 : ℝ) ^ (-1022 : ℤ) ≤ a) :
    ∃ (M : Nat) (E : ℤ), a = M * 2 ^ E ∧ 2 ^ 52 ≤ M ∧ M < 2 ^ 53 ∧ -1074 ≤ E ∧ Int.log 2 a = 52 + E := by
  have a0 : 0 < a := lt_of_lt_of_le (zp _) ha
  have hl : -1022 ≤ Int.log 2 a := by
    rw [← Int.zpow_le_iff_le_log (by norm_num) a0]
    push_cast
    exact ha
  have he : expo a = Int.log 2 a - 52 := by unfold expo; omega
  have hf := fl_grid h
  unfold fl at hf
  rw [if_neg a0.ne', if_pos a0] at hf
  unfold flp at hf
  have hp := zp (expo a)
  have hq : a / 2 ^ expo a = rne (a / 2 ^ expo a) := by
    rw [div_eq_iff hp.ne']
    exact hf.symm
  have b1 : (2 : ℝ) ^ (52 : ℤ) ≤ a / 2 ^ expo a := by
    rw [le_div_iff₀ hp, ← zpow_add₀ (by norm_num), he, show (52 : ℤ) + (Int.log 2 a - 52) = Int.log 2 a by ring]
    have := Int.zpow_log_le_self (b := 2) (by norm_num) a0
    push_cast at this
    exact this
  have b2 : a / 2 ^ expo a < (2 : ℝ) ^ (53 : ℤ) := by
    rw [div_lt_iff₀ hp, ← zpow_add₀ (by norm_num), he, show (53 : ℤ) + (Int.log 2 a - 52) = Int.log 2 a + 1 by ring]
    have := Int.lt_zpow_succ_log_self (b := 2) (by norm_num) a
    push_cast at this
    exact this
  rw [hq] at b1 b2
  generalize hM : rne (a / 2 ^ expo a) = M at *
  have c1 : (2 ^ 52 : ℤ) ≤ M := by
    have : (2 : ℝ) ^ (52 : ℕ) ≤ M := b1
    exact_mod_cast this
  have c2 : M < (2 ^ 53 : ℤ) := by
    have : (M : ℝ) < (2 : ℝ) ^ (53 : ℕ) := b2
    exact_mod_cast this
  obtain ⟨N, rfl⟩ := Int.eq_ofNat_of_zero_le (show 0 ≤ M by omega)
  refine ⟨N, expo a, ?_, by exact_mod_cast c1, by exact_mod_cast c2, le_max_right _ _, by omega⟩
  exact hf.symm

/-- The root of a rounded square is the number itself, in base two. -/
theorem fl_sqrt_sq {a S : ℝ} (h : Grid a) (ha : (2 : ℝ) ^ (-511 : ℤ) ≤ a) (hS : Fl (a * a) S) : fl (Real.sqrt S) = a := by
  have a0 : 0 < a := lt_of_lt_of_le (zp _) ha
  have e2 : (2 : ℝ) ^ (-1022 : ℤ) = 2 ^ (-511 : ℤ) * 2 ^ (-511 : ℤ) := by rw [← zpow_add₀ (by norm_num)]; norm_num
  have haa : (2 : ℝ) ^ (-1022 : ℤ) ≤ a * a := by
    rw [e2]; exact mul_le_mul ha ha (zp _).le a0.le
  obtain ⟨M, E, hM, m1, m2, hE, -⟩ := grid_normal h ((zpow_le_zpow_right₀ (by norm_num) (by norm_num)).trans ha)
  have hp := zp E
  have r1 : (2 : ℝ) ^ 52 ≤ M := by exact_mod_cast m1
  have r2 : (M : ℝ) + 1 ≤ 2 ^ 53 := by exact_mod_cast m2
  have herr := hS.normal (by rw [abs_of_pos (mul_pos a0 a0)]; exact haa)
  rw [abs_of_pos (mul_pos a0 a0)] at herr
  have hur : ur = 1 / 2 ^ 53 := rfl
  rw [hur] at herr
  obtain ⟨g1, g2⟩ := abs_le.1 herr
  have haM : a * a = (M * M) * (2 ^ E * 2 ^ E) := by rw [hM]; ring
  set q : ℝ := 2 ^ E * 2 ^ E with hq
  have hq0 : 0 < q := mul_pos hp hp
  have k1 : (M : ℝ) * M * (1 / 2 ^ 53) ≤ M - M / 2 ^ 53 := by
    have : (M : ℝ) * (M + 1) ≤ M * 2 ^ 53 := mul_le_mul_of_nonneg_left r2 (by positivity)
    have e : (M : ℝ) * M * (1 / 2 ^ 53) = (M * (M + 1)) / 2 ^ 53 - M / 2 ^ 53 := by ring
    rw [e]
    have : (M : ℝ) * (M + 1) / 2 ^ 53 ≤ M := by rw [div_le_iff₀ (by norm_num)]; exact this
    linarith
  have k2 : (1 : ℝ) / 2 ≤ M / 2 ^ 53 := by
    rw [div_le_div_iff₀ (by norm_num) (by norm_num)]
    have : (2 : ℝ) ^ 53 = 2 * 2 ^ 52 := by norm_num
    linarith
  have up1 : S < ((M + 1 / 2) * 2 ^ E) ^ 2 := by
    have e : ((M + 1 / 2) * (2 : ℝ) ^ E) ^ 2 = (M * M + M + 1 / 4) * q := by rw [hq]; ring
    have : S ≤ (M * M + M * M * (1 / 2 ^ 53)) * q := by
      rw [haM] at g2
      linarith
    rw [e]
    refine lt_of_le_of_lt this (mul_lt_mul_of_pos_right ?_ hq0)
    linarith
  have lo1 : ((M - 1 / 2) * 2 ^ E) ^ 2 < S := by
    have e : ((M - 1 / 2) * (2 : ℝ) ^ E) ^ 2 = (M * M - M + 1 / 4) * q := by rw [hq]; ring
    have : (M * M - M * M * (1 / 2 ^ 53)) * q ≤ S := by
      rw [haM] at g1
      linarith
    rw [e]
    refine lt_of_lt_of_le (mul_lt_mul_of_pos_right ?_ hq0) this
    linarith
  have t2 : Real.sqrt S < (M + 1 / 2) * 2 ^ E := by
    rw [Real.sqrt_lt' (by positivity)]
    exact up1
  have t1 : (M - 1 / 2) * 2 ^ E < Real.sqrt S := by
    apply Real.lt_sqrt_of_sq_lt
    exact lo1
  have t3 : (2 : ℝ) ^ 52 * 2 ^ E ≤ Real.sqrt S := by
    rcases m1.lt_or_eq with hlt | heq
    · have : (2 : ℝ) ^ 52 + 1 ≤ M := by exact_mod_cast hlt
      refine le_trans (mul_le_mul_of_nonneg_right ?_ hp.le) t1.le
      linarith
    · have hg : Grid (a * a) := by
        have : a * a = 2 ^ (52 + 52 + (E + E)) := by
          rw [haM, ← heq, hq, zpow_add₀ (by norm_num), zpow_add₀ (by norm_num) E E, zpow_add₀ (by norm_num)]
          norm_num
        rw [this]
        refine grid_pow _ ?_
        have h3 := haa
        rw [this] at h3
        have := (zpow_le_zpow_iff_right₀ (by norm_num : (1 : ℝ) < 2)).1 h3
        omega
      rw [hS.exact hg, Real.sqrt_mul_self a0.le, hM, ← heq]
      norm_num
  have s0 : 0 < Real.sqrt S := lt_of_lt_of_le (by positivity) t3
  have hlog : Int.log 2 (Real.sqrt S) = 52 + E := by
    apply le_antisymm
    · rw [← Int.lt_add_one_iff, ← Int.lt_zpow_iff_log_lt (by norm_num) s0]
      push_cast
      rw [show 52 + E + 1 = 53 + E by ring, zpow_add₀ (by norm_num)]
      refine t2.trans_le (mul_le_mul_of_nonneg_right ?_ hp.le)
      have : (2 : ℝ) ^ (53 : ℤ) = 2 ^ 53 := by norm_cast
      rw [this]
      linarith
    · rw [← Int.zpow_le_iff_le_log (by norm_num) s0]
      push_cast
      rw [zpow_add₀ (by norm_num)]
      exact_mod_cast t3
  have hexp : expo (Real.sqrt S) = E := by unfold expo; rw [hlog]; omega
  unfold fl
  rw [if_neg s0.ne', if_pos s0]
  unfold flp
  rw [hexp, rne_near (M := M) (by rw [lt_div_iff₀ hp]; exact t1) (by rw [div_lt_iff₀ hp]; exact t2) (div_nonneg s0.le hp.le), hM]
  push_cast
  rfl

theorem sqrt_sq_float {x : Float} (fx : x.isFinite = true) (h1 : (2 : ℝ) ^ (-511 : ℤ) ≤ |toR x|) (h2 : |toR x| ≤ 2 ^ (505 : ℤ)) :
    (x.abs * x.abs).isFinite = true ∧ 0 < toR (x.abs * x.abs) ∧ Float.sqrt (x.abs * x.abs) = x.abs := by
  have fa : x.abs.isFinite = true := by rw [abs_finite]; exact fx
  have ha := abs_toR x
  have r := mul_rounds x.abs x.abs fa fa
  rw [← ha] at h1 h2
  have a0 : 0 < toR x.abs := lt_of_lt_of_le (zp _) h1
  have hb : toR x.abs * toR x.abs ≤ 2 ^ (1010 : ℤ) := by
    rw [show (2 : ℝ) ^ (1010 : ℤ) = 2 ^ (505 : ℤ) * 2 ^ (505 : ℤ) by rw [← zpow_add₀ (by norm_num)]; norm_num]
    exact mul_le_mul h2 h2 a0.le (zp _).le
  have hl : (2 : ℝ) ^ (-1022 : ℤ) ≤ toR x.abs * toR x.abs := by
    rw [show (2 : ℝ) ^ (-1022 : ℤ) = 2 ^ (-511 : ℤ) * 2 ^ (-511 : ℤ) by rw [← zpow_add₀ (by norm_num)]; norm_num]
    exact mul_le_mul h1 h1 (zp _).le a0.le
  have f := r.finite (by rw [abs_of_nonneg (mul_self_nonneg _)]; exact F64.lt_ovf hb (by norm_num))
  have p0 : 0 < toR (x.abs * x.abs) := lt_of_lt_of_le (zp _) ((r.fl f).lower _ (grid_pow (-1022) (by norm_num)) hl)
  have e := fl_sqrt_sq (grid_toR x.abs) h1 (r.fl f)
  have rs := sqrt_rounds _ f p0.le
  have u0 : toR (x.abs * x.abs) ≤ 2 ^ (1010 : ℤ) := (r.fl f).upper _ (grid_pow _ (by norm_num)) hb
  have fs : (Float.sqrt (x.abs * x.abs)).isFinite = true := by
    refine rs.finite ?_
    rw [abs_of_nonneg (Real.sqrt_nonneg _)]
    refine F64.lt_ovf (a := 505) ?_ (by norm_num)
    apply Real.sqrt_le_iff.2
    refine ⟨(zp _).le, ?_⟩
    rw [sq, ← zpow_add₀ (by norm_num)]
    exact u0
  have v := sqrt_fl f p0.le fs
  rw [e] at v
  exact ⟨f, p0, toR_inj v fs fa (by rw [v]; exact a0.ne')⟩

/-- `dnrm2` has seen only elements of the middle range. -/
def MidState (s : Nrm2 Float) : Prop := (up s.asml = .zero .positive ∧ s.abig = zero) ∧ NNeg s.amed

theorem Mo.add_left {x y p : Float} (hy : NNeg y) (h : Mo x p) : Mo x (y + p) := by
  have n := h.nn
  obtain ⟨hx, hp⟩ := h
  refine ⟨hx, ?_⟩
  rcases hp with hp | ⟨f, g, l⟩
  · exact Or.inl (inf_add_nn hp hy).2
  · rcases hy with ⟨fy, h0⟩ | hy
    · have r := add_rounds y p fy g
      rcases NNeg.of_rounds (add_nonneg h0 (n.val g)) r with ⟨ff, -⟩ | hi
      · exact Or.inr ⟨f, ff, (r.fl ff).lower _ (grid_toR x) (by linarith)⟩
      · exact Or.inl hi
    · exact Or.inl (inf_add_nn hy n).1

theorem MidState.step {s : Nrm2 Float} (h : MidState s) {x : Float} (m : MidRange x) : MidState (nrm2Acc s x) ∧
    (∀ p, Mo p s.amed → Mo p (nrm2Acc s x).amed) ∧ (toR x ≠ 0 → Mo (x.abs * x.abs) (nrm2Acc s x).amed) := by
  obtain ⟨⟨a1, a2⟩, hn⟩ := h
  have fa : x.abs.isFinite = true := by rw [abs_finite]; exact m.1
  have p' : NNeg (x.abs * x.abs) := NNeg.of_rounds (mul_self_nonneg _) (mul_rounds _ _ fa fa)
  have h0 : 0 ≤ toR x.abs := by rw [abs_toR]; exact abs_nonneg _
  rcases m.2 with m0 | ⟨l1, l2⟩
  · obtain ⟨t, ht⟩ := toR_eq_zero m.1 m0
    obtain ⟨c1, c2, c3⟩ := nrm2Acc_zero (s := s) ht a1
    refine ⟨⟨⟨c1, c3.trans a2⟩, by rw [c2]; exact hn⟩, fun p hp => by rw [c2]; exact hp, fun h => absurd m0 h⟩
  · rw [nrm2Acc_mid m.1 l1 l2]
    exact ⟨⟨⟨a1, a2⟩, hn.add p'⟩, fun p hp => hp.add_right p', fun _ => Mo.add_left hn (Mo.mul fa fa fa fa h0 le_rfl h0 le_rfl)⟩

theorem MidState.fold (l : List Float) {s : Nrm2 Float} (h : MidState s) (m : ∀ x ∈ l, MidRange x) : MidState (l.foldl nrm2Acc s) ∧
    (∀ p, Mo p s.amed → Mo p (l.foldl nrm2Acc s).amed) ∧ ∀ x ∈ l, toR x ≠ 0 → Mo (x.abs * x.abs) (l.foldl nrm2Acc s).amed := by
  induction l generalizing s with
  | nil => exact ⟨h, fun _ hp => hp, fun x hx => absurd hx (by simp)⟩
  | cons a l ih =>
    rw [List.foldl_cons]
    obtain ⟨h1, h2, h3⟩ := h.step (m a List.mem_cons_self)
    obtain ⟨g1, g2, g3⟩ := ih h1 fun x hx => m x (List.mem_cons_of_mem _ hx)
    refine ⟨g1, fun p hp => g2 p (h2 p hp), fun x hx hx0 => ?_⟩
    rcases List.mem_cons.1 hx with rfl | hx
    · exact g2 _ (h3 hx0)
    · exact g3 x hx hx0

theorem midState_start : MidState ⟨true, zero, zero, zero⟩ := ⟨⟨rfl, rfl⟩, Or.inl ⟨toR_zero.1, toR_zero.2.ge⟩⟩

end F64

/-- **C109.** On binary64 `dnrm2` is at least the magnitude of every element it visits, if these are zero or between `2^-511` and `2^505` in magnitude. -/
theorem C109_dnrm2_ge (n : Nat) (hn : 0 < n) (x : List Float) (incx : Int) (h : StrideOK n incx) (hl : x.length < 2 ^ 62)
    (hm : ∀ v ∈ strided n incx x, MidRange v) :
    ∃ r : Float, dnrm2 (n : Int) x incx = (pure r : R Float) ∧ ∀ v ∈ strided n incx x, v.abs ≤ r := by
  refine ⟨_, dnrm2FA_fold hn h _ hl, ?_⟩
  change ∀ v ∈ strided n incx x, v.abs ≤ nrm2Final (List.foldl nrm2Acc _ (strided n incx x))
  obtain ⟨⟨g1, g2⟩, -, g4⟩ := MidState.fold (strided n incx x) midState_start hm
  intro v hv
  rw [nrm2Final_mid g1, F64.one_mul']
  have fa : v.abs.isFinite = true := by rw [abs_finite]; exact (hm v hv).1
  rcases (hm v hv).2 with h0 | ⟨l1, l2⟩
  · have hz : Mo v.abs zero := ⟨Or.inl ⟨fa, by rw [abs_toR]; exact abs_nonneg _⟩, Or.inr ⟨fa, toR_zero.1, by rw [abs_toR, h0, abs_zero, toR_zero.2]⟩⟩
    have hs : Float.sqrt (zero : Float) = zero := by decide +kernel
    have hm2 : Mo (zero : Float) (List.foldl nrm2Acc ⟨true, zero, zero, zero⟩ (strided n incx x)).amed := by
      rcases g2 with g2 | g2
      · exact ⟨mo_zero.1, Or.inr ⟨toR_zero.1, g2.1, by rw [toR_zero.2]; exact g2.2⟩⟩
      · exact ⟨mo_zero.1, Or.inl g2⟩
    have := hm2.sqrt
    rw [hs] at this
    obtain ⟨q1, q2⟩ := this
    refine Mo.le ⟨hz.1, ?_⟩
    rcases q2 with q2 | ⟨u1, u2, u3⟩
    · exact Or.inl q2
    · refine Or.inr ⟨fa, u2, ?_⟩
      rw [abs_toR, h0, abs_zero]
      rw [toR_zero.2] at u3
      exact u3
  · have ne : toR v ≠ 0 := by
      intro h0
      rw [h0, abs_zero] at l1
      exact absurd l1 (not_le.2 (zp _))
    have := (g4 v hv ne).sqrt
    rw [(sqrt_sq_float (hm v hv).1 l1 l2).2.2] at this
    exact this.le

/-- **C109.** If only one visited element is not zero, and its magnitude is between `2^-511` and `2^505`, then `dnrm2` is exactly that magnitude. -/
theorem C109_dnrm2_single (n : Nat) (x : List Float) (incx : Int) (h : StrideOK n incx) (hl : x.length < 2 ^ 62) (v : Float)
    (hv : (strided n incx x).filter (fun w => !(w == 0)) = [v]) (hm : MidRange v) :
    dnrm2 (n : Int) x incx = (pure v.abs : R Float) := by
  rw [dnrm2_filter n x incx h hl, hv, List.foldl_cons, List.foldl_nil]
  have hne : (v == 0) = false := by
    have : v ∈ (strided n incx x).filter (fun w => !(w == 0)) := by rw [hv]; simp
    have := (List.mem_filter.1 this).2
    simpa using this
  have ne : toR v ≠ 0 := by
    intro h0
    have hb : Float.beq v 0 = true := by
      rw [beq_toXR, toXR_fin hm.1, h0, show toXR (0 : Float) = XR.fin 0 from (toXR_fin toR_zero.1).trans (congrArg XR.fin toR_zero.2)]
      simp [XR.beq]
    have hb' : (v == 0) = true := hb
    rw [hb'] at hne; cases hne
  obtain ⟨l1, l2⟩ := hm.2.resolve_left ne
  obtain ⟨f, p0, e⟩ := sqrt_sq_float hm.1 l1 l2
  rw [nrm2Acc_mid hm.1 l1 l2, nrm2Final_mid (s := ⟨true, zero, zero + v.abs * v.abs, zero⟩) midState_start.1, F64.one_mul']
  have hz : (zero : Float) + v.abs * v.abs = v.abs * v.abs := by
    have r := add_rounds zero (v.abs * v.abs) toR_zero.1 f
    rw [toR_zero.2, _root_.zero_add] at r
    obtain ⟨f', w⟩ := r.exact (abs_toR_lt _) (grid_toR _)
    exact toR_inj w f' f (by rw [w]; exact p0.ne')
  show (pure (Float.sqrt ((zero : Float) + v.abs * v.abs)) : R Float) = _
  rw [hz, e]

/-- A case: `(0, -0.1, 0)`, whose norm is `0.1`; and `(0.1, 3)`. -/
theorem C109_example (pr : Profile) :
    (dnrm2 (F := Float) 3 ([0, -0.1, 0] : List Float) 1 pr).val? = some 0.1 ∧
    ((dnrm2 (F := Float) 2 ([0.1, -3] : List Float) 1 pr).val?.map fun r => decide ((3 : Float) ≤ r)) = some true := by
  cases pr <;> decide +kernel

/-- Outside the range it fails: the norm of a tiny vector can be less than its elements (C48). -/
theorem C109_outside (pr : Profile) : (dnrm2 (F := Float) 1 ([5e-324] : List Float) 1 pr).val? = some 0 := by
  cases pr <;> decide +kernel

end Verif
