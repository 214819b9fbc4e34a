import Verif.Props.PowTwo
import Verif.Props.Signs
import Verif.Props.LarfgF64

/-!
# C104: `dnrm2` and `dlarfg` of vectors scaled by a power of two, on binary64

Specification: `Spec.MidRange x` says that `x` is zero, or of a magnitude between `2^-511` and `2^505`.
-/

namespace Verif
open Float.Model F64 Scalar Spec

/-- `x` is finite, and zero or of a magnitude for which `dnrm2` uses no scaling. -/
def Spec.MidRange (x : Float) : Prop := x.isFinite = true ∧ (toR x = 0 ∨ (2 : ℝ) ^ (-511 : ℤ) ≤ |toR x| ∧ |toR x| ≤ 2 ^ (505 : ℤ))

namespace F64

/-- The accumulators of two runs of `dnrm2`, the second on a vector scaled by `2^k`. -/
def NrmSc (k : ℤ) (s s' : Nrm2 Float) : Prop :=
  (up s.asml = .zero .positive ∧ s.abig = zero) ∧ (up s'.asml = .zero .positive ∧ s'.abig = zero) ∧
    (s.amed.isFinite = true → s'.amed.isFinite = true → Sc (k + k) s.amed s'.amed ∧ (toR s.amed = 0 ∨ (2 : ℝ) ^ (-1022 : ℤ) ≤ toR s.amed))

theorem nrm2Acc_mid {s : Nrm2 Float} {x : Float} (fx : x.isFinite = true) (h1 : (2 : ℝ) ^ (-511 : ℤ) ≤ |toR x|) (h2 : |toR x| ≤ 2 ^ (505 : ℤ)) :
    nrm2Acc s x = { s with amed := s.amed + x.abs * x.abs } := by
  have fa : x.abs.isFinite = true := by rw [abs_finite]; exact fx
  have ha := abs_toR x
  have b1 : Float.lt tbig x.abs = false := by
    rw [lt_toXR, toXR_fin toR_tbig.1, toR_tbig.2, toXR_fin fa]
    simp only [XR.lt, decide_eq_false_iff_not]
    rw [ha]
    exact not_lt.2 h2
  have b2 : Float.lt x.abs tsml = false := by
    rw [lt_toXR, toXR_fin toR_tsml.1, toR_tsml.2, toXR_fin fa]
    simp only [XR.lt, decide_eq_false_iff_not]
    rw [ha]
    exact not_lt.2 h1
  rw [nrm2Acc_def, b1, b2]
  rfl

theorem mid_square {x : Float} (h1 : (2 : ℝ) ^ (-511 : ℤ) ≤ |toR x|) : NoUnderflow (toR x.abs * toR x.abs) := by
  right
  rw [abs_toR, abs_mul, abs_abs]
  have e2 : (1 : ℝ) / 2 ^ 1022 = 2 ^ (-511 : ℤ) * 2 ^ (-511 : ℤ) := by
    rw [← zpow_add₀ (by norm_num), one_div, ← zpow_natCast, ← zpow_neg]; norm_num
  rw [e2]
  exact mul_le_mul h1 h1 (zp _).le (abs_nonneg _)

theorem NrmSc.step {k : ℤ} {s s' : Nrm2 Float} (h : NrmSc k s s') {x x' : Float} (hx : Sc k x x') (m : MidRange x) (m' : MidRange x') :
    NrmSc k (nrm2Acc s x) (nrm2Acc s' x') := by
  obtain ⟨⟨a1, a2⟩, ⟨a1', a2'⟩, hm⟩ := h
  have hp := zp k
  rcases m.2 with m0 | ⟨l1, l2⟩
  · have m0' : toR x' = 0 := by rw [hx.eq, m0, zero_mul]
    obtain ⟨t, ht⟩ := toR_eq_zero hx.fx m0
    obtain ⟨t', ht'⟩ := toR_eq_zero hx.fy m0'
    obtain ⟨c1, c2, c3⟩ := nrm2Acc_zero (s := s) ht a1
    obtain ⟨c1', c2', c3'⟩ := nrm2Acc_zero (s := s') ht' a1'
    refine ⟨⟨c1, c3.trans a2⟩, ⟨c1', c3'.trans a2'⟩, ?_⟩
    rw [c2, c2']
    exact hm
  · have ne : toR x ≠ 0 := by
      intro h0
      rw [h0, abs_zero] at l1
      exact absurd l1 (not_le.2 (zp _))
    have ne' : toR x' ≠ 0 := by rw [hx.eq]; exact mul_ne_zero ne hp.ne'
    obtain ⟨l1', l2'⟩ := m'.2.resolve_left ne'
    rw [nrm2Acc_mid hx.fx l1 l2, nrm2Acc_mid hx.fy l1' l2']
    refine ⟨⟨a1, a2⟩, ⟨a1', a2'⟩, fun f f' => ?_⟩
    have g := finite_of_add f
    have g' := finite_of_add f'
    obtain ⟨hs, h0⟩ := hm g.1 g'.1
    have sq := hx.abs.mul hx.abs (mid_square l1) (mid_square l1') g.2 g'.2
    refine ⟨hs.add sq f f', ?_⟩
    have r := add_rounds s.amed (x.abs * x.abs) g.1 g.2
    have q := mul_rounds x.abs x.abs (finite_of_mul g.2).1 (finite_of_mul g.2).1
    have q0 := (q.fl g.2).lower _ (grid_pow (-1022) (by norm_num)) (by
      rw [abs_toR, show (2 : ℝ) ^ (-1022 : ℤ) = 2 ^ (-511 : ℤ) * 2 ^ (-511 : ℤ) by rw [← zpow_add₀ (by norm_num)]; norm_num]
      exact mul_le_mul l1 l1 (zp _).le (abs_nonneg _))
    right
    refine (r.fl f).lower _ (grid_pow (-1022) (by norm_num)) ?_
    have := zp (-1022)
    rcases h0 with h0 | h0 <;> linarith

theorem NrmSc.fold {k : ℤ} {l l' : List Float} (h : List.Forall₂ (Sc k) l l') (m : ∀ x ∈ l, MidRange x) (m' : ∀ x ∈ l', MidRange x) {s s' : Nrm2 Float}
    (hs : NrmSc k s s') : NrmSc k (l.foldl nrm2Acc s) (l'.foldl nrm2Acc s') := by
  induction h generalizing s s' with
  | nil => exact hs
  | cons hx _ ih =>
    rw [List.foldl_cons, List.foldl_cons]
    exact ih (fun x hx => m x (List.mem_cons_of_mem _ hx)) (fun x hx => m' x (List.mem_cons_of_mem _ hx))
      (hs.step hx (m _ List.mem_cons_self) (m' _ List.mem_cons_self))

theorem nrm2Final_mid {s : Nrm2 Float} (h : up s.asml = .zero .positive ∧ s.abig = zero) : nrm2Final s = 1 * Float.sqrt s.amed := by
  have h1 : s.asml = 0 := up_inj h.1
  have h2 : s.abig = 0 := h.2
  have hz1 : Float.lt 0 (0 : Float) = false := by decide +kernel
  rw [nrm2Final_def, h1, h2, hz1]
  rfl

theorem finite_of_sqrt {x : Float} (h : (Float.sqrt x).isFinite = true) : x.isFinite = true := by
  rw [isFinite_up] at h ⊢
  rw [up_sqrt] at h
  cases hu : up x with
  | notANumber => rw [hu] at h; cases h
  | infinity s => rw [hu] at h; cases s <;> cases h
  | zero s => rfl
  | finite s m e hm => rfl

theorem ovf_le_1024 : ovf ≤ (2 : ℝ) ^ (512 + 512 : ℤ) := by
  rw [ovf, show (512 + 512 : ℤ) = 53 + 971 by norm_num, zpow_add₀ (by norm_num)]
  rw [show (2 : ℝ) ^ (971 : Int) = 2 ^ 971 from zpn 971]
  apply mul_le_mul_of_nonneg_right _ (by positivity)
  norm_num

theorem Fl.abs_ge {X Y G : ℝ} (h : Fl X Y) (hG : Grid G) (h1 : G ≤ |X|) : G ≤ |Y| := by
  rcases le_total 0 X with h0 | h0
  · rw [abs_of_nonneg h0] at h1
    exact (h.lower G hG h1).trans (le_abs_self _)
  · rw [abs_of_nonpos h0] at h1
    have := h.upper (-G) hG.neg (by linarith)
    exact le_trans (by linarith) (neg_le_abs _)

theorem Fl.abs_le {X Y G : ℝ} (h : Fl X Y) (hG : Grid G) (h1 : |X| ≤ G) : |Y| ≤ G := by
  have := _root_.abs_le.1 h1
  exact _root_.abs_le.2 ⟨h.lower (-G) hG.neg this.1, h.upper G hG this.2⟩

end F64

/-- **C104.** `dnrm2` of a vector scaled by `2^k` is the norm scaled by `2^k`, without any further error, if all elements of both vectors are zero or of a magnitude
between `2^-511` and `2^505` and both results are finite. -/
theorem C104_dnrm2 (n : Nat) (hn : 0 < n) (k : ℤ) (x xs : List Float) (incx : Int) (h : StrideOK n incx) (hl : x.length < 2 ^ 62) (hls : xs.length < 2 ^ 62)
    (hx : StrideFits n incx x.length) (hxs : StrideFits n incx xs.length)
    (hk : ∀ l (hl : l < n), Sc k (x[strideIx n incx l]'(hx l hl)) (xs[strideIx n incx l]'(hxs l hl)))
    (hm : ∀ l (hl : l < n), MidRange (x[strideIx n incx l]'(hx l hl)) ∧ MidRange (xs[strideIx n incx l]'(hxs l hl))) :
    ∃ r rs : Float, dnrm2 (n : Int) x incx = (pure r : R Float) ∧ dnrm2 (n : Int) xs incx = (pure rs : R Float) ∧
      (r.isFinite = true → rs.isFinite = true → Sc k r rs ∧ (toR r = 0 ∨ (2 : ℝ) ^ (-511 : ℤ) ≤ toR r) ∧ toR r ≤ 2 ^ (512 : ℤ)) := by
  refine ⟨_, _, dnrm2FA_fold hn h _ hl, dnrm2FA_fold hn h _ hls, ?_⟩
  have hg : ∀ (z : List Float) (hz : StrideFits n incx z.length), strided n incx z = (List.range n).pmap (fun l hl => z[strideIx n incx l]'(hz l hl)) fun l hl => List.mem_range.1 hl := by
    intro z hz
    unfold strided
    rw [← List.pmap_eq_map (p := fun l => l < n) (H := fun l hl => List.mem_range.1 hl)]
    apply List.pmap_congr_left
    intro l hl h1 h2
    rw [List.getD_eq_getElem?_getD, List.getElem?_eq_getElem (hz l h1)]
    rfl
  have hf : List.Forall₂ (Sc k) (strided n incx x) (strided n incx xs) := by
    rw [hg x hx, hg xs hxs]
    rw [List.forall₂_iff_get]
    refine ⟨by simp, fun i h1 h2 => ?_⟩
    simp only [List.get_eq_getElem, List.getElem_pmap, List.getElem_range]
    exact hk i (by simpa using h1)
  have hmem : ∀ (z : List Float) (hz : StrideFits n incx z.length), (∀ l (hl : l < n), MidRange (z[strideIx n incx l]'(hz l hl))) → ∀ e ∈ strided n incx z, MidRange e := by
    intro z hz hh e he
    rw [hg z hz, List.mem_pmap] at he
    obtain ⟨l, hl, rfl⟩ := he
    exact hh l (List.mem_range.1 hl)
  have inv := NrmSc.fold hf (hmem x hx fun l hl => (hm l hl).1) (hmem xs hxs fun l hl => (hm l hl).2) (s := ⟨true, zero, zero, zero⟩) (s' := ⟨true, zero, zero, zero⟩)
    ⟨⟨rfl, rfl⟩, ⟨rfl, rfl⟩, fun f f' => ⟨⟨f, f', by show toR (zero : Float) = toR (zero : Float) * 2 ^ (k + k); rw [toR_zero.2, zero_mul]⟩, Or.inl toR_zero.2⟩⟩
  show (nrm2Final (List.foldl nrm2Acc _ (strided n incx x))).isFinite = true → (nrm2Final (List.foldl nrm2Acc _ (strided n incx xs))).isFinite = true → _
  intro f f'
  change Sc k (nrm2Final (List.foldl nrm2Acc _ (strided n incx x))) (nrm2Final (List.foldl nrm2Acc _ (strided n incx xs))) ∧
    (toR (nrm2Final (List.foldl nrm2Acc _ (strided n incx x))) = 0 ∨ _ ≤ toR (nrm2Final (List.foldl nrm2Acc _ (strided n incx x)))) ∧
    toR (nrm2Final (List.foldl nrm2Acc _ (strided n incx x))) ≤ _
  generalize List.foldl nrm2Acc _ (strided n incx x) = s at *
  generalize List.foldl nrm2Acc _ (strided n incx xs) = s' at *
  obtain ⟨a, a', m⟩ := inv
  rw [nrm2Final_mid a, F64.one_mul'] at f ⊢
  rw [nrm2Final_mid a', F64.one_mul'] at f' ⊢
  have g := finite_of_sqrt f
  obtain ⟨h1, h2⟩ := m g (finite_of_sqrt f')
  have h0 : 0 ≤ toR s.amed := by
    rcases h2 with h2 | h2
    · exact h2.ge
    · exact (zp _).le.trans h2
  refine ⟨h1.sqrt h0, ?_, ?_⟩
  swap
  · refine ((sqrt_rounds _ g h0).fl f).upper _ (grid_pow _ (by norm_num)) ?_
    apply Real.sqrt_le_iff.2
    refine ⟨(zp _).le, ?_⟩
    rw [sq, ← zpow_add₀ (by norm_num)]
    exact (le_abs_self _).trans ((abs_toR_lt _).le.trans ovf_le_1024)
  have r := sqrt_fl g h0 f
  rcases h2 with h2 | h2
  · left
    rw [r, h2, Real.sqrt_zero, fl_zero]
  · right
    refine ((sqrt_rounds _ g h0).fl f).lower _ (grid_pow _ (by norm_num)) ?_
    apply Real.le_sqrt_of_sq_le
    rw [sq, ← zpow_add₀ (by norm_num)]
    exact h2

namespace F64

theorem lapy2_bounds {x y : Float} (hx : x.isFinite = true) (hy : y.isFinite = true) (h1 : (2 : ℝ) ^ (-511 : ℤ) ≤ toR y) (h2 : toR y ≤ 2 ^ (1000 : ℤ))
    (h3 : |toR x| ≤ 2 ^ (1000 : ℤ)) : (dlapy2 x y).isFinite = true ∧ (2 : ℝ) ^ (-511 : ℤ) ≤ toR (dlapy2 x y) ∧ |toR x| ≤ toR (dlapy2 x y) ∧ toR (dlapy2 x y) ≤ 2 ^ (1001 : ℤ) := by
  have y0 : 0 < toR y := lt_of_lt_of_le (zp _) h1
  have ya : |toR y| = toR y := abs_of_pos y0
  have e1 : (2 : ℝ) ^ (1001 : ℤ) = 2 * 2 ^ (1000 : ℤ) := by rw [show (1001 : ℤ) = 1 + 1000 by norm_num, zpow_add₀ (by norm_num), zpow_one]
  have hp := zp 1000
  rcases lapy2_fin hx hy with ⟨-, e⟩ | ⟨H, l, er, r⟩
  · have m := fmax_fin hx hy
    rw [e]
    refine ⟨m.1, ?_, ?_, ?_⟩ <;> rw [m.2]
    · exact le_trans (by rw [ya]; exact h1) (le_max_right _ _)
    · exact le_max_left _ _
    · rw [e1]
      generalize (2 : ℝ) ^ (1000 : ℤ) = w at *
      exact max_le (by linarith only [h3, hp]) (by rw [ya]; linarith only [h2, hp])
  · have hs : Real.sqrt (toR x ^ 2 + toR y ^ 2) ≤ 3 / 2 * 2 ^ (1000 : ℤ) := by
      apply Real.sqrt_le_iff.2
      refine ⟨by positivity, ?_⟩
      have a1 : toR x ^ 2 ≤ (2 ^ (1000 : ℤ)) ^ 2 := by rw [← sq_abs]; exact pow_le_pow_left₀ (abs_nonneg _) h3 2
      have a2 : toR y ^ 2 ≤ (2 ^ (1000 : ℤ)) ^ 2 := pow_le_pow_left₀ y0.le h2 2
      have a3 : (0 : ℝ) ≤ (2 ^ (1000 : ℤ)) ^ 2 := sq_nonneg _
      generalize (2 : ℝ) ^ (1000 : ℤ) = w at *
      nlinarith
    have s0 := Real.sqrt_nonneg (toR x ^ 2 + toR y ^ 2)
    have hH : H ≤ 2 ^ (1001 : ℤ) := by
      have b := (abs_le.1 er).2
      have c : 4 / 2 ^ 53 * Real.sqrt (toR x ^ 2 + toR y ^ 2) ≤ 1 / 8 * Real.sqrt (toR x ^ 2 + toR y ^ 2) := mul_le_mul_of_nonneg_right (by norm_num) s0
      rw [e1]
      generalize (2 : ℝ) ^ (1000 : ℤ) = w at *
      linarith only [b, c, hs]
    have hl : |toR y| ≤ H := (le_max_right _ _).trans l
    have hH0 : 0 ≤ H := (abs_nonneg _).trans hl
    have f : (dlapy2 x y).isFinite = true := r.finite (by rw [abs_of_nonneg hH0]; exact F64.lt_ovf hH (by norm_num))
    have fl := r.fl f
    refine ⟨f, ?_, ?_, fl.upper _ (grid_pow _ (by norm_num)) hH⟩
    · exact fl.lower _ (grid_pow _ (by norm_num)) (h1.trans (by rw [ya] at hl; exact hl))
    · refine fl.lower _ ?_ ((le_max_left _ _).trans l)
      rw [← abs_toR]
      exact grid_toR _

/-- What `dlarfg` computes from `alpha` and the norm of `x`, when that norm is neither tiny nor huge. -/
theorem reflect {alpha r : Float} (fa : alpha.isFinite = true) (fr : r.isFinite = true) (h1 : (2 : ℝ) ^ (-511 : ℤ) ≤ toR r) (h2 : toR r ≤ 2 ^ (1000 : ℤ))
    (h3 : |toR alpha| ≤ 2 ^ (1000 : ℤ)) :
    ∃ beta, beta = -Scalar.signum alpha * dlapy2 alpha r ∧ beta.isFinite = true ∧ toR beta = -toR (Scalar.signum alpha) * toR (dlapy2 alpha r) ∧
      (2 : ℝ) ^ (-511 : ℤ) ≤ |toR beta| ∧ (beta - alpha).isFinite = true ∧ (alpha - beta).isFinite = true ∧ ((beta - alpha) / beta).isFinite = true ∧
      1 ≤ |toR ((beta - alpha) / beta)| ∧ (2 : ℝ) ^ (-511 : ℤ) ≤ |toR (alpha - beta)| ∧ |toR (alpha - beta)| ≤ 2 ^ (1002 : ℤ) := by
  obtain ⟨df, d1, d2, d3⟩ := lapy2_bounds fa fr h1 h2 h3
  obtain ⟨s, hs, hsa, sf, sv⟩ := signum_fin fa
  have sv' : toR (Scalar.signum alpha) = s := sv
  have sf' : (Scalar.signum alpha).isFinite = true := sf
  have d0 : 0 < toR (dlapy2 alpha r) := lt_of_lt_of_le (zp _) d1
  obtain ⟨bf, bv⟩ : (-Scalar.signum alpha * dlapy2 alpha r).isFinite = true ∧ toR (-Scalar.signum alpha * dlapy2 alpha r) = -s * toR (dlapy2 alpha r) := by
    have hrr := mul_rounds (-Scalar.signum alpha) (dlapy2 alpha r) (by rw [neg_finite]; exact sf') df
    rw [neg_toR, sv'] at hrr
    refine hrr.exact ?_ ?_
    · rw [abs_mul, abs_neg, sign_abs hs, one_mul]; exact abs_toR_lt _
    · rcases hs with rfl | rfl
      · rw [neg_one_mul]; exact (grid_toR _).neg
      · rw [neg_neg, one_mul]; exact grid_toR _
  refine ⟨_, rfl, bf, by rw [bv, sv'], ?_⟩
  generalize -Scalar.signum alpha * dlapy2 alpha r = beta at *
  generalize dlapy2 alpha r = d at *
  have ab : |toR beta| = toR d := by rw [bv, abs_mul, abs_neg, sign_abs hs, one_mul, abs_of_pos d0]
  have sum : toR alpha - toR beta = s * (|toR alpha| + toR d) := by
    rw [← hsa, bv]
    rcases hs with rfl | rfl <;> ring
  have asum : |toR alpha - toR beta| = |toR alpha| + toR d := by
    rw [sum, abs_mul, sign_abs hs, one_mul, abs_of_nonneg (by have := abs_nonneg (toR alpha); linarith)]
  have asum' : |toR beta - toR alpha| = |toR alpha| + toR d := by rw [abs_sub_comm, asum]
  have a0 := abs_nonneg (toR alpha)
  have e1 : (2 : ℝ) ^ (1002 : ℤ) = 2 * 2 ^ (1001 : ℤ) := by rw [show (1002 : ℤ) = 1 + 1001 by norm_num, zpow_add₀ (by norm_num), zpow_one]
  have up : |toR alpha| + toR d ≤ 2 ^ (1002 : ℤ) := by rw [e1]; linarith only [d2, d3]
  have r1 := sub_rounds beta alpha bf fa
  have r2 := sub_rounds alpha beta fa bf
  have f1 := r1.finite (by rw [asum']; exact F64.lt_ovf up (by norm_num))
  have f2 := r2.finite (by rw [asum]; exact F64.lt_ovf up (by norm_num))
  have b0 : toR beta ≠ 0 := fun h => by rw [h, abs_zero] at ab; linarith
  have rq := div_rounds (beta - alpha) beta f1 bf b0
  have g2d : Grid (2 * toR d) := by
    have := grid_mul_pow (grid_toR d) 1
    rw [mul_comm]
    simpa using this
  have n1 : toR d ≤ |toR (beta - alpha)| := (r1.fl f1).abs_ge (grid_toR d) (by rw [asum']; linarith)
  have n2 : |toR (beta - alpha)| ≤ 2 * toR d := (r1.fl f1).abs_le g2d (by rw [asum']; linarith)
  have q1 : 1 ≤ |toR (beta - alpha) / toR beta| := by rw [abs_div, ab, le_div_iff₀ d0]; linarith
  have q2 : |toR (beta - alpha) / toR beta| ≤ 2 := by rw [abs_div, ab, div_le_iff₀ d0]; linarith
  have fq := rq.finite (le_ovf q2)
  have g1 : Grid (1 : ℝ) := by simpa using grid_nat (n := 1) (by norm_num)
  refine ⟨by rw [ab]; exact d1, f1, f2, fq, (rq.fl fq).abs_ge g1 q1, ?_, ?_⟩
  · exact (r2.fl f2).abs_ge (grid_pow _ (by norm_num)) (by rw [asum]; linarith)
  · exact (r2.fl f2).abs_le (grid_pow _ (by norm_num)) (by rw [asum]; exact up)

/-- The reciprocal used by `dlarfg`. -/
theorem recip_fin {a : Float} (f : a.isFinite = true) (h1 : (2 : ℝ) ^ (-511 : ℤ) ≤ |toR a|) (h2 : |toR a| ≤ 2 ^ (1002 : ℤ)) :
    ((1 : Float) / a).isFinite = true ∧ |toR (1 / a)| ≤ 2 ^ (511 : ℤ) ∧ NoUnderflow (toR 1 / toR a) ∧ toR a ≠ 0 := by
  have a0 : 0 < |toR a| := lt_of_lt_of_le (zp _) h1
  have an : toR a ≠ 0 := abs_pos.1 a0
  have r := div_rounds 1 a toR_one.1 f an
  have hu : |toR 1 / toR a| ≤ 2 ^ (511 : ℤ) := by
    rw [toR_one.2, abs_div, abs_one, div_le_iff₀ a0]
    have : (1 : ℝ) = 2 ^ (511 : ℤ) * 2 ^ (-511 : ℤ) := by rw [← zpow_add₀ (by norm_num)]; norm_num
    rw [this]
    exact mul_le_mul_of_nonneg_left h1 (zp _).le
  have fr := r.finite (F64.lt_ovf hu (by norm_num))
  refine ⟨fr, (r.fl fr).abs_le (grid_pow _ (by norm_num)) hu, Or.inr ?_, an⟩
  rw [toR_one.2, abs_div, abs_one, div_le_div_iff_of_pos_left one_pos (by positivity) a0]
  refine h2.trans ?_
  rw [← zpow_natCast]
  exact zpow_le_zpow_right₀ (by norm_num) (by norm_num)

theorem signum_scale {k : ℤ} {x y : Float} (h : Sc k x y) (hz : toR x = 0 → y = x) : toR (Scalar.signum y) = toR (Scalar.signum x) := by
  by_cases h0 : toR x = 0
  · rw [hz h0]
  · obtain ⟨s, hs, hsa, -, sv⟩ := signum_fin h.fx
    obtain ⟨t, ht, hta, -, tv⟩ := signum_fin h.fy
    show toR (F64.signum y) = toR (F64.signum x)
    rw [sv, tv]
    rw [h.eq, abs_mul, abs_of_pos (zp k), ← mul_assoc] at hta
    have := mul_right_cancel₀ (zp k).ne' hta
    rw [← hsa] at this
    exact mul_right_cancel₀ h0 this

end F64

theorem dscal_flv (n : Nat) (d : Float) (fd : d.isFinite = true) (x : List Float) (incx : Int) (hinc : 1 ≤ incx) (hox : n * incx.natAbs + 1 < 2 ^ 31)
    (hx : StrideFits n incx x.length) (h : ∀ l (hl : l < n), ((x[strideIx n incx l]'(hx l hl)) * d).isFinite = true) :
    ∃ x' : List Float, dscal (n : Int) d x incx = pure x' ∧ x'.length = x.length ∧
      ∀ l (hl : l < n), ∃ w, x'[strideIx n incx l]? = some w ∧ w.isFinite = true ∧ toR w = fl (toR (x[strideIx n incx l]'(hx l hl)) * toR d) := by
  cases ha : (d =ᶠ (one : Float))
  · obtain ⟨x', e, l, h', -⟩ := C12_dscal_any_length n d ha x incx hinc hox
    refine ⟨x', e, l, fun l hl => ⟨_, ?_, h l hl, mul_fl (h l hl)⟩⟩
    rw [h' l hl, List.getElem?_eq_getElem (hx l hl)]
    rfl
  · refine ⟨x, C13_dscal_noop _ _ _ _ (Or.inr (Or.inr ha)), rfl, fun l hl => ⟨_, List.getElem?_eq_getElem (hx l hl), (finite_of_mul (h l hl)).1, ?_⟩⟩
    rw [(eq_toR toR_one'.1 ha).2, toR_one'.2, mul_one, fl_grid (grid_toR _)]

/-- **C104.** `dlarfg` of a vector `(alpha, x)` scaled by `2^k`: `beta` is scaled by `2^k`, `tau` is the same bit for bit, and the vector `v` of the reflector is the
same (up to the sign of a zero), if all elements are zero or of a magnitude between `2^-511` and `2^505` in both calls, `alpha` is at most `2^1000` in magnitude, and the two norms of `x` are finite. -/
theorem C104_dlarfg (n : Nat) (hn : 1 ≤ n) (k : ℤ) (alpha alphas : Float) (ha : Sc k alpha alphas) (hz : toR alpha = 0 → alphas = alpha)
    (hb : |toR alpha| ≤ 2 ^ (1000 : ℤ)) (hbs : |toR alphas| ≤ 2 ^ (1000 : ℤ)) (x xs : List Float) (incx : Int) (hinc : 1 ≤ incx) (hox : n * incx.natAbs + 1 < 2 ^ 31)
    (hl : x.length < 2 ^ 62) (hls : xs.length < 2 ^ 62) (hx : StrideFits n incx x.length) (hxs : StrideFits n incx xs.length)
    (hk : ∀ l (hl : l < n), Sc k (x[strideIx n incx l]'(hx l hl)) (xs[strideIx n incx l]'(hxs l hl)))
    (hm : ∀ l (hl : l < n), MidRange (x[strideIx n incx l]'(hx l hl)) ∧ MidRange (xs[strideIx n incx l]'(hxs l hl)))
    (r rs : Float) (hr : dnrm2 (n : Int) x incx = (pure r : R Float)) (hrs : dnrm2 (n : Int) xs incx = (pure rs : R Float))
    (fr : r.isFinite = true) (frs : rs.isFinite = true) (h0 : (r == 0) = false) :
    ∃ (beta betas tau : Float) (v vs : List Float),
      dlarfg ((n : Int) + 1) alpha x incx = (pure (beta, v, tau) : R (Float × List Float × Float)) ∧
      dlarfg ((n : Int) + 1) alphas xs incx = (pure (betas, vs, tau) : R (Float × List Float × Float)) ∧
      Sc k beta betas ∧ v.length = x.length ∧ vs.length = xs.length ∧
      ∀ l < n, ∃ w ws, v[strideIx n incx l]? = some w ∧ vs[strideIx n incx l]? = some ws ∧ w.isFinite = true ∧ ws.isFinite = true ∧ toR ws = toR w := by
  have hn31 : n < 2 ^ 31 - 1 := by
    have : n * 1 ≤ n * incx.natAbs := Nat.mul_le_mul_left n (by omega)
    omega
  have hso : StrideOK n incx := by unfold StrideOK; omega
  have inj : ∀ {a b : Float}, (pure a : R Float) = pure b → a = b := fun h => by
    have := congrFun h .release
    injection this
  obtain ⟨q, qs, e, es, hq⟩ := C104_dnrm2 n hn k x xs incx hso hl hls hx hxs hk hm
  obtain ⟨qs', q', es', e', hq'⟩ := C104_dnrm2 n hn (-k) xs x incx hso hls hl hxs hx (fun l hl => (hk l hl).symm) fun l hl => (hm l hl).symm
  rw [hr] at e e'
  rw [hrs] at es es'
  cases inj e; cases inj e'; cases inj es; cases inj es'
  obtain ⟨sc, low, high⟩ := hq fr frs
  obtain ⟨-, lows, highs⟩ := hq' frs fr
  have r0 : toR r ≠ 0 := by
    intro hh
    have : Float.beq r 0 = true := by
      rw [beq_toXR, toXR_fin fr, hh, show toXR (0 : Float) = XR.fin 0 from (toXR_fin toR_zero.1).trans (congrArg XR.fin toR_zero.2)]
      simp [XR.beq]
    exact absurd (this.symm.trans h0) (by simp)
  have rs0 : toR rs ≠ 0 := by rw [sc.eq]; exact mul_ne_zero r0 (zp k).ne'
  have h0s : (rs == 0) = false := by
    cases hc : (rs == 0)
    · rfl
    · exact absurd ((eq_toR toR_zero.1 hc).2.trans toR_zero.2) rs0
  have low := low.resolve_left r0
  have lows := lows.resolve_left rs0
  have h512 : (2 : ℝ) ^ (512 : ℤ) ≤ 2 ^ (1000 : ℤ) := zpow_le_zpow_right₀ (by norm_num) (by norm_num)
  have db := lapy2_bounds ha.fx fr low (high.trans h512) hb
  have dbs := lapy2_bounds ha.fy frs lows (highs.trans h512) hbs
  obtain ⟨beta, eb, bf, bv, bl, g1, g2, g3, g4, g5, g6⟩ := reflect ha.fx fr low (high.trans h512) hb
  obtain ⟨betas, ebs, bfs, bvs, bls, g1s, g2s, g3s, g4s, g5s, g6s⟩ := reflect ha.fy frs lows (highs.trans h512) hbs
  have nu : ∀ {a r : Float}, (2 : ℝ) ^ (-511 : ℤ) ≤ toR r → NoUnderflow (max |toR a| |toR r|) := by
    intro a r h
    right
    rw [abs_of_nonneg (le_max_of_le_left (abs_nonneg _))]
    refine le_trans ?_ (h.trans ((le_abs_self _).trans (le_max_right _ _)))
    rw [one_div, ← zpow_natCast, ← zpow_neg]
    exact zpow_le_zpow_right₀ (by norm_num) (by norm_num)
  have scd := C103_dlapy2 k alpha r alphas rs ha sc (nu low) (nu lows) db.1 dbs.1
  have scb : Sc k beta betas := ⟨bf, bfs, by rw [bv, bvs, signum_scale ha hz, scd.eq]; ring⟩
  have sc1 := scb.sub ha g1 g1s
  have sc2 := ha.sub scb g2 g2s
  have b0 : toR beta ≠ 0 := abs_pos.1 (lt_of_lt_of_le (zp _) bl)
  have b0s : toR betas ≠ 0 := abs_pos.1 (lt_of_lt_of_le (zp _) bls)
  have tau : (betas - alphas) / betas = (beta - alpha) / beta := by
    refine toR_inj ?_ g3s g3 (abs_pos.1 (lt_of_lt_of_le one_pos g4s))
    rw [div_fl g1s bfs b0s g3s, div_fl g1 bf b0 g3, sc1.eq, scb.eq, mul_div_mul_right _ _ (zp k).ne']
  obtain ⟨c1, c2, c3, c4⟩ := recip_fin g2 g5 g6
  obtain ⟨c1s, c2s, c3s, c4s⟩ := recip_fin g2s g5s g6s
  have scr := (Sc.refl toR_one.1).div sc2 c4 c3 c3s c1 c1s
  have pf : ∀ {v d : Float}, MidRange v → d.isFinite = true → |toR d| ≤ 2 ^ (511 : ℤ) → (v * d).isFinite = true := by
    intro v d hv fd hd
    refine (mul_rounds v d hv.1 fd).finite (F64.lt_ovf (a := 505 + 511) ?_ (by norm_num))
    rw [abs_mul, zpow_add₀ (by norm_num)]
    refine mul_le_mul ?_ hd (abs_nonneg _) (zp _).le
    rcases hv.2 with h | h
    · rw [h, abs_zero]; exact (zp _).le
    · exact h.2
  obtain ⟨v, ev, lv, hv⟩ := dscal_flv n (1 / (alpha - beta)) c1 x incx hinc hox hx fun l hl => pf (hm l hl).1 c1 c2
  obtain ⟨vs, evs, lvs, hvs⟩ := dscal_flv n (1 / (alphas - betas)) c1s xs incx hinc hox hxs fun l hl => pf (hm l hl).2 c1s c2s
  have hge : ∀ {b : Float}, b.isFinite = true → (2 : ℝ) ^ (-511 : ℤ) ≤ |toR b| → (Scalar.abs b <ᶠ (dlamch 'S' / dlamch 'E' : Float)) = false := by
    intro b fb hb
    obtain ⟨smf, smv⟩ := safmin_f64
    cases hc : (Scalar.abs b <ᶠ (dlamch 'S' / dlamch 'E' : Float))
    · rfl
    · have := (lt_iff (abs_fin fb) smf).1 hc
      rw [smv, abs_toR] at this
      have h3 : (2 : ℝ) ^ (-969 : ℤ) ≤ 2 ^ (-511 : ℤ) := zpow_le_zpow_right₀ (by norm_num) (by norm_num)
      exact absurd (hb.trans (this.le.trans h3)) (by
        intro _
        exact absurd (lt_of_le_of_lt hb this) (not_lt.2 h3))
  refine ⟨beta, betas, (beta - alpha) / beta, v, vs, ?_, ?_, scb, lv, lvs, ?_⟩
  · rw [larfg_unfold hn hn31 alpha x incx hr h0, ← eb, if_neg (by rw [hge bf bl]; simp)]
    unfold dlarfgFinish
    rw [isub_ok (by unfold FitsI32; omega), pure_bind, show (n : Int) + 1 - 1 = n by omega]
    show (dscal (n : Int) (1 / (alpha - beta)) x incx >>= _ : R _) = _
    rw [ev, pure_bind]
    rfl
  · rw [larfg_unfold hn hn31 alphas xs incx hrs h0s, ← ebs, if_neg (by rw [hge bfs bls]; simp)]
    unfold dlarfgFinish
    rw [isub_ok (by unfold FitsI32; omega), pure_bind, show (n : Int) + 1 - 1 = n by omega]
    show (dscal (n : Int) (1 / (alphas - betas)) xs incx >>= _ : R _) = _
    rw [evs, pure_bind, tau]
    rfl
  · intro l hl
    obtain ⟨w, w1, w2, w3⟩ := hv l hl
    obtain ⟨ws, w1s, w2s, w3s⟩ := hvs l hl
    refine ⟨w, ws, w1, w1s, w2, w2s, ?_⟩
    rw [w3, w3s, (hk l hl).eq, scr.eq, zero_sub, zpow_neg]
    congr 1
    have := (zp k).ne'
    field_simp

/-- `dnrm2` of `(0.1, 0.7)` and of `(0.4, 2.8)`. -/
theorem C104_dnrm2_example (pr : Profile) :
    (dnrm2 (F := Float) 2 ([0.1, 0.7] : List Float) 1 pr).val?.map (· * 4) = (dnrm2 (F := Float) 2 ([0.1 * 4, 0.7 * 4] : List Float) 1 pr).val? := by
  cases pr <;> decide +kernel

/-- `dlarfg` of `(0.3; 0.1, 0.7)` and of that vector divided by `8`: `beta` is divided by `8`, the reflector is the same. -/
theorem C104_dlarfg_example (pr : Profile) :
    (dlarfg (F := Float) 3 0.3 ([0.1, 0.7] : List Float) 1 pr).val?.map (fun p => (p.1 / 8, p.2.1, p.2.2)) =
      (dlarfg (F := Float) 3 (0.3 / 8) ([0.1 / 8, 0.7 / 8] : List Float) 1 pr).val? := by
  cases pr <;> decide +kernel

/-- Outside the range the norm need not follow exactly: scaled by `2^-511`, the first element of `(0.1, 1.5)` goes to the accumulator of small numbers. -/
theorem C104_range (pr : Profile) :
    (dnrm2 (F := Float) 2 ([0.1, 1.5] : List Float) 1 pr).val?.map (· * Float.ofBits 0x2000000000000000) ≠
      (dnrm2 (F := Float) 2 ([0.1 * Float.ofBits 0x2000000000000000, 1.5 * Float.ofBits 0x2000000000000000] : List Float) 1 pr).val? := by
  cases pr <;> decide +kernel

end Verif
