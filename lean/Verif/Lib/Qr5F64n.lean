import Verif.Lib.Qr5F64m

/-!
# The sweeps of `dlaqr5` with accumulation on binary64
-/

namespace Verif
open F64 Scalar Spec

section
variable {lo hi kt kb k : ℤ} {H : ℤ → ℤ → ℝ} {sm ε D D' B P m ρ : ℝ} {X : ℤ → ℝ} {E1 : ℝ} {T Zq : ℤ → ℤ → ℝ}

theorem Con5.weaken (h : Con5 lo hi kt kb H sm ε D B P m ρ) (h0 : 0 ≤ D') (h1 : D' ≤ D) : Con5 lo hi kt kb H sm ε D' B P m ρ :=
  ⟨h.hε, (by have := h.hB; linarith), h.hBb, h.nb, h.hP, h.sm0, h.B0, h0, h.nc⟩

theorem Go5.weaken {s : Qr5S Float} {a1 b1 a2 b2 : Float} {M : ℝ} (h : Go5 lo hi kt kb H s a1 b1 a2 b2 sm ε D B M m ρ) (h0 : 0 ≤ D') (h1 : D' ≤ D) :
    Go5 lo hi kt kb H s a1 b1 a2 b2 sm ε D' B M m ρ := ⟨h.con.weaken h0 h1, h.sh, h.M0, h.hP, h.unr⟩

theorem RealF.mono (h : RealF lo hi kt kb H ε D X E1 k T Zq) (h1 : D ≤ D') : RealF lo hi kt kb H ε D' X E1 k T Zq :=
  ⟨h.shape, h.sub, h.track.mono (by linarith), h.out, h.first, h.init⟩

theorem RealF.norm (h : RealF lo hi kt kb H ε D X E1 k T Zq) (hC : Con5 lo hi kt kb H sm ε D B P m ρ) (hk : k < kb) : fro (block lo hi T) ≤ B := by
  refine h.track.norm.trans (le_trans ?_ hC.hB)
  refine add_le_add_right (add_le_add_left (mul_le_mul_of_nonneg_right ?_ hC.eps0) _) _
  exact_mod_cast (by omega : k - kt + 1 ≤ kb - kt)

end

theorem ZInvF.mono {p : Qr5P Float} {r cz : Nat} {Z0 : ℤ → ℤ → ℝ} {z0 z : FA Float} {δ δ' : ℝ} {Zq : ℤ → ℤ → ℝ} (h : ZInvF p r cz Z0 z0 δ Zq z) (hd : δ ≤ δ') :
    ZInvF p r cz Z0 z0 δ' Zq z := by
  unfold ZInvF at h ⊢
  split at h
  · rename_i hw
    rw [if_pos hw]
    obtain ⟨zg, h1, h2, h3⟩ := h
    exact ⟨zg, h1, fun a x1 x2 => (h2 a x1 x2).mono hd, h3⟩
  · rename_i hw
    rw [if_neg hw]
    exact h

theorem dacc_nonneg {lo hi : ℤ} {B : ℝ} (h : 0 ≤ B) : 0 ≤ dacc lo hi B := by
  unfold dacc
  have h1 : 0 ≤ 35800 * ur * B := mul_nonneg (by linarith [ur_pos]) h
  have h2 : 0 ≤ ((hi - lo + 1).toNat : ℝ) * (200 * eta) := mul_nonneg (Nat.cast_nonneg _) (by linarith [eta_pos])
  linarith

theorem dz5_nonneg {C : ℝ} (h : 0 ≤ C) : 0 ≤ dz5 C := by
  unfold dz5
  have h1 := mul_nonneg ur_pos.le h
  linarith [eta_pos]

/-- Between two sweeps. -/
structure BetF (p : Qr5P Float) (r c ldv cv : Nat) (rest : List Float) (lo hi : ℤ) (H : ℤ → ℤ → ℝ) (ε ρ : ℝ) (X : ℤ → ℝ) (E1 : ℝ) (ru cu rv cwv rh cwh cz : Nat)
    (g0 : ℤ → ℤ → Float) (Z0 : ℤ → ℤ → ℝ) (s0 : Qr5S Float) (D δ : ℝ) (k : ℤ) (T Zq : ℤ → ℤ → ℝ) (g : ℤ → ℤ → Float) (t v2 v3 : Float) (s : Qr5S Float) : Prop where
  arr : ArrF r c ldv cv rest lo hi p.ktop p.kbot k H ρ g0 s.h s.v T g t v2 v3
  real : RealF lo hi p.ktop p.kbot H ε D X E1 k T Zq
  orth : (block p.ktop p.kbot Zq).transpose * block p.ktop p.kbot Zq = 1
  z : ZInvF p r cz Z0 s0.z δ Zq s.z
  work : Work5 ru cu rv cwv rh cwh s
  sr : s.sr = s0.sr
  si : s.si = s0.si

section
variable {p : Qr5P Float} {r c ldv cv : Nat} {rest : List Float} {lo hi : ℤ} {H : ℤ → ℤ → ℝ} {sm ε D Dm B M m ρ δ δm C : ℝ} {X : ℤ → ℝ} {ru cu cz rv cwv rh cwh : Nat}
  {incol k : ℤ} {s0 s : Qr5S Float} {T Zq : ℤ → ℤ → ℝ} {g : ℤ → ℤ → Float} {t v2 v3 : Float} {a1 b1 a2 b2 : Float} {g0 : ℤ → ℤ → Float} {Z0 : ℤ → ℤ → ℝ}

/-- One sweep with the products. -/
theorem incol_S (hX : X = startX p.ktop p.kbot H (toR a1) (toR b1) (toR a2) (toR b2)) (hd : Dim5F p r c ldv lo hi sm)
    (ha : Acc5 p r cz ru cu rv cwv rh cwh lo hi) (h0 : Go5 lo hi p.ktop p.kbot H s0 a1 b1 a2 b2 sm ε D B M m ρ)
    (h : BetF p r c ldv cv rest lo hi H ε ρ X (err5 (B + M)) ru cu rv cwv rh cwh cz g0 Z0 s0 D δ incol T Zq g t v2 v3 s)
    (hC : p.wantz = true → 1024 * C ≤ big ∧ ∀ a, p.iloz ≤ a → a ≤ p.ihiz → fro (colsM p.ktop p.kbot (fun (_ : Unit) => Z0 a)) + δ ≤ C)
    (k1 : p.ktop - 1 ≤ incol) (k2 : incol + 2 ≤ p.kbot) :
    Tot (qr5Incol p s incol) fun s' => ∃ T Zq g t v2 v3,
      BetF p r c ldv cv rest lo hi H ε ρ X (err5 (B + M)) ru cu rv cwv rh cwh cz g0 Z0 s0 (D + dacc lo hi B) (δ + dz5 C) (min (incol + 2) (p.kbot - 1)) T Zq g t v2 v3 s' := by
  have l1 := hd.lok; have l2 := hd.hik; have l3 := hd.fits.lo1
  have hCon := h0.con
  have hkdu : p.kdu = 4 := by unfold Qr5P.kdu; rw [hd.nb]; norm_num
  have hus := h.work.u.small
  have hr4 : (4 : ℤ) ≤ ru := by exact_mod_cast ha.ru4
  have hT0 := h.real.norm hCon (by omega)
  obtain ⟨u1, eu1, iu1⟩ := dlasetFA_ok (uplo := 'A') (m := 4) (n := 4) (zero : Float) one h.work.u.rows (by have := ha.ru4; omega)
    (by have := ha.ru4; simp [touchedRows]; omega) (by rw [h.work.u.length]; exact hus)
    (lt_of_le_of_lt (Nat.mul_le_mul_left _ ha.cu4) hus)
  rw [h.work.u.cols, h.work.u.length] at iu1
  have eu2 : dlaset (F := Float) 'A' 4 4 zero one s.u = pure u1 := by
    show (dlasetFA 'A' 4 4 zero one s.u >>= _) = _
    rw [show (dlasetFA 'A' 4 4 (zero : Float) one s.u) = pure u1 from eu1, pure_bind]
    rfl
  unfold qr5Incol
  dsimp only
  rw [ha.acc, hkdu, hd.nb]
  simp only [if_true]
  rw [eu2, pure_bind]
  set s1 : Qr5S Float := { s with u := u1 } with hs1
  have h01 : Go5 lo hi p.ktop p.kbot H s1 a1 b1 a2 b2 sm ε D B M m ρ := h0.of h.sr h.si
  have hlate : ∀ a b, ¬ (jtop5 p incol ≤ a ∧ b ≤ jbot5 p incol) → ¬ (p.ktop ≤ incol ∧ incol + 3 ≤ p.kbot ∧ a = incol + 3 ∧ incol ≤ b ∧ b ≤ incol + 2) := by
    intro a b hn
    dsimp only [jtop5, jbot5] at hn
    omega
  have hSb : ∀ a b, lo ≤ a → a < jtop5 p incol → lo ≤ b → b ≤ hi → Bn (g a b) B := by
    intro a b x1 x2 y1 y2
    have x3 : a ≤ hi := by dsimp only [jtop5] at x2; omega
    refine ⟨h.arr.fin a b x1 x3 y1 y2, ?_⟩
    rw [h.arr.on a b x1 x3 y1 y2 (hlate a b (by omega))]
    exact (fro_entry (block lo hi T) ⟨a, Finset.mem_Icc.2 ⟨x1, x3⟩⟩ ⟨b, Finset.mem_Icc.2 ⟨y1, y2⟩⟩).trans hT0
  have hstart : ∃ T' Zq' gv g' t v2 v3 rs, SwF p r c ldv cv rest lo hi H ε D ρ X (err5 (B + M)) incol Zq g s1 incol T' Zq' gv g' t v2 v3 rs s1 ∧
      UOn ru cu incol (kone5 p incol) p.kbot rs s1.u := by
    refine ⟨T, Zq, g, g, t, v2, v3, [], ⟨?_, h.real, h.arr.hm, ⟨fun _ _ _ _ => rfl, fun _ _ _ => rfl⟩, fun r hr => by simp at hr, by simp, fun _ _ _ _ => rfl,
      fun _ _ _ _ => rfl, rfl, by rw [hs1]⟩, _, iu1, ?_⟩
    · exact ⟨faOf_is2 r c g, h.arr.vm, fun _ _ _ => rfl, h.arr.fin, h.arr.on, h.arr.late⟩
    · intro i j x1 x2 y1 y2
      unfold kone5 at x1
      beta_reduce
      unfold applyF unitF
      simp only [List.foldl_nil]
      by_cases hij : i = j
      · rw [if_pos (by simp; omega), if_pos (by omega)]
      · rw [if_neg (by omega), if_pos (by simp [uploLo, uploHi]; omega), if_neg (by omega)]
  refine Tot.bind (P := fun s' => ∃ T' Zq' gv g' t v2 v3 rs, SwF p r c ldv cv rest lo hi H ε D ρ X (err5 (B + M)) incol Zq g s1
    (min (incol + 2) (p.kbot - 1)) T' Zq' gv g' t v2 v3 rs s' ∧ UOn ru cu incol (kone5 p incol) p.kbot rs s'.u) ?_ ?_
  · have := Tot.forUp (P := fun k s' => ∃ T' Zq' gv g' t v2 v3 rs, SwF p r c ldv cv rest lo hi H ε D ρ X (err5 (B + M)) incol Zq g s1
      k T' Zq' gv g' t v2 v3 rs s' ∧ UOn ru cu incol (kone5 p incol) p.kbot rs s'.u) (f := qr5Krcol p incol (max p.ktop incol)) (lo := incol)
      (hi := min (incol + 2 * 1 - 1) (p.kbot - 2)) (by omega) hstart
      (fun k s' q1 q2 h' => by
        obtain ⟨T', Zq', gv, g', t, v2, v3, rs', h', hU⟩ := h'
        exact krcol_S hX hd ha.acc h01 hSb hU ha.ru4 ha.cu4 hus h' k1 q1 (by omega) (by omega))
    rwa [show min (incol + 2 * 1 - 1) (p.kbot - 2) + 1 = min (incol + 2) (p.kbot - 1) by omega] at this
  · rintro s2 ⟨T', Zq', gv, g', t', v2', v3', rs', h2, hU⟩
    refine (accumulate_F hd ha hCon.B0 hCon.hBb h2 hU hus h.work.wv h.work.wh k1 k2 (by omega) (by omega) ?_ hT0 h.arr.out h.z h.orth hC).mono ?_
    · intro a b x1 x2 y1 y2 hn
      exact ⟨h.arr.fin a b x1 x2 y1 y2, h.arr.on a b x1 x2 y1 y2 (hlate a b hn)⟩
    · rintro s3 ⟨hw, e1, e2, hz, hq, T3, g3, hA, hR⟩
      exact ⟨T3, Zq', g3, t', v2', v3', hA, hR, hq, hz, hw, e1.trans h.sr, e2.trans h.si⟩

/-- All the sweeps. -/
theorem sweeps_S (hX : X = startX p.ktop p.kbot H (toR a1) (toR b1) (toR a2) (toR b2)) (hd : Dim5F p r c ldv lo hi sm)
    (ha : Acc5 p r cz ru cu rv cwv rh cwh lo hi) (h0 : Go5 lo hi p.ktop p.kbot H s0 a1 b1 a2 b2 sm ε Dm B M m ρ)
    (hDm : Dm = (p.kbot - p.ktop + 1 : ℤ) * (dacc lo hi B / 2)) (C0 : 0 ≤ C) (hδm : δm = (p.kbot - p.ktop + 1 : ℤ) * (dz5 C / 2))
    (hC : p.wantz = true → 1024 * C ≤ big ∧ ∀ a, p.iloz ≤ a → a ≤ p.ihiz → fro (colsM p.ktop p.kbot (fun (_ : Unit) => Z0 a)) + δm ≤ C)
    (h : ∃ T Zq g t v2 v3, BetF p r c ldv cv rest lo hi H ε ρ X (err5 (B + M)) ru cu rv cwv rh cwh cz g0 Z0 s0 0 0 (p.ktop - 1) T Zq g t v2 v3 s) :
    Tot (forStep (p.ktop - 2 * p.nbmps + 1) (p.kbot - 2) (2 * asUsize p.nbmps) s (qr5Incol p)) fun s' => ∃ T Zq g t v2 v3,
      BetF p r c ldv cv rest lo hi H ε ρ X (err5 (B + M)) ru cu rv cwv rh cwh cz g0 Z0 s0 Dm δm (p.kbot - 1) T Zq g t v2 v3 s' := by
  have hlt := hd.lt
  have d0 := dacc_nonneg (lo := lo) (hi := hi) h0.con.B0
  have z0 := dz5_nonneg C0
  rw [hd.nb, show p.ktop - 2 * 1 + 1 = p.ktop - 1 by ring, show 2 * asUsize 1 = 2 from rfl]
  have mono : ∀ (x : ℝ), 0 ≤ x → ∀ i : ℤ, p.ktop - 1 ≤ i → i ≤ p.kbot → 0 ≤ ((i - p.ktop + 1 : ℤ) : ℝ) * (x / 2) ∧
      ((i - p.ktop + 1 : ℤ) : ℝ) * (x / 2) ≤ ((p.kbot - p.ktop + 1 : ℤ) : ℝ) * (x / 2) := by
    intro x hx i i1 i2
    refine ⟨mul_nonneg (by exact_mod_cast (by omega : 0 ≤ i - p.ktop + 1)) (by linarith), mul_le_mul_of_nonneg_right ?_ (by linarith)⟩
    exact_mod_cast (by omega : i - p.ktop + 1 ≤ p.kbot - p.ktop + 1)
  refine (Tot.forStep (P := fun i s => i ≤ p.kbot ∧ ∃ T Zq g t v2 v3, BetF p r c ldv cv rest lo hi H ε ρ X (err5 (B + M)) ru cu rv cwv rh cwh cz g0 Z0 s0
      ((i - p.ktop + 1 : ℤ) * (dacc lo hi B / 2)) ((i - p.ktop + 1 : ℤ) * (dz5 C / 2)) (min i (p.kbot - 1)) T Zq g t v2 v3 s) (by norm_num)
    ⟨by omega, by
      rw [show min (p.ktop - 1) (p.kbot - 1) = p.ktop - 1 by omega, show p.ktop - 1 - p.ktop + 1 = 0 by ring]
      push_cast
      rw [zero_mul, zero_mul]
      exact h⟩ fun i s i1 i2 hi' => ?_).mono ?_
  · rw [show min i (p.kbot - 1) = i by omega] at hi'
    obtain ⟨i3, T, Zq, g, t, v2, v3, hi'⟩ := hi'
    obtain ⟨q1, q2⟩ := mono _ d0 i i1 i3
    obtain ⟨-, q4⟩ := mono _ z0 i i1 i3
    refine (incol_S hX hd ha (h0.weaken q1 (by rw [hDm]; exact q2)) hi' (C := C) (fun hw => ?_) i1 (by omega)).mono fun s' hs => ⟨by push_cast; omega, ?_⟩
    · obtain ⟨c1, c2⟩ := hC hw
      refine ⟨c1, fun a x1 x2 => le_trans ?_ (c2 a x1 x2)⟩
      rw [hδm]
      linarith
    · have e : ∀ x : ℝ, ((i - p.ktop + 1 : ℤ) : ℝ) * (x / 2) + x = ((i + (2 : ℕ) - p.ktop + 1 : ℤ) : ℝ) * (x / 2) := by
        intro x
        push_cast
        ring
      rw [e, e] at hs
      exact hs
  · rintro s1 ⟨i, i1, i2, i3, T, Zq, g, t, v2, v3, h⟩
    rw [show min i (p.kbot - 1) = p.kbot - 1 by omega] at h
    refine ⟨T, Zq, g, t, v2, v3, h.arr, h.real.mono ?_, h.orth, h.z.mono ?_, h.work, h.sr, h.si⟩
    · rw [hDm]
      exact (mono _ d0 i i2 i3).2
    · rw [hδm]
      exact (mono _ z0 i i2 i3).2

end

end Verif
