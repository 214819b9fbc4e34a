import Verif.Lib.Qr5Pad

/-!
# `dlaqr5` with two shifts and `z`, without accumulation, in exact arithmetic
-/

namespace Verif
open Scalar XR

/-- No accumulation, update of `z`. -/
structure NoAccZ (p : Qr5P XR) (rz cz : Nat) (lo hi : ℤ) : Prop where
  acc : p.accum = false
  wz : p.wantz = true
  jt : (if p.wantt then 1 else p.ktop) = lo
  jb : (if p.wantt then p.n else p.kbot) = hi
  i0 : 1 ≤ p.iloz
  i1 : p.ihiz ≤ rz
  kc : p.kbot ≤ cz
  size : rz * (cz + 1) < 2 ^ 31

/-- Before step `k`: the reflectors `rs` have been applied to `z`. -/
structure InvZ (p : Qr5P XR) (r c ldv cv rz cz : Nat) (rest : List ℝ) (lo hi : ℤ) (H : ℤ → ℤ → ℝ) (B ε : ℝ) (X : ℤ → ℝ) (g0 gz : ℤ → ℤ → XR)
    (Z0 : ℤ → ℤ → ℝ) (w0 : ℝ) (s0 : Qr5S XR) (k : ℤ) (s : Qr5S XR) (T Zq : ℤ → ℤ → ℝ) (g : ℤ → ℤ → XR) (t v2 v3 : ℝ) (rs : List Rfl5) : Prop where
  arr : Arr r c ldv cv rest lo hi lo hi p.ktop p.kbot k g0 s.h s.v T g t v2 v3
  real : Real5 lo hi p.ktop p.kbot H B ε X k T Zq
  all : AllIn p.ktop p.kbot rs
  zq : Zq = applyR rs idT
  z : ZOn rz cz p.iloz p.ihiz gz (applyR rs Z0) s.z
  start : k = p.ktop - 1 → v3 = w0
  later : p.ktop ≤ k → v3 ≠ 0
  st : s = { s0 with h := s.h, v := s.v, z := s.z }

/-- After the last step: `M` is what `z` should hold. -/
structure FinZ (p : Qr5P XR) (r c ldv cv rz cz : Nat) (rest : List ℝ) (lo hi : ℤ) (H : ℤ → ℤ → ℝ) (B ε : ℝ) (X : ℤ → ℝ) (g0 gz : ℤ → ℤ → XR)
    (Z0 : ℤ → ℤ → ℝ) (w0 : ℝ) (s : Qr5S XR) (T Zq : ℤ → ℤ → ℝ) (g : ℤ → ℤ → XR) (t v2 v3 : ℝ) (rs : List Rfl5) : Prop where
  arr : Arr r c ldv cv rest lo hi lo hi p.ktop p.kbot (p.kbot - 1) g0 s.h s.v T g t v2 v3
  real : Real5 lo hi p.ktop p.kbot H B ε X (p.kbot - 1) T Zq
  all : AllIn p.ktop p.kbot rs
  zq : Zq = applyR rs idT
  refl : Refl v2 0 t
  z : ZOn rz cz p.iloz p.ihiz gz (houseR (p.kbot - 3) (1 / 2 ^ 1022) (1 / 2 ^ 1022) (1 / 2 ^ 1022)
    (pad cz (houseR (p.kbot - 1) v2 v3 t (pad cz (applyR rs Z0))))) s.z
  start : p.kbot = p.ktop + 1 → v3 = w0
  later : p.ktop + 2 ≤ p.kbot → v3 ≠ 0

section
variable {p : Qr5P XR} {r c ldv cv rz cz : Nat} {rest : List ℝ} {lo hi k incol : ℤ} {g0 gz : ℤ → ℤ → XR} {H Z0 : ℤ → ℤ → ℝ}
  {u sm B ε a1 b1 a2 b2 w0 : ℝ} {s s0 : Qr5S XR}

theorem fd1 (f : Qr5S XR → ℤ → R (Qr5S XR)) (s : Qr5S XR) : forDown 1 1 s f = f s 1 := by
  rw [forDown_cons (le_refl _)]
  simp

theorem fd2 (f : Qr5S XR → ℤ → R (Qr5S XR)) (s : Qr5S XR) : forDown 0 1 s f = f s 1 >>= fun s => f s 0 := by
  rw [forDown_cons (by norm_num)]
  congr 1
  funext s
  rw [show (1 : ℤ) - 1 = 0 by norm_num, forDown_cons (le_refl _)]
  simp

/-- A step before the last. -/
theorem krcol_z (hd : Dim5 p r c ldv lo hi lo hi u sm B) (hn : NoAccZ p rz cz lo hi) (hε : 6 * u * B + sm ≤ ε) (h0 : Start5 p.ktop p.kbot H s0 a1 b1 a2 b2)
    {T Zq g t v2 v3 rs} (hI : InvZ p r c ldv cv rz cz rest lo hi H B ε (startX p.ktop p.kbot H a1 b1 a2 b2) g0 gz Z0 w0 s0 k s T Zq g t v2 v3 rs)
    (k1 : p.ktop - 1 ≤ k) (k3 : k + 3 ≤ p.kbot) :
    Tot (qr5Krcol p incol lo s k) fun s' => ∃ T Zq g t v2 v3 rs,
      InvZ p r c ldv cv rz cz rest lo hi H B ε (startX p.ktop p.kbot H a1 b1 a2 b2) g0 gz Z0 w0 s0 (k + 1) s' T Zq g t v2 v3 rs := by
  have h1 : Start5 p.ktop p.kbot H s a1 b1 a2 b2 := h0.of (by rw [hI.st]) (by rw [hI.st])
  have l1 := hd.lok; have l2 := hd.hik; have l3 := hd.fits.lo1; have l4 := hn.kc
  unfold qr5Krcol
  have e1 : max 1 ((p.ktop - k).tdiv 2 + 1) = 1 := by
    have := tdiv_le_zero (show p.ktop - k ≤ 1 by omega)
    omega
  have e2 : min 1 ((p.kbot - k - 1).tdiv 2) = 1 := by
    rw [Int.tdiv_eq_ediv_of_nonneg (by omega)]
    omega
  dsimp only
  rw [hn.acc, hn.wz, hd.nb, e1, e2, if_neg (by omega), pure_bind]
  simp only [Bool.false_eq_true, if_false, if_true, hn.jb, fd1]
  rw [← bind_assoc]
  refine Tot.bind (bulge_ok hd hε h1 hI.arr hI.real k1 k3 (by omega) (by omega)) ?_
  rintro s2 ⟨v2', v3', t', hnz, hw, -, es, cut, g', -, hA, hR⟩
  obtain ⟨q1, q2, q3⟩ := hA.vm.get
  unfold qr5AccZ
  dsimp only
  rw [q1, q2, q3, pure_bind, pure_bind, pure_bind]
  have ez : s2.z = s.z := by rw [es]
  obtain ⟨z', e, hz⟩ := hI.z.refl3_in (q := k + 1) hn.size (by omega) hn.i0 hn.i1 (by omega) (by omega) v2' v3' t'
  rw [show k + 2 * (1 - 1) + 1 = k + 1 by ring, show k + 2 * (1 - 1) + 2 = k + 1 + 1 by ring, show k + 2 * (1 - 1) + 3 = k + 1 + 2 by ring, ez, e, pure_bind]
  refine Tot.pure ⟨_, _, _, _, _, _, rs ++ [⟨k + 1, v2', v3', t'⟩], hA, hR, hI.all.snoc ⟨by dsimp only; omega, by dsimp only; omega, Or.inl (by dsimp only; omega)⟩, ?_, ?_,
    fun h => by omega, fun _ => hnz.1, ?_⟩
  · rw [applyR_snoc, hI.zq]
  · rw [applyR_snoc]
    exact hz
  · rw [es]
    conv_lhs => rw [hI.st]

/-- The last step. -/
theorem krcol_zlast (hd : Dim5 p r c ldv lo hi lo hi u sm B) (hn : NoAccZ p rz cz lo hi) (hε : 6 * u * B + sm ≤ ε) (h0 : Start5 p.ktop p.kbot H s0 a1 b1 a2 b2)
    {T Zq g t v2 v3 rs} (hI : InvZ p r c ldv cv rz cz rest lo hi H B ε (startX p.ktop p.kbot H a1 b1 a2 b2) g0 gz Z0 w0 s0 k s T Zq g t v2 v3 rs)
    (k1 : p.ktop - 1 ≤ k) (k3 : k + 2 = p.kbot) :
    Tot (qr5Krcol p incol lo s k) fun s' => ∃ T Zq g t v2 v3 rs,
      FinZ p r c ldv cv rz cz rest lo hi H B ε (startX p.ktop p.kbot H a1 b1 a2 b2) g0 gz Z0 w0 s' T Zq g t v2 v3 rs := by
  have h1 : Start5 p.ktop p.kbot H s a1 b1 a2 b2 := h0.of (by rw [hI.st]) (by rw [hI.st])
  have l1 := hd.lok; have l2 := hd.hik; have l3 := hd.fits.lo1; have l4 := hn.kc
  unfold qr5Krcol
  have e1 : max 1 ((p.ktop - k).tdiv 2 + 1) = 1 := by
    have := tdiv_le_zero (show p.ktop - k ≤ 1 by omega)
    omega
  have e2 : min 1 ((p.kbot - k - 1).tdiv 2) = 0 := by
    rw [Int.tdiv_eq_ediv_of_nonneg (by omega)]
    omega
  dsimp only
  rw [hn.acc, hn.wz, hd.nb, e1, e2, if_pos (by omega)]
  simp only [Bool.false_eq_true, if_false, if_true, hn.jb]
  refine Tot.bind (P := fun s2 => ∃ T Zq g t v2 rs, Arr r c ldv cv rest lo hi lo hi p.ktop p.kbot (k + 1) g0 s2.h s2.v T g t v2 v3 ∧
      Real5 lo hi p.ktop p.kbot H B ε (startX p.ktop p.kbot H a1 b1 a2 b2) (k + 1) T Zq ∧ AllIn p.ktop p.kbot rs ∧ Zq = applyR rs idT ∧ Refl v2 0 t ∧
      ZOn rz cz p.iloz p.ihiz gz (applyR rs Z0) s2.z) (bmp22_ok hd hε h1 hI.arr hI.real k1 k3 (by omega) (by omega) ?_) ?_
  · rintro v2' t' s2 hr ⟨hw, -, es, cut, g', -, hA, hR⟩
    unfold tail22
    rw [hn.acc, hn.wz]
    simp only [Bool.false_eq_true, if_false, if_true]
    have ez : s2.z = s.z := by rw [es]
    obtain ⟨z', e, hz⟩ := hI.z.refl2_in (q := k + 1) hn.size hn.i0 hn.i1 (by omega) (by omega) v2' t'
    rw [show k + 2 = k + 1 + 1 by ring, ez, e, pure_bind]
    refine Tot.pure ⟨_, _, _, _, _, rs ++ [⟨k + 1, v2', 0, t'⟩], hA, hR, hI.all.snoc ⟨by dsimp only; omega, by dsimp only; omega, Or.inr rfl⟩, ?_, hr, ?_⟩
    · rw [applyR_snoc, hI.zq]
    · rw [applyR_snoc]
      exact hz
  · rintro s2 ⟨T2, Zq2, g2, t', v2', rs2, hA, hR, hall, hzq, hr, hz⟩
    rw [forDown_empty (by norm_num), pure_bind, forDown_empty (by norm_num), pure_bind, fd2]
    obtain ⟨q1, q2, q3⟩ := hA.vm.get
    unfold qr5AccZ
    dsimp only
    rw [q1, q2, q3, pure_bind, pure_bind, pure_bind]
    obtain ⟨z', e, hz'⟩ := hz.refl3 (q := k + 1) hn.size (by omega) hn.i0 hn.i1 (by omega) (by omega) v2' v3 t'
    rw [show k + 2 * (1 - 1) + 1 = k + 1 by ring, show k + 2 * (1 - 1) + 2 = k + 1 + 1 by ring, show k + 2 * (1 - 1) + 3 = k + 1 + 2 by ring, e, pure_bind, pure_bind]
    dsimp only
    rw [hA.vm.get0 (by norm_num) (by norm_num), hA.vm.get0 (by norm_num) (by norm_num), hA.vm.get0 (by norm_num) (by norm_num), pure_bind, pure_bind, pure_bind]
    obtain ⟨z'', e', hz''⟩ := hz'.refl3 (q := k - 1) hn.size (by omega) hn.i0 hn.i1 (by omega) (by omega) (1 / 2 ^ 1022) (1 / 2 ^ 1022) (1 / 2 ^ 1022)
    rw [show k + 2 * (0 - 1) + 1 = k - 1 by ring, show k + 2 * (0 - 1) + 2 = k - 1 + 1 by ring, show k + 2 * (0 - 1) + 3 = k - 1 + 2 by ring, e', pure_bind]
    rw [show k + 1 = p.kbot - 1 by omega] at hA hR hz''
    rw [show k - 1 = p.kbot - 3 by omega] at hz''
    exact Tot.pure ⟨_, _, _, _, _, _, rs2, hA, hR, hall, hzq, hr, hz'', fun h => hI.start (by omega), fun h => hI.later (by omega)⟩

/-- All the sweeps. -/
theorem sweeps_z (hd : Dim5 p r c ldv lo hi lo hi u sm B) (hn : NoAccZ p rz cz lo hi) (hε : 6 * u * B + sm ≤ ε) (h0 : Start5 p.ktop p.kbot H s0 a1 b1 a2 b2)
    {T Zq g t v2 v3 rs} (hI : InvZ p r c ldv cv rz cz rest lo hi H B ε (startX p.ktop p.kbot H a1 b1 a2 b2) g0 gz Z0 w0 s0 (p.ktop - 1) s T Zq g t v2 v3 rs) :
    Tot (forStep (p.ktop - 2 * p.nbmps + 1) (p.kbot - 2) (2 * asUsize p.nbmps) s (qr5Incol p)) fun s' => ∃ T Zq g t v2 v3 rs,
      FinZ p r c ldv cv rz cz rest lo hi H B ε (startX p.ktop p.kbot H a1 b1 a2 b2) g0 gz Z0 w0 s' T Zq g t v2 v3 rs := by
  have hlt := hd.lt
  set P : ℤ → Qr5S XR → Prop := fun k s => if k + 2 ≤ p.kbot then ∃ T Zq g t v2 v3 rs,
      InvZ p r c ldv cv rz cz rest lo hi H B ε (startX p.ktop p.kbot H a1 b1 a2 b2) g0 gz Z0 w0 s0 k s T Zq g t v2 v3 rs
    else ∃ T Zq g t v2 v3 rs,
      FinZ p r c ldv cv rz cz rest lo hi H B ε (startX p.ktop p.kbot H a1 b1 a2 b2) g0 gz Z0 w0 s T Zq g t v2 v3 rs with hP
  have step : ∀ incol k s, p.ktop - 1 ≤ k → k + 2 ≤ p.kbot → P k s → Tot (qr5Krcol p incol lo s k) (P (k + 1)) := by
    intro incol k s x1 x2 hp
    simp only [hP, if_pos x2] at hp
    obtain ⟨T, Zq, g, t, v2, v3, rs, hp⟩ := hp
    by_cases hk : k + 3 ≤ p.kbot
    · simp only [hP, if_pos (show k + 1 + 2 ≤ p.kbot by omega)]
      exact krcol_z hd hn hε h0 hp x1 hk
    · simp only [hP, if_neg (show ¬ k + 1 + 2 ≤ p.kbot by omega)]
      exact krcol_zlast hd hn hε h0 hp x1 (by omega)
  have incol : ∀ k s, p.ktop - 1 ≤ k → k + 2 ≤ p.kbot → P k s → Tot (qr5Incol p s k) (P (min (k + 2) (p.kbot - 1))) := by
    intro k s x1 x2 hp
    unfold qr5Incol
    dsimp only
    simp only [hn.acc, Bool.false_eq_true, if_false, hn.jt, hd.nb, pure_bind]
    have e : min (k + 2 * 1 - 1) (p.kbot - 2) + 1 = min (k + 2) (p.kbot - 1) := by omega
    refine Tot.bind (P := P (min (k + 2) (p.kbot - 1))) ?_ fun s1 h1 => Tot.pure h1
    rw [← e]
    exact Tot.forUp (P := P) (by omega) hp fun i s i1 i2 hi' => step k i s (by omega) (by omega) hi'
  rw [hd.nb, show p.ktop - 2 * 1 + 1 = p.ktop - 1 by ring, show 2 * asUsize 1 = 2 from rfl]
  refine (Tot.forStep (P := fun i s => P (min i (p.kbot - 1)) s) (by norm_num)
    (by rw [show min (p.ktop - 1) (p.kbot - 1) = p.ktop - 1 by omega]; simp only [hP, if_pos (show p.ktop - 1 + 2 ≤ p.kbot by omega)]; exact ⟨_, _, _, _, _, _, _, hI⟩)
      fun i s i1 i2 hi' => ?_).mono ?_
  · rw [show min i (p.kbot - 1) = i by omega] at hi'
    exact incol i s i1 (by omega) hi'
  · rintro s1 ⟨i, i1, i2, h⟩
    rw [show min i (p.kbot - 1) = p.kbot - 1 by omega] at h
    simp only [hP, if_neg (show ¬ p.kbot - 1 + 2 ≤ p.kbot by omega)] at h
    exact h

end

end Verif
