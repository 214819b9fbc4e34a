import Verif.Props.HqrExact
import Verif.Props.HqrTop
import Verif.Lib.FrancisAlg
import Mathlib.LinearAlgebra.Matrix.Determinant.Basic

/-!
# `dlahqr` on an active block of order three whose shifts are exact (C68)
-/

namespace Verif
open Scalar XR Spec

namespace Spec

/-- `σ` is the eigenvalue of the trailing 2-by-2 block (rows `lo+1`, `lo+2`) nearer to the last diagonal element, it is an eigenvalue of
the whole block (rows `lo..lo+2`), and the vector `v = (A - σ)² e₁` and its image `w = A v` are far from parallel: the distance of `w` to
the line through `v` exceeds `τ |v|`. -/
structure ExactShift (A : ℤ → ℤ → ℝ) (lo : ℤ) (σ τ : ℝ) : Prop where
  root : (A (lo + 1) (lo + 1) - σ) * (A (lo + 2) (lo + 2) - σ) = A (lo + 1) (lo + 2) * A (lo + 2) (lo + 1)
  near : |A (lo + 2) (lo + 2) - σ| < |A (lo + 1) (lo + 1) - σ|
  eig : Matrix.det !![A lo lo - σ, A lo (lo + 1), A lo (lo + 2); A (lo + 1) lo, A (lo + 1) (lo + 1) - σ, A (lo + 1) (lo + 2);
    0, A (lo + 2) (lo + 1), A (lo + 2) (lo + 2) - σ] = 0
  gap : ∀ v1 v2 v3 w1 w2 w3 : ℝ, v1 = A (lo + 1) lo * A lo (lo + 1) + (A lo lo - σ) ^ 2 →
    v2 = A (lo + 1) lo * (A lo lo + A (lo + 1) (lo + 1) - 2 * σ) → v3 = A (lo + 1) lo * A (lo + 2) (lo + 1) →
    w1 = A lo lo * v1 + A lo (lo + 1) * v2 + A lo (lo + 2) * v3 →
    w2 = A (lo + 1) lo * v1 + A (lo + 1) (lo + 1) * v2 + A (lo + 1) (lo + 2) * v3 →
    w3 = A (lo + 2) (lo + 1) * v2 + A (lo + 2) (lo + 2) * v3 →
    τ ^ 2 * (v1 ^ 2 + v2 ^ 2 + v3 ^ 2) ^ 2 < (v1 ^ 2 + v2 ^ 2 + v3 ^ 2) * (w1 ^ 2 + w2 ^ 2 + w3 ^ 2) - (v1 * w1 + v2 * w2 + v3 * w3) ^ 2

end Spec

/-! ### The algebra of the step -/

section alg
variable {lo : ℤ} {T T' : ℤ → ℤ → ℝ} {a b c d x y w : ℝ}

theorem alg_split (hsh : hqrShifts (fin (T (lo + 1) (lo + 1))) (fin (T (lo + 1) (lo + 2))) (fin (T (lo + 2) (lo + 1))) (fin (T (lo + 2) (lo + 2))) =
      (fin a, fin b, fin c, fin d)) (hst : StartVec T a b c d lo x y w) (hw : w ≠ 0) (hF : Francis lo (lo + 2) lo T T' x y w) (h31 : T (lo + 2) lo = 0)
    (h12 : T lo (lo + 1) = 0) (h13 : T lo (lo + 2) = 0)
    (hdisc : (T (lo + 1) (lo + 1) - T (lo + 2) (lo + 2)) ^ 2 + 4 * (T (lo + 1) (lo + 2) * T (lo + 2) (lo + 1)) ≤ 0) : T' (lo + 1) lo = 0 := by
  obtain ⟨a', b', c', d', e, h1, -⟩ := shifts_exact (T (lo + 1) (lo + 1)) (T (lo + 1) (lo + 2)) (T (lo + 2) (lo + 1)) (T (lo + 2) (lo + 2))
  rw [hsh] at e
  simp only [Prod.mk.injEq, XR.fin.injEq] at e
  obtain ⟨rfl, rfl, rfl, rfl⟩ := e
  obtain ⟨t1, t2, -, -⟩ := h1 hdisc
  obtain ⟨κ, -, ex, ey, ew⟩ := hst
  rw [h12, mul_zero, zero_add] at ex
  refine francis_split hF hw (lam := T lo lo) ?_ ?_ ?_
  · rw [h12, h13]; ring
  · rw [ex, ey, ew]
    have t3 : c = T (lo + 1) (lo + 1) + T (lo + 2) (lo + 2) - a := by linarith
    have t4 : b * d = a * c - (T (lo + 1) (lo + 1) * T (lo + 2) (lo + 2) - T (lo + 1) (lo + 2) * T (lo + 2) (lo + 1)) := by linarith
    rw [t4, t3]; ring
  · rw [ex, ey, ew, h31]
    have t3 : c = T (lo + 1) (lo + 1) + T (lo + 2) (lo + 2) - a := by linarith
    rw [t3]; ring

theorem alg_shift (hsh : hqrShifts (fin (T (lo + 1) (lo + 1))) (fin (T (lo + 1) (lo + 2))) (fin (T (lo + 2) (lo + 1))) (fin (T (lo + 2) (lo + 2))) =
      (fin a, fin b, fin c, fin d)) (hst : StartVec T a b c d lo x y w) (hw : w ≠ 0) (hF : Francis lo (lo + 2) lo T T' x y w) (h31 : T (lo + 2) lo = 0)
    (h31' : T' (lo + 2) lo = 0) (h21 : T (lo + 1) lo ≠ 0) (h32 : T (lo + 2) (lo + 1) ≠ 0) {sig tau : ℝ} (ht : 0 ≤ tau) (hx : ExactShift T lo sig tau) :
    T' (lo + 2) (lo + 1) = 0 ∧ T' (lo + 2) (lo + 2) = sig ∧ tau < |T' (lo + 1) lo| := by
  obtain ⟨a', b', c', d', e, -, h1⟩ := shifts_exact (T (lo + 1) (lo + 1)) (T (lo + 1) (lo + 2)) (T (lo + 2) (lo + 1)) (T (lo + 2) (lo + 2))
  rw [hsh] at e
  simp only [Prod.mk.injEq, XR.fin.injEq] at e
  obtain ⟨rfl, rfl, rfl, rfl⟩ := e
  obtain ⟨root, near, eig, gap⟩ := hx
  have hdisc : 0 < (T (lo + 1) (lo + 1) - T (lo + 2) (lo + 2)) ^ 2 + 4 * (T (lo + 1) (lo + 2) * T (lo + 2) (lo + 1)) := by
    rw [← root]
    have e1 : (T (lo + 1) (lo + 1) - T (lo + 2) (lo + 2)) ^ 2 + 4 * ((T (lo + 1) (lo + 1) - sig) * (T (lo + 2) (lo + 2) - sig)) =
        ((T (lo + 1) (lo + 1) - sig) + (T (lo + 2) (lo + 2) - sig)) ^ 2 := by ring
    rw [e1]
    have : (T (lo + 1) (lo + 1) - sig) + (T (lo + 2) (lo + 2) - sig) ≠ 0 := by
      intro h0
      rw [show T (lo + 1) (lo + 1) - sig = -(T (lo + 2) (lo + 2) - sig) by linarith, abs_neg] at near
      exact lt_irrefl _ near
    positivity
  obtain ⟨rfl, rfl, rfl, ra, na⟩ := h1 hdisc
  have hca : c = sig := by
    have h0 : (c - sig) * (c - (T (lo + 1) (lo + 1) + T (lo + 2) (lo + 2) - sig)) = 0 := by
      have : (T (lo + 1) (lo + 1) - c) * (T (lo + 2) (lo + 2) - c) = (T (lo + 1) (lo + 1) - sig) * (T (lo + 2) (lo + 2) - sig) := by rw [ra, root]
      linarith
    rcases mul_eq_zero.1 h0 with h | h
    · linarith
    · exfalso
      rw [show c - T (lo + 2) (lo + 2) = T (lo + 1) (lo + 1) - sig by linarith,
        show T (lo + 1) (lo + 1) + T (lo + 2) (lo + 2) - c - T (lo + 2) (lo + 2) = -(T (lo + 2) (lo + 2) - sig) by linarith, abs_neg] at na
      linarith
  subst hca
  rw [Matrix.det_fin_three] at eig
  simp at eig
  obtain ⟨κ, hκ, ex, ey, ew⟩ := hst
  have hlast : tau < |T' (lo + 1) lo| := by
    have hs := francis_sub hF h31' rfl rfl rfl
    have hg := gap _ _ _ _ _ _ rfl rfl rfl rfl rfl rfl
    set v1 := T (lo + 1) lo * T lo (lo + 1) + (T lo lo - c) ^ 2 with hv1
    set v2 := T (lo + 1) lo * (T lo lo + T (lo + 1) (lo + 1) - 2 * c) with hv2
    set v3 := T (lo + 1) lo * T (lo + 2) (lo + 1) with hv3
    have ex' : x = κ * v1 := by rw [ex, hv1]; ring
    have ey' : y = κ * v2 := by rw [ey, hv2]; ring
    rw [ex', ey', ew, h31] at hs
    have hv3' : v3 ≠ 0 := mul_ne_zero h21 h32
    have hN : 0 < v1 ^ 2 + v2 ^ 2 + v3 ^ 2 := by positivity
    have key : (v1 ^ 2 + v2 ^ 2 + v3 ^ 2) ^ 2 * tau ^ 2 < (v1 ^ 2 + v2 ^ 2 + v3 ^ 2) ^ 2 * |T' (lo + 1) lo| ^ 2 := by
      rw [sq_abs]
      have hκ4 : 0 < κ ^ 4 := by positivity
      refine lt_of_mul_lt_mul_left ?_ hκ4.le
      calc κ ^ 4 * ((v1 ^ 2 + v2 ^ 2 + v3 ^ 2) ^ 2 * tau ^ 2) = κ ^ 4 * (tau ^ 2 * (v1 ^ 2 + v2 ^ 2 + v3 ^ 2) ^ 2) := by ring
        _ < κ ^ 4 * _ := mul_lt_mul_of_pos_left hg hκ4
        _ = κ ^ 4 * ((v1 ^ 2 + v2 ^ 2 + v3 ^ 2) ^ 2 * T' (lo + 1) lo ^ 2) := by
          linear_combination (-1 : ℝ) * hs
    exact lt_of_pow_lt_pow_left₀ 2 (abs_nonneg _) (lt_of_mul_lt_mul_left key (by positivity))
  have hsub : T' (lo + 1) lo ≠ 0 := by
    intro h; rw [h, abs_zero] at hlast; linarith
  have key : T lo (lo + 1) * (T (lo + 2) (lo + 2) - c) = T lo (lo + 2) * T (lo + 2) (lo + 1) := by
    have : T (lo + 1) lo * (T lo (lo + 1) * (T (lo + 2) (lo + 2) - c) - T lo (lo + 2) * T (lo + 2) (lo + 1)) = 0 := by
      linear_combination (-1 : ℝ) * eig + (T lo lo - c) * root
    linarith [(mul_eq_zero.1 this).resolve_left h21]
  obtain ⟨f1, f2⟩ := francis_deflate hF hw h31' hsub (o0 := T (lo + 1) lo * T (lo + 2) (lo + 1)) (o1 := -((T lo lo - c) * T (lo + 2) (lo + 1)))
    (o2 := -(T (lo + 1) lo * T lo (lo + 1) - (T lo lo - c) * (T (lo + 1) (lo + 1) - c))) (sig := c) (mul_ne_zero h21 h32) (by rw [h31]; ring) (by ring)
    (by linear_combination (-(T (lo + 1) lo)) * key + (T lo lo - c) * root)
    (by rw [ex, ey, ew]; ring)
  exact ⟨f1, f2, hlast⟩

end alg

/-! ### The loops -/

section three
variable {p : HqrP XR} {r c rz cz nr ni : Nat} {A : Matrix (Blk p.ilo p.ihi) (Blk p.ilo p.ihi) ℝ} {Z0 : ℤ → ℤ → ℝ} {zg0 : ℤ → ℤ → XR}
  {gr0 gi0 : ℤ → XR} {B u sm : ℝ}

/-- The first round on a block of order three with no negligible subdiagonal element. -/
theorem three_round (hd : Dim p r c rz cz) (hp : p.ihi = p.ilo + 2) (hB0 : 0 ≤ B) (hB : B ≤ 2 ^ 500)
    (hu : p.ulp = fin u) (hu0 : 0 ≤ u) (hsm : p.smlnum = fin sm) (hsm0 : 0 ≤ sm) {δ : ℝ} {T : ℤ → ℤ → ℝ} {wr wi : ℤ → ℝ} {a : HqrA XR}
    (hO : Out p r c rz cz nr ni A Z0 zg0 gr0 gi0 B δ p.ihi T wr wi a) {v : FA XR} (hv : ∃ x y w, Work v x y w)
    (b1 : 2 * u * B + sm < |T (p.ilo + 1) p.ilo|) (b2 : 2 * u * B + sm < |T (p.ilo + 2) (p.ilo + 1)|) (m k : ℤ) (rounds : Nat)
    {P : HqrS XR × Nat → Prop}
    (cont : ∀ s' T', s'.l = p.ilo → Inn p r c rz cz A Z0 zg0 B δ p.ihi T s'.h s'.z s'.v s'.l T' →
      (∃ a b c d x y w : ℝ, hqrShifts (fin (T (p.ilo + 1) (p.ilo + 1))) (fin (T (p.ilo + 1) (p.ilo + 2))) (fin (T (p.ilo + 2) (p.ilo + 1)))
        (fin (T (p.ilo + 2) (p.ilo + 2))) = (fin a, fin b, fin c, fin d) ∧ StartVec T a b c d p.ilo x y w ∧ w ≠ 0 ∧
        Francis p.ilo (p.ilo + 2) p.ilo T T' x y w) → Tot (hqrInner p p.ihi rounds 1 s') P) :
    Tot (hqrInner p p.ihi (rounds + 1) 0 ⟨a.h, a.z, v, m, k, p.ilo, 0⟩) P := by
  have hτ : 0 ≤ 2 * u * B + sm := by positivity
  have hnz : ∀ j, p.ilo < j → j ≤ p.ihi → 2 * u * B + sm < |T j (j - 1)| := by
    intro j j1 j2
    rcases (by omega : j = p.ilo + 1 ∨ j = p.ilo + 2) with rfl | rfl
    · rw [show p.ilo + 1 - 1 = p.ilo by ring]; exact b1
    · rw [show p.ilo + 2 - 1 = p.ilo + 1 by ring]; exact b2
  rw [hqrInner.eq_def]
  simp only
  refine Tot.bind (deflate_ok (i := p.ihi) (T0 := T) (T := T) (δ := δ) hd hB0 hu hu0 hsm hsm0 (s := ⟨a.h, a.z, v, m, k, p.ilo, 0⟩) (by show p.ilo < p.ihi; omega)
    (le_refl _) ⟨hO.ex, hO.good, hv, le_refl _, fun h => absurd h (lt_irrefl _), fun h => absurd h (lt_irrefl _), fun _ _ _ _ => rfl⟩) fun s1 h1 => ?_
  obtain ⟨e1, l1, T1, I1, nz1, l2, z1, k1, cut, hT1⟩ := h1
  simp only at l2 z1 k1 cut
  have hl : s1.l = p.ilo := by
    by_contra hc
    have := hnz s1.l (by omega) l1
    linarith [cut (by omega)]
  have hTT : T1 = T := by
    funext x y; rw [hT1, if_neg (by omega)]
  subst hTT
  have I0 : Inn p r c rz cz A Z0 zg0 B δ p.ihi T1 s1.h s1.z s1.v s1.l T1 := ⟨I1.ex, by rw [z1]; exact hO.good, I1.work, I1.lo, I1.top, I1.bot, I1.same⟩
  rw [if_neg (by omega)]
  refine Tot.bind (sweep_three hd hB hu (by omega) (le_refl _) I0 nz1 (by rw [k1]; decide) (by rw [k1]; decide)) fun s2 h2 => ?_
  obtain ⟨l3, -, T2, I2, a', b', c', d', x, y, w, q1, q2, q3, q4⟩ := h2
  rw [show p.ihi - 1 = p.ilo + 1 by omega, hp] at q1
  rw [hl] at q2 q4
  have q4' : Francis p.ilo (p.ilo + 2) p.ilo T1 T2 x y w := by rw [← hp]; exact q4
  exact cont s2 T2 (by omega) I2 ⟨a', b', c', d', x, y, w, q1, q2, q3, q4'⟩

theorem itmax_succ (p : HqrP XR) : ∃ n, p.itmax = n + 2 := by
  unfold HqrP.itmax
  have := le_max_right ((p.ihi - p.ilo + 1).toNat) 10
  exact ⟨30 * max ((p.ihi - p.ilo + 1).toNat) 10 - 2, by omega⟩

theorem nz_of_big {x t : ℝ} (ht : 0 ≤ t) (h : t < |x|) : x ≠ 0 := by
  rintro rfl; rw [abs_zero] at h; linarith

/-- A shift that is an eigenvalue: one sweep and the last diagonal element is that eigenvalue. -/
theorem outer_three (hd : Dim p r c rz cz) (hp : p.ihi = p.ilo + 2) (hld : p.ldh = r) (hn : p.n ≤ c) (hz : p.wantz = true → p.iloz ≤ p.ihiz)
    (hB0 : 0 ≤ B) (hB : B ≤ 2 ^ 500)
    (hu : p.ulp = fin u) (hu0 : 0 ≤ u) (hsm : p.smlnum = fin sm) (hsm0 : 0 ≤ sm) {δ : ℝ} {T : ℤ → ℤ → ℝ} {wr wi : ℤ → ℝ} {a : HqrA XR}
    (hO : Out p r c rz cz nr ni A Z0 zg0 gr0 gi0 B δ p.ihi T wr wi a) {v : FA XR} (hv : ∃ x y w, Work v x y w)
    (b1 : 2 * u * B + sm < |T (p.ilo + 1) p.ilo|) (b2 : 2 * u * B + sm < |T (p.ilo + 2) (p.ilo + 1)|) (m k : ℤ) (fuel : Nat)
    {sig : ℝ} (hx : ExactShift T p.ilo sig (2 * u * B + sm)) :
    Tot (hqrOuter p (fuel + 3) a v m k p.ihi) fun q => q.2 = 0 ∧ ∃ T' wr' wi', Out p r c rz cz nr ni A Z0 zg0 gr0 gi0 B δ (p.ilo - 1) T' wr' wi' q.1 ∧
      T' (p.ilo + 2) (p.ilo + 2) = sig ∧ T' (p.ilo + 2) (p.ilo + 1) = 0 := by
  have hτ : 0 ≤ 2 * u * B + sm := by positivity
  obtain ⟨n, hit⟩ := itmax_succ p
  have h31 : T (p.ilo + 2) p.ilo = 0 := by
    obtain ⟨g, -, hR⟩ := hO.ex
    exact hR.hess _ _ (le_refl _) (by omega) (by omega)
  rw [hqrOuter.eq_def]
  simp only
  rw [if_neg (by omega), hit]
  refine Tot.bind (three_round (P := fun q => q.2 = 1 ∧ q.1.l = p.ihi ∧ ∃ T', Inn p r c rz cz A Z0 zg0 B δ p.ihi T q.1.h q.1.z q.1.v q.1.l T' ∧
    T' (p.ilo + 2) (p.ilo + 1) = 0 ∧ T' (p.ilo + 2) (p.ilo + 2) = sig ∧ 2 * u * B + sm < |T' (p.ilo + 1) p.ilo|)
    hd hp hB0 hB hu hu0 hsm hsm0 hO hv b1 b2 m k (n + 1) ?_) fun q hq => ?_
  · rintro s T1 hl I1 ⟨a', b', c', d', x, y, w, q1, q2, q3, q4⟩
    have h31' : T1 (p.ilo + 2) p.ilo = 0 := by
      obtain ⟨g, -, hR⟩ := I1.ex
      exact hR.hess _ _ (le_refl _) (by omega) (by omega)
    obtain ⟨f1, f2, f3⟩ := alg_shift q1 q2 q3 q4 h31 h31' (nz_of_big hτ b1) (nz_of_big hτ b2) hτ hx
    rw [hqrInner.eq_def]
    simp only
    refine Tot.bind (deflate_ok hd hB0 hu hu0 hsm hsm0 (by rw [hl]; omega) (le_refl _) I1) fun s2 h2 => ?_
    obtain ⟨e2, l2, T2, I2, nz2, l3, z2, k2, cut2, hT2⟩ := h2
    have hT : T2 = T1 ∧ s2.l = p.ihi := by
      have hl2 : s2.l = p.ihi := by
        by_contra hc
        have := nz2 p.ihi (by omega) (le_refl _)
        rw [hT2, if_neg (by omega), hp, show p.ilo + 2 - 1 = p.ilo + 1 by ring] at this
        exact this f1
      refine ⟨?_, hl2⟩
      funext x y
      rw [hT2]
      split
      · rename_i h
        rw [h.2.1, h.2.2, hl2, hp, show p.ilo + 2 - 1 = p.ilo + 1 by ring, f1]
      · rfl
    obtain ⟨rfl, hl2⟩ := hT
    rw [if_pos (by omega)]
    exact Tot.pure ⟨rfl, hl2, T2, ⟨I2.ex, by rw [z2]; exact I1.good, I2.work, I2.lo, I2.top, I2.bot, I2.same⟩, f1, f2, f3⟩
  · obtain ⟨e1, e2, T1, I1, f1, f2, f3⟩ := hq
    rw [if_neg (by omega), e2]
    have hO' : Out p r c rz cz nr ni A Z0 zg0 gr0 gi0 B δ p.ihi T1 wr wi { a with h := q.1.h, z := q.1.z } :=
      ⟨I1.ex, I1.good, fun _ h => absurd h (lt_irrefl _),
        hO.schur.congr (fun x y x1 y1 => I1.same x y (by omega) (by omega)) (fun _ _ => rfl) (fun _ _ => rfl), hO.wr1, hO.wi1⟩
    refine Tot.bind (record_one hd hO' (by omega) (le_refl _) (fun _ => by rw [hp, show p.ilo + 2 - 1 = p.ilo + 1 by ring]; exact f1)) fun a2 h2 => ?_
    obtain ⟨T2, wr2, wi2, O2, rfl⟩ := h2
    refine (outer_two_at hd (i := p.ihi - 1) (by omega) (by omega) hld hn hz hB0 hB hu hu0 hsm hsm0 fuel δ _ _ T2 wr2 wi2 a2 _ O2
      (by rw [show p.ihi - 1 = p.ilo + 1 by omega]; exact f3)).mono fun q3 h3 => ?_
    obtain ⟨g1, T3, wr3, wi3, O3, g2, g3⟩ := h3
    exact ⟨g1, T3, wr3, wi3, O3, by rw [g2 _ _ (by omega) (by omega)]; exact f2, g3 _ _ (by omega) (by omega) (by omega) (by omega)⟩

theorem Tot.bind_timeout {α β : Type} {x : R α} {f : α → R β} {P : α → Prop} (hx : Tot x P) (hf : ∀ a, P a → f a = R.timeout) : (x >>= f) = R.timeout := by
  funext pr
  obtain ⟨a, e, ha⟩ := hx pr
  rw [R.bind_apply, e]
  exact congrFun (hf a ha) pr

theorem stuck_at (hd : Dim p r c rz cz) (hp : p.ilo < p.ihi) {h : FA XR} {g : ℤ → ℤ → XR} (hh : Is2 h r c (r * c) g) (fuel : Nat) (a : HqrA XR) (ha : a.h = h) (v : FA XR)
    (m : ℤ) : hqrOuter p fuel a v m (p.ilo + 1) p.ilo = R.timeout := by
  subst ha
  exact hqrOuter_stuck (N := p.ihi) p fuel a v m g hh hd.size (fun x y x1 x2 y1 y2 =>
    cell_rc x1 (by have := hd.hir; omega) y1 (by have := hd.hic; omega)) hd.lo1 (by omega)

/-- The first row and column have split off and the second row is the last one of the active part. -/
theorem outer_one_stuck (hd : Dim p r c rz cz) (hp : p.ilo < p.ihi) (hB0 : 0 ≤ B)
    (hu : p.ulp = fin u) (hu0 : 0 ≤ u) (hsm : p.smlnum = fin sm) (hsm0 : 0 ≤ sm) {δ : ℝ} {T : ℤ → ℤ → ℝ} {wr wi : ℤ → ℝ} {a : HqrA XR}
    (hO : Out p r c rz cz nr ni A Z0 zg0 gr0 gi0 B δ (p.ilo + 1) T wr wi a) {v : FA XR} (hv : ∃ x y w, Work v x y w)
    (h0 : T (p.ilo + 1) p.ilo = 0) (m k : ℤ) (fuel : Nat) : hqrOuter p fuel a v m k (p.ilo + 1) = R.timeout := by
  have hlo1 := hd.lo1
  cases fuel with
  | zero => rfl
  | succ fuel =>
    obtain ⟨n, hit⟩ := itmax_succ p
    rw [hqrOuter.eq_def]
    simp only
    rw [if_neg (by omega)]
    refine Tot.bind_timeout (P := fun q => q.2 = 0 ∧ q.1.l = p.ilo + 1 ∧ q.1.k = p.ilo + 1 ∧ ∃ T', Inn p r c rz cz A Z0 zg0 B (δ + (2 * u * B + sm)) (p.ilo + 1) T q.1.h q.1.z q.1.v q.1.l T') ?_ fun q hq => ?_
    · rw [hqrInner.eq_def]
      simp only
      refine Tot.bind (deflate_ok (i := p.ilo + 1) (T0 := T) (T := T) (δ := δ) hd hB0 hu hu0 hsm hsm0 (s := ⟨a.h, a.z, v, m, k, p.ilo, 0⟩)
        (by show p.ilo < p.ilo + 1; omega) (by omega)
        ⟨hO.ex, hO.good, hv, le_refl _, fun h => absurd h (lt_irrefl _), fun h => hO.bot (by omega) h, fun _ _ _ _ => rfl⟩) fun s1 h1 => ?_
      obtain ⟨e1, l1, T1, I1, nz1, l2, z1, k1, cut, hT1⟩ := h1
      simp only at l2
      have hl : s1.l = p.ilo + 1 := by
        by_contra hc
        have := nz1 (p.ilo + 1) (by omega) (le_refl _)
        rw [hT1, if_neg (by omega), show p.ilo + 1 - 1 = p.ilo by ring] at this
        exact this h0
      rw [if_pos (by omega)]
      exact Tot.pure ⟨rfl, hl, e1.trans hl, T1, I1⟩
    · obtain ⟨e1, e2, e3, T1, I1⟩ := hq
      rw [if_neg (by omega), e2, e3]
      obtain ⟨g, hh, hR⟩ := I1.ex
      have hO' : Out p r c rz cz nr ni A Z0 zg0 gr0 gi0 B (δ + (2 * u * B + sm)) (p.ilo + 1) T1 wr wi { a with h := q.1.h, z := q.1.z } :=
        ⟨I1.ex, I1.good, fun _ h => I1.bot h,
          hO.schur.congr (fun x y x1 y1 => I1.same x y (by omega) (by omega)) (fun _ _ => rfl) (fun _ _ => rfl), hO.wr1, hO.wi1⟩
      refine Tot.bind_timeout (record_one hd hO' (by omega) (by omega) (fun h => by have := I1.top (by omega); rwa [e2] at this)) fun a2 h2 => ?_
      obtain ⟨T2, wr2, wi2, O2, rfl⟩ := h2
      obtain ⟨g2, hh2, -⟩ := O2.ex
      rw [show p.ilo + 1 - 1 = p.ilo by ring]
      exact stuck_at hd hp hh2 fuel a2 rfl _ _

/-- Both shifts are eigenvalues, and the third eigenvalue splits off at the top: the loop never ends. -/
theorem outer_three_stuck (hd : Dim p r c rz cz) (hp : p.ihi = p.ilo + 2) (hld : p.ldh = r) (hn : p.n ≤ c) (hz : p.wantz = true → p.iloz ≤ p.ihiz)
    (hB0 : 0 ≤ B) (hB : B ≤ 2 ^ 500)
    (hu : p.ulp = fin u) (hu0 : 0 ≤ u) (hsm : p.smlnum = fin sm) (hsm0 : 0 ≤ sm) {δ : ℝ} {T : ℤ → ℤ → ℝ} {wr wi : ℤ → ℝ} {a : HqrA XR}
    (hO : Out p r c rz cz nr ni A Z0 zg0 gr0 gi0 B δ p.ihi T wr wi a) {v : FA XR} (hv : ∃ x y w, Work v x y w)
    (b1 : 2 * u * B + sm < |T (p.ilo + 1) p.ilo|) (b2 : 2 * u * B + sm < |T (p.ilo + 2) (p.ilo + 1)|) (m k : ℤ) (fuel : Nat)
    (h12 : T p.ilo (p.ilo + 1) = 0) (h13 : T p.ilo (p.ilo + 2) = 0)
    (hdisc : (T (p.ilo + 1) (p.ilo + 1) - T (p.ilo + 2) (p.ilo + 2)) ^ 2 + 4 * (T (p.ilo + 1) (p.ilo + 2) * T (p.ilo + 2) (p.ilo + 1)) ≤ 0) :
    hqrOuter p fuel a v m k p.ihi = R.timeout := by
  have hτ : 0 ≤ 2 * u * B + sm := by positivity
  have hlo1 := hd.lo1
  cases fuel with
  | zero => rfl
  | succ fuel =>
    obtain ⟨n, hit⟩ := itmax_succ p
    have h31 : T (p.ilo + 2) p.ilo = 0 := by
      obtain ⟨g, -, hR⟩ := hO.ex
      exact hR.hess _ _ (le_refl _) (by omega) (by omega)
    rw [hqrOuter.eq_def]
    simp only
    rw [if_neg (by omega), hit]
    refine Tot.bind_timeout (three_round (P := fun q => q.2 = 1 ∧ p.ilo + 1 ≤ q.1.l ∧ q.1.l ≤ p.ihi ∧ q.1.k = q.1.l ∧ ∃ T',
        Inn p r c rz cz A Z0 zg0 B (δ + (2 * u * B + sm)) p.ihi T q.1.h q.1.z q.1.v q.1.l T' ∧
        T' (p.ilo + 1) p.ilo = 0 ∧ ∀ j, q.1.l < j → j ≤ p.ihi → T' j (j - 1) ≠ 0)
      hd hp hB0 hB hu hu0 hsm hsm0 hO hv b1 b2 m k (n + 1) ?_) fun q hq => ?_
    · rintro s T1 hl I1 ⟨a', b', c', d', x, y, w, q1, q2, q3, q4⟩
      have f1 := alg_split q1 q2 q3 q4 h31 h12 h13 hdisc
      rw [hqrInner.eq_def]
      simp only
      refine Tot.bind (deflate_ok hd hB0 hu hu0 hsm hsm0 (by rw [hl]; omega) (le_refl _) I1) fun s2 h2 => ?_
      obtain ⟨e2, l2, T2, I2, nz2, l3, z2, k2, cut2, hT2⟩ := h2
      have f2 : T2 (p.ilo + 1) p.ilo = 0 := by
        rw [hT2]; split
        · rfl
        · exact f1
      have hl2 : p.ilo + 1 ≤ s2.l := by
        by_contra hc
        have := nz2 (p.ilo + 1) (by omega) (by omega)
        rw [show p.ilo + 1 - 1 = p.ilo by ring] at this
        exact this f2
      rw [if_pos (by omega)]
      exact Tot.pure ⟨rfl, hl2, l2, e2, T2, I2, f2, nz2⟩
    · obtain ⟨e1, l1, l2, e2, T1, I1, f1, nz⟩ := hq
      rw [if_neg (by omega), e2]
      have hO' : Out p r c rz cz nr ni A Z0 zg0 gr0 gi0 B (δ + (2 * u * B + sm)) p.ihi T1 wr wi { a with h := q.1.h, z := q.1.z } :=
        ⟨I1.ex, I1.good, fun _ h => absurd h (lt_irrefl _),
          hO.schur.congr (fun x y x1 y1 => I1.same x y (by omega) (by omega)) (fun _ _ => rfl) (fun _ _ => rfl), hO.wr1, hO.wi1⟩
      rcases (by omega : q.1.l = p.ihi ∨ q.1.l = p.ihi - 1) with hc | hc
      · rw [hc]
        refine Tot.bind_timeout (record_one hd hO' (by omega) (le_refl _) (fun h => by have := I1.top (by omega); rwa [hc] at this)) fun a2 h2 => ?_
        obtain ⟨T2, wr2, wi2, O2, rfl⟩ := h2
        rw [show p.ihi - 1 = p.ilo + 1 by omega] at O2 ⊢
        exact outer_one_stuck hd (by omega) hB0 hu hu0 hsm hsm0 O2 I1.work f1 _ _ _
      · rw [hc]
        refine Tot.bind_timeout (record_two hd hld hn hz hB hO' (by omega) (le_refl _)
          (fun h => by rw [show p.ihi - 1 = p.ilo + 1 by omega, show p.ihi - 2 = p.ilo by omega]; exact f1) (nz p.ihi (by omega) (le_refl _))) fun a2 h2 => ?_
        obtain ⟨T2, wr2, wi2, O2, -⟩ := h2
        obtain ⟨g2, hh2, -⟩ := O2.ex
        rw [show p.ihi - 1 - 1 = p.ilo by omega, show p.ihi - 1 = p.ilo + 1 by omega]
        exact stuck_at hd (by omega) hh2 fuel a2 rfl _ _

end three

section
variable (fuel : Nat) (wantz : Bool) (n ilo : ℤ) (h : FA XR) (r c : Nat) (wr wi : List XR) (iloz ihiz : ℤ) (z : FA XR) (rz cz : Nat) (ldz : ℤ)

theorem three_small (ilo : ℤ) : (1 : ℝ) / 2 ^ 1022 * (((ilo + 2 - ilo + 1 : ℤ) : ℝ) / (1 / 2 ^ 52)) = 3 / 2 ^ 970 := by
  rw [show ilo + 2 - ilo + 1 = 3 by ring]
  rw [show (1022 : ℕ) = 970 + 52 from rfl, pow_add]
  generalize (2 : ℝ) ^ 970 = w at *
  rw [one_div, mul_inv]
  push_cast
  ring

/-- **C68** (an exact shift).  On an active block of order three with no negligible subdiagonal element, if the shift `dlahqr` chooses is a real eigenvalue of
the block, one sweep finds it: `dlahqr` returns with `info = 0`, the last eigenvalue is that shift, exactly, and the result is exactly
orthogonally similar to the input. -/
theorem C68_dlahqr_exact_shift (hM : IsMatrix h r c) (h1 : 1 ≤ ilo) (h3 : ilo + 2 ≤ n) (h4 : n ≤ r) (h5 : n ≤ c) {A : ℤ → ℤ → ℝ}
    (hA : HessInput h r ilo (ilo + 2) A) (hN : fro (block ilo (ilo + 2) A) ≤ 2 ^ 500)
    (hz : wantz = true → IsMatrix z rz cz ∧ 1 ≤ iloz ∧ iloz ≤ ihiz ∧ ihiz ≤ rz ∧ ilo + 2 ≤ cz) {Z0 : ℤ → ℤ → ℝ}
    (hZ : wantz = true → ∀ a b, iloz ≤ a → a ≤ ihiz → ilo ≤ b → b ≤ ilo + 2 → Entry z rz a b (fin (Z0 a b))) {τ σ : ℝ}
    (hτ : τ = 2 * (1 / 2 ^ 52) * fro (block ilo (ilo + 2) A) + 3 / 2 ^ 970)
    (b1 : τ < |A (ilo + 1) ilo|) (b2 : τ < |A (ilo + 2) (ilo + 1)|) (hx : ExactShift A ilo σ τ) (pr : Profile) :
    ∃ ret : HqrRet (FA XR) (List XR) (List XR) (FA XR),
      dlahqr (F := XR) (fuel + 3) true wantz n ilo (ilo + 2) h (r : ℤ) wr wi iloz ihiz z ldz pr = .ok ret ∧ ret.info = 0 ∧
      ∃ (Q : Matrix (Blk ilo (ilo + 2)) (Blk ilo (ilo + 2)) ℝ) (T : ℤ → ℤ → ℝ) (er ei : ℤ → ℝ),
        Q.transpose * Q = 1 ∧ block ilo (ilo + 2) T = Q.transpose * block ilo (ilo + 2) A * Q ∧ Schur ilo (ilo + 2) T er ei ∧
        er (ilo + 2) = σ ∧ ei (ilo + 2) = 0 ∧
        (∀ j, ilo ≤ j → j ≤ ilo + 2 → j ≤ wr.length → ret.wr[(j - 1).toNat]? = some (fin (er j))) ∧
        (∀ j, ilo ≤ j → j ≤ ilo + 2 → j ≤ wi.length → ret.wi[(j - 1).toNat]? = some (fin (ei j))) := by
  obtain ⟨h', e, hd, hulp, hsm, hO⟩ := dlahqr_setup wantz n ilo (ilo + 2) h r c wr wi iloz ihiz z rz cz hM h1 (by omega) h3 h4 h5 hA hz hZ
  rw [three_small] at hsm
  set p : HqrP XR := hqrParams true wantz n ilo (ilo + 2) (r : ℤ) iloz ihiz with hp
  have pilo : p.ilo = ilo := rfl
  have pihi : p.ihi = ilo + 2 := rfl
  rw [hτ] at b1 b2 hx
  have main := outer_three hd rfl rfl (show n ≤ (c : ℤ) from h5) (fun hw => (hz hw).2.2.1) (fro_nonneg _) hN hulp (by positivity) hsm
    (by positivity) hO (v := faOfVec [zero, zero, zero])
    ⟨0, 0, 0, ⟨by rw [show (zero : XR) = fin 0 from zero_eq]; rfl, Or.inr (show wrap32 (3 : Nat) = 3 by decide), rfl⟩⟩ b1 b2 0 (ilo + 2) fuel hx
  have : Tot (dlahqr (F := XR) (fuel + 3) true wantz n ilo (ilo + 2) h (r : ℤ) wr wi iloz ihiz z ldz) fun ret => ret.info = 0 ∧
      ∃ (Q : Matrix (Blk ilo (ilo + 2)) (Blk ilo (ilo + 2)) ℝ) (T : ℤ → ℤ → ℝ) (er ei : ℤ → ℝ),
        Q.transpose * Q = 1 ∧ block ilo (ilo + 2) T = Q.transpose * block ilo (ilo + 2) A * Q ∧ Schur ilo (ilo + 2) T er ei ∧
        er (ilo + 2) = σ ∧ ei (ilo + 2) = 0 ∧
        (∀ j, ilo ≤ j → j ≤ ilo + 2 → j ≤ wr.length → ret.wr[(j - 1).toNat]? = some (fin (er j))) ∧
        (∀ j, ilo ≤ j → j ≤ ilo + 2 → j ≤ wi.length → ret.wi[(j - 1).toNat]? = some (fin (ei j))) := by
    unfold dlahqr
    rw [if_neg (by omega)]
    simp only
    rw [if_neg (by omega)]
    unfold hqrMain
    simp only [show ToFA.toFa h = h from rfl, e, pure_bind]
    refine Tot.bind main fun q hq => Tot.pure ?_
    obtain ⟨g1, T, er, ei, ⟨hex, ⟨Zq, hG, hZq⟩, hbot, hS, hr1, hi1⟩, g2, g3⟩ := hq
    obtain ⟨Q, E, hb, -⟩ := hG.ex
    have hE : E = 0 := fro_eq_zero (le_antisymm hb.bound (fro_nonneg _))
    rw [show p.ilo - 1 + 1 = ilo by rw [pilo]; ring] at hS
    replace hS : Schur ilo (ilo + 2) T er ei := hS
    have vec : ∀ (w : FA XR) (L : Nat) (er : ℤ → ℝ) (g0 : ℤ → XR) (j : ℤ), Is1 w L (fun j => if p.ilo - 1 < j ∧ j ≤ p.ihi then fin (er j) else g0 j) →
        ilo ≤ j → j ≤ ilo + 2 → j ≤ L → w.data[(j - 1).toNat]? = some (fin (er j)) := by
      intro w L er g0 j hw j1 j2 j3
      rw [hw, tab_getElem?, if_pos (by omega), show (((j - 1).toNat : ℕ) : ℤ) + 1 = j by omega, if_pos ⟨by omega, by omega⟩]
    refine ⟨g1, Q, T, er, ei, hb.orth, ?_, hS, ?_, ?_, fun j j1 j2 j3 => vec _ _ _ _ j hr1 j1 j2 j3, fun j j1 j2 j3 => vec _ _ _ _ j hi1 j1 j2 j3⟩
    · refine hb.eq.trans ?_
      rw [hE]
      exact congrArg (fun M : Matrix (Blk p.ilo p.ihi) (Blk p.ilo p.ihi) ℝ => Q.transpose * M * Q) (add_zero (block p.ilo p.ihi A))
    · rw [hS.re _ (by omega) (le_refl _)]; exact g2
    · refine hS.real _ (by omega) (le_refl _) (fun _ => ?_) fun h => absurd h (lt_irrefl _)
      rw [show ilo + 2 - 1 = ilo + 1 by ring]; exact g3
  exact this pr

/-- **C68** (an exact pair).  On an active block of order three with no negligible subdiagonal element, if the first row is zero right of the diagonal and the
trailing block of order two has no two distinct real eigenvalues (so both shifts are eigenvalues of the whole block), `dlahqr` never returns. -/
theorem C68_dlahqr_exact_pair (hM : IsMatrix h r c) (h1 : 1 ≤ ilo) (h3 : ilo + 2 ≤ n) (h4 : n ≤ r) (h5 : n ≤ c) {A : ℤ → ℤ → ℝ}
    (hA : HessInput h r ilo (ilo + 2) A) (hN : fro (block ilo (ilo + 2) A) ≤ 2 ^ 500)
    (hz : wantz = true → IsMatrix z rz cz ∧ 1 ≤ iloz ∧ iloz ≤ ihiz ∧ ihiz ≤ rz ∧ ilo + 2 ≤ cz) {Z0 : ℤ → ℤ → ℝ}
    (hZ : wantz = true → ∀ a b, iloz ≤ a → a ≤ ihiz → ilo ≤ b → b ≤ ilo + 2 → Entry z rz a b (fin (Z0 a b))) {τ : ℝ}
    (hτ : τ = 2 * (1 / 2 ^ 52) * fro (block ilo (ilo + 2) A) + 3 / 2 ^ 970)
    (b1 : τ < |A (ilo + 1) ilo|) (b2 : τ < |A (ilo + 2) (ilo + 1)|) (h12 : A ilo (ilo + 1) = 0) (h13 : A ilo (ilo + 2) = 0)
    (hdisc : (A (ilo + 1) (ilo + 1) - A (ilo + 2) (ilo + 2)) ^ 2 + 4 * (A (ilo + 1) (ilo + 2) * A (ilo + 2) (ilo + 1)) ≤ 0) :
    dlahqr (F := XR) fuel true wantz n ilo (ilo + 2) h (r : ℤ) wr wi iloz ihiz z ldz = R.timeout := by
  obtain ⟨h', e, hd, hulp, hsm, hO⟩ := dlahqr_setup wantz n ilo (ilo + 2) h r c wr wi iloz ihiz z rz cz hM h1 (by omega) h3 h4 h5 hA hz hZ
  rw [three_small] at hsm
  rw [hτ] at b1 b2
  have main := outer_three_stuck hd rfl rfl (show n ≤ (c : ℤ) from h5) (fun hw => (hz hw).2.2.1) (fro_nonneg _) hN hulp (by positivity) hsm
    (by positivity) hO (v := faOfVec [zero, zero, zero])
    ⟨0, 0, 0, ⟨by rw [show (zero : XR) = fin 0 from zero_eq]; rfl, Or.inr (show wrap32 (3 : Nat) = 3 by decide), rfl⟩⟩ b1 b2 0 (ilo + 2) fuel h12 h13 hdisc
  unfold dlahqr
  rw [if_neg (by omega)]
  simp only
  rw [if_neg (by omega)]
  unfold hqrMain
  simp only [show ToFA.toFa h = h from rfl, e, pure_bind]
  erw [main]
  rfl

end

/-! ### The hypotheses are met -/

/-- The 3-by-3 matrix with rows `(a, b, c)`, `(d, e, f)` and `(0, g, i)`. -/
def hessThree (a b c d e f g i : ℝ) : FA XR :=
  { data := [fin a, fin d, fin 0, fin b, fin e, fin g, fin c, fin f, fin i], rows := 3, cols := 3, defaultValue := fin 0 }

/-- Its entries. -/
def hessThreeA (a b c d e f g i : ℝ) (x y : ℤ) : ℝ :=
  if x = 1 then (if y = 1 then a else if y = 2 then b else if y = 3 then c else 0)
  else if x = 2 then (if y = 1 then d else if y = 2 then e else if y = 3 then f else 0)
  else if x = 3 then (if y = 2 then g else if y = 3 then i else 0) else 0

section
variable (a b c d e f g i : ℝ)

theorem hessThree_matrix : IsMatrix (hessThree a b c d e f g i) 3 3 := ⟨rfl, rfl, rfl, by decide⟩

theorem hessThree_input : HessInput (hessThree a b c d e f g i) 3 1 (1 + 2) (hessThreeA a b c d e f g i) := by
  constructor
  · intro x y x1 x2 y1 y2 _ _
    rcases (by omega : x = 1 ∨ x = 2 ∨ x = 3) with rfl | rfl | rfl <;> rcases (by omega : y = 1 ∨ y = 2 ∨ y = 3) with rfl | rfl | rfl <;>
      simp [Entry, hessThree, hessThreeA]
  · intro x y hxy
    unfold hessThreeA
    split
    · rw [if_neg (by omega), if_neg (by omega), if_neg (by omega)]
    · split
      · rw [if_neg (by omega), if_neg (by omega), if_neg (by omega)]
      · split
        · rw [if_neg (by omega), if_neg (by omega)]
        · rfl

theorem hessThree_fro : fro (block 1 (1 + 2) (hessThreeA a b c d e f g i)) = Real.sqrt (a ^ 2 + b ^ 2 + c ^ 2 + d ^ 2 + e ^ 2 + f ^ 2 + g ^ 2 + i ^ 2) := by
  unfold fro
  congr 1
  have := sum3 (lo := 1) fun x => ∑ y : Blk 1 (1 + 2), hessThreeA a b c d e f g i x y ^ 2
  refine this.trans ?_
  rw [sum3 (lo := 1) fun y => hessThreeA a b c d e f g i 1 y ^ 2, sum3 (lo := 1) fun y => hessThreeA a b c d e f g i (1 + 1) y ^ 2,
    sum3 (lo := 1) fun y => hessThreeA a b c d e f g i (1 + 2) y ^ 2]
  norm_num [hessThreeA]
  ring

end

theorem tau_lt_one {F : ℝ} (hF : F ≤ 100) (hF0 : 0 ≤ F) : 2 * (1 / 2 ^ 52) * F + 3 / 2 ^ 970 < 1 / 1000 := by
  have h2 : (3 : ℝ) / 2 ^ 970 ≤ 3 / 2 ^ 52 := by
    apply div_le_div_of_nonneg_left (by norm_num) (by positivity)
    exact pow_le_pow_right₀ (by norm_num) (by norm_num)
  have h3 : 2 * (1 / 2 ^ 52 : ℝ) * F ≤ 2 * (1 / 2 ^ 52) * 100 := by gcongr
  refine lt_of_le_of_lt (add_le_add h3 h2) ?_
  norm_num

/-- The matrix with rows `(1, 2, 1)`, `(1, 4, 2)`, `(0, 2, 1)` has the eigenvalue 0, which is also the eigenvalue of the trailing block
nearer to 1: `dlahqr` returns it, exactly. -/
theorem C68_example_shift (pr : Profile) : ∃ ret : HqrRet (FA XR) (List XR) (List XR) (FA XR),
    dlahqr (F := XR) 3 true false 3 1 3 (hessThree 1 2 1 1 4 2 2 1) 3 [XR.nan, XR.nan, XR.nan] [XR.nan, XR.nan, XR.nan] 1 1 quarter 2 pr = .ok ret ∧ ret.info = 0 ∧
    ret.wr[2]? = some (fin 0) ∧ ret.wi[2]? = some (fin 0) := by
  have hF : fro (block 1 (1 + 2) (hessThreeA 1 2 1 1 4 2 2 1)) ≤ 100 := by
    rw [hessThree_fro, Real.sqrt_le_left (by norm_num)]; norm_num
  have hτ := tau_lt_one hF (fro_nonneg _)
  have hτ0 : 0 ≤ 2 * (1 / 2 ^ 52) * fro (block 1 (1 + 2) (hessThreeA 1 2 1 1 4 2 2 1)) + 3 / 2 ^ 970 := by have := fro_nonneg (block 1 (1 + 2) (hessThreeA 1 2 1 1 4 2 2 1)); positivity
  obtain ⟨ret, e1, e2, Q, T, er, ei, -, -, -, e3, e4, e5, e6⟩ := C68_dlahqr_exact_shift 0 false 3 1 (hessThree 1 2 1 1 4 2 2 1) 3 3 [XR.nan, XR.nan, XR.nan]
    [XR.nan, XR.nan, XR.nan] 1 1 quarter 2 2 2
    (hessThree_matrix _ _ _ _ _ _ _ _) (by norm_num) (by norm_num) (by norm_num) (by norm_num) (hessThree_input _ _ _ _ _ _ _ _) (hF.trans (by
      exact le_trans (show (100 : ℝ) ≤ 2 ^ 7 by norm_num) (pow_le_pow_right₀ (by norm_num) (by norm_num)))) (fun h => by cases h) (Z0 := fun _ _ => 0) (fun h => by cases h) (σ := 0) rfl
    (by refine hτ.trans ?_; norm_num [hessThreeA]) (by refine hτ.trans ?_; norm_num [hessThreeA])
    ⟨by norm_num [hessThreeA], by norm_num [hessThreeA], by rw [Matrix.det_fin_three]; simp [hessThreeA]; norm_num, by
      generalize 2 * (1 / 2 ^ 52) * fro (block 1 (1 + 2) (hessThreeA 1 2 1 1 4 2 2 1)) + 3 / 2 ^ 970 = t at hτ hτ0
      rintro v1 v2 v3 w1 w2 w3 q1 q2 q3 q4 q5 q6
      norm_num [hessThreeA] at q1 q2 q3
      subst q1 q2 q3
      norm_num [hessThreeA] at q4 q5 q6
      subst q4 q5 q6
      nlinarith⟩ pr
  refine ⟨ret, e1, e2, ?_, ?_⟩
  · have := e5 3 (by norm_num) (by norm_num) (by simp)
    rw [show ((3 : ℤ) - 1).toNat = 2 from rfl, show (3 : ℤ) = 1 + 2 by norm_num, e3] at this
    exact this
  · have := e6 3 (by norm_num) (by norm_num) (by simp)
    rw [show ((3 : ℤ) - 1).toNat = 2 from rfl, show (3 : ℤ) = 1 + 2 by norm_num, e4] at this
    exact this

/-- On the matrix with rows `(1, 0, 0)`, `(1, 0, 1)`, `(0, -1, 0)`, whose eigenvalues are 1, `i` and `-i`, `dlahqr` never returns. -/
theorem C68_example_pair (fuel : Nat) :
    dlahqr (F := XR) fuel true false 3 1 3 (hessThree 1 0 0 1 0 1 (-1) 0) 3 [XR.nan, XR.nan, XR.nan] [XR.nan, XR.nan, XR.nan] 1 1 quarter 2 = R.timeout := by
  have hF : fro (block 1 (1 + 2) (hessThreeA 1 0 0 1 0 1 (-1) 0)) ≤ 100 := by
    rw [hessThree_fro, Real.sqrt_le_left (by norm_num)]; norm_num
  have hτ := tau_lt_one hF (fro_nonneg _)
  exact C68_dlahqr_exact_pair fuel false 3 1 (hessThree 1 0 0 1 0 1 (-1) 0) 3 3 [XR.nan, XR.nan, XR.nan]
    [XR.nan, XR.nan, XR.nan] 1 1 quarter 2 2 2
    (hessThree_matrix _ _ _ _ _ _ _ _) (by norm_num) (by norm_num) (by norm_num) (by norm_num) (hessThree_input _ _ _ _ _ _ _ _) (hF.trans (by
      exact le_trans (show (100 : ℝ) ≤ 2 ^ 7 by norm_num) (pow_le_pow_right₀ (by norm_num) (by norm_num)))) (fun h => by cases h) (Z0 := fun _ _ => 0) (fun h => by cases h) rfl
    (by refine hτ.trans ?_; norm_num [hessThreeA]) (by refine hτ.trans ?_; norm_num [hessThreeA]) (by norm_num [hessThreeA]) (by norm_num [hessThreeA]) (by norm_num [hessThreeA])

end Verif
