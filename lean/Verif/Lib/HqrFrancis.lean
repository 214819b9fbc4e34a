import Verif.Lib.HqrOuter

/-!
# A sweep over a block of order three is a double-shift QR step
-/

namespace Verif
open Scalar Spec XR

theorem fro_eq_zero {m n : Type} [Fintype m] [Fintype n] {E : Matrix m n ℝ} (h : fro E = 0) : E = 0 := by
  have h2 := fro_sq E
  rw [h] at h2
  ext a b
  have h3 := (Finset.sum_eq_zero_iff_of_nonneg (fun a _ => Finset.sum_nonneg fun b _ => sq_nonneg (E a b))).1
    (show ∑ a, ∑ b, E a b ^ 2 = 0 by rw [← h2]; norm_num) a (Finset.mem_univ a)
  have h4 := (Finset.sum_eq_zero_iff_of_nonneg (fun b _ => sq_nonneg (E a b))).1 h3 b (Finset.mem_univ b)
  exact pow_eq_zero_iff (by norm_num) |>.1 h4

section
variable {p : HqrP XR} {r c rz cz : Nat} {i : ℤ} {T : ℤ → ℤ → ℝ} {u : ℝ}

/-- `T' = Qᵀ T Q` for an orthogonal `Q` whose column `l` is `(x, y, w)` normalised. -/
def Francis (lo hi l : ℤ) (T T' : ℤ → ℤ → ℝ) (x y w : ℝ) : Prop :=
  ∃ Q : Matrix (Blk lo hi) (Blk lo hi) ℝ, Q.transpose * Q = 1 ∧ block lo hi T' = Q.transpose * block lo hi T * Q ∧
    ∃ β : ℝ, β ^ 2 = x ^ 2 + y ^ 2 + w ^ 2 ∧ ∀ a b : Blk lo hi, (b : ℤ) = l → β * Q a b =
      (if (a : ℤ) = l then 1 else 0) * x + (if (a : ℤ) = l + 1 then 1 else 0) * y + (if (a : ℤ) = l + 2 then 1 else 0) * w

theorem sweep_three (hd : Dim p r c rz cz) {A : Matrix (Blk p.ilo p.ihi) (Blk p.ilo p.ihi) ℝ} {Z0 : ℤ → ℤ → ℝ} {zg0 : ℤ → ℤ → XR}
    {B δ : ℝ} (hB : B ≤ 2 ^ 500) (hu : p.ulp = fin u) {T0 : ℤ → ℤ → ℝ} {s : HqrS XR} (hli : s.l + 2 = i) (hhi : i ≤ p.ihi)
    (hs : Inn p r c rz cz A Z0 zg0 B δ i T0 s.h s.z s.v s.l T) (hT : ∀ j, s.l < j → j ≤ i → T j (j - 1) ≠ 0)
    (hk1 : (s.kdefl + 1).tmod 20 ≠ 0) (hk2 : (s.kdefl + 1).tmod 10 ≠ 0) :
    Tot (hqrSweep p i s) fun s' => s'.l = s.l ∧ s'.k = s.k ∧
      ∃ T', Inn p r c rz cz A Z0 zg0 B δ i T0 s'.h s'.z s'.v s'.l T' ∧
        ∃ a b c d x y w : ℝ, hqrShifts (fin (T (i - 1) (i - 1))) (fin (T (i - 1) i)) (fin (T i (i - 1))) (fin (T i i)) = (fin a, fin b, fin c, fin d) ∧
          StartVec T a b c d s.l x y w ∧ w ≠ 0 ∧ Francis p.ilo p.ihi s.l T T' x y w := by
  obtain ⟨⟨g, hh, hR⟩, ⟨Zq, hG, hZ⟩, ⟨x0, y0, w0, hv⟩, hlo, htop, hbot, hsame⟩ := hs
  have ha : Active s.l i g T := hR.active hlo hhi hT
  unfold hqrSweep
  have e1 : hqrShiftMat s.h (s.kdefl + 1) i s.l = pure (fin (T (i - 1) (i - 1)), fin (T (i - 1) i), fin (T i (i - 1)), fin (T i i)) := by
    unfold hqrShiftMat
    simp only [if_neg hk1, if_neg hk2]
    rw [ha.get hd hlo hhi hh (by omega) (by omega) (by omega) (by omega), ha.get hd hlo hhi hh (by omega) (by omega) (by omega) (by omega),
      ha.get hd hlo hhi hh (by omega) (by omega) (by omega) (by omega), ha.get hd hlo hhi hh (by omega) (by omega) (by omega) (by omega)]
    rfl
  obtain ⟨q1, q2, q3, q4, e2⟩ := shifts_ok (T (i - 1) (i - 1)) (T (i - 1) i) (T i (i - 1)) (T i i)
  obtain ⟨m, v', e3, m1, m2, x, y, w, hw, x1, y1, w1, w0', hst, -⟩ := start_ok hd hu hlo hhi hh ha hT q1 q2 q3 q4 (cm := i - 2) (by omega)
    (by omega) hv s.m
  have hm : m = s.l := by omega
  subst hm
  simp only [hd.wantt, if_true]
  rw [e1, pure_bind]
  simp only
  rw [e2]
  simp only
  rw [e3, pure_bind]
  simp only
  have one_le : (1 : ℝ) ≤ 2 ^ 500 := one_le_pow₀ (by norm_num)
  have d1 : ∀ a b, s.l ≤ a → a ≤ p.ihi → p.ilo ≤ b → b < s.l → T a b = 0 := fun a b a1 a2 b1 b2 => hR.cross htop a1 a2 b1 b2
  have d2 : ∀ a b, i < a → a ≤ p.ihi → p.ilo ≤ b → b ≤ i → T a b = 0 := fun a b a1 a2 b1 b2 =>
    hR.cross (d := i + 1) (fun _ => by rw [show i + 1 - 1 = i by ring]; exact hbot (by omega)) (by omega) a2 b1 (by omega)
  have start : Chase p r c rz cz A Z0 zg0 B δ 0 s.l i s.l g T (fun a b => if a = b then 1 else 0) x y w s.l (s.h, s.z, v') := by
    refine ⟨⟨g, T, Zq, x, y, w, hh, ⟨ha, fun _ _ _ => rfl, fun _ _ _ _ => rfl, d1, d2, ?_⟩, ?_, hZ, hw, fun _ => ?_, _, ?_, fun _ => ⟨rfl, rfl, rfl, rfl⟩,
      fun h => absurd h (lt_irrefl _)⟩⟩
    · exact fun a b b1 hba ai _ _ => hR.hess a b (by omega) hba (by omega)
    · rw [if_neg (lt_irrefl _)]; exact hG
    · exact ⟨x1.trans one_le, y1.trans one_le, w1.trans one_le, fun h => absurd h (lt_irrefl _)⟩
    · rw [if_neg (lt_irrefl _)]
      exact ⟨⟨1, 0, backward_start T, by rw [Matrix.mul_one]⟩, hG.nrm⟩
  refine Tot.bind (chase_all hd hB (le_refl 0) hlo hhi (le_refl _) (by omega) start) ?_
  rintro ⟨h', z', v''⟩ ⟨⟨g', T', Zq', x', y', w', hh', hW, hG', hZ', hv', -, Zp, hGp, hC⟩⟩
  rw [if_pos (by omega), add_zero] at hG' hGp
  refine Tot.pure ⟨rfl, rfl, T', ?_, q1, q2, q3, q4, x, y, w, rfl, hst, w0', ?_⟩
  · refine ⟨⟨g', hh', ?_⟩, ⟨Zq', hG', hZ'⟩, ⟨x', y', w', hv'⟩, hlo, ?_, ?_, ?_⟩
    · exact rel_of_win hR hlo (by omega) hhi hW.win (fun a b hab _ => hW.outg a b hab) hW.outT hW.dec1 hW.dec2
        (fun a b b1 hba ai => hW.hess a b b1 hba ai (by omega) (by omega)) d1 d2
    · intro hl
      have hl' : p.ilo < s.l := hl
      exact hW.dec1 s.l (s.l - 1) (le_refl _) (by omega) (by omega) (by omega)
    · exact fun hl => hW.dec2 _ _ (by omega) (by omega) (by omega) (by omega)
    · intro a b a1 b1
      rw [hW.outT a b (by omega) (by omega)]
      exact hsame a b a1 b1
  · obtain ⟨⟨Q, E, hQ, hZQ⟩, -⟩ := hGp
    obtain ⟨β, b1, b2⟩ := hC.2 (by omega)
    have hE : E = 0 := fro_eq_zero (le_antisymm hQ.bound (fro_nonneg _))
    refine ⟨Q, hQ.orth, by rw [hQ.eq, hE, add_zero], β, b1, fun a b hb => ?_⟩
    have hq : Q a b = Zp a b := by
      have := congrFun (congrFun hZQ a) b
      rw [Matrix.mul_apply] at this
      simp only [colsM] at this
      rw [this]
      simp [Subtype.val_inj]
    rw [hq, hb]
    exact b2 a

end

end Verif
