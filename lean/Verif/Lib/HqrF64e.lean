import Verif.Lib.HqrF64d

/-!
# The bulge chase of `dlahqr` on binary64
-/

namespace Verif
open F64 Scalar Spec Matrix XR

/-! ### The rows of `z` -/

/-- The row `x` holds, up to `δ`, the row `X0` times `Q`. -/
structure ZRow (lo hi : ℤ) (x : ℤ → Float) (X0 : ℤ → ℝ) (Q : Matrix (Blk lo hi) (Blk lo hi) ℝ) (δ : ℝ) : Prop where
  fin : ∀ b, lo ≤ b → b ≤ hi → (x b).isFinite = true
  close : fro (colsM lo hi (fun (_ : Unit) b => toR (x b)) - colsM lo hi (fun _ => X0) * Q) ≤ δ

section zrow
variable {lo hi i k : ℤ} {x : ℤ → Float} {X0 : ℤ → ℝ} {Q : Matrix (Blk lo hi) (Blk lo hi) ℝ} {δ C : ℝ}

theorem ZRow.mono {δ' : ℝ} (h : ZRow lo hi x X0 Q δ) (hd : δ ≤ δ') : ZRow lo hi x X0 Q δ' := ⟨h.fin, h.close.trans hd⟩

theorem ZRow.norm (h : ZRow lo hi x X0 Q δ) (hQ : Q.transpose * Q = 1) :
    fro (colsM lo hi (fun (_ : Unit) b => toR (x b))) ≤ fro (colsM lo hi (fun (_ : Unit) => X0)) + δ := by
  have e : colsM lo hi (fun (_ : Unit) b => toR (x b)) =
      colsM lo hi (fun (_ : Unit) => X0) * Q + (colsM lo hi (fun (_ : Unit) b => toR (x b)) - colsM lo hi (fun _ => X0) * Q) := by abel
  rw [e]
  refine (fro_add _ _).trans ?_
  rw [fro_mul_right _ (blk_orth hQ)]
  linarith [h.close]

/-- A reflector applied to a row of `z`. -/
theorem ZRow.refl (h : ZRow lo hi x X0 Q δ) (hQ : Q.transpose * Q = 1) (hC : fro (colsM lo hi (fun (_ : Unit) => X0)) + δ ≤ C) (hCb : C ≤ big)
    (hlk : lo ≤ k) (hki : k + 1 ≤ i) (hih : i ≤ hi) {v2 v3 t : Float} {V2 V3 θ : ℝ} (hR : NearR i k v2 v3 t V2 V3 θ) (hrefl : Refl V2 V3 θ) :
    ZRow lo hi (reflG i k v2 v3 t x) X0 (Q * houseM lo hi k V2 V3 θ) (δ + (2320 * ur * C + 24 * eta)) := by
  have u0 := ur_pos
  have e0 := eta_pos
  have z3 : k + 2 ≤ i ∨ V3 = 0 := by
    by_cases h : k + 2 ≤ i
    · exact Or.inl h
    · exact Or.inr (hR.z3 h)
  have hin : Inside lo hi k V3 := ⟨hlk, by omega, by rcases z3 with w | w <;> [exact Or.inl (by omega); exact Or.inr w]⟩
  set X := colsM lo hi (fun (_ : Unit) b => toR (x b)) with hX
  have nX : fro X ≤ C := (h.norm hQ).trans hC
  have ent : ∀ j, lo ≤ j → j ≤ hi → |toR (x j)| ≤ cnorm X.transpose () := fun j j1 j2 =>
    cnorm_entry X.transpose ⟨j, Finset.mem_Icc.2 ⟨j1, j2⟩⟩ ()
  have nb : cnorm X.transpose () ≤ big := by
    refine (cnorm_le _ _).trans ?_
    rw [fro_transpose]; linarith
  have near := fun j (j1 : k ≤ j) (j2 : j ≤ k + 2) (j3 : j ≤ i) => reflG_near (x := x) (M := cnorm X.transpose ()) hR (cnorm_nonneg _ _) nb
    (fun j j1 j2 j3 => ⟨h.fin j (by omega) (by omega), ent j (by omega) (by omega)⟩) hki j1 j2 j3
  have same : ∀ j, ¬ (k ≤ j ∧ j ≤ k + 2 ∧ j ≤ i) → reflG i k v2 v3 t x j = x j ∧ house k V2 V3 θ (fun j => toR (x j)) j = toR (x j) := by
    intro j hj
    constructor
    · exact reflG_ne (by omega) (by omega) (by omega)
    · have h3 : j ≠ k + 2 ∨ V3 = 0 := by
        rcases z3 with w | w
        · left; omega
        · exact Or.inr w
      rw [house_ne _ (by omega) (by omega) h3]
  constructor
  · intro b b1 b2
    by_cases hb : k ≤ b ∧ b ≤ k + 2 ∧ b ≤ i
    · exact (near b hb.1 hb.2.1 hb.2.2).1
    · rw [(same b hb).1]; exact h.fin b b1 b2
  · set Y := colsM lo hi (fun (_ : Unit) b => toR (reflG i k v2 v3 t x b)) with hY
    have eH : X * houseM lo hi k V2 V3 θ = colsM lo hi (fun (_ : Unit) => house k V2 V3 θ fun j => toR (x j)) := mul_houseM hin _
    have hD : fro (Y - X * houseM lo hi k V2 V3 θ) ≤ 2 * (1160 * ur * fro X) + 2 * ∑ _a : Unit, 12 * eta := by
      rw [eH]
      refine fro_cols (y := fun _ => 12 * eta) (rows3 lo hi k) (card_rows3 k) (by linarith) (fun _ => by linarith) ?_ ?_
      · intro b hb a
        rw [mem_rows3] at hb
        rw [Matrix.sub_apply, hY]
        simp only [colsM]
        obtain ⟨s1, s2⟩ := same b (by tauto)
        rw [s1, s2, sub_self]
      · intro b hb a
        rw [mem_rows3] at hb
        rw [Matrix.sub_apply, hY]
        simp only [colsM]
        by_cases hbi : (b : ℤ) ≤ i
        · have := (near b hb.1 hb.2 hbi).2
          simp only [hX] at this
          rw [← mul_assoc] at this
          exact this
        · obtain ⟨s1, s2⟩ := same b (by tauto)
          rw [s1, s2, sub_self, abs_zero]
          have := mul_nonneg u0.le (cnorm_nonneg X.transpose a)
          linarith
    have e : Y - colsM lo hi (fun (_ : Unit) => X0) * (Q * houseM lo hi k V2 V3 θ) =
        (X - colsM lo hi (fun (_ : Unit) => X0) * Q) * houseM lo hi k V2 V3 θ + (Y - X * houseM lo hi k V2 V3 θ) := by
      rw [Matrix.sub_mul, Matrix.mul_assoc]; abel
    rw [e]
    refine (fro_add _ _).trans ?_
    rw [fro_mul_right _ (by rw [houseM_symm, houseM_orth hin hrefl])]
    have h1 := h.close
    rw [← hX] at h1
    have h2 : ur * fro X ≤ ur * C := mul_le_mul_of_nonneg_left nX u0.le
    simp only [Finset.univ_unique, Finset.sum_const, Finset.card_singleton, one_smul] at hD
    linarith

end zrow

/-! ### The column in front of the reflector -/

section col
variable {lo hi l i m k : ℤ} {G0 : ℤ → ℤ → XR} {g : ℤ → ℤ → Float} {T0 T : ℤ → ℤ → ℝ} {x y w beta v2 v3 t : Float} {β V2 V3 θ B : ℝ}

/-- What is known of the vector a sweep starts with. -/
structure StartF (l m : ℤ) (T : ℤ → ℤ → ℝ) (B : ℝ) (x y w : Float) : Prop where
  fx : x.isFinite = true
  fy : y.isFinite = true
  fw : w.isFinite = true
  bx : |toR x| ≤ 2
  by' : |toR y| ≤ 2
  bw : |toR w| ≤ 2
  big : 1 / 4 ≤ |toR x| ∨ 1 / 4 ≤ |toR y| ∨ 1 / 4 ≤ |toR w|
  test : l < m → |T m (m - 1)| * (|toR y| + |toR w|) ≤ 7 * (ur * B) * |toR x| + (ur * B + 4 * eta)

theorem col_near (hW : Win lo hi l i m k G0 (xg g) T0 T) (hlo : lo ≤ l) (hhi : i ≤ hi) (hlm : l ≤ m) (hmk : m ≤ k) (hki : k + 1 ≤ i)
    (hm2 : m + 2 ≤ i) (hR : NearR i k v2 v3 t V2 V3 θ)
    (hH : HeadF (toR (headG m i k g x y w).1) (toR (headG m i k g x y w).2.1) (if k + 2 ≤ i then toR (headG m i k g x y w).2.2 else 0) beta β V2 V3 θ)
    (hB : fro (block lo hi T) ≤ B) (hBb : 1024 * B ≤ big) (hst : k = m → StartF l m T B x y w) (hlk : l ≤ k - 1) {a : ℤ} (a1 : k ≤ a) (a2 : a ≤ k + 2) (a3 : a ≤ i) :
    (colG m l i k beta t g a (k - 1)).isFinite = true ∧
      |toR (colG m l i k beta t g a (k - 1)) - houseL k V2 V3 θ T a (k - 1)| ≤ 300 * ur * B + 20 * eta + mu ∧
      (k + 1 ≤ a → toR (colG m l i k beta t g a (k - 1)) = 0) := by
  have u0 := ur_pos
  have us := ur_small
  have e0 := eta_pos
  have m0 := mu_pos
  have B0 : 0 ≤ B := (fro_nonneg _).trans hB
  have uB0 : 0 ≤ ur * B := mul_nonneg u0.le B0
  have z3 : k + 2 ≤ i ∨ V3 = 0 := by
    by_cases h : k + 2 ≤ i
    · exact Or.inl h
    · exact Or.inr (hR.z3 h)
  have val : ∀ j, l ≤ j → j ≤ i → (g j (k - 1)).isFinite = true ∧ toR (g j (k - 1)) = T j (k - 1) := fun j j1 j2 => hW.fin ⟨j1, j2, hlk, by omega⟩
  have ent : ∀ j, lo ≤ j → j ≤ hi → |T j (k - 1)| ≤ B := fun j j1 j2 =>
    (fro_entry (block lo hi T) ⟨j, Finset.mem_Icc.2 ⟨j1, j2⟩⟩ ⟨k - 1, Finset.mem_Icc.2 ⟨by omega, by omega⟩⟩).trans hB
  have hin : Inside lo hi k V3 := ⟨by omega, by omega, by rcases z3 with w | w <;> [exact Or.inl (by omega); exact Or.inr w]⟩
  have entH : |houseL k V2 V3 θ T k (k - 1)| ≤ B := by
    have := fro_entry (block lo hi (houseL k V2 V3 θ T)) ⟨k, Finset.mem_Icc.2 ⟨by omega, by omega⟩⟩ ⟨k - 1, Finset.mem_Icc.2 ⟨by omega, by omega⟩⟩
    rw [fro_houseL hin hH.refl] at this
    exact this.trans hB
  by_cases hk : m < k
  · unfold headG at hH
    simp only [if_pos hk] at hH
    obtain ⟨f1, q1⟩ := val k (by omega) (by omega)
    obtain ⟨f2, q2⟩ := val (k + 1) (by omega) (by omega)
    have e3 : V3 * T (k + 2) (k - 1) = V3 * (if k + 2 ≤ i then toR (if k + 2 ≤ i then g (k + 2) (k - 1) else w) else 0) := by
      rcases z3 with h | h
      · rw [if_pos h, if_pos h, (val (k + 2) (by omega) h).2]
      · rw [h]; ring
    rw [q1, q2] at hH
    have eq1 : houseL k V2 V3 θ T k (k - 1) = β := by
      unfold houseL house
      beta_reduce
      rw [dirv0, e3, ← hH.e1]; ring
    rcases (by omega : a = k ∨ a = k + 1 ∨ a = k + 2) with h | h | h
    · subst h
      have ec : colG m l i a beta t g a (a - 1) = beta := by unfold colG; rw [if_pos rfl, if_pos hk, if_pos rfl]
      rw [ec]
      refine ⟨hH.fin, ?_, fun h => by omega⟩
      rw [eq1] at entH ⊢
      have := hH.err
      have h2 : ur * |β| ≤ ur * B := mul_le_mul_of_nonneg_left entH u0.le
      linarith
    · subst h
      have ec : colG m l i k beta t g (k + 1) (k - 1) = Scalar.zero := by unfold colG; rw [if_pos rfl, if_pos hk, if_neg (by omega), if_pos (Or.inl rfl)]
      rw [ec]
      refine ⟨rfl, ?_, fun _ => toR_zero.2⟩
      have := hH.e2
      have e : houseL k V2 V3 θ T (k + 1) (k - 1) = T (k + 1) (k - 1) - θ * V2 * (T k (k - 1) + V2 * T (k + 1) (k - 1) +
          V3 * (if k + 2 ≤ i then toR (if k + 2 ≤ i then g (k + 2) (k - 1) else w) else 0)) := by
        unfold houseL house
        beta_reduce
        rw [dirv1, e3]
      rw [toR_zero.2, zero_sub, abs_neg, e]
      linarith
    · subst h
      have hk2 : k + 2 ≤ i := a3
      have ec : colG m l i k beta t g (k + 2) (k - 1) = Scalar.zero := by
        unfold colG; rw [if_pos rfl, if_pos hk, if_neg (by omega), if_pos (Or.inr ⟨rfl, hk2⟩)]
      rw [ec]
      refine ⟨rfl, ?_, fun _ => toR_zero.2⟩
      have := hH.e3
      have e : houseL k V2 V3 θ T (k + 2) (k - 1) = T (k + 2) (k - 1) - θ * V3 * (T k (k - 1) + V2 * T (k + 1) (k - 1) +
          V3 * (if k + 2 ≤ i then toR (if k + 2 ≤ i then g (k + 2) (k - 1) else w) else 0)) := by
        unfold houseL house
        beta_reduce
        rw [dirv2, e3]
      rw [toR_zero.2, zero_sub, abs_neg, e]
      simp only [if_pos hk2] at this ⊢
      rw [(val (k + 2) (by omega) hk2).2] at this ⊢
      linarith
  · have hkm : k = m := by omega
    subst hkm
    have st := hst rfl
    unfold headG at hH
    simp only [if_neg hk, if_pos hm2] at hH
    have zz1 : T (k + 1) (k - 1) = 0 := hW.hess _ _ hlk (by omega) (by omega) (by omega) (by omega)
    have zz2 : T (k + 2) (k - 1) = 0 := hW.hess _ _ hlk (by omega) (by omega) (by omega) (by omega)
    have hh : ∀ a, houseL k V2 V3 θ T a (k - 1) = T a (k - 1) - θ * dirv k V2 V3 a * T k (k - 1) := by
      intro a
      unfold houseL house
      beta_reduce
      rw [zz1, zz2]; ring
    -- the fill-in
    have fill : ∀ V q : ℝ, |θ * V| * |β| ≤ q → |T k (k - 1)| * q ≤ 7 * (ur * B) * |toR x| + (ur * B + 4 * eta) → |θ * V * T k (k - 1)| ≤ 11 * (ur * B) + 16 * eta := by
      intro V q hq hT
      rcases hH.low with h0 | ⟨l1, l2, l3⟩
      · rw [h0]; simp only [zero_mul, abs_zero]; linarith
      · have b4 : 1 / 4 ≤ |β| := by
          rcases st.big with h | h | h <;> linarith
        have h1 : |θ * V * T k (k - 1)| * |β| ≤ (11 * (ur * B) + 16 * eta) * |β| := by
          calc |θ * V * T k (k - 1)| * |β| = |T k (k - 1)| * (|θ * V| * |β|) := by rw [abs_mul]; ring
            _ ≤ |T k (k - 1)| * q := mul_le_mul_of_nonneg_left hq (abs_nonneg _)
            _ ≤ 7 * (ur * B) * |toR x| + (ur * B + 4 * eta) := hT
            _ ≤ 7 * (ur * B) * |β| + (ur * B + 4 * eta) * (4 * |β|) := by
                have h1 := mul_le_mul_of_nonneg_left l1 (show 0 ≤ 7 * (ur * B) by linarith)
                have h2 := mul_le_mul_of_nonneg_left (show 1 ≤ 4 * |β| by linarith) (show 0 ≤ ur * B + 4 * eta by linarith)
                linarith
            _ = _ := by ring
        exact le_of_mul_le_mul_right h1 (by linarith)
    obtain ⟨f1, q1⟩ := val k (by omega) (by omega)
    have tst := st.test (by omega)
    have tk0 := abs_nonneg (T k (k - 1))
    rcases (by omega : a = k ∨ a = k + 1 ∨ a = k + 2) with h | h | h
    · subst h
      have ec : colG a l i a beta t g a (a - 1) = g a (a - 1) * (Scalar.one - t) := by
        unfold colG; rw [if_pos rfl, if_neg hk, if_pos ⟨by omega, rfl⟩]
      rw [ec]
      have o1 : (Scalar.one : Float).isFinite = true := rfl
      have o2 : toR (Scalar.one : Float) = 1 := toR_one.2
      have B1 := one_le_big
      have t2 := abs_le.1 hR.t1.le
      have t0 := hH.t0
      have s1 : |(1 : ℝ) - θ| ≤ 1 := abs_le.2 ⟨by linarith, by linarith⟩
      obtain ⟨f2, q2⟩ := sub_near (S := 3 / 2) o1 hR.t1.fin (X := 1) (e1 := 0) (by rw [o2]; simp) hR.t1.err (by linarith) (by linarith)
      have q2' : |toR ((Scalar.one : Float) - t) - (1 - θ)| ≤ 282 * ur := by linarith
      have bk := ent a (by omega) (by omega)
      have uuB : ur * (ur * B) ≤ ur * B / 1000000000000000 := by have := mul_le_mul_of_nonneg_right us uB0; linarith
      have uB : ur * B ≤ B / 1000000000000000 := by have := mul_le_mul_of_nonneg_right us B0; linarith
      have e2 : (B + 0) * (1 + 282 * ur) = B + 282 * (ur * B) := by ring
      obtain ⟨f3, q3⟩ := mul_near f1 f2 (X := T a (a - 1)) (e1 := 0) (by rw [q1]; simp) q2' bk s1 (by rw [e2]; linarith)
      refine ⟨f3, ?_, fun h => by omega⟩
      rw [hh, dirv0, show T a (a - 1) - θ * 1 * T a (a - 1) = T a (a - 1) * (1 - θ) by ring]
      refine q3.trans ?_
      rw [e2]
      have e5 : ur * (B + 282 * (ur * B)) = ur * B + 282 * (ur * (ur * B)) := by ring
      rw [e5]
      linarith
    · subst h
      obtain ⟨f2, q2⟩ := val (k + 1) (by omega) (by omega)
      have ec : colG k l i k beta t g (k + 1) (k - 1) = g (k + 1) (k - 1) := by
        unfold colG; rw [if_pos rfl, if_neg hk, if_neg (by omega)]
      rw [ec, hh, dirv1, q2, zz1]
      refine ⟨f2, ?_, fun _ => rfl⟩
      have := fill V2 |toR y| hH.fill2 (by
        refine le_trans ?_ tst
        exact mul_le_mul_of_nonneg_left (by linarith [abs_nonneg (toR w)]) tk0)
      rw [show (0 : ℝ) - (0 - θ * V2 * T k (k - 1)) = θ * V2 * T k (k - 1) by ring]
      linarith
    · subst h
      obtain ⟨f2, q2⟩ := val (k + 2) (by omega) (by omega)
      have ec : colG k l i k beta t g (k + 2) (k - 1) = g (k + 2) (k - 1) := by
        unfold colG; rw [if_pos rfl, if_neg hk, if_neg (by omega)]
      rw [ec, hh, dirv2, q2, zz2]
      refine ⟨f2, ?_, fun _ => rfl⟩
      have := fill V3 |toR w| hH.fill3 (by
        refine le_trans ?_ tst
        exact mul_le_mul_of_nonneg_left (by linarith [abs_nonneg (toR y)]) tk0)
      rw [show (0 : ℝ) - (0 - θ * V3 * T k (k - 1)) = θ * V3 * T k (k - 1) by ring]
      linarith

end col

end Verif
