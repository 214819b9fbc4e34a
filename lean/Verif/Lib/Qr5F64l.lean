import Verif.Lib.Qr5F64k

/-!
# The products at the end of a sweep of `dlaqr5` on binary64: the errors
-/

namespace Verif
open F64 Scalar Spec

theorem toR_idF (a b : ℤ) : toR (unitF a b) = idT a b := by
  unfold unitF idT
  split
  · exact toR_one'.2
  · exact toR_zero.2

theorem idF_bn (a b : ℤ) : Bn (unitF a b) 1 := by
  constructor
  · unfold unitF
    split
    · exact toR_one'.1
    · exact toR_zero.1
  · rw [toR_idF]
    unfold idT
    split <;> norm_num

theorem big8 : 8 ≤ big := by
  unfold big
  calc (8 : ℝ) = 2 ^ 3 := by norm_num
    _ ≤ 2 ^ 1000 := pow_le_pow_right₀ (by norm_num) (by norm_num)

/-- An entry of a product with the accumulated reflectors. -/
theorem gemm_apply {hz nota : Bool} {nu : Nat} {w1 kb : ℤ} {rs : List RflF} (good : ∀ r ∈ rs, r.Good w1 (w1 + nu - 1) kb) (len : rs.length ≤ 2) (hnu : nu ≤ 4) {M : ℝ}
    (M0 : 0 ≤ M) (hM : 1024 * M ≤ big) {x : ℤ → Float} (hx : ∀ j, w1 ≤ j → j ≤ w1 + nu - 1 → Bn (x j) M) {i : ℤ} (i1 : w1 ≤ i) (i2 : i ≤ w1 + nu - 1)
    {Uh : Nat → Float} (hU : ∀ l < nu, Uh l = applyF kb rs (unitF (w1 + l)) i) (c : Float) :
    (gemmEntry nota nu one zero (fun l => if hz then Uh l else x (w1 + l)) (fun l => if hz then x (w1 + l) else Uh l) c).isFinite = true ∧
      |toR (gemmEntry nota nu one zero (fun l => if hz then Uh l else x (w1 + l)) (fun l => if hz then x (w1 + l) else Uh l) c) -
        applyV (rs.map RflF.ex) (fun j => toR (x j)) i| ≤ 28800 * (ur * M) + 150 * eta := by
  have u0 := ur_pos
  have us := ur_small
  have e0 := eta_pos
  have eu := eta_le_ur
  have b8 := big8
  have uM0 : 0 ≤ ur * M := mul_nonneg u0.le M0
  have eM : eta * M ≤ ur * M := mul_le_mul_of_nonneg_right eu M0
  have eM0 : 0 ≤ eta * M := mul_nonneg e0.le M0
  set U : Nat → ℝ := fun l => applyV (rs.map RflF.ex) (idT (w1 + l)) i with hUd
  have near : ∀ l < nu, (Uh l).isFinite = true ∧ |toR (Uh l) - U l| ≤ 7000 * ur + 50 * eta ∧ |U l| ≤ 9 := fun l hl => by
    obtain ⟨q1, q2, q3⟩ := applyF_near (M := 1) (x := unitF (w1 + l)) good len zero_le_one (by linarith) (fun j _ _ => idF_bn _ _) i1 i2
    have e : (fun j => toR (unitF (w1 + l) j)) = idT (w1 + l) := by
      funext j
      exact toR_idF _ _
    rw [e, mul_one] at q2
    rw [e, mul_one] at q3
    rw [hU l hl]
    exact ⟨q1, q2, q3⟩
  have hUb : ∀ l < nu, Bn (Uh l) 10 := fun l hl => by
    obtain ⟨q1, q2, q3⟩ := near l hl
    refine ⟨q1, ?_⟩
    have := abs_sub_abs_le_abs_sub (toR (Uh l)) (U l)
    linarith
  have hxb : ∀ l < nu, Bn (x (w1 + l)) M := fun l hl => hx _ (by omega) (by omega)
  -- the product with the computed factors
  have key : (gemmEntry nota nu one zero (fun l => if hz then Uh l else x (w1 + l)) (fun l => if hz then x (w1 + l) else Uh l) c).isFinite = true ∧
      |toR (gemmEntry nota nu one zero (fun l => if hz then Uh l else x (w1 + l)) (fun l => if hz then x (w1 + l) else Uh l) c) -
        ∑ l ∈ Finset.range nu, toR (x (w1 + l)) * toR (Uh l)| ≤ 572 * (ur * M) + 150 * eta := by
    cases hz with
    | true =>
      obtain ⟨q1, q2⟩ := gemm4 (nota := nota) hnu (x := Uh) (y := fun l => x (w1 + l)) (a := 10) (b := M) (by norm_num) M0 hUb hxb (by linarith) (by
        unfold big
        calc (10 : ℝ) ≤ 2 ^ 4 := by norm_num
          _ ≤ 2 ^ 1000 := pow_le_pow_right₀ (by norm_num) (by norm_num)) c
      refine ⟨q1, ?_⟩
      simp only [if_true]
      have es : ∑ l ∈ Finset.range nu, toR (x (w1 + l)) * toR (Uh l) = ∑ l ∈ Finset.range nu, toR (Uh l) * toR (x (w1 + l)) :=
        Finset.sum_congr rfl fun l _ => mul_comm _ _
      rw [es]
      refine q2.trans ?_
      have : ur * (10 * M) = 10 * (ur * M) := by ring
      rw [this]
      linarith
    | false =>
      obtain ⟨q1, q2⟩ := gemm4 (nota := nota) hnu (x := fun l => x (w1 + l)) (y := Uh) (a := M) (b := 10) M0 (by norm_num) hxb hUb (by linarith) (by linarith) c
      refine ⟨q1, ?_⟩
      simp only [Bool.false_eq_true, if_false]
      refine q2.trans ?_
      have h1 : ur * (M * 10) = 10 * (ur * M) := by ring
      have h2 : eta * (10 + 4 * M) = 10 * eta + 4 * (eta * M) := by ring
      rw [h1, h2]
      linarith
  obtain ⟨q1, q2⟩ := key
  refine ⟨q1, ?_⟩
  rw [applyV_sum (S := Finset.range nu) (e := fun l => w1 + (l : ℤ)) (lo := w1) (hi := w1 + nu - 1) (fun f i j1 j2 => range_delta f j1 j2) (allIn_of_good good) _ i1 i2]
  have d : |∑ l ∈ Finset.range nu, toR (x (w1 + l)) * toR (Uh l) - ∑ l ∈ Finset.range nu, toR (x (w1 + l)) * U l| ≤ 4 * (M * (7000 * ur + 50 * eta)) := by
    rw [← Finset.sum_sub_distrib]
    refine (Finset.abs_sum_le_sum_abs _ _).trans ?_
    refine (Finset.sum_le_card_nsmul _ _ (M * (7000 * ur + 50 * eta)) fun l hl => ?_).trans ?_
    · have hl' := Finset.mem_range.1 hl
      rw [← mul_sub, abs_mul]
      exact mul_le_mul (hxb l hl').2 (near l hl').2.1 (abs_nonneg _) M0
    · rw [Finset.card_range, nsmul_eq_mul]
      exact mul_le_mul_of_nonneg_right (by exact_mod_cast hnu) (mul_nonneg M0 (by linarith))
  have e1 : M * (7000 * ur + 50 * eta) = 7000 * (ur * M) + 50 * (eta * M) := by ring
  rw [e1] at d
  refine (abs_sub_le _ _ _).trans ((add_le_add q2 d).trans ?_)
  linarith

/-! ### The rows and columns of `h` -/

section pert
variable {lo hi w1 kb i0 i1 : ℤ} {nu : Nat} {rs : List RflF}

/-- The entry of a product, compared with the reflectors applied one after the other. -/
theorem gemm_virt {hz nota : Bool} (good : ∀ r ∈ rs, r.Good w1 (w1 + nu - 1) kb) (len : rs.length ≤ 2) (hnu : nu ≤ 4) {M : ℝ}
    (M0 : 0 ≤ M) (hM : 1024 * M ≤ big) {x : ℤ → Float} (hx : ∀ j, w1 ≤ j → j ≤ w1 + nu - 1 → Bn (x j) M) {i : ℤ} (i1 : w1 ≤ i) (i2 : i ≤ w1 + nu - 1)
    {Uh : Nat → Float} (hU : ∀ l < nu, Uh l = applyF kb rs (unitF (w1 + l)) i) (c : Float) :
    (gemmEntry nota nu one zero (fun l => if hz then Uh l else x (w1 + l)) (fun l => if hz then x (w1 + l) else Uh l) c).isFinite = true ∧
      |toR (gemmEntry nota nu one zero (fun l => if hz then Uh l else x (w1 + l)) (fun l => if hz then x (w1 + l) else Uh l) c) - toR (applyF kb rs x i)| ≤
        35800 * ur * M + 200 * eta := by
  obtain ⟨q1, q2⟩ := gemm_apply (hz := hz) (nota := nota) good len hnu M0 hM hx i1 i2 hU c
  refine ⟨q1, ?_⟩
  obtain ⟨-, q3, -⟩ := applyF_near good len M0 (by linarith) hx i1 i2
  rw [abs_sub_comm] at q3
  have e : 35800 * ur * M = 28800 * (ur * M) + 7000 * (ur * M) := by ring
  rw [e]
  exact (abs_sub_le _ _ _).trans ((add_le_add q2 q3).trans (by linarith))

/-- The members of `lo..hi` in `w1..w1 + nu - 1`. -/
noncomputable def winB (lo hi w1 : ℤ) (nu : Nat) : Finset (Blk lo hi) := Finset.univ.filter fun a => w1 ≤ (a : ℤ) ∧ (a : ℤ) ≤ w1 + nu - 1

theorem mem_winB {a : Blk lo hi} : a ∈ winB lo hi w1 nu ↔ w1 ≤ (a : ℤ) ∧ (a : ℤ) ≤ w1 + nu - 1 := by simp [winB]

theorem card_winB (hnu : nu ≤ 4) : (winB lo hi w1 nu).card ≤ 4 := by
  have h1 : (winB lo hi w1 nu).card = ((winB lo hi w1 nu).image fun a : Blk lo hi => (a : ℤ)).card := by
    rw [Finset.card_image_of_injective _ Subtype.val_injective]
  have h2 : (winB lo hi w1 nu).image (fun a : Blk lo hi => (a : ℤ)) ⊆ Finset.Icc w1 (w1 + nu - 1) := by
    intro x hx
    obtain ⟨a, ha, rfl⟩ := Finset.mem_image.1 hx
    exact Finset.mem_Icc.2 (mem_winB.1 ha)
  have h3 := Finset.card_le_card h2
  rw [Int.card_Icc] at h3
  omega

/-- The change of the matrix by errors in few rows and few columns. -/
theorem fro_pert (hnu : nu ≤ 4) {T T3 T0 : ℤ → ℤ → ℝ} {B c e : ℝ} (c0 : 0 ≤ c) (e0 : 0 ≤ e) (hT0 : fro (block lo hi T0) ≤ B) {R1 R2 : ℤ → ℤ → Prop}
    (hR1 : ∀ a b, R1 a b → w1 ≤ a ∧ a ≤ w1 + nu - 1) (hR2 : ∀ a b, R2 a b → w1 ≤ b ∧ b ≤ w1 + nu - 1)
    (h1 : ∀ a b : Blk lo hi, R1 a b → |T3 a b - T a b| ≤ c * cnorm (block lo hi T0) b + e)
    (h2 : ∀ a b : Blk lo hi, R2 a b → |T3 a b - T a b| ≤ c * cnorm (block lo hi T0).transpose a + e)
    (h3 : ∀ a b : Blk lo hi, ¬ R1 a b → ¬ R2 a b → T3 a b = T a b) :
    fro (block lo hi T3 - block lo hi T) ≤ 4 * (c * B) + 4 * ((hi - lo + 1).toNat * e) := by
  classical
  set D1 : Matrix (Blk lo hi) (Blk lo hi) ℝ := fun a b => if R1 a b then T3 a b - T a b else 0 with hD1
  set D2 : Matrix (Blk lo hi) (Blk lo hi) ℝ := fun a b => if R1 a b then 0 else if R2 a b then T3 a b - T a b else 0 with hD2
  have e12 : block lo hi T3 - block lo hi T = D1 + D2 := by
    ext a b
    rw [Matrix.sub_apply, Matrix.add_apply]
    simp only [block, hD1, hD2]
    by_cases q1 : R1 a b
    · rw [if_pos q1, if_pos q1, add_zero]
    · rw [if_neg q1, if_neg q1, zero_add]
      by_cases q2 : R2 a b
      · rw [if_pos q2]
      · rw [if_neg q2, h3 a b q1 q2, sub_self]
  have card : (Fintype.card (Blk lo hi) : ℝ) = (hi - lo + 1).toNat := by
    rw [Fintype.card_coe, Int.card_Icc]
    congr 2
    ring
  have f1 : fro D1 ≤ 2 * (c * fro (block lo hi T0)) + 2 * ∑ _b : Blk lo hi, e := by
    refine fro_rows (winB lo hi w1 nu) (card_winB hnu) c0 (fun _ => e0) (fun a ha b => ?_) fun a _ b => ?_
    · simp only [hD1]
      rw [if_neg fun h => ha (mem_winB.2 (hR1 _ _ h))]
    · simp only [hD1]
      by_cases q1 : R1 a b
      · rw [if_pos q1]
        exact h1 a b q1
      · rw [if_neg q1, abs_zero]
        exact add_nonneg (mul_nonneg c0 (cnorm_nonneg _ _)) e0
  have f2 : fro D2 ≤ 2 * (c * fro (block lo hi T0)) + 2 * ∑ _b : Blk lo hi, e := by
    refine fro_cols (winB lo hi w1 nu) (card_winB hnu) c0 (fun _ => e0) (fun b hb a => ?_) fun b _ a => ?_
    · simp only [hD2]
      split
      · rfl
      · rw [if_neg fun h => hb (mem_winB.2 (hR2 _ _ h))]
    · simp only [hD2]
      have nn := add_nonneg (mul_nonneg c0 (cnorm_nonneg (block lo hi T0).transpose a)) e0
      split
      · rw [abs_zero]
        exact nn
      · by_cases q1 : R2 a b
        · rw [if_pos q1]
          exact h2 a b q1
        · rw [if_neg q1, abs_zero]
          exact nn
  rw [Finset.sum_const, Finset.card_univ, nsmul_eq_mul, card] at f1 f2
  rw [e12]
  refine (fro_add _ _).trans ?_
  have := mul_le_mul_of_nonneg_left hT0 c0
  linarith

end pert

/-! ### The rows of `z` -/

section zrow
variable {kt kb w1 : ℤ} {nu : Nat} {rs : List RflF}

/-- The reflectors as a matrix. -/
theorem applyR_mat {lo hi : ℤ} (rs : List RflF) (h : ∀ r ∈ rs, r.Good lo hi kb) : ∃ P : Matrix (Blk lo hi) (Blk lo hi) ℝ, P.transpose * P = 1 ∧
    ∀ (m : Type) (f : m → ℤ → ℝ), colsM lo hi (fun a => applyV (rs.map RflF.ex) (f a)) = colsM lo hi f * P := by
  induction rs using List.reverseRecOn with
  | nil => exact ⟨1, by simp, fun m f => by rw [Matrix.mul_one]; rfl⟩
  | append_singleton rs r ih =>
    obtain ⟨P, hP, hm⟩ := ih fun r' h' => h r' (by simp [h'])
    have hr := h r (by simp)
    refine ⟨P * houseM lo hi r.q r.V2 r.V3 r.θ, ?_, fun m f => ?_⟩
    · rw [Matrix.transpose_mul, Matrix.mul_assoc, ← Matrix.mul_assoc P.transpose, hP, Matrix.one_mul, houseM_symm, houseM_orth hr.inside hr.refl]
    · rw [← Matrix.mul_assoc, ← hm m f, mul_houseM hr.inside]
      simp only [map_ex_snoc, applyV_snoc]
      rfl

theorem RflF.Good.wider {lo hi lo' hi' : ℤ} {r : RflF} (h : r.Good lo hi kb) (h1 : lo' ≤ lo) (h2 : hi ≤ hi') (h3 : hi' ≤ kb) : r.Good lo' hi' kb :=
  ⟨h.near, h.refl, h1.trans h.q1, h.q2.trans h2, h3, fun h' => (h.third h').trans h2⟩

/-- A row of `z` multiplied by the accumulated reflectors. -/
theorem ZRow.gemm {x y : ℤ → Float} {X0 : ℤ → ℝ} {Q P : Matrix (Blk kt kb) (Blk kt kb) ℝ} {δ C : ℝ} (h : ZRow kt kb x X0 Q δ) (hQ : Q.transpose * Q = 1)
    (hC : fro (colsM kt kb (fun (_ : Unit) => X0)) + δ ≤ C) (hCb : 1024 * C ≤ big)
    (good : ∀ r ∈ rs, r.Good w1 (w1 + nu - 1) kb) (hnu : nu ≤ 4) (w1k : kt ≤ w1) (w2k : w1 + nu - 1 ≤ kb)
    (hP : P.transpose * P = 1) (hPm : ∀ (m : Type) (f : m → ℤ → ℝ), colsM kt kb (fun a => applyV (rs.map RflF.ex) (f a)) = colsM kt kb f * P)
    (hin : ∀ b, w1 ≤ b → b ≤ w1 + nu - 1 → ∀ M, 0 ≤ M → 1024 * M ≤ big → (∀ j, w1 ≤ j → j ≤ w1 + nu - 1 → Bn (x j) M) →
      (y b).isFinite = true ∧ |toR (y b) - applyV (rs.map RflF.ex) (fun j => toR (x j)) b| ≤ 28800 * (ur * M) + 150 * eta)
    (hout : ∀ b, ¬ (w1 ≤ b ∧ b ≤ w1 + nu - 1) → y b = x b) :
    ZRow kt kb y X0 (Q * P) (δ + (57600 * (ur * C) + 300 * eta)) := by
  have u0 := ur_pos
  have e0 := eta_pos
  set X := colsM kt kb (fun (_ : Unit) b => toR (x b)) with hX
  have nX : fro X ≤ C := (h.norm hQ).trans hC
  have ent : ∀ j, kt ≤ j → j ≤ kb → |toR (x j)| ≤ cnorm X.transpose () := fun j j1 j2 => cnorm_entry X.transpose ⟨j, Finset.mem_Icc.2 ⟨j1, j2⟩⟩ ()
  have nb : cnorm X.transpose () ≤ C := by
    refine (cnorm_le _ _).trans ?_
    rw [fro_transpose]
    exact nX
  have hin' := fun b b1 b2 => hin b b1 b2 (cnorm X.transpose ()) (cnorm_nonneg _ _) (by linarith) fun j j1 j2 => ⟨h.fin j (by omega) (by omega), ent j (by omega) (by omega)⟩
  refine ⟨fun b b1 b2 => ?_, ?_⟩
  · by_cases hb : w1 ≤ b ∧ b ≤ w1 + nu - 1
    · exact (hin' b hb.1 hb.2).1
    · rw [hout b hb]
      exact h.fin b b1 b2
  · set Y := colsM kt kb (fun (_ : Unit) b => toR (y b)) with hY
    have eH : X * P = colsM kt kb (fun (_ : Unit) => applyV (rs.map RflF.ex) fun j => toR (x j)) := (hPm Unit _).symm
    have hD : fro (Y - X * P) ≤ 2 * (28800 * ur * fro X) + 2 * ∑ _a : Unit, 150 * eta := by
      rw [eH]
      refine fro_cols (y := fun _ => 150 * eta) (winB kt kb w1 nu) (card_winB hnu) (by linarith) (fun _ => by linarith) ?_ ?_
      · intro b hb a
        rw [mem_winB] at hb
        rw [Matrix.sub_apply, hY]
        simp only [colsM]
        rw [hout b hb, applyV_out (allIn_of_good good) _ (by omega), sub_self]
      · intro b hb a
        rw [mem_winB] at hb
        rw [Matrix.sub_apply, hY]
        simp only [colsM]
        have := (hin' b hb.1 hb.2).2
        rw [← mul_assoc] at this
        exact this
    have e : Y - colsM kt kb (fun (_ : Unit) => X0) * (Q * P) = (X - colsM kt kb (fun (_ : Unit) => X0) * Q) * P + (Y - X * P) := by
      rw [Matrix.sub_mul, Matrix.mul_assoc]; abel
    rw [e]
    refine (fro_add _ _).trans ?_
    rw [fro_mul_right _ (blk_orth hP)]
    have h1 := h.close
    rw [← hX] at h1
    have h2 : ur * fro X ≤ ur * C := mul_le_mul_of_nonneg_left nX u0.le
    simp only [Finset.univ_unique, Finset.sum_const, Finset.card_singleton, one_smul] at hD
    linarith

end zrow

end Verif
