import Verif.Lib.HqrMat

/-!
# Norms of errors confined to a few rows or columns
-/

namespace Verif
open Spec Matrix

section fro
variable {m n : Type} [Fintype m] [Fintype n]

/-- The norm of a column. -/
noncomputable def cnorm (T : Matrix m n ℝ) (b : n) : ℝ := Real.sqrt (∑ a, T a b ^ 2)

theorem cnorm_nonneg (T : Matrix m n ℝ) (b : n) : 0 ≤ cnorm T b := Real.sqrt_nonneg _

theorem cnorm_sq (T : Matrix m n ℝ) (b : n) : cnorm T b ^ 2 = ∑ a, T a b ^ 2 :=
  Real.sq_sqrt (Finset.sum_nonneg fun _ _ => sq_nonneg _)

theorem cnorm_entry (T : Matrix m n ℝ) (a : m) (b : n) : |T a b| ≤ cnorm T b := by
  apply Real.le_sqrt_of_sq_le
  rw [sq_abs]
  exact Finset.single_le_sum (f := fun a => T a b ^ 2) (fun _ _ => sq_nonneg _) (Finset.mem_univ a)

theorem cnorm_le (T : Matrix m n ℝ) (b : n) : cnorm T b ≤ fro T := by
  unfold cnorm fro
  apply Real.sqrt_le_sqrt
  apply Finset.sum_le_sum
  intro a _
  exact Finset.single_le_sum (f := fun b => T a b ^ 2) (fun _ _ => sq_nonneg _) (Finset.mem_univ b)

theorem fro_sq_cnorm (T : Matrix m n ℝ) : fro T ^ 2 = ∑ b, cnorm T b ^ 2 := by
  rw [fro_sq, Finset.sum_comm]
  exact Finset.sum_congr rfl fun b _ => (cnorm_sq T b).symm

theorem sum_sq_le {ι : Type} (s : Finset ι) (y : ι → ℝ) (h : ∀ b ∈ s, 0 ≤ y b) : ∑ b ∈ s, y b ^ 2 ≤ (∑ b ∈ s, y b) ^ 2 := by
  classical
  induction s using Finset.induction_on with
  | empty => simp
  | insert a s ha ih =>
    rw [Finset.sum_insert ha, Finset.sum_insert ha]
    have h1 := ih fun b hb => h b (Finset.mem_insert_of_mem hb)
    have h2 := h a (Finset.mem_insert_self a s)
    have h3 : 0 ≤ ∑ b ∈ s, y b := Finset.sum_nonneg fun b hb => h b (Finset.mem_insert_of_mem hb)
    nlinarith [mul_nonneg h2 h3]

/-- Errors in at most four rows, each relative to the norm of its column. -/
theorem fro_rows [DecidableEq m] {D T : Matrix m n ℝ} (K : Finset m) (hK : K.card ≤ 4) {c : ℝ} (hc : 0 ≤ c) {y : n → ℝ} (hy : ∀ b, 0 ≤ y b)
    (h0 : ∀ a, a ∉ K → ∀ b, D a b = 0) (h : ∀ a ∈ K, ∀ b, |D a b| ≤ c * cnorm T b + y b) :
    fro D ≤ 2 * (c * fro T) + 2 * ∑ b, y b := by
  set X : Matrix m n ℝ := fun a b => if a ∈ K then c * cnorm T b else 0 with hX
  set Y : Matrix m n ℝ := fun a b => if a ∈ K then y b else 0 with hY
  have h1 : fro D ≤ fro (X + Y) := by
    apply fro_mono
    intro a b
    rw [Matrix.add_apply]
    simp only [hX, hY]
    by_cases ha : a ∈ K
    · rw [if_pos ha, if_pos ha]
      exact (h a ha b).trans (le_abs_self _)
    · rw [if_neg ha, if_neg ha, h0 a ha b]; simp
  have card4 : (K.card : ℝ) ≤ 4 := by exact_mod_cast hK
  have key : ∀ f : n → ℝ, ∑ a, ∑ b, (if a ∈ K then f b else 0) ^ 2 = K.card * ∑ b, f b ^ 2 := by
    intro f
    have : ∀ a, ∑ b, (if a ∈ K then f b else 0) ^ 2 = if a ∈ K then ∑ b, f b ^ 2 else 0 := by
      intro a
      by_cases ha : a ∈ K
      · simp [ha]
      · simp [ha]
    rw [Finset.sum_congr rfl fun a _ => this a, ← Finset.sum_filter, Finset.sum_const, Finset.filter_mem_eq_inter, Finset.univ_inter, nsmul_eq_mul]
  have hXn : fro X ≤ 2 * (c * fro T) := by
    apply Real.sqrt_le_iff.2
    refine ⟨by have := fro_nonneg T; positivity, ?_⟩
    simp only [hX]
    rw [key]
    simp only [mul_pow]
    rw [← Finset.mul_sum, ← fro_sq_cnorm]
    have : 0 ≤ c ^ 2 * fro T ^ 2 := by positivity
    nlinarith
  have hYn : fro Y ≤ 2 * ∑ b, y b := by
    apply Real.sqrt_le_iff.2
    have s0 : 0 ≤ ∑ b, y b := Finset.sum_nonneg fun b _ => hy b
    refine ⟨by linarith, ?_⟩
    simp only [hY]
    rw [key]
    have h2 := sum_sq_le Finset.univ y fun b _ => hy b
    have h3 : 0 ≤ ∑ b, y b ^ 2 := Finset.sum_nonneg fun b _ => sq_nonneg _
    nlinarith
  linarith [fro_add X Y]

/-- Errors in at most four columns, each relative to the norm of its row. -/
theorem fro_cols [DecidableEq n] {D T : Matrix m n ℝ} (K : Finset n) (hK : K.card ≤ 4) {c : ℝ} (hc : 0 ≤ c) {y : m → ℝ} (hy : ∀ b, 0 ≤ y b)
    (h0 : ∀ b, b ∉ K → ∀ a, D a b = 0) (h : ∀ b ∈ K, ∀ a, |D a b| ≤ c * cnorm T.transpose a + y a) :
    fro D ≤ 2 * (c * fro T) + 2 * ∑ a, y a := by
  have := fro_rows (D := D.transpose) (T := T.transpose) K hK hc hy h0 h
  rwa [fro_transpose, fro_transpose] at this

end fro

section blk
variable {lo hi : ℤ}

/-- The rows `k`, `k+1`, `k+2`. -/
noncomputable def rows3 (lo hi k : ℤ) : Finset (Blk lo hi) := Finset.univ.filter fun a => k ≤ (a : ℤ) ∧ (a : ℤ) ≤ k + 2

theorem mem_rows3 {k : ℤ} {a : Blk lo hi} : a ∈ rows3 lo hi k ↔ k ≤ (a : ℤ) ∧ (a : ℤ) ≤ k + 2 := by
  simp [rows3]

theorem card_rows3 (k : ℤ) : (rows3 lo hi k).card ≤ 4 := by
  have h : (rows3 lo hi k).card ≤ (Finset.Icc k (k + 2)).card := by
    apply Finset.card_le_card_of_injOn (fun a : Blk lo hi => (a : ℤ))
    · intro a ha
      have := mem_rows3.1 (Finset.mem_coe.1 ha)
      simpa using this
    · intro a _ b _ h
      exact Subtype.ext h
  rw [Int.card_Icc] at h
  omega

/-- `y b = τ`, and `κ` more at one place. -/
theorem sum_spike {τ κ : ℝ} (hκ : 0 ≤ κ) (j : ℤ) :
    ∑ b : Blk lo hi, (τ + if (b : ℤ) = j then κ else 0) ≤ (hi - lo + 1).toNat * τ + κ := by
  rw [Finset.sum_add_distrib, Finset.sum_const, nsmul_eq_mul]
  have h1 : ((Finset.univ : Finset (Blk lo hi)).card : ℝ) = ((hi - lo + 1).toNat : ℕ) := by
    rw [Finset.card_univ, Fintype.card_coe, Int.card_Icc]
    congr 2; omega
  have h2 : (∑ b : Blk lo hi, if (b : ℤ) = j then κ else 0) ≤ κ := by
    rw [Finset.sum_coe_sort (Finset.Icc lo hi) (fun b => if b = j then κ else 0), Finset.sum_ite_eq']
    split
    · exact le_refl _
    · exact hκ
  rw [h1]
  linarith

/-- `T` is orthogonally similar, by `Q`, to `A` up to `δ`. -/
structure Trk (A Q : Matrix (Blk lo hi) (Blk lo hi) ℝ) (δ : ℝ) (T : ℤ → ℤ → ℝ) : Prop where
  orth : Q.transpose * Q = 1
  close : fro (block lo hi T - Q.transpose * A * Q) ≤ δ

variable {A Q : Matrix (Blk lo hi) (Blk lo hi) ℝ} {δ : ℝ} {T : ℤ → ℤ → ℝ}

theorem Trk.mono {δ' : ℝ} (h : Trk A Q δ T) (hd : δ ≤ δ') : Trk A Q δ' T := ⟨h.orth, h.close.trans hd⟩

theorem Trk.norm (h : Trk A Q δ T) : fro (block lo hi T) ≤ fro A + δ := by
  have e : block lo hi T = Q.transpose * A * Q + (block lo hi T - Q.transpose * A * Q) := by abel
  rw [e]
  refine (fro_add _ _).trans ?_
  rw [fro_mul_right _ (blk_orth h.orth), fro_mul_left _ (by rw [Matrix.transpose_transpose]; exact blk_orth h.orth)]
  linarith [h.close]

theorem Trk.entry (h : Trk A Q δ T) {a b : ℤ} (ha : lo ≤ a ∧ a ≤ hi) (hb : lo ≤ b ∧ b ≤ hi) : |T a b| ≤ fro A + δ :=
  (fro_entry (block lo hi T) ⟨a, Finset.mem_Icc.2 ha⟩ ⟨b, Finset.mem_Icc.2 hb⟩).trans h.norm

theorem Trk.start (f : ℤ → ℤ → ℝ) : Trk (block lo hi f) 1 0 f := ⟨by simp, by simp [fro_zero]⟩

/-- A perturbation. -/
theorem Trk.perturb (h : Trk A Q δ T) {T' : ℤ → ℤ → ℝ} {d : ℝ} (hd : fro (block lo hi T' - block lo hi T) ≤ d) : Trk A Q (δ + d) T' := by
  refine ⟨h.orth, ?_⟩
  have : block lo hi T' - Q.transpose * A * Q = (block lo hi T - Q.transpose * A * Q) + (block lo hi T' - block lo hi T) := by abel
  rw [this]
  exact (fro_add _ _).trans (add_le_add h.close hd)

/-- An orthogonal similarity. -/
theorem Trk.similar (h : Trk A Q δ T) {P : Matrix (Blk lo hi) (Blk lo hi) ℝ} (hP : P.transpose * P = 1) {T' : ℤ → ℤ → ℝ}
    (hT : block lo hi T' = P.transpose * block lo hi T * P) : Trk A (Q * P) δ T' := by
  refine ⟨?_, ?_⟩
  · rw [transpose_mul, Matrix.mul_assoc, ← Matrix.mul_assoc Q.transpose, h.orth, Matrix.one_mul, hP]
  · have : block lo hi T' - (Q * P).transpose * A * (Q * P) = P.transpose * (block lo hi T - Q.transpose * A * Q) * P := by
      rw [hT, transpose_mul]; simp only [Matrix.mul_sub, Matrix.sub_mul, Matrix.mul_assoc]
    rw [this, fro_mul_right _ (blk_orth hP), fro_mul_left _ (by rw [Matrix.transpose_transpose]; exact blk_orth hP)]
    exact h.close

section house
variable {k : ℤ} {v2 v3 t : ℝ}

theorem block_houseR (hi' : Inside lo hi k v3) (f : ℤ → ℤ → ℝ) :
    block lo hi (houseR k v2 v3 t f) = block lo hi f * houseM lo hi k v2 v3 t :=
  (mul_houseM (m := Blk lo hi) (v2 := v2) (t := t) hi' (fun a b => f a b)).symm

theorem fro_houseL (hi' : Inside lo hi k v3) (hu : Refl v2 v3 t) (f : ℤ → ℤ → ℝ) :
    fro (block lo hi (houseL k v2 v3 t f)) = fro (block lo hi f) := by
  rw [← houseM_mul hi', fro_mul_left _ (by rw [houseM_symm, houseM_orth hi' hu])]

/-- A reflector with errors `d1` on the left and `d2` on the right. -/
theorem Trk.house (h : Trk A Q δ T) (hi' : Inside lo hi k v3) (hu : Refl v2 v3 t) {G T' : ℤ → ℤ → ℝ} {d1 d2 : ℝ}
    (h1 : fro (block lo hi G - block lo hi (houseL k v2 v3 t T)) ≤ d1) (h2 : fro (block lo hi T' - block lo hi (houseR k v2 v3 t G)) ≤ d2) :
    Trk A (Q * houseM lo hi k v2 v3 t) (δ + (d1 + d2)) T' := by
  have hP : (houseM lo hi k v2 v3 t).transpose * houseM lo hi k v2 v3 t = 1 := by rw [houseM_symm, houseM_orth hi' hu]
  have h3 : Trk A (Q * houseM lo hi k v2 v3 t) δ (houseR k v2 v3 t (houseL k v2 v3 t T)) :=
    h.similar hP (by rw [block_houseR hi', ← houseM_mul hi', houseM_symm])
  refine h3.perturb ?_
  have : block lo hi T' - block lo hi (houseR k v2 v3 t (houseL k v2 v3 t T)) =
      (block lo hi G - block lo hi (houseL k v2 v3 t T)) * houseM lo hi k v2 v3 t + (block lo hi T' - block lo hi (houseR k v2 v3 t G)) := by
    rw [block_houseR hi', block_houseR hi', Matrix.sub_mul]; abel
  rw [this]
  refine (fro_add _ _).trans (add_le_add ?_ h2)
  rw [fro_mul_right _ (blk_orth hP)]
  exact h1

end house

end blk

end Verif
