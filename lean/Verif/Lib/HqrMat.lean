import Verif.Spec.Backward
import Mathlib.Tactic.Linarith
import Mathlib.Tactic.Ring
import Mathlib.Tactic.LinearCombination
import Mathlib.Tactic.NormNum
import Mathlib.Tactic.FieldSimp

/-!
# Householder similarities on real matrices given by their entries
-/

namespace Verif
open Spec Matrix

section fro
variable {m n : Type} [Fintype m] [Fintype n]

theorem fro_sq (A : Matrix m n ℝ) : fro A ^ 2 = ∑ a, ∑ b, A a b ^ 2 :=
  Real.sq_sqrt (Finset.sum_nonneg fun _ _ => Finset.sum_nonneg fun _ _ => sq_nonneg _)

theorem fro_nonneg (A : Matrix m n ℝ) : 0 ≤ fro A := Real.sqrt_nonneg _

open scoped Matrix.Norms.Frobenius in
theorem fro_eq_norm (A : Matrix m n ℝ) : fro A = ‖A‖ := by
  rw [Matrix.frobenius_norm_def, fro, Real.sqrt_eq_rpow]
  simp

theorem fro_add (A B : Matrix m n ℝ) : fro (A + B) ≤ fro A + fro B := by
  rw [fro_eq_norm, fro_eq_norm, fro_eq_norm]
  open scoped Matrix.Norms.Frobenius in exact norm_add_le A B

theorem fro_zero : fro (0 : Matrix m n ℝ) = 0 := by simp [fro]

theorem fro_trace (A : Matrix m n ℝ) : fro A ^ 2 = (A.transpose * A).trace := by
  rw [fro_sq, Matrix.trace, Finset.sum_comm]
  apply Finset.sum_congr rfl
  intro a _
  simp only [diag_apply, mul_apply, transpose_apply]
  apply Finset.sum_congr rfl
  intro b _
  ring

theorem fro_transpose (A : Matrix m n ℝ) : fro A.transpose = fro A := by
  unfold fro
  rw [Finset.sum_comm]
  rfl

theorem fro_mul_left [DecidableEq m] (Q : Matrix m m ℝ) (hQ : Q.transpose * Q = 1) (A : Matrix m n ℝ) : fro (Q * A) = fro A := by
  have h : fro (Q * A) ^ 2 = fro A ^ 2 := by
    rw [fro_trace, fro_trace, Matrix.transpose_mul, Matrix.mul_assoc, ← Matrix.mul_assoc Q.transpose, hQ, Matrix.one_mul]
  exact (sq_eq_sq₀ (fro_nonneg _) (fro_nonneg _)).1 h

theorem fro_mul_right [DecidableEq n] (Q : Matrix n n ℝ) (hQ : Q * Q.transpose = 1) (A : Matrix m n ℝ) : fro (A * Q) = fro A := by
  rw [← fro_transpose, Matrix.transpose_mul, fro_mul_left _ (by simpa using hQ), fro_transpose]

theorem fro_entry (A : Matrix m n ℝ) (a : m) (b : n) : |A a b| ≤ fro A := by
  apply Real.le_sqrt_of_sq_le
  rw [sq_abs]
  calc A a b ^ 2 ≤ ∑ b, A a b ^ 2 := Finset.single_le_sum (f := fun b => A a b ^ 2) (fun _ _ => sq_nonneg _) (Finset.mem_univ b)
    _ ≤ _ := Finset.single_le_sum (f := fun a => ∑ b, A a b ^ 2) (fun _ _ => Finset.sum_nonneg fun _ _ => sq_nonneg _) (Finset.mem_univ a)

theorem fro_mono {A B : Matrix m n ℝ} (h : ∀ a b, |A a b| ≤ |B a b|) : fro A ≤ fro B := by
  apply Real.sqrt_le_sqrt
  apply Finset.sum_le_sum; intro a _
  apply Finset.sum_le_sum; intro b _
  exact sq_le_sq.2 (h a b)

/-- A matrix with a single non-zero entry. -/
theorem fro_single [DecidableEq m] [DecidableEq n] (A : Matrix m n ℝ) (a : m) (b : n) (h : ∀ a' b', ¬ (a' = a ∧ b' = b) → A a' b' = 0) :
    fro A = |A a b| := by
  unfold fro
  rw [Finset.sum_eq_single a, Finset.sum_eq_single b, Real.sqrt_sq_eq_abs]
  · intro b' _ hb; rw [h a b' (by tauto)]; norm_num
  · simp
  · intro a' _ ha
    apply Finset.sum_eq_zero
    intro b' _; rw [h a' b' (by tauto)]; norm_num
  · simp

end fro

/-! ### The reflector -/

/-- The direction of the reflector: `1`, `v2`, `v3` at `k`, `k+1`, `k+2`. -/
def dirv (k : ℤ) (v2 v3 : ℝ) (i : ℤ) : ℝ := if i = k then 1 else if i = k + 1 then v2 else if i = k + 2 then v3 else 0

/-- `x - t * w * (wᵀ x)`. -/
def house (k : ℤ) (v2 v3 t : ℝ) (x : ℤ → ℝ) (i : ℤ) : ℝ :=
  x i - t * dirv k v2 v3 i * (x k + v2 * x (k + 1) + v3 * x (k + 2))

/-- The reflector applied to all columns. -/
def houseL (k : ℤ) (v2 v3 t : ℝ) (f : ℤ → ℤ → ℝ) (i j : ℤ) : ℝ := house k v2 v3 t (fun i => f i j) i

/-- The reflector applied to all rows. -/
def houseR (k : ℤ) (v2 v3 t : ℝ) (f : ℤ → ℤ → ℝ) (i j : ℤ) : ℝ := house k v2 v3 t (f i) j

/-- The reflector is orthogonal. -/
def Refl (v2 v3 t : ℝ) : Prop := t * (t * (1 + v2 ^ 2 + v3 ^ 2) - 2) = 0

/-- The reflector acts on rows and columns `lo..hi` only. -/
def Inside (lo hi k : ℤ) (v3 : ℝ) : Prop := lo ≤ k ∧ k + 1 ≤ hi ∧ (k + 2 ≤ hi ∨ v3 = 0)

theorem sum_dirv {lo hi k : ℤ} {v2 v3 : ℝ} (h : Inside lo hi k v3) (x : ℤ → ℝ) :
    ∑ i : Blk lo hi, dirv k v2 v3 i * x i = x k + v2 * x (k + 1) + v3 * x (k + 2) := by
  obtain ⟨h1, h2, h3⟩ := h
  rw [Finset.sum_coe_sort (Finset.Icc lo hi) (fun i => dirv k v2 v3 i * x i)]
  have e : ∀ i ∈ Finset.Icc lo hi, dirv k v2 v3 i * x i =
      (if i = k then x k else 0) + (if i = k + 1 then v2 * x (k + 1) else 0) + (if i = k + 2 then v3 * x (k + 2) else 0) := by
    intro i _
    unfold dirv
    by_cases a1 : i = k
    · subst a1; simp
    · by_cases a2 : i = k + 1
      · subst a2; simp
      · by_cases a3 : i = k + 2
        · subst a3; simp
        · simp [a1, a2, a3]
  rw [Finset.sum_congr rfl e, Finset.sum_add_distrib, Finset.sum_add_distrib, Finset.sum_ite_eq' , Finset.sum_ite_eq', Finset.sum_ite_eq',
    if_pos (Finset.mem_Icc.2 ⟨h1, by omega⟩), if_pos (Finset.mem_Icc.2 ⟨by omega, h2⟩)]
  rcases h3 with h3 | h3
  · rw [if_pos (Finset.mem_Icc.2 ⟨by omega, h3⟩)]
  · rw [h3]; simp

/-- The reflector as a matrix. -/
def houseM (lo hi k : ℤ) (v2 v3 t : ℝ) : Matrix (Blk lo hi) (Blk lo hi) ℝ :=
  fun a b => (if a = b then 1 else 0) - t * dirv k v2 v3 a * dirv k v2 v3 b

section
variable {lo hi k : ℤ} {v2 v3 t : ℝ}

theorem houseM_symm : (houseM lo hi k v2 v3 t).transpose = houseM lo hi k v2 v3 t := by
  ext a b
  simp only [transpose_apply, houseM, eq_comm (a := b)]
  ring

theorem houseM_mul (h : Inside lo hi k v3) (f : ℤ → ℤ → ℝ) :
    houseM lo hi k v2 v3 t * block lo hi f = block lo hi (houseL k v2 v3 t f) := by
  ext a b
  simp only [mul_apply, houseM, block, houseL, house]
  rw [← sum_dirv h (fun i => f i b), Finset.mul_sum]
  simp only [sub_mul, Finset.sum_sub_distrib, ite_mul, one_mul, zero_mul, Finset.sum_ite_eq, Finset.mem_univ, if_true]
  congr 1
  apply Finset.sum_congr rfl
  intro c _
  ring

/-- Rows given by their entries. -/
def colsM {m : Type} (lo hi : ℤ) (f : m → ℤ → ℝ) : Matrix m (Blk lo hi) ℝ := fun a b => f a b

theorem mul_houseM {m : Type} (h : Inside lo hi k v3) (f : m → ℤ → ℝ) :
    colsM lo hi f * houseM lo hi k v2 v3 t = colsM lo hi fun a => house k v2 v3 t (f a) := by
  ext a b
  simp only [mul_apply, houseM, house, colsM]
  rw [← sum_dirv h (f a), Finset.mul_sum]
  simp only [mul_sub, Finset.sum_sub_distrib, mul_ite, mul_one, mul_zero, Finset.sum_ite_eq', Finset.mem_univ, if_true]
  congr 1
  apply Finset.sum_congr rfl
  intro c _
  ring

theorem houseM_orth (h : Inside lo hi k v3) (hu : Refl v2 v3 t) :
    houseM lo hi k v2 v3 t * houseM lo hi k v2 v3 t = 1 := by
  have e := mul_houseM (m := Blk lo hi) (v2 := v2) (t := t) h
    (fun (a : Blk lo hi) (b : ℤ) => (if (a : ℤ) = b then 1 else 0) - t * dirv k v2 v3 a * dirv k v2 v3 b)
  have e2 : colsM lo hi (fun (a : Blk lo hi) (b : ℤ) => (if (a : ℤ) = b then (1 : ℝ) else 0) - t * dirv k v2 v3 a * dirv k v2 v3 b) =
      houseM lo hi k v2 v3 t := by
    funext a b
    unfold houseM colsM
    beta_reduce
    by_cases hab : a = b
    · subst hab; simp
    · rw [if_neg hab, if_neg (fun h => hab (Subtype.ext h))]
  rw [e2] at e
  rw [e]
  ext a b
  unfold house colsM
  beta_reduce
  have d1 : dirv k v2 v3 k = 1 := by simp [dirv]
  have d2 : dirv k v2 v3 (k + 1) = v2 := by simp [dirv]
  have d3 : dirv k v2 v3 (k + 2) = v3 := by simp [dirv]
  rw [d1, d2, d3]
  have hs : (if (a : ℤ) = k then (1 : ℝ) else 0) + v2 * (if (a : ℤ) = k + 1 then 1 else 0) + v3 * (if (a : ℤ) = k + 2 then 1 else 0) =
      dirv k v2 v3 a := by
    unfold dirv
    by_cases a1 : (a : ℤ) = k
    · simp [a1]
    · by_cases a2 : (a : ℤ) = k + 1
      · simp [a2]
      · by_cases a3 : (a : ℤ) = k + 2
        · simp [a3]
        · simp [a1, a2, a3]
  have hone : (1 : Matrix (Blk lo hi) (Blk lo hi) ℝ) a b = if (a : ℤ) = b then 1 else 0 := by
    rw [Matrix.one_apply]
    by_cases hab : a = b
    · subst hab; simp
    · rw [if_neg hab, if_neg (fun h => hab (Subtype.ext h))]
  rw [hone]
  unfold Refl at hu
  linear_combination (-(t * dirv k v2 v3 b)) * hs + (dirv k v2 v3 a * dirv k v2 v3 b) * hu

end

/-! ### Backward error bookkeeping -/

section
variable {lo hi : ℤ}

theorem blk_orth {Q : Matrix (Blk lo hi) (Blk lo hi) ℝ} (h : Q.transpose * Q = 1) : Q * Q.transpose = 1 :=
  mul_eq_one_comm.1 h

variable {A Q E : Matrix (Blk lo hi) (Blk lo hi) ℝ} {f : ℤ → ℤ → ℝ} {δ : ℝ}

theorem backward_start (f : ℤ → ℤ → ℝ) : Backward (block lo hi f) 1 0 (block lo hi f) 0 :=
  ⟨by simp, by simp, by simp, by rw [fro_zero]⟩

/-- A similarity by an orthogonal matrix. -/
theorem backward_similar {M : Matrix (Blk lo hi) (Blk lo hi) ℝ} (h : Backward A Q E M δ) (P : Matrix (Blk lo hi) (Blk lo hi) ℝ)
    (hP : P.transpose * P = 1) : Backward A (Q * P) E (P.transpose * M * P) δ := by
  refine ⟨?_, ?_, h.trace, h.bound⟩
  · rw [transpose_mul, Matrix.mul_assoc, ← Matrix.mul_assoc Q.transpose, h.orth, Matrix.one_mul, hP]
  · rw [h.eq, transpose_mul]; simp only [Matrix.mul_assoc]

/-- A change of the matrix off the diagonal. -/
theorem backward_perturb {M M' : Matrix (Blk lo hi) (Blk lo hi) ℝ} (h : Backward A Q E M δ) (hd : ∀ a, M' a a = M a a) {ε : ℝ}
    (hε : fro (M' - M) ≤ ε) : ∃ E', Backward A Q E' M' (δ + ε) := by
  have hQ := blk_orth h.orth
  refine ⟨E + Q * (M' - M) * Q.transpose, h.orth, ?_, ?_, ?_⟩
  · have e : Q.transpose * (A + (E + Q * (M' - M) * Q.transpose)) * Q =
        Q.transpose * (A + E) * Q + (Q.transpose * Q) * (M' - M) * (Q.transpose * Q) := by
      simp only [Matrix.mul_add, Matrix.add_mul, Matrix.mul_assoc, add_assoc]
    rw [e, ← h.eq, h.orth, Matrix.one_mul, Matrix.mul_one]
    abel
  · rw [trace_add, h.trace, Matrix.mul_assoc, trace_mul_comm, Matrix.mul_assoc, h.orth, Matrix.mul_one, zero_add, Matrix.trace]
    exact Finset.sum_eq_zero fun a _ => by simp [hd a]
  · refine (fro_add _ _).trans (add_le_add h.bound ?_)
    rw [fro_mul_right _ (by simpa using h.orth), fro_mul_left _ h.orth]
    exact hε

theorem backward_house (h : Backward A Q E (block lo hi f) δ) {k : ℤ} {v2 v3 t : ℝ} (hi' : Inside lo hi k v3) (hu : Refl v2 v3 t) :
    Backward A (Q * houseM lo hi k v2 v3 t) E (block lo hi (houseR k v2 v3 t (houseL k v2 v3 t f))) δ := by
  have := backward_similar h (houseM lo hi k v2 v3 t) (by rw [houseM_symm, houseM_orth hi' hu])
  rw [houseM_symm, houseM_mul hi'] at this
  have e := mul_houseM (m := Blk lo hi) (v2 := v2) (t := t) hi' (fun a b => houseL k v2 v3 t f a b)
  rw [show colsM lo hi (fun (a : Blk lo hi) b => houseL k v2 v3 t f a b) = block lo hi (houseL k v2 v3 t f) from rfl] at e
  rw [e] at this
  exact this

theorem fro_house {k : ℤ} {v2 v3 t : ℝ} (hi' : Inside lo hi k v3) (hu : Refl v2 v3 t) (f : ℤ → ℤ → ℝ) :
    fro (block lo hi (houseR k v2 v3 t (houseL k v2 v3 t f))) = fro (block lo hi f) := by
  have e := mul_houseM (m := Blk lo hi) (v2 := v2) (t := t) hi' (fun a b => houseL k v2 v3 t f a b)
  have e2 : block lo hi (houseR k v2 v3 t (houseL k v2 v3 t f)) = houseM lo hi k v2 v3 t * block lo hi f * houseM lo hi k v2 v3 t := by
    rw [houseM_mul hi', show block lo hi (houseL k v2 v3 t f) = colsM lo hi (fun (a : Blk lo hi) b => houseL k v2 v3 t f a b) from rfl, e]
    rfl
  rw [e2, fro_mul_right _ (by rw [houseM_symm, houseM_orth hi' hu]), fro_mul_left _ (by rw [houseM_symm, houseM_orth hi' hu])]

end

end Verif
