import Mathlib.Analysis.Matrix.Normed
import Mathlib.LinearAlgebra.Matrix.Trace
import Mathlib.Data.Int.Interval
import Mathlib.Order.Interval.Finset.Defs

/-!
# Backward error of an eigenvalue computation

Matrices are indexed by the rows and columns `lo..hi` of the active block themselves.
-/

namespace Verif.Spec

/-- The indices `lo, lo+1, .., hi`. -/
abbrev Blk (lo hi : ℤ) := ↥(Finset.Icc lo hi)

/-- The part with rows and columns `lo..hi` of a matrix given by its entries. -/
def block (lo hi : ℤ) (f : ℤ → ℤ → ℝ) : Matrix (Blk lo hi) (Blk lo hi) ℝ := fun a b => f a b

/-- The Frobenius norm. -/
noncomputable def fro {m n : Type} [Fintype m] [Fintype n] (A : Matrix m n ℝ) : ℝ := Real.sqrt (∑ a, ∑ b, A a b ^ 2)

/-- `M = Qᵀ (A + E) Q` with `Q` orthogonal, the trace of `E` zero and its Frobenius norm at most `δ`. -/
structure Backward {n : Type} [Fintype n] [DecidableEq n] (A Q E M : Matrix n n ℝ) (δ : ℝ) : Prop where
  orth : Q.transpose * Q = 1
  eq : M = Q.transpose * (A + E) * Q
  trace : E.trace = 0
  bound : fro E ≤ δ

/-- Rows `lo..hi` of `T` are quasi-triangular and `wr`, `wi` are the eigenvalues of its diagonal blocks: no two consecutive
subdiagonal entries are non-zero; the real parts are the diagonal entries; the imaginary part of a 1-by-1 block is zero; a 2-by-2
block has off-diagonal entries of opposite signs and diagonal entries that differ by less than `2^-52`, and its imaginary parts are
plus and minus the square root of the negated product of the off-diagonal entries. -/
structure Schur (lo hi : ℤ) (T : ℤ → ℤ → ℝ) (wr wi : ℤ → ℝ) : Prop where
  quasi : ∀ j, lo ≤ j → j + 2 ≤ hi → T (j + 1) j = 0 ∨ T (j + 2) (j + 1) = 0
  re : ∀ j, lo ≤ j → j ≤ hi → wr j = T j j
  real : ∀ j, lo ≤ j → j ≤ hi → (lo < j → T j (j - 1) = 0) → (j < hi → T (j + 1) j = 0) → wi j = 0
  pair : ∀ j, lo ≤ j → j < hi → T (j + 1) j ≠ 0 → T j (j + 1) * T (j + 1) j < 0 ∧ |T j j - T (j + 1) (j + 1)| < 1 / 2 ^ 52 ∧
    0 < wi j ∧ wi j ^ 2 = -(T j (j + 1) * T (j + 1) j) ∧ wi (j + 1) = -wi j

end Verif.Spec
