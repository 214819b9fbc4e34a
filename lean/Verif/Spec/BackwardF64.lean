import Verif.Spec.Backward

/-!
# Backward error of an eigenvalue computation in floating point
-/

namespace Verif.Spec

/-- What is recorded for a 2-by-2 diagonal block `[a b; c d]` with imaginary parts `w1`, `w2`: the off-diagonal entries have opposite
signs, the diagonal entries differ by less than `2^-51`, and the imaginary parts are plus and minus the square root of the negated
product of the off-diagonal entries up to five units in the last place, and not zero. -/
structure PairF (a b c d w1 w2 : ℝ) : Prop where
  signs : b * c < 0
  diag : |a - d| < 1 / 2 ^ 51
  pos : 0 < w1
  root : |w1 - Real.sqrt (-(b * c))| ≤ 5 / 2 ^ 53 * Real.sqrt (-(b * c)) + 1 / 2 ^ 1075
  conj : w2 = -w1

/-- Rows `lo..hi` of `T` are quasi-triangular and `wr`, `wi` are the eigenvalues of its diagonal blocks: no two consecutive
subdiagonal entries are non-zero; the real parts are the diagonal entries; the imaginary part of a 1-by-1 block is zero; for a 2-by-2
block see `PairF`. -/
structure SchurF (lo hi : ℤ) (T : ℤ → ℤ → ℝ) (wr wi : ℤ → ℝ) : Prop where
  quasi : ∀ j, lo ≤ j → j + 2 ≤ hi → T (j + 1) j = 0 ∨ T (j + 2) (j + 1) = 0
  re : ∀ j, lo ≤ j → j ≤ hi → wr j = T j j
  real : ∀ j, lo ≤ j → j ≤ hi → (lo < j → T j (j - 1) = 0) → (j < hi → T (j + 1) j = 0) → wi j = 0
  pair : ∀ j, lo ≤ j → j < hi → T (j + 1) j ≠ 0 → PairF (T j j) (T j (j + 1)) (T (j + 1) j) (T (j + 1) (j + 1)) (wi j) (wi (j + 1))

/-- `M = Qᵀ (A + E) Q` with `Q` orthogonal and the Frobenius norm of `E` at most `δ`. -/
structure BackwardF {n : Type} [Fintype n] [DecidableEq n] (A Q E M : Matrix n n ℝ) (δ : ℝ) : Prop where
  orth : Q.transpose * Q = 1
  eq : M = Q.transpose * (A + E) * Q
  bound : fro E ≤ δ

/-- The number of rounding steps charged to an active block of order `nh`: at most `nh` blocks are split off, each after at most
`30 max(nh, 10)` sweeps of at most `nh` steps. -/
def hqrSteps (nh : ℤ) : ℤ := nh * ((30 * max nh 10 + 1) * nh + 1)

/-- The bound on the backward error for an active block of order `nh` and Frobenius norm `N`. -/
noncomputable def hqrBoundF (nh : ℤ) (N : ℝ) : ℝ := hqrSteps nh * (12000 / 2 ^ 53 * N + 4 * nh / 2 ^ 969)

/-- The bound on the error in a row of `z` of norm at most `K`. -/
noncomputable def hqrBoundZ (nh : ℤ) (K : ℝ) : ℝ := hqrSteps nh * (4640 / 2 ^ 53 * K + 48 / 2 ^ 1075)

end Verif.Spec
