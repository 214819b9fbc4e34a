import Mathlib.Data.List.Range
import Mathlib.Tactic.Ring

/-!
# Specification vocabulary: strided vectors

The BLAS convention: a vector of `n` elements with increment `inc` is stored at (0-based) positions
`0, inc, 2*inc, ..` if `inc ≥ 0`, and at `(n-1)*|inc|, .., |inc|, 0` if `inc < 0`.
-/

namespace Verif

/-- Position (0-based) of element `k` of a strided vector. -/
def strideIx (n : Nat) (inc : Int) (k : Nat) : Nat :=
  if inc < 0 then (n - 1 - k) * inc.natAbs else k * inc.natAbs

/-- The `n` elements of a strided vector all lie inside a list of length `len`. -/
def StrideFits (n : Nat) (inc : Int) (len : Nat) : Prop := ∀ k < n, strideIx n inc k < len

theorem strideIx_inj {n : Nat} {inc : Int} (h : inc ≠ 0) {k k' : Nat} (hk : k < n) (hk' : k' < n)
    (e : strideIx n inc k = strideIx n inc k') : k = k' := by
  unfold strideIx at e
  have hp : 0 < inc.natAbs := Int.natAbs_pos.2 h
  split at e
  · have := Nat.eq_of_mul_eq_mul_right hp e; omega
  · exact Nat.eq_of_mul_eq_mul_right hp e

end Verif
