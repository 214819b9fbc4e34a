import Verif.Spec.Mat
import Mathlib.Data.Real.Basic

/-!
# Specification: triangular matrices and the flags of `dtrmm`

Independent of the model.  Row and column numbers are 0-based.
-/

namespace Verif.Spec

/-- The legal values of `side`. -/
def SideFlag (s : Char) : Prop := s ∈ ['L', 'l', 'R', 'r']
/-- The legal values of `uplo`. -/
def UploFlag (u : Char) : Prop := u ∈ ['U', 'u', 'L', 'l']
/-- The legal values of `diag`. -/
def DiagFlag (d : Char) : Prop := d ∈ ['U', 'u', 'N', 'n']

/-- The triangular matrix multiplies from the left. -/
def isLeft (s : Char) : Bool := s == 'L' || s == 'l'
/-- The triangle is the upper one. -/
def isUpper (u : Char) : Bool := u == 'U' || u == 'u'
/-- The diagonal is taken to be 1. -/
def isUnit (d : Char) : Bool := d == 'U' || d == 'u'

/-- Positions of the stored matrix that belong to the named triangle, without the diagonal if that
is taken to be 1. -/
def InTri (uplo diag : Char) (i j : Nat) : Prop :=
  (if isUpper uplo then i ≤ j else j ≤ i) ∧ (isUnit diag = true → i ≠ j)

/-- The triangular matrix designated by `uplo` and `diag` in a square real matrix. -/
noncomputable def tri (uplo diag : Char) (x : Nat → Nat → ℝ) (i j : Nat) : ℝ :=
  if i = j then (if isUnit diag then 1 else x i i)
  else if (if isUpper uplo then i < j else j < i) then x i j else 0

end Verif.Spec
