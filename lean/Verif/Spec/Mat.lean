import Verif.Model.Scalar
import Mathlib.Tactic.Linarith
import Mathlib.Tactic.Ring

/-!
# Specification: column-major matrices, transpose flags, matrix products

Independent of the model.  Row and column numbers are 0-based here.
-/

namespace Verif.Spec
open Verif Scalar

variable {F : Type} [Scalar F]

/-- Entry `(i, j)` of the column-major matrix stored in `v` with leading dimension `ld`. -/
def entry (v : List F) (ld i j : Nat) : F := v.getD (i + j * ld) minPositive

/-- An `r`-by-`c` matrix with leading dimension `ld` is stored in `v`; sizes are `i32` values. -/
structure Stored (v : List F) (ld r c : Nat) : Prop where
  pos : 0 < ld
  rows : r ≤ ld
  ldSmall : ld < 2 ^ 31
  small : v.length < 2 ^ 31
  fits : ∀ i < r, ∀ j < c, i + j * ld < v.length

/-- `p` is the position of an entry of the leading `r`-by-`c` block. -/
def InBlock (ld r c p : Nat) : Prop := ∃ i < r, ∃ j < c, p = i + j * ld

/-- The legal values of a transpose flag. -/
def TransFlag (t : Char) : Prop := t ∈ ['N', 'n', 'T', 't', 'C', 'c']

/-- The flag asks for the matrix itself. -/
def noTrans (t : Char) : Bool := t == 'N' || t == 'n'

/-- `op(X)`. -/
def op (t : Char) (x : Nat → Nat → F) (i j : Nat) : F := if noTrans t then x i j else x j i

/-- The value an accumulation into `c` starts from: `beta * c`, except that `beta = 0` gives `0`
whatever `c` is and `beta = 1` gives `c` itself. -/
def scaled (beta c : F) : F :=
  if beta =ᶠ zero then zero else if beta =ᶠ one then c else c * beta

/-- The exact sequence of scalar operations that produces one entry of `alpha*op(A)*op(B)+beta*C`:
`x l` is `op(A)(i,l)`, `y l` is `op(B)(l,j)` for `l < k`, and `c` the old entry. -/
def gemmEntry (nota : Bool) (k : Nat) (alpha beta : F) (x y : Nat → F) (c : F) : F :=
  if ((alpha =ᶠ zero) = true ∨ k = 0) ∧ (beta =ᶠ one) = true then c
  else if alpha =ᶠ zero then scaled beta c
  else if nota then
    (List.range k).foldl (fun acc l => acc + alpha * y l * x l) (scaled beta c)
  else
    let t := (List.range k).foldl (fun acc l => acc + x l * y l) zero
    if beta =ᶠ zero then alpha * t else alpha * t + beta * c

end Verif.Spec
