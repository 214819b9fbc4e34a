import Verif.Model.Hqr
import Verif.Inst.Float
import Verif.Props.Qr5Z

/-!
# `dlahqr` on `f64`: eigenvalues without the Schur form (C60), the Schur form itself (C61)

* With `wantt = false` the range of rows and columns a sweep updates, `i1..i2`, is `0..0` (src/dlahqr.rs:133-141: reference LAPACK sets it to the
  active block in this case and to the whole matrix if `wantt`; here `wantt` gets the active block), so the reflections are applied from one side only.
* With `wantt = true` the sweeps update the active block only, and the rotation of a 2-by-2 block is applied to copies of the columns above it that are
  then dropped (src/dlahqr.rs:365).
-/

namespace Verif
open Scalar

namespace Spec

/-- Element `(i, j)` of an `n`-by-`n` array, counted from zero. -/
def atN (n : Nat) (a : FA Float) (i j : Nat) : Float := a.data[i + n * j]?.getD 0

/-- The residual `Zᵀ A Z - T` in position `(i, j)`, computed in floating-point arithmetic. -/
def residualN (n : Nat) (a z t : FA Float) (i j : Nat) : Float :=
  ((List.range n).foldl (fun s k => (List.range n).foldl (fun s l => s + atN n z k i * atN n a k l * atN n z l j) s) 0) - atN n t i j

/-- The sum of a list. -/
def sumF (l : List Float) : Float := l.foldl (· + ·) 0

end Spec
open Spec

/-- The rows `(2, -1, 1)`, `(1, 0, 1)`, `(0, 1, 0)`. -/
def hessT : FA Float := ⟨[2, 1, 0, -1, 0, 1, 1, 1, 0], 3, 3, 0⟩

/-- `dlahqr` on `hessT`, with `z` starting as the identity. -/
def hqr3 (wantt : Bool) : R (HqrRet (FA Float) (List Float) (List Float) (FA Float)) :=
  dlahqr (F := Float) 5 wantt true 3 1 3 hessT 3 ([0, 0, 0] : List Float) ([0, 0, 0] : List Float) 1 3 eye3 3

/-- **C60.** On `f64`, asked for the eigenvalues only (`wantt = false`), `dlahqr` returns wrong ones and reports success: for the matrix with rows
`(2, -1, 1)`, `(1, 0, 1)`, `(0, 1, 0)`, of trace 2, it returns three real eigenvalues with a negative sum and `info = 0`.  With `wantt = true` their
sum is 2 up to `1e-14`. -/
theorem C60_dlahqr_eigenvalues_only (pr : Profile) :
    (∃ ret, hqr3 false pr = .ok ret ∧ ret.info = 0 ∧ ret.wi = [0, 0, 0] ∧ sumF ret.wr < -0.9) ∧
    (∃ ret, hqr3 true pr = .ok ret ∧ ret.info = 0 ∧ ret.wi = [0, 0, 0] ∧ (sumF ret.wr - 2).abs ≤ 1e-14) := by
  have h1 : ∀ pr, (hqr3 false pr).holds fun ret => decide (ret.info = 0 ∧ ret.wi = [0, 0, 0] ∧ sumF ret.wr < -0.9) := by
    intro pr
    cases pr <;> decide +kernel
  have h2 : ∀ pr, (hqr3 true pr).holds fun ret => decide (ret.info = 0 ∧ ret.wi = [0, 0, 0] ∧ (sumF ret.wr - 2).abs ≤ 1e-14) := by
    intro pr
    cases pr <;> decide +kernel
  obtain ⟨a, ea, ha⟩ := Res.holds_spec (h1 pr)
  obtain ⟨b, eb, hb⟩ := Res.holds_spec (h2 pr)
  exact ⟨⟨a, ea, of_decide_eq_true ha⟩, ⟨b, eb, of_decide_eq_true hb⟩⟩

/-- The rows `(0, -1, 2, 1)`, `(1, 0, 3, -2)`, `(0, 0, 0, 5)`, `(0, 0, 1, 0)`. -/
def hess4 : FA Float := ⟨[0, 1, 0, 0, -1, 0, 0, 0, 2, 3, 0, 1, 1, -2, 5, 0], 4, 4, 0⟩
def eye4 : FA Float := ⟨[1, 0, 0, 0, 0, 1, 0, 0, 0, 0, 1, 0, 0, 0, 0, 1], 4, 4, 0⟩

/-- `dlahqr` on `hess4`, with `z` starting as the identity. -/
def hqr4 : R (HqrRet (FA Float) (List Float) (List Float) (FA Float)) :=
  dlahqr (F := Float) 5 true true 4 1 4 hess4 4 ([0, 0, 0, 0] : List Float) ([0, 0, 0, 0] : List Float) 1 4 eye4 4

/-- **C61.** On `f64`, `dlahqr` asked for the Schur form (`wantt = true`) returns an `h` that is not the Schur form, and reports success: for `hess4` an
entry of `zᵀ a z - h` exceeds 1, although `z` is orthogonal and the diagonal blocks of `zᵀ a z` are those of `h`, all up to `1e-14`. -/
theorem C61_dlahqr_schur_form (pr : Profile) : ∃ ret, hqr4 pr = .ok ret ∧ ret.info = 0 ∧
    1 < (residualN 4 hess4 ret.z ret.h 1 2).abs ∧
    (∀ i < 4, ∀ j < 4, i / 2 ≥ j / 2 → (residualN 4 hess4 ret.z ret.h i j).abs ≤ 1e-14) ∧
    (∀ i < 4, ∀ j < 4, (residualN 4 eye4 ret.z eye4 i j).abs ≤ 1e-14) := by
  have h1 : ∀ pr, (hqr4 pr).holds fun ret => decide (ret.info = 0 ∧
      1 < (residualN 4 hess4 ret.z ret.h 1 2).abs ∧
      (∀ i < 4, ∀ j < 4, i / 2 ≥ j / 2 → (residualN 4 hess4 ret.z ret.h i j).abs ≤ 1e-14) ∧
      (∀ i < 4, ∀ j < 4, (residualN 4 eye4 ret.z eye4 i j).abs ≤ 1e-14)) := by
    intro pr
    cases pr <;> decide +kernel
  obtain ⟨a, ea, ha⟩ := Res.holds_spec (h1 pr)
  exact ⟨a, ea, of_decide_eq_true ha⟩

/-- `dlahqr` on the matrix with rows `(1, 2)`, `(1, 3)` passed as a flat vector with leading dimension 2. -/
def hqrFlat : R (HqrRet (List Float) (List Float) (List Float) (List Float)) :=
  dlahqr (F := Float) 5 true false 2 1 2 ([1, 1, 2, 3] : List Float) 2 ([0, 0] : List Float) ([0, 0] : List Float) 1 2 ([0] : List Float) 2

/-- **C62 fails for flat vectors.** `dlahqr` does not honour the leading dimension of a flat vector (it converts with `to_fa`, which makes the whole vector
the first column): for the matrix with rows `(1, 2)`, `(1, 3)`, whose eigenvalues are `2 ± √3`, it returns 1 and a number below `1e-300`, with
`info = 0`, and leaves the second column as it was. -/
theorem C62_dlahqr_flat (pr : Profile) : ∃ ret, hqrFlat pr = .ok ret ∧ ret.info = 0 ∧ ret.wi = [0, 0] ∧ ret.wr.head? = some 1 ∧
    (∀ x ∈ ret.wr.tail, x.abs < 1e-300) ∧ ret.h.drop 2 = [2, 3] := by
  have h1 : ∀ pr, (hqrFlat pr).holds fun ret => decide (ret.info = 0 ∧ ret.wi = [0, 0] ∧ ret.wr.head? = some 1 ∧
      (∀ x ∈ ret.wr.tail, x.abs < 1e-300) ∧ ret.h.drop 2 = [2, 3]) := by
    intro pr
    cases pr <;> decide +kernel
  obtain ⟨a, ea, ha⟩ := Res.holds_spec (h1 pr)
  exact ⟨a, ea, of_decide_eq_true ha⟩

end Verif
