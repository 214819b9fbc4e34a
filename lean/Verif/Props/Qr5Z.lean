import Verif.Model.Qr5
import Verif.Inst.Float
import Verif.Props.HqrIndep

/-!
# `dlaqr5` and the Schur vectors on `f64` (C58)

Without accumulation (`kacc22` neither 1 nor 2) the loop that multiplies `z` by the reflections runs over `(mbot..=mtop).rev()`
(src/dlaqr5.rs:375) instead of `(mtop..=mbot).rev()`: in the last step of a sweep it applies the last reflection a second time, and one more
made of elements outside `v`.  With accumulation `z` is right.
-/

namespace Verif
open Scalar

/-- The rows `(1, 2, 1)`, `(1, 3, 2)`, `(0, 1, 1)`. -/
def hess3 : FA Float := ⟨[1, 1, 0, 2, 3, 1, 1, 2, 1], 3, 3, 0⟩
def eye3 : FA Float := ⟨[1, 0, 0, 0, 1, 0, 0, 0, 1], 3, 3, 0⟩

/-- `dlaqr5` on that matrix with the shifts 1 and 2, all of `h` and `z` to be transformed. -/
def sweep3 (kacc22 : Int) (wantz : Bool) : R (Qr5Ret (FA Float) (FA Float) (FA Float) (FA Float) (FA Float) (FA Float)) :=
  dlaqr5 (F := Float) true wantz kacc22 3 1 3 2 ([1, 2] : List Float) ([0, 0] : List Float) hess3 3 1 3 eye3 3
    (⟨[0, 0, 0], 3, 1, 0⟩ : FA Float) 3 (⟨List.replicate 16 0, 4, 4, 0⟩ : FA Float) 4 3 (⟨List.replicate 12 0, 3, 4, 0⟩ : FA Float) 3
    3 (⟨List.replicate 12 0, 4, 3, 0⟩ : FA Float) 4

namespace Spec

/-- Element `(i, j)` of a 3-by-3 array, counted from zero. -/
def at3 (a : FA Float) (i j : Nat) : Float := a.data[i + 3 * j]?.getD 0

/-- The residual `Zᵀ A Z - T` in position `(i, j)`, computed in floating-point arithmetic. -/
def residual3 (a z t : FA Float) (i j : Nat) : Float :=
  ([0, 1, 2].foldl (fun s k => [0, 1, 2].foldl (fun s l => s + at3 z k i * at3 a k l * at3 z l j) s) 0) - at3 t i j

/-- All residuals are at most `x`. -/
def residualsLe (a z t : FA Float) (x : Float) : Bool :=
  [0, 1, 2].all fun i => [0, 1, 2].all fun j => (residual3 a z t i j).abs ≤ x

end Spec
open Spec

/-- A property of the returned value, false if the call does not return. -/
def Res.holds {α : Type} (x : Res α) (f : α → Bool) : Bool :=
  match x with
  | .ok a => f a
  | _ => false

theorem Res.holds_spec {α : Type} {x : Res α} {f : α → Bool} (h : x.holds f = true) : ∃ a, x = .ok a ∧ f a = true := by
  cases x with
  | ok a => exact ⟨a, rfl, h⟩
  | panic _ => cases h
  | exit _ _ => cases h
  | timeout => cases h

/-- **C58.** On `f64`, `dlaqr5` told to transform `z` returns, without accumulation, a `z` that does not carry the input to the returned `h`: an
entry of `zᵀ a z - h` exceeds 4.  With accumulation (`kacc22 = 1`), on the same input, all entries of the residual are below `1e-14`. -/
theorem C58_dlaqr5_z_without_accumulation (pr : Profile) :
    (∃ ret, sweep3 0 true pr = .ok ret ∧ ∃ i j, 4 < (residual3 hess3 ret.z ret.h i j).abs) ∧
    (∃ ret, sweep3 1 true pr = .ok ret ∧ residualsLe hess3 ret.z ret.h 1e-14 = true) := by
  have h1 : ∀ pr, (sweep3 0 true pr).holds fun ret => decide (4 < (residual3 hess3 ret.z ret.h 0 1).abs) := by
    intro pr
    cases pr <;> decide +kernel
  have h2 : ∀ pr, (sweep3 1 true pr).holds fun ret => residualsLe hess3 ret.z ret.h 1e-14 := by
    intro pr
    cases pr <;> decide +kernel
  obtain ⟨a, ea, ha⟩ := Res.holds_spec (h1 pr)
  obtain ⟨b, eb, hb⟩ := Res.holds_spec (h2 pr)
  exact ⟨⟨a, ea, 0, 1, of_decide_eq_true ha⟩, ⟨b, eb, hb⟩⟩

/-- The call of `C54_dlaqr5_without_z` returns on this input. -/
theorem C54_dlaqr5_example : ∃ ret, sweep3 0 true .release = .ok ret ∧ (1 : Float) < at3 ret.h 0 0 := by
  have h : (sweep3 0 true .release).holds fun ret => decide ((1 : Float) < at3 ret.h 0 0) := by decide +kernel
  obtain ⟨a, ea, ha⟩ := Res.holds_spec h
  exact ⟨a, ea, of_decide_eq_true ha⟩

end Verif
