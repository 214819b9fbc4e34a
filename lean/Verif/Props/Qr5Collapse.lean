import Verif.Props.Qr5Z

/-!
# `dlaqr5` and collapsed bulges on `f64` (C71)

When a bulge collapses, `dlaqr5` computes a new reflection from the rest of the block (src/dlaqr5.rs:264-294).  It stores `tau` with `vt.insert(1, tau)` in an
array of one element, and `insert` ignores an index past the end: `tau` is lost, its place is taken by a component of the vector, and the components are read outside
the array.  What is applied to `h` is then not a reflection.
-/

namespace Verif
open Scalar

/-- `dlaqr5` on all of a 4-by-4 matrix with two real shifts, `z` not wanted. -/
def sweep4 (kacc22 : Int) (h : FA Float) (s1 s2 : Float) : R (Qr5Ret (FA Float) (FA Float) (FA Float) (FA Float) (FA Float) (FA Float)) :=
  dlaqr5 (F := Float) true false kacc22 4 1 4 2 ([s1, s2] : List Float) ([0, 0] : List Float) h 4 1 4 (⟨[], 0, 0, 0⟩ : FA Float) 4
    (⟨[0, 0, 0], 3, 1, 0⟩ : FA Float) 3 (⟨List.replicate 16 0, 4, 4, 0⟩ : FA Float) 4 4 (⟨List.replicate 16 0, 4, 4, 0⟩ : FA Float) 4
    4 (⟨List.replicate 16 0, 4, 4, 0⟩ : FA Float) 4

namespace Spec

/-- The matrix with rows `(a, c, f, 1)`, `(b, d, 1, 2)`, `(0, e, 5, 1)`, `(0, 0, g, 6)`. -/
def hess4 (a b c d e f g : Float) : FA Float := ⟨[a, b, 0, 0, c, d, e, 0, f, 1, 5, g, 1, 2, 1, 6], 4, 4, 0⟩

/-- The trace of a 4-by-4 array. -/
def trace4 (a : FA Float) : Float := [0, 5, 10, 15].foldl (fun s i => s + a.data[i]?.getD 0) 0

/-- The sum of the squares of the elements. -/
def squares (a : FA Float) : Float := a.data.foldl (fun s x => s + x * x) 0

end Spec
open Spec

/-- **C71.** An orthogonal similarity keeps the trace and the sum of squares.  On `f64`, `dlaqr5` with the shifts 1 and 2, with or without accumulation, lowers the trace of a
4-by-4 matrix whose first subdiagonal element is zero from 18 to below 16; with 1 in that place instead, trace and sum of squares are kept up to `1e-12`. -/
theorem C71_dlaqr5_zero_subdiagonal (pr : Profile) (kacc22 : Int) (hk : kacc22 = 0 ∨ kacc22 = 1) :
    (∃ ret, sweep4 kacc22 (hess4 4 0 1 3 1 2 1) 1 2 pr = .ok ret ∧ trace4 (hess4 4 0 1 3 1 2 1) = 18 ∧ trace4 ret.h < 16) ∧
    (∃ ret, sweep4 kacc22 (hess4 4 1 1 3 1 2 1) 1 2 pr = .ok ret ∧ (trace4 ret.h - trace4 (hess4 4 1 1 3 1 2 1)).abs ≤ 1e-12 ∧
      (squares ret.h - squares (hess4 4 1 1 3 1 2 1)).abs ≤ 1e-12) := by
  have h1 : ∀ pr, ((sweep4 kacc22 (hess4 4 0 1 3 1 2 1) 1 2 pr).holds fun ret =>
      decide (trace4 (hess4 4 0 1 3 1 2 1) = 18) && decide (trace4 ret.h < 16)) = true := by
    intro pr
    rcases hk with rfl | rfl <;> cases pr <;> decide +kernel
  have h2 : ∀ pr, ((sweep4 kacc22 (hess4 4 1 1 3 1 2 1) 1 2 pr).holds fun ret =>
      decide ((trace4 ret.h - trace4 (hess4 4 1 1 3 1 2 1)).abs ≤ 1e-12) && decide ((squares ret.h - squares (hess4 4 1 1 3 1 2 1)).abs ≤ 1e-12)) = true := by
    intro pr
    rcases hk with rfl | rfl <;> cases pr <;> decide +kernel
  obtain ⟨a, ea, ha⟩ := Res.holds_spec (h1 pr)
  obtain ⟨b, eb, hb⟩ := Res.holds_spec (h2 pr)
  simp only [Bool.and_eq_true, decide_eq_true_eq] at ha hb
  exact ⟨⟨a, ea, ha⟩, ⟨b, eb, hb⟩⟩

/-- **C71, unreduced blocks.** The same happens, by underflow, when no subdiagonal element is zero: the trace falls by more than 2 and the sum of squares by more than 15. -/
theorem C71_dlaqr5_underflow (pr : Profile) (kacc22 : Int) (hk : kacc22 = 0 ∨ kacc22 = 1) :
    ∃ ret, sweep4 kacc22 (hess4 1 1 1 3 1e-17 1 1e-310) 1 3 pr = .ok ret ∧ (1e-310 : Float) > 0 ∧
      trace4 ret.h < trace4 (hess4 1 1 1 3 1e-17 1 1e-310) - 2 ∧ squares ret.h < squares (hess4 1 1 1 3 1e-17 1 1e-310) - 15 := by
  have h1 : ∀ pr, ((sweep4 kacc22 (hess4 1 1 1 3 1e-17 1 1e-310) 1 3 pr).holds fun ret =>
      decide ((1e-310 : Float) > 0) && decide (trace4 ret.h < trace4 (hess4 1 1 1 3 1e-17 1 1e-310) - 2) &&
      decide (squares ret.h < squares (hess4 1 1 1 3 1e-17 1 1e-310) - 15)) = true := by
    intro pr
    rcases hk with rfl | rfl <;> cases pr <;> decide +kernel
  obtain ⟨a, ea, ha⟩ := Res.holds_spec (h1 pr)
  simp only [Bool.and_eq_true, decide_eq_true_eq] at ha
  exact ⟨a, ea, ha.1.1, ha.1.2, ha.2⟩

end Verif
