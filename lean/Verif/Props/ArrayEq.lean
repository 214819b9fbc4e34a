import Verif.Props.Array
import Verif.Lib.F64Err

/-!
# Comparing arrays with `==` (C53), and the one-element and empty arrays (C09)
-/

namespace Verif
open Scalar

section
variable {F : Type} [Scalar F]

/-- **C53**.  `a == b` holds exactly when the shapes and the numbers of stored elements agree and the elements in the same position
compare equal; the slot that absorbs out-of-range writes plays no part. -/
theorem C53_eq (a b : FA F) : a.eq b = true ↔ a.rows = b.rows ∧ a.cols = b.cols ∧ a.data.length = b.data.length ∧
    ∀ (k : Nat) (x y : F), a.data[k]? = some x → b.data[k]? = some y → (x =ᶠ y) = true := by
  unfold FA.eq
  simp only [Bool.and_eq_true, decide_eq_true_eq, and_assoc]
  refine and_congr_right fun _ => and_congr_right fun _ => and_congr_right fun hl => ?_
  rw [List.all_eq_true]
  constructor
  · intro h k x y hx hy
    refine h _ (List.mem_of_getElem? (i := k) ?_)
    rw [List.getElem?_zipWith, hx, hy]
  · intro h v hv
    obtain ⟨k, hk⟩ := List.mem_iff_getElem?.1 hv
    rw [List.getElem?_zipWith] at hk
    cases hx : a.data[k]? with
    | none => rw [hx] at hk; simp at hk
    | some x =>
      cases hy : b.data[k]? with
      | none => rw [hx, hy] at hk; simp at hk
      | some y =>
        rw [hx, hy] at hk
        simp only [Option.some.injEq] at hk
        rw [← hk]
        exact h k x y hx hy

/-- Comparison does not see the slot for out-of-range writes. -/
theorem C53_slot (a : FA F) (i : Int) (hi : i = 0 ∨ asUsize i - 1 ≥ a.data.length) (v : F) (b : FA F) : (a.set1 i v).eq b = a.eq b := by
  have : (a.set1 i v).data = a.data ∧ (a.set1 i v).rows = a.rows ∧ (a.set1 i v).cols = a.cols := by
    unfold FA.set1 FA.modify1
    rcases hi with h | h
    · rw [if_pos h]; exact ⟨rfl, rfl, rfl⟩
    · split
      · exact ⟨rfl, rfl, rfl⟩
      · rw [List.getElem?_eq_none h]; exact ⟨rfl, rfl, rfl⟩
  unfold FA.eq
  rw [this.1, this.2.1, this.2.2]

/-- **C09, `single` and `empty`.** `single(x)` is the vector with the one element `x`, `empty()` the vector with none. -/
theorem C09_single (x : F) : FA.single x = FA.vector [x] ∧ (FA.empty : FA F) = FA.vector [] ∧ (FA.single x).get1 1 = x ∧ (FA.single x).len = pure 1 ∧
    (FA.empty : FA F).len = pure 0 := by
  have h1 : FA.single x = FA.vector [x] := by
    unfold FA.single FA.vector
    rw [show wrap32 (([x] : List F).length : Int) = 1 from (by decide : wrap32 (1 : Nat) = 1)]
  have h0 : (FA.empty : FA F) = FA.vector [] := by
    unfold FA.empty FA.vector
    rw [show wrap32 (([] : List F).length : Int) = 0 from (by decide : wrap32 (0 : Nat) = 0)]
  refine ⟨h1, h0, ?_, rfl, rfl⟩
  rw [h1]
  exact C05_read [x] (by simp) 0 (by simp)

end

namespace F64

theorem beq_iff (x y : Float) : Float.beq x y = true ↔ (toXR x = toXR y ∧ x.isNaN = false) := by
  rw [beq_toXR, isNaN_toXR]
  generalize toXR x = u
  generalize toXR y = v
  cases u <;> cases v <;> simp [XR.beq, XR.isNaN]

/-- **C53, on `f64`**: an array equals itself exactly when it holds no NaN. -/
theorem C53_refl (a : FA Float) : a.eq a = true ↔ ∀ x ∈ a.data, x.isNaN = false := by
  rw [C53_eq]
  constructor
  · intro h x hx
    obtain ⟨k, hk⟩ := List.mem_iff_getElem?.1 hx
    exact ((beq_iff x x).1 (h.2.2.2 k x x hk hk)).2
  · intro h
    refine ⟨rfl, rfl, rfl, fun k x y hx hy => ?_⟩
    rw [hx] at hy
    cases hy
    exact (beq_iff x x).2 ⟨rfl, h x (List.mem_of_getElem? hx)⟩

/-- **C53, on `f64`**: `==` is symmetric. -/
theorem C53_symm (a b : FA Float) (h : a.eq b = true) : b.eq a = true := by
  rw [C53_eq] at h ⊢
  obtain ⟨h1, h2, h3, h4⟩ := h
  refine ⟨h1.symm, h2.symm, h3.symm, fun k x y hx hy => ?_⟩
  obtain ⟨e, n⟩ := (beq_iff y x).1 (h4 k y x hy hx)
  exact (beq_iff x y).2 ⟨e.symm, by rw [isNaN_toXR, ← e, ← isNaN_toXR]; exact n⟩

/-- **C53, on `f64`**: `==` is transitive. -/
theorem C53_trans (a b c : FA Float) (h : a.eq b = true) (h' : b.eq c = true) : a.eq c = true := by
  rw [C53_eq] at h h' ⊢
  obtain ⟨h1, h2, h3, h4⟩ := h
  obtain ⟨g1, g2, g3, g4⟩ := h'
  refine ⟨h1.trans g1, h2.trans g2, h3.trans g3, fun k x z hx hz => ?_⟩
  obtain ⟨y, hy⟩ : ∃ y, b.data[k]? = some y := by
    cases hb : b.data[k]? with
    | some y => exact ⟨y, rfl⟩
    | none =>
      have h5 := List.getElem?_eq_none_iff.1 hb
      have h6 := (List.getElem?_eq_some_iff.1 hx).1
      omega
  obtain ⟨e, n⟩ := (beq_iff x y).1 (h4 k x y hx hy)
  obtain ⟨e', -⟩ := (beq_iff y z).1 (g4 k y z hy hz)
  exact (beq_iff x z).2 ⟨e.trans e', n⟩

/-- Non-vacuity: two different arrays that compare equal (`0.0 == -0.0`), and one that does not equal itself. -/
example : (FA.vector [(0.0 : Float), 1.0]).eq (FA.vector [-0.0, 1.0]) = true := by decide +kernel
example : (FA.vector [(0.0 : Float), 0.0 / 0.0]).eq (FA.vector [(0.0 : Float), 0.0 / 0.0]) = false := by decide +kernel

end F64

end Verif
