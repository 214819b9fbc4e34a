import Verif.Props.Lapy2F64
import Verif.Props.GemmF64

/-!
# Laws of binary64 that hold bitwise

Multiplication commutes, `1` is neutral for it, `0` is neutral for addition except that `0 + -0` is `0`.
-/

namespace Verif
namespace F64
open Float.Model Float.Model.UnpackedFloat

theorem sign_mul_comm (s t : Sign) : s * t = t * s := by cases s <;> cases t <;> rfl

theorem mul_comm' (x y : Float) : x * y = y * x := up_inj (by
  rw [up_mul, up_mul]
  congr 1
  cases up x <;> cases up y <;>
    simp only [UnpackedFloat.mul, sign_mul_comm, Nat.mul_comm, Int.add_comm])

theorem one_mul' (x : Float) : 1 * x = x := by
  by_cases hx : x.isFinite = true
  · by_cases h0 : toR x = 0
    · obtain ⟨s, hs⟩ := toR_eq_zero hx h0
      apply up_inj
      rw [up_mul, hs]
      have : ∃ m e h, up (1 : Float) = .finite .positive m e h := ⟨_, _, by decide, rfl⟩
      obtain ⟨m, e, h, h1⟩ := this
      rw [h1]
      show fix (.zero (.positive * s)) = _
      rw [fix_zero]
      cases s <;> rfl
    · have h := mul_rounds 1 x toR_one.1 hx
      rw [toR_one.2, one_mul] at h
      obtain ⟨hf, hr⟩ := h.exact (abs_toR_lt x) (grid_toR x)
      exact toR_inj hr hf hx (by rw [hr]; exact h0)
  · apply up_inj
    have : ∃ m e h, up (1 : Float) = .finite .positive m e h := ⟨_, _, by decide, rfl⟩
    obtain ⟨m, e, h, h1⟩ := this
    rw [up_mul, h1]
    rw [isFinite_up] at hx
    cases hu : up x with
    | notANumber => exact fix_nan
    | infinity s =>
      show fix (.infinity (.positive * s)) = _
      rw [fix_inf]
      cases s <;> rfl
    | zero s => rw [hu] at hx; exact absurd rfl hx
    | finite s m e h => rw [hu] at hx; exact absurd rfl hx

/-- The value of an exactly representable sum. -/
theorem add_exact {x y : Float} (hx : x.isFinite = true) (hy : y.isFinite = true) (hG : Grid (toR x + toR y))
    (hb : |toR x + toR y| < ovf) : (x + y).isFinite = true ∧ toR (x + y) = toR x + toR y :=
  (add_rounds x y hx hy).exact hb hG

theorem mul_exact {x y : Float} (hx : x.isFinite = true) (hy : y.isFinite = true) (hG : Grid (toR x * toR y))
    (hb : |toR x * toR y| < ovf) : (x * y).isFinite = true ∧ toR (x * y) = toR x * toR y :=
  (mul_rounds x y hx hy).exact hb hG

/-! ### Integers -/

/-- `x` holds the integer `n`. -/
def HasInt (x : Float) (n : ℤ) : Prop := x.isFinite = true ∧ toR x = n

theorem int_grid {n : ℤ} (h : |n| < 2 ^ 53) : Grid (n : ℝ) ∧ |(n : ℝ)| < ovf := by
  have e : |(n : ℝ)| = (n.natAbs : ℝ) := by
    rw [Nat.cast_natAbs, Int.cast_abs]
  have hn : n.natAbs < 2 ^ 53 := by
    have : (n.natAbs : ℤ) < 2 ^ 53 := by rw [Int.natCast_natAbs]; exact h
    exact_mod_cast this
  refine ⟨?_, ?_⟩
  · have g := grid_nat hn
    rw [← e] at g
    unfold Grid at g ⊢
    rwa [abs_abs] at g
  · rw [e]
    have := val_lt_ovf (m := n.natAbs) (e := 0) hn (by norm_num)
    simpa using this

theorem HasInt.add {x y : Float} {a b : ℤ} (hx : HasInt x a) (hy : HasInt y b) (h : |a + b| < 2 ^ 53) : HasInt (x + y) (a + b) := by
  have g := int_grid h
  push_cast at g
  rw [← hx.2, ← hy.2] at g
  have := add_exact hx.1 hy.1 g.1 g.2
  refine ⟨this.1, ?_⟩
  rw [this.2, hx.2, hy.2]; push_cast; rfl

theorem HasInt.mul {x y : Float} {a b : ℤ} (hx : HasInt x a) (hy : HasInt y b) (h : |a * b| < 2 ^ 53) : HasInt (x * y) (a * b) := by
  have g := int_grid h
  push_cast at g
  rw [← hx.2, ← hy.2] at g
  have := mul_exact hx.1 hy.1 g.1 g.2
  refine ⟨this.1, ?_⟩
  rw [this.2, hx.2, hy.2]; push_cast; rfl

end F64
end Verif
