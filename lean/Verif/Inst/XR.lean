import Verif.Model.Scalar
import Mathlib.Analysis.SpecialFunctions.Pow.Real
import Mathlib.Analysis.SpecialFunctions.Log.Basic

/-!
# Exact arithmetic as scalar type

`XR` is the real line with the special values of IEEE-754 (`NaN`, `±∞`).  Arithmetic on finite values
is exact real arithmetic: no rounding, no overflow, no underflow; there is a single zero, and
`x / 0` is `±∞` with the sign of `x` (`NaN` for `x = 0`).  The special values propagate as in IEEE-754.
-/

namespace Verif

/-- A real number or a special value. -/
inductive XR where
  | nan
  | pinf
  | ninf
  | fin (r : ℝ)

namespace XR
open Classical

/-- The infinity with the sign of `r`; `NaN` for `0`. -/
noncomputable def inf (r : ℝ) : XR := if 0 < r then pinf else if r < 0 then ninf else nan

def neg : XR → XR
  | nan => nan
  | pinf => ninf
  | ninf => pinf
  | fin r => fin (-r)

noncomputable def add : XR → XR → XR
  | nan, _ => nan
  | _, nan => nan
  | pinf, ninf => nan
  | ninf, pinf => nan
  | pinf, _ => pinf
  | _, pinf => pinf
  | ninf, _ => ninf
  | _, ninf => ninf
  | fin a, fin b => fin (a + b)

noncomputable def mul : XR → XR → XR
  | nan, _ => nan
  | _, nan => nan
  | fin a, fin b => fin (a * b)
  | pinf, fin b => inf b
  | ninf, fin b => inf (-b)
  | fin a, pinf => inf a
  | fin a, ninf => inf (-a)
  | pinf, pinf => pinf
  | ninf, ninf => pinf
  | pinf, ninf => ninf
  | ninf, pinf => ninf

noncomputable def div : XR → XR → XR
  | nan, _ => nan
  | _, nan => nan
  | fin a, fin b => if b = 0 then inf a else fin (a / b)
  | fin _, _ => fin 0
  | pinf, fin b => if b < 0 then ninf else pinf
  | ninf, fin b => if b < 0 then pinf else ninf
  | _, _ => nan

noncomputable def lt : XR → XR → Bool
  | nan, _ => false
  | _, nan => false
  | fin a, fin b => decide (a < b)
  | ninf, ninf => false
  | ninf, _ => true
  | _, ninf => false
  | fin _, pinf => true
  | pinf, _ => false

noncomputable def beq : XR → XR → Bool
  | fin a, fin b => decide (a = b)
  | pinf, pinf => true
  | ninf, ninf => true
  | _, _ => false

noncomputable def le (a b : XR) : Bool := lt a b || beq a b

noncomputable def abs : XR → XR
  | nan => nan
  | pinf => pinf
  | ninf => pinf
  | fin r => fin |r|

noncomputable def sqrt : XR → XR
  | fin r => if r < 0 then nan else fin (Real.sqrt r)
  | pinf => pinf
  | _ => nan

/-- The sign of a value; zero counts as positive. -/
noncomputable def sgn : XR → ℝ
  | fin r => if r < 0 then -1 else 1
  | ninf => -1
  | _ => 1

noncomputable def signum : XR → XR
  | nan => nan
  | x => fin (sgn x)

noncomputable def copysign (x y : XR) : XR := mul (abs x) (fin (sgn y))

def isNaN : XR → Bool
  | nan => true
  | _ => false

noncomputable def fmax (x y : XR) : XR :=
  if isNaN x then y else if isNaN y then x else if lt x y then y else x

noncomputable def fmin (x y : XR) : XR :=
  if isNaN x then y else if isNaN y then x else if lt y x then y else x

/-- `x.powf(y)`; simplification: `NaN` for a negative base and for infinite operands, which the crate
never uses in exact arithmetic. -/
noncomputable def powf : XR → XR → XR
  | fin a, fin b => if 0 < a ∨ (a = 0 ∧ 0 ≤ b) then fin (a ^ b) else if a = 0 then pinf else nan
  | _, _ => nan

/-- `x.log(b)`; simplification as for `powf`. -/
noncomputable def log : XR → XR → XR
  | fin a, fin b => if 0 < a ∧ 0 < b then div (fin (Real.log a)) (fin (Real.log b)) else nan
  | _, _ => nan

noncomputable def trunc : XR → XR
  | fin a => if a < 0 then fin ⌈a⌉ else fin ⌊a⌋
  | x => x

noncomputable instance : Scalar XR where
  add := add
  sub a b := add a (neg b)
  mul := mul
  div := div
  neg := neg
  ofInt n := fin n
  lit n k := fin (n / 2 ^ k)
  epsilon := fin (1 / 2 ^ 52)
  minPositive := fin (1 / 2 ^ 1022)
  maxValue := fin ((2 - 1 / 2 ^ 52) * 2 ^ 1023)
  nan := nan
  abs := abs
  sqrt := sqrt
  signum := signum
  copysign := copysign
  fmax := fmax
  fmin := fmin
  powf := powf
  powi2 x := mul x x
  log := log
  trunc := trunc
  lt := lt
  le := le
  beq := beq
  isNaN := isNaN

/-! ### Finite values -/

@[simp] theorem fin_inj (a b : ℝ) : fin a = fin b ↔ a = b := by simp
@[simp] theorem fin_add (a b : ℝ) : fin a + fin b = fin (a + b) := rfl
@[simp] theorem fin_sub (a b : ℝ) : fin a - fin b = fin (a - b) := by
  show fin (a + -b) = _; rw [sub_eq_add_neg]
@[simp] theorem fin_mul (a b : ℝ) : fin a * fin b = fin (a * b) := rfl
@[simp] theorem fin_neg (a : ℝ) : -fin a = fin (-a) := rfl
theorem fin_div (a b : ℝ) (h : b ≠ 0) : fin a / fin b = fin (a / b) := by
  show div (fin a) (fin b) = _
  exact if_neg h
@[simp] theorem ofInt_eq (n : Int) : (Scalar.ofInt n : XR) = fin (n : ℝ) := rfl
@[simp] theorem lit_eq (n : Int) (k : Nat) : (Scalar.lit n k : XR) = fin ((n : ℝ) / 2 ^ k) := rfl
@[simp] theorem epsilon_eq : (Scalar.epsilon : XR) = fin (1 / 2 ^ 52) := rfl
@[simp] theorem minPositive_eq : (Scalar.minPositive : XR) = fin (1 / 2 ^ 1022) := rfl
@[simp] theorem maxValue_eq : (Scalar.maxValue : XR) = fin ((2 - 1 / 2 ^ 52) * 2 ^ 1023) := rfl
@[simp] theorem fin_lt (a b : ℝ) : (fin a <ᶠ fin b) = decide (a < b) := rfl
@[simp] theorem fin_le (a b : ℝ) : (fin a ≤ᶠ fin b) = decide (a ≤ b) := by
  show (decide (a < b) || decide (a = b)) = _
  rw [← Bool.decide_or]; simp only [le_iff_lt_or_eq]
@[simp] theorem fin_beq (a b : ℝ) : (fin a =ᶠ fin b) = decide (a = b) := rfl
@[simp] theorem fin_abs (a : ℝ) : Scalar.abs (fin a) = fin |a| := rfl
@[simp] theorem fin_isNaN (a : ℝ) : Scalar.isNaN (fin a) = false := rfl
theorem fin_sqrt (a : ℝ) (h : 0 ≤ a) : Scalar.sqrt (fin a) = fin (Real.sqrt a) := by
  show sqrt (fin a) = _
  exact if_neg (not_lt.2 h)
theorem fin_signum (a : ℝ) : Scalar.signum (fin a) = fin (if a < 0 then -1 else 1) := rfl
theorem fin_copysign (a b : ℝ) :
    Scalar.copysign (fin a) (fin b) = fin (|a| * if b < 0 then -1 else 1) := rfl
@[simp] theorem fin_powi2 (a : ℝ) : Scalar.powi2 (fin a) = fin (a * a) := rfl
@[simp] theorem fin_fmax (a b : ℝ) : Scalar.fmax (fin a) (fin b) = fin (max a b) := by
  show fmax (fin a) (fin b) = _
  unfold fmax
  simp only [isNaN, Bool.false_eq_true, if_false]
  show (if decide (a < b) = true then fin b else fin a) = _
  by_cases h : a < b
  · simp [h, max_eq_right h.le]
  · simp [h, max_eq_left (not_lt.1 h)]
@[simp] theorem fin_fmin (a b : ℝ) : Scalar.fmin (fin a) (fin b) = fin (min a b) := by
  show fmin (fin a) (fin b) = _
  unfold fmin
  simp only [isNaN, Bool.false_eq_true, if_false]
  show (if decide (b < a) = true then fin b else fin a) = _
  by_cases h : b < a
  · simp [h, min_eq_right h.le]
  · simp [h, min_eq_left (not_lt.1 h)]
theorem fin_powf (a b : ℝ) (h : 0 < a ∨ (a = 0 ∧ 0 ≤ b)) :
    Scalar.powf (fin a) (fin b) = fin (a ^ b) := by
  show powf (fin a) (fin b) = _
  exact if_pos h
theorem fin_powf_two (a : ℝ) (h : 0 ≤ a) : Scalar.powf (fin a) Scalar.two = fin (a ^ 2) := by
  show Scalar.powf (fin a) (fin ((2 : Int) : ℝ)) = _
  rw [fin_powf]
  · norm_num
  · rcases h.lt_or_eq with h | h
    · exact Or.inl h
    · exact Or.inr ⟨h.symm, by norm_num⟩

end XR
end Verif
