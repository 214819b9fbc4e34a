/-!
# The scalar type

The crate computes in `f64`.  The model is written once over an arbitrary type `F` carrying the
operations the crate uses, *without any laws*.  A theorem about an arbitrary `F` therefore holds
for true IEEE-754 `f64` (instance in `Verif/Inst/Float.lean`) as well as for exact arithmetic with
IEEE special values (instance in `Verif/Inst/XR.lean`).
-/

namespace Verif

/-- The `f64` operations and constants used by the crate. -/
class Scalar (F : Type) extends Add F, Sub F, Mul F, Div F, Neg F where
  /-- conversion of an integer (`x as f64`, and integral literals such as `0.` and `1.`) -/
  ofInt : Int → F
  /-- the literal `num / 2^k` (`0.5`, `0.4375`) -/
  lit : Int → Nat → F
  /-- `f64::EPSILON` -/
  epsilon : F
  /-- `f64::MIN_POSITIVE` -/
  minPositive : F
  /-- `f64::MAX` -/
  maxValue : F
  /-- `f64::NAN` -/
  nan : F
  /-- `f64::abs` -/
  abs : F → F
  /-- `f64::sqrt` -/
  sqrt : F → F
  /-- `f64::signum` -/
  signum : F → F
  /-- `x.copysign(y)` -/
  copysign : F → F → F
  /-- `f64::max` (ignores a NaN operand) -/
  fmax : F → F → F
  /-- `f64::min` (ignores a NaN operand) -/
  fmin : F → F → F
  /-- `x.powf(y)` -/
  powf : F → F → F
  /-- `x.powi(2)` -/
  powi2 : F → F
  /-- `x.log(base)` -/
  log : F → F → F
  /-- `f64::trunc` -/
  trunc : F → F
  /-- `x < y` -/
  lt : F → F → Bool
  /-- `x <= y` -/
  le : F → F → Bool
  /-- `x == y` (IEEE equality: NaN differs from itself, `0.0 == -0.0`) -/
  beq : F → F → Bool
  /-- `f64::is_nan` -/
  isNaN : F → Bool

namespace Scalar
variable {F : Type} [Scalar F]

/-- `0.` -/
abbrev zero : F := ofInt 0
/-- `1.` -/
abbrev one : F := ofInt 1
/-- `2.` -/
abbrev two : F := ofInt 2

end Scalar

@[inherit_doc] scoped infix:50 " <ᶠ " => Scalar.lt
@[inherit_doc] scoped infix:50 " ≤ᶠ " => Scalar.le
@[inherit_doc] scoped infix:50 " =ᶠ " => Scalar.beq
/-- `x > y` -/
scoped notation:50 x:51 " >ᶠ " y:51 => Scalar.lt y x
/-- `x >= y` -/
scoped notation:50 x:51 " ≥ᶠ " y:51 => Scalar.le y x
/-- `x != y` -/
scoped notation:50 x:51 " ≠ᶠ " y:51 => !(Scalar.beq x y)

end Verif
