import Verif.Model.Env

/-!
# IEEE-754 binary64 as scalar type

Lean's `Float` is binary64; its arithmetic, comparison, square root and conversions have a
definition the kernel can compute with (`Float.Model`), and are compiled to the hardware operations.
`Float.pow`, `Float.log`, `Float.floor` and `Float.ceil` are opaque to the kernel.
-/

namespace Verif

namespace F64

/-- The sign bit. -/
def signBit (x : Float) : Bool := (x.toBits >>> 63) == 1

/-- `x.copysign(y)`. -/
def copysign (x y : Float) : Float := if signBit y then -x.abs else x.abs

/-- `f64::signum`: `NaN` for `NaN`, else `1.0` with the sign of `x`. -/
def signum (x : Float) : Float := if x.isNaN then x else copysign 1 x

/-- `f64::max`. -/
def fmax (x y : Float) : Float :=
  if x.isNaN then y else if y.isNaN then x else if x < y then y else x

/-- `f64::min`. -/
def fmin (x y : Float) : Float :=
  if x.isNaN then y else if y.isNaN then x else if y < x then y else x

/-- `2^k` for `-1022 ≤ k ≤ 1023`. -/
def twoPow (k : Int) : Float := Float.ofBits (UInt64.ofNat (((k + 1023).toNat) <<< 52))

/-- `x.powf(y)`.  Simplification: for the only two uses in the crate with a fixed argument, the result
is given explicitly: `x.powf(2.)` is `x * x` (LLVM's rewriting of `pow(x, 2.0)`, and what a correctly
rounded `pow` returns), and `2.powf(k)` for an integer `-1022 ≤ k ≤ 1022` is the exact power.
Otherwise the opaque `pow` of the C library. -/
def powf (x y : Float) : Float :=
  if y == 2 then x * x
  else
    let k := y.abs.toUInt64
    if x == 2 ∧ k.toFloat == y.abs ∧ k.toNat ≤ 1022 then
      twoPow (if y < 0 then -(k.toNat : Int) else k.toNat)
    else Float.pow x y

/-- `x.log(b)`, computed by Rust as `x.ln() / b.ln()`.  Simplification: for the only use in the crate,
`(2^-970).log(2)` in `dlanv2`, the result is given explicitly; otherwise the opaque `log` of the C
library.  (`dlanv2` raises 2 to half of it and truncates, so any negative value has the same effect.) -/
def log (x b : Float) : Float :=
  if x == twoPow (-970) ∧ b == 2 then -970 else Float.log x / Float.log b

/-- `f64::trunc` (below 1 in magnitude it is a signed zero). -/
def trunc (x : Float) : Float :=
  if x.abs < 1 then copysign 0 x else if x < 0 then x.ceil else x.floor

/-- `x.round() as i32` for finite `x`: half away from zero, saturating. -/
def roundI32 (x : Float) : Int :=
  let t := x.abs.toUInt64
  let frac := x.abs - t.toFloat
  let r : Int := if frac < 0.5 then t.toNat else t.toNat + 1
  max (-2147483648) (min 2147483647 (if x < 0 then -r else r))

end F64

/-- Models: the `f64` primitives of Rust. -/
instance instScalarFloat : Scalar Float where
  ofInt := Float.ofInt
  lit n k := Float.ofInt n / Float.ofInt (2 ^ k)
  epsilon := Float.ofBits 0x3CB0000000000000
  minPositive := Float.ofBits 0x0010000000000000
  maxValue := Float.ofBits 0x7FEFFFFFFFFFFFFF
  nan := Float.ofBits 0x7FF8000000000000
  abs := Float.abs
  sqrt := Float.sqrt
  signum := F64.signum
  copysign := F64.copysign
  fmax := F64.fmax
  fmin := F64.fmin
  powf := F64.powf
  powi2 x := x * x
  log := F64.log
  trunc := F64.trunc
  lt a b := Float.lt a b
  le a b := Float.le a b
  beq := Float.beq
  isNaN := Float.isNaN

/-- Models: src/ilaenv.rs:139. -/
def ilaenvSvd (n : Int) : Int := F64.roundI32 (Float.ofInt n * 1.6)

/-- Models: src/ilaenv.rs:15-148. -/
def ilaenv (ispec : Int) (name : List Char) (n1 n2 n3 n4 : Int) : R Int :=
  ilaenvWith ilaenvSvd (fun i => ieeeck i (0 : Float) (1 : Float)) ispec name n1 n2 n3 n4

end Verif
