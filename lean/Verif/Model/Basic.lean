/-!
# Outcomes of a Rust computation, and `i32` / `usize` arithmetic

Every routine of the crate is modelled as a total, computable function in the monad `R`.
A value of `R α` says what the Rust code does in each of the two Cargo build profiles:

* `ok a`      – the call returns normally with value `a` (for a routine taking `&mut`
                arguments, `a` holds their new values);
* `panic p`   – the thread panics;
* `exit s i`  – `process::exit(1)` is reached through `xerbla(s, i)`;
* `timeout`   – the fuel of a loop without a static bound ran out (used for divergence).

`i32` operations are checked: in the `debug` profile an overflow panics, in `release` it wraps.
-/

namespace Verif

/-- The two Cargo profiles; `overflow-checks` is on in `debug` and off in `release`
(Cargo.toml sets neither, so the Cargo defaults apply). -/
inductive Profile where
  | debug
  | release
deriving DecidableEq, Repr

/-- Why a thread panicked. -/
inductive Panic where
  /-- integer overflow (debug profile only) -/
  | overflow
  /-- integer division or remainder by zero -/
  | divZero
  /-- slice/`Vec` index or range out of bounds -/
  | bounds
  /-- `Option::unwrap` on `None` -/
  | unwrap
  /-- `assert_eq!` failed -/
  | assertFailed
  /-- `vec![..; n]` with an `n` beyond `isize::MAX` bytes -/
  | capacity
  /-- `step_by(0)` -/
  | stepZero
  /-- a string was sliced outside its length or off a character boundary -/
  | strSlice
deriving DecidableEq, Repr

/-- Result of running a computation. -/
inductive Res (α : Type) where
  | ok (a : α)
  | panic (p : Panic)
  | exit (srname : String) (info : Int)
  | timeout
deriving Repr, DecidableEq

/-- A computation: its result in each build profile. -/
def R (α : Type) : Type := Profile → Res α

namespace R

protected def pure {α : Type} (a : α) : R α := fun _ => .ok a

protected def bind {α β : Type} (x : R α) (f : α → R β) : R β := fun p =>
  match x p with
  | .ok a => f a p
  | .panic e => .panic e
  | .exit s i => .exit s i
  | .timeout => .timeout

instance : Monad R where
  pure := R.pure
  bind := R.bind

@[ext] theorem ext {α : Type} {x y : R α} (h : ∀ p, x p = y p) : x = y := funext h

instance : LawfulMonad R := LawfulMonad.mk'
  (id_map := by
    intro α x; funext p
    show (match x p with | .ok a => Res.ok a | .panic e => .panic e | .exit s i => .exit s i
                         | .timeout => .timeout) = x p
    cases x p <;> rfl)
  (pure_bind := by intro α β a f; rfl)
  (bind_assoc := by
    intro α β γ x f g; funext p
    show R.bind (R.bind x f) g p = R.bind x (fun a => R.bind (f a) g) p
    simp only [R.bind]
    cases x p <;> rfl)

/-- A panicking computation. -/
def panic {α : Type} (e : Panic) : R α := fun _ => .panic e

/-- Models: src/xerbla.rs:22-28 — print a message naming `srname` and `info`, then
`process::exit(1)`.  The printed text and the status 1 are fixed by the two arguments. -/
def exit {α : Type} (srname : String) (info : Int) : R α := fun _ => .exit srname info

/-- Fuel exhausted. -/
def timeout {α : Type} : R α := fun _ => .timeout

@[simp] theorem pure_apply {α : Type} (a : α) (p : Profile) : (pure a : R α) p = .ok a := rfl

@[simp] theorem panic_bind {α β : Type} (e : Panic) (f : α → R β) :
    (panic e : R α) >>= f = panic e := rfl
@[simp] theorem exit_bind {α β : Type} (s : String) (i : Int) (f : α → R β) :
    (exit s i : R α) >>= f = exit s i := rfl
@[simp] theorem timeout_bind {α β : Type} (f : α → R β) :
    (timeout : R α) >>= f = timeout := rfl

theorem bind_apply {α β : Type} (x : R α) (f : α → R β) (p : Profile) :
    (x >>= f) p = match x p with
      | .ok a => f a p
      | .panic e => .panic e
      | .exit s i => .exit s i
      | .timeout => .timeout := rfl

end R

/-- `x` is a value of type `i32`. -/
def FitsI32 (x : Int) : Prop := -2147483648 ≤ x ∧ x ≤ 2147483647

instance (x : Int) : Decidable (FitsI32 x) := inferInstanceAs (Decidable (_ ∧ _))

/-- Two's complement wrap-around to `i32` (also the `as i32` cast). -/
def wrap32 (x : Int) : Int := (x + 2147483648) % 4294967296 - 2147483648

/-- The value of an `i32` arithmetic operation whose mathematical result is `x`. -/
def chk (x : Int) : R Int := fun p =>
  if FitsI32 x then .ok x
  else match p with
    | .debug => .panic .overflow
    | .release => .ok (wrap32 x)

/-- `i32` addition. -/
def iadd (a b : Int) : R Int := chk (a + b)
/-- `i32` subtraction. -/
def isub (a b : Int) : R Int := chk (a - b)
/-- `i32` multiplication. -/
def imul (a b : Int) : R Int := chk (a * b)

/-- `x as usize` for an `i32` on a 64-bit target: sign extension. -/
def asUsize (x : Int) : Nat := (x % 18446744073709551616).toNat

/-- The `i32` values of the range `lo..=hi`, in order. -/
def irange (lo hi : Int) : List Int :=
  (List.range (hi - lo + 1).toNat).map (fun (k : Nat) => lo + (k : Int))

/-- The `i32` values of `(lo..=hi).step_by(step)`, in order; `step_by(0)` panics. -/
def irangeStep (lo hi : Int) (step : Nat) : R (List Int) :=
  if step = 0 then R.panic .stepZero
  else pure ((List.range (((hi - lo + 1).toNat + step - 1) / step)).map
    (fun (k : Nat) => lo + (k : Int) * (step : Int)))

/-- `for i in lo..=hi { s = f(s, i) }` -/
def forUp {σ : Type} (lo hi : Int) (s : σ) (f : σ → Int → R σ) : R σ :=
  (irange lo hi).foldlM f s

/-- `for i in (lo..=hi).rev() { s = f(s, i) }` -/
def forDown {σ : Type} (lo hi : Int) (s : σ) (f : σ → Int → R σ) : R σ :=
  (irange lo hi).reverse.foldlM f s

/-- `for i in (lo..=hi).step_by(step) { s = f(s, i) }` -/
def forStep {σ : Type} (lo hi : Int) (step : Nat) (s : σ) (f : σ → Int → R σ) : R σ := do
  (← irangeStep lo hi step).foldlM f s

/-- Allocation of `vec![_; n]`: beyond `isize::MAX` bytes (8-byte elements) it panics. -/
def vecCap (n : Nat) : R Nat :=
  if n < 1152921504606846976 then pure n else R.panic .capacity

end Verif
