import Verif.Model.Basic
import Verif.Model.Scalar

/-!
# `FortranArray` (src/array/{mod,convert,indexing,display}.rs)
-/

namespace Verif
open Scalar

/-- Models: src/array/mod.rs:6-11, `struct FortranArray`. -/
structure FA (F : Type) where
  data : List F
  rows : Int
  cols : Int
  defaultValue : F
deriving Repr

namespace FA
variable {F : Type} [Scalar F]

/-- Models: src/array/mod.rs:13-27, `Default` and `empty`. -/
def empty : FA F := ⟨[], 0, 0, nan⟩

/-- Models: src/array/mod.rs:29-36. -/
def zeros (rows cols : Int) : R (FA F) := do
  let n ← vecCap (asUsize (← imul rows cols))
  pure ⟨List.replicate n zero, rows, cols, nan⟩

/-- Models: src/array/mod.rs:38-44. -/
def single (x : F) : FA F := ⟨[x], 1, 0, nan⟩

/-- Models: src/array/mod.rs:46-52. -/
def vector (data : List F) : FA F := ⟨data, wrap32 data.length, 0, nan⟩

/-- Models: src/array/mod.rs:54-62. -/
def matrix (data : List F) (rows cols : Int) : R (FA F) := do
  if wrap32 data.length = (← imul rows cols) then pure ⟨data, rows, cols, nan⟩
  else R.panic .assertFailed

/-- Models: src/array/mod.rs:83-85. -/
def is2d (a : FA F) : Bool := decide (a.rows > 0) && decide (a.cols > 0)

/-- Models: src/array/mod.rs:79-81. -/
def is1d (a : FA F) : Bool := decide (a.cols = 0)

/-- Models: src/array/mod.rs:74-77. -/
def len (a : FA F) : R Int := if a.is2d then imul a.rows a.cols else pure a.rows

/-- Models: src/array/mod.rs:70-72. -/
def idx (a : FA F) (i j : Int) : R Int := do
  iadd (← imul (← isub j 1) a.rows) i

/-- Models: src/array/mod.rs:64-68 (`Vec::insert` panics beyond the end).  Simplification: the code does not
evaluate `len` when `index < 1`; this differs only for arrays whose `rows * cols` overflows (debug profile). -/
def insert (a : FA F) (index : Int) (value : F) : R (FA F) := do
  if index ≥ 1 ∧ index < (← a.len) then
    let k := asUsize index - 1
    if k ≤ a.data.length then pure { a with data := a.data.insertIdx k value }
    else R.panic .bounds
  else pure a

/-- Models: src/array/mod.rs:87-91.  Simplification: `i32::MIN / -1` (exactly `2^31` elements and `rows = -1`)
panics in both profiles; here it wraps in `release`. -/
def as2d (a : FA F) (rows : Int) : R (FA F) :=
  if rows = 0 then R.panic .divZero
  else do
    let cols ← chk ((wrap32 a.data.length).tdiv rows)
    pure { a with rows := rows, cols := cols }

/-- Models: src/array/mod.rs:98-104, `PartialEq` (`f64` comparison of the elements). -/
def eq (a b : FA F) : Bool :=
  decide (a.rows = b.rows) && decide (a.cols = b.cols)
    && decide (a.data.length = b.data.length) && (List.zipWith (· =ᶠ ·) a.data b.data).all id

/-! ### Indexing -/

/-- Models: src/array/indexing.rs:8-18, read `a[index]`. -/
def get1 (a : FA F) (index : Int) : F :=
  if index = 0 then minPositive
  else match a.data[asUsize index - 1]? with
    | some v => v
    | none => minPositive

/-- Models: src/array/indexing.rs:23-33, `a[index] = f(a[index])` through `index_mut`.
An index out of range designates `default_value`. -/
def modify1 (a : FA F) (index : Int) (f : F → F) : FA F :=
  if index = 0 then { a with defaultValue := f a.defaultValue }
  else match a.data[asUsize index - 1]? with
    | some v => { a with data := a.data.set (asUsize index - 1) (f v) }
    | none => { a with defaultValue := f a.defaultValue }

/-- Models: src/array/indexing.rs:23-33, `a[index] = v`. -/
def set1 (a : FA F) (index : Int) (v : F) : FA F := a.modify1 index (fun _ => v)

/-- Models: src/array/indexing.rs:40 and 54, the offset computed for `(i, j)`. -/
def off (a : FA F) (i j : Int) : R Int := do
  iadd (← imul (← isub j 1) a.rows) (← isub i 1)

/-- Models: src/array/indexing.rs:39-47, read `a[(i, j)]`. -/
def get2 (a : FA F) (i j : Int) : R F := do
  let o ← a.off i j
  pure (match a.data[asUsize o]? with
    | some v => v
    | none => minPositive)

/-- Models: src/array/indexing.rs:52-61, `a[(i, j)] = f(a[(i, j)])` through `index_mut`. -/
def modify2 (a : FA F) (i j : Int) (f : F → F) : R (FA F) := do
  let o ← a.off i j
  pure (match a.data[asUsize o]? with
    | some v => { a with data := a.data.set (asUsize o) (f v) }
    | none => { a with defaultValue := f a.defaultValue })

/-- Models: src/array/indexing.rs:52-61, `a[(i, j)] = v`. -/
def set2 (a : FA F) (i j : Int) (v : F) : R (FA F) := a.modify2 i j (fun _ => v)

/-- Models: src/array/indexing.rs:67-73, `a[start..]`.  Simplification as in `insert`: the code does not
evaluate `len` when `start < 1`. -/
def from1 (a : FA F) (start : Int) : R (List F) := do
  if start ≥ 1 ∧ start ≤ (← a.len) then
    if asUsize (start - 1) ≤ a.data.length then pure (a.data.drop (asUsize (start - 1)))
    else R.panic .bounds
  else pure []

/-- Models: src/array/indexing.rs:90-94, `a[(i, j)..]`. -/
def from2 (a : FA F) (i j : Int) : R (List F) := do
  a.from1 (← iadd (← imul (← isub j 1) a.rows) i)

end FA

/-! ### Conversions -/

variable {F : Type} [Scalar F]

/-- Models: src/array/convert.rs:3-25, `From<&[f64]>` and `From<Vec<f64>>`. -/
def faOfVec (data : List F) : FA F := ⟨data, wrap32 data.length, 0, nan⟩

/-- Models: src/array/convert.rs:27-39, `From<Vec<Vec<f64>>>`. -/
def faOfVecVec (data : List (List F)) : FA F :=
  ⟨data.flatten, wrap32 data.length, wrap32 (match data with | [] => 0 | r :: _ => r.length), nan⟩

/-- Models: src/array/convert.rs:50-54, one step of the loop. -/
def vecVecStep (rows : Nat) (data : List (List F)) (iv : F × Nat) : R (List (List F)) :=
  if rows = 0 then R.panic .divZero
  else match data[iv.2 / rows]? with
    | none => R.panic .bounds
    | some c =>
      if iv.2 % rows < c.length then pure (data.set (iv.2 / rows) (c.set (iv.2 % rows) iv.1))
      else R.panic .bounds

/-- Models: src/array/convert.rs:47-57, `From<FortranArray> for Vec<Vec<f64>>`. -/
def vecVecOfFa (a : FA F) : R (List (List F)) := do
  let r ← vecCap (asUsize a.rows)
  let c ← vecCap (asUsize a.cols)
  a.data.zipIdx.foldlM (vecVecStep (asUsize a.rows))
    (List.replicate c (List.replicate r (zero : F)))

/-- Models: src/array/convert.rs:59-62, `trait ToFortranArray`. -/
class ToFA (F : Type) (A : Type) where
  toFa : A → FA F
  toFa2d : A → Int → R (FA F)

/-- Models: the `From<FortranArray>` bound of the `&mut` container arguments. -/
class FromFA (F : Type) (A : Type) where
  fromFa : FA F → R A

/-- Models: src/array/convert.rs:64-88 (`&[f64]` and `Vec<f64>`). -/
instance : ToFA F (List F) where
  toFa v := faOfVec v
  toFa2d v ld := (faOfVec v).as2d ld

/-- Models: src/array/convert.rs:90-99 (`Vec<Vec<f64>>`). -/
instance : ToFA F (List (List F)) where
  toFa v := faOfVecVec v
  toFa2d v _ := pure (faOfVecVec v)

/-- Models: src/array/convert.rs:101-110 (`FortranArray`). -/
instance : ToFA F (FA F) where
  toFa a := a
  toFa2d a _ := pure a

/-- Models: src/array/convert.rs:41-45. -/
instance : FromFA F (List F) where
  fromFa a := pure a.data

/-- Models: src/array/convert.rs:47-57. -/
instance : FromFA F (List (List F)) where
  fromFa a := vecVecOfFa a

/-- Models: the reflexive `impl<T> From<T> for T` of the standard library. -/
instance : FromFA F (FA F) where
  fromFa a := pure a

/-! ### Display -/

/-- What `Display` writes, as a list of pieces: literal text or a formatted element
(`{:.p$}` of an `f64` is not modelled further). -/
inductive Piece (F : Type) where
  | text (s : String)
  | num (precision : Nat) (x : F)
deriving Repr, DecidableEq

/-- Models: src/array/display.rs:9-14, the 1-D branch. -/
def display1 (p : Nat) (data : List F) : List (Piece F) :=
  .text "[" :: (data.zipIdx.flatMap fun (v, i) =>
    (if i ≠ 0 then [.text ", "] else []) ++ [.num p v]) ++ [.text "]"]

/-- Models: src/array/display.rs:20-24, one element of the 2-D branch. -/
def displayCell (p : Nat) (a : FA F) (row : Int) (out : List (Piece F)) (col : Int) :
    R (List (Piece F)) := do
  let sep := if col ≠ 0 then [.text ", "] else []
  let index ← iadd (← imul row a.cols) col
  match a.data[asUsize index]? with
  | some v => pure (out ++ sep ++ [.num p v])
  | none => R.panic .bounds

/-- Models: src/array/display.rs:16-27, the 2-D branch. -/
def display2 (p : Nat) (a : FA F) : R (List (Piece F)) := do
  let out ← (irange 0 (a.rows - 1)).foldlM (fun out row => do
    let out ← (irange 0 (a.cols - 1)).foldlM (displayCell p a row) (out ++ [.text "["])
    pure (out ++ [.text "]"])) [.text "["]
  pure (out ++ [.text "]"])

/-- Models: src/array/display.rs:5-29 (`precision` is the formatter's precision, default 1). -/
def display (precision : Option Nat) (a : FA F) : R (List (Piece F)) :=
  let p := precision.getD 1
  if a.is1d then pure (display1 p a.data) else display2 p a

end Verif
