import Verif.Model.Array

/-!
# BLAS routines (src/blas/*.rs)

Each routine takes its `&mut` arguments by value and returns their new values.
-/

namespace Verif
open Scalar

variable {F : Type} [Scalar F]

/-- `c as u8` for a `char`: truncation of the code point. -/
def charU8 (c : Char) : Nat := c.toNat % 256

/-- `u8::is_ascii_alphabetic`. -/
def u8Alpha (b : Nat) : Bool := (65 ≤ b && b ≤ 90) || (97 ≤ b && b ≤ 122)

/-- `u8::to_ascii_lowercase`. -/
def u8Lower (b : Nat) : Nat := if 65 ≤ b && b ≤ 90 then b + 32 else b

/-- Models: src/blas/lsame.rs:9-20. -/
def lsame (ca cb : Char) : Bool :=
  let a := charU8 ca
  let b := charU8 cb
  a == b || (u8Alpha a && u8Alpha b && u8Lower a == u8Lower b)

/-! ### DCOPY -/

/-- Models: src/blas/dcopy.rs:45-51, one pass of the unrolled loop. -/
def dcopyUnrolled (dx : FA F) (dy : FA F) (i : Int) : R (FA F) := do
  let dy := dy.set1 i (dx.get1 i)
  let dy := dy.set1 (← iadd i 1) (dx.get1 (← iadd i 1))
  let dy := dy.set1 (← iadd i 2) (dx.get1 (← iadd i 2))
  let dy := dy.set1 (← iadd i 3) (dx.get1 (← iadd i 3))
  let dy := dy.set1 (← iadd i 4) (dx.get1 (← iadd i 4))
  let dy := dy.set1 (← iadd i 5) (dx.get1 (← iadd i 5))
  pure (dy.set1 (← iadd i 6) (dx.get1 (← iadd i 6)))

/-- Models: src/blas/dcopy.rs:55-56 and src/blas/drot.rs:46-49, the starting index of a
vector traversed with increment `inc`. -/
def startIx (n inc : Int) : R Int :=
  if inc < 0 then do iadd (← imul (← iadd (-n) 1) inc) 1 else pure 1

/-- Models: src/blas/dcopy.rs:59-61. -/
def dcopyStep (dx : FA F) (incx incy : Int) (s : FA F × Int × Int) (_ : Int) :
    R (FA F × Int × Int) := do
  let dy := s.1.set1 s.2.2 (dx.get1 s.2.1)
  pure (dy, ← iadd s.2.1 incx, ← iadd s.2.2 incy)

/-- Models: src/blas/dcopy.rs:30-65 on `FortranArray`s (`none`: the early return of line 33,
which leaves the caller's `dy` untouched). -/
def dcopyFA (n : Int) (dx : FA F) (incx : Int) (dy : FA F) (incy : Int) :
    R (Option (FA F)) := do
  if n ≤ 0 then return none
  if incx = 1 ∧ incy = 1 then
    let m := n.tmod 7
    if m ≠ 0 ∧ n < 7 then
      return some (← forUp 1 m dy fun dy i => pure (dy.set1 i (dx.get1 i)))
    let dy ← if m ≠ 0 then forUp 1 m dy fun dy i => pure (dy.set1 i (dx.get1 i)) else pure dy
    return some (← forStep (← iadd m 1) n 7 dy (dcopyUnrolled dx))
  else
    let ix ← startIx n incx
    let iy ← startIx n incy
    let s ← forUp 1 n (dy, ix, iy) (dcopyStep dx incx incy)
    return some s.1

/-- Models: src/blas/dcopy.rs:20-66. Returns the new `dy`. -/
def dcopy {DX DY : Type} [ToFA F DX] [ToFA F DY] [FromFA F DY]
    (n : Int) (dx : DX) (incx : Int) (dy : DY) (incy : Int) : R DY := do
  match ← dcopyFA (F := F) n (ToFA.toFa dx) incx (ToFA.toFa dy) incy with
  | none => pure dy
  | some r => FromFA.fromFa r

/-! ### DSCAL -/

/-- Models: src/blas/dscal.rs:43-47, one pass of the unrolled loop. -/
def dscalUnrolled (da : F) (dx : FA F) (i : Int) : R (FA F) := do
  let dx := dx.modify1 i (· * da)
  let dx := dx.modify1 (← iadd i 1) (· * da)
  let dx := dx.modify1 (← iadd i 2) (· * da)
  let dx := dx.modify1 (← iadd i 3) (· * da)
  pure (dx.modify1 (← iadd i 4) (· * da))

/-- Models: src/blas/dscal.rs:53-56, the `while` loop, with fuel.  The loop state that controls
termination is the `i32` counter alone, so `2^32` rounds of fuel are exact: a run that does not
finish within them repeats a counter value and never finishes. -/
def dscalWhile (da : F) (nincx incx : Int) : Nat → FA F → Int → R (FA F)
  | 0, dx, i => if i < nincx then R.timeout else pure dx
  | fuel + 1, dx, i =>
    if i < nincx then do
      let dx := dx.modify1 i (· * da)
      dscalWhile da nincx incx fuel dx (← iadd i incx)
    else pure dx

/-- Models: src/blas/dscal.rs:28-59 on a `FortranArray` (`none`: early return of line 30). -/
def dscalFA (n : Int) (da : F) (dx : FA F) (incx : Int) : R (Option (FA F)) := do
  if n ≤ 0 ∨ incx ≤ 0 ∨ (da =ᶠ one) = true then return none
  if incx = 1 then
    let m := n.tmod 5
    if m ≠ 0 ∧ n < 5 then
      return some (← forUp 1 m dx fun dx i => pure (dx.modify1 i (· * da)))
    let dx ← if m ≠ 0 then forUp 1 m dx fun dx i => pure (dx.modify1 i (· * da)) else pure dx
    return some (← forStep (← iadd m 1) n 5 dx (dscalUnrolled da))
  else
    let nincx ← imul n incx
    return some (← dscalWhile da nincx incx 4294967296 dx 1)

/-- Models: src/blas/dscal.rs:20-60. Returns the new `dx`. -/
def dscal {DX : Type} [ToFA F DX] [FromFA F DX]
    (n : Int) (da : F) (dx : DX) (incx : Int) : R DX := do
  match ← dscalFA n da (ToFA.toFa dx) incx with
  | none => pure dx
  | some r => FromFA.fromFa r

/-! ### DROT -/

/-- Models: src/blas/drot.rs:40-42 and 51-53. -/
def drotPair (c s : F) (dx dy : FA F) (ix iy : Int) : FA F × FA F :=
  let dtemp := c * dx.get1 ix + s * dy.get1 iy
  let dy := dy.set1 iy (c * dy.get1 iy - s * dx.get1 ix)
  (dx.set1 ix dtemp, dy)

/-- Models: src/blas/drot.rs:51-55. -/
def drotStep (c s : F) (incx incy : Int) (st : (FA F × FA F) × Int × Int) (_ : Int) :
    R ((FA F × FA F) × Int × Int) := do
  pure (drotPair c s st.1.1 st.1.2 st.2.1 st.2.2, ← iadd st.2.1 incx, ← iadd st.2.2 incy)

/-- Models: src/blas/drot.rs:33-60 on `FortranArray`s (`none`: early return of line 36). -/
def drotFA (n : Int) (dx : FA F) (incx : Int) (dy : FA F) (incy : Int) (c s : F) :
    R (Option (FA F × FA F)) := do
  if n ≤ 0 then return none
  if incx = 1 ∧ incy = 1 then
    return some (← forUp 1 n (dx, dy) fun st i => pure (drotPair c s st.1 st.2 i i))
  else
    let ix ← startIx n incx
    let iy ← startIx n incy
    let st ← forUp 1 n ((dx, dy), ix, iy) (drotStep c s incx incy)
    return some st.1

/-- Models: src/blas/drot.rs:21-61. Returns the new `(dx, dy)`. -/
def drot {DX DY : Type} [ToFA F DX] [FromFA F DX] [ToFA F DY] [FromFA F DY]
    (n : Int) (dx : DX) (incx : Int) (dy : DY) (incy : Int) (c s : F) : R (DX × DY) := do
  match ← drotFA n (ToFA.toFa dx) incx (ToFA.toFa dy) incy c s with
  | none => pure (dx, dy)
  | some r => do
    let x ← FromFA.fromFa r.1
    let y ← FromFA.fromFa r.2
    pure (x, y)

/-! ### DNRM2 -/

/-- `f64::RADIX as f64` = 2. -/
abbrev fRadix : F := ofInt 2
/-- `f64::MIN_EXP as f64` = -1021. -/
abbrev fMinExp : F := ofInt (-1021)
/-- `f64::MAX_EXP as f64` = 1024. -/
abbrev fMaxExp : F := ofInt 1024
/-- `f64::DIGITS as f64` = 15 (decimal digits). -/
abbrev fDigits : F := ofInt 15

/-- Models: src/blas/dnrm2.rs:37. -/
def tsml : F := powf fRadix ((fMinExp - one) * lit 1 1)
/-- Models: src/blas/dnrm2.rs:38. -/
def tbig : F := powf fRadix ((fMaxExp - fDigits + one) * lit 1 1)
/-- Models: src/blas/dnrm2.rs:39. -/
def ssml : F := powf fRadix (-(fMinExp - fDigits) * lit 1 1)
/-- Models: src/blas/dnrm2.rs:40. -/
def sbig : F := powf fRadix (-(fMaxExp + fDigits - one) * lit 1 1)

/-- The accumulators of `dnrm2` (src/blas/dnrm2.rs:45-48). -/
structure Nrm2 (F : Type) where
  notbig : Bool
  asml : F
  amed : F
  abig : F
deriving Repr

/-- Models: src/blas/dnrm2.rs:53-61, accumulation of one element. -/
def nrm2Acc (s : Nrm2 F) (x : F) : Nrm2 F :=
  let ax := abs x
  if ax >ᶠ tbig then
    { s with abig := s.abig + powf (ax * sbig) two, notbig := false }
  else if ax <ᶠ tsml then
    if s.notbig then { s with asml := s.asml + powf (ax * ssml) two } else s
  else { s with amed := s.amed + powf ax two }

/-- Models: src/blas/dnrm2.rs:65-87, the final combination. -/
def nrm2Final (s : Nrm2 F) : F :=
  let bad := (s.amed >ᶠ zero) || (s.amed >ᶠ maxValue) || (s.amed ≠ᶠ s.amed)
  let r : F × F :=
    if s.abig >ᶠ zero then
      let abig := if bad then s.abig + (s.amed * sbig) * sbig else s.abig
      (one / sbig, abig)
    else if s.asml >ᶠ zero then
      if bad then
        let amed := sqrt s.amed
        let asml := sqrt s.asml / ssml
        let y := if asml >ᶠ amed then (amed, asml) else (asml, amed)
        (one, powf y.2 two * (one + powf (y.1 / y.2) two))
      else (one / ssml, s.asml)
    else (one, s.amed)
  r.1 * sqrt r.2

/-- Models: src/blas/dnrm2.rs:53-62, one round of the loop. -/
def nrm2Step (x : FA F) (incx : Int) (s : Nrm2 F × Int) (_ : Int) : R (Nrm2 F × Int) := do
  pure (nrm2Acc s.1 (x.get1 s.2), ← iadd s.2 incx)

/-- Models: src/blas/dnrm2.rs:34-87 on a `FortranArray`. -/
def dnrm2FA (n : Int) (x : FA F) (incx : Int) : R F := do
  if n ≤ 0 then return zero
  let ix ← if incx < 0 then isub 1 (← imul (← isub n 1) incx) else pure 1
  let s ← forUp 1 n ((⟨true, zero, zero, zero⟩ : Nrm2 F), ix) (nrm2Step x incx)
  return nrm2Final s.1

/-- Models: src/blas/dnrm2.rs:27-88. -/
def dnrm2 {X : Type} [ToFA F X] (n : Int) (x : X) (incx : Int) : R F :=
  dnrm2FA n (ToFA.toFa x) incx

/-! ### DGEMM -/

/-- Models: src/blas/dgemm.rs:88-92, 110-112 and 145-147: zero rows `1..=m` of column `j`. -/
def zeroCol (m : Int) (c : FA F) (j : Int) : R (FA F) :=
  forUp 1 m c fun c i => c.set2 i j zero

/-- Models: src/blas/dgemm.rs:95-97, 114-116 and 149-151: scale rows `1..=m` of column `j`. -/
def scaleCol (m : Int) (beta : F) (c : FA F) (j : Int) : R (FA F) :=
  forUp 1 m c fun c i => c.modify2 i j (· * beta)

/-- Models: src/blas/dgemm.rs:109-117 and 144-152. -/
def betaCol (m : Int) (beta : F) (c : FA F) (j : Int) : R (FA F) :=
  if beta =ᶠ zero then zeroCol m c j
  else if beta ≠ᶠ one then scaleCol m beta c j
  else pure c

/-- Models: src/blas/dgemm.rs:119-122 (`tb = false`) and 154-157 (`tb = true`). -/
def gemmAxpy (tb : Bool) (m : Int) (alpha : F) (a b : FA F) (j : Int) (c : FA F) (l : Int) :
    R (FA F) := do
  let temp := alpha * (← if tb then b.get2 j l else b.get2 l j)
  forUp 1 m c fun c i => do
    let ail ← a.get2 i l
    c.modify2 i j (· + temp * ail)

/-- Models: src/blas/dgemm.rs:108-124 (`tb = false`) and 143-159 (`tb = true`). -/
def gemmNotA (tb : Bool) (m n k : Int) (alpha : F) (a b : FA F) (beta : F) (c : FA F) :
    R (FA F) :=
  forUp 1 n c fun c j => do
    let c ← betaCol m beta c j
    forUp 1 k c (gemmAxpy tb m alpha a b j)

/-- Models: src/blas/dgemm.rs:129-132 (`tb = false`) and 164-167 (`tb = true`). -/
def gemmDot (tb : Bool) (k : Int) (a b : FA F) (i j : Int) : R F :=
  forUp 1 k (zero : F) fun temp l => do
    let ali ← a.get2 l i
    let blj ← if tb then b.get2 j l else b.get2 l j
    pure (temp + ali * blj)

/-- Models: src/blas/dgemm.rs:133-137 and 168-172. -/
def gemmStore (alpha beta : F) (i j : Int) (c : FA F) (temp : F) : R (FA F) := do
  if beta =ᶠ zero then c.set2 i j (alpha * temp)
  else c.set2 i j (alpha * temp + beta * (← c.get2 i j))

/-- Models: src/blas/dgemm.rs:127-139 (`tb = false`) and 162-174 (`tb = true`). -/
def gemmTransA (tb : Bool) (m n k : Int) (alpha : F) (a b : FA F) (beta : F) (c : FA F) :
    R (FA F) :=
  forUp 1 n c fun c j =>
    forUp 1 m c fun c i => do
      gemmStore alpha beta i j c (← gemmDot tb k a b i j)

/-- Models: src/blas/dgemm.rs:50-73, the argument check: 0 or the number of the first
illegal argument. -/
def dgemmInfo (transa transb : Char) (m n k lda ldb ldc : Int) : Int :=
  let nota := lsame transa 'N'
  let notb := lsame transb 'N'
  let nrowa := if nota then m else k
  let nrowb := if notb then k else n
  if !nota && !lsame transa 'C' && !lsame transa 'T' then 1
  else if !notb && !lsame transb 'C' && !lsame transb 'T' then 2
  else if m < 0 then 3
  else if n < 0 then 4
  else if k < 0 then 5
  else if lda < max 1 nrowa then 8
  else if ldb < max 1 nrowb then 10
  else if ldc < max 1 m then 13
  else 0

/-- Models: src/blas/dgemm.rs:50-177 on `FortranArray`s (`none`: early return of line 81). -/
def dgemmFA (transa transb : Char) (m n k : Int) (alpha : F) (a : FA F) (lda : Int)
    (b : FA F) (ldb : Int) (beta : F) (c : FA F) (ldc : Int) : R (Option (FA F)) := do
  let nota := lsame transa 'N'
  let notb := lsame transb 'N'
  let info := dgemmInfo transa transb m n k lda ldb ldc
  if info ≠ 0 then R.exit "DGEMM " info
  else if m = 0 ∨ n = 0 ∨ (((alpha =ᶠ zero) = true ∨ k = 0) ∧ (beta =ᶠ one) = true) then
    pure none
  else if alpha =ᶠ zero then
    if beta =ᶠ zero then return some (← forUp 1 n c (zeroCol m))
    else return some (← forUp 1 n c (scaleCol m beta))
  else if notb then
    if nota then return some (← gemmNotA false m n k alpha a b beta c)
    else return some (← gemmTransA false m n k alpha a b beta c)
  else if nota then return some (← gemmNotA true m n k alpha a b beta c)
  else return some (← gemmTransA true m n k alpha a b beta c)

/-- Models: src/blas/dgemm.rs:27-178. Returns the new `c`. -/
def dgemm {A B C : Type} [ToFA F A] [ToFA F B] [ToFA F C] [FromFA F C]
    (transa transb : Char) (m n k : Int) (alpha : F) (a : A) (lda : Int) (b : B) (ldb : Int)
    (beta : F) (c : C) (ldc : Int) : R C := do
  let a_f ← ToFA.toFa2d (F := F) a lda
  let b_f ← ToFA.toFa2d (F := F) b ldb
  let c_f ← ToFA.toFa2d (F := F) c ldc
  match ← dgemmFA transa transb m n k alpha a_f lda b_f ldb beta c_f ldc with
  | none => pure c
  | some r => FromFA.fromFa r

/-! ### DTRMM -/

/-- Models: src/blas/dtrmm.rs:53-75, the argument check. -/
def dtrmmInfo (side uplo transa diag : Char) (m n lda ldb : Int) : Int :=
  let lside := lsame side 'L'
  let nrowa := if lside then m else n
  let upper := lsame uplo 'U'
  if !lside && !lsame side 'R' then 1
  else if !upper && !lsame uplo 'L' then 2
  else if !lsame transa 'N' && !lsame transa 'T' && !lsame transa 'C' then 3
  else if !lsame diag 'U' && !lsame diag 'N' then 4
  else if m < 0 then 5
  else if n < 0 then 6
  else if lda < max 1 nrowa then 9
  else if ldb < max 1 m then 11
  else 0

/-- `b[(i, j)] += temp * a[(i, k)]` for `i` in `lo..=hi`.
Models: src/blas/dtrmm.rs:103-105 and 122-124. -/
def trmmAxpyA (lo hi : Int) (temp : F) (a : FA F) (k j : Int) (b : FA F) : R (FA F) :=
  forUp lo hi b fun b i => do
    let aik ← a.get2 i k
    b.modify2 i j (· + temp * aik)

/-- `b[(i, j)] += temp * b[(i, k)]` for `i` in `1..=m`.
Models: src/blas/dtrmm.rs:172-174, 190-192, 203-205 and 223-225.  Simplification: outside the array the code
updates the hidden `default_value` slot, and `x = x + y` and `x += y` are not told apart there (no `Index`
reads that slot). -/
def trmmAxpyB (m : Int) (temp : F) (j k : Int) (b : FA F) : R (FA F) :=
  forUp 1 m b fun b i => do
    let bik ← b.get2 i k
    b.modify2 i j (· + temp * bik)

/-- `b[(i, j)] = temp * b[(i, j)]` for `i` in `1..=m`.
Models: src/blas/dtrmm.rs:166-168, 184-186, 213-215 and 233-235.  Simplification: as in `trmmAxpyB`. -/
def trmmScale (m : Int) (temp : F) (j : Int) (b : FA F) : R (FA F) :=
  forUp 1 m b fun b i => b.modify2 i j (temp * ·)

/-- Models: src/blas/dtrmm.rs:101-110. -/
def trmmLUNStep (nounit : Bool) (alpha : F) (a : FA F) (j : Int) (b : FA F) (k : Int) :
    R (FA F) := do
  let bkj ← b.get2 k j
  if bkj ≠ᶠ zero then
    let temp := alpha * bkj
    let b ← trmmAxpyA 1 (k - 1) temp a k j b
    let temp ← if nounit then do pure (temp * (← a.get2 k k)) else pure temp
    b.set2 k j temp
  else pure b

/-- Models: src/blas/dtrmm.rs:116-125.  Simplification, here and in the other steps of `dtrmm`: `k + 1` (`i + 1`,
`j + 1`) is not checked for overflow, which needs `m` or `n` to be `i32::MAX`. -/
def trmmLLNStep (nounit : Bool) (m : Int) (alpha : F) (a : FA F) (j : Int) (b : FA F) (k : Int) :
    R (FA F) := do
  let bkj ← b.get2 k j
  if bkj ≠ᶠ zero then
    let temp := alpha * bkj
    let b ← b.set2 k j temp
    let b ← if nounit then do
        let akk ← a.get2 k k
        b.modify2 k j (· * akk)
      else pure b
    trmmAxpyA (k + 1) m temp a k j b
  else pure b

/-- Models: src/blas/dtrmm.rs:133-140 (`lo = 1`, `hi = i - 1`) and 146-153
(`lo = i + 1`, `hi = m`). -/
def trmmLTStep (nounit : Bool) (lo hi : Int) (alpha : F) (a : FA F) (j : Int) (b : FA F)
    (i : Int) : R (FA F) := do
  let temp ← b.get2 i j
  let temp ← if nounit then do pure (temp * (← a.get2 i i)) else pure temp
  let temp ← forUp lo hi temp fun temp k => do
    let aki ← a.get2 k i
    let bkj ← b.get2 k j
    pure (temp + aki * bkj)
  b.set2 i j (alpha * temp)

/-- Models: src/blas/dtrmm.rs:162-176 (`lo = 1`, `hi = j - 1`) and 180-194
(`lo = j + 1`, `hi = n`). -/
def trmmRNStep (nounit : Bool) (m lo hi : Int) (alpha : F) (a : FA F) (b : FA F) (j : Int) :
    R (FA F) := do
  let temp ← if nounit then do pure (alpha * (← a.get2 j j)) else pure alpha
  let b ← trmmScale m temp j b
  forUp lo hi b fun b k => do
    let akj ← a.get2 k j
    if akj ≠ᶠ zero then trmmAxpyB m (alpha * akj) j k b else pure b

/-- Models: src/blas/dtrmm.rs:200-216 (`lo = 1`, `hi = k - 1`) and 220-236
(`lo = k + 1`, `hi = n`). -/
def trmmRTStep (nounit : Bool) (m lo hi : Int) (alpha : F) (a : FA F) (b : FA F) (k : Int) :
    R (FA F) := do
  let b ← forUp lo hi b fun b j => do
    let ajk ← a.get2 j k
    if ajk ≠ᶠ zero then trmmAxpyB m (alpha * ajk) j k b else pure b
  let temp ← if nounit then do pure (alpha * (← a.get2 k k)) else pure alpha
  if temp ≠ᶠ one then trmmScale m temp k b else pure b

/-- Outcome of `dtrmm` on `FortranArray`s: which `&mut` arguments are written back. -/
inductive TrmmOut (F : Type) where
  /-- line 82: nothing written -/
  | nothing
  /-- line 92: only `b` written -/
  | onlyB (b : FA F)
  /-- lines 242-243: both written -/
  | both (a b : FA F)

/-- Models: src/blas/dtrmm.rs:96-240, the update loops. -/
def dtrmmCore (lside upper notrans nounit : Bool) (m n : Int) (alpha : F) (a b : FA F) :
    R (FA F) :=
  if lside then
    if notrans then
      if upper then
        forUp 1 n b fun b j => forUp 1 m b (trmmLUNStep nounit alpha a j)
      else
        forUp 1 n b fun b j => forDown 1 m b (trmmLLNStep nounit m alpha a j)
    else if upper then
      forUp 1 n b fun b j => forDown 1 m b fun b i =>
        trmmLTStep nounit 1 (i - 1) alpha a j b i
    else
      forUp 1 n b fun b j => forUp 1 m b fun b i =>
        trmmLTStep nounit (i + 1) m alpha a j b i
  else if notrans then
    if upper then
      forDown 1 n b fun b j => trmmRNStep nounit m 1 (j - 1) alpha a b j
    else
      forUp 1 n b fun b j => trmmRNStep nounit m (j + 1) n alpha a b j
  else if upper then
    forUp 1 n b fun b k => trmmRTStep nounit m 1 (k - 1) alpha a b k
  else
    forDown 1 n b fun b k => trmmRTStep nounit m (k + 1) n alpha a b k

/-- Models: src/blas/dtrmm.rs:53-243 on `FortranArray`s.  `lda` and `ldb` are only checked. -/
def dtrmmFA (side uplo transa diag : Char) (m n : Int) (alpha : F) (a : FA F) (lda : Int)
    (b : FA F) (ldb : Int) : R (TrmmOut F) := do
  let info := dtrmmInfo side uplo transa diag m n lda ldb
  if info ≠ 0 then R.exit "DTRMM " info
  else if m = 0 ∨ n = 0 then pure .nothing
  else if alpha =ᶠ zero then
    return .onlyB (← forUp 1 n b (zeroCol m))
  else
    return .both a (← dtrmmCore (lsame side 'L') (lsame uplo 'U') (lsame transa 'N')
      (lsame diag 'N') m n alpha a b)

/-- Models: src/blas/dtrmm.rs:34-244. Returns the new `(a, b)`. -/
def dtrmm {A B : Type} [ToFA F A] [FromFA F A] [ToFA F B] [FromFA F B]
    (side uplo transa diag : Char) (m n : Int) (alpha : F) (a : A) (lda : Int)
    (b : B) (ldb : Int) : R (A × B) := do
  match ← dtrmmFA (F := F) side uplo transa diag m n alpha (ToFA.toFa a) lda (ToFA.toFa b) ldb with
  | .nothing => pure (a, b)
  | .onlyB b' => do
    let b ← FromFA.fromFa b'
    pure (a, b)
  | .both a' b' => do
    let a ← FromFA.fromFa a'
    let b ← FromFA.fromFa b'
    pure (a, b)

end Verif
