import Verif.Model.Blas

/-!
# LAPACK auxiliary routines

`dlacpy`, `dlaset`, `dlamch`, `dlapy2`, `dlarfg`, `dlaqr1`, `dlanv2`, `ieeeck`.
-/

namespace Verif
open Scalar

variable {F : Type} [Scalar F]

/-! ### DLACPY, DLASET -/

/-- Models: the row range of column `j` selected by `uplo` in src/dlacpy.rs:30-46 and
src/dlaset.rs:27-43: `'U'` is `j..=m`, `'L'` is `1..=j`, anything else is `1..=m`. -/
def uploLo (uplo : Char) (j : Int) : Int := if uplo = 'U' then j else 1
/-- See `uploLo`. -/
def uploHi (uplo : Char) (m j : Int) : Int := if uplo = 'L' then j else m

/-- Models: src/dlacpy.rs:30-46. -/
def dlacpyFA (uplo : Char) (m n : Int) (a b : FA F) : R (FA F) :=
  forUp 1 n b fun b j => forUp (uploLo uplo j) (uploHi uplo m j) b fun b i => do
    b.set2 i j (← a.get2 i j)

/-- Models: src/dlacpy.rs:15-49. Returns the new `b`. -/
def dlacpy {A B : Type} [ToFA F A] [ToFA F B] [FromFA F B]
    (uplo : Char) (m n : Int) (a : A) (lda : Int) (b : B) (ldb : Int) : R B := do
  let a_f ← ToFA.toFa2d (F := F) a lda
  let b_f ← ToFA.toFa2d (F := F) b ldb
  FromFA.fromFa (← dlacpyFA uplo m n a_f b_f)

/-- Models: src/dlaset.rs:27-47. -/
def dlasetFA (uplo : Char) (m n : Int) (alpha beta : F) (a : FA F) : R (FA F) := do
  let a ← forUp 1 n a fun a j => forUp (uploLo uplo j) (uploHi uplo m j) a fun a i =>
    a.set2 i j alpha
  forUp 1 (min n m) a fun a i => a.set2 i i beta

/-- Models: src/dlaset.rs:15-50. Returns the new `a`. -/
def dlaset {A : Type} [ToFA F A] [FromFA F A]
    (uplo : Char) (m n : Int) (alpha beta : F) (a : A) : R A := do
  FromFA.fromFa (← dlasetFA uplo m n alpha beta (ToFA.toFa a))

/-! ### DLAMCH -/

/-- Models: src/dlamch.rs:13-48 (`MANTISSA_DIGITS` = 53). -/
def dlamch (cmach : Char) : F :=
  let eps : F := epsilon * lit 1 1
  match cmach with
  | 'E' => eps
  | 'S' =>
    let small := one / maxValue
    if small ≥ᶠ minPositive then small * (one + eps) else minPositive
  | 'B' => fRadix
  | 'P' => eps * fRadix
  | 'N' => ofInt 53
  | 'R' => one
  | 'M' => fMinExp
  | 'U' => minPositive
  | 'L' => fMaxExp
  | 'O' => maxValue
  | _ => zero

/-! ### DLAPY2 -/

/-- Models: src/dlapy2.rs:13-25. -/
def dlapy2 (x y : F) : F :=
  if isNaN x then x
  else if isNaN y then y
  else
    let w := fmax (abs x) (abs y)
    let z := fmin (abs x) (abs y)
    if (z =ᶠ zero) || (w >ᶠ maxValue) then w
    else w * sqrt (one + powi2 (z / w))

/-! ### DLARFG -/

/-- Models: src/dlarfg.rs:57-65, the rescaling loop.  `k` is `21 - knt` before the round: the
loop leaves as soon as `knt > 20`, so it makes at most 21 rounds.
Returns `(x, beta, alpha, knt)`. -/
def dlarfgRescale {X : Type} [ToFA F X] [FromFA F X] (n incx : Int) (safmin rsafmn : F) :
    Nat → X → F → F → Nat → R (X × F × F × Nat)
  | 0, x, beta, alpha, knt => pure (x, beta, alpha, knt)
  | k + 1, x, beta, alpha, knt => do
    let knt := knt + 1
    let x ← dscal (F := F) (← isub n 1) rsafmn x incx
    let beta := beta * rsafmn
    let alpha := alpha * rsafmn
    if (abs beta >ᶠ safmin) || decide (knt > 20) then pure (x, beta, alpha, knt)
    else dlarfgRescale n incx safmin rsafmn k x beta alpha knt

/-- Models: src/dlarfg.rs:73, `for _ in 0..knt { beta *= safmin; }`. -/
def mulPow (safmin : F) : Nat → F → F
  | 0, beta => beta
  | k + 1, beta => mulPow safmin k (beta * safmin)

/-- Models: src/dlarfg.rs:71-74. -/
def dlarfgFinish {X : Type} [ToFA F X] [FromFA F X] (n incx : Int) (safmin : F)
    (alpha beta : F) (x : X) (knt : Nat) : R (F × X × F) := do
  let tau := (beta - alpha) / beta
  let x ← dscal (F := F) (← isub n 1) (one / (alpha - beta)) x incx
  pure (mulPow safmin knt beta, x, tau)

/-- Models: src/dlarfg.rs:33-76. Returns the new `(alpha, x, tau)`. -/
def dlarfg {X : Type} [ToFA F X] [FromFA F X] (n : Int) (alpha : F) (x : X) (incx : Int) :
    R (F × X × F) := do
  if n ≤ 1 then return (alpha, x, zero)
  let xnorm : F ← dnrm2 (← isub n 1) x incx
  if xnorm =ᶠ zero then return (alpha, x, zero)
  let beta := -signum alpha * dlapy2 alpha xnorm
  let safmin : F := dlamch 'S' / dlamch 'E'
  if abs beta <ᶠ safmin then
    let rsafmn := one / safmin
    let (x, _, alpha, knt) ← dlarfgRescale n incx safmin rsafmn 21 x beta alpha 0
    let xnorm : F ← dnrm2 (← isub n 1) x incx
    let beta := -signum alpha * dlapy2 alpha xnorm
    dlarfgFinish n incx safmin alpha beta x knt
  else
    dlarfgFinish n incx safmin alpha beta x 0

/-! ### DLAQR1 -/

/-- Models: src/dlaqr1.rs:42-65 on `FortranArray`s. -/
def dlaqr1FA (n : Int) (h : FA F) (sr1 si1 sr2 si2 : F) (v : FA F) : R (FA F) := do
  if n = 2 then
    let h11 ← h.get2 1 1
    let h21 ← h.get2 2 1
    let h12 ← h.get2 1 2
    let h22 ← h.get2 2 2
    let s := abs (h11 - sr2) + abs si2 + abs h21
    if s =ᶠ zero then
      pure ((v.set1 1 zero).set1 2 zero)
    else
      let h21s := h21 / s
      pure ((v.set1 1 (h21s * h12 + (h11 - sr1) * ((h11 - sr2) / s) - si1 * (si2 / s))).set1 2
        (h21s * (h11 + h22 - sr1 - sr2)))
  else
    let h11 ← h.get2 1 1
    let h21 ← h.get2 2 1
    let h31 ← h.get2 3 1
    let h12 ← h.get2 1 2
    let h22 ← h.get2 2 2
    let h32 ← h.get2 3 2
    let h13 ← h.get2 1 3
    let h23 ← h.get2 2 3
    let h33 ← h.get2 3 3
    let s := abs (h11 - sr2) + abs si2 + abs h21 + abs h31
    if s =ᶠ zero then
      pure (((v.set1 1 zero).set1 2 zero).set1 3 zero)
    else
      let h21s := h21 / s
      let h31s := h31 / s
      pure (((v.set1 1 ((h11 - sr1) * ((h11 - sr2) / s) - si1 * (si2 / s) + h12 * h21s
          + h13 * h31s)).set1 2
        (h21s * (h11 + h22 - sr1 - sr2) + h23 * h31s)).set1 3
        (h31s * (h11 + h33 - sr1 - sr2) + h21s * h32))

/-- Models: src/dlaqr1.rs:24-68. Returns the new `v`.  Simplification: the model reads all entries of `h` before
branching on `s`; a read has no effect, and panics only if its offset overflows, which for the entries
that the code does not read when `s = 0` needs a leading dimension above `2^30`. -/
def dlaqr1 {H V : Type} [ToFA F H] [ToFA F V] [FromFA F V]
    (n : Int) (h : H) (ldh : Int) (sr1 si1 sr2 si2 : F) (v : V) : R V := do
  let h_f ← ToFA.toFa2d (F := F) h ldh
  if n ≠ 2 ∧ n ≠ 3 then pure v
  else FromFA.fromFa (← dlaqr1FA n h_f sr1 si1 sr2 si2 (ToFA.toFa v))

/-! ### DLANV2 -/

/-- The values `dlanv2` returns through its `&mut` arguments. -/
structure Lanv2 (F : Type) where
  a : F
  b : F
  c : F
  d : F
  rt1r : F
  rt1i : F
  rt2r : F
  rt2i : F
  cs : F
  sn : F
deriving Repr

/-- Models: src/dlanv2.rs:31. -/
def safmn2 : F :=
  trunc (powf (dlamch 'B') (log (dlamch 'S' / dlamch 'P') (dlamch 'B') / two))

/-- Models: src/dlanv2.rs:32. -/
def safmx2 : F := one / safmn2

/-- Models: src/dlanv2.rs:73-94, the scaling loop.  `k` is `21 - count` before the round; both
`continue`s need `count <= 20`, so the loop makes at most 21 rounds.  Returns `(sigma, temp)`. -/
def lanv2Scale : Nat → Nat → F → F → F × F
  | 0, _, sigma, temp => (sigma, temp)
  | k + 1, count, sigma, temp =>
    let count := count + 1
    let scale := fmax (abs temp) (abs sigma)
    if scale ≥ᶠ safmx2 then
      let sigma := sigma * safmn2
      let temp := temp * safmn2
      if count ≤ 20 then lanv2Scale k count sigma temp
      else if scale ≤ᶠ safmn2 then (sigma * safmx2, temp * safmx2)
      else (sigma, temp)
    else if scale ≤ᶠ safmn2 then
      let sigma := sigma * safmx2
      let temp := temp * safmx2
      if count ≤ 20 then lanv2Scale k count sigma temp
      else (sigma, temp)
    else (sigma, temp)

/-- Models: src/dlanv2.rs:148-157, eigenvalues from the final `a, b, c, d`. -/
def lanv2Out (a b c d cs sn : F) : Lanv2 F :=
  if c =ᶠ zero then ⟨a, b, c, d, a, zero, d, zero, cs, sn⟩
  else
    let rt1i := sqrt (abs b) * sqrt (abs c)
    ⟨a, b, c, d, a, rt1i, d, -rt1i, cs, sn⟩

/-- Models: src/dlanv2.rs:119-144, after the diagonal has been made equal (`temp`). -/
def lanv2Finish (temp b c cs sn : F) : Lanv2 F :=
  if c ≠ᶠ zero then
    if b ≠ᶠ zero then
      if signum b =ᶠ signum c then
        let sab := sqrt (abs b)
        let sac := sqrt (abs c)
        let p := signum c * sab * sac
        let tau := one / sqrt (abs (b + c))
        let a := temp + p
        let d := temp - p
        let b := b - c
        let cs1 := sab * tau
        let sn1 := sac * tau
        lanv2Out a b zero d (cs * cs1 - sn * sn1) (cs * sn1 + sn * cs1)
      else lanv2Out temp b c temp cs sn
    else lanv2Out temp (-c) zero temp (-sn) cs
  else lanv2Out temp b c temp cs sn

/-- Models: src/dlanv2.rs:70-144, complex or nearly equal real eigenvalues. -/
def lanv2Complex (a b c d : F) : Lanv2 F :=
  let st := lanv2Scale 21 0 (b + c) (a - d)
  let sigma := st.1
  let temp := st.2
  let p := lit 1 1 * temp
  let tau := dlapy2 sigma temp
  let cs := sqrt ((one + abs sigma / tau) * lit 1 1)
  let sn := -(p / (tau * cs)) * signum sigma
  let aa := a * cs + b * sn
  let bb := -(a * sn) + b * cs
  let cc := c * cs + d * sn
  let dd := -(c * sn) + d * cs
  let a' := aa * cs + cc * sn
  let b' := bb * cs + dd * sn
  let c' := -(aa * sn) + cc * cs
  let d' := -(bb * sn) + dd * cs
  lanv2Finish (lit 1 1 * (a' + d')) b' c' cs sn

/-- Models: src/dlanv2.rs:16-158. Returns the new values of all ten `&mut` arguments (the last six
are only written). -/
def dlanv2 (a b c d : F) : Lanv2 F :=
  if c =ᶠ zero then lanv2Out a b c d one zero
  else if b =ᶠ zero then lanv2Out d (-c) zero a zero one
  else if (abs (a - d) <ᶠ epsilon) && (signum b ≠ᶠ signum c) then lanv2Out a b c d one zero
  else
    let temp := a - d
    let p := lit 1 1 * temp
    let bcmax := fmax (abs b) (abs c)
    let bcmis := fmin (abs b) (abs c) * signum b * signum c
    let scale := fmax (abs p) bcmax
    let z := (p / scale) * p + (bcmax / scale) * bcmis
    if z ≥ᶠ ofInt 4 * dlamch 'P' then
      let z := p + copysign (sqrt scale * sqrt z) p
      let a := d + z
      let d := d - (bcmax / z) * bcmis
      let tau := dlapy2 c z
      lanv2Out a (b - c) zero d (z / tau) (c / tau)
    else lanv2Complex a b c d

/-! ### IEEECK -/

/-- Models: src/ieeeck.rs:9-50. -/
def ieeeck (ispec : Int) (zero one : F) : Int :=
  let posinf := one / zero
  if posinf ≤ᶠ one then 0 else
  let neginf := -one / zero
  if neginf ≥ᶠ zero then 0 else
  let negzro := one / (neginf + one)
  if negzro ≠ᶠ zero then 0 else
  let neginf := one / negzro
  if neginf ≥ᶠ zero then 0 else
  let newzro := negzro + zero
  if newzro ≠ᶠ zero then 0 else
  let posinf := one / newzro
  if posinf ≤ᶠ one then 0 else
  let neginf := neginf * posinf
  if neginf ≥ᶠ zero then 0 else
  let posinf := posinf * posinf
  if posinf ≤ᶠ one then 0 else
  if ispec = 0 then 1 else
  let nan1 := posinf + neginf
  let nan2 := posinf / neginf
  let nan3 := posinf / posinf
  let nan4 := posinf * zero
  let nan5 := neginf * negzro
  let nan6 := nan5 * zero
  if isNaN nan1 || isNaN nan2 || isNaN nan3 || isNaN nan4 || isNaN nan5 || isNaN nan6 then 0
  else 1

end Verif
