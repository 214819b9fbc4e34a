# Formal model of lapack-rs: design

The crate `pw-order-of-devs/lapack-rs` (pinned in /repo) is modelled function by function in Lean 4;
the properties of `properties.jsonl` are theorems about that model.  `MANIFEST.json` maps each
property to the theorems that settle it.

## 1. Trusted base

* Lean 4.33.0's kernel and the three standard axioms `propext`, `Classical.choice`, `Quot.sound`.
  No axiom is added, nothing is left `sorry`, no `native_decide`, no `bv_decide`.
* The reading of the Rust source: that the definitions in `lean/Verif/Model/*.lean` say what the cited
  lines do.  Each definition cites file and lines.  `lean/Verif/Tests.lean` evaluates the model on all
  unit-test vectors of the crate (156 `#guard`s, generated by `tools/gen_tests.py`) and obtains, with
  binary64 arithmetic, bit for bit the values expected there; this is a test of the model, not a proof,
  and no theorem depends on it.
* For theorems about true `f64`: that Lean's `Float` (`Float.Model` in core) is IEEE-754 binary64 with
  round-to-nearest-even, as Rust's `f64` is, and a 64-bit target (`usize` has 64 bits).

## 2. Shape of the model

* **Outcomes** (`Model/Basic.lean`).  A routine is a function into `R α`: for each of the two Cargo
  profiles (debug: overflow checks on, release: off) it is `ok a`, `panic p`, `exit srname info`
  (`xerbla` + `process::exit(1)`) or `timeout` (fuel ran out; only for the loops with no static bound:
  `dlahqr`'s outer loop and `dscal`'s `while`).  `i32` arithmetic is on `Int` with an explicit overflow
  check (`chk`).  A theorem `f args = pure r` says: in both profiles the call returns normally with `r`.
* **Scalars** (`Model/Scalar.lean`).  One generic model over `class Scalar F`: operations, no laws.
  - *Tier 1*: theorems for every `F`: data movement, frame conditions, order of operations, panics,
    argument checking, non-interference.  They hold for IEEE `f64` as they stand.
  - *Tier 2*: `Inst/XR.lean`, exact reals extended with `nan`, `+inf`, `-inf`.  Numerical correctness
    (matrix products, reflectors, Schur form, norms) is stated over it.  What is *not* covered: the
    rounding errors of `f64` (but see tier 1: the exact sequence of roundings is fixed).
    Simplification: no signed zero (`1/0 = +inf`).
  - *Tier 3*: `Inst/Float.lean`, IEEE binary64 = Lean's `Float`.
* **Arrays** (`Model/Array.lean`): `FortranArray` with its hidden `default_value` slot that absorbs
  out-of-range writes, its conversions, and `Display` as a list of pieces.
* **Routines** (`Model/Blas.lean`, `Lapack.lean`, `Hqr.lean`, `Qr5.lean`, `Env.lean`): every routine of
  the crate.  `&mut` arguments become results.  A generic `impl Into<FortranArray>` argument is a type
  with a `ToFA`/`FromFA` instance: `List F` (`Vec<f64>`, `&[f64]`), `List (List F)` (`Vec<Vec<f64>>`),
  `FA F` (`FortranArray`).

### Not modelled
* Decimal formatting of an `f64` by `Display` (`Piece.num` is opaque).
* Memory exhaustion (allocation beyond `isize::MAX` bytes panics, smaller ones succeed).
* The branches of `ilaenv`/`iparmq` for non-ASCII machines (unreachable: `'Z' as u32` is 90).
* In `dlahqr`/`dlaqr5`: `i32` overflow of loop indices (cannot happen for sizes below 2^25); each matrix
  access is checked.
* In `dtrmm`: overflow of the loop starts `k + 1`, `i + 1`, `j + 1` (needs `m` or `n` to be `i32::MAX`; no
  theorem covers such a call).
* `powf`, `log` on `f64` are opaque beyond the arguments the crate uses: the model computes `x.powf(2)`
  as `x*x`, `2.powf(k)` for an integer `k` as the exact power of two, and `(2^-970).log(2)` as `-970` (its
  only use, in `dlanv2`, is truncated to zero after `2.powf(_ / 2)`, so any negative value does the same).

## 3. Files

* `Model/…`  the model; `Inst/…` scalar instances; `Tests.lean` the crate's own test vectors.
* `Spec/…`   small specification vocabulary used in theorem statements: `Stride` (strided vectors), `Mat`
  (products of flat matrices), `Tri` (triangular operands), `Backward` (backward error, quasi-triangular
  form).  Specifications used by one file only stand in a `namespace Spec` at its top.
* `Props/…`  the property theorems, with non-vacuity examples next to them.
* `Lib/…`    helper lemmas; not part of any statement:
  - `Loops`, `Array`, `Blas1`, `Gemm`, `Trmm`: loops as folds, element access, the BLAS loops;
  - `Post` (holds if the call returns), `Tot` (the call returns in both profiles and then ...), `NoExit`,
    `Sim`, `Sub`, `Ends` (two runs, or a run and its possible ends, related step by step);
  - `Exact`, `Mat`, `Refl`, `SchurDet`: real algebra: reflectors, orthogonal similarity, determinants;
  - `HqrMat` … `HqrOuter`: the iteration of `dlahqr` (negligible elements, bulge chase, 2-by-2 blocks, outer
    loop) tracked by a real matrix and an orthogonal one;
  - `Qr5Mat` … `Qr5Chase`, `Qr5Block`, `Qr5Acc`, `Qr5Sweep`: the same for the sweep of `dlaqr5`, without and with accumulation;
  - `F64`, `F64Round`, `F64Ops`, `F64Int`, `F64Err`: IEEE binary64: value of a float, correct rounding of the
    basic operations derived from `Float.Model`, relative error bounds.

## 4. How each property is proved

Statement style: a matrix in a flat vector `c` with leading dimension `ld` has entry `(i,j)` (0-based) at
`c[i + j*ld]`; a frame condition says that every other index is unchanged and the length is the same.
Several properties a user expects turned out to be false of the code.  They are listed in
`properties.jsonl` as the exact behaviour the code has, and proved in that form (C06, C18, C28, C44, C48, C56, C58, C60, C61, and in part
C37, C46).

| id | modelled | how it is proved |
|----|----------|------------------|
| C01, C02 | `FA.get1/modify1` | case split on the index; `List.getElem?_set` |
| C03, C04 | `FA.get2/modify2`, `off` | arithmetic on offsets, injectivity of `i + j*r` |
| C05 | `faOfVec`, `as2d` | unfolding, C03 |
| C06 | `faOfVecVec`, `vecVecOfFa` | loop invariant over the element loop |
| C07 | `from1/from2` | unfolding |
| C08 | `display` | induction over rows and columns |
| C09 | constructors | unfolding |
| C10, C11 | `dcopy` | loop invariant on the element loop; unrolled loop = plain loop |
| C12, C13 | `dscal` | the same, and an exact fuel argument for the `while` |
| C14, C15 | `drot` | loop invariant; ring identities over `XR` |
| C16 | `dnrm2` | accumulator invariant over `XR`, case split of the combination |
| C17, C18 | `dnrm2` on `Float` | NaN propagation through the accumulators; induction on the fold |
| C19 | `lsame` | byte arithmetic |
| C20, C21, C23, C24 | `dgemm` | tier-1 theorem giving every element of the result as an explicit fold; C20 instantiates it with exact scalars, C23 is non-interference |
| C22 | `dgemmInfo` | case split |
| C25, C26 | `dtrmm` | tier-1 explicit result per variant, then exact sums |
| C27 | `dtrmmInfo` | case split |
| C28 | `dtrmm` on flat vectors | frame theorem |
| C29, C30 | `dlacpy`, `dlaset` | loop invariants |
| C31 | `dlamch` | case split, kernel evaluation of `Float` constants |
| C32, C33 | `dlapy2` | real algebra; `Float.Model` facts |
| C34, C35 | `dlarfg` | C12, C16, C32 and real algebra; bounded rounds |
| C36 | `dlaqr1` | real algebra |
| C37, C38 | `dlanv2` | real algebra per branch |
| C39 | `ieeeck` | `Float.Model` facts |
| C40, C41 | `ilaenv`, `iparmq` | case splits over names |
| C42, C43 | `dlahqr` | unfolding; frame invariant through the outer loop (`Post`) |
| C44 | `dlahqr` | a state the outer loop maps to itself; on `f64` by rounding of the thresholds |
| C45 | `dlaqr5` | unfolding; frame invariant |
| C46 | BLAS, `dlacpy`, `dlaset`, `dlarfg` | corollaries of the `= pure` theorems |
| C47, C48 | `dlapy2`, `dnrm2` on `Float` | rounding error analysis over `Lib/F64*`; underflow of every square |
| C49–C52 | `dlahqr` over `XR` | the array is tracked by a real matrix `T = Qᵀ(A+E)Q` through every reflection, deflation and 2-by-2 block; C50 is the same run with `Tot`; C51 by block-triangular determinants |
| C53 | `PartialEq` | case split; comparison laws of `Float` |
| C54, C55 | `dlahqr`, `dlaqr5` | two runs related step by step (`Sub`); monotonicity in fuel |
| C56 | `dlaqr5` | every path ends in a panic (`Ends`): the array `v` becomes empty |
| C57 | `dlaqr5` over `XR` | as C49; the first column of `Q` from `dlaqr1` and `dlarfg` |
| C58 | `dlaqr5` on `Float` | kernel evaluation of one call (a counterexample) |
| C59 | `dlaqr5` over `XR` | as C57; `u` holds the product of the reflectors of a sweep, so the block products apply it (`Lib/Qr5Acc`, `Lib/Qr5Sweep`) |
| C60, C61 | `dlahqr` on `Float` | kernel evaluation of two calls (counterexamples) |
| C62 | `dlahqr`, conversions, any scalar | the conversions happen only at entry and return; shapes by C43. Flat vectors: kernel evaluation of one call |
| C63, C64 | `dgemm`, `dtrmm` on `Float` | the entry formulas valid for any scalar (C24, `trmmVal`), then a rounding error calculus for sums of products (`Lib/F64Sum`: relative error, size of the terms, underflow, finiteness) |
| C65 | `dnrm2` on `Float` | invariant of the three accumulators over the loop (`St`: each is the scaled partial sum up to relative roundings; scaling is exact), then each way of combining them (`final_big`, `final_small`), with an error calculus for square roots and 2-norms (`Lib/F64Nrm2`) |
| C66 | `dlarfg` on `Float` | C65 for the norm, C47 for `dlapy2`, rounding bounds for `tau`, the reciprocal and `dscal` (`Finished`); the rescaling is by a power of two, exact upwards, and leaves after one round; compared with `Spec.Reflector` over the reals |
| C67 | `dlahqr` | `Below`: no operation on rows and columns from `ilo+1` on changes the four elements in the corner, so the search stops at or before `ilo+1` for ever (`outer_top`) |
| C68 | `dlahqr` | the sweep is a double-shift QR step: `Qᵀ T Q` with the first column of `Q` along `(T-s₁)(T-s₂)e₁` (`sweep_three`); a left eigenvector for the shift, carried through `Q`, forces the last subdiagonal element to zero; a right one forces the first to zero (`FrancisAlg`) |
| C69 | `dlahqr` | shape invariants alone (`Ret`: a normal return, the same in both profiles): every access is in range because of the ranges of the loop indices; strong induction on the last active row (`Lib/HqrSafe`) |
| C70 | `dlaqr5`, `dlaqr1`, `dlarfg` | shape invariants alone (`Ret`): every access is in range because of the ranges of the loop indices; one theorem without and one with accumulation (`Lib/Qr5Safe`) |
| C71 | `dlaqr5` on `f64` | counterexamples evaluated by the kernel (`decide +kernel` on the model over `Float`), beside a run where trace and norm are kept |
| C72 | `dlaqr5` | after the shuffle the sweep reads only the first two shifts and never writes them (`Blind`, `Lib/Qr5Shift`), so the two calls are equal |
| C73 | `dlaqr5` | the last step of the last sweep ends with the test, and nothing after it writes to `h` (`Lib/Qr5Defl`); each earlier step ends with its test, and every later step writes only past the elements tested (`Lib/Qr5DeflAll`) |
| C74 | `drot`, `dscal` on `Float` | result of the exact properties (C12, C14) read over `Float`, then the rounding calculus of `Lib/F64*` |
| C75 | `dlaqr1` on `Float` against the first column of the complex product | one scaled rounding analysis per component (`Lib/F64Num`) |
| C76 | `dlanv2` on `Float`, against `Rotated`, `Standard`, `Eigenvalues` of C37 and C38 | backward error of each branch: rotation angle, quadratic root, equal off-diagonal entries (`Lib/Lanv2*`) |
| C77 | `dlahqr` on `Float`, with `toR`; `SchurF`, `BackwardF`, `HqrDoneF`, `ZDoneF` | rounded reflectors and rotations stay close to exact ones applied to a real matrix that carries the backward error; overflow and NaN in the start vector never lead to `info = 0` (`Lib/HqrF64a`..`k`) |
| C78 | `dlaqr5` on `Float`, with `toR`; `Qr5InputF`, `Clear5`, `Qr5DoneF`, `BackwardF` | each rounded reflector is close to an exact one applied to a real matrix that carries the backward error; a lower bound on the bulge, shrinking by a fixed factor per step, excludes the refill (`Lib/Qr5F64a`..`i`) |
| C79 | `dlaqr5` over any `Scalar` with `List F` and `List (List F)` containers | the conversions are computed (`as_2d` keeps the elements), the shapes on return come from the run of C70 (`Shape5`) |
| C80 | `dlaqr5` on `Float` with `kacc22` 1 or 2; `Qr5DoneF`, `ZDoneF`, `Qr5Work` | the rounded `u` is close to the product of the exact reflectors of the sweep, each block product is within a fixed multiple of the unit roundoff of the exact one, and the entries off the window are carried as a second error budget `D` next to the one of C78 (`Lib/Qr5F64j`..`n`) |
| C81 | `dlahqr` with `ihi = ilo + 1`; `twoH`, `twoZ` | the search step either deflates at once, after which the stale index keeps the loop going for ever, or ends the inner loop at once; then the writes of the 2-by-2 step and of the two slices (the second overlapping the first) are followed entry by entry |
| C82 | `dlaqr5`, `qr5AccZ`; `spoilt`, `timesQ` | the sweep of C57 with the reflectors recorded in a list and `z` followed along; the last step needs reads and writes outside `z` and `v` |
| C83 | `dlahqr` with `ihi = ilo + 1` on `XR` and `Float` | C81 gives every output in terms of `dlanv2`; C38 and C76 give the eigenvalues; C44 excludes the lower left entries outside the range of C76; a rounding error bound for the split test |
| C84 | `dlarfg` on `Float`, any container | `dlapy2` is never below `|alpha|` (C47), so the difference lies between `|beta|` and `2 |beta|`; rounding is monotone and these are numbers of the format; infinite and NaN operands never give a finite quotient here |
| C85 | `dgemm`, `dtrmm`, any scalar | the closed forms of the entries (C22, C25) read only one row of `op(A)` and one column of `op(B)`; a left fold over `k1 + k2` terms is the composition of two folds |
| C86 | `dlaqr5`, any arithmetic; one run on `Float` | every step of the chase keeps the number of rows of `h`, every block of the accumulated update sets it to `ldz`; the last sweep has such a block iff the condition holds |
| C87 | `dlaset`, `dlacpy`, `dgemm`, `dtrmm`, any arithmetic; three runs on `Float` | every loop keeps rows, columns and length of the array (`SameShape`), and the conversion back cuts the data into pieces of length `rows` |
| C88 | `dgemm`, `dtrmm` on `Float` | the value formulas of C24 and of the loops of `dtrmm` (`trmmVal`); a fold that meets a NaN stays NaN; the dependence claims hold for every `Scalar` |
| C89 | `dlahqr` on `Float` | invariant of the bulge chase: every subdiagonal element passed is NaN, and so is the next column of the bulge; shifts, start vector, reflector and both loops computed under NaN (`Lib/HqrNaN.lean`) |
| C90 | `dlahqr` on any `F` | simulation of two runs through every piece: the arrays agree on the block and keep their other entries (`Lib/HqrLocal.lean`); the defects by kernel evaluation |
| C91 | `dlaqr5` on any `F` | simulation of two runs through every piece (`Lib/Qr5Local.lean`; the accumulated products entry by entry in `Lib/Qr5LocalAcc.lean`): agreement on the diagonals that are read, frame outside the block; the defect by kernel evaluation |
| C92 | `xerblaText`, `Res.ended`, `dgemm`, `dtrmm` on any `F` | from C22 and C27; injectivity of decimal notation and of the part after the last space |
| C93 | `dlaqr5` on any `F` | two runs in step: what is read of `v` and `u` has been written in the same sweep; the products do not read `wv` and `wh` |
| C94 | `dlaqr5` on any `F` | two runs in step with different row and column ranges; what only the longer run touches is outside the block; with accumulation only the products after a sweep have different ranges (`Lib/Qr5LocalAcc.lean`) |
| C95 | `dgemm` on `Float` | from the fixed sequence of roundings (C24), with `x*y = y*x` and `1*x = x` proved for every f64 |
| C96 | `dgemm` on `Float` | induction over the sum: an integer below 2^53 is representable, so every operation is exact |
| C97 | `dgemm` on `Float` | induction over the sum: all terms but one are zeros, and adding a zero is exact |
| C98 | `dtrmm` on `Float` | induction over the sum in each of the eight loop nests: an integer below 2^53 is representable, so every operation is exact |
| C99 | `dnrm2`, `dlarfg` on `Float` | negation commutes bitwise with product, quotient and scaling (rounding is symmetric); induction over the loops, including the rescaling one |
| C100 | `dgemm`, `dtrmm`, `drot` on `Float` | the relation "opposite up to the sign of zero" is kept by sum, difference and product with a common factor; induction over the sums |
| C101 | `dlaqr1` on `Float` | the relation "equal, or opposite, up to the sign of zero" is kept by the operations |
| C102 | `ilaenv` | the tests of the code are shown equivalent to patterns of the name; case split over the second and third letter |
| C103 | `dscal`, `drot`, `dgemm`, `dtrmm`, `dlapy2` on `Float` | round to nearest even is written as a function on the reals, shown to be what the operations compute, and shown to commute with powers of two outside the subnormal range |
| C104 | `dnrm2`, `dlarfg` on `Float` | invariant relating the accumulators of the two runs; all later operations follow the scaling or see the same real numbers |
| C105 | `dtrmm` on `Float` | all eight loop nests are compared with one sum in a common order; leaving out a zero term changes at most the sign of a zero |
| C106 | `dnrm2`, `dgemm` on `Float` | induction on the list of elements: a zero leaves the three accumulators alone because the small one never holds `-0`; for `dgemm` the kept indices are the filter of the range |
| C107 | `dtrmm`, `dgemm` on `Float` | the sum of C105 in a common order; leading zero terms change at most the sign of a zero |
| C108 | `dgemm`, `dtrmm`, `dnrm2` on `Float` | round to nearest even (the function of C103) is shown to be monotone, and a finite result not to come from beyond the overflow threshold; then induction on the sum |
| C109 | `dnrm2` on `Float` | the rounded root of a rounded square is shown to be the number itself; then monotonicity (C108) along the sum, and C106 for the single element |
| C110 | `dlapy2` on `Float` | quotient, square, sum, root and product are each monotone (C108); the upper bound is the case of equal magnitudes; the counterexample is evaluated |
| C111 | `dgemm` on `Float` | the scalar operations of an entry (C24) do not change if the factors are exchanged; squares are nonnegative and their rounded sums stay so |
| C112 | `dlarfg` on `Float` | C109 and C47 bound the data by `beta`; the product of an element and the rounded reciprocal is at most `1 + 2^-53`, and that tie is rounded to one; rounding is monotone (C108) |
| C113 | `dscal` on `Float` | every visited element is multiplied and rounded once (C12, C13); rounding is monotone (C108) and leaves representable bounds in place |
| C114 | `dgemm`, `dtrmm`, `drot` on `Float` | the computed entries are sums in a fixed order (C95, C107, C14); rounding is monotone and symmetric (C108, C112), so a bound by magnitudes survives every operation |
| C115 | `dnrm2`, `dgemm` on `Float` | adding a nonnegative number never decreases a rounded sum, and every later operation is monotone (C108); induction over the longer sum |
| C116 | `dlanv2` on `Float` | every branch ends with `c` zero, or with the test for a standard block holding, for which `a - a` is zero when `a` is finite; case analysis over the branches |
| C117 | `drot`, `dscal` on `Float` | C14 and C12 give the operations; products with 0, 1 and -1 and sums with zero are representable and hence not rounded |
| C118 | `dlahqr` on `Float` | C81 describes both calls; C116 shows that `dlanv2` keeps the block; a zero below the diagonal passes the split test, for which C81 shows that the call never returns |
| C119 | `dlaqr1` on `Float` | sums follow a scaling without condition, products and quotients if nothing underflows (C103); multiples of `2^-252` stay such under rounded sums, which bounds all differences from below |
| C120 | `drot`, `dcopy` | C10 and C14 give every element; negated increments visit the same pairs; the exchange is an induction over the sequence of rotations of C14 |
| C121 | `dlacpy` | C29 gives every entry of the destination; the selected sets are compared |
| C122 | `dlaset` | C30 gives every entry; entries that the second call does not write were not written by the first |
| C123 | `dnrm2`, `dscal`, `dcopy`, `drot`, `dlarfg` on every container | simulation of the run on the array by the run on the flat vector; shape by an invariant of the writes |
