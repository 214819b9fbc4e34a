import Verif.Model.Lapack

/-!
# ILAENV and IPARMQ (src/ilaenv.rs, src/iparmq.rs)

Names are lists of characters.  The code mixes character positions (`chars().nth`, `skip`, `take`)
with byte positions (`replace_range`, `&subnam[1..6]`, `len`) of the UTF-8 encoding; the model does the
same.  `'Z' as u32` is 90, so the EBCDIC and Prime branches of the code (ilaenv.rs:44-76,
iparmq.rs:69-93) are unreachable and are not modelled.
-/

namespace Verif

/-- Upper-casing of an ASCII lower-case letter, other characters unchanged
(src/ilaenv.rs:38-41, src/iparmq.rs:61-65). -/
def upAscii (c : Char) : Char :=
  if 97 ≤ c.toNat ∧ c.toNat ≤ 122 then Char.ofNat (c.toNat - 32) else c

/-- Models: src/iparmq.rs:28-41, the number of shifts.  The value of the `match` is discarded by the
code, so `ns` is `2.max(2 - 2 % 2)`. -/
def iparmqNs (_nh : Int) : Int :=
  let ns : Int := 2
  max 2 (ns - ns.tmod 2)

/-- Models: src/iparmq.rs:53-68, the name with its first six characters upper-cased if the first one
is lower case. -/
def iparmqName (name : List Char) : R (List Char) :=
  match name with
  | [] => R.panic .unwrap
  | c :: _ =>
    if 97 ≤ c.toNat ∧ c.toNat ≤ 122 then pure ((name.take 6).map upAscii ++ name.drop 6)
    else pure name

/-- `str::len`, the number of bytes in UTF-8. -/
def strLen (s : List Char) : Nat := (s.map Char.utf8Size).sum

/-- The number of characters that make up the first `b` bytes of `s`, if byte position `b` is a
character boundary (`str::is_char_boundary`). -/
def charIx : List Char → Nat → Option Nat
  | _, 0 => some 0
  | [], _ + 1 => none
  | c :: t, b + 1 => if c.utf8Size ≤ b + 1 then (charIx t (b + 1 - c.utf8Size)).map (· + 1) else none

/-- `&s[lo..hi]`, byte positions, which have to be character boundaries. -/
def strSlice (s : List Char) (lo hi : Nat) : R (List Char) :=
  match charIx s lo, charIx s hi with
  | some a, some b => if lo ≤ hi then pure ((s.take b).drop a) else R.panic .strSlice
  | _, _ => R.panic .strSlice

/-- `s.replace_range(i..=i, c)`: the byte at position `i` is replaced, both ends of which have to be
character boundaries. -/
def replaceByte (s : List Char) (i : Nat) (c : Char) : R (List Char) :=
  match charIx s i, charIx s (i + 1) with
  | some a, some b => pure (s.take a ++ c :: s.drop b)
  | _, _ => R.panic .strSlice

/-- Models: src/iparmq.rs:95-105, the value for `ispec = 16`. -/
def iparmqAcc22 (nh ns : Int) (sub : List Char) : R Int := do
  let k22min := 14
  let kacmin := 14
  let s16 ← strSlice sub 1 6
  if s16 = "GGHRD".toList ∨ s16 = "GGHD3".toList then
    if nh ≥ k22min then return 2
    return 1
  let s36 ← strSlice sub 3 6
  if s36 = "EXC".toList then
    if nh ≥ kacmin then return 1
    else if nh ≥ k22min then return 2
    return 0
  let s15 ← strSlice sub 1 5
  if s16 = "HSEQR".toList ∨ s15 = "LAQR".toList then
    if ns ≥ kacmin then return 1
    else if ns ≥ k22min then return 2
    return 0
  return 0

/-- Models: src/iparmq.rs:9-110. -/
def iparmq (ispec : Int) (name : List Char) (ilo ihi : Int) : R Int := do
  let nh ← iadd (← isub ihi ilo) 1
  let ns := if ispec = 15 ∨ ispec = 13 ∨ ispec = 16 then iparmqNs nh else 2
  if ispec = 12 then pure 75
  else if ispec = 14 then pure 14
  else if ispec = 15 then pure ns
  else if ispec = 13 then
    if nh < 500 then pure ns else pure ((3 * ns).tdiv 2)
  else if ispec = 16 then do
    let sub ← iparmqName name
    iparmqAcc22 nh ns sub
  else if ispec = 17 then pure 10
  else pure (-1)

/-- Models: src/ilaenv.rs:36-42, one round of the loop: character number `i` is looked up, and byte
number `i` replaced. -/
def ilaenvUpper (sub : List Char) (i : Nat) : R (List Char) :=
  match sub[i]? with
  | none => R.panic .unwrap
  | some c => if 97 ≤ c.toNat ∧ c.toNat ≤ 122 then replaceByte sub i (upAscii c) else pure sub

/-- Models: src/ilaenv.rs:26-43, the upper-cased name: if the first character is a lower-case letter
the first six characters are upper-cased, and a missing one makes `nth(i).unwrap()` panic. -/
def ilaenvName (name : List Char) : R (List Char) :=
  match name with
  | [] => R.panic .unwrap
  | c :: _ =>
    if 97 ≤ c.toNat ∧ c.toNat ≤ 122 then do
      let sub ← replaceByte name 0 (upAscii c)
      [1, 2, 3, 4, 5].foldlM ilaenvUpper sub
    else pure name

/-- Models: src/ilaenv.rs:89. -/
def ilaenvTwoStage (sub : List Char) : R Bool :=
  if 11 ≤ strLen sub then
    match sub[10]? with
    | none => R.panic .unwrap
    | some c => pure (decide (c = '2'))
  else pure false

/-- Models: the array of src/ilaenv.rs:100, 117 and 130. -/
def orthNames : List (List Char) :=
  ["QR", "RQ", "LQ", "QL", "HR", "TR", "BR"].map String.toList

/-- Models: src/ilaenv.rs:96, 111 and 124, the `("GE", ..)` alternatives. -/
def geFact (c2 c3 : List Char) : Bool :=
  c2 = "GE".toList && (["QRF", "RQF", "LQF", "QLF", "HRD", "BRD"].map String.toList).contains c3

/-- Models: src/ilaenv.rs:97, 112 and 125 (a 4-character string is compared with a 5-character
one). -/
def qp3rk (c2 sub : List Char) : Bool :=
  c2 = "GE".toList && ((sub.drop 3).take 4 = "QP3RK".toList)

/-- `s.starts_with(c)` -/
def startsWith (s : List Char) (c : Char) : Bool := s.head? = some c

/-- Models: src/ilaenv.rs:92-109, block size (`ispec = 1`). -/
def ilaenvBlock (sub c2 c3 c4 : List Char) (sname cname twostage : Bool) (n1 n2 n4 : Int) :
    R Int := do
  let sy := c2 = "SY".toList || c2 = "HE".toList
  if (c2 = "LA".toList && (sub.drop 1).take 5 = "LAORH".toList)
      || (sy && c3 = "TRF".toList && twostage) then pure 192
  else if sy && c3 = "TRF".toList && !twostage then pure 64
  else if geFact c2 c3 then pure 32
  else if qp3rk c2 sub then pure 32
  else if (c2 = "OR".toList && sname) || (c2 = "UN".toList && cname
      && (startsWith c3 'G' || startsWith c3 'M') && orthNames.contains c4) then pure 32
  else if (c2 = "GB".toList || c2 = "PB".toList) && c3 = "TRF".toList
      && (decide (n4 > 64) || decide (n2 > 64)) then pure 32
  else if c2 = "TR".toList && (c3 = "TRI".toList || c3 = "EVC".toList) then pure 64
  else if c2 = "TR".toList && c3 = "SYL".toList && sname then do
    let x ← imul (min n1 n2) 16
    pure (min (max 48 (x.tdiv 100)) 240)
  else if c2 = "TR".toList && c3 = "SYL".toList && !sname then do
    let x ← imul (min n1 n2) 8
    pure (min (max 24 (x.tdiv 100)) 80)
  else if c2 = "LA".toList && (c3 = "UUM".toList || c3 = "TRS".toList) then pure 64
  else if c2 = "ST".toList && c3 = "EBZ".toList && sname then pure 1
  else if c2 = "GG".toList && c3 = "HD3".toList then pure 32
  else pure 1

/-- Models: src/ilaenv.rs:110-122, minimum block size (`ispec = 2`). -/
def ilaenvMin (sub c2 c3 c4 : List Char) (sname cname : Bool) : Int :=
  if geFact c2 c3 then 2
  else if qp3rk c2 sub then 2
  else if c2 = "SY".toList && c3 = "TRF".toList && (sname || cname) then 8
  else if (c2 = "SY".toList || c2 = "HE".toList) && c3 = "TRD".toList && (sname || cname) then 2
  else if (c2 = "OR".toList && sname) || (c2 = "UN".toList && cname) then
    if startsWith c3 'G' || (startsWith c3 'M' && orthNames.contains c4) then 2 else 1
  else if c2 = "GG".toList && c3 = "HD3".toList then 2
  else 2

/-- Models: src/ilaenv.rs:123-133, crossover point (`ispec = 3`). -/
def ilaenvCross (sub c2 c3 c4 : List Char) (sname cname : Bool) : Int :=
  if geFact c2 c3 then 128
  else if qp3rk c2 sub then 128
  else if (c2 = "SY".toList || c2 = "HE".toList) && c3 = "TRD".toList && (sname || cname) then 32
  else if c2 = "GG".toList && c3 = "HD3".toList then 128
  else if (c2 = "OR".toList && sname) || (c2 = "UN".toList && cname) then
    if startsWith c3 'G' && orthNames.contains c4 then 128 else 0
  else 0

/-- Models: src/ilaenv.rs:25-136 (`ispec` in `1..=3`). -/
def ilaenvTune (ispec : Int) (name : List Char) (n1 n2 n4 : Int) : R Int := do
  let sub ← ilaenvName name
  match sub with
  | [] => R.panic .unwrap
  | c1 :: _ =>
    let sname := c1 = 'S' || c1 = 'D'
    let cname := c1 = 'C' || c1 = 'Z'
    if !(cname || sname) then pure 1
    else do
      let c2 := (sub.drop 1).take 2
      let c3 := (sub.drop 3).take 3
      let c4 := (c3.drop 1).take 2
      let twostage ← ilaenvTwoStage sub
      if ispec = 1 then ilaenvBlock sub c2 c3 c4 sname cname twostage n1 n2 n4
      else if ispec = 2 then pure (ilaenvMin sub c2 c3 c4 sname cname)
      else pure (ilaenvCross sub c2 c3 c4 sname cname)

/-- Models: src/ilaenv.rs:15-148.  `svd` stands for `ispec = 6`'s
`(n1.min(n2) as f64 * 1.6).round() as i32`, given as a function of `n1.min(n2)`;
`ieee` stands for `ieeeck`. Both are supplied in `Verif/Inst/Float.lean`. -/
def ilaenvWith (svd : Int → Int) (ieee : Int → Int) (ispec : Int) (name : List Char)
    (n1 n2 n3 n4 : Int) : R Int :=
  if 1 ≤ ispec ∧ ispec ≤ 3 then ilaenvTune ispec name n1 n2 n4
  else if ispec = 4 then pure 6
  else if ispec = 5 then pure 2
  else if ispec = 6 then pure (svd (min n1 n2))
  else if ispec = 7 then pure 1
  else if ispec = 8 then pure 50
  else if ispec = 9 then pure 25
  else if ispec = 10 then pure (ieee 1)
  else if ispec = 11 then pure (ieee 0)
  else if 12 ≤ ispec ∧ ispec ≤ 17 then iparmq ispec name n2 n3
  else pure (-1)

end Verif
