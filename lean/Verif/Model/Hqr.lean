import Verif.Model.Lapack

/-!
# DLAHQR (src/dlahqr.rs)

Simplification: the `i32` arithmetic on loop indices (`k + 1`, `i - l`, `30 * nh`, ...) is modelled
in unbounded integers; the offset computed by every matrix access is checked as in the code
(`FA.off`).  The two agree whenever `|n|, |ilo|, |ihi|, |iloz|, |ihiz| < 2^31 / 64`.

Simplification: in the reflector updates an index out of range makes the code update the hidden
`default_value` slot; the model updates that slot too, but `x = x - y` and `x -= y` are not told
apart there (the slot is never read back by any `Index`).

The outer `loop` has no static bound, so the model takes fuel; a run that exhausts every amount of
fuel is a run that does not terminate.
-/

namespace Verif
open Scalar

variable {F : Type} [Scalar F]

/-- `a[(r1, j)] , a[(r2, j)]` updated by a 2-element reflector for `j` in `lo..=hi` (from the left).
Models: src/dlahqr.rs:305-309 and src/dlaqr5.rs:164-168. -/
def refl2Rows (lo hi r1 r2 : Int) (v2 t1 t2 : F) (a : FA F) : R (FA F) :=
  forUp lo hi a fun a j => do
    let x1 ← a.get2 r1 j
    let x2 ← a.get2 r2 j
    let sum := x1 + v2 * x2
    let a ← a.set2 r1 j (x1 - sum * t1)
    a.modify2 r2 j (· - sum * t2)

/-- The same from the right, on columns `c1`, `c2` and rows `lo..=hi`.
Models: src/dlahqr.rs:312-316, 320-324; src/dlaqr5.rs:148-152, 202-206, 210-214. -/
def refl2Cols (lo hi c1 c2 : Int) (v2 t1 t2 : F) (a : FA F) : R (FA F) :=
  forUp lo hi a fun a j => do
    let x1 ← a.get2 j c1
    let x2 ← a.get2 j c2
    let sum := x1 + v2 * x2
    let a ← a.set2 j c1 (x1 - sum * t1)
    a.modify2 j c2 (· - sum * t2)

/-- 3-element reflector from the left.
Models: src/dlahqr.rs:278-283; src/dlaqr5.rs:308-311, 348-353. -/
def refl3Rows (lo hi r1 r2 r3 : Int) (v2 v3 t1 t2 t3 : F) (a : FA F) : R (FA F) :=
  forUp lo hi a fun a j => do
    let x1 ← a.get2 r1 j
    let x2 ← a.get2 r2 j
    let x3 ← a.get2 r3 j
    let sum := x1 + v2 * x2 + v3 * x3
    let a ← a.set2 r1 j (x1 - sum * t1)
    let a ← a.modify2 r2 j (· - sum * t2)
    a.modify2 r3 j (· - sum * t3)

/-- 3-element reflector from the right.
Models: src/dlahqr.rs:286-291, 295-300; src/dlaqr5.rs:301-306, 366-371, 380-385. -/
def refl3Cols (lo hi c1 c2 c3 : Int) (v2 v3 t1 t2 t3 : F) (a : FA F) : R (FA F) :=
  forUp lo hi a fun a j => do
    let x1 ← a.get2 j c1
    let x2 ← a.get2 j c2
    let x3 ← a.get2 j c3
    let sum := x1 + v2 * x2 + v3 * x3
    let a ← a.set2 j c1 (x1 - sum * t1)
    let a ← a.modify2 j c2 (· - sum * t2)
    a.modify2 j c3 (· - sum * t3)

/-- The arguments of `dlahqr` that stay fixed, with the constants of lines 70-75. -/
structure HqrP (F : Type) where
  wantt : Bool
  wantz : Bool
  n : Int
  ilo : Int
  ihi : Int
  ldh : Int
  iloz : Int
  ihiz : Int
  ulp : F
  smlnum : F

/-- Models: src/dlahqr.rs:83, `itmax`. -/
def HqrP.itmax (p : HqrP F) : Nat := 30 * (max (p.ihi - p.ilo + 1) 10).toNat

/-- Models: src/dlahqr.rs:116-121, the second (Ahues–Tisseur) deflation criterion. -/
def hqrCrit (p : HqrP F) (hkk1 hk1k hkk hk1k1 : F) : Bool :=
  let ab := fmax (abs hkk1) (abs hk1k)
  let ba := fmin (abs hkk1) (abs hk1k)
  let aa := fmax (abs hkk) (abs (hk1k1 - hkk))
  let bb := fmin (abs hkk) (abs (hk1k1 - hkk))
  let s := aa + ab
  ba * (ab / s) ≤ᶠ fmax p.smlnum (p.ulp * (bb * (aa / s)))

/-- Models: src/dlahqr.rs:107-124, the search for a negligible subdiagonal element.  The list holds
the values still to be taken by `curr_k`; the last argument is the variable `k`, which survives
unchanged when the range is empty. -/
def hqrSearch (p : HqrP F) (h : FA F) : List Int → Int → R Int
  | [], k => pure k
  | ck :: rest, _ => do
    let hkk1 ← h.get2 ck (ck - 1)
    if abs hkk1 ≤ᶠ p.smlnum then pure ck
    else do
      let hk1k1 ← h.get2 (ck - 1) (ck - 1)
      let hkk ← h.get2 ck ck
      let tst := abs hk1k1 + abs hkk
      let tst ← if tst =ᶠ zero then do
          let tst ← if ck - 2 ≥ p.ilo then do pure (tst + abs (← h.get2 (ck - 1) (ck - 2)))
            else pure tst
          if ck + 1 ≤ p.ihi then do pure (tst + abs (← h.get2 (ck + 1) ck)) else pure tst
        else pure tst
      if abs hkk1 ≤ᶠ p.ulp * tst then do
        let hk1k ← h.get2 (ck - 1) ck
        if hqrCrit p hkk1 hk1k hkk hk1k1 then pure ck
        else hqrSearch p h rest (ck - 1)
      else hqrSearch p h rest (ck - 1)

/-- Models: src/dlahqr.rs:145-166, the 2-by-2 matrix `(h11, h12, h21, h22)` defining the shifts. -/
def hqrShiftMat (h : FA F) (kdefl i l : Int) : R (F × F × F × F) := do
  let dat1 : F := ofInt 3 / ofInt 4
  let dat2 : F := lit (-7) 4
  if kdefl.tmod 20 = 0 then
    let s := abs (← h.get2 i (i - 1)) + abs (← h.get2 (i - 1) (i - 2))
    let h11 := dat1 * s + (← h.get2 i i)
    pure (h11, dat2 * s, s, h11)
  else if kdefl.tmod 10 = 0 then
    let s := abs (← h.get2 (l + 1) l) + abs (← h.get2 (l + 2) (l + 1))
    let h11 := dat1 * s + (← h.get2 l l)
    pure (h11, dat2 * s, s, h11)
  else
    pure (← h.get2 (i - 1) (i - 1), ← h.get2 (i - 1) i, ← h.get2 i (i - 1), ← h.get2 i i)

/-- Models: src/dlahqr.rs:168-205, the shifts `(rt1r, rt1i, rt2r, rt2i)`. -/
def hqrShifts (h11 h12 h21 h22 : F) : F × F × F × F :=
  let s := abs h11 + abs h12 + abs h21 + abs h22
  if s =ᶠ zero then (zero, zero, zero, zero)
  else
    let h11 := h11 / s
    let h21 := h21 / s
    let h12 := h12 / s
    let h22 := h22 / s
    let tr := (h11 + h22) / two
    let det := (h11 - tr) * (h22 - tr) - h12 * h21
    let rtdisc := sqrt (abs det)
    if det ≥ᶠ zero then
      let rt1r := tr * s
      let rt1i := rtdisc * s
      (rt1r, rt1i, rt1r, -rt1i)
    else
      let rt1r := tr + rtdisc
      let rt2r := tr - rtdisc
      if abs (rt1r - h22) ≤ᶠ abs (rt2r - h22) then
        let rt1r := rt1r * s
        (rt1r, zero, rt1r, zero)
      else
        let rt2r := rt2r * s
        (rt2r, zero, rt2r, zero)

/-- Models: src/dlahqr.rs:214-223, the start vector at row `m`. -/
def hqrStartVec (h : FA F) (rt1r rt1i rt2r rt2i : F) (m : Int) (v : FA F) : R (FA F) := do
  let h21 ← h.get2 (m + 1) m
  let hmm ← h.get2 m m
  let h12 ← h.get2 m (m + 1)
  let h22 ← h.get2 (m + 1) (m + 1)
  let h32 ← h.get2 (m + 2) (m + 1)
  let s := abs (hmm - rt2r) + abs rt2i + abs h21
  let h21s := h21 / s
  let v := v.set1 1 (h21s * h12 + (hmm - rt1r) * ((hmm - rt2r) / s) - rt1i * (rt2i / s))
  let v := v.set1 2 (h21s * (hmm + h22 - rt1r - rt2r))
  let v := v.set1 3 (h21s * h32)
  let s := abs (v.get1 1) + abs (v.get1 2) + abs (v.get1 3)
  let v := v.set1 1 (v.get1 1 / s)
  let v := v.set1 2 (v.get1 2 / s)
  pure (v.set1 3 (v.get1 3 / s))

/-- Models: src/dlahqr.rs:207-235, the search for the starting row `m` (last argument: the
variable `m`).  Returns `(m, v)`. -/
def hqrStart (p : HqrP F) (h : FA F) (rt1r rt1i rt2r rt2i : F) (l : Int) :
    List Int → FA F → Int → R (Int × FA F)
  | [], v, m => pure (m, v)
  | cm :: rest, v, _ => do
    let v ← hqrStartVec h rt1r rt1i rt2r rt2i cm v
    if cm = l then pure (cm, v)
    else do
      let lhs := abs (← h.get2 cm (cm - 1)) * (abs (v.get1 2) + abs (v.get1 3))
      let rhs := p.ulp * abs (v.get1 1)
        * (abs (← h.get2 (cm - 1) (cm - 1)) + abs (← h.get2 cm cm)
            + abs (← h.get2 (cm + 1) (cm + 1)))
      if lhs ≤ᶠ rhs then pure (cm, v)
      else hqrStart p h rt1r rt1i rt2r rt2i l rest v cm

/-- Models: src/dlahqr.rs:249-255, computation of the reflector: `(v, t1)`. -/
def hqrReflector (h : FA F) (m k nr : Int) (v : FA F) : R (FA F × F) := do
  let v ← if k > m then do
      let src ← h.from2 k (k - 1)
      dcopy (F := F) nr src 1 v 1
    else pure v
  let v1 := v.get1 1
  let v2 := faOfVec (← v.from1 2)
  let (v1, v2, t1) ← dlarfg nr v1 v2 1
  let v ← v2.insert 1 v1
  pure (v, t1)

/-- Models: src/dlahqr.rs:257-267, storing the reflected column. -/
def hqrStoreCol (m l i k : Int) (t1 : F) (v h : FA F) : R (FA F) := do
  if k > m then
    let h ← h.set2 k (k - 1) (v.get1 1)
    let h ← h.set2 (k + 1) (k - 1) zero
    if k < i - 1 then h.set2 (k + 2) (k - 1) zero else pure h
  else if m > l then h.modify2 k (k - 1) (· * (one - t1))
  else pure h

/-- Models: src/dlahqr.rs:247-326, one step of the bulge chase on `(h, z, v)`. -/
def hqrChase (p : HqrP F) (m l i i1 i2 : Int) (s : FA F × FA F × FA F) (k : Int) :
    R (FA F × FA F × FA F) := do
  let (h, z, v) := s
  let nr := min 3 (i - k + 1)
  let (v, t1) ← hqrReflector h m k nr v
  let h ← hqrStoreCol m l i k t1 v h
  let v2 := v.get1 2
  let t2 := t1 * v2
  if nr = 3 then
    let v3 := v.get1 3
    let t3 := t1 * v3
    let h ← refl3Rows k i2 k (k + 1) (k + 2) v2 v3 t1 t2 t3 h
    let h ← refl3Cols i1 (min i (k + 4)) k (k + 1) (k + 2) v2 v3 t1 t2 t3 h
    let z ← if p.wantz then refl3Cols p.iloz p.ihiz k (k + 1) (k + 2) v2 v3 t1 t2 t3 z
      else pure z
    pure (h, z, v)
  else if nr = 2 then
    let h ← refl2Rows k i2 k (k + 1) v2 t1 t2 h
    let h ← refl2Cols i1 i k (k + 1) v2 t1 t2 h
    let z ← if p.wantz then refl2Cols p.iloz p.ihiz k (k + 1) v2 t1 t2 z else pure z
    pure (h, z, v)
  else pure (h, z, v)

/-- The variables of `dlahqr` that change inside `'loop_140`. -/
structure HqrS (F : Type) where
  h : FA F
  z : FA F
  v : FA F
  m : Int
  k : Int
  l : Int
  kdefl : Int

/-- Models: src/dlahqr.rs:132-327, one double-shift QR sweep on the active block `l..=i`. -/
def hqrSweep (p : HqrP F) (i : Int) (s : HqrS F) : R (HqrS F) := do
  let kdefl := s.kdefl + 1
  let l := s.l
  let i1 := if p.wantt then l else 0
  let i2 := if p.wantt then i else 0
  let (h11, h12, h21, h22) ← hqrShiftMat s.h kdefl i l
  let (rt1r, rt1i, rt2r, rt2i) := hqrShifts h11 h12 h21 h22
  let (m, v) ← hqrStart p s.h rt1r rt1i rt2r rt2i l (irange l (i - 2)).reverse s.v s.m
  let (h, z, v) ← forUp m (i - 1) (s.h, s.z, v) (hqrChase p m l i i1 i2)
  pure { s with h := h, z := z, v := v, m := m, kdefl := kdefl }

/-- Models: src/dlahqr.rs:107-127, deflation search. -/
def hqrDeflate (p : HqrP F) (i : Int) (s : HqrS F) : R (HqrS F) := do
  let k ← hqrSearch p s.h (irange (s.l + 1) i).reverse s.k
  let h ← if k > p.ilo then s.h.set2 k (k - 1) zero else pure s.h
  pure { s with h := h, k := k, l := k }

/-- Models: src/dlahqr.rs:105-328, `'loop_140` with `rounds + 1` rounds left and `curr_its = its`.
Returns the state and the final value of `its`. -/
def hqrInner (p : HqrP F) (i : Int) : Nat → Nat → HqrS F → R (HqrS F × Nat)
  | rounds, its, s => do
    let s ← hqrDeflate p i s
    if s.l ≥ i - 1 then pure (s, its)
    else do
      let s ← hqrSweep p i s
      match rounds with
      | 0 => pure (s, its)
      | r + 1 => hqrInner p i r (its + 1) s

/-- Models: src/dlahqr.rs:360 etc., `for idx in start..=a.len() { a[idx] = vec[idx - start]; }`. -/
def writeBack (start : Int) (vec : List F) (a : FA F) : R (FA F) := do
  forUp start (← a.len) a fun a idx =>
    match vec[asUsize (idx - start)]? with
    | some x => pure (a.set1 idx x)
    | none => R.panic .bounds

/-- Models: src/dlahqr.rs:355-369, the part of the 2-by-2 deflation that updates the rest of `h`. -/
def hqrRotH (p : HqrP F) (i : Int) (cs sn : F) (h : FA F) : R (FA F) := do
  let i1 : Int := 1
  let i2 : Int := p.n
  let h ← if i2 > i then do
      let h02 ← h.from2 (i - 1) (i + 1)
      let h12 ← h.from2 i (i + 1)
      let (h02, h12) ← drot (i2 - i) h02 p.ldh h12 p.ldh cs sn
      let i02 ← h.idx (i - 1) (i + 1)
      let i12 ← h.idx i (i + 1)
      let h ← writeBack i02 h02 h
      writeBack i12 h12 h
    else pure h
  let h10 ← h.from2 i1 (i - 1)
  let h11 ← h.from2 i1 i
  -- lines 365: the rotated copies are dropped
  let _ ← drot (i - i1 - 1) h10 1 h11 1 cs sn
  let i10 ← h.idx i1 (i - 1)
  let i11 ← h.idx i1 i
  let h ← writeBack i10 h10 h
  writeBack i11 h11 h

/-- Models: src/dlahqr.rs:371-377. -/
def hqrRotZ (p : HqrP F) (i : Int) (cs sn : F) (z : FA F) : R (FA F) := do
  let z00 ← z.from2 p.iloz (i - 1)
  let z01 ← z.from2 p.iloz i
  let (z00, z01) ← drot (p.ihiz - p.iloz + 1) z00 1 z01 1 cs sn
  let i00 ← z.idx p.iloz (i - 1)
  let i01 ← z.idx p.iloz i
  let z ← writeBack i00 z00 z
  writeBack i01 z01 z

/-- The arrays of `dlahqr` between rounds of the outer loop. -/
structure HqrA (F : Type) where
  h : FA F
  wr : FA F
  wi : FA F
  z : FA F

/-- Models: src/dlahqr.rs:344-378, deflation of a 2-by-2 block. -/
def hqrTwo (p : HqrP F) (i : Int) (a : HqrA F) : R (HqrA F) := do
  let r := dlanv2 (← a.h.get2 (i - 1) (i - 1)) (← a.h.get2 (i - 1) i) (← a.h.get2 i (i - 1))
    (← a.h.get2 i i)
  let h ← a.h.set2 (i - 1) (i - 1) r.a
  let h ← h.set2 (i - 1) i r.b
  let h ← h.set2 i (i - 1) r.c
  let h ← h.set2 i i r.d
  let wr := (a.wr.set1 (i - 1) r.rt1r).set1 i r.rt2r
  let wi := (a.wi.set1 (i - 1) r.rt1i).set1 i r.rt2i
  let h ← if p.wantt then hqrRotH p i r.cs r.sn h else pure h
  let z ← if p.wantz then hqrRotZ p i r.cs r.sn a.z else pure a.z
  pure ⟨h, wr, wi, z⟩

/-- Models: src/dlahqr.rs:341-378. -/
def hqrRecord (p : HqrP F) (i l : Int) (a : HqrA F) : R (HqrA F) := do
  if l = i then
    pure { a with wr := a.wr.set1 i (← a.h.get2 i i), wi := a.wi.set1 i zero }
  else if l = i - 1 then hqrTwo p i a
  else pure a

/-- What `dlahqr` returns: the arrays and `info`. -/
abbrev HqrOut (F : Type) := HqrA F × Int

/-- Models: src/dlahqr.rs:95-387, the outer loop with fuel.  Arguments besides the arrays: the
variables `v`, `m`, `k` and `i`.  (`kdefl` is 0 at the head of the loop.)  The conversions
`*h = H::from(h_f.clone())` of lines 383-386 are represented by the single conversion at return:
the value of the last one is the one the caller sees.  (Simplification: a conversion that panics
is thereby seen at return instead of after the first round.) -/
def hqrOuter (p : HqrP F) : Nat → HqrA F → FA F → Int → Int → Int → R (HqrOut F)
  | 0, _, _, _, _, _ => R.timeout
  | fuel + 1, a, v, m, k, i => do
    if i < p.ilo then pure (a, 0)
    else do
      let (s, its) ← hqrInner p i p.itmax 0 ⟨a.h, a.z, v, m, k, p.ilo, 0⟩
      let a := { a with h := s.h, z := s.z }
      if its ≥ p.itmax then pure (a, i)
      else do
        let a ← hqrRecord p i s.l a
        hqrOuter p fuel a s.v s.m s.k (s.l - 1)

/-- Models: src/dlahqr.rs:62-68, clearing below the first subdiagonal. -/
def hqrClear (ilo ihi : Int) (h : FA F) : R (FA F) := do
  let h ← forUp ilo (ihi - 3) h fun h j => do
    let h ← h.set2 (j + 2) j zero
    h.set2 (j + 3) j zero
  if ilo ≤ ihi - 2 then h.set2 ihi (ihi - 2) zero else pure h

/-- Models: src/dlahqr.rs:70-81, the constants. -/
def hqrParams (wantt wantz : Bool) (n ilo ihi ldh iloz ihiz : Int) : HqrP F :=
  let ulp : F := dlamch 'P'
  ⟨wantt, wantz, n, ilo, ihi, ldh, iloz, ihiz, ulp,
    dlamch 'S' * (ofInt (ihi - ilo + 1) / ulp)⟩

/-- Models: src/dlahqr.rs:41-387 on `FortranArray`s, for `n ≠ 0` and `ilo ≠ ihi`. -/
def hqrMain (fuel : Nat) (wantt wantz : Bool) (n ilo ihi : Int) (ldh iloz ihiz : Int)
    (a : HqrA F) : R (HqrOut F) := do
  let h ← hqrClear ilo ihi a.h
  hqrOuter (hqrParams wantt wantz n ilo ihi ldh iloz ihiz) fuel { a with h := h }
    (faOfVec [zero, zero, zero]) 0 ihi ihi

/-- The new values of the `&mut` arguments of `dlahqr`. -/
structure HqrRet (H WR WI Z : Type) where
  h : H
  wr : WR
  wi : WI
  z : Z
  info : Int
deriving Repr

/-- Models: src/dlahqr.rs:20-388. -/
def dlahqr {H WR WI Z : Type} [ToFA F H] [FromFA F H] [ToFA F WR] [FromFA F WR] [ToFA F WI]
    [FromFA F WI] [ToFA F Z] [FromFA F Z] (fuel : Nat) (wantt wantz : Bool) (n ilo ihi : Int)
    (h : H) (ldh : Int) (wr : WR) (wi : WI) (iloz ihiz : Int) (z : Z) (_ldz : Int) :
    R (HqrRet H WR WI Z) := do
  if n = 0 then pure ⟨h, wr, wi, z, 0⟩
  else
    let a : HqrA F := ⟨ToFA.toFa h, ToFA.toFa wr, ToFA.toFa wi, ToFA.toFa z⟩
    if ilo = ihi then do
      let wr' := a.wr.set1 ilo (← a.h.get2 ilo ilo)
      let wi' := a.wi.set1 ilo zero
      let wr'' ← FromFA.fromFa (F := F) wr'
      let wi'' ← FromFA.fromFa (F := F) wi'
      pure ⟨h, wr'', wi'', z, 0⟩
    else do
      let (r, info) ← hqrMain fuel wantt wantz n ilo ihi ldh iloz ihiz a
      let h' ← FromFA.fromFa r.h
      let wr' ← FromFA.fromFa r.wr
      let wi' ← FromFA.fromFa r.wi
      let z' ← FromFA.fromFa r.z
      pure ⟨h', wr', wi', z', info⟩

end Verif
