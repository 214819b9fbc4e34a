import Verif.Model.Hqr

/-!
# DLAQR5 (src/dlaqr5.rs)

Simplification: as in `Verif.Model.Hqr`, `i32` arithmetic on loop indices is modelled in unbounded
integers, while the offsets of matrix accesses are checked.
-/

namespace Verif
open Scalar

variable {F : Type} [Scalar F]

/-- The arrays `dlaqr5` works on. -/
structure Qr5S (F : Type) where
  sr : FA F
  si : FA F
  h : FA F
  z : FA F
  v : FA F
  u : FA F
  wv : FA F
  wh : FA F
  vt : FA F

/-- The fixed arguments of `dlaqr5`, with the constants of lines 85-96. -/
structure Qr5P (F : Type) where
  wantt : Bool
  wantz : Bool
  accum : Bool
  n : Int
  ktop : Int
  kbot : Int
  iloz : Int
  ihiz : Int
  ldh : Int
  ldz : Int
  ldv : Int
  ldu : Int
  nv : Int
  ldwv : Int
  nh : Int
  ldwh : Int
  nbmps : Int
  ulp : F
  smlnum : F

/-- Models: src/dlaqr5.rs:96. -/
def Qr5P.kdu (p : Qr5P F) : Int := 4 * p.nbmps

/-- Models: src/dlaqr5.rs:72-82, one round of the shift shuffle on `(sr, si)`. -/
def qr5Shuffle (s : FA F × FA F) (i : Int) : R (FA F × FA F) :=
  let (sr, si) := s
  if si.get1 i ≠ᶠ si.get1 (i + 1) then
    let swap := sr.get1 i
    let sr := sr.set1 i (sr.get1 (i + 1))
    let sr := sr.set1 (i + 1) (sr.get1 (i + 2))
    let sr := sr.set1 (i + 2) swap
    let swap := si.get1 i
    let si := si.set1 i (si.get1 (i + 1))
    let si := si.set1 (i + 1) (si.get1 (i + 2))
    let si := si.set1 (i + 2) swap
    pure (sr, si)
  else pure (sr, si)

/-- Models: src/dlaqr5.rs:122-129, 131-139, 227-234, 246-256: `dlarfg` on column `m` of `v`, then
rebuilding `v` from what is left.  Returns `(beta, v)`. -/
def qr5Larfg (ldv n m : Int) (beta : F) (v : FA F) : R (F × FA F) := do
  let v1 ← v.from2 2 m
  let (beta, v1, v2) ← dlarfg n beta v1 1
  let v ← (faOfVec v1).insert 1 v2
  let v ← v.as2d ldv
  pure (beta, v)

/-- Models: src/dlaqr5.rs:172-192 and 315-334: the convergence test on `h[(k+1, k)]`. -/
def qr5Negligible (p : Qr5P F) (k : Int) (h : FA F) : R (FA F) := do
  let ktop := p.ktop
  let kbot := p.kbot
  let hk1k ← h.get2 (k + 1) k
  if hk1k ≠ᶠ zero then
    let hkk ← h.get2 k k
    let hk1k1 ← h.get2 (k + 1) (k + 1)
    let tst1 := abs hkk + abs hk1k1
    let tst1 ← if tst1 =ᶠ zero then do
        let tst1 ← if k ≥ ktop + 1 then do pure (tst1 + abs (← h.get2 k (k - 1))) else pure tst1
        let tst1 ← if k ≥ ktop + 2 then do pure (tst1 + abs (← h.get2 k (k - 2))) else pure tst1
        let tst1 ← if k ≥ ktop + 3 then do pure (tst1 + abs (← h.get2 k (k - 3))) else pure tst1
        let tst1 ← if k ≤ kbot - 2 then do pure (tst1 + abs (← h.get2 (k + 2) (k + 1)))
          else pure tst1
        let tst1 ← if k ≤ kbot - 3 then do pure (tst1 + abs (← h.get2 (k + 3) (k + 1)))
          else pure tst1
        if k ≤ kbot - 4 then do pure (tst1 + abs (← h.get2 (k + 4) (k + 1))) else pure tst1
      else pure tst1
    if abs hk1k ≤ᶠ fmax p.smlnum (p.ulp * tst1) then
      let hkk1 ← h.get2 k (k + 1)
      let h12 := fmax (abs hk1k) (abs hkk1)
      let h21 := fmin (abs hk1k) (abs hkk1)
      let h11 := fmax (abs hk1k1) (abs (hkk - hk1k1))
      let h22 := fmin (abs hk1k1) (abs (hkk - hk1k1))
      let scl := h11 + h12
      let tst2 := h22 * (h11 / scl)
      if (tst2 =ᶠ zero) || (h21 * (h12 / scl) ≤ᶠ fmax p.smlnum (p.ulp * tst2)) then
        h.set2 (k + 1) k zero
      else pure h
    else pure h
  else pure h

/-- Models: src/dlaqr5.rs:114-143, the 2-by-2 reflector at the bottom: new `(h, v)`. -/
def qr5Bmp22Refl (p : Qr5P F) (k m22 : Int) (s : Qr5S F) : R (FA F × FA F) := do
  if k = p.ktop - 1 then
    let htmp ← s.h.from2 (k + 1) (k + 1)
    let vtmp ← s.v.from2 1 m22
    let vtmp ← dlaqr1 2 htmp p.ldh (s.sr.get1 (2 * m22 - 1)) (s.si.get1 (2 * m22 - 1))
      (s.sr.get1 (2 * m22)) (s.si.get1 (2 * m22)) vtmp
    let v ← ToFA.toFa2d (F := F) vtmp p.ldv
    let beta ← v.get2 1 m22
    let (_, v) ← qr5Larfg p.ldv 2 m22 beta v
    pure (s.h, v)
  else
    let beta ← s.h.get2 (k + 1) k
    let v ← s.v.set2 2 m22 (← s.h.get2 (k + 2) k)
    let (beta, v) ← qr5Larfg p.ldv 2 m22 beta v
    let h ← s.h.set2 (k + 1) k beta
    let h ← h.set2 (k + 2) k zero
    pure (h, v)

/-- Models: src/dlaqr5.rs:113-216, the special 2-by-2 bulge. -/
def qr5Bmp22 (p : Qr5P F) (incol jtop jbot krcol m22 : Int) (s : Qr5S F) : R (Qr5S F) := do
  let k := krcol + 2 * (m22 - 1)
  let (h, v) ← qr5Bmp22Refl p k m22 s
  let t1 ← v.get2 1 m22
  let v2 ← v.get2 2 m22
  let t2 := t1 * v2
  let h ← refl2Cols jtop (min p.kbot (k + 3)) (k + 1) (k + 2) v2 t1 t2 h
  let h ← refl2Rows (k + 1) jbot (k + 1) (k + 2) v2 t1 t2 h
  let h ← if k ≥ p.ktop then qr5Negligible p k h else pure h
  let s := { s with h := h, v := v }
  if p.accum then
    let kms := k - incol
    let u ← refl2Cols (max 1 (p.ktop - incol)) p.kdu (kms + 1) (kms + 2) v2 t1 t2 s.u
    pure { s with u := u }
  else if p.wantz then
    let z ← refl2Cols p.iloz p.ihiz (k + 1) (k + 2) v2 t1 t2 s.z
    pure { s with z := z }
  else pure s

/-- Models: src/dlaqr5.rs:264-294, the collapsed bulge: new `(h, v, vt)`. -/
def qr5Collapsed (p : Qr5P F) (k m : Int) (beta : F) (s : Qr5S F) (h v : FA F) :
    R (FA F × FA F × FA F) := do
  let htmp ← h.from2 (k + 1) (k + 1)
  let vt ← dlaqr1 3 htmp p.ldh (s.sr.get1 (2 * m - 1)) (s.si.get1 (2 * m - 1))
    (s.sr.get1 (2 * m)) (s.si.get1 (2 * m)) s.vt
  let (_, vt1, vt2) ← dlarfg 3 (vt.get1 1) [vt.get1 2] 1
  let vt ← (faOfVec vt1).insert 1 vt2
  let t1 := vt.get1 1
  let t2 := t1 * vt.get1 2
  let t3 := t1 * vt.get1 3
  let hk1k ← h.get2 (k + 1) k
  let hk2k ← h.get2 (k + 2) k
  let refsum := hk1k + vt.get1 2 * hk2k
  let rhs := p.ulp * (abs (← h.get2 k k) + abs (← h.get2 (k + 1) (k + 1))
    + abs (← h.get2 (k + 2) (k + 2)))
  if abs (hk2k - refsum * t2) + refsum * abs t3 >ᶠ rhs then
    let h ← h.set2 (k + 1) k beta
    let h ← h.set2 (k + 2) k zero
    let h ← h.set2 (k + 3) k zero
    pure (h, v, vt)
  else
    let h ← h.modify2 (k + 1) k (· - refsum * t1)
    let h ← h.set2 (k + 2) k zero
    let h ← h.set2 (k + 3) k zero
    let v ← v.set2 1 m (vt.get1 1)
    let v ← v.set2 2 m (vt.get1 2)
    let v ← v.set2 3 m (vt.get1 3)
    pure (h, v, vt)

/-- Models: src/dlaqr5.rs:221-295, the 3-by-3 reflector of bulge `m`: new `(h, v, vt)`. -/
def qr5Refl3 (p : Qr5P F) (k m : Int) (s : Qr5S F) : R (FA F × FA F × FA F) := do
  if k = p.ktop - 1 then
    let htmp ← s.h.from2 p.ktop p.ktop
    let vtmp ← s.v.from2 1 m
    let vtmp ← dlaqr1 3 htmp p.ldh (s.sr.get1 (2 * m - 1)) (s.si.get1 (2 * m - 1))
      (s.sr.get1 (2 * m)) (s.si.get1 (2 * m)) vtmp
    let v ← ToFA.toFa2d (F := F) vtmp p.ldv
    let alpha ← v.get2 1 m
    let (_, v) ← qr5Larfg p.ldv 3 m alpha v
    pure (s.h, v, s.vt)
  else
    let t1 ← s.v.get2 1 m
    let v2 ← s.v.get2 2 m
    let v3 ← s.v.get2 3 m
    let t2 := t1 * v2
    let t3 := t1 * v3
    let refsum := v3 * (← s.h.get2 (k + 3) (k + 2))
    let h ← s.h.set2 (k + 3) k (-refsum * t1)
    let h ← h.set2 (k + 3) (k + 1) (-refsum * t2)
    let h ← h.modify2 (k + 3) (k + 2) (· - refsum * t3)
    let beta ← h.get2 (k + 1) k
    let v ← s.v.set2 2 m (← h.get2 (k + 2) k)
    let v ← v.set2 3 m (← h.get2 (k + 3) k)
    let (beta, v) ← qr5Larfg p.ldv 3 m beta v
    let hk3k ← h.get2 (k + 3) k
    let hk3k1 ← h.get2 (k + 3) (k + 1)
    let hk3k2 ← h.get2 (k + 3) (k + 2)
    if (hk3k ≠ᶠ zero) || (hk3k1 ≠ᶠ zero) || (hk3k2 =ᶠ zero) then
      let h ← h.set2 (k + 1) k beta
      let h ← h.set2 (k + 2) k zero
      let h ← h.set2 (k + 3) k zero
      pure (h, v, s.vt)
    else qr5Collapsed p k m beta s h v

/-- Models: src/dlaqr5.rs:220-335, one bulge of the chain. -/
def qr5Bulge (p : Qr5P F) (jtop krcol : Int) (s : Qr5S F) (m : Int) : R (Qr5S F) := do
  let k := krcol + 2 * (m - 1)
  let (h, v, vt) ← qr5Refl3 p k m s
  let t1 ← v.get2 1 m
  let v2 ← v.get2 2 m
  let v3 ← v.get2 3 m
  let t2 := t1 * v2
  let t3 := t1 * v3
  let h ← refl3Cols jtop (min p.kbot (k + 3)) (k + 1) (k + 2) (k + 3) v2 v3 t1 t2 t3 h
  let h ← refl3Rows (k + 1) (k + 1) (k + 1) (k + 2) (k + 3) v2 v3 t1 t2 t3 h
  let h ← if k < p.ktop then pure h else qr5Negligible p k h
  pure { s with h := h, v := v, vt := vt }

/-- Models: src/dlaqr5.rs:344-353. -/
def qr5Left (p : Qr5P F) (krcol jbot : Int) (s : Qr5S F) (m : Int) : R (Qr5S F) := do
  let k := krcol + 2 * (m - 1)
  let t1 ← s.v.get2 1 m
  let v2 ← s.v.get2 2 m
  let v3 ← s.v.get2 3 m
  let h ← refl3Rows (max p.ktop (krcol + 2 * m)) jbot (k + 1) (k + 2) (k + 3) v2 v3 t1
    (t1 * v2) (t1 * v3) s.h
  pure { s with h := h }

/-- Models: src/dlaqr5.rs:359-371. -/
def qr5AccU (p : Qr5P F) (incol krcol mbot : Int) (s : Qr5S F) (m : Int) : R (Qr5S F) := do
  let k := krcol + 2 * (m - 1)
  let kms := k - incol
  let i2 := max 1 (max (p.ktop - incol) (kms - (krcol - incol) + 1))
  let i4 := min p.kdu (krcol + 2 * (mbot - 1) - incol + 5)
  let t1 ← s.v.get2 1 m
  let v2 ← s.v.get2 2 m
  let v3 ← s.v.get2 3 m
  let u ← refl3Cols i2 i4 (kms + 1) (kms + 2) (kms + 3) v2 v3 t1 (t1 * v2) (t1 * v3) s.u
  pure { s with u := u }

/-- Models: src/dlaqr5.rs:376-385. -/
def qr5AccZ (p : Qr5P F) (krcol : Int) (s : Qr5S F) (m : Int) : R (Qr5S F) := do
  let k := krcol + 2 * (m - 1)
  let t1 ← s.v.get2 1 m
  let v2 ← s.v.get2 2 m
  let v3 ← s.v.get2 3 m
  let z ← refl3Cols p.iloz p.ihiz (k + 1) (k + 2) (k + 3) v2 v3 t1 (t1 * v2) (t1 * v3) s.z
  pure { s with z := z }

/-- Models: src/dlaqr5.rs:108-387, one step `krcol`. -/
def qr5Krcol (p : Qr5P F) (incol jtop : Int) (s : Qr5S F) (krcol : Int) : R (Qr5S F) := do
  let ndcol := incol + p.kdu
  let mtop := max 1 ((p.ktop - krcol).tdiv 2 + 1)
  let mbot := min p.nbmps ((p.kbot - krcol - 1).tdiv 2)
  let m22 := mbot + 1
  let jbot := if p.accum then min ndcol p.kbot else if p.wantt then p.n else p.kbot
  let s ← if mbot < p.nbmps ∧ krcol + 2 * (m22 - 1) = p.kbot - 2 then
      qr5Bmp22 p incol jtop jbot krcol m22 s
    else pure s
  let s ← forDown mtop mbot s (qr5Bulge p jtop krcol)
  let s ← forDown mtop mbot s (qr5Left p krcol jbot)
  if p.accum then forDown mtop mbot s (qr5AccU p incol krcol mbot)
  else if p.wantz then forDown mbot mtop s (qr5AccZ p krcol)
  else pure s

/-- Models: src/dlaqr5.rs:407-408 (and 421-422, 436-437): `data[..idx as usize - 1].to_vec()`. -/
def takeTo (data : List F) (idx : Int) : R (List F) :=
  if asUsize idx = 0 then fun p => match p with
    | .debug => .panic .overflow
    | .release => .panic .bounds
  else if asUsize idx - 1 ≤ data.length then pure (data.take (asUsize idx - 1))
  else R.panic .bounds

/-- Models: src/dlaqr5.rs:403-410 (`horizontal`), 417-424 and 432-439: one block of the
accumulated update of `x` (`h` or `z`), in which block row/column `(r, c)` of `x` is replaced by the
product held in the workspace `w`.  `rows`/`cols` give the size copied. Returns `(x, w)`. -/
def qr5Block (horizontal : Bool) (nu jlen ldu ldx ldw ldback r c k1 : Int) (u x w : FA F) :
    R (FA F × FA F) := do
  let usub ← u.from2 k1 k1
  let xsub ← x.from2 r c
  let w ← if horizontal then
      dgemm (F := F) 'C' 'N' nu jlen nu one usub ldu xsub ldx zero w ldw
    else dgemm (F := F) 'N' 'N' jlen nu nu one xsub ldx usub ldu zero w ldw
  let xtmp ← ToFA.toFa2d (F := F) xsub ldx
  let xtmp ← if horizontal then dlacpy (F := F) 'A' nu jlen w ldw xtmp ldx
    else dlacpy (F := F) 'A' jlen nu w ldw xtmp ldx
  let ini ← takeTo x.data (← x.idx r c)
  let x ← ToFA.toFa2d (F := F) (ini ++ xtmp.data) ldback
  pure (x, w)

/-- Models: src/dlaqr5.rs:391-442, the accumulated update after a sweep. -/
def qr5Accumulate (p : Qr5P F) (incol : Int) (s : Qr5S F) : R (Qr5S F) := do
  let ndcol := incol + p.kdu
  let jtop := if p.wantt then 1 else p.ktop
  let jbot := if p.wantt then p.n else p.kbot
  let k1 := max 1 (p.ktop - incol)
  let nu := (p.kdu - max 0 (ndcol - p.kbot)) - k1 + 1
  let s ← forStep (min ndcol p.kbot + 1) jbot (asUsize p.nh) s fun s jcol => do
    let jlen := min p.nh (jbot - jcol + 1)
    let (h, wh) ← qr5Block true nu jlen p.ldu p.ldh p.ldwh p.ldz (incol + k1) jcol k1 s.u s.h s.wh
    pure { s with h := h, wh := wh }
  let s ← forStep jtop (max p.ktop incol - 1) (asUsize p.nv) s fun s jrow => do
    let jlen := min p.nv (max p.ktop incol - jrow)
    let (h, wv) ← qr5Block false nu jlen p.ldu p.ldh p.ldwv p.ldz jrow (incol + k1) k1 s.u s.h s.wv
    pure { s with h := h, wv := wv }
  if p.wantz then
    forStep p.iloz p.ihiz (asUsize p.nv) s fun s jrow => do
      let jlen := min p.nv (p.ihiz - jrow + 1)
      let (z, wv) ← qr5Block false nu jlen p.ldu p.ldz p.ldwv p.ldz jrow (incol + k1) k1
        s.u s.z s.wv
      pure { s with z := z, wv := wv }
  else pure s

/-- Models: src/dlaqr5.rs:99-442, one sweep `incol`. -/
def qr5Incol (p : Qr5P F) (s : Qr5S F) (incol : Int) : R (Qr5S F) := do
  let jtop := if p.accum then max p.ktop incol else if p.wantt then 1 else p.ktop
  let u ← if p.accum then dlaset (F := F) 'A' p.kdu p.kdu zero one s.u else pure s.u
  let s := { s with u := u }
  let s ← forUp incol (min (incol + 2 * p.nbmps - 1) (p.kbot - 2)) s (qr5Krcol p incol jtop)
  if p.accum then qr5Accumulate p incol s else pure s

/-- Models: src/dlaqr5.rs:85-89, the constants. -/
def qr5Params (wantt wantz : Bool) (kacc22 n ktop kbot nshfts ldh iloz ihiz ldz ldv ldu nv ldwv nh
    ldwh : Int) : Qr5P F :=
  let ulp : F := dlamch 'P'
  { wantt, wantz, accum := decide (kacc22 = 1) || decide (kacc22 = 2), n, ktop, kbot, iloz, ihiz,
    ldh, ldz, ldv, ldu, nv, ldwv, nh, ldwh, nbmps := (nshfts - nshfts.tmod 2).tdiv 2, ulp,
    smlnum := dlamch 'S' * (ofInt n / ulp) }

/-- Models: src/dlaqr5.rs:71-443 on `FortranArray`s. -/
def qr5Main (p : Qr5P F) (nshfts : Int) (s : Qr5S F) : R (Qr5S F) := do
  let (sr, si) ← forStep 0 (nshfts - 3) 2 (s.sr, s.si) qr5Shuffle
  let h ← if p.ktop + 2 ≤ p.kbot then s.h.set2 (p.ktop + 2) p.ktop zero else pure s.h
  forStep (p.ktop - 2 * p.nbmps + 1) (p.kbot - 2) (2 * asUsize p.nbmps)
    { s with sr := sr, si := si, h := h } (qr5Incol p)

/-- The new values of the `&mut` arguments of `dlaqr5`. -/
structure Qr5Ret (H Z V U WV WH : Type) where
  h : H
  z : Z
  v : V
  u : U
  wv : WV
  wh : WH
deriving Repr

/-- Models: src/dlaqr5.rs:22-451. -/
def dlaqr5 {SR SI H Z V U WV WH : Type} [ToFA F SR] [ToFA F SI] [ToFA F H] [FromFA F H]
    [ToFA F Z] [FromFA F Z] [ToFA F V] [FromFA F V] [ToFA F U] [FromFA F U] [ToFA F WV]
    [FromFA F WV] [ToFA F WH] [FromFA F WH]
    (wantt wantz : Bool) (kacc22 n ktop kbot nshfts : Int) (sr : SR) (si : SI) (h : H) (ldh : Int)
    (iloz ihiz : Int) (z : Z) (ldz : Int) (v : V) (ldv : Int) (u : U) (ldu : Int) (nv : Int)
    (wv : WV) (ldwv : Int) (nh : Int) (wh : WH) (ldwh : Int) : R (Qr5Ret H Z V U WV WH) := do
  let h_f ← ToFA.toFa2d (F := F) h ldh
  let z_f ← ToFA.toFa2d (F := F) z ldz
  let v_f ← ToFA.toFa2d (F := F) v ldv
  let u_f ← ToFA.toFa2d (F := F) u ldu
  let wv_f ← ToFA.toFa2d (F := F) wv ldwv
  let wh_f ← ToFA.toFa2d (F := F) wh ldwh
  if nshfts < 2 then pure ⟨h, z, v, u, wv, wh⟩
  else if ktop ≥ kbot then pure ⟨h, z, v, u, wv, wh⟩
  else do
    let p := qr5Params wantt wantz kacc22 n ktop kbot nshfts ldh iloz ihiz ldz ldv ldu nv ldwv nh
      ldwh
    let s ← qr5Main p nshfts ⟨ToFA.toFa sr, ToFA.toFa si, h_f, z_f, v_f, u_f, wv_f, wh_f,
      faOfVec [zero, zero, zero]⟩
    let h' ← FromFA.fromFa s.h
    let z' ← FromFA.fromFa s.z
    let v' ← FromFA.fromFa s.v
    let u' ← FromFA.fromFa s.u
    let wv' ← FromFA.fromFa s.wv
    let wh' ← FromFA.fromFa s.wh
    pure ⟨h', z', v', u', wv', wh'⟩

end Verif
