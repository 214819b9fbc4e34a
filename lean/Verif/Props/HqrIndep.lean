import Verif.Lib.Sub
import Verif.Model.Qr5
import Verif.Inst.Float

/-!
# What the Schur vectors do not influence (C54)

Any scalar type, in particular IEEE `f64`: the matrix, the eigenvalues and `info` computed by `dlahqr` are the same whether or not the
transformations are also applied to `z`.
-/

namespace Verif
open Scalar

variable {F : Type} [Scalar F]

section
variable (p q : HqrP F)

/-- The fixed arguments differ at most in what concerns `z`, and the second run does not touch `z`. -/
structure SameH : Prop where
  wantt : p.wantt = q.wantt
  n : p.n = q.n
  ilo : p.ilo = q.ilo
  ihi : p.ihi = q.ihi
  ldh : p.ldh = q.ldh
  ulp : p.ulp = q.ulp
  smlnum : p.smlnum = q.smlnum
  noz : q.wantz = false

variable {p q}

theorem hqrCrit_same (hp : SameH p q) : hqrCrit p = hqrCrit q := by
  funext a b c d; unfold hqrCrit; rw [hp.ulp, hp.smlnum]

theorem hqrSearch_same (hp : SameH p q) (h : FA F) (l : List Int) (k : Int) : hqrSearch p h l k = hqrSearch q h l k := by
  induction l generalizing k with
  | nil => rfl
  | cons ck rest ih =>
    unfold hqrSearch
    simp only [hqrCrit_same hp, hp.ulp, hp.smlnum, hp.ilo, hp.ihi, ih]

theorem hqrStart_same (hp : SameH p q) (h : FA F) (a b c d : F) (l : Int) (L : List Int) (v : FA F) (m : Int) :
    hqrStart p h a b c d l L v m = hqrStart q h a b c d l L v m := by
  induction L generalizing v m with
  | nil => rfl
  | cons cm rest ih =>
    unfold hqrStart
    simp only [hp.ulp, ih]

/-- States of the bulge chase that agree except for `z`. -/
def EqHV (s t : FA F × FA F × FA F) : Prop := s.1 = t.1 ∧ s.2.2 = t.2.2

theorem hqrChase_sub (hp : SameH p q) (m l i i1 i2 : Int) (s t : FA F × FA F × FA F) (k : Int) (h : EqHV s t) :
    Sub EqHV (hqrChase p m l i i1 i2 s k) (hqrChase q m l i i1 i2 t k) := by
  obtain ⟨h1, z1, v1⟩ := s
  obtain ⟨h2, z2, v2⟩ := t
  obtain ⟨rfl, rfl⟩ : h1 = h2 ∧ v1 = v2 := h
  unfold hqrChase
  simp only [hp.noz]
  refine Sub.bind' fun vt => Sub.bind' fun h => Sub.ite (fun _ => ?_) fun _ => Sub.ite (fun _ => ?_) fun _ => Sub.pure ⟨rfl, rfl⟩
  · refine Sub.bind' fun h => Sub.bind' fun h => Sub.iteLeft (fun _ => Sub.left fun z => ?_) fun _ => ?_
    · exact Sub.pure ⟨rfl, rfl⟩
    · exact Sub.pure ⟨rfl, rfl⟩
  · refine Sub.bind' fun h => Sub.bind' fun h => Sub.iteLeft (fun _ => Sub.left fun z => ?_) fun _ => ?_
    · exact Sub.pure ⟨rfl, rfl⟩
    · exact Sub.pure ⟨rfl, rfl⟩

/-- States of the inner loop that agree except for `z`. -/
def EqS (s t : HqrS F) : Prop := s.h = t.h ∧ s.v = t.v ∧ s.m = t.m ∧ s.k = t.k ∧ s.l = t.l ∧ s.kdefl = t.kdefl

theorem hqrSweep_sub (hp : SameH p q) (i : Int) (s t : HqrS F) (h : EqS s t) : Sub EqS (hqrSweep p i s) (hqrSweep q i t) := by
  obtain ⟨h1, h2, h3, h4, h5, h6⟩ := h
  unfold hqrSweep
  simp only [h1, h2, h3, h5, h6, hp.wantt, hqrStart_same hp]
  refine Sub.bind' fun sh => Sub.bind' fun mv => Sub.bind (rel := EqHV) ?_ fun a b hab => ?_
  · exact Sub.forUp ⟨rfl, rfl⟩ fun s t k hst => hqrChase_sub hp _ _ _ _ _ s t k hst
  · obtain ⟨a1, a2, a3⟩ := a
    obtain ⟨b1, b2, b3⟩ := b
    obtain ⟨rfl, rfl⟩ : a1 = b1 ∧ a3 = b3 := hab
    exact Sub.pure ⟨rfl, rfl, rfl, h4, rfl, rfl⟩

theorem hqrDeflate_sub (hp : SameH p q) (i : Int) (s t : HqrS F) (h : EqS s t) : Sub EqS (hqrDeflate p i s) (hqrDeflate q i t) := by
  obtain ⟨h1, h2, h3, h4, h5, h6⟩ := h
  unfold hqrDeflate
  simp only [h1, h4, h5, hp.ilo, hqrSearch_same hp]
  refine Sub.bind' fun k => Sub.ite (fun _ => Sub.bind' fun h => ?_) fun _ => ?_
  · exact Sub.pure ⟨rfl, h2, h3, rfl, rfl, h6⟩
  · exact Sub.pure ⟨rfl, h2, h3, rfl, rfl, h6⟩

theorem hqrInner_sub (hp : SameH p q) (i : Int) (rounds its : Nat) (s t : HqrS F) (h : EqS s t) :
    Sub (fun a b => EqS a.1 b.1 ∧ a.2 = b.2) (hqrInner p i rounds its s) (hqrInner q i rounds its t) := by
  induction rounds generalizing its s t with
  | zero =>
    unfold hqrInner
    refine Sub.bind (hqrDeflate_sub hp i s t h) fun a b hab => ?_
    rw [hab.2.2.2.2.1]
    exact Sub.ite (fun _ => Sub.pure ⟨hab, rfl⟩) fun _ => Sub.bind (hqrSweep_sub hp i a b hab) fun a b hab => Sub.pure ⟨hab, rfl⟩
  | succ n ih =>
    unfold hqrInner
    refine Sub.bind (hqrDeflate_sub hp i s t h) fun a b hab => ?_
    rw [hab.2.2.2.2.1]
    exact Sub.ite (fun _ => Sub.pure ⟨hab, rfl⟩) fun _ => Sub.bind (hqrSweep_sub hp i a b hab) fun a b hab => ih _ a b hab

/-- Arrays that agree except for `z`. -/
def EqA (a b : HqrA F) : Prop := a.h = b.h ∧ a.wr = b.wr ∧ a.wi = b.wi

theorem hqrRecord_sub (hp : SameH p q) (i l : Int) (a b : HqrA F) (h : EqA a b) : Sub EqA (hqrRecord p i l a) (hqrRecord q i l b) := by
  obtain ⟨h1, h2, h3⟩ := h
  unfold hqrRecord
  simp only [h1, h2, h3]
  refine Sub.ite (fun _ => Sub.bind' fun x => Sub.pure ⟨rfl, rfl, rfl⟩) fun _ => Sub.ite (fun _ => ?_) fun _ => Sub.pure ⟨h1, h2, h3⟩
  unfold hqrTwo
  simp only [h1, h2, h3, hp.wantt, hp.noz]
  refine Sub.bind' fun _ => Sub.bind' fun _ => Sub.bind' fun _ => Sub.bind' fun _ => Sub.bind' fun _ => Sub.bind' fun _ => Sub.bind' fun _ =>
    Sub.bind' fun _ => ?_
  have hrot : ∀ cs sn h, hqrRotH p i cs sn h = hqrRotH q i cs sn h := by
    intro cs sn h; unfold hqrRotH; rw [hp.n, hp.ldh]
  refine Sub.ite (fun _ => ?_) fun _ => ?_
  · rw [hrot]
    exact Sub.bind' fun h => Sub.iteLeft (fun _ => Sub.left fun z => Sub.pure ⟨rfl, rfl, rfl⟩) fun _ => Sub.pure ⟨rfl, rfl, rfl⟩
  · exact Sub.iteLeft (fun _ => Sub.left fun z => Sub.pure ⟨rfl, rfl, rfl⟩) fun _ => Sub.pure ⟨rfl, rfl, rfl⟩

theorem hqrOuter_sub (hp : SameH p q) (fuel : Nat) (a b : HqrA F) (v : FA F) (m k i : Int) (h : EqA a b) :
    Sub (fun a b => EqA a.1 b.1 ∧ a.2 = b.2) (hqrOuter p fuel a v m k i) (hqrOuter q fuel b v m k i) := by
  induction fuel generalizing a b v m k i with
  | zero => exact Sub.timeout
  | succ n ih =>
    unfold hqrOuter
    have hit : p.itmax = q.itmax := by unfold HqrP.itmax; rw [hp.ilo, hp.ihi]
    rw [hp.ilo, hit]
    refine Sub.ite (fun _ => Sub.pure ⟨h, rfl⟩) fun _ => ?_
    refine Sub.bind (hqrInner_sub hp i q.itmax 0 _ _ ⟨h.1, rfl, rfl, rfl, rfl, rfl⟩) fun s t hst => ?_
    obtain ⟨s, its⟩ := s
    obtain ⟨t, its'⟩ := t
    obtain ⟨⟨h1, h2, h3, h4, h5, h6⟩, rfl⟩ := hst
    refine Sub.ite (fun _ => Sub.pure ⟨⟨h1, h.2.1, h.2.2⟩, rfl⟩) fun _ => ?_
    simp only at h1 h2 h3 h4 h5
    rw [h2, h3, h4, h5]
    exact Sub.bind (hqrRecord_sub hp i t.l _ _ ⟨h1, h.2.1, h.2.2⟩) fun a b hab => ih a b _ _ _ _ hab

end

/-- **C54.** If `dlahqr` returns when it also transforms `z`, it returns without doing so, with the same `h`, `wr`, `wi` and `info`,
whatever else is passed for `z`, `iloz` and `ihiz`.  Any arithmetic, any containers for `h`, `wr` and `wi`. -/
theorem C54_dlahqr_without_z {H WR WI Z : Type} [ToFA F H] [FromFA F H] [ToFA F WR] [FromFA F WR] [ToFA F WI]
    [FromFA F WI] [ToFA F Z] [FromFA F Z] (fuel : Nat) (wantt wantz : Bool) (n ilo ihi : Int) (h : H) (ldh : Int) (wr : WR) (wi : WI)
    (iloz ihiz : Int) (z : Z) (ldz : Int) (iloz' ihiz' : Int) (z' : FA F) (ldz' : Int) (pr : Profile) (ret : HqrRet H WR WI Z)
    (hret : dlahqr (F := F) fuel wantt wantz n ilo ihi h ldh wr wi iloz ihiz z ldz pr = .ok ret) :
    ∃ z'', dlahqr (F := F) fuel wantt false n ilo ihi h ldh wr wi iloz' ihiz' z' ldz' pr = .ok ⟨ret.h, ret.wr, ret.wi, z'', ret.info⟩ := by
  have key : Sub (fun (a : HqrRet H WR WI Z) (b : HqrRet H WR WI (FA F)) => a.h = b.h ∧ a.wr = b.wr ∧ a.wi = b.wi ∧ a.info = b.info)
      (dlahqr (F := F) fuel wantt wantz n ilo ihi h ldh wr wi iloz ihiz z ldz)
      (dlahqr (F := F) fuel wantt false n ilo ihi h ldh wr wi iloz' ihiz' z' ldz') := by
    unfold dlahqr
    refine Sub.ite (fun _ => Sub.pure ⟨rfl, rfl, rfl, rfl⟩) fun _ => ?_
    dsimp only
    refine Sub.ite (fun _ => Sub.bind' fun x => Sub.bind' fun wr => Sub.bind' fun wi => Sub.pure ⟨rfl, rfl, rfl, rfl⟩) fun _ => ?_
    refine Sub.bind (rel := fun a b => EqA a.1 b.1 ∧ a.2 = b.2) ?_ fun a b hab => ?_
    · unfold hqrMain
      refine Sub.bind' fun h => hqrOuter_sub ?_ _ _ _ _ _ _ _ ⟨rfl, rfl, rfl⟩
      exact ⟨rfl, rfl, rfl, rfl, rfl, rfl, rfl, rfl⟩
    · obtain ⟨a, i⟩ := a
      obtain ⟨b, j⟩ := b
      obtain ⟨⟨h1, h2, h3⟩, h4⟩ := hab
      simp only at h1 h2 h3 h4
      simp only [h1, h2, h3, h4]
      refine Sub.bind' fun h => Sub.bind' fun wr => Sub.bind' fun wi => Sub.left fun z => ?_
      exact Sub.pure ⟨rfl, rfl, rfl, rfl⟩
  obtain ⟨b, e, h1, h2, h3, h4⟩ := key pr ret hret
  exact ⟨b.z, by rw [e, h1, h2, h3, h4]⟩

/-! ### The step bound of the model -/

theorem hqrOuter_fuel (p : HqrP F) (fuel more : Nat) (a : HqrA F) (v : FA F) (m k i : Int) :
    Sub (fun a b => a = b) (hqrOuter p fuel a v m k i) (hqrOuter p (fuel + more) a v m k i) := by
  induction fuel generalizing a v m k i with
  | zero => exact Sub.timeout
  | succ n ih =>
    rw [show n + 1 + more = (n + more) + 1 by omega]
    unfold hqrOuter
    exact Sub.ite (fun _ => Sub.pure rfl) fun _ => Sub.bind' fun s => Sub.ite (fun _ => Sub.pure rfl) fun _ => Sub.bind' fun a => ih _ _ _ _ _

/-- **C55.** The bound on the number of rounds of the outer loop is not observable: a call that returns within `fuel` rounds returns the
same with any larger bound.  So `dlahqr` has one result, or none. -/
theorem C55_dlahqr_fuel {H WR WI Z : Type} [ToFA F H] [FromFA F H] [ToFA F WR] [FromFA F WR] [ToFA F WI]
    [FromFA F WI] [ToFA F Z] [FromFA F Z] (fuel fuel' : Nat) (wantt wantz : Bool) (n ilo ihi : Int) (h : H) (ldh : Int) (wr : WR) (wi : WI)
    (iloz ihiz : Int) (z : Z) (ldz : Int) (pr : Profile) (ret ret' : HqrRet H WR WI Z)
    (hret : dlahqr (F := F) fuel wantt wantz n ilo ihi h ldh wr wi iloz ihiz z ldz pr = .ok ret)
    (hret' : dlahqr (F := F) fuel' wantt wantz n ilo ihi h ldh wr wi iloz ihiz z ldz pr = .ok ret') : ret = ret' := by
  have key : ∀ fuel more, Sub (fun a b => a = b) (dlahqr (F := F) fuel wantt wantz n ilo ihi h ldh wr wi iloz ihiz z ldz)
      (dlahqr (F := F) (fuel + more) wantt wantz n ilo ihi h ldh wr wi iloz ihiz z ldz) := by
    intro fuel more
    unfold dlahqr
    refine Sub.ite (fun _ => Sub.refl _) fun _ => ?_
    dsimp only
    refine Sub.ite (fun _ => Sub.refl _) fun _ => ?_
    refine Sub.bind (rel := fun a b => a = b) ?_ fun a b hab => by subst hab; exact Sub.refl _
    unfold hqrMain
    exact Sub.bind' fun h => hqrOuter_fuel _ _ _ _ _ _ _ _
  rcases Nat.le_total fuel fuel' with hle | hle
  · obtain ⟨d, rfl⟩ := Nat.exists_eq_add_of_le hle
    obtain ⟨b, e, rfl⟩ := key fuel d pr ret hret
    rw [e] at hret'; cases hret'; rfl
  · obtain ⟨d, rfl⟩ := Nat.exists_eq_add_of_le hle
    obtain ⟨b, e, rfl⟩ := key fuel' d pr ret' hret'
    rw [e] at hret; cases hret; rfl

/-! ### `dlaqr5` without accumulation -/

section
variable (p : Qr5P F) (iz jz lz : Int)

/-- The same arguments, leaving `z` alone. -/
def Qr5P.noZ : Qr5P F := { p with wantz := false, iloz := iz, ihiz := jz, ldz := lz }

/-- States of `dlaqr5` that agree except for `z`. -/
def EqQ (s t : Qr5S F) : Prop := ∃ z, t = { s with z := z }

theorem qr5Bmp22_sub (hacc : p.accum = false) (incol jtop jbot krcol m22 : Int) (s t : Qr5S F) (h : EqQ s t) :
    Sub EqQ (qr5Bmp22 p incol jtop jbot krcol m22 s) (qr5Bmp22 (p.noZ iz jz lz) incol jtop jbot krcol m22 t) := by
  obtain ⟨z, rfl⟩ := h
  have e1 : ∀ k, qr5Bmp22Refl (p.noZ iz jz lz) k m22 { s with z := z } = qr5Bmp22Refl p k m22 s := fun _ => rfl
  have e2 : ∀ k h, qr5Negligible (p.noZ iz jz lz) k h = qr5Negligible p k h := fun _ _ => rfl
  unfold qr5Bmp22
  simp only [e1, e2, hacc, show (p.noZ iz jz lz).accum = p.accum from rfl, show (p.noZ iz jz lz).wantz = false from rfl,
    show (p.noZ iz jz lz).kbot = p.kbot from rfl, show (p.noZ iz jz lz).ktop = p.ktop from rfl]
  refine Sub.bind' fun hv => Sub.bind' fun t1 => Sub.bind' fun v2 => Sub.bind' fun h => Sub.bind' fun h =>
    Sub.ite (fun _ => Sub.bind' fun h => ?_) fun _ => Sub.bind' fun h => ?_
  all_goals exact Sub.iteLeft (fun h => by cases h) fun _ => Sub.iteLeft (fun _ => Sub.left fun z' => Sub.pure ⟨z, rfl⟩) fun _ => Sub.pure ⟨z, rfl⟩

theorem qr5Bulge_sub (jtop krcol : Int) (s t : Qr5S F) (m : Int) (h : EqQ s t) :
    Sub EqQ (qr5Bulge p jtop krcol s m) (qr5Bulge (p.noZ iz jz lz) jtop krcol t m) := by
  obtain ⟨z, rfl⟩ := h
  have e1 : ∀ k, qr5Refl3 (p.noZ iz jz lz) k m { s with z := z } = qr5Refl3 p k m s := fun _ => rfl
  have e2 : ∀ k h, qr5Negligible (p.noZ iz jz lz) k h = qr5Negligible p k h := fun _ _ => rfl
  unfold qr5Bulge
  simp only [e1, e2, show (p.noZ iz jz lz).kbot = p.kbot from rfl, show (p.noZ iz jz lz).ktop = p.ktop from rfl]
  exact Sub.bind' fun hv => Sub.bind' fun t1 => Sub.bind' fun v2 => Sub.bind' fun v3 => Sub.bind' fun h => Sub.bind' fun h =>
    Sub.ite (fun _ => Sub.bind' fun h => Sub.pure ⟨z, rfl⟩) fun _ => Sub.bind' fun h => Sub.pure ⟨z, rfl⟩

theorem qr5Left_sub (krcol jbot : Int) (s t : Qr5S F) (m : Int) (h : EqQ s t) :
    Sub EqQ (qr5Left p krcol jbot s m) (qr5Left (p.noZ iz jz lz) krcol jbot t m) := by
  obtain ⟨z, rfl⟩ := h
  unfold qr5Left
  exact Sub.bind' fun t1 => Sub.bind' fun v2 => Sub.bind' fun v3 => Sub.bind' fun h => Sub.pure ⟨z, rfl⟩

theorem qr5AccZ_sub (krcol : Int) (l : List Int) (a b : Qr5S F) (hab : EqQ a b) : Sub EqQ (l.foldlM (qr5AccZ p krcol) a) (pure b) := by
  induction l generalizing a with
  | nil => exact Sub.pure hab
  | cons i l ih =>
    rw [List.foldlM_cons]
    unfold qr5AccZ
    simp only [bind_assoc, pure_bind]
    refine Sub.left fun t1 => Sub.left fun v2 => Sub.left fun v3 => Sub.left fun z' => ih _ ?_
    obtain ⟨z, rfl⟩ := hab
    exact ⟨z, rfl⟩

theorem qr5Krcol_sub (hacc : p.accum = false) (incol jtop : Int) (s t : Qr5S F) (krcol : Int) (h : EqQ s t) :
    Sub EqQ (qr5Krcol p incol jtop s krcol) (qr5Krcol (p.noZ iz jz lz) incol jtop t krcol) := by
  unfold qr5Krcol
  simp only [hacc, show (p.noZ iz jz lz).accum = p.accum from rfl, show (p.noZ iz jz lz).wantz = false from rfl,
    show (p.noZ iz jz lz).kbot = p.kbot from rfl, show (p.noZ iz jz lz).ktop = p.ktop from rfl, show (p.noZ iz jz lz).wantt = p.wantt from rfl,
    show (p.noZ iz jz lz).nbmps = p.nbmps from rfl, show (p.noZ iz jz lz).n = p.n from rfl]
  refine Sub.ite (fun _ => Sub.bind (qr5Bmp22_sub p iz jz lz hacc _ _ _ _ _ s t h) fun a b hab => ?_) fun _ => Sub.bind (Sub.pure h) fun a b hab => ?_
  all_goals
    refine Sub.bind (Sub.forDown hab fun s t i hst => qr5Bulge_sub p iz jz lz _ _ s t i hst) fun a b hab =>
      Sub.bind (Sub.forDown hab fun s t i hst => qr5Left_sub p iz jz lz _ _ s t i hst) fun a b hab => ?_
    simp only [Bool.false_eq_true, if_false]
    refine Sub.iteLeft (fun _ => ?_) fun _ => Sub.pure hab
    exact qr5AccZ_sub p krcol _ a b hab

theorem qr5Incol_sub (hacc : p.accum = false) (s t : Qr5S F) (incol : Int) (h : EqQ s t) :
    Sub EqQ (qr5Incol p s incol) (qr5Incol (p.noZ iz jz lz) t incol) := by
  obtain ⟨z, rfl⟩ := h
  unfold qr5Incol
  simp only [hacc, show (p.noZ iz jz lz).accum = p.accum from rfl, show (p.noZ iz jz lz).kbot = p.kbot from rfl,
    show (p.noZ iz jz lz).ktop = p.ktop from rfl, show (p.noZ iz jz lz).wantt = p.wantt from rfl,
    show (p.noZ iz jz lz).nbmps = p.nbmps from rfl]
  simp only [Bool.false_eq_true, if_false]
  refine Sub.bind' fun u => Sub.bind (rel := EqQ) ?_ fun a b hab => ?_
  · exact Sub.forUp ⟨z, rfl⟩ fun s t i hst => qr5Krcol_sub p iz jz lz hacc _ _ s t i hst
  · exact Sub.pure hab

theorem qr5Main_sub (hacc : p.accum = false) (nshfts : Int) (s t : Qr5S F) (h : EqQ s t) :
    Sub EqQ (qr5Main p nshfts s) (qr5Main (p.noZ iz jz lz) nshfts t) := by
  obtain ⟨z, rfl⟩ := h
  unfold qr5Main
  refine Sub.bind' fun sh => ?_
  obtain ⟨sr, si⟩ := sh
  refine Sub.ite (fun _ => Sub.bind' fun h => ?_) fun _ => Sub.bind' fun h => ?_
  all_goals exact Sub.forStep ⟨z, rfl⟩ fun s t i hst => qr5Incol_sub p iz jz lz hacc s t i hst

end

/-- **C54** (multi-shift sweep).  If `dlaqr5` returns without accumulating the transformations (`kacc22` neither 1 nor 2), it returns the
same `h`, `v`, `u`, `wv` and `wh` when told not to transform `z`, whatever else is passed for `z`, `iloz` and `ihiz`. -/
theorem C54_dlaqr5_without_z {SR SI H Z V U WV WH : Type} [ToFA F SR] [ToFA F SI] [ToFA F H] [FromFA F H]
    [ToFA F Z] [FromFA F Z] [ToFA F V] [FromFA F V] [ToFA F U] [FromFA F U] [ToFA F WV] [FromFA F WV] [ToFA F WH] [FromFA F WH]
    (wantt wantz : Bool) (kacc22 n ktop kbot nshfts : Int) (h1 : kacc22 ≠ 1) (h2 : kacc22 ≠ 2) (sr : SR) (si : SI) (h : H) (ldh : Int)
    (iloz ihiz : Int) (z : Z) (ldz : Int) (v : V) (ldv : Int) (u : U) (ldu : Int) (nv : Int)
    (wv : WV) (ldwv : Int) (nh : Int) (wh : WH) (ldwh : Int) (iloz' ihiz' : Int) (z' : FA F) (ldz' : Int) (pr : Profile)
    (ret : Qr5Ret H Z V U WV WH)
    (hret : dlaqr5 (F := F) wantt wantz kacc22 n ktop kbot nshfts sr si h ldh iloz ihiz z ldz v ldv u ldu nv wv ldwv nh wh ldwh pr = .ok ret) :
    ∃ z'', dlaqr5 (F := F) wantt false kacc22 n ktop kbot nshfts sr si h ldh iloz' ihiz' z' ldz' v ldv u ldu nv wv ldwv nh wh ldwh pr
      = .ok ⟨ret.h, z'', ret.v, ret.u, ret.wv, ret.wh⟩ := by
  have key : Sub (fun (a : Qr5Ret H Z V U WV WH) (b : Qr5Ret H (FA F) V U WV WH) => a.h = b.h ∧ a.v = b.v ∧ a.u = b.u ∧ a.wv = b.wv ∧ a.wh = b.wh)
      (dlaqr5 (F := F) wantt wantz kacc22 n ktop kbot nshfts sr si h ldh iloz ihiz z ldz v ldv u ldu nv wv ldwv nh wh ldwh)
      (dlaqr5 (F := F) wantt false kacc22 n ktop kbot nshfts sr si h ldh iloz' ihiz' z' ldz' v ldv u ldu nv wv ldwv nh wh ldwh) := by
    unfold dlaqr5
    refine Sub.bind' fun h' => Sub.left fun zf => ?_
    rw [show ToFA.toFa2d (F := F) z' ldz' = pure z' from rfl, pure_bind]
    refine Sub.bind' fun v' => Sub.bind' fun u' => Sub.bind' fun wv' => Sub.bind' fun wh' => ?_
    refine Sub.ite (fun _ => Sub.pure ⟨rfl, rfl, rfl, rfl, rfl⟩) fun _ => Sub.ite (fun _ => Sub.pure ⟨rfl, rfl, rfl, rfl, rfl⟩) fun _ => ?_
    dsimp only
    refine Sub.bind (qr5Main_sub (qr5Params wantt wantz kacc22 n ktop kbot nshfts ldh iloz ihiz ldz ldv ldu nv ldwv nh ldwh)
      iloz' ihiz' ldz' (by simp [qr5Params, h1, h2]) nshfts _ _ ⟨z', rfl⟩) fun a b hab => ?_
    obtain ⟨z2, rfl⟩ := hab
    refine Sub.bind' fun h => Sub.left fun z => ?_
    rw [show FromFA.fromFa (A := FA F) z2 = pure z2 from rfl, pure_bind]
    exact Sub.bind' fun _ => Sub.bind' fun _ => Sub.bind' fun _ => Sub.bind' fun _ => Sub.pure ⟨rfl, rfl, rfl, rfl, rfl⟩
  obtain ⟨b, e, e1, e2, e3, e4, e5⟩ := key pr ret hret
  exact ⟨b.z, by rw [e, e1, e2, e3, e4, e5]⟩

/-! ### The hypothesis is met -/

/-- The value of a run, if it returns. -/
def Res.val? {α : Type} : Res α → Option α
  | .ok a => some a
  | _ => none

/-- On the `f64` matrix with rows `(1, 2)` and `(3, 4)` and the identity for `z` the call returns. -/
theorem C54_example : ∃ ret, dlahqr (F := Float) 2 true true 2 1 2 (⟨[1, 3, 2, 4], 2, 2, 0⟩ : FA Float) 2 ([0, 0] : List Float)
    ([0, 0] : List Float) 1 2 (⟨[1, 0, 0, 1], 2, 2, 0⟩ : FA Float) 2 .release = .ok ret ∧ ret.info = 0 := by
  have h : ((dlahqr (F := Float) 2 true true 2 1 2 (⟨[1, 3, 2, 4], 2, 2, 0⟩ : FA Float) 2 ([0, 0] : List Float)
    ([0, 0] : List Float) 1 2 (⟨[1, 0, 0, 1], 2, 2, 0⟩ : FA Float) 2 .release).val?.map (·.info)) = some 0 := by decide +kernel
  generalize dlahqr (F := Float) 2 true true 2 1 2 (⟨[1, 3, 2, 4], 2, 2, 0⟩ : FA Float) 2 ([0, 0] : List Float)
    ([0, 0] : List Float) 1 2 (⟨[1, 0, 0, 1], 2, 2, 0⟩ : FA Float) 2 .release = x at *
  cases x with
  | ok a => exact ⟨a, rfl, by simpa [Res.val?] using h⟩
  | panic _ => cases h
  | exit _ _ => cases h
  | timeout => cases h

end Verif
