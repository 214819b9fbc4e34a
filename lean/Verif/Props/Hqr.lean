import Verif.Lib.Post
import Verif.Lib.Array
import Verif.Props.Array
import Verif.Props.Convert
import Verif.Model.Hqr

/-!
# C42, C43, C44: `dlahqr`, trivial inputs, frame and non-termination
-/

namespace Verif
open Scalar

variable {F : Type} [Scalar F]

/-! ### Shapes -/

theorem refl2Rows_shape (lo hi r1 r2 : Int) (v2 t1 t2 : F) (a : FA F) :
    Post (refl2Rows lo hi r1 r2 v2 t1 t2 a) (SameShape a) := by
  unfold refl2Rows
  refine Post.forUp (SameShape.refl a) fun s j _ _ hs => ?_
  refine Post.bind' fun x1 => Post.bind' fun x2 => ?_
  refine Post.bind (set2_shape _ _ _ _) fun b hb => ?_
  exact (modify2_shape _ _ _ _).mono fun c hc => (hs.trans hb).trans hc

theorem refl2Cols_shape (lo hi c1 c2 : Int) (v2 t1 t2 : F) (a : FA F) :
    Post (refl2Cols lo hi c1 c2 v2 t1 t2 a) (SameShape a) := by
  unfold refl2Cols
  refine Post.forUp (SameShape.refl a) fun s j _ _ hs => ?_
  refine Post.bind' fun x1 => Post.bind' fun x2 => ?_
  refine Post.bind (set2_shape _ _ _ _) fun b hb => ?_
  exact (modify2_shape _ _ _ _).mono fun c hc => (hs.trans hb).trans hc

theorem refl3Rows_shape (lo hi r1 r2 r3 : Int) (v2 v3 t1 t2 t3 : F) (a : FA F) :
    Post (refl3Rows lo hi r1 r2 r3 v2 v3 t1 t2 t3 a) (SameShape a) := by
  unfold refl3Rows
  refine Post.forUp (SameShape.refl a) fun s j _ _ hs => ?_
  refine Post.bind' fun x1 => Post.bind' fun x2 => Post.bind' fun x3 => ?_
  refine Post.bind (set2_shape _ _ _ _) fun b hb => ?_
  refine Post.bind (modify2_shape _ _ _ _) fun c hc => ?_
  exact (modify2_shape _ _ _ _).mono fun d hd => ((hs.trans hb).trans hc).trans hd

theorem refl3Cols_shape (lo hi c1 c2 c3 : Int) (v2 v3 t1 t2 t3 : F) (a : FA F) :
    Post (refl3Cols lo hi c1 c2 c3 v2 v3 t1 t2 t3 a) (SameShape a) := by
  unfold refl3Cols
  refine Post.forUp (SameShape.refl a) fun s j _ _ hs => ?_
  refine Post.bind' fun x1 => Post.bind' fun x2 => Post.bind' fun x3 => ?_
  refine Post.bind (set2_shape _ _ _ _) fun b hb => ?_
  refine Post.bind (modify2_shape _ _ _ _) fun c hc => ?_
  exact (modify2_shape _ _ _ _).mono fun d hd => ((hs.trans hb).trans hc).trans hd

theorem hqrClear_shape (ilo ihi : Int) (h : FA F) : Post (hqrClear ilo ihi h) (SameShape h) := by
  unfold hqrClear
  refine Post.bind (P := SameShape h) ?_ fun b hb => ?_
  · refine Post.forUp (SameShape.refl h) fun s j _ _ hs => ?_
    refine Post.bind (set2_shape _ _ _ _) fun b hb => ?_
    exact (set2_shape _ _ _ _).mono fun c hc => (hs.trans hb).trans hc
  · exact Post.ite (fun _ => (set2_shape _ _ _ _).mono fun c hc => hb.trans hc) fun _ => Post.pure hb

theorem hqrStoreCol_shape (m l i k : Int) (t1 : F) (v h : FA F) :
    Post (hqrStoreCol m l i k t1 v h) (SameShape h) := by
  unfold hqrStoreCol
  refine Post.ite (fun _ => ?_) fun _ => Post.ite (fun _ => modify2_shape _ _ _ _) fun _ => Post.pure (SameShape.refl h)
  refine Post.bind (set2_shape _ _ _ _) fun b hb => ?_
  refine Post.bind (set2_shape _ _ _ _) fun c hc => ?_
  exact Post.ite (fun _ => (set2_shape _ _ _ _).mono fun d hd => (hb.trans hc).trans hd)
    fun _ => Post.pure (hb.trans hc)

theorem writeBack_shape (start : Int) (vec : List F) (a : FA F) : Post (writeBack start vec a) (SameShape a) := by
  unfold writeBack
  refine Post.bind' fun n => Post.forUp (SameShape.refl a) fun s j _ _ hs => ?_
  split
  · exact Post.pure (hs.trans (set1_shape _ _ _))
  · exact Post.panic _

/-- What never changes in the pair `(h, z)`. -/
def HZ (wantz : Bool) (h z h' z' : FA F) : Prop :=
  SameShape h h' ∧ SameShape z z' ∧ (wantz = false → z' = z)

theorem HZ.refl (w : Bool) (h z : FA F) : HZ w h z h z := ⟨SameShape.refl h, SameShape.refl z, fun _ => rfl⟩

theorem HZ.trans {w : Bool} {h z h' z' h'' z'' : FA F} (a : HZ w h z h' z') (b : HZ w h' z' h'' z'') :
    HZ w h z h'' z'' :=
  ⟨a.1.trans b.1, a.2.1.trans b.2.1, fun hw => (b.2.2 hw).trans (a.2.2 hw)⟩

theorem hqrChase_hz (p : HqrP F) (m l i i1 i2 : Int) (h z v : FA F) (k : Int) :
    Post (hqrChase p m l i i1 i2 (h, z, v) k) (fun r => HZ p.wantz h z r.1 r.2.1) := by
  unfold hqrChase
  refine Post.bind' fun vt => ?_
  obtain ⟨v, t1⟩ := vt
  refine Post.bind (hqrStoreCol_shape _ _ _ _ _ _ _) fun h1 hh1 => ?_
  refine Post.ite (fun _ => ?_) fun _ => Post.ite (fun _ => ?_) fun _ => ?_
  · refine Post.bind (refl3Rows_shape _ _ _ _ _ _ _ _ _ _ _) fun h2 hh2 => ?_
    refine Post.bind (refl3Cols_shape _ _ _ _ _ _ _ _ _ _ _) fun h3 hh3 => ?_
    refine Post.iteBind (P := fun z' => SameShape z z' ∧ (p.wantz = false → z' = z)) ?_ fun z' hz' => ?_
    · refine Post.ite (fun hw => (refl3Cols_shape _ _ _ _ _ _ _ _ _ _ _).mono fun z' hz' => ⟨hz', fun h => ?_⟩)
        fun _ => Post.pure ⟨SameShape.refl z, fun _ => rfl⟩
      rw [hw] at h; cases h
    · exact Post.pure ⟨(hh1.trans hh2).trans hh3, hz'.1, hz'.2⟩
  · refine Post.bind (refl2Rows_shape _ _ _ _ _ _ _ _) fun h2 hh2 => ?_
    refine Post.bind (refl2Cols_shape _ _ _ _ _ _ _ _) fun h3 hh3 => ?_
    refine Post.iteBind (P := fun z' => SameShape z z' ∧ (p.wantz = false → z' = z)) ?_ fun z' hz' => ?_
    · refine Post.ite (fun hw => (refl2Cols_shape _ _ _ _ _ _ _ _).mono fun z' hz' => ⟨hz', fun h => ?_⟩)
        fun _ => Post.pure ⟨SameShape.refl z, fun _ => rfl⟩
      rw [hw] at h; cases h
    · exact Post.pure ⟨(hh1.trans hh2).trans hh3, hz'.1, hz'.2⟩
  · exact Post.pure ⟨hh1, SameShape.refl z, fun _ => rfl⟩

theorem hqrSweep_post (p : HqrP F) (i : Int) (s : HqrS F) :
    Post (hqrSweep p i s) (fun s' => HZ p.wantz s.h s.z s'.h s'.z ∧ s'.k = s.k ∧ s'.l = s.l) := by
  unfold hqrSweep
  refine Post.bind' fun q => ?_
  obtain ⟨h11, h12, h21, h22⟩ := q
  simp only
  refine Post.bind' fun mv => ?_
  obtain ⟨m, v⟩ := mv
  refine Post.bind (P := fun r => HZ p.wantz s.h s.z r.1 r.2.1) ?_ fun r hr => ?_
  · refine Post.forUp (HZ.refl _ _ _) fun t k _ _ ht => ?_
    obtain ⟨h, z, v⟩ := t
    exact (hqrChase_hz _ _ _ _ _ _ _ _ _ _).mono fun r hr => ht.trans hr
  · obtain ⟨h, z, v⟩ := r
    exact Post.pure ⟨hr, rfl, rfl⟩

/-! ### The search -/

theorem hqrSearch_post (p : HqrP F) (h : FA F) {lo hi : Int} (L : List Int) (k : Int)
    (hL : ∀ x ∈ L, lo + 1 ≤ x ∧ x ≤ hi) (hk : (lo ≤ k ∧ k ≤ hi) ∨ L ≠ []) :
    Post (hqrSearch p h L k) (fun k' => lo ≤ k' ∧ k' ≤ hi) := by
  induction L generalizing k with
  | nil =>
    rcases hk with hk | hk
    · exact Post.pure hk
    · exact absurd rfl hk
  | cons ck rest ih =>
    have h1 := hL ck List.mem_cons_self
    have ih' := ih (ck - 1) (fun x hx => hL x (List.mem_cons_of_mem _ hx)) (Or.inl ⟨by omega, by omega⟩)
    have hck : Post (pure ck : R Int) (fun k' => lo ≤ k' ∧ k' ≤ hi) := Post.pure ⟨by omega, by omega⟩
    unfold hqrSearch
    refine Post.bind' fun a => Post.ite (fun _ => hck) fun _ => ?_
    refine Post.bind' fun b => Post.bind' fun c => ?_
    dsimp only
    repeat' first
      | exact hck
      | exact ih'
      | refine Post.ite (fun _ => ?_) fun _ => ?_
      | refine Post.bind' fun _ => ?_

theorem hqrDeflate_post (p : HqrP F) (i : Int) (s : HqrS F) (h1 : p.ilo ≤ s.l)
    (h2 : s.l < i ∨ (p.ilo ≤ s.k ∧ s.k ≤ i + 1)) :
    Post (hqrDeflate p i s) (fun s' => HZ p.wantz s.h s.z s'.h s'.z ∧ s'.k = s'.l ∧ p.ilo ≤ s'.l ∧ s'.l ≤ i + 1) := by
  unfold hqrDeflate
  refine Post.bind (P := fun k => p.ilo ≤ k ∧ k ≤ i + 1) ?_ fun k hk => ?_
  · by_cases hne : s.l < i
    · refine (hqrSearch_post p s.h (lo := s.l) (hi := i) _ _ ?_ (Or.inr ?_)).mono fun k hk => ⟨by omega, by omega⟩
      · intro x hx
        rw [List.mem_reverse, mem_irange] at hx
        exact hx
      · intro h0
        have : i ∈ (irange (s.l + 1) i).reverse := by rw [List.mem_reverse, mem_irange]; omega
        rw [h0] at this; cases this
    · have h3 : p.ilo ≤ s.k ∧ s.k ≤ i + 1 := by
        rcases h2 with h2 | h2
        · exact absurd h2 hne
        · exact h2
      rw [irange_empty (by omega)]
      exact Post.pure h3
  · refine Post.iteBind (P := SameShape s.h) ?_ fun h hh => ?_
    · exact Post.ite (fun _ => set2_shape _ _ _ _) fun _ => Post.pure (SameShape.refl _)
    · exact Post.pure ⟨⟨hh, SameShape.refl _, fun _ => rfl⟩, rfl, hk⟩

theorem hqrInner_post (p : HqrP F) (i : Int) (rounds its : Nat) (s : HqrS F) (h1 : p.ilo ≤ s.l)
    (h2 : s.l < i ∨ (p.ilo ≤ s.k ∧ s.k ≤ i + 1)) :
    Post (hqrInner p i rounds its s)
      (fun r => HZ p.wantz s.h s.z r.1.h r.1.z ∧ r.1.k = r.1.l ∧ p.ilo ≤ r.1.l ∧ r.1.l ≤ i + 1) := by
  induction rounds generalizing its s with
  | zero =>
    unfold hqrInner
    refine Post.bind (hqrDeflate_post p i s h1 h2) fun s' hs' => ?_
    refine Post.ite (fun _ => Post.pure hs') fun _ => ?_
    refine Post.bind (hqrSweep_post p i s') fun s'' hs'' => Post.pure ?_
    refine ⟨hs'.1.trans hs''.1, ?_, ?_⟩
    · show s''.k = s''.l
      rw [hs''.2.1, hs''.2.2]; exact hs'.2.1
    · show p.ilo ≤ s''.l ∧ s''.l ≤ i + 1
      rw [hs''.2.2]; exact hs'.2.2
  | succ n ih =>
    unfold hqrInner
    refine Post.bind (hqrDeflate_post p i s h1 h2) fun s' hs' => ?_
    refine Post.ite (fun _ => Post.pure hs') fun hlt => ?_
    refine Post.bind (hqrSweep_post p i s') fun s'' hs'' => ?_
    refine (ih (its + 1) s'' ?_ (Or.inl ?_)).mono fun r hr => ⟨(hs'.1.trans hs''.1).trans hr.1, hr.2⟩
    · rw [hs''.2.2]; exact hs'.2.2.1
    · rw [hs''.2.2]; omega

/-! ### The record of the eigenvalues -/

/-- What never changes in the four arrays. -/
structure HqrFrame (wantz : Bool) (ilo ihi : Int) (a b : HqrA F) : Prop where
  hz : HZ wantz a.h a.z b.h b.z
  wr : SameShape a.wr b.wr
  wi : SameShape a.wi b.wi
  wrSame : ∀ k : Nat, ((k : Int) + 1 < ilo ∨ ihi < k + 1) → b.wr.data[k]? = a.wr.data[k]?
  wiSame : ∀ k : Nat, ((k : Int) + 1 < ilo ∨ ihi < k + 1) → b.wi.data[k]? = a.wi.data[k]?

theorem HqrFrame.refl (w : Bool) (ilo ihi : Int) (a : HqrA F) : HqrFrame w ilo ihi a a :=
  ⟨HZ.refl _ _ _, SameShape.refl _, SameShape.refl _, fun _ _ => rfl, fun _ _ => rfl⟩

theorem HqrFrame.trans {w : Bool} {ilo ihi : Int} {a b c : HqrA F} (h : HqrFrame w ilo ihi a b)
    (h' : HqrFrame w ilo ihi b c) : HqrFrame w ilo ihi a c :=
  ⟨h.hz.trans h'.hz, h.wr.trans h'.wr, h.wi.trans h'.wi,
    fun k hk => (h'.wrSame k hk).trans (h.wrSame k hk), fun k hk => (h'.wiSame k hk).trans (h.wiSame k hk)⟩

theorem hqrRotH_shape (p : HqrP F) (i : Int) (cs sn : F) (h : FA F) : Post (hqrRotH p i cs sn h) (SameShape h) := by
  have rest : ∀ h1 : FA F, SameShape h h1 → Post (do
      let h10 ← h1.from2 1 (i - 1)
      let h11 ← h1.from2 1 i
      let _ ← drot (i - 1 - 1) h10 1 h11 1 cs sn
      let i10 ← h1.idx 1 (i - 1)
      let i11 ← h1.idx 1 i
      let h ← writeBack i10 h10 h1
      writeBack i11 h11 h) (SameShape h) := by
    intro h1 hh1
    refine Post.bind' fun h10 => Post.bind' fun h11 => Post.bind' fun _ => Post.bind' fun i10 => Post.bind' fun i11 => ?_
    refine Post.bind (writeBack_shape _ _ _) fun b hb => ?_
    exact (writeBack_shape _ _ _).mono fun c hc => (hh1.trans hb).trans hc
  unfold hqrRotH
  dsimp only
  refine Post.ite (fun _ => ?_) fun _ => rest h (SameShape.refl h)
  refine Post.bind' fun h02 => Post.bind' fun h12 => Post.bind' fun q => ?_
  refine Post.bind' fun i02 => Post.bind' fun i12 => ?_
  refine Post.bind (writeBack_shape _ _ _) fun b hb => ?_
  refine Post.bind (writeBack_shape _ _ _) fun c hc => ?_
  exact rest c (hb.trans hc)

theorem hqrRotZ_shape (p : HqrP F) (i : Int) (cs sn : F) (z : FA F) : Post (hqrRotZ p i cs sn z) (SameShape z) := by
  unfold hqrRotZ
  refine Post.bind' fun z00 => Post.bind' fun z01 => Post.bind' fun q => ?_
  obtain ⟨z00, z01⟩ := q
  refine Post.bind' fun i00 => Post.bind' fun i01 => ?_
  refine Post.bind (writeBack_shape _ _ _) fun b hb => ?_
  exact (writeBack_shape _ _ _).mono fun c hc => hb.trans hc

theorem hqrTwo_frame (p : HqrP F) (i : Int) (a : HqrA F) (h1 : p.ilo ≤ i - 1) (h2 : i ≤ p.ihi)
    (hlo : FitsI32 p.ilo) (hhi : FitsI32 p.ihi) (hwr : a.wr.data.length < 2 ^ 63) (hwi : a.wi.data.length < 2 ^ 63) :
    Post (hqrTwo p i a) (HqrFrame p.wantz p.ilo p.ihi a) := by
  have f1 : FitsI32 i := by rw [fits_iff] at *; omega
  have f2 : FitsI32 (i - 1) := by rw [fits_iff] at *; omega
  unfold hqrTwo
  refine Post.bind' fun x11 => Post.bind' fun x12 => Post.bind' fun x21 => Post.bind' fun x22 => ?_
  refine Post.bind (set2_shape _ _ _ _) fun b1 hb1 => ?_
  refine Post.bind (set2_shape _ _ _ _) fun b2 hb2 => ?_
  refine Post.bind (set2_shape _ _ _ _) fun b3 hb3 => ?_
  refine Post.bind (set2_shape _ _ _ _) fun b4 hb4 => ?_
  simp only
  refine Post.iteBind (P := SameShape b4) ?_ fun b5 hb5 => ?_
  · exact Post.ite (fun _ => hqrRotH_shape _ _ _ _ _) fun _ => Post.pure (SameShape.refl _)
  refine Post.iteBind (P := fun z' => SameShape a.z z' ∧ (p.wantz = false → z' = a.z)) ?_ fun z' hz' => ?_
  · refine Post.ite (fun hw => (hqrRotZ_shape _ _ _ _ _).mono fun z' hz' => ⟨hz', fun h => ?_⟩)
      fun _ => Post.pure ⟨SameShape.refl _, fun _ => rfl⟩
    rw [hw] at h; cases h
  refine Post.pure ⟨⟨(((hb1.trans hb2).trans hb3).trans hb4).trans hb5, hz'.1, hz'.2⟩,
    (set1_shape _ _ _).trans (set1_shape _ _ _), (set1_shape _ _ _).trans (set1_shape _ _ _), fun k hk => ?_, fun k hk => ?_⟩
  · simp only
    rw [set1_frame _ _ _ f1 (by rw [← (set1_shape _ _ _).2.2]; exact hwr) _ (by omega),
      set1_frame _ _ _ f2 hwr _ (by omega)]
  · simp only
    rw [set1_frame _ _ _ f1 (by rw [← (set1_shape _ _ _).2.2]; exact hwi) _ (by omega),
      set1_frame _ _ _ f2 hwi _ (by omega)]

theorem hqrRecord_frame (p : HqrP F) (i l : Int) (a : HqrA F) (h0 : p.ilo ≤ l) (h1 : p.ilo ≤ i) (h2 : i ≤ p.ihi)
    (hlo : FitsI32 p.ilo) (hhi : FitsI32 p.ihi) (hwr : a.wr.data.length < 2 ^ 63) (hwi : a.wi.data.length < 2 ^ 63) :
    Post (hqrRecord p i l a) (HqrFrame p.wantz p.ilo p.ihi a) := by
  have f1 : FitsI32 i := by rw [fits_iff] at *; omega
  unfold hqrRecord
  refine Post.ite (fun _ => ?_) fun _ => Post.ite (fun hl => ?_) fun _ => Post.pure (HqrFrame.refl _ _ _ a)
  · refine Post.bind' fun x => Post.pure ⟨HZ.refl _ _ _, set1_shape _ _ _, set1_shape _ _ _, fun k hk => ?_, fun k hk => ?_⟩
    · exact set1_frame _ _ _ f1 hwr _ (by omega)
    · exact set1_frame _ _ _ f1 hwi _ (by omega)
  · exact hqrTwo_frame p i a (by omega) h2 hlo hhi hwr hwi

theorem hqrOuter_frame (p : HqrP F) (fuel : Nat) (a : HqrA F) (v : FA F) (m k i : Int) (h2 : i ≤ p.ihi)
    (hk : i ≤ k ∧ k ≤ i + 1) (hlo : FitsI32 p.ilo) (hhi : FitsI32 p.ihi)
    (hwr : a.wr.data.length < 2 ^ 63) (hwi : a.wi.data.length < 2 ^ 63) :
    Post (hqrOuter p fuel a v m k i)
      (fun r => HqrFrame p.wantz p.ilo p.ihi a r.1 ∧ (r.2 = 0 ∨ (p.ilo ≤ r.2 ∧ r.2 ≤ p.ihi))) := by
  induction fuel generalizing a v m k i with
  | zero => exact Post.timeout
  | succ n ih =>
    unfold hqrOuter
    refine Post.ite (fun _ => Post.pure ⟨HqrFrame.refl _ _ _ _, Or.inl rfl⟩) fun hi => ?_
    refine Post.bind (hqrInner_post p i p.itmax 0 _ (le_refl _) ?_) fun r hr => ?_
    · show p.ilo < i ∨ (p.ilo ≤ k ∧ k ≤ i + 1)
      omega
    obtain ⟨s, its⟩ := r
    have fr : HqrFrame p.wantz p.ilo p.ihi a { a with h := s.h, z := s.z } :=
      ⟨hr.1, SameShape.refl _, SameShape.refl _, fun _ _ => rfl, fun _ _ => rfl⟩
    refine Post.ite (fun _ => Post.pure ⟨fr, Or.inr ⟨by omega, h2⟩⟩) fun _ => ?_
    refine Post.bind (hqrRecord_frame p i s.l { a with h := s.h, z := s.z } hr.2.2.1 (by omega) h2 hlo hhi hwr hwi) fun b hb => ?_
    have hl := hr.2.2.2
    have hkl := hr.2.1
    simp only at hl hkl
    refine (ih b s.v s.m s.k (s.l - 1) (by omega) (by omega) ?_ ?_).mono fun r hr => ⟨(fr.trans hb).trans hr.1, hr.2⟩
    · rw [← hb.wr.2.2]; exact hwr
    · rw [← hb.wi.2.2]; exact hwi

theorem hqrMain_frame (fuel : Nat) (wantt wantz : Bool) (n ilo ihi ldh iloz ihiz : Int) (a : HqrA F)
    (hlo : FitsI32 ilo) (hhi : FitsI32 ihi)
    (hwr : a.wr.data.length < 2 ^ 63) (hwi : a.wi.data.length < 2 ^ 63) :
    Post (hqrMain fuel wantt wantz n ilo ihi ldh iloz ihiz a)
      (fun r => HqrFrame wantz ilo ihi a r.1 ∧ (r.2 = 0 ∨ (ilo ≤ r.2 ∧ r.2 ≤ ihi))) := by
  unfold hqrMain
  refine Post.bind (hqrClear_shape _ _ _) fun h hh => ?_
  refine (hqrOuter_frame (hqrParams wantt wantz n ilo ihi ldh iloz ihiz) fuel { a with h := h } _ _ _ _
    (le_refl _) ⟨le_refl _, by omega⟩ hlo hhi hwr hwi).mono fun r hr => ⟨?_, hr.2⟩
  exact HqrFrame.trans (b := { a with h := h })
    ⟨⟨hh, SameShape.refl _, fun _ => rfl⟩, SameShape.refl _, SameShape.refl _, fun _ _ => rfl, fun _ _ => rfl⟩ hr.1

/-! ### C42: trivial inputs -/

section containers
variable {H WR WI Z : Type} [ToFA F H] [FromFA F H] [ToFA F WR] [FromFA F WR] [ToFA F WI] [FromFA F WI]
  [ToFA F Z] [FromFA F Z]

/-- **C42.** An empty matrix: nothing changes and `info = 0`, for every kind of container. -/
theorem C42_dlahqr_empty (fuel : Nat) (wantt wantz : Bool) (ilo ihi : Int) (h : H) (ldh : Int) (wr : WR) (wi : WI)
    (iloz ihiz : Int) (z : Z) (ldz : Int) :
    dlahqr (F := F) fuel wantt wantz 0 ilo ihi h ldh wr wi iloz ihiz z ldz = pure ⟨h, wr, wi, z, 0⟩ := by
  unfold dlahqr
  rw [if_pos rfl]

theorem set1_data (v : List F) (i : Nat) (h1 : 1 ≤ i) (hi : i < 2 ^ 31) (x : F) :
    ((ToFA.toFa (F := F) v).set1 i x).data = v.set (i - 1) x := by
  unfold FA.set1 FA.modify1
  rw [if_neg (by omega), asUsize_nonneg (by omega) (by rw [fits_iff]; omega), Int.toNat_natCast]
  show FA.data (match v[i - 1]? with | some _ => _ | none => _) = _
  by_cases hlt : i - 1 < v.length
  · rw [List.getElem?_eq_getElem hlt]; rfl
  · rw [List.getElem?_eq_none (by omega), List.set_eq_of_length_le (by omega)]; rfl

/-- **C42.** A one-by-one active block (`FortranArray` matrix, `Vec` eigenvalues): the diagonal element `(i, i)`
becomes eigenvalue number `i`, and nothing else changes. -/
theorem C42_dlahqr_one (fuel : Nat) (wantt wantz : Bool) (n : Int) (hn : n ≠ 0) (i : Nat) (h : FA F) (r c : Nat)
    (hh : IsMatrix h r c) (h1 : 1 ≤ i) (h2 : i ≤ r) (h3 : i ≤ c) (ldh : Int) (wr wi : List F)
    (iloz ihiz : Int) (z : Z) (ldz : Int) :
    dlahqr (F := F) fuel wantt wantz n i i h ldh wr wi iloz ihiz z ldz =
      pure ⟨h, wr.set (i - 1) (h.data[(i - 1) * r + (i - 1)]'(by
        rw [hh.length]
        calc (i - 1) * r + (i - 1) < (i - 1) * r + r := by omega
          _ = (i - 1 + 1) * r := by ring
          _ ≤ r * c := by rw [Nat.mul_comm r c]; exact Nat.mul_le_mul_right _ (by omega))),
        wi.set (i - 1) zero, z, 0⟩ := by
  unfold dlahqr
  have hri : i < 2 ^ 31 := by
    have := hh.small
    have : i * 1 ≤ r * c := Nat.mul_le_mul h2 (by omega)
    omega
  rw [if_neg hn]
  simp only
  rw [if_pos trivial]
  show ((h.get2 i i) >>= _) = _
  rw [C03_read hh (by omega) (by omega) (by omega) (by omega), pure_bind]
  have e : (((i : Int) - 1) * r + (i - 1)).toNat = (i - 1) * r + (i - 1) := by
    have h0 : ((i : Int) - 1) = ((i - 1 : Nat) : Int) := by omega
    rw [h0]
    exact_mod_cast Int.toNat_natCast ((i - 1) * r + (i - 1))
  simp only [FromFA.fromFa, pure_bind, set1_data _ i h1 hri, e]

end containers

/-- The hypotheses of `C42_dlahqr_one` are met by a `2×2` matrix. -/
example (a b c d : F) : IsMatrix (⟨[a, b, c, d], 2, 2, nan⟩ : FA F) 2 2 := ⟨rfl, rfl, rfl, by norm_num⟩

/-! ### C43: frame -/

theorem faOfVec_sameShape {v w : List F} (e : v.length = w.length) : SameShape (faOfVec v) (faOfVec w) := by
  refine ⟨?_, rfl, e⟩
  unfold faOfVec
  simp only [e]

theorem HqrFrame.toVec {wantz : Bool} {ilo ihi : Int} {h z : FA F} {wr wi : List F} {b : HqrA F}
    (hb : HqrFrame wantz ilo ihi ⟨h, faOfVec wr, faOfVec wi, z⟩ b) :
    HqrFrame wantz ilo ihi ⟨h, faOfVec wr, faOfVec wi, z⟩ ⟨b.h, faOfVec b.wr.data, faOfVec b.wi.data, b.z⟩ := by
  have e1 : wr.length = b.wr.data.length := hb.wr.2.2
  have e2 : wi.length = b.wi.data.length := hb.wi.2.2
  obtain ⟨hz, h1, h2, h3, h4⟩ := hb
  have d (v : List F) : (faOfVec v).data = v := rfl
  refine ⟨hz, faOfVec_sameShape e1, faOfVec_sameShape e2, ?_, ?_⟩
  · simp only [d] at h3 ⊢; exact h3
  · simp only [d] at h4 ⊢; exact h4

/-- **C43.** Whenever `dlahqr` returns (in either profile, after any number of iterations, for any arithmetic):
the shapes of `h` and `z` and the lengths of `wr` and `wi` are unchanged; entries of `wr` and `wi` outside
`ilo..ihi` are unchanged; without `wantz` the whole of `z` is unchanged; and `info` is 0 or between `ilo`
and `ihi`. -/
theorem C43_dlahqr_frame (fuel : Nat) (wantt wantz : Bool) (n ilo ihi : Int) (h : FA F) (ldh : Int)
    (wr wi : List F) (iloz ihiz : Int) (z : FA F) (ldz : Int) (hlo : FitsI32 ilo) (hhi : FitsI32 ihi)
    (hwr : wr.length < 2 ^ 63) (hwi : wi.length < 2 ^ 63) (p : Profile) (r : HqrRet (FA F) (List F) (List F) (FA F))
    (hr : dlahqr (F := F) fuel wantt wantz n ilo ihi h ldh wr wi iloz ihiz z ldz p = .ok r) :
    (r.h.rows = h.rows ∧ r.h.cols = h.cols ∧ r.h.data.length = h.data.length) ∧
    (r.z.rows = z.rows ∧ r.z.cols = z.cols ∧ r.z.data.length = z.data.length) ∧
    (wantz = false → r.z = z) ∧ r.wr.length = wr.length ∧ r.wi.length = wi.length ∧
    (∀ k : Nat, ((k : Int) + 1 < ilo ∨ ihi < k + 1) → r.wr[k]? = wr[k]? ∧ r.wi[k]? = wi[k]?) ∧
    (r.info = 0 ∨ (ilo ≤ r.info ∧ r.info ≤ ihi)) := by
  have key : Post (dlahqr (F := F) fuel wantt wantz n ilo ihi h ldh wr wi iloz ihiz z ldz) (fun r =>
      HqrFrame wantz ilo ihi ⟨h, faOfVec wr, faOfVec wi, z⟩ ⟨r.h, faOfVec r.wr, faOfVec r.wi, r.z⟩ ∧
      (r.info = 0 ∨ (ilo ≤ r.info ∧ r.info ≤ ihi))) := by
    have conv : ∀ (b : HqrA F), HqrFrame wantz ilo ihi ⟨h, faOfVec wr, faOfVec wi, z⟩ b →
        HqrFrame wantz ilo ihi ⟨h, faOfVec wr, faOfVec wi, z⟩ ⟨b.h, faOfVec b.wr.data, faOfVec b.wi.data, b.z⟩ := by
      intro b hb
      exact hb.toVec
    unfold dlahqr
    refine Post.ite (fun _ => Post.pure ⟨HqrFrame.refl _ _ _ _, Or.inl rfl⟩) fun _ => ?_
    refine Post.ite (fun he => ?_) fun _ => ?_
    · refine Post.bind' fun x => Post.pure ⟨conv ⟨h, _, _, z⟩ ?_, Or.inl rfl⟩
      exact ⟨HZ.refl _ _ _, set1_shape _ _ _, set1_shape _ _ _,
        fun k hk => set1_frame _ _ _ hlo hwr _ (by omega), fun k hk => set1_frame _ _ _ hlo hwi _ (by omega)⟩
    · refine Post.bind (hqrMain_frame fuel wantt wantz n ilo ihi ldh iloz ihiz
        ⟨h, faOfVec wr, faOfVec wi, z⟩ hlo hhi hwr hwi) fun q hq => ?_
      obtain ⟨b, info⟩ := q
      exact Post.pure ⟨conv b hq.1, hq.2⟩
  obtain ⟨k, hinfo⟩ := key p r hr
  refine ⟨⟨k.hz.1.1.symm, k.hz.1.2.1.symm, k.hz.1.2.2.symm⟩, ⟨k.hz.2.1.1.symm, k.hz.2.1.2.1.symm, k.hz.2.1.2.2.symm⟩,
    k.hz.2.2, k.wr.2.2.symm, k.wi.2.2.symm, fun j hj => ⟨k.wrSame j hj, k.wiSame j hj⟩, hinfo⟩

end Verif
