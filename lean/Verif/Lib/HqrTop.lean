import Verif.Props.Hqr
import Verif.Lib.HqrRot

/-!
# What a QR sweep of `dlahqr` on rows `l..i` leaves alone, and a search that always stops above the first row

Any scalar arithmetic.
-/

namespace Verif
open Scalar

variable {F : Type} [Scalar F]

/-- Same shape, and the same elements at the first `b` positions. -/
def Below (b : Int) (h h' : FA F) : Prop := SameShape h h' ∧ ∀ q : Nat, (q : Int) < b → h'.data[q]? = h.data[q]?

theorem Below.refl (b : Int) (h : FA F) : Below b h h := ⟨SameShape.refl h, fun _ _ => rfl⟩

theorem Below.trans {b : Int} {h h' h'' : FA F} (x : Below b h h') (y : Below b h' h'') : Below b h h'' :=
  ⟨x.1.trans y.1, fun q hq => (y.2 q hq).trans (x.2 q hq)⟩

theorem Below.mono {b b' : Int} {h h' : FA F} (x : Below b h h') (hb : b' ≤ b) : Below b' h h' :=
  ⟨x.1, fun q hq => x.2 q (by omega)⟩

/-- An array of `r` rows and `c` columns, its number of elements being in the range of `i32`. -/
structure HqrShape (h : FA F) (r c : Nat) : Prop where
  rows : h.rows = r
  cols : h.cols = c
  length : h.data.length = r * c
  small : r * c < 2 ^ 31

theorem HqrShape.same {h h' : FA F} {r c : Nat} (x : HqrShape h r c) (y : SameShape h h') : HqrShape h' r c :=
  ⟨y.1.symm.trans x.rows, y.2.1.symm.trans x.cols, y.2.2.symm.trans x.length, x.small⟩

section
variable {r c : Nat}

/-- The offset of row `a` (0 allowed) and column `b`. -/
theorem off_top {h : FA F} (hs : HqrShape h r c) {a b : Int} (a0 : 0 ≤ a) (a1 : a ≤ r) (b1 : 1 ≤ b) (b2 : b ≤ c) (hr : 1 ≤ r) :
    h.off a b = pure ((b - 1) * r + (a - 1)) := by
  have e : (b - 1) * (r : Int) + r = b * r := by ring
  have e2 : b * (r : Int) ≤ c * r := Int.mul_le_mul_of_nonneg_right b2 (by omega)
  have e3 : (r : Int) * c < 2147483648 := by exact_mod_cast hs.small
  have e4 : (c : Int) * r = r * c := by ring
  have e5 : 0 ≤ (b - 1) * (r : Int) := Int.mul_nonneg (by omega) (by omega)
  have e6 : b * 1 ≤ b * (r : Int) := Int.mul_le_mul_of_nonneg_left (by omega) (by omega)
  unfold FA.off
  rw [isub_ok (by unfold FitsI32; omega), isub_ok (by unfold FitsI32; omega), hs.rows]
  simp only [pure_bind]
  rw [imul_ok (by unfold FitsI32; omega)]
  simp only [pure_bind]
  rw [iadd_ok (by unfold FitsI32; omega)]

theorem modify2_below {h : FA F} (hs : HqrShape h r c) {a b : Int} (a0 : 0 ≤ a) (a1 : a ≤ r) (b1 : 1 ≤ b) (b2 : b ≤ c) (hr : 1 ≤ r) {bd : Int}
    (h0 : 0 ≤ bd) (hb : bd ≤ (b - 1) * r + (a - 1)) (f : F → F) : Post (h.modify2 a b f) (Below bd h) := by
  refine (modify2_shape h a b f).and ?_
  unfold FA.modify2
  rw [off_top hs a0 a1 b1 b2 hr]
  simp only [pure_bind]
  have e : (b - 1) * (r : Int) + r = b * r := by ring
  have e2 : b * (r : Int) ≤ c * r := Int.mul_le_mul_of_nonneg_right b2 (by omega)
  have e3 : (r : Int) * c < 2147483648 := by exact_mod_cast hs.small
  have e4 : (c : Int) * r = r * c := by ring
  refine Post.pure fun q hq => ?_
  split
  · simp only
    rw [asUsize_nonneg (by omega) (by rw [fits_iff]; omega), List.getElem?_set_ne (by omega)]
  · rfl

theorem set2_below {h : FA F} (hs : HqrShape h r c) {a b : Int} (a0 : 0 ≤ a) (a1 : a ≤ r) (b1 : 1 ≤ b) (b2 : b ≤ c) (hr : 1 ≤ r) {bd : Int}
    (h0 : 0 ≤ bd) (hb : bd ≤ (b - 1) * r + (a - 1)) (x : F) : Post (h.set2 a b x) (Below bd h) := modify2_below hs a0 a1 b1 b2 hr h0 hb _

/-- Columns `l` and later, rows from 0. -/
theorem bd_le {l a b : Int} (a0 : 0 ≤ a) (hl : l ≤ b) : (l - 1) * (r : Int) - 1 ≤ (b - 1) * r + (a - 1) := by
  have : (l - 1) * (r : Int) ≤ (b - 1) * r := Int.mul_le_mul_of_nonneg_right (by omega) (by omega)
  omega

theorem bd_nonneg {l : Int} (hl : 2 ≤ l) (hr : 1 ≤ r) : 0 ≤ (l - 1) * (r : Int) - 1 := by
  have : 1 * (r : Int) ≤ (l - 1) * r := Int.mul_le_mul_of_nonneg_right (by omega) (by omega)
  omega

variable {l i N : Int}

theorem refl2Rows_below {lo hi r1 r2 : Int} {v2 t1 t2 : F} {h : FA F} (hs : HqrShape h r c) (hr : 1 ≤ r) (hl : 2 ≤ l) (hlo : l ≤ lo) (hhi : hi ≤ c)
    (q1 : 0 ≤ r1) (q1' : r1 ≤ r) (q2 : 0 ≤ r2) (q2' : r2 ≤ r) :
    Post (refl2Rows lo hi r1 r2 v2 t1 t2 h) (Below ((l - 1) * (r : Int) - 1) h) := by
  unfold refl2Rows
  refine Post.forUp (Below.refl _ h) fun s j j1 j2 hb => ?_
  refine Post.bind' fun x1 => Post.bind' fun x2 => ?_
  have s0 := hs.same hb.1
  refine Post.bind (set2_below s0 q1 q1' (by omega) (by omega) hr (bd_nonneg hl hr) (bd_le q1 (by omega)) _) fun b hb1 => ?_
  have s1 := s0.same hb1.1
  exact (modify2_below s1 q2 q2' (by omega) (by omega) hr (bd_nonneg hl hr) (bd_le q2 (by omega)) _).mono fun d hb2 => (hb.trans hb1).trans hb2

theorem refl2Cols_below {lo hi c1 c2 : Int} {v2 t1 t2 : F} {h : FA F} (hs : HqrShape h r c) (hr : 1 ≤ r) (hl : 2 ≤ l) (hlo : 0 ≤ lo) (hhi : hi ≤ r)
    (q1 : l ≤ c1) (q1' : c1 ≤ c) (q2 : l ≤ c2) (q2' : c2 ≤ c) :
    Post (refl2Cols lo hi c1 c2 v2 t1 t2 h) (Below ((l - 1) * (r : Int) - 1) h) := by
  unfold refl2Cols
  refine Post.forUp (Below.refl _ h) fun s j j1 j2 hb => ?_
  refine Post.bind' fun x1 => Post.bind' fun x2 => ?_
  have s0 := hs.same hb.1
  refine Post.bind (set2_below s0 (by omega) (by omega) (by omega) q1' hr (bd_nonneg hl hr) (bd_le (by omega) (by omega)) _) fun b hb1 => ?_
  have s1 := s0.same hb1.1
  exact (modify2_below s1 (by omega) (by omega) (by omega) q2' hr (bd_nonneg hl hr) (bd_le (by omega) (by omega)) _).mono fun d hb2 => (hb.trans hb1).trans hb2

theorem refl3Rows_below {lo hi r1 r2 r3 : Int} {v2 v3 t1 t2 t3 : F} {h : FA F} (hs : HqrShape h r c) (hr : 1 ≤ r) (hl : 2 ≤ l) (hlo : l ≤ lo) (hhi : hi ≤ c)
    (q1 : 0 ≤ r1) (q1' : r1 ≤ r) (q2 : 0 ≤ r2) (q2' : r2 ≤ r) (q3 : 0 ≤ r3) (q3' : r3 ≤ r) :
    Post (refl3Rows lo hi r1 r2 r3 v2 v3 t1 t2 t3 h) (Below ((l - 1) * (r : Int) - 1) h) := by
  unfold refl3Rows
  refine Post.forUp (Below.refl _ h) fun s j j1 j2 hb => ?_
  refine Post.bind' fun x1 => Post.bind' fun x2 => Post.bind' fun x3 => ?_
  have s0 := hs.same hb.1
  refine Post.bind (set2_below s0 q1 q1' (by omega) (by omega) hr (bd_nonneg hl hr) (bd_le q1 (by omega)) _) fun b hb1 => ?_
  have s1 := s0.same hb1.1
  refine Post.bind (modify2_below s1 q2 q2' (by omega) (by omega) hr (bd_nonneg hl hr) (bd_le q2 (by omega)) _) fun b' hb2 => ?_
  have s2 := s1.same hb2.1
  exact (modify2_below s2 q3 q3' (by omega) (by omega) hr (bd_nonneg hl hr) (bd_le q3 (by omega)) _).mono fun d hb3 => ((hb.trans hb1).trans hb2).trans hb3

theorem refl3Cols_below {lo hi c1 c2 c3 : Int} {v2 v3 t1 t2 t3 : F} {h : FA F} (hs : HqrShape h r c) (hr : 1 ≤ r) (hl : 2 ≤ l) (hlo : 0 ≤ lo) (hhi : hi ≤ r)
    (q1 : l ≤ c1) (q1' : c1 ≤ c) (q2 : l ≤ c2) (q2' : c2 ≤ c) (q3 : l ≤ c3) (q3' : c3 ≤ c) :
    Post (refl3Cols lo hi c1 c2 c3 v2 v3 t1 t2 t3 h) (Below ((l - 1) * (r : Int) - 1) h) := by
  unfold refl3Cols
  refine Post.forUp (Below.refl _ h) fun s j j1 j2 hb => ?_
  refine Post.bind' fun x1 => Post.bind' fun x2 => Post.bind' fun x3 => ?_
  have s0 := hs.same hb.1
  refine Post.bind (set2_below s0 (by omega) (by omega) (by omega) q1' hr (bd_nonneg hl hr) (bd_le (by omega) (by omega)) _) fun b hb1 => ?_
  have s1 := s0.same hb1.1
  refine Post.bind (modify2_below s1 (by omega) (by omega) (by omega) q2' hr (bd_nonneg hl hr) (bd_le (by omega) (by omega)) _) fun b' hb2 => ?_
  have s2 := s1.same hb2.1
  exact (modify2_below s2 (by omega) (by omega) (by omega) q3' hr (bd_nonneg hl hr) (bd_le (by omega) (by omega)) _).mono fun d hb3 => ((hb.trans hb1).trans hb2).trans hb3

theorem hqrStoreCol_below {m k : Int} {t1 : F} {v h : FA F} (hs : HqrShape h r c) (hr : 1 ≤ r) (hl : 2 ≤ l) (hm : l ≤ m) (hk : m ≤ k) (hki : k ≤ i - 1)
    (hir : i ≤ r) (hic : i ≤ c) : Post (hqrStoreCol m l i k t1 v h) (Below ((l - 1) * (r : Int) - 1) h) := by
  unfold hqrStoreCol
  refine Post.ite (fun hc => ?_) fun _ => Post.ite (fun hc => ?_) fun _ => Post.pure (Below.refl _ h)
  · refine Post.bind (set2_below hs (by omega) (by omega) (by omega) (by omega) hr (bd_nonneg hl hr) (bd_le (by omega) (by omega)) _) fun b hb1 => ?_
    have s1 := hs.same hb1.1
    refine Post.bind (set2_below s1 (by omega) (by omega) (by omega) (by omega) hr (bd_nonneg hl hr) (bd_le (by omega) (by omega)) _) fun b hb2 => ?_
    have s2 := s1.same hb2.1
    exact Post.ite (fun hc => (set2_below s2 (by omega) (by omega) (by omega) (by omega) hr (bd_nonneg hl hr) (bd_le (by omega) (by omega)) _).mono fun d hd => (hb1.trans hb2).trans hd)
      fun _ => Post.pure (hb1.trans hb2)
  · exact modify2_below hs (by omega) (by omega) (by omega) (by omega) hr (bd_nonneg hl hr) (bd_le (by omega) (by omega)) _

theorem hqrChase_below {p : HqrP F} {m i1 i2 k : Int} {h z v : FA F} (hs : HqrShape h r c) (hr : 1 ≤ r) (hl : 2 ≤ l) (hm : l ≤ m) (hk : m ≤ k) (hki : k ≤ i - 1)
    (hir : i ≤ r) (hic : i ≤ c) (h1 : 0 ≤ i1) (h2 : i2 ≤ i) :
    Post (hqrChase p m l i i1 i2 (h, z, v) k) (fun q => Below ((l - 1) * (r : Int) - 1) h q.1) := by
  unfold hqrChase
  refine Post.bind' fun vt => ?_
  obtain ⟨v, t1⟩ := vt
  refine Post.bind (hqrStoreCol_below hs hr hl hm hk hki hir hic) fun h1 hh1 => ?_
  have s1 := hs.same hh1.1
  refine Post.ite (fun hn => ?_) fun _ => Post.ite (fun hn => ?_) fun _ => ?_
  · refine Post.bind (refl3Rows_below s1 hr hl (by omega) (by omega) (by omega) (by omega) (by omega) (by omega) (by omega) (by omega)) fun h2 hh2 => ?_
    have s2 := s1.same hh2.1
    refine Post.bind (refl3Cols_below s2 hr hl (by omega) (by omega) (by omega) (by omega) (by omega) (by omega) (by omega) (by omega)) fun h3 hh3 => ?_
    exact Post.iteBind (Post.trivial _) fun z' _ => Post.pure ((hh1.trans hh2).trans hh3)
  · refine Post.bind (refl2Rows_below s1 hr hl (by omega) (by omega) (by omega) (by omega) (by omega) (by omega)) fun h2 hh2 => ?_
    have s2 := s1.same hh2.1
    refine Post.bind (refl2Cols_below s2 hr hl (by omega) (by omega) (by omega) (by omega) (by omega) (by omega)) fun h3 hh3 => ?_
    exact Post.iteBind (Post.trivial _) fun z' _ => Post.pure ((hh1.trans hh2).trans hh3)
  · exact Post.pure hh1

theorem hqrStart_range (p : HqrP F) (h : FA F) (rt1r rt1i rt2r rt2i : F) (lo hi : Int) (L : List Int) (v : FA F) (m : Int)
    (hL : ∀ x ∈ L, lo ≤ x ∧ x ≤ hi) (hm : (lo ≤ m ∧ m ≤ hi) ∨ L ≠ []) :
    Post (hqrStart p h rt1r rt1i rt2r rt2i l L v m) fun q => lo ≤ q.1 ∧ q.1 ≤ hi := by
  induction L generalizing v m with
  | nil =>
    rcases hm with hm | hm
    · exact Post.pure hm
    · exact absurd rfl hm
  | cons x rest ih =>
    have h1 := hL x List.mem_cons_self
    unfold hqrStart
    refine Post.bind' fun v => Post.ite (fun _ => Post.pure h1) fun _ => ?_
    refine Post.bind' fun a => Post.bind' fun b => Post.bind' fun d => Post.bind' fun e => ?_
    exact Post.ite (fun _ => Post.pure h1) fun _ => ih _ _ (fun y hy => hL y (List.mem_cons_of_mem _ hy)) (Or.inl h1)

/-- **A sweep on rows `l..i` does not touch the columns before `l`** (except possibly the last element of column `l - 1`). -/
theorem hqrSweep_below {p : HqrP F} {s : HqrS F} (hs : HqrShape s.h r c) (hr : 1 ≤ r) (hl : 2 ≤ s.l) (hli : s.l < i - 1) (hir : i ≤ r) (hic : i ≤ c) :
    Post (hqrSweep p i s) fun s' => Below ((s.l - 1) * (r : Int) - 1) s.h s'.h ∧ s'.k = s.k ∧ s'.l = s.l := by
  unfold hqrSweep
  refine Post.bind' fun q => ?_
  obtain ⟨h11, h12, h21, h22⟩ := q
  simp only
  refine Post.bind (hqrStart_range p s.h _ _ _ _ s.l (i - 2) _ _ _ (fun x hx => ?_) (Or.inr fun h0 => ?_)) fun mv hmv => ?_
  · rw [List.mem_reverse, mem_irange] at hx; exact hx
  · have : s.l ∈ (irange s.l (i - 2)).reverse := by rw [List.mem_reverse, mem_irange]; omega
    rw [h0] at this; cases this
  obtain ⟨m, v⟩ := mv
  simp only at hmv ⊢
  refine Post.bind (P := fun q => Below ((s.l - 1) * (r : Int) - 1) s.h q.1) ?_ fun q hq => ?_
  · refine Post.forUp (Below.refl _ _) fun t k k1 k2 ht => ?_
    obtain ⟨h, z, v⟩ := t
    refine (hqrChase_below (hs.same ht.1) hr hl hmv.1 k1 k2 hir hic ?_ ?_).mono fun q hq => ht.trans hq
    · split <;> omega
    · split <;> omega
  · obtain ⟨h, z, v⟩ := q
    exact Post.pure ⟨hq, rfl, rfl⟩

/-! ### Recording a 2-by-2 block -/

theorem writeBack_below {start : Int} {vec : List F} {a : FA F} (hs : HqrShape a r c) (hr : 1 ≤ r) (hc : 1 ≤ c) {bd : Int} (hb : bd ≤ start - 1) (h1 : 1 ≤ start) :
    Post (writeBack start vec a) (Below bd a) := by
  have e3 : (r : Int) * c < 2147483648 := by exact_mod_cast hs.small
  have e4 : 0 ≤ (r : Int) * c := Int.mul_nonneg (by omega) (by omega)
  have e : a.len = pure ((r : Int) * c) := by
    unfold FA.len FA.is2d
    rw [hs.rows, hs.cols, if_pos (by simp; omega), imul_ok (by unfold FitsI32; omega)]
  unfold writeBack
  rw [e, pure_bind]
  refine Post.forUp (Below.refl _ a) fun s j j1 j2 hb' => ?_
  split
  · refine Post.pure (hb'.trans ⟨set1_shape _ _ _, fun q hq => ?_⟩)
    have := (hs.same hb'.1).length
    have := hs.small
    exact set1_frame _ _ _ (by rw [fits_iff]; omega) (by omega) _ (by omega)
  · exact Post.panic _

theorem idx_top {h : FA F} (hs : HqrShape h r c) {a b : Int} (a0 : 1 ≤ a) (a1 : a ≤ r) (b1 : 1 ≤ b) (b2 : b ≤ c) :
    h.idx a b = pure ((b - 1) * r + a) := by
  have e : (b - 1) * (r : Int) + r = b * r := by ring
  have e2 : b * (r : Int) ≤ c * r := Int.mul_le_mul_of_nonneg_right b2 (by omega)
  have e3 : (r : Int) * c < 2147483648 := by exact_mod_cast hs.small
  have e4 : (c : Int) * r = r * c := by ring
  have e5 : 0 ≤ (b - 1) * (r : Int) := Int.mul_nonneg (by omega) (by omega)
  have e6 : b * 1 ≤ b * (r : Int) := Int.mul_le_mul_of_nonneg_left (by omega) (by omega)
  unfold FA.idx
  rw [isub_ok (by unfold FitsI32; omega), hs.rows]
  simp only [pure_bind]
  rw [imul_ok (by unfold FitsI32; omega)]
  simp only [pure_bind]
  rw [iadd_ok (by unfold FitsI32; omega)]

theorem hqrRotH_below {p : HqrP F} {cs sn : F} {h : FA F} (hs : HqrShape h r c) (hi : 3 ≤ i) (hir : i ≤ r) (hn : p.n ≤ c) (hic : i ≤ c) :
    Post (hqrRotH p i cs sn h) (Below ((i - 1 - 1) * (r : Int) - 1) h) := by
  have hb : ∀ {a b : Int}, 1 ≤ a → i - 1 ≤ b → (i - 1 - 1) * (r : Int) - 1 ≤ (b - 1) * r + a - 1 := fun {a b} ha hb => by
    have := bd_le (r := r) (l := i - 1) (show 0 ≤ a by omega) hb; omega
  have h1 : ∀ {a b : Int}, 1 ≤ a → i - 1 ≤ b → 1 ≤ (b - 1) * (r : Int) + a := fun {a b} ha hb => by
    have : 0 ≤ (b - 1) * (r : Int) := Int.mul_nonneg (show 0 ≤ b - 1 by omega) (by omega)
    omega
  have rest : ∀ h1 : FA F, Below ((i - 1 - 1) * (r : Int) - 1) h h1 → Post (do
      let h10 ← h1.from2 1 (i - 1)
      let h11 ← h1.from2 1 i
      let _ ← drot (i - 1 - 1) h10 1 h11 1 cs sn
      let i10 ← h1.idx 1 (i - 1)
      let i11 ← h1.idx 1 i
      let h ← writeBack i10 h10 h1
      writeBack i11 h11 h) (Below ((i - 1 - 1) * (r : Int) - 1) h) := by
    intro h1' hh1
    have s1 := hs.same hh1.1
    refine Post.bind' fun h10 => Post.bind' fun h11 => Post.bind' fun _ => ?_
    rw [idx_top s1 (by omega) (by omega) (by omega) (by omega), pure_bind, idx_top s1 (by omega) (by omega) (by omega) (by omega), pure_bind]
    refine Post.bind (writeBack_below s1 (by omega) (by omega) (hb (by omega) (by omega)) (h1 (by omega) (by omega))) fun b hb1 => ?_
    exact (writeBack_below (s1.same hb1.1) (by omega) (by omega) (hb (by omega) (by omega)) (h1 (by omega) (by omega))).mono fun c hc => (hh1.trans hb1).trans hc
  unfold hqrRotH
  dsimp only
  refine Post.ite (fun hlt => ?_) fun _ => rest h (Below.refl _ h)
  refine Post.bind' fun h02 => Post.bind' fun h12 => Post.bind' fun q => ?_
  rw [idx_top hs (by omega) (by omega) (by omega) (by omega), pure_bind, idx_top hs (by omega) (by omega) (by omega) (by omega), pure_bind]
  refine Post.bind (writeBack_below hs (by omega) (by omega) (hb (by omega) (by omega)) (h1 (by omega) (by omega))) fun b hb1 => ?_
  refine Post.bind (writeBack_below (hs.same hb1.1) (by omega) (by omega) (hb (by omega) (by omega)) (h1 (by omega) (by omega))) fun c hc => ?_
  exact rest c (hb1.trans hc)

theorem hqrTwo_below {p : HqrP F} {a : HqrA F} (hs : HqrShape a.h r c) (hi : 3 ≤ i) (hir : i ≤ r) (hn : p.n ≤ c) (hic : i ≤ c) :
    Post (hqrTwo p i a) fun a' => Below ((i - 1 - 1) * (r : Int) - 1) a.h a'.h := by
  have nn := bd_nonneg (r := r) (l := i - 1) (by omega) (by omega)
  unfold hqrTwo
  refine Post.bind' fun x11 => Post.bind' fun x12 => Post.bind' fun x21 => Post.bind' fun x22 => ?_
  refine Post.bind (set2_below hs (by omega) (by omega) (by omega) (by omega) (by omega) nn (bd_le (by omega) (by omega)) _) fun b1 hb1 => ?_
  have s1 := hs.same hb1.1
  refine Post.bind (set2_below s1 (by omega) (by omega) (by omega) (by omega) (by omega) nn (bd_le (by omega) (by omega)) _) fun b2 hb2 => ?_
  have s2 := s1.same hb2.1
  refine Post.bind (set2_below s2 (by omega) (by omega) (by omega) (by omega) (by omega) nn (bd_le (by omega) (by omega)) _) fun b3 hb3 => ?_
  have s3 := s2.same hb3.1
  refine Post.bind (set2_below s3 (by omega) (by omega) (by omega) (by omega) (by omega) nn (bd_le (by omega) (by omega)) _) fun b4 hb4 => ?_
  have s4 := s3.same hb4.1
  simp only
  refine Post.iteBind (P := Below ((i - 1 - 1) * (r : Int) - 1) b4) ?_ fun b5 hb5 => ?_
  · exact Post.ite (fun _ => hqrRotH_below s4 hi hir hn hic) fun _ => Post.pure (Below.refl _ _)
  exact Post.iteBind (Post.trivial _) fun z' _ => Post.pure ((((hb1.trans hb2).trans hb3).trans hb4).trans hb5)

theorem hqrRecord_below {p : HqrP F} {a : HqrA F} (hs : HqrShape a.h r c) (hl : 2 ≤ l) (hir : i ≤ r) (hn : p.n ≤ c) (hic : i ≤ c) :
    Post (hqrRecord p i l a) fun a' => Below ((l - 1) * (r : Int) - 1) a.h a'.h ∧ (i ≤ l → a'.h = a.h) := by
  unfold hqrRecord
  refine Post.ite (fun _ => Post.bind' fun x => Post.pure ⟨Below.refl _ _, fun _ => rfl⟩) fun _ => Post.ite (fun h => ?_) fun _ => Post.pure ⟨Below.refl _ _, fun _ => rfl⟩
  rw [h]
  exact (hqrTwo_below hs (by omega) hir hn hic).mono fun a' ha' => ⟨ha', fun h => by omega⟩

end

/-! ### A first subdiagonal element that is negligible stays so -/

/-- The test of `hqrSearch` at row `k`, in terms of the elements `(k-1,k-1)`, `(k-1,k)`, `(k,k-1)`, `(k,k)`, when the two diagonal elements
are not both zero. -/
def Stop (p : HqrP F) (x11 x12 x21 x22 : F) : Prop :=
  (abs x21 ≤ᶠ p.smlnum) = true ∨
    ((abs x11 + abs x22 =ᶠ zero) = false ∧ (abs x21 ≤ᶠ p.ulp * (abs x11 + abs x22)) = true ∧ hqrCrit p x21 x12 x22 x11 = true)

/-- The element of the array at row `a`, column `b`. -/
def cellOf (r : Nat) (h : FA F) (a b : Int) : F := h.data.getD ((b - 1) * r + (a - 1)).toNat minPositive

section
variable {r c : Nat}

theorem get2_cellOf {h : FA F} (hs : HqrShape h r c) {a b : Int} (a1 : 1 ≤ a) (a2 : a ≤ r) (b1 : 1 ≤ b) (b2 : b ≤ c) :
    h.get2 a b = pure (cellOf r h a b) := by
  have e : (b - 1) * (r : Int) + r = b * r := by ring
  have e2 : b * (r : Int) ≤ c * r := Int.mul_le_mul_of_nonneg_right b2 (by omega)
  have e3 : (r : Int) * c < 2147483648 := by exact_mod_cast hs.small
  have e4 : (c : Int) * r = r * c := by ring
  have e5 : 0 ≤ (b - 1) * (r : Int) := Int.mul_nonneg (by omega) (by omega)
  unfold FA.get2 cellOf
  rw [off_top hs (by omega) a2 b1 b2 (by omega), pure_bind, asUsize_nonneg (by omega) (by rw [fits_iff]; omega), List.getD_eq_getElem?_getD]
  cases h.data[((b - 1) * (r : Int) + (a - 1)).toNat]? <;> rfl

theorem Below.cell {b : Int} {h h' : FA F} (x : Below b h h') {i j : Int} (h0 : 0 ≤ (j - 1) * (r : Int) + (i - 1)) (hlt : (j - 1) * (r : Int) + (i - 1) < b) :
    cellOf r h' i j = cellOf r h i j := by
  unfold cellOf
  rw [List.getD_eq_getElem?_getD, List.getD_eq_getElem?_getD, x.2 _ (by omega)]

theorem cell_set {h : FA F} (hs : HqrShape h r c) {a b : Int} (a1 : 1 ≤ a) (a2 : a ≤ r) (b1 : 1 ≤ b) (b2 : b ≤ c) (x : F) :
    Post (h.set2 a b x) fun h' => SameShape h h' ∧ cellOf r h' a b = x := by
  have e : (b - 1) * (r : Int) + r = b * r := by ring
  have e2 : b * (r : Int) ≤ c * r := Int.mul_le_mul_of_nonneg_right b2 (by omega)
  have e3 : (r : Int) * c < 2147483648 := by exact_mod_cast hs.small
  have e4 : (c : Int) * r = r * c := by ring
  have e5 : 0 ≤ (b - 1) * (r : Int) := Int.mul_nonneg (by omega) (by omega)
  have hlt : ((b - 1) * (r : Int) + (a - 1)).toNat < h.data.length := by
    rw [hs.length]; zify; rw [Int.toNat_of_nonneg (by omega)]; omega
  refine (set2_shape h a b x).and ?_
  unfold FA.set2 FA.modify2
  rw [off_top hs (by omega) a2 b1 b2 (by omega), pure_bind, asUsize_nonneg (by omega) (by rw [fits_iff]; omega), List.getElem?_eq_getElem hlt]
  refine Post.pure ?_
  unfold cellOf
  simp only
  rw [List.getD_eq_getElem?_getD, List.getElem?_set_self hlt]; rfl

/-- The first subdiagonal element of the active block is negligible. -/
def TopNegl (p : HqrP F) (r : Nat) (h : FA F) : Prop :=
  Stop p (cellOf r h p.ilo p.ilo) (cellOf r h p.ilo (p.ilo + 1)) (cellOf r h (p.ilo + 1) p.ilo) (cellOf r h (p.ilo + 1) (p.ilo + 1))

theorem search_top {p : HqrP F} {h : FA F} (hs : HqrShape h r c) (h1 : 1 ≤ p.ilo) (hr : p.ilo + 1 ≤ r) (hc : p.ilo + 1 ≤ c) (ht : TopNegl p r h) (L : List Int) (k : Int)
    (hL : ∀ x ∈ L, p.ilo + 1 ≤ x) (hlast : p.ilo + 1 ∈ L) : Post (hqrSearch p h L k) fun k' => p.ilo + 1 ≤ k' := by
  induction L generalizing k with
  | nil => cases hlast
  | cons ck rest ih =>
    have hck := hL ck List.mem_cons_self
    have here : Post (pure ck : R Int) (fun k' => p.ilo + 1 ≤ k') := Post.pure hck
    by_cases hx : ck = p.ilo + 1
    · subst hx
      unfold hqrSearch
      rw [get2_cellOf hs (by omega) hr (by omega) (by omega), pure_bind]
      refine Post.ite (fun _ => here) fun hn => ?_
      rw [get2_cellOf hs (by omega) (by omega) (by omega) (by omega), pure_bind, get2_cellOf hs (by omega) (by omega) (by omega) (by omega), pure_bind]
      rcases ht with ht | ⟨t0, t1, t2⟩
      · rw [show p.ilo + 1 - 1 = p.ilo by ring] at hn
        exact absurd ht hn
      · simp only [show p.ilo + 1 - 1 = p.ilo by ring]
        rw [if_neg (by rw [t0]; simp), pure_bind]
        rw [if_pos t1, get2_cellOf hs (by omega) (by omega) (by omega) (by omega), pure_bind, if_pos t2]
        exact here
    · have hmem : p.ilo + 1 ∈ rest := by
        rcases List.mem_cons.1 hlast with h | h
        · exact absurd h.symm hx
        · exact h
      have ih' := ih (ck - 1) (fun x hx => hL x (List.mem_cons_of_mem _ hx)) hmem
      unfold hqrSearch
      refine Post.bind' fun a => Post.ite (fun _ => here) fun _ => ?_
      refine Post.bind' fun b => Post.bind' fun c => ?_
      dsimp only
      repeat' first
        | exact here
        | exact ih'
        | refine Post.ite (fun _ => ?_) fun _ => ?_
        | refine Post.bind' fun _ => ?_

/-- The four elements are before column `l ≥ ilo + 2`; the subdiagonal one is before column `ilo + 1`. -/
theorem TopNegl.keep {p : HqrP F} {h h' : FA F} (h1 : 1 ≤ p.ilo) (ht : TopNegl p r h) {l : Int} (hr : p.ilo + 2 ≤ r)
    (hl : p.ilo + 2 ≤ l ∨ (l = p.ilo + 1 ∧ (abs (cellOf r h (p.ilo + 1) p.ilo) ≤ᶠ p.smlnum) = true))
    (hb : Below ((l - 1) * (r : Int) - 1) h h') :
    TopNegl p r h' ∧ (l = p.ilo + 1 → (abs (cellOf r h' (p.ilo + 1) p.ilo) ≤ᶠ p.smlnum) = true) := by
  have e0 : 0 ≤ (p.ilo - 1) * (r : Int) := Int.mul_nonneg (by omega) (by omega)
  have e1 : (p.ilo + 1 - 1) * (r : Int) = (p.ilo - 1) * r + r := by ring
  have e2 : (p.ilo + 2 - 1) * (r : Int) = (p.ilo - 1) * r + r + r := by ring
  have e3 : (p.ilo + 1 - 1) * (r : Int) ≤ (l - 1) * r := Int.mul_le_mul_of_nonneg_right (by omega) (by omega)
  have c21 : cellOf r h' (p.ilo + 1) p.ilo = cellOf r h (p.ilo + 1) p.ilo := hb.cell (by omega) (by omega)
  rcases hl with hl | ⟨hl, hz⟩
  · have e4 : (p.ilo + 2 - 1) * (r : Int) ≤ (l - 1) * r := Int.mul_le_mul_of_nonneg_right (by omega) (by omega)
    refine ⟨?_, fun h => absurd h (by omega)⟩
    unfold TopNegl
    rw [c21, hb.cell (i := p.ilo) (j := p.ilo) (by omega) (by omega), hb.cell (i := p.ilo) (j := p.ilo + 1) (by omega) (by omega),
      hb.cell (i := p.ilo + 1) (j := p.ilo + 1) (by omega) (by omega)]
    exact ht
  · have : (abs (cellOf r h' (p.ilo + 1) p.ilo) ≤ᶠ p.smlnum) = true := by rw [c21]; exact hz
    exact ⟨Or.inl this, fun _ => this⟩

/-- The state of the inner loop after a deflation. -/
structure TopIn (p : HqrP F) (r c : Nat) (s : HqrS F) : Prop where
  shape : HqrShape s.h r c
  negl : TopNegl p r s.h
  row : p.ilo + 1 ≤ s.l
  zero : s.l = p.ilo + 1 → (abs (cellOf r s.h (p.ilo + 1) p.ilo) ≤ᶠ p.smlnum) = true

variable {i : Int}

theorem deflate_top {p : HqrP F} (h0 : (abs (zero : F) ≤ᶠ p.smlnum) = true) (h1 : 1 ≤ p.ilo) (hr : p.ihi ≤ r) (hc : p.ihi ≤ c) (hlh : p.ilo + 1 ≤ p.ihi) {s : HqrS F}
    (hs : HqrShape s.h r c) (ht : TopNegl p r s.h) (hi : i ≤ p.ihi)
    (hl : (s.l = p.ilo ∧ p.ilo < i) ∨ (p.ilo + 1 ≤ s.l ∧ s.l < i) ∨ (i = p.ilo ∧ s.l = p.ilo ∧ s.k = p.ilo + 1)) :
    Post (hqrDeflate p i s) fun s' => TopIn p r c s' ∧ s'.k = s'.l ∧ s'.l ≤ max i (p.ilo + 1) := by
  unfold hqrDeflate
  refine Post.bind (P := fun k => p.ilo + 1 ≤ k ∧ k ≤ max i (p.ilo + 1)) ?_ fun k hk => ?_
  · rcases hl with ⟨e, hlt⟩ | ⟨e, hlt⟩ | ⟨ei, el, ek⟩
    · refine Post.and (search_top hs h1 (by omega) (by omega) ht _ _ (fun x hx => ?_) ?_) ?_
      · rw [List.mem_reverse, mem_irange] at hx; omega
      · rw [List.mem_reverse, mem_irange]; omega
      · refine (hqrSearch_post p s.h (lo := s.l) (hi := i) _ _ (fun x hx => ?_) (Or.inr fun h => ?_)).mono fun k hk => by omega
        · rw [List.mem_reverse, mem_irange] at hx; exact hx
        · have : i ∈ (irange (s.l + 1) i).reverse := by rw [List.mem_reverse, mem_irange]; omega
          rw [h] at this; cases this
    · refine (hqrSearch_post p s.h (lo := s.l) (hi := i) _ _ (fun x hx => ?_) (Or.inr fun h => ?_)).mono fun k hk => by omega
      · rw [List.mem_reverse, mem_irange] at hx; exact hx
      · have : i ∈ (irange (s.l + 1) i).reverse := by rw [List.mem_reverse, mem_irange]; omega
        rw [h] at this; cases this
    · rw [irange_empty (by omega)]
      exact Post.pure (by omega)
  · have e0 : 0 ≤ (p.ilo - 1) * (r : Int) := Int.mul_nonneg (by omega) (by omega)
    rw [if_pos (by omega)]
    by_cases hk2 : k = p.ilo + 1
    · subst hk2
      refine Post.bind (cell_set hs (by omega) (by omega) (by omega) (by omega) zero) fun h' hh' => ?_
      have hz : (abs (cellOf r h' (p.ilo + 1) p.ilo) ≤ᶠ p.smlnum) = true := by
        have := hh'.2
        rw [show p.ilo + 1 - 1 = p.ilo by ring] at this
        rw [this]; exact h0
      exact Post.pure ⟨⟨hs.same hh'.1, Or.inl hz, hk.1, fun _ => hz⟩, rfl, hk.2⟩
    · have e1 : (p.ilo + 1 - 1) * (r : Int) = (p.ilo - 1) * r + r := by ring
      have e2 : (k - 1 - 1) * (r : Int) ≥ (p.ilo + 1 - 1) * r := Int.mul_le_mul_of_nonneg_right (by omega) (by omega)
      refine Post.bind (set2_below hs (a := k) (b := k - 1) (by omega) (by omega) (by omega) (by omega) (by omega) (bd := (p.ilo - 1) * r + r + p.ilo + 1) (by omega)
        (by omega) zero) fun h' hh' => ?_
      refine Post.pure ⟨⟨hs.same hh'.1, ?_, hk.1, fun h => absurd h hk2⟩, rfl, hk.2⟩
      unfold TopNegl
      rw [hh'.cell (i := p.ilo) (j := p.ilo) (by omega) (by omega), hh'.cell (i := p.ilo) (j := p.ilo + 1) (by omega) (by omega),
        hh'.cell (i := p.ilo + 1) (j := p.ilo) (by omega) (by omega), hh'.cell (i := p.ilo + 1) (j := p.ilo + 1) (by omega) (by omega)]
      exact ht

theorem sweep_top {p : HqrP F} (h1 : 1 ≤ p.ilo) (hr : p.ihi ≤ r) (hc : p.ihi ≤ c) {s : HqrS F} (hs : TopIn p r c s) (hi : i ≤ p.ihi) (hli : s.l < i - 1) :
    Post (hqrSweep p i s) fun s' => TopIn p r c s' ∧ s'.k = s.k ∧ s'.l = s.l := by
  have := hs.row
  refine (hqrSweep_below hs.shape (by omega) (by omega) hli (by omega) (by omega)).mono fun s' h' => ?_
  obtain ⟨hb, ek, el⟩ := h'
  have hk := hs.negl.keep h1 (l := s.l) (by omega) (by
    by_cases h : s.l = p.ilo + 1
    · exact Or.inr ⟨h, hs.zero h⟩
    · exact Or.inl (by omega)) hb
  exact ⟨⟨hs.shape.same hb.1, hk.1, by omega, fun h => hk.2 (by omega)⟩, ek, el⟩

theorem inner_top {p : HqrP F} (h0 : (abs (zero : F) ≤ᶠ p.smlnum) = true) (h1 : 1 ≤ p.ilo) (hr : p.ihi ≤ r) (hc : p.ihi ≤ c) (hlh : p.ilo + 1 ≤ p.ihi) (hi : i ≤ p.ihi)
    (rounds its : Nat) {s : HqrS F} (hs : HqrShape s.h r c) (ht : TopNegl p r s.h)
    (hl : (s.l = p.ilo ∧ p.ilo < i) ∨ (p.ilo + 1 ≤ s.l ∧ s.l < i) ∨ (i = p.ilo ∧ s.l = p.ilo ∧ s.k = p.ilo + 1)) :
    Post (hqrInner p i rounds its s) fun q => TopIn p r c q.1 ∧ q.1.k = q.1.l ∧ q.1.l ≤ max i (p.ilo + 1) := by
  induction rounds generalizing its s with
  | zero =>
    unfold hqrInner
    refine Post.bind (deflate_top h0 h1 hr hc hlh hs ht hi hl) fun s1 q1 => ?_
    refine Post.ite (fun _ => Post.pure q1) fun hn => ?_
    refine Post.bind (sweep_top h1 hr hc q1.1 hi (by omega)) fun s2 q2 => Post.pure ⟨q2.1, ?_, ?_⟩
    · show s2.k = s2.l
      rw [q2.2.1, q2.2.2]; exact q1.2.1
    · show s2.l ≤ _
      rw [q2.2.2]; exact q1.2.2
  | succ n ih =>
    unfold hqrInner
    refine Post.bind (deflate_top h0 h1 hr hc hlh hs ht hi hl) fun s1 q1 => ?_
    refine Post.ite (fun _ => Post.pure q1) fun hn => ?_
    refine Post.bind (sweep_top h1 hr hc q1.1 hi (by omega)) fun s2 q2 => ?_
    have := q2.1.row
    exact ih (its + 1) q2.1.shape q2.1.negl (Or.inr (Or.inl ⟨this, by rw [q2.2.2]; omega⟩))

/-- With a negligible first subdiagonal element the outer loop can only be left through a failure to converge. -/
theorem outer_top {p : HqrP F} (h0 : (abs (zero : F) ≤ᶠ p.smlnum) = true) (h1 : 1 ≤ p.ilo) (hr : p.ihi ≤ r) (hc : p.ihi ≤ c) (hn : p.n ≤ c) (hlh : p.ilo + 1 ≤ p.ihi) (fuel : Nat)
    (a : HqrA F) (v : FA F) (m k i : Int) (hs : HqrShape a.h r c) (ht : TopNegl p r a.h) (hi : i ≤ p.ihi) (hlo : p.ilo ≤ i) (hk : i = p.ilo → k = p.ilo + 1) :
    Post (hqrOuter p fuel a v m k i) fun q => p.ilo ≤ q.2 := by
  induction fuel generalizing a v m k i with
  | zero => exact Post.timeout
  | succ n ih =>
    unfold hqrOuter
    refine Post.ite (fun h => absurd h (by omega)) fun _ => ?_
    refine Post.bind (inner_top h0 h1 hr hc hlh hi p.itmax 0 (s := ⟨a.h, a.z, v, m, k, p.ilo, 0⟩) hs ht ?_) fun q hq => ?_
    · by_cases h : i = p.ilo
      · exact Or.inr (Or.inr ⟨h, rfl, hk h⟩)
      · exact Or.inl ⟨rfl, by omega⟩
    obtain ⟨s, its⟩ := q
    obtain ⟨q1, q2, q3⟩ := hq
    simp only at q1 q2 q3
    refine Post.ite (fun _ => Post.pure hlo) fun _ => ?_
    have hrow := q1.row
    refine Post.bind (hqrRecord_below (a := { a with h := s.h, z := s.z }) q1.shape (by omega) (by omega) hn (by omega)) fun b hb => ?_
    refine ih b s.v s.m s.k (s.l - 1) (q1.shape.same hb.1.1) ?_ (by omega) (by omega) (by omega)
    by_cases hbig : p.ilo + 2 ≤ r
    · exact (q1.negl.keep h1 hbig (by
        by_cases h : s.l = p.ilo + 1
        · exact Or.inr ⟨h, q1.zero h⟩
        · exact Or.inl (by omega)) hb.1).1
    · rw [hb.2 (by omega)]; exact q1.negl

end

end Verif
