import Verif.Lib.HqrSafe
import Verif.Lib.HqrF64g
import Verif.Lib.HqrCode
import Verif.Lib.Qr5DeflAll
import Verif.Props.Nrm2F64
import Verif.Props.Lapy2F64

/-!
# NaN in `dlahqr` on `f64`: a sweep whose shifts are NaN

Such a sweep turns every subdiagonal element of the active block into NaN, and then no later search finds a negligible one.
-/

namespace Verif
open F64 Spec

/-- Position `q` of the storage holds a NaN. -/
def NQ (h : FA Float) (q : Nat) : Prop := ∃ x, h.data[q]? = some x ∧ x.isNaN = true

/-- No NaN is lost. -/
def KeepN (h h' : FA Float) : Prop := ∀ q, NQ h q → NQ h' q

theorem KeepN.refl (h : FA Float) : KeepN h h := fun _ x => x
theorem KeepN.trans {h h' h'' : FA Float} (x : KeepN h h') (y : KeepN h' h'') : KeepN h h'' := fun q z => y q (x q z)

/-- The storage position of row `a`, column `b`, as the code computes it. -/
def posOf (r : Nat) (a b : Int) : Nat := asUsize ((b - 1) * r + (a - 1))

/-- One element changed. -/
def Upd (p : Nat) (f : Float → Float) (h h' : FA Float) : Prop := ∀ q, h'.data[q]? = if q = p then (h.data[q]?).map f else h.data[q]?

theorem Upd.keep {p : Nat} {f : Float → Float} {h h' : FA Float} (u : Upd p f h h') (hf : ∀ y, h.data[p]? = some y → y.isNaN = true → (f y).isNaN = true) : KeepN h h' := by
  rintro q ⟨x, e, hx⟩
  have := u q
  by_cases hq : q = p
  · subst hq
    rw [if_pos rfl, e] at this
    exact ⟨f x, this, hf x e hx⟩
  · rw [if_neg hq] at this
    exact ⟨x, this.trans e, hx⟩

theorem Upd.other {p q : Nat} {f : Float → Float} {h h' : FA Float} (u : Upd p f h h') (hq : q ≠ p) (x : NQ h q) : NQ h' q := by
  obtain ⟨x, e, hx⟩ := x
  have := u q
  rw [if_neg hq] at this
  exact ⟨x, this.trans e, hx⟩

theorem Upd.make {p : Nat} {f : Float → Float} {h h' : FA Float} (u : Upd p f h h') (hp : p < h.data.length) (hf : ∀ y, (f y).isNaN = true) : NQ h' p := by
  have := u p
  rw [if_pos rfl, List.getElem?_eq_getElem hp] at this
  exact ⟨_, this, hf _⟩

section
variable {r c : Nat}

theorem modify2_upd {h : FA Float} (hs : HqrShape h r c) {a b : Int} (a0 : 0 ≤ a) (a1 : a ≤ r) (b1 : 1 ≤ b) (b2 : b ≤ c) (hr : 1 ≤ r) (f : Float → Float) :
    Ret (h.modify2 a b f) fun h' => HqrShape h' r c ∧ Upd (posOf r a b) f h h' := by
  unfold FA.modify2
  rw [off_top hs a0 a1 b1 b2 hr, pure_bind]
  refine Ret.pure ⟨?_, ?_⟩
  · split
    · exact ⟨hs.rows, hs.cols, by rw [List.length_set]; exact hs.length, hs.small⟩
    · exact ⟨hs.rows, hs.cols, hs.length, hs.small⟩
  intro q
  unfold posOf
  split
  · rename_i v hv
    by_cases hq : q = asUsize ((b - 1) * r + (a - 1))
    · subst hq
      rw [if_pos rfl, hv]
      simp only
      rw [List.getElem?_set_self (List.getElem?_eq_some_iff.1 hv).1]; rfl
    · rw [if_neg hq]
      simp only
      rw [List.getElem?_set_ne (Ne.symm hq)]
  · rename_i hv
    by_cases hq : q = asUsize ((b - 1) * r + (a - 1))
    · subst hq
      rw [if_pos rfl, hv]; rfl
    · rw [if_neg hq]

theorem set2_upd {h : FA Float} (hs : HqrShape h r c) {a b : Int} (a0 : 0 ≤ a) (a1 : a ≤ r) (b1 : 1 ≤ b) (b2 : b ≤ c) (hr : 1 ≤ r) (x : Float) :
    Ret (h.set2 a b x) fun h' => HqrShape h' r c ∧ Upd (posOf r a b) (fun _ => x) h h' := modify2_upd hs a0 a1 b1 b2 hr _

theorem get2_val {h : FA Float} (hs : HqrShape h r c) {a b : Int} (a0 : 0 ≤ a) (a1 : a ≤ r) (b1 : 1 ≤ b) (b2 : b ≤ c) (hr : 1 ≤ r) :
    Ret (h.get2 a b) fun x => ∀ y, h.data[posOf r a b]? = some y → x = y := by
  unfold FA.get2
  rw [off_top hs a0 a1 b1 b2 hr, pure_bind]
  refine Ret.pure fun y hy => ?_
  unfold posOf at hy
  rw [hy]

theorem posOf_eq {a b : Int} (a1 : 1 ≤ a) (a2 : a ≤ r) (b1 : 1 ≤ b) (b2 : b ≤ c) (hs : r * c < 2 ^ 31) : (posOf r a b : Int) = (b - 1) * r + (a - 1) := by
  have e : (b - 1) * (r : Int) + r = b * r := by ring
  have e2 : b * (r : Int) ≤ c * r := Int.mul_le_mul_of_nonneg_right b2 (by omega)
  have e3 : (r : Int) * c < 2147483648 := by exact_mod_cast hs
  have e4 : (c : Int) * r = r * c := by ring
  have e5 : 0 ≤ (b - 1) * (r : Int) := Int.mul_nonneg (by omega) (by omega)
  unfold posOf
  rw [asUsize_nonneg (by omega) (by rw [fits_iff]; omega)]
  omega

theorem posOf_lt {h : FA Float} (hs : HqrShape h r c) {a b : Int} (a1 : 1 ≤ a) (a2 : a ≤ r) (b1 : 1 ≤ b) (b2 : b ≤ c) : posOf r a b < h.data.length := by
  have e := posOf_eq a1 a2 b1 b2 hs.small
  have e2 : b * (r : Int) ≤ c * r := Int.mul_le_mul_of_nonneg_right b2 (by omega)
  have e1 : (b - 1) * (r : Int) + r = b * r := by ring
  have e4 : (c : Int) * r = r * c := by ring
  rw [hs.length]
  zify
  omega

theorem posOf_ne {a b a' b' : Int} (a1 : 1 ≤ a) (a2 : a ≤ r) (b1 : 1 ≤ b) (b2 : b ≤ c) (a1' : 1 ≤ a') (a2' : a' ≤ r) (b1' : 1 ≤ b') (b2' : b' ≤ c) (hs : r * c < 2 ^ 31)
    (hne : a ≠ a' ∨ b ≠ b') : posOf r a b ≠ posOf r a' b' := by
  intro h
  have e := posOf_eq a1 a2 b1 b2 hs
  have e' := posOf_eq a1' a2' b1' b2' hs
  rw [h, e'] at e
  rcases lt_trichotomy b b' with h | h | h
  · have : (b - 1 + 1) * (r : Int) ≤ (b' - 1) * r := Int.mul_le_mul_of_nonneg_right (by omega) (by omega)
    rw [add_mul] at this; omega
  · subst h; omega
  · have : (b' - 1 + 1) * (r : Int) ≤ (b - 1) * r := Int.mul_le_mul_of_nonneg_right (by omega) (by omega)
    rw [add_mul] at this; omega

/-- A NaN at row `a`, column `b`. -/
def NC (r : Nat) (h : FA Float) (a b : Int) : Prop := NQ h (posOf r a b)

theorem NC.get {h : FA Float} (hs : HqrShape h r c) {a b : Int} (a1 : 1 ≤ a) (a2 : a ≤ r) (b1 : 1 ≤ b) (b2 : b ≤ c) (hn : NC r h a b) : Ret (h.get2 a b) fun x => x.isNaN = true := by
  obtain ⟨y, hy, hy'⟩ := hn
  exact (get2_val hs (by omega) a2 b1 b2 (by omega)).mono fun x hx => by rw [hx y hy]; exact hy'

/-- What the reflector loops do to NaNs: none is lost, and a NaN scalar `t1` spreads over the columns in question. -/
theorem refl3Cols_nan {lo hi c1 c2 c3 : Int} {v2 v3 t1 t2 t3 : Float} {h : FA Float} (hs : HqrShape h r c) (hr : 1 ≤ r) (hlo : 0 ≤ lo) (hle : lo ≤ hi) (hhi : hi ≤ r)
    (q1 : 1 ≤ c1) (q1' : c1 ≤ c) (q2 : 1 ≤ c2) (q2' : c2 ≤ c) (q3 : 1 ≤ c3) (q3' : c3 ≤ c) :
    Ret (refl3Cols lo hi c1 c2 c3 v2 v3 t1 t2 t3 h) fun h' => HqrShape h' r c ∧ KeepN h h' ∧
      (t1.isNaN = true → t2.isNaN = true → t3.isNaN = true → ∀ j, 1 ≤ j → lo ≤ j → j ≤ hi → NC r h' j c1 ∧ NC r h' j c2 ∧ NC r h' j c3) := by
  unfold refl3Cols
  refine (Ret.forUp_idx (P := fun k h' => HqrShape h' r c ∧ KeepN h h' ∧
      (t1.isNaN = true → t2.isNaN = true → t3.isNaN = true → ∀ j, 1 ≤ j → lo ≤ j → j < k → NC r h' j c1 ∧ NC r h' j c2 ∧ NC r h' j c3)) (by omega)
    ⟨hs, KeepN.refl h, fun _ _ _ j _ _ _ => by omega⟩ fun s j j1 j2 ⟨s0, k0, n0⟩ => ?_).mono fun h' ⟨x, y, z⟩ => ⟨x, y, fun g1 g2 g3 j g4 g5 g6 => z g1 g2 g3 j g4 g5 (by omega)⟩
  refine Ret.bind (get2_val s0 (by omega) (by omega) q1 q1' hr) fun x1 hx1 => Ret.bind (get2_val s0 (by omega) (by omega) q2 q2' hr) fun x2 hx2 => ?_
  refine Ret.bind (get2_val s0 (by omega) (by omega) q3 q3' hr) fun x3 hx3 => ?_
  dsimp only
  generalize x1 + v2 * x2 + v3 * x3 = sum
  refine Ret.bind (set2_upd s0 (by omega) (by omega) q1 q1' hr _) fun ha ⟨sa, ua⟩ => ?_
  refine Ret.bind (modify2_upd sa (by omega) (by omega) q2 q2' hr _) fun hb ⟨sb, ub⟩ => ?_
  refine (modify2_upd sb (by omega) (by omega) q3 q3' hr _).mono fun hc ⟨sc, uc⟩ => ?_
  have ka : KeepN s ha := ua.keep fun y hy hn => by rw [hx1 y hy]; exact nan_sub_left hn _
  have kb : KeepN ha hb := ub.keep fun y _ hn => nan_sub_left hn _
  have kc : KeepN hb hc := uc.keep fun y _ hn => nan_sub_left hn _
  refine ⟨sc, ((k0.trans ka).trans kb).trans kc, fun g1 g2 g3 j' g4 g5 g6 => ?_⟩
  by_cases e : j' = j
  · subst e
    refine ⟨kc _ (kb _ (ua.make (posOf_lt s0 (by omega) (by omega) q1 q1') fun _ => nan_sub_right _ (nan_mul_right _ g1))),
      kc _ (ub.make (posOf_lt sa (by omega) (by omega) q2 q2') fun _ => nan_sub_right _ (nan_mul_right _ g2)),
      uc.make (posOf_lt sb (by omega) (by omega) q3 q3') fun _ => nan_sub_right _ (nan_mul_right _ g3)⟩
  · obtain ⟨w1, w2, w3⟩ := n0 g1 g2 g3 j' g4 g5 (by omega)
    exact ⟨kc _ (kb _ (ka _ w1)), kc _ (kb _ (ka _ w2)), kc _ (kb _ (ka _ w3))⟩

theorem refl2Cols_nan {lo hi c1 c2 : Int} {v2 t1 t2 : Float} {h : FA Float} (hs : HqrShape h r c) (hr : 1 ≤ r) (hlo : 0 ≤ lo) (hle : lo ≤ hi) (hhi : hi ≤ r)
    (q1 : 1 ≤ c1) (q1' : c1 ≤ c) (q2 : 1 ≤ c2) (q2' : c2 ≤ c) :
    Ret (refl2Cols lo hi c1 c2 v2 t1 t2 h) fun h' => HqrShape h' r c ∧ KeepN h h' ∧
      (t1.isNaN = true → t2.isNaN = true → ∀ j, 1 ≤ j → lo ≤ j → j ≤ hi → NC r h' j c1 ∧ NC r h' j c2) := by
  unfold refl2Cols
  refine (Ret.forUp_idx (P := fun k h' => HqrShape h' r c ∧ KeepN h h' ∧
      (t1.isNaN = true → t2.isNaN = true → ∀ j, 1 ≤ j → lo ≤ j → j < k → NC r h' j c1 ∧ NC r h' j c2)) (by omega)
    ⟨hs, KeepN.refl h, fun _ _ j _ _ _ => by omega⟩ fun s j j1 j2 ⟨s0, k0, n0⟩ => ?_).mono fun h' ⟨x, y, z⟩ => ⟨x, y, fun g1 g2 j g4 g5 g6 => z g1 g2 j g4 g5 (by omega)⟩
  refine Ret.bind (get2_val s0 (by omega) (by omega) q1 q1' hr) fun x1 hx1 => Ret.bind (get2_val s0 (by omega) (by omega) q2 q2' hr) fun x2 hx2 => ?_
  dsimp only
  generalize x1 + v2 * x2 = sum
  refine Ret.bind (set2_upd s0 (by omega) (by omega) q1 q1' hr _) fun ha ⟨sa, ua⟩ => ?_
  refine (modify2_upd sa (by omega) (by omega) q2 q2' hr _).mono fun hb ⟨sb, ub⟩ => ?_
  have ka : KeepN s ha := ua.keep fun y hy hn => by rw [hx1 y hy]; exact nan_sub_left hn _
  have kb : KeepN ha hb := ub.keep fun y _ hn => nan_sub_left hn _
  refine ⟨sb, (k0.trans ka).trans kb, fun g1 g2 j' g4 g5 g6 => ?_⟩
  by_cases e : j' = j
  · subst e
    exact ⟨kb _ (ua.make (posOf_lt s0 (by omega) (by omega) q1 q1') fun _ => nan_sub_right _ (nan_mul_right _ g1)),
      ub.make (posOf_lt sa (by omega) (by omega) q2 q2') fun _ => nan_sub_right _ (nan_mul_right _ g2)⟩
  · obtain ⟨w1, w2⟩ := n0 g1 g2 j' g4 g5 (by omega)
    exact ⟨kb _ (ka _ w1), kb _ (ka _ w2)⟩

theorem refl3Rows_nan {lo hi r1 r2 r3 : Int} {v2 v3 t1 t2 t3 : Float} {h : FA Float} (hs : HqrShape h r c) (hr : 1 ≤ r) (hlo : 1 ≤ lo) (hhi : hi ≤ c)
    (q1 : 0 ≤ r1) (q1' : r1 ≤ r) (q2 : 0 ≤ r2) (q2' : r2 ≤ r) (q3 : 0 ≤ r3) (q3' : r3 ≤ r) :
    Ret (refl3Rows lo hi r1 r2 r3 v2 v3 t1 t2 t3 h) fun h' => HqrShape h' r c ∧ KeepN h h' := by
  unfold refl3Rows
  refine Ret.forUp ⟨hs, KeepN.refl h⟩ fun s j j1 j2 ⟨s0, k0⟩ => ?_
  refine Ret.bind (get2_val s0 q1 q1' (by omega) (by omega) hr) fun x1 hx1 => Ret.bind (get2_val s0 q2 q2' (by omega) (by omega) hr) fun x2 hx2 => ?_
  refine Ret.bind (get2_val s0 q3 q3' (by omega) (by omega) hr) fun x3 hx3 => ?_
  dsimp only
  generalize x1 + v2 * x2 + v3 * x3 = sum
  refine Ret.bind (set2_upd s0 q1 q1' (by omega) (by omega) hr _) fun ha ⟨sa, ua⟩ => ?_
  refine Ret.bind (modify2_upd sa q2 q2' (by omega) (by omega) hr _) fun hb ⟨sb, ub⟩ => ?_
  refine (modify2_upd sb q3 q3' (by omega) (by omega) hr _).mono fun hc ⟨sc, uc⟩ => ?_
  have ka : KeepN s ha := ua.keep fun y hy hn => by rw [hx1 y hy]; exact nan_sub_left hn _
  have kb : KeepN ha hb := ub.keep fun y _ hn => nan_sub_left hn _
  have kc : KeepN hb hc := uc.keep fun y _ hn => nan_sub_left hn _
  exact ⟨sc, ((k0.trans ka).trans kb).trans kc⟩

theorem refl2Rows_nan {lo hi r1 r2 : Int} {v2 t1 t2 : Float} {h : FA Float} (hs : HqrShape h r c) (hr : 1 ≤ r) (hlo : 1 ≤ lo) (hhi : hi ≤ c)
    (q1 : 0 ≤ r1) (q1' : r1 ≤ r) (q2 : 0 ≤ r2) (q2' : r2 ≤ r) :
    Ret (refl2Rows lo hi r1 r2 v2 t1 t2 h) fun h' => HqrShape h' r c ∧ KeepN h h' := by
  unfold refl2Rows
  refine Ret.forUp ⟨hs, KeepN.refl h⟩ fun s j j1 j2 ⟨s0, k0⟩ => ?_
  refine Ret.bind (get2_val s0 q1 q1' (by omega) (by omega) hr) fun x1 hx1 => Ret.bind (get2_val s0 q2 q2' (by omega) (by omega) hr) fun x2 hx2 => ?_
  dsimp only
  generalize x1 + v2 * x2 = sum
  refine Ret.bind (set2_upd s0 q1 q1' (by omega) (by omega) hr _) fun ha ⟨sa, ua⟩ => ?_
  refine (modify2_upd sa q2 q2' (by omega) (by omega) hr _).mono fun hb ⟨sb, ub⟩ => ?_
  have ka : KeepN s ha := ua.keep fun y hy hn => by rw [hx1 y hy]; exact nan_sub_left hn _
  have kb : KeepN ha hb := ub.keep fun y _ hn => nan_sub_left hn _
  exact ⟨sb, (k0.trans ka).trans kb⟩

theorem Ret.tot {α : Type} {x : R α} {P Q : α → Prop} (h : Ret x P) (ht : Tot x Q) : Ret x fun a => P a ∧ Q a := by
  obtain ⟨a, rfl, ha⟩ := h
  obtain ⟨b, e, hb⟩ := ht .debug
  obtain rfl : a = b := Res.ok.inj e
  exact ⟨a, rfl, ha, hb⟩

theorem dlarfg_nan {n : Int} (h1 : 2 ≤ n) (h2 : n ≤ 3) {al : Float} (ha : al.isNaN = true) (x : FA Float) (hx : TShape x) {y z : Float} (hd : x.data = [y, z]) (hy : y.isNaN = true) :
    Ret (dlarfg (F := Float) n al x 1) fun q => TShape q.2.1 ∧ q.1.isNaN = true ∧ q.2.2.isNaN = true := by
  unfold dlarfg
  rw [if_neg (by omega)]
  refine Ret.bind (isub_ret (by unfold FitsI32; omega)) fun d hd' => ?_
  subst hd'
  refine Ret.bind (P := fun w => w.isNaN = true) ?_ fun xn hn => ?_
  · obtain ⟨k, hk⟩ : ∃ k : Nat, n - 1 = k := ⟨(n - 1).toNat, by omega⟩
    rw [hk]
    refine ⟨_, dnrm2FA_fold (by omega) (by unfold StrideOK; simp; omega) _ (by show x.data.length < _; rw [hx.length]; norm_num), ?_⟩
    refine nrm2Final_nan (nrm2_fold_nan ⟨y, ?_, hy⟩)
    show y ∈ strided k 1 x.data
    rw [hd]
    obtain rfl | rfl : k = 1 ∨ k = 2 := by omega
    · exact List.mem_map.2 ⟨0, by simp, rfl⟩
    · exact List.mem_map.2 ⟨0, by simp, rfl⟩
  rw [nan_beq_left hn]
  simp only [Bool.false_eq_true, if_false]
  have hb : (-Scalar.signum al * dlapy2 al xn).isNaN = true := nan_mul_right _ (by rw [C33_dlapy2_nan, ha]; rfl)
  rw [nan_lt_left (nan_abs hb)]
  simp only [Bool.false_eq_true, if_false]
  generalize -Scalar.signum al * dlapy2 al xn = beta at hb ⊢
  unfold dlarfgFinish
  refine Ret.bind (isub_ret (by unfold FitsI32; omega)) fun d hd => ?_
  subst hd
  refine Ret.bind (dscal_small (by omega) (by omega) _ _) fun w hw => ?_
  exact Ret.pure ⟨hx.same hw, hb, nan_div_right _ hb⟩

/-- The first two elements of the work vector are NaN. -/
def VN (v : FA Float) : Prop := (v.get1 1).isNaN = true ∧ (v.get1 2).isNaN = true

theorem work_of_shape {v : FA Float} (hv : VShape v) : WorkG v (v.get1 1) (v.get1 2) (v.get1 3) := by
  obtain ⟨x, y, z, hd⟩ := List.length_eq_three.1 hv.length
  have : WorkG v x y z := ⟨hd, hv.rows, hv.cols⟩
  obtain ⟨e1, e2, e3⟩ := this.get1
  rw [e1, e2, e3]
  exact this

theorem hqrReflector_nan {m k nr i : Int} {h v : FA Float} (hs : HqrShape h r c) (hv : VShape v) (hm : 1 ≤ m) (hir : i ≤ r) (hic : i ≤ c) (hmk : m ≤ k) (hki : k + 1 ≤ i) (hnr : nr = min 3 (i - k + 1))
    (h0 : k = m → VN v) (h1 : m < k → NC r h k (k - 1) ∧ NC r h (k + 1) (k - 1)) :
    Ret (hqrReflector h m k nr v) fun q => VShape q.1 ∧ (q.1.get1 1).isNaN = true ∧ q.2.isNaN = true := by
  have n2 : 2 ≤ nr := by omega
  have n3 : nr ≤ 3 := by omega
  unfold hqrReflector
  have tail : ∀ w : FA Float, VShape w → VN w → Ret (do
      let l ← w.from1 2
      let q ← dlarfg nr (w.get1 1) (faOfVec l) 1
      let u ← q.2.1.insert 1 q.1
      pure (u, q.2.2)) fun q => VShape q.1 ∧ (q.1.get1 1).isNaN = true ∧ q.2.isNaN = true := by
    intro w hw hn
    have hW := work_of_shape hw
    rw [hW.from1, pure_bind]
    have ht : TShape (faOfVec [w.get1 2, w.get1 3]) := ⟨rfl, by simp [faOfVec, wrap32], rfl⟩
    refine Ret.bind (dlarfg_nan n2 n3 hn.1 _ ht rfl hn.2) fun q hq => ?_
    obtain ⟨v1, v2, t1⟩ := q
    obtain ⟨hq, hq1, hq2⟩ := hq
    simp only at hq hq1 hq2 ⊢
    obtain ⟨x', y', hd'⟩ := List.length_eq_two.1 hq.length
    have hlen' : v2.len = pure 2 := by
      unfold FA.len FA.is2d
      rw [hq.cols, hq.rows]
      simp
    unfold FA.insert
    rw [hlen', pure_bind, if_pos ⟨by norm_num, by norm_num⟩, hd']
    have : asUsize 1 - 1 = 0 := by decide
    simp only [this]
    rw [if_pos (by simp), pure_bind]
    exact Ret.pure ⟨⟨rfl, Or.inl hq.rows, hq.cols⟩, hq1, hq2⟩
  refine Ret.ite (fun hc => ?_) fun hc => tail v hv (h0 (by omega))
  obtain ⟨n1, n2'⟩ := h1 (by omega)
  have hh := hqrShape_is2 hs (show 1 ≤ r by omega)
  have cell : ∀ {a b : Int}, 1 ≤ a → a ≤ r → 1 ≤ b → b ≤ c → Cell r (r * c) a b := fun a1 a2 b1 b2 => cell_rc a1 a2 b1 b2
  obtain ⟨src, es, hsrc⟩ := from2_get hh hs.small (len_shape hs.rows hs.cols hs.small (by omega)) (cell (a := k) (b := k - 1) (by omega) (by omega) (by omega) (by omega))
  have val : ∀ {a b : Int}, 1 ≤ a → a ≤ r → 1 ≤ b → b ≤ c → NC r h a b → (ofList2 r h.data a b).isNaN = true := by
    intro a b a1 a2 b1 b2 hn
    obtain ⟨y, e, hy⟩ := hn.get hs a1 a2 b1 b2
    rw [get2_is2 hh (cell a1 a2 b1 b2) hs.small] at e
    have : ofList2 r h.data a b = y := Res.ok.inj (congrFun e .debug)
    rw [this]; exact hy
  have s1 := hsrc 0 (by norm_num) (by simpa using cell (a := k) (b := k - 1) (by omega) (by omega) (by omega) (by omega))
  have s2 := hsrc 1 (by norm_num) (cell (by push_cast; omega) (by push_cast; omega) (by omega) (by omega))
  norm_num at s1 s2
  rw [es, pure_bind]
  have hW := work_of_shape hv
  have m1 := val (by omega) (by omega) (by omega) (by omega) n1
  have m2 := val (by omega) (by omega) (by omega) (by omega) n2'
  have key : Tot (dcopy (F := Float) nr src 1 v 1) VN := by
    rcases (show nr = 2 ∨ nr = 3 by omega) with rfl | rfl
    · refine (dcopy_workG (nr := 2) (z := v.get1 3) (Or.inl rfl) hW s1 s2 (by omega) (fun _ => rfl)).mono fun w hw => ?_
      obtain ⟨e1, e2, -⟩ := hw.get1
      exact ⟨by rw [e1]; exact m1, by rw [e2]; exact m2⟩
    · refine (dcopy_workG (nr := 3) (Or.inr rfl) hW s1 s2 (fun _ => rfl) (by omega)).mono fun w hw => ?_
      obtain ⟨e1, e2, -⟩ := hw.get1
      exact ⟨by rw [e1]; exact m1, by rw [e2]; exact m2⟩
  exact Ret.bind ((dcopy_small (by omega) (by omega) _ _).tot key) fun w hw => tail w (hv.same hw.1) hw.2

theorem hqrStoreCol_nan {m k l i : Int} {t1 : Float} {v h : FA Float} (hs : HqrShape h r c) (hl : 1 ≤ l) (hm : l = m) (hk : m ≤ k) (hki : k ≤ i - 1)
    (hir : i ≤ r) (hic : i ≤ c) (hv : m < k → (v.get1 1).isNaN = true) :
    Ret (hqrStoreCol m l i k t1 v h) fun h' => HqrShape h' r c ∧ (∀ j, l < j → j ≤ i → NC r h j (j - 1) → NC r h' j (j - 1)) := by
  have hr : 1 ≤ r := by omega
  unfold hqrStoreCol
  refine Ret.ite (fun hc => ?_) fun _ => Ret.ite (fun hc => by omega) fun _ => Ret.pure ⟨hs, fun _ _ _ h => h⟩
  refine Ret.bind (set2_upd hs (by omega) (by omega) (by omega) (by omega) hr _) fun ha ⟨sa, ua⟩ => ?_
  refine Ret.bind (set2_upd sa (by omega) (by omega) (by omega) (by omega) hr _) fun hb ⟨sb, ub⟩ => ?_
  have k1 : ∀ j, l < j → j ≤ i → NC r h j (j - 1) → NC r hb j (j - 1) := fun j j1 j2 hn =>
    ub.other (posOf_ne (by omega) (by omega) (by omega) (by omega) (by omega) (by omega) (by omega) (by omega) hs.small (by omega)) (ua.keep (fun _ _ _ => hv (by omega)) _ hn)
  refine Ret.ite (fun _ => ?_) fun _ => Ret.pure ⟨sb, k1⟩
  refine (set2_upd sb (by omega) (by omega) (by omega) (by omega) hr _).mono fun hc' ⟨sc, uc⟩ => ⟨sc, fun j j1 j2 hn => ?_⟩
  exact uc.other (posOf_ne (by omega) (by omega) (by omega) (by omega) (by omega) (by omega) (by omega) (by omega) hs.small (by omega)) (k1 j j1 j2 hn)

/-! ### The shifts and the start vector -/

theorem hqrShiftMat_nan {h : FA Float} (hs : HqrShape h r c) {kdefl i l : Int} (hl : 1 ≤ l) (hli : l + 2 ≤ i) (hir : i ≤ r) (hic : i ≤ c)
    (hn : kdefl = 1 ∧ (NC r h i (i - 1) ∨ NC r h (i - 1) (i - 1) ∨ NC r h i i) ∨ ∀ j, l < j → j ≤ i → NC r h j (j - 1)) :
    Ret (hqrShiftMat h kdefl i l) fun q => q.1.isNaN = true ∨ q.2.1.isNaN = true ∨ q.2.2.1.isNaN = true ∨ q.2.2.2.isNaN = true := by
  have g : ∀ {a b : Int}, 1 ≤ a → a ≤ i → 1 ≤ b → b ≤ i → Ret (h.get2 a b) fun x => NC r h a b → x.isNaN = true := by
    intro a b a1 a2 b1 b2
    refine (get2_val hs (by omega) (by omega) (by omega) (by omega) (by omega)).mono fun x hx hn => ?_
    obtain ⟨y, hy, hy'⟩ := hn
    rw [hx y hy]; exact hy'
  unfold hqrShiftMat
  refine Ret.ite (fun hk => ?_) fun hk => Ret.ite (fun hk' => ?_) fun hk' => ?_
  · have hn' := hn.resolve_left (fun h => by rw [h.1] at hk; exact absurd hk (by decide))
    refine Ret.bind (g (by omega) (by omega) (by omega) (by omega)) fun x hx => Ret.bind (g (by omega) (by omega) (by omega) (by omega)) fun _ _ => ?_
    refine Ret.bind (g (by omega) (by omega) (by omega) (by omega)) fun _ _ => Ret.pure ?_
    exact Or.inr (Or.inr (Or.inl (nan_add_left (nan_abs (hx (hn' i (by omega) (by omega)))) _)))
  · have hn' := hn.resolve_left (fun h => by rw [h.1] at hk'; exact absurd hk' (by decide))
    refine Ret.bind (g (by omega) (by omega) (by omega) (by omega)) fun x hx => Ret.bind (g (by omega) (by omega) (by omega) (by omega)) fun _ _ => ?_
    refine Ret.bind (g (by omega) (by omega) (by omega) (by omega)) fun _ _ => Ret.pure ?_
    have := hn' (l + 1) (by omega) (by omega)
    rw [show l + 1 - 1 = l by ring] at this
    exact Or.inr (Or.inr (Or.inl (nan_add_left (nan_abs (hx this)) _)))
  · have hn' : NC r h i (i - 1) ∨ NC r h (i - 1) (i - 1) ∨ NC r h i i := hn.elim (fun h => h.2) fun h => Or.inl (h i (by omega) (by omega))
    refine Ret.bind (g (by omega) (by omega) (by omega) (by omega)) fun x1 h1 => Ret.bind (g (by omega) (by omega) (by omega) (by omega)) fun _ _ => ?_
    refine Ret.bind (g (by omega) (by omega) (by omega) (by omega)) fun x2 h2 => ?_
    refine Ret.bind (g (by omega) (by omega) (by omega) (by omega)) fun x3 h3 => Ret.pure ?_
    rcases hn' with h | h | h
    · exact Or.inr (Or.inr (Or.inl (h2 h)))
    · exact Or.inl (h1 h)
    · exact Or.inr (Or.inr (Or.inr (h3 h)))

theorem hqrShifts_nan {h11 h12 h21 h22 : Float} (h : h11.isNaN = true ∨ h12.isNaN = true ∨ h21.isNaN = true ∨ h22.isNaN = true) :
    (hqrShifts h11 h12 h21 h22).1.isNaN = true ∧ (hqrShifts h11 h12 h21 h22).2.2.1.isNaN = true := by
  have hs : (Scalar.abs h11 + Scalar.abs h12 + Scalar.abs h21 + Scalar.abs h22).isNaN = true := by
    rcases h with h | h | h | h
    · exact nan_add_left (nan_add_left (nan_add_left (nan_abs h) _) _) _
    · exact nan_add_left (nan_add_left (nan_add_right _ (nan_abs h)) _) _
    · exact nan_add_left (nan_add_right _ (nan_abs h)) _
    · exact nan_add_right _ (nan_abs h)
  unfold hqrShifts
  generalize Scalar.abs h11 + Scalar.abs h12 + Scalar.abs h21 + Scalar.abs h22 = s at hs ⊢
  dsimp only
  rw [nan_beq_left hs]
  simp only [Bool.false_eq_true, if_false]
  split
  · exact ⟨nan_mul_right _ hs, nan_mul_right _ hs⟩
  · split
    · exact ⟨nan_mul_right _ hs, nan_mul_right _ hs⟩
    · exact ⟨nan_mul_right _ hs, nan_mul_right _ hs⟩

theorem hqrStartVec_nan {h : FA Float} (hs : HqrShape h r c) (a b b' : Float) {a' : Float} (ha : a'.isNaN = true) {m i : Int} (hm : 1 ≤ m) (hmi : m + 2 ≤ i)
    (hir : i ≤ r) (hic : i ≤ c) {v : FA Float} (hv : VShape v) : Ret (hqrStartVec h a b a' b' m v) fun w => VShape w ∧ VN w := by
  have g : ∀ {a b : Int}, 1 ≤ a → a ≤ i → 1 ≤ b → b ≤ i → Ret (h.get2 a b) fun _ => True :=
    fun a1 a2 b1 b2 => get2_ret hs (by omega) (by omega) (by omega) (by omega) (by omega)
  unfold hqrStartVec
  refine Ret.bind (g (by omega) (by omega) (by omega) (by omega)) fun h21 _ => Ret.bind (g (by omega) (by omega) (by omega) (by omega)) fun hmm _ => ?_
  refine Ret.bind (g (by omega) (by omega) (by omega) (by omega)) fun h12 _ => Ret.bind (g (by omega) (by omega) (by omega) (by omega)) fun h22 _ => ?_
  refine Ret.bind (g (by omega) (by omega) (by omega) (by omega)) fun h32 _ => ?_
  dsimp only
  have hS : (Scalar.abs (hmm - a') + Scalar.abs b' + Scalar.abs h21).isNaN = true := nan_add_left (nan_add_left (nan_abs (nan_sub_right _ ha)) _) _
  generalize Scalar.abs (hmm - a') + Scalar.abs b' + Scalar.abs h21 = S at hS ⊢
  have hh := nan_div_right h21 hS
  generalize h21 / S = h21s at hh ⊢
  have g1 : (h21s * h12 + (hmm - a) * ((hmm - a') / S) - b * (b' / S)).isNaN = true := nan_sub_left (nan_add_left (nan_mul_left hh _) _) _
  have g2 : (h21s * (hmm + h22 - a - a')).isNaN = true := nan_mul_left hh _
  generalize h21s * h12 + (hmm - a) * ((hmm - a') / S) - b * (b' / S) = x1 at g1 ⊢
  generalize h21s * (hmm + h22 - a - a') = x2 at g2 ⊢
  generalize h21s * h32 = x3
  have W0 := work_of_shape hv
  have W3 := ((((W0.set x1).1).set x2).2.1.set x3).2.2
  have V3 : VShape (((v.set1 1 x1).set1 2 x2).set1 3 x3) := ((hv.set1 _ _).set1 _ _).set1 _ _
  generalize ((v.set1 1 x1).set1 2 x2).set1 3 x3 = w at W3 V3 ⊢
  obtain ⟨e1, e2, e3⟩ := W3.get1
  have hT : (Scalar.abs (w.get1 1) + Scalar.abs (w.get1 2) + Scalar.abs (w.get1 3)).isNaN = true := by
    rw [e1]; exact nan_add_left (nan_add_left (nan_abs g1) _) _
  generalize Scalar.abs (w.get1 1) + Scalar.abs (w.get1 2) + Scalar.abs (w.get1 3) = T at hT ⊢
  refine Ret.pure ⟨((V3.set1 _ _).set1 _ _).set1 _ _, ?_⟩
  have W6 := ((W3.set (w.get1 1 / T)).1.set ((w.set1 1 (w.get1 1 / T)).get1 2 / T)).2.1
  have W7 := (W6.set (((w.set1 1 (w.get1 1 / T)).set1 2 ((w.set1 1 (w.get1 1 / T)).get1 2 / T)).get1 3 / T)).2.2
  obtain ⟨f1, f2, -⟩ := W7.get1
  unfold VN
  rw [f1, f2]
  exact ⟨nan_div_right _ hT, nan_div_right _ hT⟩

theorem hqrStart_nan (p : HqrP Float) {h : FA Float} (hs : HqrShape h r c) (a b b' : Float) {a' : Float} (ha : a'.isNaN = true) {l i : Int} (hl : 1 ≤ l) (hir : i ≤ r)
    (hic : i ≤ c) (L : List Int) (hL : ∀ x ∈ L, l ≤ x ∧ x + 2 ≤ i) (hlL : l ∈ L) {v : FA Float} (hv : VShape v) (m : Int) :
    Ret (hqrStart p h a b a' b' l L v m) fun q => q.1 = l ∧ VShape q.2 ∧ VN q.2 := by
  have g : ∀ {a b : Int}, 1 ≤ a → a ≤ i → 1 ≤ b → b ≤ i → Ret (h.get2 a b) fun _ => True :=
    fun a1 a2 b1 b2 => get2_ret hs (by omega) (by omega) (by omega) (by omega) (by omega)
  induction L generalizing v m with
  | nil => exact absurd hlL (by simp)
  | cons x L ih =>
    have hx := hL x (by simp)
    unfold hqrStart
    refine Ret.bind (hqrStartVec_nan hs _ _ _ ha (by omega) hx.2 hir hic hv) fun w hw => ?_
    refine Ret.ite (fun e => Ret.pure ⟨e, hw⟩) fun hne => ?_
    refine Ret.bind (g (by omega) (by omega) (by omega) (by omega)) fun _ _ => Ret.bind (g (by omega) (by omega) (by omega) (by omega)) fun _ _ => ?_
    refine Ret.bind (g (by omega) (by omega) (by omega) (by omega)) fun _ _ => Ret.bind (g (by omega) (by omega) (by omega) (by omega)) fun _ _ => ?_
    dsimp only
    rw [nan_le_right _ (nan_mul_left (nan_mul_right _ (nan_abs hw.2.1)) _)]
    simp only [Bool.false_eq_true, if_false]
    exact ih (fun y hy => hL y (by simp [hy])) (by rcases List.mem_cons.1 hlL with h | h; · exact absurd h.symm hne
                                                   · exact h) hw.1 x

/-! ### The sweep -/

variable {rz cz : Nat}

/-- Every subdiagonal element of the rows after `l` up to `i` is NaN. -/
def SubN (r : Nat) (h : FA Float) (l i : Int) : Prop := ∀ j, l < j → j ≤ i → NC r h j (j - 1)

theorem hqrChase_nan {p : HqrP Float} (hf : HqrFits p r c rz cz) {l i i1 i2 : Int} (hl : 1 ≤ l) (hih : i ≤ p.ihi) (hi1 : 0 ≤ i1) (hi1' : i1 ≤ l) (hi2 : i2 ≤ i)
    {s : FA Float × FA Float × FA Float} {k : Int} (hmk : l ≤ k) (hki : k ≤ i - 1)
    (hs : SShape p r c rz cz s.1 s.2.1 s.2.2 ∧ (k = l → VN s.2.2) ∧ SubN r s.1 l k ∧ (l < k → k ≤ i - 1 → NC r s.1 (k + 1) (k - 1))) :
    Ret (hqrChase p l l i i1 i2 s k) fun q =>
      SShape p r c rz cz q.1 q.2.1 q.2.2 ∧ (k + 1 = l → VN q.2.2) ∧ SubN r q.1 l (k + 1) ∧ (l < k + 1 → k + 1 ≤ i - 1 → NC r q.1 (k + 1 + 1) (k + 1 - 1)) := by
  obtain ⟨h, z, v⟩ := s
  obtain ⟨hs, hv0, hsub, hb⟩ := hs
  simp only at hs hv0 hsub hb
  have hir := hf.hir
  have hic := hf.hic
  have hr : 1 ≤ r := by omega
  unfold hqrChase
  simp only
  refine Ret.bind (hqrReflector_nan (i := i) hs.h hs.v (by omega) (by omega) (by omega) hmk (by omega) rfl hv0 fun hk => ⟨hsub k hk (le_refl _), hb hk hki⟩) fun q hq => ?_
  obtain ⟨v, t1⟩ := q
  simp only at hq ⊢
  obtain ⟨hq, hq1, ht1⟩ := hq
  refine Ret.bind (hqrStoreCol_nan hs.h hl rfl hmk hki (by omega) (by omega) fun _ => hq1) fun h1 ⟨hh1, hn1⟩ => ?_
  refine Ret.ite (fun h3 => ?_) fun h3 => Ret.ite (fun h2 => ?_) fun _ => by omega
  · refine Ret.bind (refl3Rows_nan hh1 hr (by omega) (by omega) (by omega) (by omega) (by omega) (by omega) (by omega) (by omega)) fun h2 ⟨hh2, k2⟩ => ?_
    refine Ret.bind (refl3Cols_nan hh2 hr hi1 (by omega) (by omega) (by omega) (by omega) (by omega) (by omega) (by omega) (by omega)) fun h4 ⟨hh4, k4, n4⟩ => ?_
    have n4' := n4 ht1 (nan_mul_left ht1 _) (nan_mul_left ht1 _)
    have hsub' : SubN r h4 l (k + 1) := by
      intro j j1 j2
      by_cases e : j = k + 1
      · subst e
        have := (n4' (k + 1) (by omega) (by omega) (by omega)).1
        rwa [show k + 1 - 1 = k by ring]
      · exact k4 _ (k2 _ (hn1 j j1 (by omega) (hsub j j1 (by omega))))
    have hb' : l < k + 1 → k + 1 ≤ i - 1 → NC r h4 (k + 1 + 1) (k + 1 - 1) := fun _ hk => by
      have := (n4' (k + 1 + 1) (by omega) (by omega) (by omega)).1
      rwa [show k + 1 - 1 = k by ring]
    refine Ret.ite (fun hw => ?_) fun hw => Ret.pure ⟨⟨hh4, hs.z, hq⟩, fun _ => by omega, hsub', hb'⟩
    have := hf.z1 hw; have := hf.z2 hw; have := hf.z3 hw; have := hf.z4 hw
    refine Ret.bind (refl3Cols_ret (hs.z hw) (by omega) (by omega) (by omega) (by omega) (by omega) (by omega) (by omega) (by omega) (by omega)) fun z1 hz1 => ?_
    exact Ret.pure ⟨⟨hh4, fun _ => hz1, hq⟩, fun _ => by omega, hsub', hb'⟩
  · refine Ret.bind (refl2Rows_nan hh1 hr (by omega) (by omega) (by omega) (by omega) (by omega) (by omega)) fun h2 ⟨hh2, k2⟩ => ?_
    refine Ret.bind (refl2Cols_nan hh2 hr hi1 (by omega) (by omega) (by omega) (by omega) (by omega) (by omega)) fun h4 ⟨hh4, k4, n4⟩ => ?_
    have n4' := n4 ht1 (nan_mul_left ht1 _)
    have hsub' : SubN r h4 l (k + 1) := by
      intro j j1 j2
      by_cases e : j = k + 1
      · subst e
        have := (n4' (k + 1) (by omega) (by omega) (by omega)).1
        rwa [show k + 1 - 1 = k by ring]
      · exact k4 _ (k2 _ (hn1 j j1 (by omega) (hsub j j1 (by omega))))
    refine Ret.ite (fun hw => ?_) fun hw => Ret.pure ⟨⟨hh4, hs.z, hq⟩, fun _ => by omega, hsub', fun _ _ => by omega⟩
    have := hf.z1 hw; have := hf.z2 hw; have := hf.z3 hw; have := hf.z4 hw
    refine Ret.bind (refl2Cols_ret (hs.z hw) (by omega) (by omega) (by omega) (by omega) (by omega) (by omega) (by omega)) fun z1 hz1 => ?_
    exact Ret.pure ⟨⟨hh4, fun _ => hz1, hq⟩, fun _ => by omega, hsub', fun _ _ => by omega⟩

theorem hqrSweep_nan {p : HqrP Float} (hf : HqrFits p r c rz cz) {i : Int} {s : HqrS Float} (hs : SShape p r c rz cz s.h s.z s.v) (hl : p.ilo ≤ s.l) (hli : s.l + 2 ≤ i)
    (hih : i ≤ p.ihi) (hn : s.kdefl = 0 ∧ (NC r s.h i (i - 1) ∨ NC r s.h (i - 1) (i - 1) ∨ NC r s.h i i) ∨ SubN r s.h s.l i) :
    Ret (hqrSweep p i s) fun s' => SShape p r c rz cz s'.h s'.z s'.v ∧ s'.k = s.k ∧ s'.l = s.l ∧ SubN r s'.h s.l i := by
  have lo1 := hf.lo1
  have hir := hf.hir
  have hic := hf.hic
  have hr : 1 ≤ r := by omega
  unfold hqrSweep
  refine Ret.bind (hqrShiftMat_nan hs.h (by omega) hli (by omega) (by omega) (hn.imp_left fun h => ⟨by rw [h.1]; rfl, h.2⟩)) fun q hq => ?_
  obtain ⟨h11, h12, h21, h22⟩ := q
  simp only at hq ⊢
  have hS := (hqrShifts_nan hq).2
  generalize hqrShifts h11 h12 h21 h22 = e at hS ⊢
  obtain ⟨e1, e2, e3, e4⟩ := e
  simp only at hS ⊢
  refine Ret.bind (hqrStart_nan p hs.h _ _ _ hS (l := s.l) (i := i) (by omega) (by omega) (by omega) _ (fun x hx => ?_) ?_ hs.v s.m) fun q hq => ?_
  · have := mem_irange.1 (List.mem_reverse.1 hx)
    omega
  · exact List.mem_reverse.2 (mem_irange.2 ⟨le_refl _, by omega⟩)
  · obtain ⟨m, v⟩ := q
    simp only at hq ⊢
    obtain ⟨rfl, hv, hvn⟩ := hq
    have := Ret.forUp_idx (f := hqrChase p s.l s.l i (if p.wantt = true then s.l else 0) (if p.wantt = true then i else 0)) (lo := s.l) (hi := i - 1) (s := (s.h, s.z, v))
      (P := fun k (q : FA Float × FA Float × FA Float) => SShape p r c rz cz q.1 q.2.1 q.2.2 ∧ (k = s.l → VN q.2.2) ∧ SubN r q.1 s.l k ∧ (s.l < k → k ≤ i - 1 → NC r q.1 (k + 1) (k - 1)))
      (by omega) ⟨⟨hs.h, hs.z, hv⟩, fun _ => hvn, fun j j1 j2 => by omega, fun h => by omega⟩ fun q k hk1 hk2 hq' =>
        hqrChase_nan hf (by omega) hih (by split <;> omega) (by split <;> omega) (by split <;> omega) hk1 hk2 hq'
    rw [show i - 1 + 1 = i by ring] at this
    exact Ret.bind this fun q hq => Ret.pure ⟨hq.1, rfl, rfl, hq.2.2.1⟩

/-! ### The searches -/

/-- Neither deflation test of row `x` succeeds, because of a NaN. -/
def NN (r : Nat) (p : HqrP Float) (h : FA Float) (x : Int) : Prop :=
  ∃ a, h.get2 x (x - 1) = pure a ∧ (Scalar.abs a ≤ᶠ p.smlnum) = false ∧ (NC r h x (x - 1) ∨ NC r h (x - 1) (x - 1) ∨ NC r h x x)

theorem nn_of_sub {p : HqrP Float} {h : FA Float} (hs : HqrShape h r c) {x : Int} (x1 : 2 ≤ x) (xr : x ≤ r) (xc : x ≤ c) (hn : NC r h x (x - 1)) : NN r p h x := by
  obtain ⟨a, e, ha⟩ := hn.get hs (by omega) (by omega) (by omega) (by omega)
  exact ⟨a, e, nan_le_left (nan_abs ha) _, Or.inl hn⟩

theorem hqrSearch_nan {p : HqrP Float} (hf : HqrFits p r c rz cz) {h : FA Float} (hs : HqrShape h r c) {lo i : Int} (hlo : p.ilo ≤ lo) (hih : i ≤ p.ihi) (L : List Int)
    (hL : ∀ x ∈ L, lo + 1 ≤ x ∧ x ≤ i) (k : Int) :
    Ret (hqrSearch p h L k) fun q => (q ∈ L ∧ ¬ NN r p h q) ∨ q = (L.getLast?.map (· - 1)).getD k := by
  have lo1 := hf.lo1
  have hir := hf.hir
  have hic := hf.hic
  induction L generalizing k with
  | nil => exact Ret.pure (Or.inr rfl)
  | cons x L ih =>
    have hx := hL x (by simp)
    have g : ∀ {a b : Int}, 1 ≤ a → a ≤ p.ihi → 1 ≤ b → b ≤ p.ihi → Ret (h.get2 a b) fun y => h.get2 a b = pure y ∧ (NC r h a b → y.isNaN = true) := by
      intro a b a1 a2 b1 b2
      obtain ⟨y, e, hy⟩ := get2_val hs (a := a) (b := b) (by omega) (by omega) (by omega) (by omega) (by omega)
      refine ⟨y, e, e, fun ⟨y', hy', hn⟩ => ?_⟩
      rw [hy y' hy']; exact hn
    have ih' : Ret (hqrSearch p h L (x - 1)) fun q => (q ∈ x :: L ∧ ¬ NN r p h q) ∨ q = ((x :: L).getLast?.map (· - 1)).getD k := by
      refine (ih (fun y hy => hL y (by simp [hy])) (x - 1)).mono fun q hq => ?_
      rcases hq with hq | hq
      · exact Or.inl ⟨by simp [hq.1], hq.2⟩
      · refine Or.inr ?_
        rw [hq, List.getLast?_cons]
        cases L.getLast? <;> rfl
    unfold hqrSearch
    refine Ret.bind (g (by omega) (by omega) (by omega) (by omega)) fun hkk1 ⟨e1, n1⟩ => Ret.ite (fun hc => Ret.pure (Or.inl ⟨by simp, ?_⟩)) fun _ => ?_
    · rintro ⟨a, e, ha, -⟩
      rw [e1] at e
      obtain rfl : hkk1 = a := Res.ok.inj (congrFun e .debug)
      rw [ha] at hc
      exact absurd hc (by simp)
    refine Ret.bind (g (by omega) (by omega) (by omega) (by omega)) fun hk1k1 ⟨_, n2⟩ => Ret.bind (g (by omega) (by omega) (by omega) (by omega)) fun hkk ⟨_, n3⟩ => ?_
    have tail : ∀ tst : Float, (NN r p h x → tst.isNaN = true ∨ hkk1.isNaN = true) → Ret (if (Scalar.abs hkk1 ≤ᶠ p.ulp * tst) = true then do
        let hk1k ← h.get2 (x - 1) x
        if hqrCrit p hkk1 hk1k hkk hk1k1 = true then pure x else hqrSearch p h L (x - 1)
        else hqrSearch p h L (x - 1)) fun q => (q ∈ x :: L ∧ ¬ NN r p h q) ∨ q = ((x :: L).getLast?.map (· - 1)).getD k := by
      intro tst ht
      refine Ret.ite (fun hc => ?_) fun _ => ih'
      have hnn : ¬ NN r p h x := by
        intro hN
        rcases ht hN with h | h
        · rw [nan_le_right _ (nan_mul_right _ h)] at hc
          exact absurd hc (by simp)
        · rw [nan_le_left (nan_abs h)] at hc
          exact absurd hc (by simp)
      exact Ret.bind (g (by omega) (by omega) (by omega) (by omega)) fun _ _ => Ret.ite (fun _ => Ret.pure (Or.inl ⟨by simp, hnn⟩)) fun _ => ih'
    have ht : NN r p h x → (Scalar.abs hk1k1 + Scalar.abs hkk).isNaN = true ∨ hkk1.isNaN = true := by
      rintro ⟨a, e, ha, h | h | h⟩
      · exact Or.inr (n1 h)
      · exact Or.inl (nan_add_left (nan_abs (n2 h)) _)
      · exact Or.inl (nan_add_right _ (nan_abs (n3 h)))
    refine Ret.ite (fun hz => ?_) fun _ => tail _ ht
    have ht' : ∀ t : Float, NN r p h x → t.isNaN = true ∨ hkk1.isNaN = true := by
      intro t hN
      rcases ht hN with h | h
      · rw [nan_beq_left h] at hz
        exact absurd hz (by simp)
      · exact Or.inr h
    refine Ret.ite (fun _ => ?_) fun _ => ?_
    · refine Ret.bind (g (by omega) (by omega) (by omega) (by omega)) fun _ _ => ?_
      refine Ret.ite (fun _ => ?_) fun _ => tail _ (ht' _)
      exact Ret.bind (g (by omega) (by omega) (by omega) (by omega)) fun _ _ => tail _ (ht' _)
    · refine Ret.ite (fun _ => ?_) fun _ => tail _ (ht' _)
      exact Ret.bind (g (by omega) (by omega) (by omega) (by omega)) fun _ _ => tail _ (ht' _)

theorem getLast_reverse_irange {l i : Int} (h : l < i) : (irange (l + 1) i).reverse.getLast? = some (l + 1) := by
  rw [List.getLast?_reverse]
  obtain ⟨N, hN⟩ : ∃ N : Nat, i - (l + 1) + 1 = N + 1 := ⟨(i - l - 1).toNat, by omega⟩
  unfold irange
  rw [hN, show ((N : Int) + 1).toNat = N + 1 by omega, List.range_succ_eq_map]
  simp

theorem hqrDeflate_nan {p : HqrP Float} (hf : HqrFits p r c rz cz) {i : Int} {s : HqrS Float} (hs : SShape p r c rz cz s.h s.z s.v) (hl : p.ilo ≤ s.l) (hli : s.l < i)
    (hih : i ≤ p.ihi) {t : Int} (ht : s.l ≤ t) (hti : t ≤ i) (hnn : ∀ x, t < x → x ≤ i → NN r p s.h x) :
    Ret (hqrDeflate p i s) fun s' => SShape p r c rz cz s'.h s'.z s'.v ∧ s'.k = s'.l ∧ s.l ≤ s'.l ∧ s'.l ≤ t ∧ s'.kdefl = s.kdefl ∧
      ∀ a b, 1 ≤ a → a ≤ i → 1 ≤ b → b ≤ i → (b = a - 1 → s'.l < a) → NC r s.h a b → NC r s'.h a b := by
  have lo1 := hf.lo1
  have hir := hf.hir
  have hic := hf.hic
  have hL : ∀ x ∈ (irange (s.l + 1) i).reverse, s.l + 1 ≤ x ∧ x ≤ i := fun x hx => mem_irange.1 (List.mem_reverse.1 hx)
  unfold hqrDeflate
  refine Ret.bind (hqrSearch_nan hf hs.h hl hih _ hL s.k) fun k hk => ?_
  rw [getLast_reverse_irange hli] at hk
  have hk' : s.l ≤ k ∧ k ≤ t := by
    rcases hk with ⟨hk, hn⟩ | hk
    · have := hL k hk
      refine ⟨by omega, ?_⟩
      by_contra hc
      exact hn (hnn k (by omega) (by omega))
    · simp at hk; omega
  refine Ret.ite (fun _ => ?_) fun _ => Ret.pure ⟨hs, rfl, hk'.1, hk'.2, rfl, fun a b _ _ _ _ _ h => h⟩
  refine Ret.bind (set2_upd hs.h (by omega) (by omega) (by omega) (by omega) (by omega) _) fun h' ⟨hh', u⟩ =>
    Ret.pure ⟨⟨hh', hs.z, hs.v⟩, rfl, hk'.1, hk'.2, rfl, fun a b a1 a2 b1 b2 hne hn => ?_⟩
  exact u.other (posOf_ne (by omega) (by omega) (by omega) (by omega) (by omega) (by omega) (by omega) (by omega) hs.h.small (by simp only at hne; omega)) hn

theorem hqrRound_nan {p : HqrP Float} (hf : HqrFits p r c rz cz) {i : Int} (hih : i ≤ p.ihi) (s : HqrS Float)
    (hs : SShape p r c rz cz s.h s.z s.v) (hl : p.ilo ≤ s.l) (hli : s.l + 2 ≤ i)
    (hn : s.kdefl = 0 ∧ NN r p s.h i ∧ NN r p s.h (i - 1) ∨ SubN r s.h s.l i) :
    Ret (hqrDeflate p i s) fun s' => SShape p r c rz cz s'.h s'.z s'.v ∧ p.ilo ≤ s'.l ∧ s'.l + 2 ≤ i ∧
      Ret (hqrSweep p i s') fun s'' => SShape p r c rz cz s''.h s''.z s''.v ∧ s''.l = s'.l ∧ SubN r s''.h s'.l i := by
  have lo1 := hf.lo1
  have hir := hf.hir
  have hic := hf.hic
  rcases hn with ⟨h0, n1, n2⟩ | hn
  · refine (hqrDeflate_nan hf hs hl (by omega) hih (t := i - 2) (by omega) (by omega) fun x x1 x2 => ?_).mono fun s' ⟨s1, s2, s3, s4, s5, s6⟩ => ?_
    · obtain rfl | rfl : x = i ∨ x = i - 1 := by omega
      · exact n1
      · exact n2
    · refine ⟨s1, by omega, by omega, (hqrSweep_nan hf s1 (by omega) (by omega) hih (Or.inl ⟨s5.trans h0, ?_⟩)).mono fun s'' h => ⟨h.1, h.2.2.1, h.2.2.2⟩⟩
      obtain ⟨a, _, _, n | n | n⟩ := n1
      · exact Or.inl (s6 _ _ (by omega) (by omega) (by omega) (by omega) (by omega) n)
      · exact Or.inr (Or.inl (s6 _ _ (by omega) (by omega) (by omega) (by omega) (by omega) n))
      · exact Or.inr (Or.inr (s6 _ _ (by omega) (by omega) (by omega) (by omega) (by omega) n))
  · refine (hqrDeflate_nan hf hs hl (by omega) hih (t := s.l) (by omega) (by omega) fun x x1 x2 =>
      nn_of_sub hs.h (by omega) (by omega) (by omega) (hn x x1 x2)).mono fun s' ⟨s1, s2, s3, s4, s5, s6⟩ => ?_
    have e : s'.l = s.l := by omega
    refine ⟨s1, by omega, by omega, (hqrSweep_nan hf s1 (by omega) (by omega) hih (Or.inr fun j j1 j2 => ?_)).mono fun s'' h => ⟨h.1, h.2.2.1, h.2.2.2⟩⟩
    exact s6 j (j - 1) (by omega) (by omega) (by omega) (by omega) (by omega) (hn j (by omega) j2)

theorem hqrInner_nan {p : HqrP Float} (hf : HqrFits p r c rz cz) {i : Int} (hih : i ≤ p.ihi) (rounds its : Nat) (s : HqrS Float)
    (hs : SShape p r c rz cz s.h s.z s.v) (hl : p.ilo ≤ s.l) (hli : s.l + 2 ≤ i)
    (hn : s.kdefl = 0 ∧ NN r p s.h i ∧ NN r p s.h (i - 1) ∨ SubN r s.h s.l i) :
    Ret (hqrInner p i rounds its s) fun q => SShape p r c rz cz q.1.h q.1.z q.1.v ∧ q.2 = its + rounds ∧ p.ilo ≤ q.1.l ∧ q.1.l + 2 ≤ i ∧ SubN r q.1.h q.1.l i := by
  induction rounds generalizing its s with
  | zero =>
    unfold hqrInner
    refine Ret.bind (hqrRound_nan hf hih s hs hl hli hn) fun s' ⟨s1, s2, s3, s4⟩ => ?_
    rw [if_neg (by omega)]
    exact Ret.bind s4 fun s'' h => Ret.pure ⟨h.1, rfl, by simp only; omega, by simp only; omega, by simp only; rw [h.2.1]; exact h.2.2⟩
  | succ n ih =>
    unfold hqrInner
    refine Ret.bind (hqrRound_nan hf hih s hs hl hli hn) fun s' ⟨s1, s2, s3, s4⟩ => ?_
    rw [if_neg (by omega)]
    refine Ret.bind s4 fun s'' ⟨h1, h2, h3⟩ => ?_
    refine (ih (its + 1) s'' h1 (by omega) (by omega) (Or.inr (by rw [h2]; exact h3))).mono fun q hq => ⟨hq.1, by omega, hq.2.2⟩

end

end Verif
