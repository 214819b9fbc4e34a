import Verif.Lib.HqrTop
import Verif.Props.HqrStuck
import Verif.Props.HqrExact

/-!
# `dlahqr` does not panic, whatever the data and the arithmetic

Any scalar arithmetic.  `Ret x P` says that `x` is a normal return, the same in both build profiles, of a value satisfying `P`.
-/

namespace Verif
open Scalar

/-- `x` returns normally, with the same value in both build profiles, and that value satisfies `P`. -/
def Ret {α : Type} (x : R α) (P : α → Prop) : Prop := ∃ a, x = pure a ∧ P a

section
variable {α β σ : Type}

theorem Ret.pure {a : α} {P : α → Prop} (h : P a) : Ret (pure a : R α) P := ⟨a, rfl, h⟩

theorem Ret.bind {x : R α} {f : α → R β} {P : α → Prop} {Q : β → Prop} (hx : Ret x P) (hf : ∀ a, P a → Ret (f a) Q) : Ret (x >>= f) Q := by
  obtain ⟨a, rfl, ha⟩ := hx
  rw [pure_bind]
  exact hf a ha

theorem Ret.mono {x : R α} {P Q : α → Prop} (h : Ret x P) (hpq : ∀ a, P a → Q a) : Ret x Q := by
  obtain ⟨a, e, ha⟩ := h
  exact ⟨a, e, hpq a ha⟩

theorem Ret.post {x : R α} {P Q : α → Prop} (h : Ret x P) (hp : Post x Q) : Ret x Q := by
  obtain ⟨a, rfl, _⟩ := h
  exact ⟨a, rfl, hp .debug a rfl⟩

theorem Ret.ite {c : Prop} [Decidable c] {x y : R α} {P : α → Prop} (hx : c → Ret x P) (hy : ¬ c → Ret y P) : Ret (if c then x else y) P := by
  split
  · exact hx ‹_›
  · exact hy ‹_›

theorem Ret.foldlM {ι : Type} {P : σ → Prop} {f : σ → ι → R σ} (l : List ι) {s : σ} (hs : P s)
    (hf : ∀ s i, i ∈ l → P s → Ret (f s i) P) : Ret (l.foldlM f s) P := by
  induction l generalizing s with
  | nil => exact Ret.pure hs
  | cons i l ih =>
    rw [List.foldlM_cons]
    exact Ret.bind (hf s i (by simp) hs) fun a ha => ih ha fun s i hi hs => hf s i (by simp [hi]) hs

theorem Ret.forUp {P : σ → Prop} {f : σ → Int → R σ} {lo hi : Int} {s : σ} (hs : P s)
    (hf : ∀ s i, lo ≤ i → i ≤ hi → P s → Ret (f s i) P) : Ret (forUp lo hi s f) P :=
  Ret.foldlM _ hs fun s i hi hs => hf s i (mem_irange.1 hi).1 (mem_irange.1 hi).2 hs

end

variable {F : Type} [Scalar F]

section
variable {r c : Nat}

theorem get2_ret {h : FA F} (hs : HqrShape h r c) {a b : Int} (a0 : 0 ≤ a) (a1 : a ≤ r) (b1 : 1 ≤ b) (b2 : b ≤ c) (hr : 1 ≤ r) :
    Ret (h.get2 a b) fun _ => True := by
  unfold FA.get2
  rw [off_top hs a0 a1 b1 b2 hr, pure_bind]
  exact Ret.pure trivial

theorem modify2_ret {h : FA F} (hs : HqrShape h r c) {a b : Int} (a0 : 0 ≤ a) (a1 : a ≤ r) (b1 : 1 ≤ b) (b2 : b ≤ c) (hr : 1 ≤ r) (f : F → F) :
    Ret (h.modify2 a b f) fun h' => HqrShape h' r c := by
  refine Ret.post (P := fun _ => True) ?_ ((modify2_shape h a b f).mono fun _ h' => hs.same h')
  unfold FA.modify2
  rw [off_top hs a0 a1 b1 b2 hr, pure_bind]
  exact Ret.pure trivial

theorem set2_ret {h : FA F} (hs : HqrShape h r c) {a b : Int} (a0 : 0 ≤ a) (a1 : a ≤ r) (b1 : 1 ≤ b) (b2 : b ≤ c) (hr : 1 ≤ r) (x : F) :
    Ret (h.set2 a b x) fun h' => HqrShape h' r c := modify2_ret hs a0 a1 b1 b2 hr _

theorem refl2Rows_ret {lo hi r1 r2 : Int} {v2 t1 t2 : F} {h : FA F} (hs : HqrShape h r c) (hr : 1 ≤ r) (hlo : 1 ≤ lo) (hhi : hi ≤ c)
    (q1 : 0 ≤ r1) (q1' : r1 ≤ r) (q2 : 0 ≤ r2) (q2' : r2 ≤ r) : Ret (refl2Rows lo hi r1 r2 v2 t1 t2 h) fun h' => HqrShape h' r c := by
  unfold refl2Rows
  refine Ret.forUp hs fun s j j1 j2 hb => ?_
  refine Ret.bind (get2_ret hb q1 q1' (by omega) (by omega) hr) fun x1 _ => Ret.bind (get2_ret hb q2 q2' (by omega) (by omega) hr) fun x2 _ => ?_
  exact Ret.bind (set2_ret hb q1 q1' (by omega) (by omega) hr _) fun b hb1 => modify2_ret hb1 q2 q2' (by omega) (by omega) hr _

theorem refl2Cols_ret {lo hi c1 c2 : Int} {v2 t1 t2 : F} {h : FA F} (hs : HqrShape h r c) (hr : 1 ≤ r) (hlo : 0 ≤ lo) (hhi : hi ≤ r)
    (q1 : 1 ≤ c1) (q1' : c1 ≤ c) (q2 : 1 ≤ c2) (q2' : c2 ≤ c) : Ret (refl2Cols lo hi c1 c2 v2 t1 t2 h) fun h' => HqrShape h' r c := by
  unfold refl2Cols
  refine Ret.forUp hs fun s j j1 j2 hb => ?_
  refine Ret.bind (get2_ret hb (by omega) (by omega) q1 q1' hr) fun x1 _ => Ret.bind (get2_ret hb (by omega) (by omega) q2 q2' hr) fun x2 _ => ?_
  exact Ret.bind (set2_ret hb (by omega) (by omega) q1 q1' hr _) fun b hb1 => modify2_ret hb1 (by omega) (by omega) q2 q2' hr _

theorem refl3Rows_ret {lo hi r1 r2 r3 : Int} {v2 v3 t1 t2 t3 : F} {h : FA F} (hs : HqrShape h r c) (hr : 1 ≤ r) (hlo : 1 ≤ lo) (hhi : hi ≤ c)
    (q1 : 0 ≤ r1) (q1' : r1 ≤ r) (q2 : 0 ≤ r2) (q2' : r2 ≤ r) (q3 : 0 ≤ r3) (q3' : r3 ≤ r) :
    Ret (refl3Rows lo hi r1 r2 r3 v2 v3 t1 t2 t3 h) fun h' => HqrShape h' r c := by
  unfold refl3Rows
  refine Ret.forUp hs fun s j j1 j2 hb => ?_
  refine Ret.bind (get2_ret hb q1 q1' (by omega) (by omega) hr) fun x1 _ => Ret.bind (get2_ret hb q2 q2' (by omega) (by omega) hr) fun x2 _ => ?_
  refine Ret.bind (get2_ret hb q3 q3' (by omega) (by omega) hr) fun x3 _ => ?_
  refine Ret.bind (set2_ret hb q1 q1' (by omega) (by omega) hr _) fun b hb1 => ?_
  exact Ret.bind (modify2_ret hb1 q2 q2' (by omega) (by omega) hr _) fun b hb2 => modify2_ret hb2 q3 q3' (by omega) (by omega) hr _

theorem refl3Cols_ret {lo hi c1 c2 c3 : Int} {v2 v3 t1 t2 t3 : F} {h : FA F} (hs : HqrShape h r c) (hr : 1 ≤ r) (hlo : 0 ≤ lo) (hhi : hi ≤ r)
    (q1 : 1 ≤ c1) (q1' : c1 ≤ c) (q2 : 1 ≤ c2) (q2' : c2 ≤ c) (q3 : 1 ≤ c3) (q3' : c3 ≤ c) :
    Ret (refl3Cols lo hi c1 c2 c3 v2 v3 t1 t2 t3 h) fun h' => HqrShape h' r c := by
  unfold refl3Cols
  refine Ret.forUp hs fun s j j1 j2 hb => ?_
  refine Ret.bind (get2_ret hb (by omega) (by omega) q1 q1' hr) fun x1 _ => Ret.bind (get2_ret hb (by omega) (by omega) q2 q2' hr) fun x2 _ => ?_
  refine Ret.bind (get2_ret hb (by omega) (by omega) q3 q3' hr) fun x3 _ => ?_
  refine Ret.bind (set2_ret hb (by omega) (by omega) q1 q1' hr _) fun b hb1 => ?_
  exact Ret.bind (modify2_ret hb1 (by omega) (by omega) q2 q2' hr _) fun b hb2 => modify2_ret hb2 (by omega) (by omega) q3 q3' hr _

theorem hqrShape_is2 {h : FA F} (hs : HqrShape h r c) (hr : 1 ≤ r) : Is2 h r c (r * c) (ofList2 r h.data) :=
  is2_of_matrix ⟨hs.rows, hs.cols, hs.length, hs.small⟩ (by omega)

theorem is2_hqrShape {h : FA F} {g : Int → Int → F} (hh : Is2 h r c (r * c) g) (hL : r * c < 2 ^ 31) : HqrShape h r c :=
  ⟨hh.rows, hh.cols, by rw [hh.data, length_tab2], hL⟩

theorem hqrStoreCol_ret {m k l i : Int} {t1 : F} {v h : FA F} (hs : HqrShape h r c) (hr : 1 ≤ r) (hl : 1 ≤ l) (hm : l ≤ m) (hk : m ≤ k) (hki : k ≤ i - 1)
    (hir : i ≤ r) (hic : i ≤ c) : Ret (hqrStoreCol m l i k t1 v h) fun h' => HqrShape h' r c := by
  unfold hqrStoreCol
  refine Ret.ite (fun hc => ?_) fun _ => Ret.ite (fun hc => modify2_ret hs (by omega) (by omega) (by omega) (by omega) hr _) fun _ => Ret.pure hs
  refine Ret.bind (set2_ret hs (by omega) (by omega) (by omega) (by omega) hr _) fun b hb1 => ?_
  refine Ret.bind (set2_ret hb1 (by omega) (by omega) (by omega) (by omega) hr _) fun b hb2 => ?_
  exact Ret.ite (fun _ => set2_ret hb2 (by omega) (by omega) (by omega) (by omega) hr _) fun _ => Ret.pure hb2

/-! ### The reflector -/

/-- The working vector of `dlahqr`: three elements. -/
structure VShape (v : FA F) : Prop where
  length : v.data.length = 3
  rows : v.rows = 2 ∨ v.rows = 3
  cols : v.cols = 0

theorem VShape.same {v w : FA F} (h : VShape v) (e : SameShape v w) : VShape w :=
  ⟨e.2.2 ▸ h.length, e.1 ▸ h.rows, e.2.1 ▸ h.cols⟩

theorem VShape.set1 {v : FA F} (h : VShape v) (i : Int) (x : F) : VShape (v.set1 i x) := h.same (set1_shape v i x)

/-- A vector of two elements. -/
structure TShape (v : FA F) : Prop where
  length : v.data.length = 2
  rows : v.rows = 2
  cols : v.cols = 0

theorem TShape.same {v w : FA F} (h : TShape v) (e : SameShape v w) : TShape w :=
  ⟨e.2.2 ▸ h.length, e.1 ▸ h.rows, e.2.1 ▸ h.cols⟩

theorem dscal_small {n : Int} (h1 : 1 ≤ n) (h2 : n ≤ 2) (da : F) (x : FA F) : Ret (dscal n da x 1) (SameShape x) := by
  unfold dscal dscalFA
  by_cases h0 : n ≤ 0 ∨ (1 : Int) ≤ 0 ∨ (da =ᶠ one) = true
  · rw [if_pos h0]
    exact Ret.bind (P := fun o => o = none) (Ret.pure rfl) fun o ho => by subst ho; exact Ret.pure (SameShape.refl x)
  · rw [if_neg h0]
    have hm : n.tmod 5 = n := Int.tmod_eq_of_lt (by omega) (by omega)
    simp only [hm]
    simp only [if_true]
    rw [if_pos ⟨by omega, by omega⟩]
    refine Ret.bind (P := fun o => ∃ y, o = some y ∧ SameShape x y) ?_ fun o ho => ?_
    · refine Ret.bind (P := SameShape x) (Ret.forUp (SameShape.refl x) fun s i _ _ hs => Ret.pure (hs.trans (modify1_shape _ _ _))) fun y hy => ?_
      exact Ret.pure ⟨y, rfl, hy⟩
    · obtain ⟨y, rfl, hy⟩ := ho
      exact Ret.pure hy

theorem isub_ret {a b : Int} (h : FitsI32 (a - b)) : Ret (isub a b) fun x => x = a - b := ⟨_, isub_ok h, rfl⟩

theorem dnrm2_small {n : Int} (h1 : 1 ≤ n) (h2 : n ≤ 2) (x : FA F) (hx : TShape x) : Ret (dnrm2 (F := F) n x 1) fun _ => True := by
  obtain ⟨k, rfl⟩ : ∃ k : Nat, n = k := ⟨n.toNat, by omega⟩
  refine ⟨_, dnrm2FA_fold (by omega) (by unfold StrideOK; simp; omega) _ ?_, trivial⟩
  show x.data.length < _
  rw [hx.length]
  norm_num

theorem dlarfgRescale_small {n : Int} (h1 : 2 ≤ n) (h2 : n ≤ 3) (sm rs : F) (k : Nat) (x : FA F) (be al : F) (knt : Nat) (hx : TShape x) :
    Ret (dlarfgRescale (F := F) n 1 sm rs k x be al knt) fun q => TShape q.1 := by
  induction k generalizing x be al knt with
  | zero => exact Ret.pure hx
  | succ k ih =>
    unfold dlarfgRescale
    refine Ret.bind (isub_ret (by unfold FitsI32; omega)) fun d hd => ?_
    subst hd
    refine Ret.bind (dscal_small (by omega) (by omega) _ _) fun y hy => ?_
    have := hx.same hy
    exact Ret.ite (fun _ => Ret.pure this) fun _ => ih _ _ _ _ this

theorem dlarfgFinish_small {n : Int} (h1 : 2 ≤ n) (h2 : n ≤ 3) (sm al be : F) (x : FA F) (knt : Nat) (hx : TShape x) :
    Ret (dlarfgFinish (F := F) n 1 sm al be x knt) fun q => TShape q.2.1 := by
  unfold dlarfgFinish
  refine Ret.bind (isub_ret (by unfold FitsI32; omega)) fun d hd => ?_
  subst hd
  refine Ret.bind (dscal_small (by omega) (by omega) _ _) fun y hy => ?_
  exact Ret.pure (hx.same hy)

theorem dlarfg_small {n : Int} (h1 : 2 ≤ n) (h2 : n ≤ 3) (al : F) (x : FA F) (hx : TShape x) : Ret (dlarfg (F := F) n al x 1) fun q => TShape q.2.1 := by
  unfold dlarfg
  rw [if_neg (by omega)]
  refine Ret.bind (isub_ret (by unfold FitsI32; omega)) fun d hd => ?_
  subst hd
  refine Ret.bind (dnrm2_small (by omega) (by omega) x hx) fun xn _ => ?_
  refine Ret.ite (fun _ => Ret.pure hx) fun _ => Ret.ite (fun _ => ?_) fun _ => dlarfgFinish_small h1 h2 _ _ _ _ _ hx
  refine Ret.bind (dlarfgRescale_small h1 h2 _ _ _ _ _ _ _ hx) fun q hq => ?_
  obtain ⟨y, b, a, k⟩ := q
  refine Ret.bind (isub_ret (by unfold FitsI32; omega)) fun d hd => ?_
  subst hd
  refine Ret.bind (dnrm2_small (by omega) (by omega) y hq) fun xn _ => ?_
  exact dlarfgFinish_small h1 h2 _ _ _ _ _ hq

theorem dcopy_small {n : Int} (h1 : 1 ≤ n) (h2 : n ≤ 3) (x : List F) (v : FA F) : Ret (dcopy (F := F) n x 1 v 1) (SameShape v) := by
  unfold dcopy dcopyFA
  have hm : n.tmod 7 = n := Int.tmod_eq_of_lt (by omega) (by omega)
  simp only [hm]
  simp only [and_self, if_true]
  rw [if_neg (by omega), if_pos ⟨by omega, by omega⟩]
  refine Ret.bind (P := fun o => ∃ y, o = some y ∧ SameShape v y) ?_ fun o ho => ?_
  · refine Ret.bind (P := SameShape v) (Ret.forUp (SameShape.refl v) fun s i _ _ hs => Ret.pure (hs.trans (set1_shape _ _ _))) fun y hy => ?_
    exact Ret.pure ⟨y, rfl, hy⟩
  · obtain ⟨y, rfl, hy⟩ := ho
    exact Ret.pure hy

theorem hqrReflector_ret {m k nr : Int} {h v : FA F} (hs : HqrShape h r c) (hv : VShape v) (hm : 1 ≤ m) (hkr : k ≤ r) (hkc : k ≤ c) (hmk : m ≤ k) (h1 : 2 ≤ nr) (h2 : nr ≤ 3) :
    Ret (hqrReflector h m k nr v) fun q => VShape q.1 := by
  unfold hqrReflector
  have tail : ∀ w : FA F, VShape w → Ret (do
      let l ← w.from1 2
      let q ← dlarfg nr (w.get1 1) (faOfVec l) 1
      let u ← q.2.1.insert 1 q.1
      pure (u, q.2.2)) fun q => VShape q.1 := by
    intro w hw
    have hlen : w.len = pure w.rows := by
      unfold FA.len FA.is2d
      rw [hw.cols]
      simp
    have hd : ∃ x y z, w.data = [x, y, z] := List.length_eq_three.1 hw.length
    obtain ⟨x, y, z, hd⟩ := hd
    have hr2 : (2 : Int) ≤ w.rows := by rcases hw.rows with h | h <;> omega
    refine Ret.bind (P := fun l => l = [y, z]) ⟨[y, z], ?_, rfl⟩ fun l hl => ?_
    · unfold FA.from1
      rw [hlen, pure_bind, if_pos ⟨by norm_num, hr2⟩, hd]
      have : asUsize (2 - 1) = 1 := by decide
      rw [this]
      rfl
    · subst hl
      have ht : TShape (faOfVec [y, z]) := ⟨rfl, by simp [faOfVec, wrap32], rfl⟩
      refine Ret.bind (dlarfg_small h1 h2 _ _ ht) fun q hq => ?_
      obtain ⟨v1, v2, t1⟩ := q
      simp only at hq ⊢
      refine Ret.bind (P := VShape) ?_ fun u hu => Ret.pure hu
      obtain ⟨x', y', hd'⟩ := List.length_eq_two.1 hq.length
      have hlen' : v2.len = pure 2 := by
        unfold FA.len FA.is2d
        rw [hq.cols, hq.rows]
        simp
      unfold FA.insert
      rw [hlen', pure_bind, if_pos ⟨by norm_num, by norm_num⟩, hd']
      have : asUsize 1 - 1 = 0 := by decide
      simp only [this]
      rw [if_pos (by simp)]
      exact Ret.pure ⟨rfl, Or.inl hq.rows, hq.cols⟩
  refine Ret.ite (fun hc => ?_) fun _ => tail v hv
  refine Ret.bind (P := fun _ => True) ⟨_, from2_eq (hqrShape_is2 hs (by omega)) hs.small (len_shape hs.rows hs.cols hs.small (by omega))
    (cell_rc (a := k) (b := k - 1) (by omega) (by omega) (by omega) (by omega)), trivial⟩ fun src _ => ?_
  exact Ret.bind (dcopy_small (by omega) (by omega) _ _) fun w hw => tail w (hv.same hw)

/-! ### One QR sweep -/

theorem hqrShiftMat_ret {h : FA F} (hs : HqrShape h r c) (hr : 1 ≤ r) (kdefl : Int) {i l : Int} (hl : 1 ≤ l) (hli : l + 2 ≤ i) (hir : i ≤ r) (hic : i ≤ c) :
    Ret (hqrShiftMat h kdefl i l) fun _ => True := by
  have g : ∀ {a b : Int}, 1 ≤ a → a ≤ i → 1 ≤ b → b ≤ i → Ret (h.get2 a b) fun _ => True :=
    fun a1 a2 b1 b2 => get2_ret hs (by omega) (by omega) (by omega) (by omega) hr
  unfold hqrShiftMat
  refine Ret.ite (fun _ => ?_) fun _ => Ret.ite (fun _ => ?_) fun _ => ?_
  · refine Ret.bind (g (by omega) (by omega) (by omega) (by omega)) fun _ _ => Ret.bind (g (by omega) (by omega) (by omega) (by omega)) fun _ _ => ?_
    exact Ret.bind (g (by omega) (by omega) (by omega) (by omega)) fun _ _ => Ret.pure trivial
  · refine Ret.bind (g (by omega) (by omega) (by omega) (by omega)) fun _ _ => Ret.bind (g (by omega) (by omega) (by omega) (by omega)) fun _ _ => ?_
    exact Ret.bind (g (by omega) (by omega) (by omega) (by omega)) fun _ _ => Ret.pure trivial
  · refine Ret.bind (g (by omega) (by omega) (by omega) (by omega)) fun _ _ => Ret.bind (g (by omega) (by omega) (by omega) (by omega)) fun _ _ => ?_
    refine Ret.bind (g (by omega) (by omega) (by omega) (by omega)) fun _ _ => ?_
    exact Ret.bind (g (by omega) (by omega) (by omega) (by omega)) fun _ _ => Ret.pure trivial

theorem hqrStartVec_ret {h : FA F} (hs : HqrShape h r c) (hr : 1 ≤ r) (a b a' b' : F) {m i : Int} (hm : 1 ≤ m) (hmi : m + 2 ≤ i) (hir : i ≤ r) (hic : i ≤ c)
    {v : FA F} (hv : VShape v) : Ret (hqrStartVec h a b a' b' m v) VShape := by
  have g : ∀ {a b : Int}, 1 ≤ a → a ≤ i → 1 ≤ b → b ≤ i → Ret (h.get2 a b) fun _ => True :=
    fun a1 a2 b1 b2 => get2_ret hs (by omega) (by omega) (by omega) (by omega) hr
  unfold hqrStartVec
  refine Ret.bind (g (by omega) (by omega) (by omega) (by omega)) fun _ _ => Ret.bind (g (by omega) (by omega) (by omega) (by omega)) fun _ _ => ?_
  refine Ret.bind (g (by omega) (by omega) (by omega) (by omega)) fun _ _ => Ret.bind (g (by omega) (by omega) (by omega) (by omega)) fun _ _ => ?_
  refine Ret.bind (g (by omega) (by omega) (by omega) (by omega)) fun _ _ => ?_
  exact Ret.pure ((((((hv.set1 _ _).set1 _ _).set1 _ _).set1 _ _).set1 _ _).set1 _ _)

theorem hqrStart_ret (p : HqrP F) {h : FA F} (hs : HqrShape h r c) (hr : 1 ≤ r) (a b a' b' : F) {l i : Int} (hl : 1 ≤ l) (hir : i ≤ r) (hic : i ≤ c)
    (L : List Int) (hL : ∀ x ∈ L, l ≤ x ∧ x + 2 ≤ i) {v : FA F} (hv : VShape v) (m : Int) (hm : L ≠ [] ∨ l ≤ m ∧ m + 2 ≤ i) :
    Ret (hqrStart p h a b a' b' l L v m) fun q => l ≤ q.1 ∧ q.1 + 2 ≤ i ∧ VShape q.2 := by
  have g : ∀ {a b : Int}, 1 ≤ a → a ≤ i → 1 ≤ b → b ≤ i → Ret (h.get2 a b) fun _ => True :=
    fun a1 a2 b1 b2 => get2_ret hs (by omega) (by omega) (by omega) (by omega) hr
  induction L generalizing v m with
  | nil =>
    rcases hm with hm | hm
    · exact absurd rfl hm
    · exact Ret.pure ⟨hm.1, hm.2, hv⟩
  | cons x L ih =>
    have hx := hL x (by simp)
    unfold hqrStart
    refine Ret.bind (hqrStartVec_ret hs hr _ _ _ _ (by omega) hx.2 hir hic hv) fun w hw => ?_
    refine Ret.ite (fun _ => Ret.pure ⟨hx.1, hx.2, hw⟩) fun hne => ?_
    refine Ret.bind (g (by omega) (by omega) (by omega) (by omega)) fun _ _ => Ret.bind (g (by omega) (by omega) (by omega) (by omega)) fun _ _ => ?_
    refine Ret.bind (g (by omega) (by omega) (by omega) (by omega)) fun _ _ => Ret.bind (g (by omega) (by omega) (by omega) (by omega)) fun _ _ => ?_
    exact Ret.ite (fun _ => Ret.pure ⟨hx.1, hx.2, hw⟩) fun _ => ih (fun y hy => hL y (by simp [hy])) hw x (Or.inr hx)

/-- The sizes of the arguments of `dlahqr` suit each other. -/
structure HqrFits (p : HqrP F) (r c rz cz : Nat) : Prop where
  lo1 : 1 ≤ p.ilo
  hir : p.ihi ≤ r
  hic : p.ihi ≤ c
  z1 : p.wantz = true → 1 ≤ p.iloz
  z2 : p.wantz = true → p.iloz ≤ p.ihiz
  z3 : p.wantz = true → p.ihiz ≤ rz
  z4 : p.wantz = true → p.ihi ≤ cz
  nc : p.wantt = true → p.n ≤ c
  ld : p.wantt = true → p.ldh = r

/-- The shapes of `h`, `z` and the working vector. -/
structure SShape (p : HqrP F) (r c rz cz : Nat) (h z v : FA F) : Prop where
  h : HqrShape h r c
  z : p.wantz = true → HqrShape z rz cz
  v : VShape v

variable {rz cz : Nat}

theorem hqrChase_ret {p : HqrP F} (hf : HqrFits p r c rz cz) {m l i i1 i2 : Int} (hl : 1 ≤ l) (hlm : l ≤ m) (hih : i ≤ p.ihi) (hi1 : 0 ≤ i1) (hi2 : i2 ≤ i)
    {s : FA F × FA F × FA F} (hs : SShape p r c rz cz s.1 s.2.1 s.2.2) {k : Int} (hmk : m ≤ k) (hki : k ≤ i - 1) :
    Ret (hqrChase p m l i i1 i2 s k) fun q => SShape p r c rz cz q.1 q.2.1 q.2.2 := by
  obtain ⟨h, z, v⟩ := s
  have hir := hf.hir
  have hic := hf.hic
  have hr : 1 ≤ r := by omega
  unfold hqrChase
  simp only
  refine Ret.bind (hqrReflector_ret hs.h hs.v (by omega) (by omega) (by omega) hmk (by omega) (by omega)) fun q hq => ?_
  obtain ⟨v, t1⟩ := q
  simp only at hq ⊢
  refine Ret.bind (hqrStoreCol_ret hs.h hr hl hlm hmk hki (by omega) (by omega)) fun h1 hh1 => ?_
  refine Ret.ite (fun h3 => ?_) fun h3 => Ret.ite (fun h2 => ?_) fun _ => Ret.pure ⟨hh1, hs.z, hq⟩
  · refine Ret.bind (refl3Rows_ret hh1 hr (by omega) (by omega) (by omega) (by omega) (by omega) (by omega) (by omega) (by omega)) fun h2 hh2 => ?_
    refine Ret.bind (refl3Cols_ret hh2 hr hi1 (by omega) (by omega) (by omega) (by omega) (by omega) (by omega) (by omega)) fun h4 hh4 => ?_
    refine Ret.ite (fun hw => ?_) fun hw => Ret.pure ⟨hh4, hs.z, hq⟩
    have := hf.z1 hw; have := hf.z2 hw; have := hf.z3 hw; have := hf.z4 hw
    refine Ret.bind (refl3Cols_ret (hs.z hw) (by omega) (by omega) (by omega) (by omega) (by omega) (by omega) (by omega) (by omega) (by omega)) fun z1 hz1 => ?_
    exact Ret.pure ⟨hh4, fun _ => hz1, hq⟩
  · refine Ret.bind (refl2Rows_ret hh1 hr (by omega) (by omega) (by omega) (by omega) (by omega) (by omega)) fun h2 hh2 => ?_
    refine Ret.bind (refl2Cols_ret hh2 hr hi1 (by omega) (by omega) (by omega) (by omega) (by omega)) fun h4 hh4 => ?_
    refine Ret.ite (fun hw => ?_) fun hw => Ret.pure ⟨hh4, hs.z, hq⟩
    have := hf.z1 hw; have := hf.z2 hw; have := hf.z3 hw; have := hf.z4 hw
    refine Ret.bind (refl2Cols_ret (hs.z hw) (by omega) (by omega) (by omega) (by omega) (by omega) (by omega) (by omega)) fun z1 hz1 => ?_
    exact Ret.pure ⟨hh4, fun _ => hz1, hq⟩

theorem hqrSweep_ret {p : HqrP F} (hf : HqrFits p r c rz cz) {i : Int} {s : HqrS F} (hs : SShape p r c rz cz s.h s.z s.v) (hl : p.ilo ≤ s.l) (hli : s.l + 2 ≤ i)
    (hih : i ≤ p.ihi) : Ret (hqrSweep p i s) fun s' => SShape p r c rz cz s'.h s'.z s'.v ∧ s'.k = s.k ∧ s'.l = s.l := by
  have lo1 := hf.lo1
  have hir := hf.hir
  have hic := hf.hic
  have hr : 1 ≤ r := by omega
  unfold hqrSweep
  refine Ret.bind (hqrShiftMat_ret hs.h hr _ (by omega) hli (by omega) (by omega)) fun q _ => ?_
  obtain ⟨h11, h12, h21, h22⟩ := q
  simp only
  obtain ⟨e1, e2, e3, e4⟩ : F × F × F × F := hqrShifts h11 h12 h21 h22
  refine Ret.bind (hqrStart_ret p hs.h hr _ _ _ _ (l := s.l) (i := i) (by omega) (by omega) (by omega) _ (fun x hx => ?_) hs.v s.m (Or.inl ?_)) fun q hq => ?_
  · have := mem_irange.1 (List.mem_reverse.1 hx)
    omega
  · intro h
    have : s.l ∈ (irange s.l (i - 2)).reverse := List.mem_reverse.2 (mem_irange.2 ⟨le_refl _, by omega⟩)
    rw [h] at this
    exact absurd this (by simp)
  · obtain ⟨m, v⟩ := q
    simp only at hq ⊢
    refine Ret.bind (P := fun q : FA F × FA F × FA F => SShape p r c rz cz q.1 q.2.1 q.2.2) ?_ fun q hq => ?_
    · refine Ret.forUp (P := fun q : FA F × FA F × FA F => SShape p r c rz cz q.1 q.2.1 q.2.2) ⟨hs.h, hs.z, hq.2.2⟩ fun q k hk1 hk2 hq' => ?_
      refine hqrChase_ret hf (by omega) hq.1 hih ?_ ?_ hq' hk1 hk2
      · split <;> omega
      · split <;> omega
    · exact Ret.pure ⟨hq, rfl, rfl⟩

/-! ### The loops -/

theorem hqrSearch_ret {p : HqrP F} (hf : HqrFits p r c rz cz) {h : FA F} (hs : HqrShape h r c) {lo i : Int} (hlo : p.ilo ≤ lo) (hih : i ≤ p.ihi) (L : List Int)
    (hL : ∀ x ∈ L, lo + 1 ≤ x ∧ x ≤ i) (k : Int) : Ret (hqrSearch p h L k) fun _ => True := by
  have lo1 := hf.lo1
  have hir := hf.hir
  have hic := hf.hic
  induction L generalizing k with
  | nil => exact Ret.pure trivial
  | cons x L ih =>
    have hx := hL x (by simp)
    have g : ∀ {a b : Int}, 1 ≤ a → a ≤ p.ihi → 1 ≤ b → b ≤ p.ihi → Ret (h.get2 a b) fun _ => True :=
      fun a1 a2 b1 b2 => get2_ret hs (by omega) (by omega) (by omega) (by omega) (by omega)
    have ih' := fun k => ih (fun y hy => hL y (by simp [hy])) k
    unfold hqrSearch
    refine Ret.bind (g (by omega) (by omega) (by omega) (by omega)) fun hkk1 _ => Ret.ite (fun _ => Ret.pure trivial) fun _ => ?_
    refine Ret.bind (g (by omega) (by omega) (by omega) (by omega)) fun hk1k1 _ => Ret.bind (g (by omega) (by omega) (by omega) (by omega)) fun hkk _ => ?_
    have tail : ∀ tst : F, Ret (if (abs hkk1 ≤ᶠ p.ulp * tst) = true then do
        let hk1k ← h.get2 (x - 1) x
        if hqrCrit p hkk1 hk1k hkk hk1k1 = true then pure x else hqrSearch p h L (x - 1)
        else hqrSearch p h L (x - 1)) fun _ => True := fun tst =>
      Ret.ite (fun _ => Ret.bind (g (by omega) (by omega) (by omega) (by omega)) fun _ _ => Ret.ite (fun _ => Ret.pure trivial) fun _ => ih' _) fun _ => ih' _
    refine Ret.ite (fun _ => ?_) fun _ => tail _
    refine Ret.ite (fun _ => ?_) fun _ => ?_
    · refine Ret.bind (g (by omega) (by omega) (by omega) (by omega)) fun _ _ => ?_
      refine Ret.ite (fun _ => ?_) fun _ => tail _
      exact Ret.bind (g (by omega) (by omega) (by omega) (by omega)) fun _ _ => tail _
    · refine Ret.ite (fun _ => ?_) fun _ => tail _
      exact Ret.bind (g (by omega) (by omega) (by omega) (by omega)) fun _ _ => tail _

theorem hqrDeflate_ret {p : HqrP F} (hf : HqrFits p r c rz cz) {i : Int} {s : HqrS F} (hs : SShape p r c rz cz s.h s.z s.v) (hl : p.ilo ≤ s.l) (hli : s.l < i)
    (hih : i ≤ p.ihi) : Ret (hqrDeflate p i s) fun s' => SShape p r c rz cz s'.h s'.z s'.v ∧ s'.k = s'.l ∧ p.ilo ≤ s'.l ∧ s'.l ≤ i := by
  have lo1 := hf.lo1
  have hir := hf.hir
  have hic := hf.hic
  have hL : ∀ x ∈ (irange (s.l + 1) i).reverse, s.l + 1 ≤ x ∧ x ≤ i := fun x hx => mem_irange.1 (List.mem_reverse.1 hx)
  have hne : (irange (s.l + 1) i).reverse ≠ [] := by
    intro h
    have : i ∈ (irange (s.l + 1) i).reverse := List.mem_reverse.2 (mem_irange.2 ⟨by omega, le_refl _⟩)
    rw [h] at this
    exact absurd this (by simp)
  unfold hqrDeflate
  refine Ret.bind ((hqrSearch_ret hf hs.h hl hih _ hL s.k).post (hqrSearch_post p s.h _ s.k hL (Or.inr hne))) fun k hk => ?_
  refine Ret.ite (fun _ => ?_) fun _ => Ret.pure ⟨hs, rfl, by simp only; omega, by simp only; omega⟩
  exact Ret.bind (set2_ret hs.h (by omega) (by omega) (by omega) (by omega) (by omega) _) fun h' hh' =>
    Ret.pure ⟨⟨hh', hs.z, hs.v⟩, rfl, by simp only; omega, by simp only; omega⟩

theorem hqrInner_ret {p : HqrP F} (hf : HqrFits p r c rz cz) {i : Int} (hih : i ≤ p.ihi) (rounds its : Nat) (s : HqrS F)
    (hs : SShape p r c rz cz s.h s.z s.v) (hl : p.ilo ≤ s.l) (hli : s.l < i) :
    Ret (hqrInner p i rounds its s) fun q => SShape p r c rz cz q.1.h q.1.z q.1.v ∧ q.1.k = q.1.l ∧ p.ilo ≤ q.1.l ∧ q.1.l ≤ i := by
  induction rounds generalizing its s with
  | zero =>
    unfold hqrInner
    refine Ret.bind (hqrDeflate_ret hf hs hl hli hih) fun s' hs' => ?_
    refine Ret.ite (fun _ => Ret.pure hs') fun hc => ?_
    refine Ret.bind (hqrSweep_ret hf hs'.1 hs'.2.2.1 (by omega) hih) fun s'' hs'' => Ret.pure ⟨hs''.1, ?_, ?_, ?_⟩
    · rw [hs''.2.1, hs''.2.2]; exact hs'.2.1
    · rw [hs''.2.2]; exact hs'.2.2.1
    · rw [hs''.2.2]; exact hs'.2.2.2
  | succ n ih =>
    unfold hqrInner
    refine Ret.bind (hqrDeflate_ret hf hs hl hli hih) fun s' hs' => ?_
    refine Ret.ite (fun _ => Ret.pure hs') fun hc => ?_
    refine Ret.bind (hqrSweep_ret hf hs'.1 hs'.2.2.1 (by omega) hih) fun s'' hs'' => ?_
    exact ih _ _ hs''.1 (by rw [hs''.2.2]; exact hs'.2.2.1) (by rw [hs''.2.2]; omega)

/-- The shapes of the arrays between rounds of the outer loop. -/
structure AShape (p : HqrP F) (r c rz cz : Nat) (a : HqrA F) : Prop where
  h : HqrShape a.h r c
  z : p.wantz = true → HqrShape a.z rz cz

theorem hqrTwo_ret {p : HqrP F} (hf : HqrFits p r c rz cz) {i : Int} (hlo : p.ilo ≤ i - 1) (hih : i ≤ p.ihi) {a : HqrA F} (ha : AShape p r c rz cz a) :
    Ret (hqrTwo p i a) (AShape p r c rz cz) := by
  have lo1 := hf.lo1
  have hir := hf.hir
  have hic := hf.hic
  have g : ∀ {x y : Int}, 1 ≤ x → x ≤ p.ihi → 1 ≤ y → y ≤ p.ihi → Ret (a.h.get2 x y) fun _ => True :=
    fun a1 a2 b1 b2 => get2_ret ha.h (by omega) (by omega) (by omega) (by omega) (by omega)
  have st : ∀ {h : FA F}, HqrShape h r c → ∀ {x y : Int} (w : F), 1 ≤ x → x ≤ p.ihi → 1 ≤ y → y ≤ p.ihi → Ret (h.set2 x y w) fun h' => HqrShape h' r c :=
    fun hh _ _ w a1 a2 b1 b2 => set2_ret hh (by omega) (by omega) (by omega) (by omega) (by omega) w
  unfold hqrTwo
  refine Ret.bind (g (by omega) (by omega) (by omega) (by omega)) fun x1 _ => Ret.bind (g (by omega) (by omega) (by omega) (by omega)) fun x2 _ => ?_
  refine Ret.bind (g (by omega) (by omega) (by omega) (by omega)) fun x3 _ => Ret.bind (g (by omega) (by omega) (by omega) (by omega)) fun x4 _ => ?_
  simp only
  refine Ret.bind (st ha.h _ (by omega) (by omega) (by omega) (by omega)) fun h1 hh1 => Ret.bind (st hh1 _ (by omega) (by omega) (by omega) (by omega)) fun h2 hh2 => ?_
  refine Ret.bind (st hh2 _ (by omega) (by omega) (by omega) (by omega)) fun h3 hh3 => Ret.bind (st hh3 _ (by omega) (by omega) (by omega) (by omega)) fun h4 hh4 => ?_
  have tail : ∀ h5 : FA F, HqrShape h5 r c → ∀ (wr wi : FA F) (cs sn : F), Ret (if p.wantz = true then do
        let z ← hqrRotZ p i cs sn a.z
        pure (⟨h5, wr, wi, z⟩ : HqrA F) else do
        let z ← pure a.z
        pure (⟨h5, wr, wi, z⟩ : HqrA F)) (AShape p r c rz cz) := by
    intro h5 hh5 wr wi cs sn
    refine Ret.ite (fun hw => ?_) fun hw => Ret.pure ⟨hh5, ha.z⟩
    have := hf.z1 hw; have := hf.z2 hw; have := hf.z3 hw; have := hf.z4 hw
    obtain ⟨z', e, hz'⟩ := hqrRotZ_ok (hqrShape_is2 (ha.z hw) (by omega)) (ha.z hw).small p (hf.z1 hw) (hf.z2 hw) (hf.z3 hw) (i := i) (by omega) (by omega) cs sn
    rw [e, pure_bind]
    exact Ret.pure ⟨hh5, fun _ => is2_hqrShape hz' (ha.z hw).small⟩
  refine Ret.ite (fun hw => ?_) fun hw => tail _ hh4 _ _ _ _
  obtain ⟨h5, g5, e, hh5, _⟩ := hqrRotH_ok (hqrShape_is2 hh4 (by omega)) hh4.small p (hf.ld hw) (i := i) (by omega) (by omega) (by omega) (hf.nc hw)
    (dlanv2 x1 x2 x3 x4).cs (dlanv2 x1 x2 x3 x4).sn
  rw [e, pure_bind]
  exact tail _ (is2_hqrShape hh5 hh4.small) _ _ _ _

theorem hqrRecord_ret {p : HqrP F} (hf : HqrFits p r c rz cz) {i l : Int} (hlo : p.ilo ≤ l) (hli : l ≤ i) (hih : i ≤ p.ihi) {a : HqrA F} (ha : AShape p r c rz cz a) :
    Ret (hqrRecord p i l a) (AShape p r c rz cz) := by
  have lo1 := hf.lo1
  have hir := hf.hir
  have hic := hf.hic
  unfold hqrRecord
  refine Ret.ite (fun _ => ?_) fun _ => Ret.ite (fun _ => hqrTwo_ret hf (by omega) hih ha) fun _ => Ret.pure ha
  exact Ret.bind (get2_ret ha.h (by omega) (by omega) (by omega) (by omega) (by omega)) fun _ _ => Ret.pure ⟨ha.h, ha.z⟩

/-- The outer loop: it repeats for ever, or returns, the same in both profiles, after at most one round for every row of the active part. -/
theorem hqrOuter_ret {p : HqrP F} (hf : HqrFits p r c rz cz) (hlh : p.ilo < p.ihi) (d : Nat) (i : Int) (hd : i = p.ilo - 1 + d) (hih : i ≤ p.ihi) (a : HqrA F)
    (ha : AShape p r c rz cz a) (v : FA F) (hv : VShape v) (m k : Int) (hk : i = p.ilo → k = p.ilo + 1) :
    (∀ fuel, hqrOuter p fuel a v m k i = R.timeout) ∨
      ∃ q : HqrOut F, (∀ fuel, d < fuel → hqrOuter p fuel a v m k i = pure q) ∧ AShape p r c rz cz q.1 := by
  have lo1 := hf.lo1
  have hir := hf.hir
  have hic := hf.hic
  induction d using Nat.strong_induction_on generalizing i a v m k with
  | _ d ih =>
    rcases (by omega : d = 0 ∨ d = 1 ∨ 2 ≤ d) with h0 | h0 | h0
    · subst h0
      refine Or.inr ⟨(a, 0), fun fuel hfu => ?_, ha⟩
      obtain ⟨f, rfl⟩ : ∃ f, fuel = f + 1 := ⟨fuel - 1, by omega⟩
      unfold hqrOuter
      rw [if_pos (by omega)]
    · subst h0
      have hi : i = p.ilo := by omega
      refine Or.inl fun fuel => ?_
      rw [hk hi, hi]
      exact hqrOuter_stuck (N := p.ihi) p fuel a v m _ (hqrShape_is2 ha.h (by omega)) ha.h.small (fun x y x1 x2 y1 y2 => cell_rc x1 (by omega) y1 (by omega)) lo1 (by omega)
    · obtain ⟨⟨s, its⟩, e1, hs, hkl, hl1, hl2⟩ := hqrInner_ret hf hih p.itmax 0 ⟨a.h, a.z, v, m, k, p.ilo, 0⟩ ⟨ha.h, ha.z, hv⟩ (le_refl _) (by simp only; omega)
      simp only at hs hkl hl1 hl2
      have ha' : AShape p r c rz cz { a with h := s.h, z := s.z } := ⟨hs.h, hs.z⟩
      by_cases hit : its ≥ p.itmax
      · refine Or.inr ⟨({ a with h := s.h, z := s.z }, i), fun fuel hfu => ?_, ha'⟩
        obtain ⟨f, rfl⟩ : ∃ f, fuel = f + 1 := ⟨fuel - 1, by omega⟩
        unfold hqrOuter
        rw [if_neg (by omega), e1, pure_bind]
        simp only
        rw [if_pos hit]
      · obtain ⟨a', e2, ha''⟩ := hqrRecord_ret hf hl1 hl2 hih ha'
        have step : ∀ f, hqrOuter p (f + 1) a v m k i = hqrOuter p f a' s.v s.m s.k (s.l - 1) := by
          intro f
          rw [hqrOuter]
          rw [if_neg (by omega), e1, pure_bind]
          simp only
          rw [if_neg hit, e2, pure_bind]
        obtain ⟨d', hd'⟩ : ∃ d' : Nat, s.l - 1 = p.ilo - 1 + d' := ⟨(s.l - p.ilo).toNat, by omega⟩
        rcases ih d' (by omega) (s.l - 1) hd' (by omega) a' ha'' s.v hs.v s.m s.k (by omega) with h | ⟨q, hq, hq'⟩
        · refine Or.inl fun fuel => ?_
          cases fuel with
          | zero => rfl
          | succ f => rw [step, h]
        · refine Or.inr ⟨q, fun fuel hfu => ?_, hq'⟩
          obtain ⟨f, rfl⟩ : ∃ f, fuel = f + 1 := ⟨fuel - 1, by omega⟩
          rw [step, hq f (by omega)]

theorem hqrClear_ret {ilo ihi : Int} {h : FA F} (hs : HqrShape h r c) (h1 : 1 ≤ ilo) (h2 : ilo ≤ ihi) (hir : ihi ≤ r) (hic : ihi ≤ c) :
    Ret (hqrClear ilo ihi h) fun h' => HqrShape h' r c := by
  unfold hqrClear
  refine Ret.bind (P := fun h' => HqrShape h' r c) (Ret.forUp hs fun s j j1 j2 hs' => ?_) fun h' hh' => ?_
  · exact Ret.bind (set2_ret hs' (by omega) (by omega) (by omega) (by omega) (by omega) _) fun b hb => set2_ret hb (by omega) (by omega) (by omega) (by omega) (by omega) _
  · exact Ret.ite (fun _ => set2_ret hh' (by omega) (by omega) (by omega) (by omega) (by omega) _) fun _ => Ret.pure hh'

end

end Verif
