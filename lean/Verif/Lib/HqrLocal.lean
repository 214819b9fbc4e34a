import Verif.Lib.Sim
import Verif.Lib.HqrSafe
import Verif.Lib.HqrTwoG

/-!
# Two runs of `dlahqr` whose arrays `h` agree on the active block

Any scalar arithmetic, Schur form wanted.  The runs read the same values and take the same decisions, and what they write stays in the rows of the block.
-/

namespace Verif
open Scalar

section
variable {α β γ δ σ τ ι : Type}

theorem Sim.bindPost {rel' : γ → δ → Prop} {x : R α} {P : α → Prop} {f : α → R γ} {g : α → R δ} (hp : Post x P) (hf : ∀ a, P a → Sim rel' (f a) (g a)) :
    Sim rel' (x >>= f) (x >>= g) := by
  intro p
  rw [R.bind_apply, R.bind_apply]
  have := hp p
  generalize x p = u at this ⊢
  cases u with
  | ok a => exact hf a (this a rfl) p
  | panic e => exact .panic e
  | exit s i => exact .exit s i
  | timeout => exact .timeout

theorem Sim.mono {rel rel' : α → β → Prop} {x : R α} {y : R β} (h : Sim rel x y) (hr : ∀ a b, rel a b → rel' a b) : Sim rel' x y := by
  intro p
  have hp := h p
  generalize x p = u at hp ⊢
  generalize y p = w at hp ⊢
  cases hp with
  | ok hab => exact .ok (hr _ _ hab)
  | panic e => exact .panic e
  | exit s i => exact .exit s i
  | timeout => exact .timeout

theorem Sim.foldlM_mem {rel : σ → τ → Prop} {f : σ → ι → R σ} {g : τ → ι → R τ} (l : List ι) {s : σ} {t : τ}
    (hs : rel s t) (hf : ∀ s t, ∀ i ∈ l, rel s t → Sim rel (f s i) (g t i)) : Sim rel (l.foldlM f s) (l.foldlM g t) := by
  induction l generalizing s t with
  | nil => exact Sim.pure hs
  | cons i l ih =>
    rw [List.foldlM_cons, List.foldlM_cons]
    exact Sim.bind (hf s t i (by simp) hs) fun a b hab => ih hab fun s t j hj => hf s t j (by simp [hj])

theorem Sim.forUp_mem {rel : σ → τ → Prop} {f : σ → Int → R σ} {g : τ → Int → R τ} {lo hi : Int} {s : σ} {t : τ}
    (hs : rel s t) (hf : ∀ s t i, lo ≤ i → i ≤ hi → rel s t → Sim rel (f s i) (g t i)) :
    Sim rel (Verif.forUp lo hi s f) (Verif.forUp lo hi t g) :=
  Sim.foldlM_mem _ hs fun s t i hi h => hf s t i (mem_irange.1 hi).1 (mem_irange.1 hi).2 h

theorem Ret.toPost {x : R α} {P : α → Prop} (h : Ret x P) : Post x P := by
  obtain ⟨a, rfl, ha⟩ := h
  exact Post.pure ha

end

variable {F : Type} [Scalar F]

/-- The entries of `h` that may be written: in the rows of the block, not left of it, at most four places below the diagonal. -/
def InRows (p : HqrP F) (a b : Int) : Prop := p.ilo ≤ a ∧ a ≤ p.ihi ∧ p.ilo ≤ b ∧ (b ≤ p.ihi ∨ b ≤ p.n) ∧ a ≤ b + 4

/-- The two arrays agree on the block, down to the fourth subdiagonal; elsewhere each is as it was. -/
def HqrLoc (p : HqrP F) (r c : Nat) (g0 g0' : Int → Int → F) (h h' : FA F) : Prop :=
  ∃ g g', Is2 h r c (r * c) g ∧ Is2 h' r c (r * c) g' ∧
    (∀ a b, p.ilo ≤ a → a ≤ p.ihi → p.ilo ≤ b → b ≤ p.ihi → a ≤ b + 4 → g a b = g' a b) ∧
    (∀ a b, ¬ InRows p a b → g a b = g0 a b) ∧ ∀ a b, ¬ InRows p a b → g' a b = g0' a b

section
variable {p : HqrP F} {r c rz cz : Nat} {g0 g0' : Int → Int → F} {h h' : FA F}

theorem HqrLoc.get (L : HqrLoc p r c g0 g0' h h') (hf : HqrFits p r c rz cz) (hL : r * c < 2 ^ 31) {a b : Int} (a1 : p.ilo ≤ a) (a2 : a ≤ p.ihi) (b1 : p.ilo ≤ b)
    (b2 : b ≤ p.ihi) (ab : a ≤ b + 4) : h'.get2 a b = h.get2 a b := by
  obtain ⟨g, g', e, e', ag, -, -⟩ := L
  have := hf.lo1; have := hf.hir; have := hf.hic
  have hc : Cell r (r * c) a b := cell_rc (by omega) (by omega) (by omega) (by omega)
  rw [get2_is2 e hc hL, get2_is2 e' hc hL, ag a b a1 a2 b1 b2 ab]

theorem HqrLoc.modify (L : HqrLoc p r c g0 g0' h h') (hf : HqrFits p r c rz cz) (hL : r * c < 2 ^ 31) {a b : Int} (a1 : p.ilo ≤ a) (a2 : a ≤ p.ihi) (b1 : p.ilo ≤ b)
    (b2 : b ≤ p.ihi) (ab : a ≤ b + 4) (f : F → F) : Sim (HqrLoc p r c g0 g0') (h.modify2 a b f) (h'.modify2 a b f) := by
  obtain ⟨g, g', e, e', ag, f1, f2⟩ := L
  have := hf.lo1; have := hf.hir; have := hf.hic
  have hc : Cell r (r * c) a b := cell_rc (by omega) (by omega) (by omega) (by omega)
  obtain ⟨h1, w1, s1⟩ := modify2_is2 e hc hL f
  obtain ⟨h2, w2, s2⟩ := modify2_is2 e' hc hL f
  rw [w1, w2]
  refine Sim.pure ⟨_, _, s1, s2, fun x y x1 x2 y1 y2 xy => ?_, fun x y hn => ?_, fun x y hn => ?_⟩
  · unfold upd2
    rw [ag a b a1 a2 b1 b2 ab, ag x y x1 x2 y1 y2 xy]
  · unfold upd2
    rw [if_neg (by rintro ⟨rfl, rfl⟩; exact hn ⟨a1, a2, b1, Or.inl b2, ab⟩)]
    exact f1 x y hn
  · unfold upd2
    rw [if_neg (by rintro ⟨rfl, rfl⟩; exact hn ⟨a1, a2, b1, Or.inl b2, ab⟩)]
    exact f2 x y hn

theorem HqrLoc.set (L : HqrLoc p r c g0 g0' h h') (hf : HqrFits p r c rz cz) (hL : r * c < 2 ^ 31) {a b : Int} (a1 : p.ilo ≤ a) (a2 : a ≤ p.ihi) (b1 : p.ilo ≤ b)
    (b2 : b ≤ p.ihi) (ab : a ≤ b + 4) (x : F) : Sim (HqrLoc p r c g0 g0') (h.set2 a b x) (h'.set2 a b x) := L.modify hf hL a1 a2 b1 b2 ab _

theorem HqrLoc.shape (L : HqrLoc p r c g0 g0' h h') (hL : r * c < 2 ^ 31) : HqrShape h r c ∧ HqrShape h' r c := by
  obtain ⟨g, g', e, e', -⟩ := L
  exact ⟨is2_hqrShape e hL, is2_hqrShape e' hL⟩

theorem refl2Rows_loc (L : HqrLoc p r c g0 g0' h h') (hf : HqrFits p r c rz cz) (hL : r * c < 2 ^ 31) {lo hi r1 r2 : Int} (v2 t1 t2 : F) (hlo : p.ilo ≤ lo) (hhi : hi ≤ p.ihi)
    (q1 : p.ilo ≤ r1) (q1' : r1 ≤ p.ihi) (q2 : p.ilo ≤ r2) (q2' : r2 ≤ p.ihi) (w1 : r1 ≤ lo + 4) (w2 : r2 ≤ lo + 4) :
    Sim (HqrLoc p r c g0 g0') (refl2Rows lo hi r1 r2 v2 t1 t2 h) (refl2Rows lo hi r1 r2 v2 t1 t2 h') := by
  unfold refl2Rows
  refine Sim.forUp_mem L fun s t j j1 j2 L => ?_
  rw [L.get hf hL q1 q1' (by omega) (by omega) (by omega), L.get hf hL q2 q2' (by omega) (by omega) (by omega)]
  refine Sim.bind' fun x1 => Sim.bind' fun x2 => ?_
  exact Sim.bind (L.set hf hL q1 q1' (by omega) (by omega) (by omega) _) fun a b L => L.modify hf hL q2 q2' (by omega) (by omega) (by omega) _

theorem refl2Cols_loc (L : HqrLoc p r c g0 g0' h h') (hf : HqrFits p r c rz cz) (hL : r * c < 2 ^ 31) {lo hi c1 c2 : Int} (v2 t1 t2 : F) (hlo : p.ilo ≤ lo) (hhi : hi ≤ p.ihi)
    (q1 : p.ilo ≤ c1) (q1' : c1 ≤ p.ihi) (q2 : p.ilo ≤ c2) (q2' : c2 ≤ p.ihi) (w1 : hi ≤ c1 + 4) (w2 : hi ≤ c2 + 4) :
    Sim (HqrLoc p r c g0 g0') (refl2Cols lo hi c1 c2 v2 t1 t2 h) (refl2Cols lo hi c1 c2 v2 t1 t2 h') := by
  unfold refl2Cols
  refine Sim.forUp_mem L fun s t j j1 j2 L => ?_
  rw [L.get hf hL (by omega) (by omega) q1 q1' (by omega), L.get hf hL (by omega) (by omega) q2 q2' (by omega)]
  refine Sim.bind' fun x1 => Sim.bind' fun x2 => ?_
  exact Sim.bind (L.set hf hL (by omega) (by omega) q1 q1' (by omega) _) fun a b L => L.modify hf hL (by omega) (by omega) q2 q2' (by omega) _

theorem refl3Rows_loc (L : HqrLoc p r c g0 g0' h h') (hf : HqrFits p r c rz cz) (hL : r * c < 2 ^ 31) {lo hi r1 r2 r3 : Int} (v2 v3 t1 t2 t3 : F) (hlo : p.ilo ≤ lo)
    (hhi : hi ≤ p.ihi) (q1 : p.ilo ≤ r1) (q1' : r1 ≤ p.ihi) (q2 : p.ilo ≤ r2) (q2' : r2 ≤ p.ihi) (q3 : p.ilo ≤ r3) (q3' : r3 ≤ p.ihi) (w1 : r1 ≤ lo + 4) (w2 : r2 ≤ lo + 4)
    (w3 : r3 ≤ lo + 4) :
    Sim (HqrLoc p r c g0 g0') (refl3Rows lo hi r1 r2 r3 v2 v3 t1 t2 t3 h) (refl3Rows lo hi r1 r2 r3 v2 v3 t1 t2 t3 h') := by
  unfold refl3Rows
  refine Sim.forUp_mem L fun s t j j1 j2 L => ?_
  rw [L.get hf hL q1 q1' (by omega) (by omega) (by omega), L.get hf hL q2 q2' (by omega) (by omega) (by omega), L.get hf hL q3 q3' (by omega) (by omega) (by omega)]
  refine Sim.bind' fun x1 => Sim.bind' fun x2 => Sim.bind' fun x3 => ?_
  refine Sim.bind (L.set hf hL q1 q1' (by omega) (by omega) (by omega) _) fun a b L => ?_
  exact Sim.bind (L.modify hf hL q2 q2' (by omega) (by omega) (by omega) _) fun a b L => L.modify hf hL q3 q3' (by omega) (by omega) (by omega) _

theorem refl3Cols_loc (L : HqrLoc p r c g0 g0' h h') (hf : HqrFits p r c rz cz) (hL : r * c < 2 ^ 31) {lo hi c1 c2 c3 : Int} (v2 v3 t1 t2 t3 : F) (hlo : p.ilo ≤ lo)
    (hhi : hi ≤ p.ihi) (q1 : p.ilo ≤ c1) (q1' : c1 ≤ p.ihi) (q2 : p.ilo ≤ c2) (q2' : c2 ≤ p.ihi) (q3 : p.ilo ≤ c3) (q3' : c3 ≤ p.ihi) (w1 : hi ≤ c1 + 4) (w2 : hi ≤ c2 + 4)
    (w3 : hi ≤ c3 + 4) :
    Sim (HqrLoc p r c g0 g0') (refl3Cols lo hi c1 c2 c3 v2 v3 t1 t2 t3 h) (refl3Cols lo hi c1 c2 c3 v2 v3 t1 t2 t3 h') := by
  unfold refl3Cols
  refine Sim.forUp_mem L fun s t j j1 j2 L => ?_
  rw [L.get hf hL (by omega) (by omega) q1 q1' (by omega), L.get hf hL (by omega) (by omega) q2 q2' (by omega), L.get hf hL (by omega) (by omega) q3 q3' (by omega)]
  refine Sim.bind' fun x1 => Sim.bind' fun x2 => Sim.bind' fun x3 => ?_
  refine Sim.bind (L.set hf hL (by omega) (by omega) q1 q1' (by omega) _) fun a b L => ?_
  exact Sim.bind (L.modify hf hL (by omega) (by omega) q2 q2' (by omega) _) fun a b L => L.modify hf hL (by omega) (by omega) q3 q3' (by omega) _

/-! ### Reading -/

theorem hqrSearch_loc (L : HqrLoc p r c g0 g0' h h') (hf : HqrFits p r c rz cz) (hL : r * c < 2 ^ 31) (l : List Int) (hl : ∀ x ∈ l, p.ilo + 1 ≤ x ∧ x ≤ p.ihi) (k : Int) :
    hqrSearch p h' l k = hqrSearch p h l k := by
  induction l generalizing k with
  | nil => rfl
  | cons x l ih =>
    have hx := hl x (by simp)
    have ih' := ih fun y hy => hl y (by simp [hy])
    unfold hqrSearch
    rw [L.get hf hL (a := x) (b := x - 1) (by omega) (by omega) (by omega) (by omega) (by omega),
      L.get hf hL (a := x - 1) (b := x - 1) (by omega) (by omega) (by omega) (by omega) (by omega),
      L.get hf hL (a := x) (b := x) (by omega) (by omega) (by omega) (by omega) (by omega),
      L.get hf hL (a := x - 1) (b := x) (by omega) (by omega) (by omega) (by omega) (by omega)]
    by_cases q1 : x - 2 ≥ p.ilo
    · by_cases q2 : x + 1 ≤ p.ihi
      · simp only [ih', if_pos q1, if_pos q2, L.get hf hL (a := x - 1) (b := x - 2) (by omega) (by omega) (by omega) (by omega) (by omega),
          L.get hf hL (a := x + 1) (b := x) (by omega) (by omega) (by omega) (by omega) (by omega)]
      · simp only [ih', if_pos q1, if_neg q2, L.get hf hL (a := x - 1) (b := x - 2) (by omega) (by omega) (by omega) (by omega) (by omega)]
    · by_cases q2 : x + 1 ≤ p.ihi
      · simp only [ih', if_neg q1, if_pos q2, L.get hf hL (a := x + 1) (b := x) (by omega) (by omega) (by omega) (by omega) (by omega)]
      · simp only [ih', if_neg q1, if_neg q2]

theorem hqrShiftMat_loc (L : HqrLoc p r c g0 g0' h h') (hf : HqrFits p r c rz cz) (hL : r * c < 2 ^ 31) (kdefl : Int) {i l : Int} (hl : p.ilo ≤ l) (hli : l + 2 ≤ i)
    (hi : i ≤ p.ihi) : hqrShiftMat h' kdefl i l = hqrShiftMat h kdefl i l := by
  have g : ∀ {a b : Int}, l ≤ a → a ≤ i → l ≤ b → b ≤ i → a ≤ b + 4 → h'.get2 a b = h.get2 a b := fun a1 a2 b1 b2 ab =>
    L.get hf hL (by omega) (by omega) (by omega) (by omega) ab
  unfold hqrShiftMat
  rw [g (a := i) (b := i - 1) (by omega) (by omega) (by omega) (by omega) (by omega), g (a := i - 1) (b := i - 2) (by omega) (by omega) (by omega) (by omega) (by omega),
    g (a := i) (b := i) (by omega) (by omega) (by omega) (by omega) (by omega), g (a := l + 1) (b := l) (by omega) (by omega) (by omega) (by omega) (by omega),
    g (a := l + 2) (b := l + 1) (by omega) (by omega) (by omega) (by omega) (by omega), g (a := l) (b := l) (by omega) (by omega) (by omega) (by omega) (by omega),
    g (a := i - 1) (b := i - 1) (by omega) (by omega) (by omega) (by omega) (by omega), g (a := i - 1) (b := i) (by omega) (by omega) (by omega) (by omega) (by omega)]

theorem hqrStart_loc (L : HqrLoc p r c g0 g0' h h') (hf : HqrFits p r c rz cz) (hL : r * c < 2 ^ 31) (a b a' b' : F) {i l : Int} (hl : p.ilo ≤ l) (hi : i ≤ p.ihi)
    (xs : List Int) (hx : ∀ x ∈ xs, l ≤ x ∧ x + 2 ≤ i) (v : FA F) (m : Int) : hqrStart p h' a b a' b' l xs v m = hqrStart p h a b a' b' l xs v m := by
  have g : ∀ {a b : Int}, l ≤ a → a ≤ i → l ≤ b → b ≤ i → a ≤ b + 4 → h'.get2 a b = h.get2 a b := fun a1 a2 b1 b2 ab =>
    L.get hf hL (by omega) (by omega) (by omega) (by omega) ab
  induction xs generalizing v m with
  | nil => rfl
  | cons x xs ih =>
    have hx' := hx x (by simp)
    have ih' := ih fun y hy => hx y (by simp [hy])
    have ev : hqrStartVec h' a b a' b' x v = hqrStartVec h a b a' b' x v := by
      unfold hqrStartVec
      rw [g (a := x + 1) (b := x) (by omega) (by omega) (by omega) (by omega) (by omega), g (a := x) (b := x) (by omega) (by omega) (by omega) (by omega) (by omega),
        g (a := x) (b := x + 1) (by omega) (by omega) (by omega) (by omega) (by omega), g (a := x + 1) (b := x + 1) (by omega) (by omega) (by omega) (by omega) (by omega),
        g (a := x + 2) (b := x + 1) (by omega) (by omega) (by omega) (by omega) (by omega)]
    unfold hqrStart
    rw [ev]
    by_cases e : x = l
    · simp only [if_pos e]
    · simp only [if_neg e, ih']
      rw [g (a := x) (b := x - 1) (by omega) (by omega) (by omega) (by omega) (by omega), g (a := x - 1) (b := x - 1) (by omega) (by omega) (by omega) (by omega) (by omega),
        g (a := x) (b := x) (by omega) (by omega) (by omega) (by omega) (by omega), g (a := x + 1) (b := x + 1) (by omega) (by omega) (by omega) (by omega) (by omega)]

theorem dcopy_src {n : Int} (h1 : 1 ≤ n) (h2 : n ≤ 3) (x x' : List F) (v : FA F)
    (e : ∀ i, 1 ≤ i → i ≤ n → (ToFA.toFa x' : FA F).get1 i = (ToFA.toFa x : FA F).get1 i) : dcopy (F := F) n x' 1 v 1 = dcopy (F := F) n x 1 v 1 := by
  unfold dcopy dcopyFA
  have hm : n.tmod 7 = n := Int.tmod_eq_of_lt (by omega) (by omega)
  simp only [hm]
  simp only [and_self, if_true]
  rw [if_neg (by omega), if_pos ⟨by omega, by omega⟩, if_neg (by omega), if_pos ⟨by omega, by omega⟩]
  have : (forUp 1 n (ToFA.toFa v : FA F) fun dy i => (pure (dy.set1 i ((ToFA.toFa x' : FA F).get1 i)) : R (FA F))) =
      forUp 1 n (ToFA.toFa v : FA F) fun dy i => pure (dy.set1 i ((ToFA.toFa x : FA F).get1 i)) := by
    unfold forUp
    have : ∀ (l : List Int) (s : FA F), (∀ i ∈ l, 1 ≤ i ∧ i ≤ n) → (l.foldlM (fun dy i => (pure (dy.set1 i ((ToFA.toFa x' : FA F).get1 i)) : R (FA F))) s) =
        l.foldlM (fun dy i => pure (dy.set1 i ((ToFA.toFa x : FA F).get1 i))) s := by
      intro l
      induction l with
      | nil => intro s _; rfl
      | cons i l ih =>
        intro s hl
        rw [List.foldlM_cons, List.foldlM_cons, e i (hl i (by simp)).1 (hl i (by simp)).2, pure_bind, pure_bind]
        exact ih _ fun j hj => hl j (by simp [hj])
    exact this _ _ fun i hi => mem_irange.1 hi
  rw [this]

theorem hqrReflector_loc (L : HqrLoc p r c g0 g0' h h') (hf : HqrFits p r c rz cz) (hL : r * c < 2 ^ 31) {m k nr i : Int} (v : FA F) (hm : p.ilo ≤ m) (hmk : m ≤ k)
    (hki : k + 1 ≤ i) (hi : i ≤ p.ihi) (hnr : nr = min 3 (i - k + 1)) : hqrReflector h' m k nr v = hqrReflector h m k nr v := by
  have := hf.lo1; have := hf.hir; have := hf.hic
  unfold hqrReflector
  by_cases hk : k > m
  · simp only [if_pos hk]
    obtain ⟨g, g', e, e', ag, -, -⟩ := L
    have hc : Cell r (r * c) k (k - 1) := cell_rc (by omega) (by omega) (by omega) (by omega)
    obtain ⟨x, ex, gx⟩ := from2_get e hL (len_shape e.rows e.cols hL (by omega)) hc
    obtain ⟨x', ex', gx'⟩ := from2_get e' hL (len_shape e'.rows e'.cols hL (by omega)) hc
    rw [ex, ex']
    simp only [pure_bind]
    rw [dcopy_src (by omega) (by omega) x x' v fun j j1 j2 => ?_]
    obtain ⟨d, rfl⟩ : ∃ d : Nat, j = d + 1 := ⟨(j - 1).toNat, by omega⟩
    have hc' : Cell r (r * c) (k + d) (k - 1) := cell_rc (by omega) (by omega) (by omega) (by omega)
    rw [gx d (by omega) hc', gx' d (by omega) hc', ag (k + d) (k - 1) (by omega) (by omega) (by omega) (by omega) (by omega)]
  · simp only [if_neg hk]

/-! ### One sweep -/

theorem hqrStoreCol_loc (L : HqrLoc p r c g0 g0' h h') (hf : HqrFits p r c rz cz) (hL : r * c < 2 ^ 31) {m k l i : Int} (t1 : F) (v : FA F) (hl : p.ilo ≤ l) (hm : l ≤ m)
    (hk : m ≤ k) (hki : k ≤ i - 1) (hi : i ≤ p.ihi) : Sim (HqrLoc p r c g0 g0') (hqrStoreCol m l i k t1 v h) (hqrStoreCol m l i k t1 v h') := by
  unfold hqrStoreCol
  refine Sim.ite (fun hc => ?_) fun _ => Sim.ite (fun hc => L.modify hf hL (by omega) (by omega) (by omega) (by omega) (by omega) _) fun _ => Sim.pure L
  refine Sim.bind (L.set hf hL (by omega) (by omega) (by omega) (by omega) (by omega) _) fun a b L => ?_
  refine Sim.bind (L.set hf hL (by omega) (by omega) (by omega) (by omega) (by omega) _) fun a b L => ?_
  exact Sim.ite (fun _ => L.set hf hL (by omega) (by omega) (by omega) (by omega) (by omega) _) fun _ => Sim.pure L

theorem hqrChase_loc (hf : HqrFits p r c rz cz) (hL : r * c < 2 ^ 31) {m l i : Int} (hl : p.ilo ≤ l) (hlm : l ≤ m) (hih : i ≤ p.ihi)
    {s s' : FA F × FA F × FA F} (hs : HqrLoc p r c g0 g0' s.1 s'.1 ∧ s.2 = s'.2) {k : Int} (hmk : m ≤ k) (hki : k ≤ i - 1) :
    Sim (fun q q' => HqrLoc p r c g0 g0' q.1 q'.1 ∧ q.2 = q'.2) (hqrChase p m l i l i s k) (hqrChase p m l i l i s' k) := by
  obtain ⟨h, z, v⟩ := s
  obtain ⟨h', z', v'⟩ := s'
  obtain ⟨L, e⟩ := hs
  obtain ⟨rfl, rfl⟩ := Prod.mk.inj e
  unfold hqrChase
  simp only at L ⊢
  rw [hqrReflector_loc L hf hL (i := i) v (by omega) hmk (by omega) hih rfl]
  refine Sim.bind' fun q => ?_
  obtain ⟨v, t1⟩ := q
  simp only
  refine Sim.bind (hqrStoreCol_loc L hf hL t1 v hl hlm hmk hki hih) fun h1 h1' L => ?_
  refine Sim.ite (fun h3 => ?_) fun h3 => Sim.ite (fun h2 => ?_) fun _ => Sim.pure ⟨L, rfl⟩
  · refine Sim.bind (refl3Rows_loc L hf hL _ _ _ _ _ (by omega) (by omega) (by omega) (by omega) (by omega) (by omega) (by omega) (by omega) (by omega) (by omega) (by omega)) fun h2 h2' L => ?_
    refine Sim.bind (refl3Cols_loc L hf hL _ _ _ _ _ (by omega) (by omega) (by omega) (by omega) (by omega) (by omega) (by omega) (by omega) (by omega) (by omega) (by omega)) fun h4 h4' L => ?_
    exact Sim.ite (fun _ => Sim.bind' fun z1 => Sim.pure ⟨L, rfl⟩) fun _ => Sim.pure ⟨L, rfl⟩
  · refine Sim.bind (refl2Rows_loc L hf hL _ _ _ (by omega) (by omega) (by omega) (by omega) (by omega) (by omega) (by omega) (by omega)) fun h2 h2' L => ?_
    refine Sim.bind (refl2Cols_loc L hf hL _ _ _ (by omega) (by omega) (by omega) (by omega) (by omega) (by omega) (by omega) (by omega)) fun h4 h4' L => ?_
    exact Sim.ite (fun _ => Sim.bind' fun z1 => Sim.pure ⟨L, rfl⟩) fun _ => Sim.pure ⟨L, rfl⟩

/-- Related states of the inner loop. -/
def HqrSLoc (p : HqrP F) (r c rz cz : Nat) (g0 g0' : Int → Int → F) (s s' : HqrS F) : Prop :=
  HqrLoc p r c g0 g0' s.h s'.h ∧ s' = { s with h := s'.h } ∧ SShape p r c rz cz s.h s.z s.v

theorem hqrSweep_loc (hf : HqrFits p r c rz cz) (hw : p.wantt = true) (hL : r * c < 2 ^ 31) {i : Int} {s s' : HqrS F} (hs : HqrSLoc p r c rz cz g0 g0' s s') (hl : p.ilo ≤ s.l)
    (hli : s.l + 2 ≤ i) (hih : i ≤ p.ihi) : Sim (fun t t' => HqrLoc p r c g0 g0' t.h t'.h ∧ t' = { t with h := t'.h }) (hqrSweep p i s) (hqrSweep p i s') := by
  obtain ⟨L, e, S⟩ := hs
  obtain ⟨h', z, v, m, k, l, kd⟩ := s'
  obtain ⟨h, z', v', m', k', l', kd'⟩ := s
  simp only [HqrS.mk.injEq, true_and] at e
  obtain ⟨rfl, rfl, rfl, rfl, rfl, rfl⟩ := e
  simp only at L S hl hli
  have := hf.lo1; have := hf.hir; have := hf.hic
  unfold hqrSweep
  simp only [hw, if_true]
  rw [hqrShiftMat_loc L hf hL _ hl hli hih]
  refine Sim.bind' fun q => ?_
  obtain ⟨h11, h12, h21, h22⟩ := q
  simp only
  obtain ⟨e1, e2, e3, e4⟩ : F × F × F × F := hqrShifts h11 h12 h21 h22
  have hx : ∀ x ∈ (irange l (i - 2)).reverse, l ≤ x ∧ x + 2 ≤ i := fun x hx => by
    have := mem_irange.1 (List.mem_reverse.1 hx)
    omega
  simp only
  rw [hqrStart_loc L hf hL _ _ _ _ hl hih _ hx]
  refine Sim.bindPost (hqrStart_ret p S.h (by omega) e1 e2 e3 e4 (l := l) (i := i) (by omega) (by omega) (by omega) _ hx S.v m (Or.inl ?_)).toPost fun q hq => ?_
  · intro h
    have : l ∈ (irange l (i - 2)).reverse := List.mem_reverse.2 (mem_irange.2 ⟨le_refl _, by omega⟩)
    rw [h] at this
    exact absurd this (by simp)
  · obtain ⟨m, v⟩ := q
    simp only at hq ⊢
    refine Sim.bind (rel := fun q q' => HqrLoc p r c g0 g0' q.1 q'.1 ∧ q.2 = q'.2) ?_ fun q q' hq => ?_
    · exact Sim.forUp_mem (rel := fun (q q' : FA F × FA F × FA F) => HqrLoc p r c g0 g0' q.1 q'.1 ∧ q.2 = q'.2) ⟨L, rfl⟩ fun q q' k hk1 hk2 hq' =>
        hqrChase_loc hf hL hl hq.1 hih hq' hk1 hk2
    · refine Sim.pure ⟨hq.1, ?_⟩
      simp only [HqrS.mk.injEq, true_and, and_true]
      exact ⟨(congrArg Prod.fst hq.2).symm, (congrArg Prod.snd hq.2).symm⟩

/-! ### The loops -/

theorem hqrDeflate_loc (hf : HqrFits p r c rz cz) (hL : r * c < 2 ^ 31) {i : Int} {s s' : HqrS F} (hs : HqrSLoc p r c rz cz g0 g0' s s') (hl : p.ilo ≤ s.l) (hli : s.l < i)
    (hih : i ≤ p.ihi) : Sim (fun t t' => HqrLoc p r c g0 g0' t.h t'.h ∧ t' = { t with h := t'.h }) (hqrDeflate p i s) (hqrDeflate p i s') := by
  obtain ⟨L, e, S⟩ := hs
  obtain ⟨h', z, v, m, k, l, kd⟩ := s'
  obtain ⟨h, z', v', m', k', l', kd'⟩ := s
  simp only [HqrS.mk.injEq, true_and] at e
  obtain ⟨rfl, rfl, rfl, rfl, rfl, rfl⟩ := e
  simp only at L S hl hli
  have := hf.lo1; have := hf.hir; have := hf.hic
  have hx : ∀ x ∈ (irange (l + 1) i).reverse, l + 1 ≤ x ∧ x ≤ i := fun x hx => mem_irange.1 (List.mem_reverse.1 hx)
  have hne : (irange (l + 1) i).reverse ≠ [] := by
    intro h
    have : i ∈ (irange (l + 1) i).reverse := List.mem_reverse.2 (mem_irange.2 ⟨by omega, le_refl _⟩)
    rw [h] at this
    exact absurd this (by simp)
  unfold hqrDeflate
  simp only
  rw [hqrSearch_loc L hf hL _ fun x hx' => by have := hx x hx'; omega]
  refine Sim.bindPost (hqrSearch_post p h _ k hx (Or.inr hne)) fun k hk => ?_
  refine Sim.ite (fun _ => ?_) fun _ => ?_
  · exact Sim.bind (L.set hf hL (by omega) (by omega) (by omega) (by omega) (by omega) _) fun q q' hq => Sim.pure ⟨hq, rfl⟩
  · exact Sim.bind (Sim.pure L) fun q q' hq => Sim.pure ⟨hq, rfl⟩

theorem Sim.withPost {α β : Type} {rel : α → β → Prop} {P : α → Prop} {x : R α} {y : R β} (h : Sim rel x y) (hp : Post x P) : Sim (fun a b => rel a b ∧ P a) x y := by
  intro q
  have h1 := h q
  have h2 := hp q
  generalize x q = u at h1 h2 ⊢
  generalize y q = w at h1 ⊢
  cases h1 with
  | ok hab => exact .ok ⟨hab, h2 _ rfl⟩
  | panic e => exact .panic e
  | exit s i => exact .exit s i
  | timeout => exact .timeout

theorem hqrInner_loc (hf : HqrFits p r c rz cz) (hw : p.wantt = true) (hL : r * c < 2 ^ 31) {i : Int} (hih : i ≤ p.ihi) (rounds its : Nat) {s s' : HqrS F}
    (hs : HqrSLoc p r c rz cz g0 g0' s s') (hl : p.ilo ≤ s.l) (hli : s.l < i) :
    Sim (fun q q' => HqrLoc p r c g0 g0' q.1.h q'.1.h ∧ q'.1 = { q.1 with h := q'.1.h } ∧ q.2 = q'.2) (hqrInner p i rounds its s) (hqrInner p i rounds its s') := by
  induction rounds generalizing its s s' with
  | zero =>
    unfold hqrInner
    refine Sim.bind ((hqrDeflate_loc hf hL hs hl hli hih).withPost (hqrDeflate_ret hf hs.2.2 hl hli hih).toPost) fun t t' ⟨⟨L, e⟩, S⟩ => ?_
    have el : t'.l = t.l := by rw [e]
    rw [el]
    refine Sim.ite (fun _ => Sim.pure ⟨L, e, rfl⟩) fun hc => ?_
    exact Sim.bind (hqrSweep_loc hf hw hL ⟨L, e, S.1⟩ S.2.2.1 (by omega) hih) fun t t' ⟨L, e⟩ => Sim.pure ⟨L, e, rfl⟩
  | succ n ih =>
    unfold hqrInner
    refine Sim.bind ((hqrDeflate_loc hf hL hs hl hli hih).withPost (hqrDeflate_ret hf hs.2.2 hl hli hih).toPost) fun t t' ⟨⟨L, e⟩, S⟩ => ?_
    have el : t'.l = t.l := by rw [e]
    rw [el]
    refine Sim.ite (fun _ => Sim.pure ⟨L, e, rfl⟩) fun hc => ?_
    refine Sim.bind ((hqrSweep_loc hf hw hL ⟨L, e, S.1⟩ S.2.2.1 (by omega) hih).withPost (hqrSweep_ret hf S.1 S.2.2.1 (by omega) hih).toPost) fun u u' ⟨⟨L, e⟩, S'⟩ => ?_
    exact ih _ ⟨L, e, S'.1⟩ (by rw [S'.2.2]; exact S.2.2.1) (by rw [S'.2.2]; omega)

/-! ### Recording eigenvalues, and the outer loop -/

theorem hqrTwo_loc (hf : HqrFits p r c rz cz) (hw : p.wantt = true) (hL : r * c < 2 ^ 31) {i : Int} (hlo : p.ilo ≤ i - 1) (hih : i ≤ p.ihi) {a a' : HqrA F}
    (L : HqrLoc p r c g0 g0' a.h a'.h) (e : a' = { a with h := a'.h }) :
    Sim (fun q q' => HqrLoc p r c g0 g0' q.h q'.h ∧ q' = { q with h := q'.h }) (hqrTwo p i a) (hqrTwo p i a') := by
  obtain ⟨h', wr, wi, z⟩ := a'
  obtain ⟨h, wr', wi', z'⟩ := a
  simp only [HqrA.mk.injEq, true_and] at e
  obtain ⟨rfl, rfl, rfl⟩ := e
  simp only at L
  have := hf.lo1; have := hf.hir; have := hf.hic
  unfold hqrTwo
  simp only [hw, if_true]
  rw [L.get hf hL (a := i - 1) (b := i - 1) (by omega) (by omega) (by omega) (by omega) (by omega), L.get hf hL (a := i - 1) (b := i) (by omega) (by omega) (by omega) (by omega) (by omega),
    L.get hf hL (a := i) (b := i - 1) (by omega) (by omega) (by omega) (by omega) (by omega), L.get hf hL (a := i) (b := i) (by omega) (by omega) (by omega) (by omega) (by omega)]
  refine Sim.bind' fun x1 => Sim.bind' fun x2 => Sim.bind' fun x3 => Sim.bind' fun x4 => ?_
  generalize dlanv2 x1 x2 x3 x4 = o
  refine Sim.bind (L.set hf hL (by omega) (by omega) (by omega) (by omega) (by omega) _) fun k1 k1' L => ?_
  refine Sim.bind (L.set hf hL (by omega) (by omega) (by omega) (by omega) (by omega) _) fun k2 k2' L => ?_
  refine Sim.bind (L.set hf hL (by omega) (by omega) (by omega) (by omega) (by omega) _) fun k3 k3' L => ?_
  refine Sim.bind (L.set hf hL (by omega) (by omega) (by omega) (by omega) (by omega) _) fun k4 k4' L => ?_
  refine Sim.bind (rel := HqrLoc p r c g0 g0') ?_ fun k5 k5' L => ?_
  · obtain ⟨g, g', s, s', ag, f1, f2⟩ := L
    obtain ⟨q, e1, t1⟩ := hqrRotH_exact s hL p (i := i) (hf.ld hw) (by omega) (by omega) (by omega) (hf.nc hw) o.cs o.sn
    obtain ⟨q', e2, t2⟩ := hqrRotH_exact s' hL p (i := i) (hf.ld hw) (by omega) (by omega) (by omega) (hf.nc hw) o.cs o.sn
    rw [e1, e2]
    refine Sim.pure ⟨_, _, t1, t2, fun x y x1 x2 y1 y2 xy => ?_, fun x y hn => ?_, fun x y hn => ?_⟩
    · beta_reduce
      by_cases c1 : x = i - 1 ∧ y = i + 1 ∧ y ≤ p.n
      · rw [if_pos c1, if_pos c1, ag (i - 1) y (by omega) (by omega) y1 y2 (by omega), ag i y (by omega) (by omega) y1 y2 (by omega)]
      · rw [if_neg c1, if_neg c1]
        by_cases c2 : x = i ∧ i + 1 ≤ y ∧ y ≤ p.n
        · rw [if_pos c2, if_pos c2, ag (i - 1) y (by omega) (by omega) y1 y2 (by omega), ag i y (by omega) (by omega) y1 y2 (by omega)]
        · rw [if_neg c2, if_neg c2, ag x y x1 x2 y1 y2 xy]
    · unfold InRows at hn
      beta_reduce
      rw [if_neg (by omega), if_neg (by omega)]
      exact f1 x y hn
    · unfold InRows at hn
      beta_reduce
      rw [if_neg (by omega), if_neg (by omega)]
      exact f2 x y hn
  · exact Sim.ite (fun _ => Sim.bind' fun _ => Sim.pure ⟨L, rfl⟩) fun _ => Sim.bind' fun _ => Sim.pure ⟨L, rfl⟩

theorem hqrRecord_loc (hf : HqrFits p r c rz cz) (hw : p.wantt = true) (hL : r * c < 2 ^ 31) {i l : Int} (hlo : p.ilo ≤ l) (hli : l ≤ i) (hih : i ≤ p.ihi) {a a' : HqrA F}
    (L : HqrLoc p r c g0 g0' a.h a'.h) (e : a' = { a with h := a'.h }) :
    Sim (fun q q' => HqrLoc p r c g0 g0' q.h q'.h ∧ q' = { q with h := q'.h }) (hqrRecord p i l a) (hqrRecord p i l a') := by
  unfold hqrRecord
  refine Sim.ite (fun _ => ?_) fun _ => Sim.ite (fun _ => hqrTwo_loc hf hw hL (by omega) hih L e) fun _ => Sim.pure ⟨L, e⟩
  rw [L.get hf hL (a := i) (b := i) (by omega) (by omega) (by omega) (by omega) (by omega)]
  refine Sim.bind' fun x => Sim.pure ⟨L, ?_⟩
  rw [e]

theorem hqrOuter_loc (hf : HqrFits p r c rz cz) (hw : p.wantt = true) (hL : r * c < 2 ^ 31) (hlh : p.ilo < p.ihi) (fuel : Nat) (i : Int) (hih : i ≤ p.ihi) (a a' : HqrA F)
    (ha : AShape p r c rz cz a) (L : HqrLoc p r c g0 g0' a.h a'.h) (e : a' = { a with h := a'.h }) (v : FA F) (hv : VShape v) (m k : Int) (hk : i = p.ilo → k = p.ilo + 1) :
    Sim (fun q q' => HqrLoc p r c g0 g0' q.1.h q'.1.h ∧ q'.1 = { q.1 with h := q'.1.h } ∧ q.2 = q'.2) (hqrOuter p fuel a v m k i) (hqrOuter p fuel a' v m k i) := by
  have := hf.lo1; have := hf.hir; have := hf.hic
  induction fuel generalizing i a a' v m k with
  | zero => exact Sim.timeout
  | succ fuel ih =>
    by_cases hi : i = p.ilo
    · have S := L.shape hL
      rw [hk hi, hi, hqrOuter_stuck (N := p.ihi) p (fuel + 1) a v m _ (hqrShape_is2 S.1 (by omega)) hL (fun x y x1 x2 y1 y2 => cell_rc x1 (by omega) y1 (by omega)) (by omega) (by omega),
        hqrOuter_stuck (N := p.ihi) p (fuel + 1) a' v m _ (hqrShape_is2 S.2 (by omega)) hL (fun x y x1 x2 y1 y2 => cell_rc x1 (by omega) y1 (by omega)) (by omega) (by omega)]
      exact Sim.timeout
    · unfold hqrOuter
      refine Sim.ite (fun _ => Sim.pure ⟨L, e, rfl⟩) fun hlo => ?_
      have ez : a'.z = a.z := by rw [e]
      refine Sim.bind ((hqrInner_loc hf hw hL hih p.itmax 0 (s := ⟨a.h, a.z, v, m, k, p.ilo, 0⟩) (s' := ⟨a'.h, a'.z, v, m, k, p.ilo, 0⟩)
        ⟨L, by simp only [ez], ⟨ha.h, ha.z, hv⟩⟩ (le_refl _) (by simp only; omega)).withPost
          (hqrInner_ret hf hih p.itmax 0 ⟨a.h, a.z, v, m, k, p.ilo, 0⟩ ⟨ha.h, ha.z, hv⟩ (le_refl _) (by simp only; omega)).toPost) fun q q' ⟨⟨L1, e1, e2⟩, S, hkl, hl1, hl2⟩ => ?_
      obtain ⟨s, its⟩ := q
      obtain ⟨s', its'⟩ := q'
      simp only at L1 e1 e2 S hkl hl1 hl2 ⊢
      obtain rfl := e2
      have ea : ({ a' with h := s'.h, z := s'.z } : HqrA F) = { ({ a with h := s.h, z := s.z } : HqrA F) with h := s'.h } := by rw [e, e1]
      have es : s'.l = s.l ∧ s'.v = s.v ∧ s'.m = s.m ∧ s'.k = s.k := by rw [e1]; exact ⟨rfl, rfl, rfl, rfl⟩
      refine Sim.ite (fun _ => Sim.pure ⟨L1, ea, rfl⟩) fun _ => ?_
      rw [es.1, es.2.1, es.2.2.1, es.2.2.2]
      have hA : AShape p r c rz cz { a with h := s.h, z := s.z } := ⟨S.h, S.z⟩
      refine Sim.bind ((hqrRecord_loc hf hw hL hl1 hl2 hih (a := { a with h := s.h, z := s.z }) (a' := { a' with h := s'.h, z := s'.z }) L1 ea).withPost
        (hqrRecord_ret hf hl1 hl2 hih hA).toPost) fun b b' ⟨⟨L2, e3⟩, S2⟩ => ?_
      exact ih (s.l - 1) (by omega) b b' S2 L2 e3 s.v S.v s.m s.k (by omega)

theorem hqrMain_loc {wantz : Bool} {n ilo ihi ldh iloz ihiz : Int} (hf : HqrFits (hqrParams true wantz n ilo ihi ldh iloz ihiz : HqrP F) r c rz cz) (hL : r * c < 2 ^ 31)
    (hlh : ilo < ihi) (fuel : Nat) {g g' : Int → Int → F} (a a' : HqrA F) (hg : Is2 a.h r c (r * c) g) (hg' : Is2 a'.h r c (r * c) g')
    (hz : wantz = true → HqrShape a.z rz cz) (e : a' = { a with h := a'.h })
    (hag : ∀ x y, ilo ≤ x → x ≤ ihi → ilo ≤ y → y ≤ ihi → (x ≤ y + 1 ∨ x = y + 4) → g x y = g' x y) :
    Sim (fun q q' => HqrLoc (hqrParams true wantz n ilo ihi ldh iloz ihiz : HqrP F) r c g g' q.1.h q'.1.h ∧ q'.1 = { q.1 with h := q'.1.h } ∧ q.2 = q'.2)
      (hqrMain fuel true wantz n ilo ihi ldh iloz ihiz a) (hqrMain fuel true wantz n ilo ihi ldh iloz ihiz a') := by
  have h1 : 1 ≤ ilo := hf.lo1
  have h2 : ihi ≤ r := hf.hir
  have h3 : ihi ≤ c := hf.hic
  obtain ⟨k, c1, s1⟩ := hqrClear_exact ilo ihi a.h g hg hL h1 h2 h3
  obtain ⟨k', c2, s2⟩ := hqrClear_exact ilo ihi a'.h g' hg' hL h1 h2 h3
  unfold hqrMain
  rw [c1, c2]
  simp only [pure_bind]
  refine hqrOuter_loc hf rfl hL hlh fuel ihi (le_refl _) { a with h := k } { a' with h := k' } ⟨is2_hqrShape s1 hL, hz⟩ ⟨_, _, s1, s2, fun x y x1 x2 y1 y2 xy => ?_, fun x y hn => ?_, fun x y hn => ?_⟩
    (by rw [e]) _ ⟨rfl, Or.inr (by simp [faOfVec, wrap32]), rfl⟩ _ _ (by intro hi; exact absurd hi (ne_of_gt hlh))
  · have x1' : ilo ≤ x := x1
    have x2' : x ≤ ihi := x2
    have y1' : ilo ≤ y := y1
    have y2' : y ≤ ihi := y2
    beta_reduce
    by_cases c1 : ilo ≤ y ∧ x ≤ ihi ∧ (x = y + 2 ∨ x = y + 3)
    · rw [if_pos c1, if_pos c1]
    · rw [if_neg c1, if_neg c1, hag x y x1 x2 y1 y2 (by omega)]
  all_goals
    beta_reduce
    rw [if_neg]
    rintro ⟨y1, x2, hxy⟩
    refine hn ⟨?_, x2, y1, Or.inl ?_, ?_⟩
    · show ilo ≤ x; omega
    · show y ≤ ihi; omega
    · omega

end

end Verif
