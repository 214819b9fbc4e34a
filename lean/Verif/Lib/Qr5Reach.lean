import Verif.Lib.Qr5Local

/-!
# A sweep of `dlaqr5` with and without the rows and columns outside the active block

Two runs, of which the first has `wantt = false` and the second `wantt = true`.
-/

namespace Verif
open Scalar Spec

section
variable {σ τ : Type}

theorem forUp_cut {lo m hi : Int} (h1 : lo ≤ m) (h2 : m ≤ hi + 1) (s : σ) (f : σ → Int → R σ) :
    Verif.forUp lo hi s f = Verif.forUp lo (m - 1) s f >>= fun s => Verif.forUp m hi s f := by
  obtain ⟨k, rfl⟩ : ∃ k : Nat, m = lo + k := ⟨(m - lo).toNat, by omega⟩
  induction k generalizing lo s with
  | zero => rw [forUp_empty (lo := lo) (hi := lo + ((0 : Nat) : Int) - 1) (by simp), pure_bind]; simp
  | succ k ih =>
    rw [forUp_cons (lo := lo) (hi := hi) (by omega), forUp_cons (lo := lo) (hi := lo + ((k + 1 : Nat) : Int) - 1) (by push_cast; omega), bind_assoc]
    congr 1
    funext s'
    have := ih (lo := lo + 1) (s := s') (by omega) (by push_cast at h2; omega)
    rw [show lo + 1 + (k : Int) = lo + ((k + 1 : Nat) : Int) by push_cast; ring] at this
    exact this

/-- Steps of the second run only. -/
theorem Sim.forUp_right {rel : σ → τ → Prop} {g : τ → Int → R τ} {lo hi : Int} {s : σ} {t : τ} (h : rel s t)
    (hb : ∀ s t j, lo ≤ j → j ≤ hi → rel s t → Sim rel (Pure.pure s) (g t j)) : Sim rel (Pure.pure s) (Verif.forUp lo hi t g) := by
  have := Sim.forUp_mem (f := fun s _ => Pure.pure s) h hb
  rw [forUp_pure lo hi s fun s _ => s] at this
  rwa [show (irange lo hi).foldl (fun (s : σ) (_ : Int) => s) s = s by generalize irange lo hi = l; induction l <;> simp_all] at this

/-- The second run has more steps at the beginning. -/
theorem Sim.forUp_more_before {rel : σ → τ → Prop} {f : σ → Int → R σ} {g : τ → Int → R τ} {lo lo' hi : Int} {s : σ} {t : τ} (h1 : lo' ≤ lo) (h2 : lo ≤ hi + 1) (h : rel s t)
    (hr : ∀ s t j, lo' ≤ j → j ≤ lo - 1 → rel s t → Sim rel (Pure.pure s) (g t j)) (hb : ∀ s t j, lo ≤ j → j ≤ hi → rel s t → Sim rel (f s j) (g t j)) :
    Sim rel (Verif.forUp lo hi s f) (Verif.forUp lo' hi t g) := by
  rw [forUp_cut h1 h2 t g, ← pure_bind s fun s => Verif.forUp lo hi s f]
  exact Sim.bind (Sim.forUp_right h hr) fun s t h => Sim.forUp_mem h hb

/-- The second run has more steps at the end. -/
theorem Sim.forUp_more_after {rel : σ → τ → Prop} {f : σ → Int → R σ} {g : τ → Int → R τ} {lo hi hi' : Int} {s : σ} {t : τ} (h1 : lo ≤ hi + 1) (h2 : hi ≤ hi') (h : rel s t)
    (hr : ∀ s t j, hi + 1 ≤ j → j ≤ hi' → rel s t → Sim rel (Pure.pure s) (g t j)) (hb : ∀ s t j, lo ≤ j → j ≤ hi → rel s t → Sim rel (f s j) (g t j)) :
    Sim rel (Verif.forUp lo hi s f) (Verif.forUp lo hi' t g) := by
  rw [forUp_cut h1 (by omega : hi + 1 ≤ hi' + 1) t g, show hi + 1 - 1 = hi by ring, ← bind_pure (Verif.forUp lo hi s f)]
  exact Sim.bind (Sim.forUp_mem h hb) fun s t h => Sim.forUp_right h hr

end

variable {F : Type} [Scalar F]

section
variable {D W : Int → Int → Prop} {r c : Nat} {g0 g0' : Int → Int → F} {h h' : FA F}

/-- An update outside `D` in the second array only. -/
theorem Loc2.right (L : Loc2 D W r c g0 g0' h h') (hL : r * c < 2 ^ 31) {a b : Int} (a1 : 1 ≤ a) (a2 : a ≤ r) (b1 : 1 ≤ b) (b2 : b ≤ c) (hd : ¬ D a b) (hw : W a b)
    (f : F → F) : Sim (Loc2 D W r c g0 g0') (pure h) (h'.modify2 a b f) := by
  obtain ⟨g, g', e, e', ag, f1, f2⟩ := L
  have hc : Cell r (r * c) a b := cell_rc a1 a2 b1 b2
  obtain ⟨h2, w2, s2⟩ := modify2_is2 e' hc hL f
  rw [w2]
  refine Sim.pure ⟨_, _, e, s2, fun x y xy => ?_, f1, fun x y hn => ?_⟩
  · unfold upd2
    rw [if_neg (by rintro ⟨rfl, rfl⟩; exact hd xy), ag x y xy]
  · unfold upd2
    rw [if_neg (by rintro ⟨rfl, rfl⟩; exact hn hw)]
    exact f2 x y hn

theorem refl3Cols_more (L : Loc2 D W r c g0 g0' h h') (hL : r * c < 2 ^ 31) {lo lo' hi c1 c2 c3 : Int} (v2 v3 t1 t2 t3 : F)
    (hb : 1 ≤ lo' ∧ lo' ≤ lo ∧ lo ≤ hi + 1 ∧ hi ≤ r ∧ (1 ≤ c1 ∧ c1 ≤ c) ∧ (1 ≤ c2 ∧ c2 ≤ c) ∧ 1 ≤ c3 ∧ c3 ≤ c)
    (ho : ∀ j, lo' ≤ j → j ≤ lo - 1 → (W j c1 ∧ W j c2 ∧ W j c3) ∧ ¬ D j c1 ∧ ¬ D j c2 ∧ ¬ D j c3)
    (hj : ∀ j, lo ≤ j → j ≤ hi → (W j c1 ∧ W j c2 ∧ W j c3) ∧ D j c1 ∧ D j c2 ∧ D j c3) :
    Sim (Loc2 D W r c g0 g0') (refl3Cols lo hi c1 c2 c3 v2 v3 t1 t2 t3 h) (refl3Cols lo' hi c1 c2 c3 v2 v3 t1 t2 t3 h') := by
  obtain ⟨l1, l2, l3, l4, ⟨q1, q1'⟩, ⟨q2, q2'⟩, q3, q3'⟩ := hb
  unfold refl3Cols
  refine Sim.forUp_more_before l2 l3 L (fun s t j j1 j2 L => ?_) fun s t j j1 j2 L => ?_
  · obtain ⟨⟨w1, w2, w3⟩, d1, d2, d3⟩ := ho j j1 j2
    obtain ⟨x1, y1, e1, e1'⟩ := L.getBoth hL (a := j) (by omega) (by omega) q1 q1'
    obtain ⟨x2, y2, e2, e2'⟩ := L.getBoth hL (a := j) (by omega) (by omega) q2 q2'
    obtain ⟨x3, y3, e3, e3'⟩ := L.getBoth hL (a := j) (by omega) (by omega) q3 q3'
    rw [e1', e2', e3']
    simp only [pure_bind]
    rw [← pure_bind s (pure : FA F → R (FA F))]
    refine Sim.bind (L.right hL (by omega) (by omega) q1 q1' d1 w1 _) fun a b L => ?_
    rw [← pure_bind a (pure : FA F → R (FA F))]
    exact Sim.bind (L.right hL (by omega) (by omega) q2 q2' d2 w2 _) fun a b L => L.right hL (by omega) (by omega) q3 q3' d3 w3 _
  · obtain ⟨⟨w1, w2, w3⟩, d1, d2, d3⟩ := hj j j1 j2
    rw [L.get hL (by omega) (by omega) q1 q1' d1, L.get hL (by omega) (by omega) q2 q2' d2, L.get hL (by omega) (by omega) q3 q3' d3]
    refine Sim.bind' fun x1 => Sim.bind' fun x2 => Sim.bind' fun x3 => ?_
    refine Sim.bind (L.modify hL (by omega) (by omega) q1 q1' d1 w1 _) fun a b L => ?_
    exact Sim.bind (L.modify hL (by omega) (by omega) q2 q2' d2 w2 _) fun a b L => L.modify hL (by omega) (by omega) q3 q3' d3 w3 _

theorem refl2Cols_more (L : Loc2 D W r c g0 g0' h h') (hL : r * c < 2 ^ 31) {lo lo' hi c1 c2 : Int} (v2 t1 t2 : F)
    (hb : 1 ≤ lo' ∧ lo' ≤ lo ∧ lo ≤ hi + 1 ∧ hi ≤ r ∧ (1 ≤ c1 ∧ c1 ≤ c) ∧ 1 ≤ c2 ∧ c2 ≤ c)
    (ho : ∀ j, lo' ≤ j → j ≤ lo - 1 → (W j c1 ∧ W j c2) ∧ ¬ D j c1 ∧ ¬ D j c2) (hj : ∀ j, lo ≤ j → j ≤ hi → (W j c1 ∧ W j c2) ∧ D j c1 ∧ D j c2) :
    Sim (Loc2 D W r c g0 g0') (refl2Cols lo hi c1 c2 v2 t1 t2 h) (refl2Cols lo' hi c1 c2 v2 t1 t2 h') := by
  obtain ⟨l1, l2, l3, l4, ⟨q1, q1'⟩, q2, q2'⟩ := hb
  unfold refl2Cols
  refine Sim.forUp_more_before l2 l3 L (fun s t j j1 j2 L => ?_) fun s t j j1 j2 L => ?_
  · obtain ⟨⟨w1, w2⟩, d1, d2⟩ := ho j j1 j2
    obtain ⟨x1, y1, e1, e1'⟩ := L.getBoth hL (a := j) (by omega) (by omega) q1 q1'
    obtain ⟨x2, y2, e2, e2'⟩ := L.getBoth hL (a := j) (by omega) (by omega) q2 q2'
    rw [e1', e2']
    simp only [pure_bind]
    rw [← pure_bind s (pure : FA F → R (FA F))]
    exact Sim.bind (L.right hL (by omega) (by omega) q1 q1' d1 w1 _) fun a b L => L.right hL (by omega) (by omega) q2 q2' d2 w2 _
  · obtain ⟨⟨w1, w2⟩, d1, d2⟩ := hj j j1 j2
    rw [L.get hL (by omega) (by omega) q1 q1' d1, L.get hL (by omega) (by omega) q2 q2' d2]
    refine Sim.bind' fun x1 => Sim.bind' fun x2 => ?_
    exact Sim.bind (L.modify hL (by omega) (by omega) q1 q1' d1 w1 _) fun a b L => L.modify hL (by omega) (by omega) q2 q2' d2 w2 _

theorem refl3Rows_more (L : Loc2 D W r c g0 g0' h h') (hL : r * c < 2 ^ 31) {lo hi hi' r1 r2 r3 : Int} (v2 v3 t1 t2 t3 : F)
    (hb : 1 ≤ lo ∧ lo ≤ hi + 1 ∧ hi ≤ hi' ∧ hi' ≤ c ∧ (1 ≤ r1 ∧ r1 ≤ r) ∧ (1 ≤ r2 ∧ r2 ≤ r) ∧ 1 ≤ r3 ∧ r3 ≤ r)
    (ho : ∀ j, hi + 1 ≤ j → j ≤ hi' → (W r1 j ∧ W r2 j ∧ W r3 j) ∧ ¬ D r1 j ∧ ¬ D r2 j ∧ ¬ D r3 j)
    (hj : ∀ j, lo ≤ j → j ≤ hi → (W r1 j ∧ W r2 j ∧ W r3 j) ∧ D r1 j ∧ D r2 j ∧ D r3 j) :
    Sim (Loc2 D W r c g0 g0') (refl3Rows lo hi r1 r2 r3 v2 v3 t1 t2 t3 h) (refl3Rows lo hi' r1 r2 r3 v2 v3 t1 t2 t3 h') := by
  obtain ⟨l1, l2, l3, l4, ⟨q1, q1'⟩, ⟨q2, q2'⟩, q3, q3'⟩ := hb
  unfold refl3Rows
  refine Sim.forUp_more_after l2 l3 L (fun s t j j1 j2 L => ?_) fun s t j j1 j2 L => ?_
  · obtain ⟨⟨w1, w2, w3⟩, d1, d2, d3⟩ := ho j j1 j2
    obtain ⟨x1, y1, e1, e1'⟩ := L.getBoth hL (b := j) q1 q1' (by omega) (by omega)
    obtain ⟨x2, y2, e2, e2'⟩ := L.getBoth hL (b := j) q2 q2' (by omega) (by omega)
    obtain ⟨x3, y3, e3, e3'⟩ := L.getBoth hL (b := j) q3 q3' (by omega) (by omega)
    rw [e1', e2', e3']
    simp only [pure_bind]
    rw [← pure_bind s (pure : FA F → R (FA F))]
    refine Sim.bind (L.right hL q1 q1' (by omega) (by omega) d1 w1 _) fun a b L => ?_
    rw [← pure_bind a (pure : FA F → R (FA F))]
    exact Sim.bind (L.right hL q2 q2' (by omega) (by omega) d2 w2 _) fun a b L => L.right hL q3 q3' (by omega) (by omega) d3 w3 _
  · obtain ⟨⟨w1, w2, w3⟩, d1, d2, d3⟩ := hj j j1 j2
    rw [L.get hL q1 q1' (by omega) (by omega) d1, L.get hL q2 q2' (by omega) (by omega) d2, L.get hL q3 q3' (by omega) (by omega) d3]
    refine Sim.bind' fun x1 => Sim.bind' fun x2 => Sim.bind' fun x3 => ?_
    refine Sim.bind (L.modify hL q1 q1' (by omega) (by omega) d1 w1 _) fun a b L => ?_
    exact Sim.bind (L.modify hL q2 q2' (by omega) (by omega) d2 w2 _) fun a b L => L.modify hL q3 q3' (by omega) (by omega) d3 w3 _

theorem refl2Rows_more (L : Loc2 D W r c g0 g0' h h') (hL : r * c < 2 ^ 31) {lo hi hi' r1 r2 : Int} (v2 t1 t2 : F)
    (hb : 1 ≤ lo ∧ lo ≤ hi + 1 ∧ hi ≤ hi' ∧ hi' ≤ c ∧ (1 ≤ r1 ∧ r1 ≤ r) ∧ 1 ≤ r2 ∧ r2 ≤ r)
    (ho : ∀ j, hi + 1 ≤ j → j ≤ hi' → (W r1 j ∧ W r2 j) ∧ ¬ D r1 j ∧ ¬ D r2 j) (hj : ∀ j, lo ≤ j → j ≤ hi → (W r1 j ∧ W r2 j) ∧ D r1 j ∧ D r2 j) :
    Sim (Loc2 D W r c g0 g0') (refl2Rows lo hi r1 r2 v2 t1 t2 h) (refl2Rows lo hi' r1 r2 v2 t1 t2 h') := by
  obtain ⟨l1, l2, l3, l4, ⟨q1, q1'⟩, q2, q2'⟩ := hb
  unfold refl2Rows
  refine Sim.forUp_more_after l2 l3 L (fun s t j j1 j2 L => ?_) fun s t j j1 j2 L => ?_
  · obtain ⟨⟨w1, w2⟩, d1, d2⟩ := ho j j1 j2
    obtain ⟨x1, y1, e1, e1'⟩ := L.getBoth hL (b := j) q1 q1' (by omega) (by omega)
    obtain ⟨x2, y2, e2, e2'⟩ := L.getBoth hL (b := j) q2 q2' (by omega) (by omega)
    rw [e1', e2']
    simp only [pure_bind]
    rw [← pure_bind s (pure : FA F → R (FA F))]
    exact Sim.bind (L.right hL q1 q1' (by omega) (by omega) d1 w1 _) fun a b L => L.right hL q2 q2' (by omega) (by omega) d2 w2 _
  · obtain ⟨⟨w1, w2⟩, d1, d2⟩ := hj j j1 j2
    rw [L.get hL q1 q1' (by omega) (by omega) d1, L.get hL q2 q2' (by omega) (by omega) d2]
    refine Sim.bind' fun x1 => Sim.bind' fun x2 => ?_
    exact Sim.bind (L.modify hL q1 q1' (by omega) (by omega) d1 w1 _) fun a b L => L.modify hL q2 q2' (by omega) (by omega) d2 w2 _

end

section
variable {p : Qr5P F} {r c : Nat} {g0 g0' : Int → Int → F} {h h' : FA F}

local notation "LL" => fun k => Loc2 (BlkD p k) (BlkW p) r c g0 g0'

theorem qr5Bmp22_reach (hf : FitL p r c) (hw : p.wantt = true) (hL : r * c < 2 ^ 31) {incol krcol : Int} (k1 : p.ktop - 1 ≤ krcol) (k2 : krcol + 2 = p.kbot)
    {s s' : Qr5S F} (hs : Rel5 p r c g0 g0' krcol s s') :
    Sim (Rel5 p r c g0 g0' (krcol + 1)) (qr5Bmp22 p incol p.ktop p.kbot krcol 1 s) (qr5Bmp22 p incol 1 p.n krcol 1 s') := by
  have h1 := hf.top; have h2 := hf.kn; have h3 := hf.nr; have h4 := hf.nc; have h5 := hf.lt
  obtain ⟨es, L⟩ := hs
  rw [es]
  unfold qr5Bmp22
  simp only [show krcol + 2 * ((1 : Int) - 1) = krcol by ring]
  refine Sim.bind (qr5Bmp22Refl_loc hf hL k1 k2 L) fun q q' hq => ?_
  obtain ⟨h, v⟩ := q
  obtain ⟨h', v'⟩ := q'
  obtain ⟨L, rfl⟩ := hq
  simp only at L ⊢
  refine Sim.bind' fun t1 => Sim.bind' fun v2 => ?_
  refine Sim.bind (refl2Cols_more L hL v2 t1 (t1 * v2) (by omega) (fun j j1 j2 => ?_) fun j j1 j2 => ?_) fun ha ha' L => ?_
  · unfold BlkW BlkD; simp only [hw, true_and]; omega
  · unfold BlkW BlkD; simp only [hw, true_and]; omega
  refine Sim.bind (refl2Rows_more L hL v2 t1 (t1 * v2) (by omega) (fun j j1 j2 => ?_) fun j j1 j2 => ?_) fun hb hb' L => ?_
  · unfold BlkW BlkD; simp only [hw, true_and]; omega
  · unfold BlkW BlkD; simp only [hw, true_and]; omega
  have tail : ∀ x x' : FA F, LL (krcol + 1) x x' → Sim (Rel5 p r c g0 g0' (krcol + 1)) (if p.accum = true then do
        let u ← refl2Cols (max 1 (p.ktop - incol)) p.kdu (krcol - incol + 1) (krcol - incol + 2) v2 t1 (t1 * v2) s.u
        pure { s with h := x, v := v, u := u }
      else if p.wantz = true then do
        let z ← refl2Cols p.iloz p.ihiz (krcol + 1) (krcol + 2) v2 t1 (t1 * v2) s.z
        pure { s with h := x, v := v, z := z }
      else pure { s with h := x, v := v }) (if p.accum = true then do
        let u ← refl2Cols (max 1 (p.ktop - incol)) p.kdu (krcol - incol + 1) (krcol - incol + 2) v2 t1 (t1 * v2) s.u
        pure { s with h := x', v := v, u := u, wv := s'.wv, wh := s'.wh }
      else if p.wantz = true then do
        let z ← refl2Cols p.iloz p.ihiz (krcol + 1) (krcol + 2) v2 t1 (t1 * v2) s.z
        pure { s with h := x', v := v, z := z, wv := s'.wv, wh := s'.wh }
      else pure { s with h := x', v := v, wv := s'.wv, wh := s'.wh }) := by
    intro x x' L
    refine Sim.ite (fun _ => Sim.bind' fun u => Sim.pure ⟨rfl, L⟩) fun _ => Sim.ite (fun _ => Sim.bind' fun u => Sim.pure ⟨rfl, L⟩) fun _ => Sim.pure ⟨rfl, L⟩
  refine Sim.ite (fun hk => ?_) fun _ => tail _ _ L
  exact Sim.bind (qr5Negligible_loc hf hL hk (by omega) L) fun x x' L => tail x x' L

theorem qr5Bulge_reach (hf : FitL p r c) (hw : p.wantt = true) (hL : r * c < 2 ^ 31) {krcol : Int} (k1 : p.ktop - 1 ≤ krcol) (k2 : krcol + 3 ≤ p.kbot)
    {s s' : Qr5S F} (hs : Rel5 p r c g0 g0' krcol s s') :
    Sim (Rel5 p r c g0 g0' (krcol + 1)) (qr5Bulge p p.ktop krcol s 1) (qr5Bulge p 1 krcol s' 1) := by
  have h1 := hf.top; have h2 := hf.kn; have h3 := hf.nr; have h4 := hf.nc; have h5 := hf.lt
  obtain ⟨es, L⟩ := hs
  rw [es]
  unfold qr5Bulge
  simp only [show krcol + 2 * ((1 : Int) - 1) = krcol by ring]
  refine Sim.bind (qr5Refl3_loc hf hL k1 k2 L) fun q q' hq => ?_
  obtain ⟨h, v, vt⟩ := q
  obtain ⟨h', v', vt'⟩ := q'
  obtain ⟨L, e⟩ := hq
  obtain ⟨rfl, rfl⟩ := Prod.mk.inj e
  simp only at L ⊢
  refine Sim.bind' fun t1 => Sim.bind' fun v2 => Sim.bind' fun v3 => ?_
  refine Sim.bind (refl3Cols_more L hL v2 v3 t1 (t1 * v2) (t1 * v3) (by omega) (fun j j1 j2 => ?_) fun j j1 j2 => ?_) fun ha ha' L => ?_
  · unfold BlkW BlkD; simp only [hw, true_and]; omega
  · unfold BlkW BlkD; simp only [hw, true_and]; omega
  refine Sim.bind (refl3Rows_loc2 L hL v2 v3 t1 (t1 * v2) (t1 * v3) (by omega) fun j j1 j2 => ?_) fun hb hb' L => ?_
  · unfold BlkW BlkD
    omega
  refine Sim.ite (fun hk => Sim.pure ⟨rfl, L⟩) fun hk => ?_
  exact Sim.bind (qr5Negligible_loc hf hL (by omega) (by omega) L) fun x x' L => Sim.pure ⟨rfl, L⟩

theorem qr5Left_reach (hf : FitL p r c) (hw : p.wantt = true) (hL : r * c < 2 ^ 31) {krcol : Int} (k1 : p.ktop - 1 ≤ krcol) (k2 : krcol + 3 ≤ p.kbot)
    {s s' : Qr5S F} (hs : Rel5 p r c g0 g0' (krcol + 1) s s') :
    Sim (Rel5 p r c g0 g0' (krcol + 1)) (qr5Left p krcol p.kbot s 1) (qr5Left p krcol p.n s' 1) := by
  have h1 := hf.top; have h2 := hf.kn; have h3 := hf.nr; have h4 := hf.nc; have h5 := hf.lt
  obtain ⟨es, L⟩ := hs
  rw [es]
  unfold qr5Left
  simp only [show krcol + 2 * ((1 : Int) - 1) = krcol by ring]
  refine Sim.bind' fun t1 => Sim.bind' fun v2 => Sim.bind' fun v3 => ?_
  refine Sim.bind (refl3Rows_more L hL v2 v3 t1 (t1 * v2) (t1 * v3) (by omega) (fun j j1 j2 => ?_) fun j j1 j2 => ?_) fun _ _ L => Sim.pure ⟨rfl, L⟩
  · unfold BlkW BlkD; simp only [hw, true_and]; omega
  · unfold BlkW BlkD; simp only [hw, true_and]; omega

/-- The parameters for a call that does not want the Schur form. -/
def Qr5P.noT (p : Qr5P F) : Qr5P F := { p with wantt := false }

theorem qr5Krcol_reach (hf : FitL p r c) (ha : p.accum = false) (hw : p.wantt = true) (hL : r * c < 2 ^ 31) {incol krcol : Int} (k1 : p.ktop - 1 ≤ krcol) (k2 : krcol + 2 ≤ p.kbot)
    {s s' : Qr5S F} (hs : Rel5 p r c g0 g0' krcol s s') :
    Sim (Rel5 p r c g0 g0' (krcol + 1)) (qr5Krcol p.noT incol p.ktop s krcol) (qr5Krcol p incol 1 s' krcol) := by
  have hmt : max 1 ((p.ktop - krcol).tdiv 2 + 1) = 1 := by
    have := tdiv2_nonpos (x := p.ktop - krcol) (by omega)
    omega
  unfold qr5Krcol
  show Sim _ (do
    let s ← if min p.nbmps ((p.kbot - krcol - 1).tdiv 2) < p.nbmps ∧ krcol + 2 * (min p.nbmps ((p.kbot - krcol - 1).tdiv 2) + 1 - 1) = p.kbot - 2 then
        qr5Bmp22 p incol p.ktop (if p.accum = true then min (incol + p.kdu) p.kbot else p.kbot) krcol (min p.nbmps ((p.kbot - krcol - 1).tdiv 2) + 1) s
      else pure s
    let s ← forDown (max 1 ((p.ktop - krcol).tdiv 2 + 1)) (min p.nbmps ((p.kbot - krcol - 1).tdiv 2)) s (qr5Bulge p p.ktop krcol)
    let s ← forDown (max 1 ((p.ktop - krcol).tdiv 2 + 1)) (min p.nbmps ((p.kbot - krcol - 1).tdiv 2)) s
      (qr5Left p krcol (if p.accum = true then min (incol + p.kdu) p.kbot else p.kbot))
    if p.accum = true then forDown (max 1 ((p.ktop - krcol).tdiv 2 + 1)) (min p.nbmps ((p.kbot - krcol - 1).tdiv 2)) s (qr5AccU p incol krcol (min p.nbmps ((p.kbot - krcol - 1).tdiv 2)))
    else if p.wantz = true then forDown (min p.nbmps ((p.kbot - krcol - 1).tdiv 2)) (max 1 ((p.ktop - krcol).tdiv 2 + 1)) s (qr5AccZ p krcol)
    else pure s) _
  simp only [hmt, hf.nb, ha, hw, Bool.false_eq_true, if_false, if_true]
  rcases (by omega : krcol + 2 = p.kbot ∨ krcol + 3 ≤ p.kbot) with hk | hk
  · have hmb : min 1 ((p.kbot - krcol - 1).tdiv 2) = 0 := by rw [tdiv2_small (by omega) (by omega)]; rfl
    rw [hmb, if_pos ⟨by norm_num, by omega⟩, if_pos ⟨by norm_num, by omega⟩]
    refine Sim.bind (qr5Bmp22_reach hf hw hL k1 hk hs) fun s1 s1' hs1 => ?_
    refine Sim.bind (Sim.forDown_mem hs1 fun _ _ m m1 m2 _ => by omega) fun s2 s2' hs2 => Sim.bind (Sim.forDown_mem hs2 fun _ _ m m1 m2 _ => by omega) fun s3 s3' hs3 => ?_
    exact Sim.ite (fun hw => Sim.forDown_mem hs3 fun _ _ m m1 m2 hs' => qr5AccZ_loc hs') fun _ => Sim.pure hs3
  · have hmb : min 1 ((p.kbot - krcol - 1).tdiv 2) = 1 := by
      have := tdiv2_pos (x := p.kbot - krcol - 1) (by omega)
      omega
    have e1 : ∀ (f : Qr5S F → Int → R (Qr5S F)) (s : Qr5S F), forDown 1 1 s f = f s 1 := fun f s => by
      rw [forDown_cons (le_refl _)]
      simp
    rw [hmb, if_neg (by omega), if_neg (by omega), pure_bind, pure_bind, e1, e1]
    refine Sim.bind (qr5Bulge_reach hf hw hL k1 hk hs) fun s2 s2' hs2 => ?_
    rw [e1, e1]
    refine Sim.bind (qr5Left_reach hf hw hL k1 hk hs2) fun s3 s3' hs3 => ?_
    exact Sim.ite (fun hw => Sim.forDown_mem hs3 fun _ _ m m1 m2 hs' => qr5AccZ_loc hs') fun _ => Sim.pure hs3

theorem qr5Incol_reach (hf : FitL p r c) (ha : p.accum = false) (hw : p.wantt = true) (hL : r * c < 2 ^ 31) {incol : Int} (k1 : p.ktop - 1 ≤ incol) (k2 : incol + 2 ≤ p.kbot) {s s' : Qr5S F}
    (hs : Rel5 p r c g0 g0' incol s s') : Sim (Rel5 p r c g0 g0' (min (incol + 2) (p.kbot - 2 + 1))) (qr5Incol p.noT s incol) (qr5Incol p s' incol) := by
  have this := Sim.forUp_idx (rel := Rel5 p r c g0 g0') (lo := incol) (hi := min (incol + 2 * 1 - 1) (p.kbot - 2)) (by omega) hs
    (f := qr5Krcol p.noT incol p.ktop) (g := qr5Krcol p incol 1)
    fun _ _ i i1 i2 hs' => qr5Krcol_reach hf ha hw hL (by omega) (by omega) hs'
  rw [show min (incol + 2 * 1 - 1) (p.kbot - 2) + 1 = min (incol + 2) (p.kbot - 2 + 1) by omega] at this
  unfold qr5Incol
  show Sim _ (do
    let u ← if p.accum = true then dlaset (F := F) 'A' p.kdu p.kdu zero one s.u else pure s.u
    let s ← forUp incol (min (incol + 2 * p.nbmps - 1) (p.kbot - 2)) { s with u := u } (qr5Krcol p.noT incol (if p.accum = true then max p.ktop incol else p.ktop))
    if p.accum = true then qr5Accumulate p.noT incol s else pure s) _
  simp only [hf.nb, ha, hw, Bool.false_eq_true, if_false, if_true, pure_bind, bind_pure]
  exact this

theorem qr5Main_reach (hf : FitL p r c) (ha : p.accum = false) (hw : p.wantt = true) (hL : r * c < 2 ^ 31) (nshfts : Int) {s : Qr5S F} {g : Int → Int → F} (e : Is2 s.h r c (r * c) g) :
    Sim (Rel5 p r c g g (p.kbot - 1)) (qr5Main p.noT nshfts s) (qr5Main p nshfts s) := by
  have h1 := hf.top; have h2 := hf.kn; have h3 := hf.nr; have h4 := hf.nc; have h5 := hf.lt
  have L : Loc2 (fun a b => True) (BlkW p) r c g g s.h s.h := ⟨g, g, e, e, fun a b hd => rfl, fun _ _ _ => rfl, fun _ _ _ => rfl⟩
  unfold qr5Main
  refine Sim.bind' fun q => ?_
  obtain ⟨sr, si⟩ := q
  simp only at L ⊢
  have tail : ∀ x x' : FA F, Loc2 (BlkD p (p.ktop - 1)) (BlkW p) r c g g x x' →
      Sim (Rel5 p r c g g (p.kbot - 1)) (forStep (p.ktop - 2 * p.nbmps + 1) (p.kbot - 2) (2 * asUsize p.nbmps) { s with sr := sr, si := si, h := x } (qr5Incol p.noT))
        (forStep (p.ktop - 2 * p.nbmps + 1) (p.kbot - 2) (2 * asUsize p.nbmps) { s with sr := sr, si := si, h := x' } (qr5Incol p)) := by
    intro x x' L
    rw [hf.nb]
    have a1 : 2 * asUsize 1 = 2 := by decide
    rw [a1]
    have := Sim.forStep2_idx (rel := Rel5 p r c g g) (lo := p.ktop - 2 * 1 + 1) (hi := p.kbot - 2) (f := qr5Incol p.noT) (g := qr5Incol p) (by omega)
      (s := { s with sr := sr, si := si, h := x }) (t := { s with sr := sr, si := si, h := x' }) ⟨rfl, by rw [show p.ktop - 2 * 1 + 1 = p.ktop - 1 by ring]; exact L⟩
      fun _ _ i i1 i2 hs' => qr5Incol_reach hf ha hw hL (by omega) (by omega) hs'
    rwa [show p.kbot - 2 + 1 = p.kbot - 1 by ring] at this
  refine Sim.ite (c := p.ktop + 2 ≤ p.kbot) (fun hk => ?_) fun hk => tail _ _ (L.mono fun a b hd => trivial)
  exact Sim.bind (L.set (D' := BlkD p (p.ktop - 1)) (a := p.ktop + 2) (b := p.ktop) hL (by omega) (by omega) (by omega) (by omega) (by unfold BlkW; omega) _ fun i j hd => Or.inl trivial)
    fun x x' L => tail x x' L

end

end Verif
