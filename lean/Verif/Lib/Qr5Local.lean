import Verif.Lib.HqrLocal
import Verif.Lib.Qr5Safe

/-!
# Two runs of `dlaqr5` whose arrays `h` agree on the active block

Any scalar arithmetic, two or three shifts, no accumulation.  The runs read the same values and take the same decisions; what they write stays in a known part of `h`.
-/

namespace Verif
open Scalar Spec

section
variable {σ τ : Type}

theorem Sim.forDown_mem {rel : σ → τ → Prop} {f : σ → Int → R σ} {g : τ → Int → R τ} {lo hi : Int} {s : σ} {t : τ}
    (hs : rel s t) (hf : ∀ s t i, lo ≤ i → i ≤ hi → rel s t → Sim rel (f s i) (g t i)) :
    Sim rel (Verif.forDown lo hi s f) (Verif.forDown lo hi t g) :=
  Sim.foldlM_mem _ hs fun s t i hi h => hf s t i (mem_irange.1 (List.mem_reverse.1 hi)).1 (mem_irange.1 (List.mem_reverse.1 hi)).2 h

theorem Sim.forUp_idx {rel : Int → σ → τ → Prop} {f : σ → Int → R σ} {g : τ → Int → R τ} {lo hi : Int} {s : σ} {t : τ} (hle : lo ≤ hi + 1)
    (hs : rel lo s t) (hf : ∀ s t i, lo ≤ i → i ≤ hi → rel i s t → Sim (rel (i + 1)) (f s i) (g t i)) :
    Sim (rel (hi + 1)) (Verif.forUp lo hi s f) (Verif.forUp lo hi t g) := by
  obtain ⟨N, hN⟩ : ∃ N : Nat, hi = lo + N - 1 := ⟨(hi - lo + 1).toNat, by omega⟩
  subst hN
  unfold Verif.forUp irange
  rw [show (lo + (N : Int) - 1 - lo + 1).toNat = N by omega]
  have key : ∀ n : Nat, n ≤ N →
      Sim (rel (lo + n)) (((List.range n).map fun i : Nat => lo + (i : Int)).foldlM f s) (((List.range n).map fun i : Nat => lo + (i : Int)).foldlM g t) := by
    intro n
    induction n with
    | zero => intro _; exact Sim.pure (by simpa using hs)
    | succ n ih =>
      intro hn
      rw [List.range_succ, List.map_append, List.foldlM_append, List.foldlM_append]
      refine Sim.bind (ih (by omega)) fun a b hab => ?_
      rw [List.map_cons, List.map_nil, List.foldlM_cons, List.foldlM_cons]
      simp only [List.foldlM_nil, bind_pure]
      have := hf a b (lo + n) (by omega) (by omega) hab
      rwa [show lo + (n : Int) + 1 = lo + ((n + 1 : Nat) : Int) by push_cast; ring] at this
  have := key N le_rfl
  rwa [show lo + (N : Int) = lo + (N : Int) - 1 + 1 by ring] at this

theorem Sim.forStep2_idx {rel : Int → σ → τ → Prop} {f : σ → Int → R σ} {g : τ → Int → R τ} {lo hi : Int} {s : σ} {t : τ} (hle : lo ≤ hi) (hs : rel lo s t)
    (hf : ∀ s t i, lo ≤ i → i ≤ hi → rel i s t → Sim (rel (min (i + 2) (hi + 1))) (f s i) (g t i)) :
    Sim (rel (hi + 1)) (Verif.forStep lo hi 2 s f) (Verif.forStep lo hi 2 t g) := by
  unfold Verif.forStep irangeStep
  rw [if_neg (by omega), pure_bind, pure_bind]
  obtain ⟨N, hN⟩ : ∃ N, ((hi - lo + 1).toNat + 2 - 1) / 2 = N + 1 := ⟨((hi - lo + 1).toNat + 2 - 1) / 2 - 1, by omega⟩
  rw [hN]
  have key : ∀ n : Nat, n ≤ N + 1 → Sim (rel (min (lo + 2 * n) (hi + 1))) (((List.range n).map fun i : Nat => lo + (i : Int) * (2 : Nat)).foldlM f s)
      (((List.range n).map fun i : Nat => lo + (i : Int) * (2 : Nat)).foldlM g t) := by
    intro n
    induction n with
    | zero => intro _; exact Sim.pure (by rw [show min (lo + 2 * ((0 : Nat) : Int)) (hi + 1) = lo by push_cast; omega]; exact hs)
    | succ n ih =>
      intro hn
      rw [List.range_succ, List.map_append, List.foldlM_append, List.foldlM_append]
      refine Sim.bind (ih (by omega)) fun a b hab => ?_
      rw [List.map_cons, List.map_nil, List.foldlM_cons, List.foldlM_cons]
      simp only [List.foldlM_nil, bind_pure]
      rw [show min (lo + 2 * (n : Int)) (hi + 1) = lo + (n : Int) * (2 : Nat) by push_cast; omega] at hab
      have := hf a b (lo + (n : Int) * (2 : Nat)) (by omega) (by push_cast; omega) hab
      rwa [show min (lo + (n : Int) * (2 : Nat) + 2) (hi + 1) = min (lo + 2 * ((n + 1 : Nat) : Int)) (hi + 1) by push_cast; ring_nf] at this
  have := key (N + 1) le_rfl
  rwa [show min (lo + 2 * ((N + 1 : Nat) : Int)) (hi + 1) = hi + 1 by push_cast; omega] at this

end

variable {F : Type} [Scalar F]

/-- The two arrays agree where `D` holds; where `W` does not hold each is as it was. -/
def Loc2 (D W : Int → Int → Prop) (r c : Nat) (g0 g0' : Int → Int → F) (h h' : FA F) : Prop :=
  ∃ g g', Is2 h r c (r * c) g ∧ Is2 h' r c (r * c) g' ∧ (∀ a b, D a b → g a b = g' a b) ∧ (∀ a b, ¬ W a b → g a b = g0 a b) ∧ ∀ a b, ¬ W a b → g' a b = g0' a b

section
variable {D D' W : Int → Int → Prop} {r c : Nat} {g0 g0' : Int → Int → F} {h h' : FA F}

theorem Loc2.mono (L : Loc2 D W r c g0 g0' h h') (hD : ∀ a b, D' a b → D a b) : Loc2 D' W r c g0 g0' h h' := by
  obtain ⟨g, g', e, e', ag, f1, f2⟩ := L
  exact ⟨g, g', e, e', fun a b hab => ag a b (hD a b hab), f1, f2⟩

theorem Loc2.get (L : Loc2 D W r c g0 g0' h h') (hL : r * c < 2 ^ 31) {a b : Int} (a1 : 1 ≤ a) (a2 : a ≤ r) (b1 : 1 ≤ b) (b2 : b ≤ c) (hd : D a b) :
    h'.get2 a b = h.get2 a b := by
  obtain ⟨g, g', e, e', ag, -, -⟩ := L
  have hc : Cell r (r * c) a b := cell_rc a1 a2 b1 b2
  rw [get2_is2 e hc hL, get2_is2 e' hc hL, ag a b hd]

theorem Loc2.getBoth (L : Loc2 D W r c g0 g0' h h') (hL : r * c < 2 ^ 31) {a b : Int} (a1 : 1 ≤ a) (a2 : a ≤ r) (b1 : 1 ≤ b) (b2 : b ≤ c) :
    ∃ x x' : F, h.get2 a b = pure x ∧ h'.get2 a b = pure x' := by
  obtain ⟨g, g', e, e', -, -, -⟩ := L
  have hc : Cell r (r * c) a b := cell_rc a1 a2 b1 b2
  exact ⟨_, _, get2_is2 e hc hL, get2_is2 e' hc hL⟩

theorem Loc2.modify (L : Loc2 D W r c g0 g0' h h') (hL : r * c < 2 ^ 31) {a b : Int} (a1 : 1 ≤ a) (a2 : a ≤ r) (b1 : 1 ≤ b) (b2 : b ≤ c) (hd : D a b) (hw : W a b)
    (f : F → F) : Sim (Loc2 D W r c g0 g0') (h.modify2 a b f) (h'.modify2 a b f) := by
  obtain ⟨g, g', e, e', ag, f1, f2⟩ := L
  have hc : Cell r (r * c) a b := cell_rc a1 a2 b1 b2
  obtain ⟨h1, w1, s1⟩ := modify2_is2 e hc hL f
  obtain ⟨h2, w2, s2⟩ := modify2_is2 e' hc hL f
  rw [w1, w2]
  refine Sim.pure ⟨_, _, s1, s2, fun x y xy => ?_, fun x y hn => ?_, fun x y hn => ?_⟩
  · unfold upd2
    rw [ag a b hd, ag x y xy]
  · unfold upd2
    rw [if_neg (by rintro ⟨rfl, rfl⟩; exact hn hw)]
    exact f1 x y hn
  · unfold upd2
    rw [if_neg (by rintro ⟨rfl, rfl⟩; exact hn hw)]
    exact f2 x y hn

/-- An update outside `D`, not the same for the two arrays. -/
theorem Loc2.off (L : Loc2 D W r c g0 g0' h h') (hL : r * c < 2 ^ 31) {a b : Int} (a1 : 1 ≤ a) (a2 : a ≤ r) (b1 : 1 ≤ b) (b2 : b ≤ c) (hd : ¬ D a b) (hw : W a b)
    (f f' : F → F) : Sim (Loc2 D W r c g0 g0') (h.modify2 a b f) (h'.modify2 a b f') := by
  obtain ⟨g, g', e, e', ag, f1, f2⟩ := L
  have hc : Cell r (r * c) a b := cell_rc a1 a2 b1 b2
  obtain ⟨h1, w1, s1⟩ := modify2_is2 e hc hL f
  obtain ⟨h2, w2, s2⟩ := modify2_is2 e' hc hL f'
  rw [w1, w2]
  refine Sim.pure ⟨_, _, s1, s2, fun x y xy => ?_, fun x y hn => ?_, fun x y hn => ?_⟩
  · unfold upd2
    rw [if_neg (by rintro ⟨rfl, rfl⟩; exact hd xy), if_neg (by rintro ⟨rfl, rfl⟩; exact hd xy), ag x y xy]
  · unfold upd2
    rw [if_neg (by rintro ⟨rfl, rfl⟩; exact hn hw)]
    exact f1 x y hn
  · unfold upd2
    rw [if_neg (by rintro ⟨rfl, rfl⟩; exact hn hw)]
    exact f2 x y hn

/-- The same value written to both arrays: they agree there from now on. -/
theorem Loc2.set (L : Loc2 D W r c g0 g0' h h') (hL : r * c < 2 ^ 31) {a b : Int} (a1 : 1 ≤ a) (a2 : a ≤ r) (b1 : 1 ≤ b) (b2 : b ≤ c) (hw : W a b) (x : F)
    (hD : ∀ i j, D' i j → D i j ∨ i = a ∧ j = b) : Sim (Loc2 D' W r c g0 g0') (h.set2 a b x) (h'.set2 a b x) := by
  obtain ⟨g, g', e, e', ag, f1, f2⟩ := L
  have hc : Cell r (r * c) a b := cell_rc a1 a2 b1 b2
  obtain ⟨h1, w1, s1⟩ := modify2_is2 e hc hL fun _ => x
  obtain ⟨h2, w2, s2⟩ := modify2_is2 e' hc hL fun _ => x
  unfold FA.set2
  rw [w1, w2]
  refine Sim.pure ⟨_, _, s1, s2, fun i j hij => ?_, fun x y hn => ?_, fun x y hn => ?_⟩
  · unfold upd2
    rcases hD i j hij with hd | ⟨rfl, rfl⟩
    · rw [ag i j hd]
    · rw [if_pos ⟨rfl, rfl⟩, if_pos ⟨rfl, rfl⟩]
  · unfold upd2
    rw [if_neg (by rintro ⟨rfl, rfl⟩; exact hn hw)]
    exact f1 x y hn
  · unfold upd2
    rw [if_neg (by rintro ⟨rfl, rfl⟩; exact hn hw)]
    exact f2 x y hn

theorem refl3Cols_loc2 (L : Loc2 D W r c g0 g0' h h') (hL : r * c < 2 ^ 31) {lo hi c1 c2 c3 : Int} (v2 v3 t1 t2 t3 : F)
    (hb : 1 ≤ lo ∧ hi ≤ r ∧ (1 ≤ c1 ∧ c1 ≤ c) ∧ (1 ≤ c2 ∧ c2 ≤ c) ∧ 1 ≤ c3 ∧ c3 ≤ c)
    (hj : ∀ j, lo ≤ j → j ≤ hi → (W j c1 ∧ W j c2 ∧ W j c3) ∧ (D j c1 ∧ D j c2 ∧ D j c3 ∨ ¬ D j c1 ∧ ¬ D j c2 ∧ ¬ D j c3)) :
    Sim (Loc2 D W r c g0 g0') (refl3Cols lo hi c1 c2 c3 v2 v3 t1 t2 t3 h) (refl3Cols lo hi c1 c2 c3 v2 v3 t1 t2 t3 h') := by
  obtain ⟨l1, l2, ⟨q1, q1'⟩, ⟨q2, q2'⟩, q3, q3'⟩ := hb
  unfold refl3Cols
  refine Sim.forUp_mem L fun s t j j1 j2 L => ?_
  obtain ⟨⟨w1, w2, w3⟩, ⟨d1, d2, d3⟩ | ⟨d1, d2, d3⟩⟩ := hj j j1 j2
  · rw [L.get hL (by omega) (by omega) q1 q1' d1, L.get hL (by omega) (by omega) q2 q2' d2, L.get hL (by omega) (by omega) q3 q3' d3]
    refine Sim.bind' fun x1 => Sim.bind' fun x2 => Sim.bind' fun x3 => ?_
    refine Sim.bind (L.modify hL (by omega) (by omega) q1 q1' d1 w1 _) fun a b L => ?_
    exact Sim.bind (L.modify hL (by omega) (by omega) q2 q2' d2 w2 _) fun a b L => L.modify hL (by omega) (by omega) q3 q3' d3 w3 _
  · obtain ⟨x1, y1, e1, e1'⟩ := L.getBoth hL (a := j) (by omega) (by omega) q1 q1'
    obtain ⟨x2, y2, e2, e2'⟩ := L.getBoth hL (a := j) (by omega) (by omega) q2 q2'
    obtain ⟨x3, y3, e3, e3'⟩ := L.getBoth hL (a := j) (by omega) (by omega) q3 q3'
    rw [e1, e2, e3, e1', e2', e3']
    simp only [pure_bind]
    refine Sim.bind (L.off hL (by omega) (by omega) q1 q1' d1 w1 _ _) fun a b L => ?_
    exact Sim.bind (L.off hL (by omega) (by omega) q2 q2' d2 w2 _ _) fun a b L => L.off hL (by omega) (by omega) q3 q3' d3 w3 _ _

theorem refl2Cols_loc2 (L : Loc2 D W r c g0 g0' h h') (hL : r * c < 2 ^ 31) {lo hi c1 c2 : Int} (v2 t1 t2 : F)
    (hb : 1 ≤ lo ∧ hi ≤ r ∧ (1 ≤ c1 ∧ c1 ≤ c) ∧ 1 ≤ c2 ∧ c2 ≤ c)
    (hj : ∀ j, lo ≤ j → j ≤ hi → (W j c1 ∧ W j c2) ∧ (D j c1 ∧ D j c2 ∨ ¬ D j c1 ∧ ¬ D j c2)) :
    Sim (Loc2 D W r c g0 g0') (refl2Cols lo hi c1 c2 v2 t1 t2 h) (refl2Cols lo hi c1 c2 v2 t1 t2 h') := by
  obtain ⟨l1, l2, ⟨q1, q1'⟩, q2, q2'⟩ := hb
  unfold refl2Cols
  refine Sim.forUp_mem L fun s t j j1 j2 L => ?_
  obtain ⟨⟨w1, w2⟩, ⟨d1, d2⟩ | ⟨d1, d2⟩⟩ := hj j j1 j2
  · rw [L.get hL (by omega) (by omega) q1 q1' d1, L.get hL (by omega) (by omega) q2 q2' d2]
    refine Sim.bind' fun x1 => Sim.bind' fun x2 => ?_
    exact Sim.bind (L.modify hL (by omega) (by omega) q1 q1' d1 w1 _) fun a b L => L.modify hL (by omega) (by omega) q2 q2' d2 w2 _
  · obtain ⟨x1, y1, e1, e1'⟩ := L.getBoth hL (a := j) (by omega) (by omega) q1 q1'
    obtain ⟨x2, y2, e2, e2'⟩ := L.getBoth hL (a := j) (by omega) (by omega) q2 q2'
    rw [e1, e2, e1', e2']
    simp only [pure_bind]
    exact Sim.bind (L.off hL (by omega) (by omega) q1 q1' d1 w1 _ _) fun a b L => L.off hL (by omega) (by omega) q2 q2' d2 w2 _ _

theorem refl3Rows_loc2 (L : Loc2 D W r c g0 g0' h h') (hL : r * c < 2 ^ 31) {lo hi r1 r2 r3 : Int} (v2 v3 t1 t2 t3 : F)
    (hb : 1 ≤ lo ∧ hi ≤ c ∧ (1 ≤ r1 ∧ r1 ≤ r) ∧ (1 ≤ r2 ∧ r2 ≤ r) ∧ 1 ≤ r3 ∧ r3 ≤ r)
    (hj : ∀ j, lo ≤ j → j ≤ hi → (W r1 j ∧ W r2 j ∧ W r3 j) ∧ (D r1 j ∧ D r2 j ∧ D r3 j ∨ ¬ D r1 j ∧ ¬ D r2 j ∧ ¬ D r3 j)) :
    Sim (Loc2 D W r c g0 g0') (refl3Rows lo hi r1 r2 r3 v2 v3 t1 t2 t3 h) (refl3Rows lo hi r1 r2 r3 v2 v3 t1 t2 t3 h') := by
  obtain ⟨l1, l2, ⟨q1, q1'⟩, ⟨q2, q2'⟩, q3, q3'⟩ := hb
  unfold refl3Rows
  refine Sim.forUp_mem L fun s t j j1 j2 L => ?_
  obtain ⟨⟨w1, w2, w3⟩, ⟨d1, d2, d3⟩ | ⟨d1, d2, d3⟩⟩ := hj j j1 j2
  · rw [L.get hL q1 q1' (by omega) (by omega) d1, L.get hL q2 q2' (by omega) (by omega) d2, L.get hL q3 q3' (by omega) (by omega) d3]
    refine Sim.bind' fun x1 => Sim.bind' fun x2 => Sim.bind' fun x3 => ?_
    refine Sim.bind (L.modify hL q1 q1' (by omega) (by omega) d1 w1 _) fun a b L => ?_
    exact Sim.bind (L.modify hL q2 q2' (by omega) (by omega) d2 w2 _) fun a b L => L.modify hL q3 q3' (by omega) (by omega) d3 w3 _
  · obtain ⟨x1, y1, e1, e1'⟩ := L.getBoth hL (b := j) q1 q1' (by omega) (by omega)
    obtain ⟨x2, y2, e2, e2'⟩ := L.getBoth hL (b := j) q2 q2' (by omega) (by omega)
    obtain ⟨x3, y3, e3, e3'⟩ := L.getBoth hL (b := j) q3 q3' (by omega) (by omega)
    rw [e1, e2, e3, e1', e2', e3']
    simp only [pure_bind]
    refine Sim.bind (L.off hL q1 q1' (by omega) (by omega) d1 w1 _ _) fun a b L => ?_
    exact Sim.bind (L.off hL q2 q2' (by omega) (by omega) d2 w2 _ _) fun a b L => L.off hL q3 q3' (by omega) (by omega) d3 w3 _ _

theorem refl2Rows_loc2 (L : Loc2 D W r c g0 g0' h h') (hL : r * c < 2 ^ 31) {lo hi r1 r2 : Int} (v2 t1 t2 : F)
    (hb : 1 ≤ lo ∧ hi ≤ c ∧ (1 ≤ r1 ∧ r1 ≤ r) ∧ 1 ≤ r2 ∧ r2 ≤ r)
    (hj : ∀ j, lo ≤ j → j ≤ hi → (W r1 j ∧ W r2 j) ∧ (D r1 j ∧ D r2 j ∨ ¬ D r1 j ∧ ¬ D r2 j)) :
    Sim (Loc2 D W r c g0 g0') (refl2Rows lo hi r1 r2 v2 t1 t2 h) (refl2Rows lo hi r1 r2 v2 t1 t2 h') := by
  obtain ⟨l1, l2, ⟨q1, q1'⟩, q2, q2'⟩ := hb
  unfold refl2Rows
  refine Sim.forUp_mem L fun s t j j1 j2 L => ?_
  obtain ⟨⟨w1, w2⟩, ⟨d1, d2⟩ | ⟨d1, d2⟩⟩ := hj j j1 j2
  · rw [L.get hL q1 q1' (by omega) (by omega) d1, L.get hL q2 q2' (by omega) (by omega) d2]
    refine Sim.bind' fun x1 => Sim.bind' fun x2 => ?_
    exact Sim.bind (L.modify hL q1 q1' (by omega) (by omega) d1 w1 _) fun a b L => L.modify hL q2 q2' (by omega) (by omega) d2 w2 _
  · obtain ⟨x1, y1, e1, e1'⟩ := L.getBoth hL (b := j) q1 q1' (by omega) (by omega)
    obtain ⟨x2, y2, e2, e2'⟩ := L.getBoth hL (b := j) q2 q2' (by omega) (by omega)
    rw [e1, e2, e1', e2']
    simp only [pure_bind]
    exact Sim.bind (L.off hL q1 q1' (by omega) (by omega) d1 w1 _ _) fun a b L => L.off hL q2 q2' (by omega) (by omega) d2 w2 _ _

/-! ### The starting vector -/

theorem dlaqr1FA_congr {n : Int} (hn : n = 2 ∨ n = 3) {f f' : FA F} (a b a' b' : F) (v : FA F)
    (e : ∀ i j : Int, 1 ≤ i → i ≤ n → 1 ≤ j → j ≤ n → f'.get2 i j = f.get2 i j) : dlaqr1FA n f' a b a' b' v = dlaqr1FA n f a b a' b' v := by
  unfold dlaqr1FA
  rcases hn with rfl | rfl
  · simp only [if_true]
    rw [e 1 1 (by omega) (by omega) (by omega) (by omega), e 2 1 (by omega) (by omega) (by omega) (by omega), e 1 2 (by omega) (by omega) (by omega) (by omega),
      e 2 2 (by omega) (by omega) (by omega) (by omega)]
  · rw [if_neg (by omega), if_neg (by omega)]
    rw [e 1 1 (by omega) (by omega) (by omega) (by omega), e 2 1 (by omega) (by omega) (by omega) (by omega), e 3 1 (by omega) (by omega) (by omega) (by omega),
      e 1 2 (by omega) (by omega) (by omega) (by omega), e 2 2 (by omega) (by omega) (by omega) (by omega), e 3 2 (by omega) (by omega) (by omega) (by omega),
      e 1 3 (by omega) (by omega) (by omega) (by omega), e 2 3 (by omega) (by omega) (by omega) (by omega), e 3 3 (by omega) (by omega) (by omega) (by omega)]

/-- `dlaqr1` on the parts that begin at `(k, k)`. -/
theorem Loc2.laqr1 (L : Loc2 D W r c g0 g0' h h') (hL : r * c < 2 ^ 31) {n : Nat} (hn : n = 2 ∨ n = 3) {k : Int} (k1 : 1 ≤ k) (kr : k + n ≤ r + 1) (kc : k + n ≤ c + 1)
    (hd : ∀ i j : Int, k ≤ i → i < k + n → k ≤ j → j < k + n → D i j) {V : Type} [ToFA F V] [FromFA F V] (a b a' b' : F) :
    ∃ l l' : List F, h.from2 k k = pure l ∧ h'.from2 k k = pure l' ∧ ∀ v : V, dlaqr1 (F := F) (n : Int) l' (r : Int) a b a' b' v = dlaqr1 (F := F) (n : Int) l (r : Int) a b a' b' v := by
  obtain ⟨g, g', e, e', ag, -, -⟩ := L
  have hn' : (n : Int) = 2 ∨ (n : Int) = 3 := by omega
  have r0 : 0 < r := by omega
  have hr : r < 2 ^ 31 := lt_of_le_of_lt (Nat.le_mul_of_pos_right r (by omega)) hL
  have m : IsMatrix h r c := (is2_hqrShape e hL).mat
  have m' : IsMatrix h' r c := (is2_hqrShape e' hL).mat
  have st : ∀ {x : FA F} {q : Int → Int → F}, Is2 x r c (r * c) q → Stored (x.data.drop ((k - 1) * r + (k - 1)).toNat) r n n := fun ex =>
    sub_stored ex.data hL hr k1 k1 (by omega) r0 fun _ _ => by
      have := fits_rc r c (k + n - 1) (k + n - 1) (by omega) (by omega) (by omega) (by omega)
      rw [show k + (n : Int) - 1 - 1 = k + n - 2 by ring] at this
      exact this
  have en : ∀ {x : FA F} {q : Int → Int → F}, Is2 x r c (r * c) q → ∀ i j : Nat, i < n → j < n →
      entry (x.data.drop ((k - 1) * r + (k - 1)).toNat) r i j = q (k + i) (k + j) := fun ex i j hi hj =>
    (sub_entry ex.data k1 k1 (by omega) (fits_rc r c (k + i) (k + j) (by omega) (by omega) (by omega) (by omega))).2
  refine ⟨_, _, C07_from2 m k1 (by omega) k1 (by omega), C07_from2 m' k1 (by omega) k1 (by omega), fun v => ?_⟩
  have S := st e
  have S' := st e'
  obtain ⟨x, ex, -, ix⟩ := toFa2d_list (v := h.data.drop ((k - 1) * r + (k - 1)).toNat) r0 hr S.small
  obtain ⟨x', ex', -, ix'⟩ := toFa2d_list (v := h'.data.drop ((k - 1) * r + (k - 1)).toNat) r0 hr S'.small
  unfold dlaqr1
  rw [ex, ex', pure_bind, pure_bind, if_neg (by omega), if_neg (by omega), dlaqr1FA_congr hn' a b a' b' _ fun i j i1 i2 j1 j2 => ?_]
  obtain ⟨i, rfl⟩ : ∃ y : Nat, i = y + 1 := ⟨(i - 1).toNat, by omega⟩
  obtain ⟨j, rfl⟩ : ∃ y : Nat, j = y + 1 := ⟨(j - 1).toNat, by omega⟩
  rw [get2_is2 ix (S.block _ _ (by omega) (by omega) (by omega) (by omega)) S.small, get2_is2 ix' (S'.block _ _ (by omega) (by omega) (by omega) (by omega)) S'.small,
    entry_ofList2, entry_ofList2, en e i j (by omega) (by omega), en e' i j (by omega) (by omega), ag _ _ (hd _ _ (by omega) (by omega) (by omega) (by omega))]

end

/-! ### The steps of the sweep -/

/-- The arguments suit each other; two or three shifts, no accumulation. -/
structure FitL (p : Qr5P F) (r c : Nat) : Prop where
  top : 1 ≤ p.ktop
  lt : p.ktop < p.kbot
  kn : p.kbot ≤ p.n
  nr : p.n ≤ r
  nc : p.n ≤ c
  ldh : p.ldh = r
  nb : p.nbmps = 1

/-- Where the arrays agree when step `k` begins: in the block, on and above the subdiagonal, on the third diagonal below the main one, and on the second one as far as it
has been written. -/
def BlkD (p : Qr5P F) (k a b : Int) : Prop :=
  p.ktop ≤ a ∧ a ≤ p.kbot ∧ p.ktop ≤ b ∧ b ≤ p.kbot ∧ (a ≤ b + 1 ∨ a = b + 3 ∨ a = b + 2 ∧ (b ≤ k ∨ b = p.ktop))

/-- Where something may be written. -/
def BlkW (p : Qr5P F) (a b : Int) : Prop :=
  p.ktop ≤ a ∧ a ≤ p.kbot ∧ p.ktop ≤ b ∧ b ≤ p.kbot ∧ a ≤ b + 3 ∨
    p.wantt = true ∧ (a < p.ktop ∧ p.ktop ≤ b ∧ b ≤ p.kbot ∨ p.ktop ≤ a ∧ a ≤ p.kbot ∧ p.kbot < b ∧ b ≤ p.n)

section
variable {p : Qr5P F} {r c : Nat} {g0 g0' : Int → Int → F} {h h' : FA F}

local notation "LL" => fun k => Loc2 (BlkD p k) (BlkW p) r c g0 g0'

theorem qr5Negligible_loc (hf : FitL p r c) (hL : r * c < 2 ^ 31) {k : Int} (k1 : p.ktop ≤ k) (k2 : k + 2 ≤ p.kbot) (L : LL (k + 1) h h') :
    Sim (LL (k + 1)) (qr5Negligible p k h) (qr5Negligible p k h') := by
  have h1 := hf.top; have h2 := hf.kn; have h3 := hf.nr; have h4 := hf.nc
  have g : ∀ (a b : Int), BlkD p (k + 1) a b → h'.get2 a b = h.get2 a b := fun a b hd => by
    have hd' := hd
    unfold BlkD at hd'
    exact L.get hL (by omega) (by omega) (by omega) (by omega) hd
  unfold qr5Negligible
  simp only
  rw [g (k + 1) k (by unfold BlkD; omega), g k k (by unfold BlkD; omega), g (k + 1) (k + 1) (by unfold BlkD; omega), g k (k + 1) (by unfold BlkD; omega)]
  refine Sim.bind' fun hk1k => Sim.ite (fun _ => Sim.bind' fun hkk => Sim.bind' fun hk1k1 => ?_) fun _ => Sim.pure L
  have tail : ∀ tst1 : F, Sim (LL (k + 1)) (if (abs hk1k ≤ᶠ fmax p.smlnum (p.ulp * tst1)) = true then do
      let hkk1 ← h.get2 k (k + 1)
      if ((fmin (abs hk1k1) (abs (hkk - hk1k1)) * (fmax (abs hk1k1) (abs (hkk - hk1k1)) / (fmax (abs hk1k1) (abs (hkk - hk1k1)) + fmax (abs hk1k) (abs hkk1))) =ᶠ zero) ||
        (fmin (abs hk1k) (abs hkk1) * (fmax (abs hk1k) (abs hkk1) / (fmax (abs hk1k1) (abs (hkk - hk1k1)) + fmax (abs hk1k) (abs hkk1))) ≤ᶠ
          fmax p.smlnum (p.ulp * (fmin (abs hk1k1) (abs (hkk - hk1k1)) * (fmax (abs hk1k1) (abs (hkk - hk1k1)) / (fmax (abs hk1k1) (abs (hkk - hk1k1)) + fmax (abs hk1k) (abs hkk1))))))) = true then
        h.set2 (k + 1) k zero
      else pure h
      else pure h) (if (abs hk1k ≤ᶠ fmax p.smlnum (p.ulp * tst1)) = true then do
      let hkk1 ← h.get2 k (k + 1)
      if ((fmin (abs hk1k1) (abs (hkk - hk1k1)) * (fmax (abs hk1k1) (abs (hkk - hk1k1)) / (fmax (abs hk1k1) (abs (hkk - hk1k1)) + fmax (abs hk1k) (abs hkk1))) =ᶠ zero) ||
        (fmin (abs hk1k) (abs hkk1) * (fmax (abs hk1k) (abs hkk1) / (fmax (abs hk1k1) (abs (hkk - hk1k1)) + fmax (abs hk1k) (abs hkk1))) ≤ᶠ
          fmax p.smlnum (p.ulp * (fmin (abs hk1k1) (abs (hkk - hk1k1)) * (fmax (abs hk1k1) (abs (hkk - hk1k1)) / (fmax (abs hk1k1) (abs (hkk - hk1k1)) + fmax (abs hk1k) (abs hkk1))))))) = true then
        h'.set2 (k + 1) k zero
      else pure h'
      else pure h') := by
    intro tst1
    refine Sim.ite (fun _ => Sim.bind' fun hkk1 => Sim.ite (fun _ => ?_) fun _ => Sim.pure L) fun _ => Sim.pure L
    exact L.set hL (by omega) (by omega) (by omega) (by omega) (by unfold BlkW; omega) _ fun i j hij => Or.inl hij
  refine Sim.ite (fun _ => ?_) fun _ => tail _
  simp only [pure_bind]
  have gb : ∀ (a b : Int) (f f' : F → R (FA F)), BlkD p (k + 1) a b → (∀ x, Sim (LL (k + 1)) (f x) (f' x)) → Sim (LL (k + 1)) (h.get2 a b >>= f) (h'.get2 a b >>= f') := by
    intro a b f f' hd hs
    rw [g a b hd]
    exact Sim.bind' hs
  repeat' first
    | exact tail _
    | refine Sim.ite (fun _ => gb _ _ _ _ (by unfold BlkD; omega) fun _ => ?_) fun _ => ?_

theorem qr5Bmp22Refl_loc (hf : FitL p r c) (hL : r * c < 2 ^ 31) {k : Int} (k1 : p.ktop - 1 ≤ k) (k2 : k + 2 = p.kbot) {s : Qr5S F} {wv' wh' : FA F} (L : LL k s.h h') :
    Sim (fun q q' => LL (k + 1) q.1 q'.1 ∧ q.2 = q'.2) (qr5Bmp22Refl p k 1 s) (qr5Bmp22Refl p k 1 { s with h := h', wv := wv', wh := wh' }) := by
  have h1 := hf.top; have h2 := hf.kn; have h3 := hf.nr; have h4 := hf.nc
  have up : ∀ a b, BlkD p (k + 1) a b → BlkD p k a b := fun a b hd => by unfold BlkD at hd ⊢; omega
  unfold qr5Bmp22Refl
  rw [hf.ldh]
  refine Sim.ite (fun hk => ?_) fun hk => ?_
  · obtain ⟨l, l', e, e', el⟩ := L.laqr1 hL (n := 2) (Or.inl rfl) (k := k + 1) (V := List F) (by omega) (by omega) (by omega) (fun i j i1 i2 j1 j2 => by unfold BlkD; omega)
      (s.sr.get1 (2 * 1 - 1)) (s.si.get1 (2 * 1 - 1)) (s.sr.get1 (2 * 1)) (s.si.get1 (2 * 1))
    simp only [e, e', pure_bind]
    refine Sim.bind' fun vt => ?_
    have el' := el vt
    simp only [Nat.cast_ofNat] at el'
    rw [el']
    exact Sim.bind' fun vt => Sim.bind' fun v => Sim.bind' fun beta => Sim.bind' fun q => Sim.pure ⟨L.mono up, rfl⟩
  · simp only
    rw [L.get hL (a := k + 1) (b := k) (by omega) (by omega) (by omega) (by omega) (by unfold BlkD; omega),
      L.get hL (a := k + 2) (b := k) (by omega) (by omega) (by omega) (by omega) (by unfold BlkD; omega)]
    refine Sim.bind' fun beta => Sim.bind' fun x => Sim.bind' fun v => Sim.bind' fun q => ?_
    refine Sim.bind (L.set hL (by omega) (by omega) (by omega) (by omega) (by unfold BlkW; omega) _ fun i j hij => Or.inl (up i j hij)) fun a b L => ?_
    exact Sim.bind (L.set hL (by omega) (by omega) (by omega) (by omega) (by unfold BlkW; omega) _ fun i j hij => Or.inl hij) fun a b L => Sim.pure ⟨L, rfl⟩

/-- The states differ in `h`, `wv` and `wh` only. -/
def Rel5 (p : Qr5P F) (r c : Nat) (g0 g0' : Int → Int → F) (k : Int) (s s' : Qr5S F) : Prop := s' = { s with h := s'.h, wv := s'.wv, wh := s'.wh } ∧ Loc2 (BlkD p k) (BlkW p) r c g0 g0' s.h s'.h

/-- The first row and the last column of the updates. -/
structure Ends5 (p : Qr5P F) (jtop jbot : Int) : Prop where
  top : 1 ≤ jtop
  above : jtop < p.ktop → p.wantt = true
  bot : jbot ≤ p.n
  right : p.kbot < jbot → p.wantt = true

theorem FitL.ends (hf : FitL p r c) : Ends5 p (if p.wantt = true then 1 else p.ktop) (if p.wantt = true then p.n else p.kbot) := by
  have h1 := hf.top; have h2 := hf.kn
  split
  · exact ⟨le_refl _, fun _ => ‹_›, le_refl _, fun _ => ‹_›⟩
  · exact ⟨h1, fun h => absurd h (lt_irrefl _), h2, fun h => absurd h (lt_irrefl _)⟩

theorem qr5Bmp22_loc (hf : FitL p r c) (hL : r * c < 2 ^ 31) {incol jtop jbot krcol : Int} (k1 : p.ktop - 1 ≤ krcol) (k2 : krcol + 2 = p.kbot) (he : Ends5 p jtop jbot)
    {s s' : Qr5S F} (hs : Rel5 p r c g0 g0' krcol s s') :
    Sim (Rel5 p r c g0 g0' (krcol + 1)) (qr5Bmp22 p incol jtop jbot krcol 1 s) (qr5Bmp22 p incol jtop jbot krcol 1 s') := by
  have h1 := hf.top; have h2 := hf.kn; have h3 := hf.nr; have h4 := hf.nc; have h5 := hf.lt
  obtain ⟨es, L⟩ := hs
  have ht : 1 ≤ jtop ∧ (jtop < p.ktop → p.wantt = true) := ⟨he.top, he.above⟩
  have hb : jbot ≤ p.n ∧ (p.kbot < jbot → p.wantt = true) := ⟨he.bot, he.right⟩
  rw [es]
  unfold qr5Bmp22
  simp only [show krcol + 2 * ((1 : Int) - 1) = krcol by ring]
  refine Sim.bind (qr5Bmp22Refl_loc hf hL k1 k2 L) fun q q' hq => ?_
  obtain ⟨h, v⟩ := q
  obtain ⟨h', v'⟩ := q'
  obtain ⟨L, rfl⟩ := hq
  simp only at L ⊢
  refine Sim.bind' fun t1 => Sim.bind' fun v2 => ?_
  refine Sim.bind (refl2Cols_loc2 L hL v2 t1 (t1 * v2) (by omega) fun j j1 j2 => ?_) fun ha ha' L => ?_
  · unfold BlkW BlkD
    by_cases hw : p.wantt = true
    · simp only [hw, true_and]; omega
    · have : ¬ jtop < p.ktop := fun h => hw (ht.2 h)
      simp only [hw, Bool.false_eq_true, false_and, or_false]; omega
  refine Sim.bind (refl2Rows_loc2 L hL v2 t1 (t1 * v2) (by omega) fun j j1 j2 => ?_) fun hb hb' L => ?_
  · unfold BlkW BlkD
    by_cases hw : p.wantt = true
    · simp only [hw, true_and]; omega
    · have : ¬ p.kbot < jbot := fun h => hw (hb.2 h)
      simp only [hw, Bool.false_eq_true, false_and, or_false]; omega
  have tail : ∀ x x' : FA F, LL (krcol + 1) x x' → Sim (Rel5 p r c g0 g0' (krcol + 1)) (if p.accum = true then do
        let u ← refl2Cols (max 1 (p.ktop - incol)) p.kdu (krcol - incol + 1) (krcol - incol + 2) v2 t1 (t1 * v2) s.u
        pure { s with h := x, v := v, u := u }
      else if p.wantz = true then do
        let z ← refl2Cols p.iloz p.ihiz (krcol + 1) (krcol + 2) v2 t1 (t1 * v2) s.z
        pure { s with h := x, v := v, z := z }
      else pure { s with h := x, v := v }) (if p.accum = true then do
        let u ← refl2Cols (max 1 (p.ktop - incol)) p.kdu (krcol - incol + 1) (krcol - incol + 2) v2 t1 (t1 * v2) s.u
        pure { s with h := x', v := v, u := u, wv := s'.wv, wh := s'.wh }
      else if p.wantz = true then do
        let z ← refl2Cols p.iloz p.ihiz (krcol + 1) (krcol + 2) v2 t1 (t1 * v2) s.z
        pure { s with h := x', v := v, z := z, wv := s'.wv, wh := s'.wh }
      else pure { s with h := x', v := v, wv := s'.wv, wh := s'.wh }) := by
    intro x x' L
    refine Sim.ite (fun _ => Sim.bind' fun u => Sim.pure ⟨rfl, L⟩) fun _ => Sim.ite (fun _ => Sim.bind' fun u => Sim.pure ⟨rfl, L⟩) fun _ => Sim.pure ⟨rfl, L⟩
  refine Sim.ite (fun hk => ?_) fun _ => tail _ _ L
  exact Sim.bind (qr5Negligible_loc hf hL hk (by omega) L) fun x x' L => tail x x' L

theorem qr5Collapsed_loc (hf : FitL p r c) (hL : r * c < 2 ^ 31) {k : Int} (k1 : p.ktop ≤ k) (k2 : k + 3 ≤ p.kbot) (beta : F) (s : Qr5S F) (x' wv' wh' : FA F) {h h' v : FA F}
    (L : LL (k + 1) h h') :
    Sim (fun q q' => LL (k + 1) q.1 q'.1 ∧ q.2 = q'.2) (qr5Collapsed p k 1 beta s h v) (qr5Collapsed p k 1 beta { s with h := x', wv := wv', wh := wh' } h' v) := by
  have h1 := hf.top; have h2 := hf.kn; have h3 := hf.nr; have h4 := hf.nc
  have st : ∀ {a b : FA F}, LL (k + 1) a b → ∀ {i j : Int} (x : F), BlkW p i j → p.ktop ≤ i → i ≤ p.kbot → p.ktop ≤ j → j ≤ p.kbot →
      Sim (LL (k + 1)) (a.set2 i j x) (b.set2 i j x) := fun L _ _ x hw i1 i2 j1 j2 => L.set hL (by omega) (by omega) (by omega) (by omega) hw x fun _ _ => Or.inl
  have g : ∀ (a b : Int), BlkD p (k + 1) a b → h'.get2 a b = h.get2 a b := fun a b hd => by
    have hd' := hd
    unfold BlkD at hd'
    exact L.get hL (by omega) (by omega) (by omega) (by omega) hd
  unfold qr5Collapsed
  rw [hf.ldh]
  obtain ⟨l, l', e, e', el⟩ := L.laqr1 hL (n := 3) (Or.inr rfl) (k := k + 1) (V := FA F) (by omega) (by omega) (by omega) (fun i j i1 i2 j1 j2 => by unfold BlkD; omega)
      (s.sr.get1 (2 * 1 - 1)) (s.si.get1 (2 * 1 - 1)) (s.sr.get1 (2 * 1)) (s.si.get1 (2 * 1))
  have el' := el s.vt
  simp only [Nat.cast_ofNat] at el'
  simp only [e, e', pure_bind, el']
  rw [g (k + 1) k (by unfold BlkD; omega), g (k + 2) k (by unfold BlkD; omega), g k k (by unfold BlkD; omega), g (k + 1) (k + 1) (by unfold BlkD; omega),
    g (k + 2) (k + 2) (by unfold BlkD; omega)]
  refine Sim.bind' fun vt => Sim.bind' fun q => Sim.bind' fun vt => Sim.bind' fun x1 => Sim.bind' fun x2 => Sim.bind' fun x3 => Sim.bind' fun x4 => Sim.bind' fun x5 => ?_
  refine Sim.ite (fun _ => ?_) fun _ => ?_
  · refine Sim.bind (st L _ (by unfold BlkW; omega) (by omega) (by omega) (by omega) (by omega)) fun a b L => ?_
    refine Sim.bind (st L _ (by unfold BlkW; omega) (by omega) (by omega) (by omega) (by omega)) fun a b L => ?_
    exact Sim.bind (st L _ (by unfold BlkW; omega) (by omega) (by omega) (by omega) (by omega)) fun a b L => Sim.pure ⟨L, rfl⟩
  · refine Sim.bind (L.modify hL (by omega) (by omega) (by omega) (by omega) (by unfold BlkD; omega) (by unfold BlkW; omega) _) fun a b L => ?_
    refine Sim.bind (st L _ (by unfold BlkW; omega) (by omega) (by omega) (by omega) (by omega)) fun a b L => ?_
    refine Sim.bind (st L _ (by unfold BlkW; omega) (by omega) (by omega) (by omega) (by omega)) fun a b L => ?_
    exact Sim.bind' fun v => Sim.bind' fun v => Sim.bind' fun v => Sim.pure ⟨L, rfl⟩

theorem qr5Refl3_loc (hf : FitL p r c) (hL : r * c < 2 ^ 31) {k : Int} (k1 : p.ktop - 1 ≤ k) (k2 : k + 3 ≤ p.kbot) {s : Qr5S F} {wv' wh' : FA F} (L : LL k s.h h') :
    Sim (fun q q' => LL (k + 1) q.1 q'.1 ∧ q.2 = q'.2) (qr5Refl3 p k 1 s) (qr5Refl3 p k 1 { s with h := h', wv := wv', wh := wh' }) := by
  have h1 := hf.top; have h2 := hf.kn; have h3 := hf.nr; have h4 := hf.nc
  unfold qr5Refl3
  rw [hf.ldh]
  refine Sim.ite (fun hk => ?_) fun hk => ?_
  · obtain ⟨l, l', e, e', el⟩ := L.laqr1 hL (n := 3) (Or.inr rfl) (k := p.ktop) (V := List F) (by omega) (by omega) (by omega) (fun i j i1 i2 j1 j2 => by unfold BlkD; omega)
      (s.sr.get1 (2 * 1 - 1)) (s.si.get1 (2 * 1 - 1)) (s.sr.get1 (2 * 1)) (s.si.get1 (2 * 1))
    simp only [e, e', pure_bind]
    refine Sim.bind' fun vt => ?_
    have el' := el vt
    simp only [Nat.cast_ofNat] at el'
    rw [el']
    exact Sim.bind' fun vt => Sim.bind' fun v => Sim.bind' fun beta => Sim.bind' fun q => Sim.pure ⟨L.mono fun a b hd => by unfold BlkD at hd ⊢; omega, rfl⟩
  · have st : ∀ {a b : FA F}, LL (k + 1) a b → ∀ {i j : Int} (x : F), BlkW p i j → p.ktop ≤ i → i ≤ p.kbot → p.ktop ≤ j → j ≤ p.kbot →
        Sim (LL (k + 1)) (a.set2 i j x) (b.set2 i j x) := fun L _ _ x hw i1 i2 j1 j2 => L.set hL (by omega) (by omega) (by omega) (by omega) hw x fun _ _ => Or.inl
    simp only
    rw [L.get hL (a := k + 3) (b := k + 2) (by omega) (by omega) (by omega) (by omega) (by unfold BlkD; omega)]
    refine Sim.bind' fun t1 => Sim.bind' fun v2 => Sim.bind' fun v3 => Sim.bind' fun x => ?_
    refine Sim.bind (L.set (D' := BlkD p k) hL (by omega) (by omega) (by omega) (by omega) (by unfold BlkW; omega) _ fun _ _ => Or.inl) fun a a' L => ?_
    refine Sim.bind (L.set (D' := BlkD p (k + 1)) hL (by omega) (by omega) (by omega) (by omega) (by unfold BlkW; omega) _ fun i j hd => by unfold BlkD at hd ⊢; omega) fun a a' L => ?_
    refine Sim.bind (L.modify hL (by omega) (by omega) (by omega) (by omega) (by unfold BlkD; omega) (by unfold BlkW; omega) _) fun a a' L => ?_
    have g : ∀ (i j : Int), BlkD p (k + 1) i j → a'.get2 i j = a.get2 i j := fun i j hd => by
      have hd' := hd
      unfold BlkD at hd'
      exact L.get hL (by omega) (by omega) (by omega) (by omega) hd
    rw [g (k + 1) k (by unfold BlkD; omega), g (k + 2) k (by unfold BlkD; omega), g (k + 3) k (by unfold BlkD; omega), g (k + 3) (k + 1) (by unfold BlkD; omega),
      g (k + 3) (k + 2) (by unfold BlkD; omega)]
    refine Sim.bind' fun beta => Sim.bind' fun y => Sim.bind' fun va => Sim.bind' fun y' => Sim.bind' fun vb => Sim.bind' fun q => ?_
    refine Sim.bind' fun y1 => Sim.bind' fun y2 => Sim.bind' fun y3 => Sim.ite (fun _ => ?_) fun _ => qr5Collapsed_loc hf hL (by omega) k2 _ s h' wv' wh' L
    refine Sim.bind (st L _ (by unfold BlkW; omega) (by omega) (by omega) (by omega) (by omega)) fun a b L => ?_
    refine Sim.bind (st L _ (by unfold BlkW; omega) (by omega) (by omega) (by omega) (by omega)) fun a b L => ?_
    exact Sim.bind (st L _ (by unfold BlkW; omega) (by omega) (by omega) (by omega) (by omega)) fun a b L => Sim.pure ⟨L, rfl⟩

theorem qr5Bulge_loc (hf : FitL p r c) (hL : r * c < 2 ^ 31) {jtop jbot krcol : Int} (k1 : p.ktop - 1 ≤ krcol) (k2 : krcol + 3 ≤ p.kbot) (he : Ends5 p jtop jbot)
    {s s' : Qr5S F} (hs : Rel5 p r c g0 g0' krcol s s') :
    Sim (Rel5 p r c g0 g0' (krcol + 1)) (qr5Bulge p jtop krcol s 1) (qr5Bulge p jtop krcol s' 1) := by
  have h1 := hf.top; have h2 := hf.kn; have h3 := hf.nr; have h4 := hf.nc; have h5 := hf.lt
  obtain ⟨es, L⟩ := hs
  have ht : 1 ≤ jtop ∧ (jtop < p.ktop → p.wantt = true) := ⟨he.top, he.above⟩
  rw [es]
  unfold qr5Bulge
  simp only [show krcol + 2 * ((1 : Int) - 1) = krcol by ring]
  refine Sim.bind (qr5Refl3_loc hf hL k1 k2 L) fun q q' hq => ?_
  obtain ⟨h, v, vt⟩ := q
  obtain ⟨h', v', vt'⟩ := q'
  obtain ⟨L, e⟩ := hq
  obtain ⟨rfl, rfl⟩ := Prod.mk.inj e
  simp only at L ⊢
  refine Sim.bind' fun t1 => Sim.bind' fun v2 => Sim.bind' fun v3 => ?_
  refine Sim.bind (refl3Cols_loc2 L hL v2 v3 t1 (t1 * v2) (t1 * v3) (by omega) fun j j1 j2 => ?_) fun ha ha' L => ?_
  · unfold BlkW BlkD
    by_cases hw : p.wantt = true
    · simp only [hw, true_and]; omega
    · have : ¬ jtop < p.ktop := fun h => hw (ht.2 h)
      simp only [hw, Bool.false_eq_true, false_and, or_false]; omega
  refine Sim.bind (refl3Rows_loc2 L hL v2 v3 t1 (t1 * v2) (t1 * v3) (by omega) fun j j1 j2 => ?_) fun hb hb' L => ?_
  · unfold BlkW BlkD
    omega
  refine Sim.ite (fun hk => Sim.pure ⟨rfl, L⟩) fun hk => ?_
  exact Sim.bind (qr5Negligible_loc hf hL (by omega) (by omega) L) fun x x' L => Sim.pure ⟨rfl, L⟩

theorem qr5Left_loc (hf : FitL p r c) (hL : r * c < 2 ^ 31) {jtop jbot krcol : Int} (k1 : p.ktop - 1 ≤ krcol) (k2 : krcol + 3 ≤ p.kbot) (he : Ends5 p jtop jbot)
    {s s' : Qr5S F} (hs : Rel5 p r c g0 g0' (krcol + 1) s s') :
    Sim (Rel5 p r c g0 g0' (krcol + 1)) (qr5Left p krcol jbot s 1) (qr5Left p krcol jbot s' 1) := by
  have h1 := hf.top; have h2 := hf.kn; have h3 := hf.nr; have h4 := hf.nc; have h5 := hf.lt
  obtain ⟨es, L⟩ := hs
  have hb : jbot ≤ p.n ∧ (p.kbot < jbot → p.wantt = true) := ⟨he.bot, he.right⟩
  rw [es]
  unfold qr5Left
  simp only [show krcol + 2 * ((1 : Int) - 1) = krcol by ring]
  refine Sim.bind' fun t1 => Sim.bind' fun v2 => Sim.bind' fun v3 => ?_
  refine Sim.bind (refl3Rows_loc2 L hL v2 v3 t1 (t1 * v2) (t1 * v3) (by omega) fun j j1 j2 => ?_) fun _ _ L => Sim.pure ⟨rfl, L⟩
  unfold BlkW BlkD
  by_cases hw : p.wantt = true
  · simp only [hw, true_and]; omega
  · have : ¬ p.kbot < jbot := fun h => hw (hb.2 h)
    simp only [hw, Bool.false_eq_true, false_and, or_false]; omega

theorem qr5AccZ_loc {krcol k m : Int} {s s' : Qr5S F} (hs : Rel5 p r c g0 g0' k s s') : Sim (Rel5 p r c g0 g0' k) (qr5AccZ p krcol s m) (qr5AccZ p krcol s' m) := by
  obtain ⟨es, L⟩ := hs
  rw [es]
  unfold qr5AccZ
  exact Sim.bind' fun t1 => Sim.bind' fun v2 => Sim.bind' fun v3 => Sim.bind' fun z => Sim.pure ⟨rfl, L⟩

theorem qr5Krcol_loc (hf : FitL p r c) (ha : p.accum = false) (hL : r * c < 2 ^ 31) {incol jtop krcol : Int} (k1 : p.ktop - 1 ≤ krcol) (k2 : krcol + 2 ≤ p.kbot)
    (ht : jtop = if p.wantt = true then 1 else p.ktop) {s s' : Qr5S F} (hs : Rel5 p r c g0 g0' krcol s s') :
    Sim (Rel5 p r c g0 g0' (krcol + 1)) (qr5Krcol p incol jtop s krcol) (qr5Krcol p incol jtop s' krcol) := by
  have hmt : max 1 ((p.ktop - krcol).tdiv 2 + 1) = 1 := by
    have := tdiv2_nonpos (x := p.ktop - krcol) (by omega)
    omega
  unfold qr5Krcol
  simp only [hmt, hf.nb, ha, Bool.false_eq_true, if_false]
  have he : Ends5 p jtop (if p.wantt = true then p.n else p.kbot) := ht ▸ hf.ends
  generalize (if p.wantt = true then p.n else p.kbot) = jbot at he
  rcases (by omega : krcol + 2 = p.kbot ∨ krcol + 3 ≤ p.kbot) with hk | hk
  · have hmb : min 1 ((p.kbot - krcol - 1).tdiv 2) = 0 := by rw [tdiv2_small (by omega) (by omega)]; rfl
    rw [hmb, if_pos ⟨by norm_num, by omega⟩, if_pos ⟨by norm_num, by omega⟩]
    refine Sim.bind (qr5Bmp22_loc hf hL k1 hk he hs) fun s1 s1' hs1 => ?_
    refine Sim.bind (Sim.forDown_mem hs1 fun _ _ m m1 m2 _ => by omega) fun s2 s2' hs2 => Sim.bind (Sim.forDown_mem hs2 fun _ _ m m1 m2 _ => by omega) fun s3 s3' hs3 => ?_
    exact Sim.ite (fun hw => Sim.forDown_mem hs3 fun _ _ m m1 m2 hs' => qr5AccZ_loc hs') fun _ => Sim.pure hs3
  · have hmb : min 1 ((p.kbot - krcol - 1).tdiv 2) = 1 := by
      have := tdiv2_pos (x := p.kbot - krcol - 1) (by omega)
      omega
    have e1 : ∀ (f : Qr5S F → Int → R (Qr5S F)) (s : Qr5S F), forDown 1 1 s f = f s 1 := fun f s => by
      rw [forDown_cons (le_refl _)]
      simp
    rw [hmb, if_neg (by omega), if_neg (by omega), pure_bind, pure_bind, e1, e1]
    refine Sim.bind (qr5Bulge_loc hf hL k1 hk he hs) fun s2 s2' hs2 => ?_
    rw [e1, e1]
    refine Sim.bind (qr5Left_loc hf hL k1 hk he hs2) fun s3 s3' hs3 => ?_
    exact Sim.ite (fun hw => Sim.forDown_mem hs3 fun _ _ m m1 m2 hs' => qr5AccZ_loc hs') fun _ => Sim.pure hs3

theorem qr5Incol_loc (hf : FitL p r c) (ha : p.accum = false) (hL : r * c < 2 ^ 31) {incol : Int} (k1 : p.ktop - 1 ≤ incol) (k2 : incol + 2 ≤ p.kbot) {s s' : Qr5S F}
    (hs : Rel5 p r c g0 g0' incol s s') : Sim (Rel5 p r c g0 g0' (min (incol + 2) (p.kbot - 2 + 1))) (qr5Incol p s incol) (qr5Incol p s' incol) := by
  unfold qr5Incol
  simp only [hf.nb, ha, Bool.false_eq_true, if_false, pure_bind, bind_pure]
  have := Sim.forUp_idx (rel := Rel5 p r c g0 g0') (lo := incol) (hi := min (incol + 2 * 1 - 1) (p.kbot - 2)) (by omega) hs
    (f := qr5Krcol p incol (if p.wantt = true then 1 else p.ktop)) (g := qr5Krcol p incol (if p.wantt = true then 1 else p.ktop))
    fun _ _ i i1 i2 hs' => qr5Krcol_loc hf ha hL (by omega) (by omega) rfl hs'
  rw [show min (incol + 2 * 1 - 1) (p.kbot - 2) + 1 = min (incol + 2) (p.kbot - 2 + 1) by omega] at this
  exact this

theorem qr5Main_loc (hf : FitL p r c) (ha : p.accum = false) (hL : r * c < 2 ^ 31) (nshfts : Int) {s s' : Qr5S F} {g g' : Int → Int → F} (e : Is2 s.h r c (r * c) g) (e' : Is2 s'.h r c (r * c) g')
    (es : s' = { s with h := s'.h, wv := s'.wv, wh := s'.wh })
    (hg : ∀ a b, p.ktop ≤ a → a ≤ p.kbot → p.ktop ≤ b → b ≤ p.kbot → (a ≤ b + 1 ∨ a = b + 3) → g a b = g' a b) :
    Sim (Rel5 p r c g g' (p.kbot - 1)) (qr5Main p nshfts s) (qr5Main p nshfts s') := by
  have h1 := hf.top; have h2 := hf.kn; have h3 := hf.nr; have h4 := hf.nc; have h5 := hf.lt
  have L : Loc2 (fun a b => p.ktop ≤ a ∧ a ≤ p.kbot ∧ p.ktop ≤ b ∧ b ≤ p.kbot ∧ (a ≤ b + 1 ∨ a = b + 3)) (BlkW p) r c g g' s.h s'.h :=
    ⟨g, g', e, e', fun a b hd => hg a b hd.1 hd.2.1 hd.2.2.1 hd.2.2.2.1 hd.2.2.2.2, fun _ _ _ => rfl, fun _ _ _ => rfl⟩
  rw [es] at L ⊢
  unfold qr5Main
  refine Sim.bind' fun q => ?_
  obtain ⟨sr, si⟩ := q
  simp only at L ⊢
  have tail : ∀ x x' : FA F, Loc2 (BlkD p (p.ktop - 1)) (BlkW p) r c g g' x x' →
      Sim (Rel5 p r c g g' (p.kbot - 1)) (forStep (p.ktop - 2 * p.nbmps + 1) (p.kbot - 2) (2 * asUsize p.nbmps) { s with sr := sr, si := si, h := x } (qr5Incol p))
        (forStep (p.ktop - 2 * p.nbmps + 1) (p.kbot - 2) (2 * asUsize p.nbmps) { s with sr := sr, si := si, h := x', wv := s'.wv, wh := s'.wh } (qr5Incol p)) := by
    intro x x' L
    rw [hf.nb]
    have a1 : 2 * asUsize 1 = 2 := by decide
    rw [a1]
    have := Sim.forStep2_idx (rel := Rel5 p r c g g') (lo := p.ktop - 2 * 1 + 1) (hi := p.kbot - 2) (f := qr5Incol p) (g := qr5Incol p) (by omega)
      (s := { s with sr := sr, si := si, h := x }) (t := { s with sr := sr, si := si, h := x', wv := s'.wv, wh := s'.wh }) ⟨rfl, by rw [show p.ktop - 2 * 1 + 1 = p.ktop - 1 by ring]; exact L⟩
      fun _ _ i i1 i2 hs' => qr5Incol_loc hf ha hL (by omega) (by omega) hs'
    rwa [show p.kbot - 2 + 1 = p.kbot - 1 by ring] at this
  refine Sim.ite (fun hk => ?_) fun hk => tail _ _ (L.mono fun a b hd => by unfold BlkD at hd; omega)
  refine Sim.bind (L.set (D' := BlkD p (p.ktop - 1)) hL (by omega) (by omega) (by omega) (by omega) (by unfold BlkW; omega) _ fun i j hd => by unfold BlkD at hd; omega)
    fun x x' L => tail x x' L

end

end Verif
