import Verif.Props.Hqr
import Verif.Props.Qr5
import Verif.Props.Qr5Z

/-!
# With accumulation `dlaqr5` gives `h` the leading dimension of `z` (C86)

After each block of the accumulated update the code rebuilds `h` with `to_fa_2d(ldz)` (src/dlaqr5.rs:410, 424) instead of `to_fa_2d(ldh)`.
-/

namespace Verif
open Scalar

section generic
variable {F : Type} [Scalar F]

/-- The number of rows of `h` is unchanged. -/
def SameRows (s s' : Qr5S F) : Prop := s'.h.rows = s.h.rows

theorem SameRows.refl (s : Qr5S F) : SameRows s s := rfl
theorem SameRows.trans {a b c : Qr5S F} (h : SameRows a b) (h' : SameRows b c) : SameRows a c := Eq.trans h' h

theorem rows_forDown {lo hi : Int} {s : Qr5S F} {f : Qr5S F → Int → R (Qr5S F)}
    (hf : ∀ s i, Post (f s i) (SameRows s)) : Post (forDown lo hi s f) (SameRows s) :=
  Post.foldlM _ (SameRows.refl s) fun _ i _ hs' => (hf _ i).mono fun _ h => hs'.trans h

theorem rows_forUp {lo hi : Int} {s : Qr5S F} {f : Qr5S F → Int → R (Qr5S F)}
    (hf : ∀ s i, Post (f s i) (SameRows s)) : Post (forUp lo hi s f) (SameRows s) :=
  Post.foldlM _ (SameRows.refl s) fun _ i _ hs' => (hf _ i).mono fun _ h => hs'.trans h

theorem rows_forStep {lo hi : Int} {st : Nat} {s : Qr5S F} {f : Qr5S F → Int → R (Qr5S F)}
    (hf : ∀ s i, Post (f s i) (SameRows s)) : Post (forStep lo hi st s f) (SameRows s) := by
  unfold forStep
  exact Post.bind' fun l => Post.foldlM _ (SameRows.refl s) fun _ i _ hs' => (hf _ i).mono fun _ h => hs'.trans h

theorem qr5Negligible_shape (p : Qr5P F) (k : Int) (h : FA F) : Post (qr5Negligible p k h) (SameShape h) := by
  unfold qr5Negligible
  dsimp only
  have h0 : Post (pure h : R (FA F)) (SameShape h) := Post.pure (SameShape.refl h)
  have h1 : ∀ a b (x : F), Post (h.set2 a b x) (SameShape h) := fun _ _ _ => set2_shape _ _ _ _
  repeat' first
    | exact h0
    | exact h1 _ _ _
    | refine Post.bind' fun _ => ?_
    | refine Post.ite (fun _ => ?_) (fun _ => ?_)

theorem set2_3_shape (h : FA F) (a b c d e f : Int) (x y z : F) {β : Type} (k : FA F → R β) (P : β → Prop)
    (hk : ∀ h', SameShape h h' → Post (k h') P) :
    Post (do let h ← h.set2 a b x; let h ← h.set2 c d y; let h ← h.set2 e f z; k h) P :=
  Post.bind (set2_shape _ _ _ _) fun _ h1 => Post.bind (set2_shape _ _ _ _) fun _ h2 => Post.bind (set2_shape _ _ _ _) fun _ h3 =>
    hk _ ((h1.trans h2).trans h3)

theorem qr5Bmp22Refl_shape (p : Qr5P F) (k m22 : Int) (s : Qr5S F) : Post (qr5Bmp22Refl p k m22 s) (fun q => SameShape s.h q.1) := by
  unfold qr5Bmp22Refl
  refine Post.ite (fun _ => ?_) fun _ => ?_
  · exact Post.bind' fun _ => Post.bind' fun _ => Post.bind' fun _ => Post.bind' fun _ => Post.bind' fun _ => Post.bind' fun _ => Post.pure (SameShape.refl _)
  · refine Post.bind' fun _ => Post.bind' fun _ => Post.bind' fun _ => Post.bind' fun _ => ?_
    exact Post.bind (set2_shape _ _ _ _) fun _ h1 => Post.bind (set2_shape _ _ _ _) fun _ h2 => Post.pure (h1.trans h2)

theorem qr5Collapsed_shape (p : Qr5P F) (k m : Int) (beta : F) (s : Qr5S F) (h v : FA F) :
    Post (qr5Collapsed p k m beta s h v) (fun q => SameShape h q.1) := by
  unfold qr5Collapsed
  refine Post.bind' fun _ => Post.bind' fun _ => Post.bind' fun _ => Post.bind' fun _ => Post.bind' fun _ => Post.bind' fun _ => Post.bind' fun _ =>
    Post.bind' fun _ => Post.bind' fun _ => ?_
  refine Post.ite (fun _ => ?_) fun _ => ?_
  · exact set2_3_shape _ _ _ _ _ _ _ _ _ _ _ _ fun h' hh => Post.pure hh
  · refine Post.bind (modify2_shape _ _ _ _) fun _ h1 => Post.bind (set2_shape _ _ _ _) fun _ h2 => Post.bind (set2_shape _ _ _ _) fun _ h3 => ?_
    exact Post.bind' fun _ => Post.bind' fun _ => Post.bind' fun _ => Post.pure ((h1.trans h2).trans h3)

theorem qr5Refl3_shape (p : Qr5P F) (k m : Int) (s : Qr5S F) : Post (qr5Refl3 p k m s) (fun q => SameShape s.h q.1) := by
  unfold qr5Refl3
  refine Post.ite (fun _ => ?_) fun _ => ?_
  · exact Post.bind' fun _ => Post.bind' fun _ => Post.bind' fun _ => Post.bind' fun _ => Post.bind' fun _ => Post.bind' fun _ => Post.pure (SameShape.refl _)
  · refine Post.bind' fun _ => Post.bind' fun _ => Post.bind' fun _ => Post.bind' fun _ => ?_
    refine Post.bind (set2_shape _ _ _ _) fun _ h1 => Post.bind (set2_shape _ _ _ _) fun _ h2 => Post.bind (modify2_shape _ _ _ _) fun h hh => ?_
    have hs := (h1.trans h2).trans hh
    refine Post.bind' fun _ => Post.bind' fun _ => Post.bind' fun _ => Post.bind' fun _ => Post.bind' fun _ => Post.bind' fun _ => Post.bind' fun _ =>
      Post.bind' fun _ => Post.bind' fun _ => ?_
    refine Post.ite (fun _ => ?_) fun _ => (qr5Collapsed_shape p k m _ s h _).mono fun _ hq => hs.trans hq
    exact set2_3_shape _ _ _ _ _ _ _ _ _ _ _ _ fun h' hh => Post.pure (hs.trans hh)

theorem qr5Bmp22_rows (p : Qr5P F) (incol jtop jbot krcol m22 : Int) (s : Qr5S F) : Post (qr5Bmp22 p incol jtop jbot krcol m22 s) (SameRows s) := by
  unfold qr5Bmp22
  refine Post.bind (qr5Bmp22Refl_shape _ _ _ _) fun hv h1 => ?_
  obtain ⟨h, v⟩ := hv
  refine Post.bind' fun t1 => Post.bind' fun v2 => Post.bind (refl2Cols_shape _ _ _ _ _ _ _ _) fun h2 hh2 => Post.bind (refl2Rows_shape _ _ _ _ _ _ _ _) fun h3 hh3 => ?_
  have h13 := (h1.trans hh2).trans hh3
  refine Post.iteBind (P := SameShape s.h) (Post.ite (fun _ => (qr5Negligible_shape p _ _).mono fun _ h => h13.trans h) fun _ => Post.pure h13) fun h4 hh4 => ?_
  dsimp only
  refine Post.ite (fun ha => ?_) fun _ => Post.ite (fun hz => ?_) fun _ => Post.pure hh4.1.symm
  · exact Post.bind' fun u => Post.pure hh4.1.symm
  · exact Post.bind' fun z => Post.pure hh4.1.symm

theorem qr5Bulge_rows (p : Qr5P F) (jtop krcol : Int) (s : Qr5S F) (m : Int) : Post (qr5Bulge p jtop krcol s m) (SameRows s) := by
  unfold qr5Bulge
  refine Post.bind (qr5Refl3_shape _ _ _ _) fun hv h1 => ?_
  obtain ⟨h, v, vt⟩ := hv
  refine Post.bind' fun t1 => Post.bind' fun v2 => Post.bind' fun v3 => Post.bind (refl3Cols_shape _ _ _ _ _ _ _ _ _ _ _) fun h2 hh2 =>
    Post.bind (refl3Rows_shape _ _ _ _ _ _ _ _ _ _ _) fun h3 hh3 => ?_
  have h13 := (h1.trans hh2).trans hh3
  refine Post.iteBind (P := SameShape s.h) (Post.ite (fun _ => Post.pure h13) fun _ => (qr5Negligible_shape p _ _).mono fun _ h => h13.trans h) fun h4 hh4 => ?_
  exact Post.pure hh4.1.symm

theorem qr5Left_rows (p : Qr5P F) (krcol jbot : Int) (s : Qr5S F) (m : Int) : Post (qr5Left p krcol jbot s m) (SameRows s) := by
  unfold qr5Left
  exact Post.bind' fun _ => Post.bind' fun _ => Post.bind' fun _ => Post.bind (refl3Rows_shape _ _ _ _ _ _ _ _ _ _ _) fun _ h => Post.pure h.1.symm

theorem qr5Krcol_rows (p : Qr5P F) (incol jtop : Int) (s : Qr5S F) (krcol : Int) : Post (qr5Krcol p incol jtop s krcol) (SameRows s) := by
  unfold qr5Krcol
  dsimp only
  refine Post.iteBind (P := SameRows s) ?_ fun s1 h1 => ?_
  · exact Post.ite (fun _ => qr5Bmp22_rows p _ _ _ _ _ s) fun _ => Post.pure (SameRows.refl s)
  refine Post.bind (rows_forDown fun s i => qr5Bulge_rows p _ _ s i) fun s2 h2 => ?_
  refine Post.bind (rows_forDown fun s i => qr5Left_rows p _ _ s i) fun s3 h3 => ?_
  have h13 := (h1.trans h2).trans h3
  refine Post.ite (fun ha => ?_) fun _ => Post.ite (fun hz => ?_) fun _ => Post.pure h13
  · exact (rows_forDown fun s i => by
      unfold qr5AccU
      exact Post.bind' fun _ => Post.bind' fun _ => Post.bind' fun _ => Post.bind' fun _ => Post.pure rfl).mono fun _ h => h13.trans h
  · exact (rows_forDown fun s i => by
      unfold qr5AccZ
      exact Post.bind' fun _ => Post.bind' fun _ => Post.bind' fun _ => Post.bind' fun _ => Post.pure rfl).mono fun _ h => h13.trans h

theorem as2d_rows (a : FA F) (ld : Int) : Post (a.as2d ld) fun b => b.rows = ld := by
  unfold FA.as2d
  exact Post.ite (fun _ => Post.panic _) fun _ => Post.bind' fun _ => Post.pure rfl

theorem qr5Block_rows (hor : Bool) (nu jlen ldu ldx ldw ldback r c k1 : Int) (u x w : FA F) :
    Post (qr5Block hor nu jlen ldu ldx ldw ldback r c k1 u x w) fun q => q.1.rows = ldback := by
  unfold qr5Block
  refine Post.bind' fun _ => Post.bind' fun _ => Post.iteBind (P := fun _ => True) (Post.trivial _) fun _ _ => Post.bind' fun _ =>
    Post.iteBind (P := fun _ => True) (Post.trivial _) fun _ _ => Post.bind' fun _ => Post.bind' fun _ => ?_
  exact Post.bind (as2d_rows _ _) fun _ h => Post.pure h

/-- What the last round of a loop establishes holds afterwards. -/
theorem Post.forStep_last {σ : Type} {G : σ → Prop} {f : σ → Int → R σ} {lo hi : Int} {st : Nat} {s : σ} (hle : lo ≤ hi)
    (hf : ∀ s i, lo ≤ i → hi < i + st → (∃ k : Nat, i = lo + k * st) → Post (f s i) G) : Post (forStep lo hi st s f) G := by
  unfold Verif.forStep irangeStep
  by_cases h0 : st = 0
  · rw [if_pos h0]; intro p a h; cases h
  · rw [if_neg h0, pure_bind]
    have hl : 0 < ((hi - lo + 1).toNat + st - 1) / st := Nat.div_pos (by omega) (by omega)
    obtain ⟨k, hk⟩ := Nat.exists_eq_succ_of_ne_zero hl.ne'
    have hlt : (hi - lo + 1).toNat + st - 1 < st * (k + 1 + 1) := by
      have := Nat.lt_mul_div_succ ((hi - lo + 1).toNat + st - 1) (show 0 < st by omega)
      rw [hk] at this
      exact this
    rw [hk, List.range_succ, List.map_append, List.map_cons, List.map_nil, List.foldlM_append]
    refine Post.bind' fun s1 => ?_
    rw [List.foldlM_cons]
    refine Post.bind (hf _ _ (le_add_of_nonneg_right (by positivity)) ?_ ⟨k, rfl⟩) fun _ h => Post.pure h
    have h2 : ((hi - lo + 1).toNat : Int) + st - 1 < st * (k + 1 + 1) := by
      have : (((hi - lo + 1).toNat + st - 1 : Nat) : Int) < ((st * (k + 1 + 1) : Nat) : Int) := by exact_mod_cast hlt
      rw [Nat.cast_sub (by omega)] at this
      push_cast at this ⊢
      linarith
    have h3 : ((hi - lo + 1).toNat : Int) = hi - lo + 1 := by omega
    nlinarith

/-- A loop all of whose rounds establish `G`: if the range is not empty `G` holds afterwards, otherwise nothing has happened. -/
theorem Post.forStep_any {σ : Type} {G : σ → Prop} {f : σ → Int → R σ} {lo hi : Int} {st : Nat} {s : σ} (hf : ∀ s i, Post (f s i) G) :
    Post (forStep lo hi st s f) fun s' => if lo ≤ hi then G s' else s' = s := by
  unfold Verif.forStep irangeStep
  by_cases h0 : st = 0
  · rw [if_pos h0]; intro p a h; cases h
  · rw [if_neg h0, pure_bind]
    by_cases hle : lo ≤ hi
    · have hl : 0 < ((hi - lo + 1).toNat + st - 1) / st := Nat.div_pos (by omega) (by omega)
      obtain ⟨k, hk⟩ := Nat.exists_eq_succ_of_ne_zero hl.ne'
      rw [hk, List.range_succ, List.map_append, List.map_cons, List.map_nil, List.foldlM_append]
      refine Post.bind' fun s1 => ?_
      rw [List.foldlM_cons]
      simp only [if_pos hle]
      exact Post.bind (hf _ _) fun _ h => Post.pure h
    · have : ((hi - lo + 1).toNat + st - 1) / st = 0 := Nat.div_eq_of_lt (by omega)
      rw [this]
      simp only [List.range_zero, List.map_nil, List.foldlM_nil, if_neg hle]
      exact Post.pure rfl

/-- The number of rows of `h` after the accumulated update of one sweep. -/
theorem qr5Accumulate_rows (p : Qr5P F) (incol : Int) (s : Qr5S F) :
    Post (qr5Accumulate p incol s) fun s' => s'.h.rows =
      if min (incol + p.kdu) p.kbot < (if p.wantt then p.n else p.kbot) ∨ (if p.wantt then 1 else p.ktop) < max p.ktop incol then p.ldz else s.h.rows := by
  unfold qr5Accumulate
  dsimp only
  refine Post.bind (Post.forStep_any (G := fun s => s.h.rows = p.ldz) fun s i => ?_) fun s1 h1 => ?_
  · exact Post.bind (qr5Block_rows _ _ _ _ _ _ _ _ _ _ _ _ _) fun _ h => Post.pure h
  refine Post.bind (Post.forStep_any (G := fun s => s.h.rows = p.ldz) fun s i => ?_) fun s2 h2 => ?_
  · exact Post.bind (qr5Block_rows _ _ _ _ _ _ _ _ _ _ _ _ _) fun _ h => Post.pure h
  have key : s2.h.rows = if min (incol + p.kdu) p.kbot < (if p.wantt then p.n else p.kbot) ∨ (if p.wantt then 1 else p.ktop) < max p.ktop incol then p.ldz else s.h.rows := by
    by_cases c2 : (if p.wantt then (1 : Int) else p.ktop) ≤ max p.ktop incol - 1
    · rw [if_pos c2] at h2
      rw [if_pos (Or.inr (by omega)), h2]
    · rw [if_neg c2] at h2
      rw [h2]
      by_cases c1 : min (incol + p.kdu) p.kbot + 1 ≤ (if p.wantt then p.n else p.kbot)
      · rw [if_pos c1] at h1
        rw [if_pos (Or.inl (by omega)), h1]
      · rw [if_neg c1] at h1
        rw [if_neg (by rintro (h | h) <;> omega), h1]
  refine Post.ite (fun hz => ?_) fun _ => Post.pure key
  refine (rows_forStep fun s i => ?_).mono fun _ h => Eq.trans h key
  exact Post.bind' fun _ => Post.pure rfl

theorem qr5Incol_rows (p : Qr5P F) (ha : p.accum = true) (s : Qr5S F) (incol : Int) :
    Post (qr5Incol p s incol) fun s' => s'.h.rows =
      if min (incol + p.kdu) p.kbot < (if p.wantt then p.n else p.kbot) ∨ (if p.wantt then 1 else p.ktop) < max p.ktop incol then p.ldz else s.h.rows := by
  unfold qr5Incol
  dsimp only
  refine Post.iteBind (P := fun _ => True) (Post.trivial _) fun u _ => ?_
  refine Post.bind (rows_forUp fun s i => qr5Krcol_rows p _ _ s i) fun s1 h1 => ?_
  rw [if_pos ha]
  refine (qr5Accumulate_rows p incol s1).mono fun s' h' => ?_
  rw [h', show s1.h.rows = s.h.rows from h1]

/-- `qr5Main` with two or three shifts. -/
theorem qr5Main_rows (p : Qr5P F) (ha : p.accum = true) (nshfts : Int) (hnb : p.nbmps = 1) (h1 : 1 ≤ p.ktop) (h2 : p.ktop < p.kbot) (s : Qr5S F) :
    Post (qr5Main p nshfts s) fun s' => s'.h.rows =
      if p.ktop + 3 ≤ p.kbot ∨ (p.wantt = true ∧ (1 < p.ktop ∨ p.kbot < p.n)) then p.ldz else s.h.rows := by
  unfold qr5Main
  refine Post.bind' fun q => ?_
  obtain ⟨sr, si⟩ := q
  refine Post.iteBind (P := SameShape s.h) (Post.ite (fun _ => set2_shape _ _ _ _) fun _ => Post.pure (SameShape.refl _)) fun h hh => ?_
  have hk : p.kdu = 4 := by unfold Qr5P.kdu; rw [hnb]; norm_num
  rw [hnb]
  have hst : 2 * asUsize 1 = 2 := by decide
  rw [hst]
  by_cases c : p.ktop + 3 ≤ p.kbot ∨ (p.wantt = true ∧ (1 < p.ktop ∨ p.kbot < p.n))
  · rw [if_pos c]
    refine Post.forStep_last (by omega) fun s' i i1 i2 hi => (qr5Incol_rows p ha s' i).mono fun s'' e => ?_
    rw [e, if_pos]
    obtain ⟨k, hk⟩ := hi
    rcases c with c | ⟨cw, c | c⟩
    · right
      have : p.ktop + 1 ≤ i := by push_cast at i2 hk; omega
      split <;> omega
    · right
      rw [if_pos cw]; omega
    · left
      rw [if_pos cw]; omega
  · rw [if_neg c]
    have c1 : p.kbot ≤ p.ktop + 2 := by by_contra h; exact c (Or.inl (by omega))
    unfold forStep irangeStep
    rw [if_neg (by norm_num)]
    beta_reduce
    rw [pure_bind]
    refine Post.foldlM (P := fun s' => s'.h.rows = s.h.rows) _ (show ({ s with sr := sr, si := si, h := h } : Qr5S F).h.rows = _ from hh.1.symm) fun s' i hi hs' => (qr5Incol_rows p ha s' i).mono fun s'' e => ?_
    obtain ⟨k, hk', rfl⟩ := List.mem_map.1 hi
    rw [List.mem_range] at hk'
    rw [e, if_neg, hs']
    have hi2 : p.ktop - 2 * 1 + 1 + (k : Int) * ((2 : Nat) : Int) = p.ktop - 1 := by push_cast; omega
    rw [hi2, hk]
    rintro (d | d)
    · split at d
      · rename_i hw
        exact c (Or.inr ⟨hw, Or.inr (by omega)⟩)
      · omega
    · split at d
      · rename_i hw
        exact c (Or.inr ⟨hw, Or.inl (by omega)⟩)
      · omega

/-- **C86.** In any arithmetic, whatever the data: with accumulation and two or three shifts, the array `h` that `dlaqr5` returns has `ldz` rows, not `ldh`, as soon as the
active block has order four or more, or is not the whole matrix while the full Schur form is wanted. -/
theorem C86_dlaqr5_rows {SR SI Z V U WV WH : Type} [ToFA F SR] [ToFA F SI] [ToFA F Z] [FromFA F Z] [ToFA F V] [FromFA F V] [ToFA F U] [FromFA F U] [ToFA F WV]
    [FromFA F WV] [ToFA F WH] [FromFA F WH] (wantt wantz : Bool) (kacc22 n ktop kbot nshfts : Int) (hk : kacc22 = 1 ∨ kacc22 = 2) (hns : nshfts = 2 ∨ nshfts = 3)
    (h1 : 1 ≤ ktop) (h2 : ktop < kbot) (sr : SR) (si : SI) (h : FA F) (ldh iloz ihiz : Int) (z : Z) (ldz : Int) (v : V) (ldv : Int) (u : U) (ldu nv : Int) (wv : WV)
    (ldwv nh : Int) (wh : WH) (ldwh : Int) (pr : Profile) (ret : Qr5Ret (FA F) Z V U WV WH)
    (hret : dlaqr5 (F := F) wantt wantz kacc22 n ktop kbot nshfts sr si h ldh iloz ihiz z ldz v ldv u ldu nv wv ldwv nh wh ldwh pr = .ok ret) :
    ret.h.rows = if ktop + 3 ≤ kbot ∨ (wantt = true ∧ (1 < ktop ∨ kbot < n)) then ldz else h.rows := by
  have key : Post (dlaqr5 (F := F) wantt wantz kacc22 n ktop kbot nshfts sr si h ldh iloz ihiz z ldz v ldv u ldu nv wv ldwv nh wh ldwh)
      fun ret => ret.h.rows = if ktop + 3 ≤ kbot ∨ (wantt = true ∧ (1 < ktop ∨ kbot < n)) then ldz else h.rows := by
    unfold dlaqr5
    rw [show ToFA.toFa2d (F := F) h ldh = pure h from rfl, pure_bind]
    refine Post.bind' fun _ => Post.bind' fun _ => Post.bind' fun _ => Post.bind' fun _ => Post.bind' fun _ => ?_
    rw [if_neg (by omega), if_neg (by omega)]
    refine Post.bind (qr5Main_rows _ ?_ nshfts ?_ h1 h2 _) fun s hs => ?_
    · rcases hk with rfl | rfl <;> rfl
    · rcases hns with rfl | rfl <;> rfl
    refine Post.bind (P := fun h' => h' = s.h) (Post.pure rfl) fun h' e => ?_
    subst e
    exact Post.bind' fun _ => Post.bind' fun _ => Post.bind' fun _ => Post.bind' fun _ => Post.bind' fun _ => Post.pure hs
  exact key pr ret hret

end generic

/-! ### The numbers are wrong too -/

/-- A 5-by-5 upper Hessenberg matrix, by columns. -/
def hess5 : List Float := [1, 1, 0, 0, 0, 2, 3, 1, 0, 0, 1, 2, 1, 1, 0, 1, 1, 2, 4, 1, 2, 1, 1, 1, 2]

/-- One sweep on that matrix with the shifts 1 and 2, accumulated, without `z`, which is declared to have `ldz` rows. -/
def sweep5 (ldz : Nat) : R (Qr5Ret (List Float) (List Float) (List Float) (List Float) (List Float) (List Float)) :=
  dlaqr5 (F := Float) true false 1 5 1 5 2 ([1, 2] : List Float) ([0, 0] : List Float) hess5 5 1 5 (List.replicate (ldz * ldz) (0 : Float)) ldz
    (List.replicate 3 (0 : Float)) 3 (List.replicate 16 (0 : Float)) 4 3 (List.replicate 12 (0 : Float)) 3 3 (List.replicate 12 (0 : Float)) 4

namespace Spec

/-- The trace of a 5-by-5 matrix stored by columns. -/
def trace5 (a : List Float) : Float := a[0]?.getD 0 + a[6]?.getD 0 + a[12]?.getD 0 + a[18]?.getD 0 + a[24]?.getD 0

end Spec

open Spec in
/-- **C86** (values). On `f64`, with `wantz = false`, so that `z` is not even used: declared with leading dimension 5, the returned `h` has the trace of the input, 11, up to
`1e-13`; declared with leading dimension 6, its trace is off by more than 1. -/
theorem C86_dlaqr5_wrong (pr : Profile) :
    (∃ ret, sweep5 5 pr = .ok ret ∧ (trace5 ret.h - 11).abs ≤ 1e-13) ∧ (∃ ret, sweep5 6 pr = .ok ret ∧ 1 < (trace5 ret.h - 11).abs) ∧ trace5 hess5 = 11 := by
  have h1 : ∀ pr, (sweep5 5 pr).holds fun ret => decide ((trace5 ret.h - 11).abs ≤ 1e-13) := by
    intro pr
    cases pr <;> decide +kernel
  have h2 : ∀ pr, (sweep5 6 pr).holds fun ret => decide (1 < (trace5 ret.h - 11).abs) := by
    intro pr
    cases pr <;> decide +kernel
  obtain ⟨a, ea, ha⟩ := Res.holds_spec (h1 pr)
  obtain ⟨b, eb, hb⟩ := Res.holds_spec (h2 pr)
  exact ⟨⟨a, ea, of_decide_eq_true ha⟩, ⟨b, eb, of_decide_eq_true hb⟩, by decide +kernel⟩

/-- The hypotheses of `C86_dlaqr5_rows` are met: such a call returns, and gives the array `h`, passed with 5 rows, 6 rows. -/
theorem C86_example (pr : Profile) :
    ∃ ret, dlaqr5 (F := Float) true false 1 5 1 5 2 ([1, 2] : List Float) ([0, 0] : List Float) (⟨hess5, 5, 5, 0⟩ : FA Float) 5 1 5 (List.replicate 36 (0 : Float)) 6
      (List.replicate 3 (0 : Float)) 3 (List.replicate 16 (0 : Float)) 4 3 (List.replicate 12 (0 : Float)) 3 3 (List.replicate 12 (0 : Float)) 4 pr = .ok ret ∧ ret.h.rows = 6 := by
  have h : ∀ pr, (dlaqr5 (F := Float) true false 1 5 1 5 2 ([1, 2] : List Float) ([0, 0] : List Float) (⟨hess5, 5, 5, 0⟩ : FA Float) 5 1 5 (List.replicate 36 (0 : Float)) 6
      (List.replicate 3 (0 : Float)) 3 (List.replicate 16 (0 : Float)) 4 3 (List.replicate 12 (0 : Float)) 3 3 (List.replicate 12 (0 : Float)) 4 pr).holds fun _ => true := by
    intro pr
    cases pr <;> decide +kernel
  obtain ⟨a, ea, _⟩ := Res.holds_spec (h pr)
  exact ⟨a, ea, C86_dlaqr5_rows true false 1 5 1 5 2 (Or.inl rfl) (Or.inl rfl) (by norm_num) (by norm_num) _ _ _ _ _ _ _ _ _ _ _ _ _ _ _ _ _ _ pr a ea⟩

end Verif
