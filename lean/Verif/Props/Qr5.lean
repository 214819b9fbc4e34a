import Verif.Lib.Post
import Verif.Props.Array
import Verif.Model.Qr5

/-!
# `dlaqr5` (C45)
-/

namespace Verif
open Scalar

variable {F : Type} [Scalar F]

/-! ### Early return -/

/-- `x` can be viewed as a matrix with leading dimension `ld`. -/
def Spec.Viewable {X : Type} [ToFA F X] (x : X) (ld : Int) : Prop :=
  ∃ a : FA F, ToFA.toFa2d (F := F) x ld = pure a

theorem viewable_flat (v : List F) (ld : Int) (hld : ld ≠ 0) (hv : v.length < 2 ^ 31) :
    Spec.Viewable (F := F) v ld := by
  show ∃ a : FA F, (faOfVec v).as2d ld = pure a
  unfold FA.as2d faOfVec
  rw [if_neg hld]
  simp only
  have hl : (v.length : Int) < 2147483648 := by exact_mod_cast hv
  rw [wrap32_of_fits (by unfold FitsI32; omega)]
  have hb : ((v.length : Int).tdiv ld).natAbs ≤ v.length := by
    rw [Int.natAbs_tdiv]
    exact Nat.div_le_self _ _
  rw [chk_ok (by unfold FitsI32; omega)]
  exact ⟨_, rfl⟩

theorem viewable_nested (v : List (List F)) (ld : Int) : Spec.Viewable (F := F) v ld := ⟨_, rfl⟩

theorem viewable_array (a : FA F) (ld : Int) : Spec.Viewable (F := F) a ld := ⟨_, rfl⟩

section containers
variable {SR SI H Z V U WV WH : Type} [ToFA F SR] [ToFA F SI] [ToFA F H] [FromFA F H]
    [ToFA F Z] [FromFA F Z] [ToFA F V] [FromFA F V] [ToFA F U] [FromFA F U] [ToFA F WV]
    [FromFA F WV] [ToFA F WH] [FromFA F WH]

/-- **C45.** Fewer than two shifts, or an empty active block: `dlaqr5` returns at once with every argument
unchanged, for every kind of container. -/
theorem C45_dlaqr5_trivial (wantt wantz : Bool) (kacc22 n ktop kbot nshfts : Int) (sr : SR) (si : SI) (h : H)
    (ldh iloz ihiz : Int) (z : Z) (ldz : Int) (v : V) (ldv : Int) (u : U) (ldu nv : Int) (wv : WV) (ldwv nh : Int)
    (wh : WH) (ldwh : Int) (hh : Spec.Viewable (F := F) h ldh) (hz : Spec.Viewable (F := F) z ldz)
    (hv : Spec.Viewable (F := F) v ldv) (hu : Spec.Viewable (F := F) u ldu) (hwv : Spec.Viewable (F := F) wv ldwv)
    (hwh : Spec.Viewable (F := F) wh ldwh) (htriv : nshfts < 2 ∨ kbot ≤ ktop) :
    dlaqr5 (F := F) wantt wantz kacc22 n ktop kbot nshfts sr si h ldh iloz ihiz z ldz v ldv u ldu nv wv ldwv nh wh
      ldwh = pure ⟨h, z, v, u, wv, wh⟩ := by
  obtain ⟨_, e1⟩ := hh
  obtain ⟨_, e2⟩ := hz
  obtain ⟨_, e3⟩ := hv
  obtain ⟨_, e4⟩ := hu
  obtain ⟨_, e5⟩ := hwv
  obtain ⟨_, e6⟩ := hwh
  unfold dlaqr5
  simp only [e1, e2, e3, e4, e5, e6, pure_bind]
  by_cases h1 : nshfts < 2
  · rw [if_pos h1]
  · rw [if_neg h1, if_pos (by rcases htriv with h | h; exact absurd h h1; exact h)]

end containers

/-- A zero leading dimension with a flat matrix panics even then. -/
theorem C45_dlaqr5_zero_ld (wantt wantz : Bool) (kacc22 n ktop kbot nshfts : Int) (sr si h : List F)
    (iloz ihiz : Int) (z : List F) (ldz : Int) (v : List F) (ldv : Int) (u : List F) (ldu nv : Int) (wv : List F)
    (ldwv nh : Int) (wh : List F) (ldwh : Int) :
    dlaqr5 (F := F) wantt wantz kacc22 n ktop kbot nshfts sr si h 0 iloz ihiz z ldz v ldv u ldu nv wv ldwv nh wh
      ldwh = R.panic .divZero := rfl

/-- The hypotheses of C45 are met by flat vectors with leading dimension 1. -/
example (x : F) : dlaqr5 (F := F) true true 0 3 1 3 1 [x] [x] [x] 1 1 3 [x] 1 [x] 1 [x] 1 1 [x] 1 1 [x] 1 =
    pure ⟨[x], [x], [x], [x], [x], [x]⟩ :=
  C45_dlaqr5_trivial _ _ _ _ _ _ _ _ _ _ _ _ _ _ _ _ _ _ _ _ _ _ _ _ _
    (viewable_flat _ _ (by norm_num) (by simp)) (viewable_flat _ _ (by norm_num) (by simp))
    (viewable_flat _ _ (by norm_num) (by simp)) (viewable_flat _ _ (by norm_num) (by simp))
    (viewable_flat _ _ (by norm_num) (by simp)) (viewable_flat _ _ (by norm_num) (by simp)) (Or.inl (by norm_num))

/-! ### Frame -/

/-- What a run never touches: `z` unless Schur vectors are wanted; `u`, `wv` and `wh` unless the reflections are
accumulated. -/
structure Qr5Frame (p : Qr5P F) (s s' : Qr5S F) : Prop where
  z : p.wantz = false → s'.z = s.z
  u : p.accum = false → s'.u = s.u
  wv : p.accum = false → s'.wv = s.wv
  wh : p.accum = false → s'.wh = s.wh

theorem Qr5Frame.refl (p : Qr5P F) (s : Qr5S F) : Qr5Frame p s s :=
  ⟨fun _ => rfl, fun _ => rfl, fun _ => rfl, fun _ => rfl⟩

theorem Qr5Frame.trans {p : Qr5P F} {a b c : Qr5S F} (h : Qr5Frame p a b) (h' : Qr5Frame p b c) :
    Qr5Frame p a c :=
  ⟨fun e => (h'.z e).trans (h.z e), fun e => (h'.u e).trans (h.u e), fun e => (h'.wv e).trans (h.wv e),
    fun e => (h'.wh e).trans (h.wh e)⟩

theorem qr5_forDown {p : Qr5P F} {lo hi : Int} {s : Qr5S F} {f : Qr5S F → Int → R (Qr5S F)}
    (hf : ∀ s i, Post (f s i) (Qr5Frame p s)) : Post (forDown lo hi s f) (Qr5Frame p s) :=
  Post.foldlM _ (Qr5Frame.refl p s) fun _ i _ hs' => (hf _ i).mono fun _ h => hs'.trans h

theorem qr5_forUp {p : Qr5P F} {lo hi : Int} {s : Qr5S F} {f : Qr5S F → Int → R (Qr5S F)}
    (hf : ∀ s i, Post (f s i) (Qr5Frame p s)) : Post (forUp lo hi s f) (Qr5Frame p s) :=
  Post.foldlM _ (Qr5Frame.refl p s) fun _ i _ hs' => (hf _ i).mono fun _ h => hs'.trans h

theorem qr5_forStep {p : Qr5P F} {lo hi : Int} {st : Nat} {s : Qr5S F} {f : Qr5S F → Int → R (Qr5S F)}
    (hf : ∀ s i, Post (f s i) (Qr5Frame p s)) : Post (forStep lo hi st s f) (Qr5Frame p s) := by
  unfold forStep
  refine Post.bind' fun l => ?_
  exact Post.foldlM _ (Qr5Frame.refl p s) fun _ i _ hs' => (hf _ i).mono fun _ h => hs'.trans h

theorem qr5Bmp22_frame (p : Qr5P F) (incol jtop jbot krcol m22 : Int) (s : Qr5S F) :
    Post (qr5Bmp22 p incol jtop jbot krcol m22 s) (Qr5Frame p s) := by
  unfold qr5Bmp22
  refine Post.bind' fun hv => ?_
  refine Post.bind' fun t1 => Post.bind' fun v2 => Post.bind' fun h => Post.bind' fun h => ?_
  refine Post.iteBind (P := fun _ => True) (Post.trivial _) fun h _ => ?_
  dsimp only
  refine Post.ite (fun ha => ?_) fun _ => Post.ite (fun hz => ?_) fun _ => Post.pure ⟨fun _ => rfl, fun _ => rfl, fun _ => rfl, fun _ => rfl⟩
  · exact Post.bind' fun u => Post.pure ⟨fun _ => rfl, fun e => by simp [ha] at e, fun _ => rfl, fun _ => rfl⟩
  · exact Post.bind' fun z => Post.pure ⟨fun e => by simp [hz] at e, fun _ => rfl, fun _ => rfl, fun _ => rfl⟩

theorem qr5Bulge_frame (p : Qr5P F) (jtop krcol : Int) (s : Qr5S F) (m : Int) :
    Post (qr5Bulge p jtop krcol s m) (Qr5Frame p s) := by
  unfold qr5Bulge
  refine Post.bind' fun hv => Post.bind' fun t1 => Post.bind' fun v2 => Post.bind' fun v3 => Post.bind' fun h =>
    Post.bind' fun h => ?_
  refine Post.iteBind (P := fun _ => True) (Post.trivial _) fun h _ => ?_
  exact Post.pure ⟨fun _ => rfl, fun _ => rfl, fun _ => rfl, fun _ => rfl⟩

theorem qr5Left_frame (p : Qr5P F) (krcol jbot : Int) (s : Qr5S F) (m : Int) :
    Post (qr5Left p krcol jbot s m) (Qr5Frame p s) := by
  unfold qr5Left
  exact Post.bind' fun _ => Post.bind' fun _ => Post.bind' fun _ => Post.bind' fun _ =>
    Post.pure ⟨fun _ => rfl, fun _ => rfl, fun _ => rfl, fun _ => rfl⟩

theorem qr5AccU_frame (p : Qr5P F) (ha : p.accum = true) (incol krcol mbot : Int) (s : Qr5S F) (m : Int) :
    Post (qr5AccU p incol krcol mbot s m) (Qr5Frame p s) := by
  unfold qr5AccU
  exact Post.bind' fun _ => Post.bind' fun _ => Post.bind' fun _ => Post.bind' fun _ =>
    Post.pure ⟨fun _ => rfl, fun e => by simp [ha] at e, fun _ => rfl, fun _ => rfl⟩

theorem qr5AccZ_frame (p : Qr5P F) (hz : p.wantz = true) (krcol : Int) (s : Qr5S F) (m : Int) :
    Post (qr5AccZ p krcol s m) (Qr5Frame p s) := by
  unfold qr5AccZ
  exact Post.bind' fun _ => Post.bind' fun _ => Post.bind' fun _ => Post.bind' fun _ =>
    Post.pure ⟨fun e => by simp [hz] at e, fun _ => rfl, fun _ => rfl, fun _ => rfl⟩

theorem qr5Krcol_frame (p : Qr5P F) (incol jtop : Int) (s : Qr5S F) (krcol : Int) :
    Post (qr5Krcol p incol jtop s krcol) (Qr5Frame p s) := by
  unfold qr5Krcol
  dsimp only
  refine Post.iteBind (P := Qr5Frame p s) ?_ fun s1 h1 => ?_
  · exact Post.ite (fun _ => qr5Bmp22_frame p _ _ _ _ _ s) fun _ => Post.pure (Qr5Frame.refl p s)
  refine Post.bind (qr5_forDown fun s i => qr5Bulge_frame p _ _ s i) fun s2 h2 => ?_
  refine Post.bind (qr5_forDown fun s i => qr5Left_frame p _ _ s i) fun s3 h3 => ?_
  have h13 := (h1.trans h2).trans h3
  refine Post.ite (fun ha => ?_) fun _ => Post.ite (fun hz => ?_) fun _ => Post.pure h13
  · exact (qr5_forDown fun s i => qr5AccU_frame p ha _ _ _ s i).mono fun _ h => h13.trans h
  · exact (qr5_forDown fun s i => qr5AccZ_frame p hz _ s i).mono fun _ h => h13.trans h

theorem qr5Accumulate_frame (p : Qr5P F) (ha : p.accum = true) (incol : Int) (s : Qr5S F) :
    Post (qr5Accumulate p incol s) (Qr5Frame p s) := by
  unfold qr5Accumulate
  dsimp only
  refine Post.bind (qr5_forStep (p := p) fun s i => ?_) fun s1 h1 => ?_
  · exact Post.bind' fun _ => Post.pure ⟨fun _ => rfl, fun _ => rfl, fun _ => rfl, fun e => by simp [ha] at e⟩
  refine Post.bind (qr5_forStep (p := p) fun s i => ?_) fun s2 h2 => ?_
  · exact Post.bind' fun _ => Post.pure ⟨fun _ => rfl, fun _ => rfl, fun e => by simp [ha] at e, fun _ => rfl⟩
  refine Post.ite (fun hz => ?_) fun _ => Post.pure (h1.trans h2)
  refine (qr5_forStep (p := p) fun s i => ?_).mono fun _ h => (h1.trans h2).trans h
  exact Post.bind' fun _ =>
    Post.pure ⟨fun e => by simp [hz] at e, fun _ => rfl, fun e => by simp [ha] at e, fun _ => rfl⟩

theorem qr5Incol_frame (p : Qr5P F) (s : Qr5S F) (incol : Int) : Post (qr5Incol p s incol) (Qr5Frame p s) := by
  unfold qr5Incol
  dsimp only
  refine Post.iteBind (P := fun u => p.accum = false → u = s.u) ?_ fun u hu => ?_
  · exact Post.ite (fun ha => (Post.trivial _).mono fun _ _ e => by simp [ha] at e) fun _ => Post.pure fun _ => rfl
  have h0 : Qr5Frame p s { s with u := u } := ⟨fun _ => rfl, hu, fun _ => rfl, fun _ => rfl⟩
  refine Post.bind (qr5_forUp fun s i => qr5Krcol_frame p _ _ s i) fun s1 h1 => ?_
  refine Post.ite (fun ha => ?_) fun _ => Post.pure (h0.trans h1)
  exact (qr5Accumulate_frame p ha incol s1).mono fun _ h => (h0.trans h1).trans h

theorem qr5Main_frame (p : Qr5P F) (nshfts : Int) (s : Qr5S F) : Post (qr5Main p nshfts s) (Qr5Frame p s) := by
  unfold qr5Main
  refine Post.bind' fun q => ?_
  refine Post.iteBind (P := fun _ => True) (Post.trivial _) fun h _ => ?_
  exact (qr5_forStep fun s i => qr5Incol_frame p s i).mono fun _ h => ⟨h.z, h.u, h.wv, h.wh⟩

theorem toFa2d_list_data (v : List F) (ld : Int) : Post (ToFA.toFa2d (F := F) v ld) (fun a => a.data = v) := by
  show Post ((faOfVec v).as2d ld) _
  unfold FA.as2d
  exact Post.ite (fun _ => Post.panic _) fun _ => Post.bind' fun _ => Post.pure rfl

/-- **C45, frame.** Whenever `dlaqr5` returns (flat vectors; any arithmetic, either profile): without `wantz` the
vector `z` is returned unchanged, and without accumulation (`kacc22` neither 1 nor 2) the workspaces `u`, `wv`
and `wh` are returned unchanged. -/
theorem C45_dlaqr5_frame (wantt wantz : Bool) (kacc22 n ktop kbot nshfts : Int) (sr si h : List F)
    (ldh iloz ihiz : Int) (z : List F) (ldz : Int) (v : List F) (ldv : Int) (u : List F) (ldu nv : Int) (wv : List F)
    (ldwv nh : Int) (wh : List F) (ldwh : Int) (p : Profile)
    (r : Qr5Ret (List F) (List F) (List F) (List F) (List F) (List F))
    (hr : dlaqr5 (F := F) wantt wantz kacc22 n ktop kbot nshfts sr si h ldh iloz ihiz z ldz v ldv u ldu nv wv ldwv
      nh wh ldwh p = .ok r) :
    (wantz = false → r.z = z) ∧ (kacc22 ≠ 1 ∧ kacc22 ≠ 2 → r.u = u ∧ r.wv = wv ∧ r.wh = wh) := by
  have key : Post (dlaqr5 (F := F) wantt wantz kacc22 n ktop kbot nshfts sr si h ldh iloz ihiz z ldz v ldv u ldu nv
      wv ldwv nh wh ldwh) (fun r =>
      (wantz = false → r.z = z) ∧ (kacc22 ≠ 1 ∧ kacc22 ≠ 2 → r.u = u ∧ r.wv = wv ∧ r.wh = wh)) := by
    unfold dlaqr5
    refine Post.bind' fun h_f => Post.bind (toFa2d_list_data z ldz) fun z_f hz => Post.bind' fun v_f =>
      Post.bind (toFa2d_list_data u ldu) fun u_f hu => Post.bind (toFa2d_list_data wv ldwv) fun wv_f hwv =>
      Post.bind (toFa2d_list_data wh ldwh) fun wh_f hwh => ?_
    refine Post.ite (fun _ => Post.pure ⟨fun _ => rfl, fun _ => ⟨rfl, rfl, rfl⟩⟩) fun _ => ?_
    refine Post.ite (fun _ => Post.pure ⟨fun _ => rfl, fun _ => ⟨rfl, rfl, rfl⟩⟩) fun _ => ?_
    dsimp only
    refine Post.bind (qr5Main_frame _ nshfts _) fun s hs => ?_
    simp only [FromFA.fromFa, pure_bind]
    refine Post.pure ⟨fun e => ?_, fun e => ?_⟩
    · show s.z.data = z
      rw [hs.z e]; exact hz
    · have ha : (qr5Params wantt wantz kacc22 n ktop kbot nshfts ldh iloz ihiz ldz ldv ldu nv ldwv nh
          ldwh : Qr5P F).accum = false := by
        show (decide (kacc22 = 1) || decide (kacc22 = 2)) = false
        simp [e.1, e.2]
      refine ⟨?_, ?_, ?_⟩
      · show s.u.data = u
        rw [hs.u ha]; exact hu
      · show s.wv.data = wv
        rw [hs.wv ha]; exact hwv
      · show s.wh.data = wh
        rw [hs.wh ha]; exact hwh
  exact key p r hr

end Verif
