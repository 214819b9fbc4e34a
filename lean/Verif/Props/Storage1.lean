import Verif.Props.RotSwap
import Verif.Lib.Sim
import Verif.Props.NestedShape

/-!
# C123: the vector routines see the elements in storage order, not the shape
-/

namespace Verif
open Scalar Spec

variable {F : Type} [Scalar F]

namespace Spec

/-- The array holds the elements `v` in storage order and has the rows and columns of `a`. -/
def ShapedAs (a : FA F) (b : FA F) (v : List F) : Prop := b.data = v ∧ b.rows = a.rows ∧ b.cols = a.cols

end Spec

theorem Holds.set1 {x a b : FA F} (h : Holds x a b) (i : Int) (v : F) : Holds x (a.set1 i v) (b.set1 i v) := h.modify1 i _

theorem toFa_data (v : List F) : (ToFA.toFa v : FA F).data = v := rfl

theorem toFa_nested_data (v : List (List F)) : (ToFA.toFa v : FA F).data = v.flatten := rfl

theorem holds_self (y : FA F) : Holds y y (ToFA.toFa y.data) := ⟨(toFa_data _).symm, rfl, rfl⟩

theorem get1_data {a b : FA F} (h : a.data = b.data) (i : Int) : a.get1 i = b.get1 i := by
  unfold FA.get1; rw [h]

theorem dcopyFA_sim (n : Int) (dx dx' : FA F) (hx : dx.data = dx'.data) (incx : Int) (y a b : FA F) (incy : Int) (h : Holds y a b) :
    Sim (HoldsO y) (dcopyFA n dx incx a incy) (dcopyFA n dx' incx b incy) := by
  have hg : dx.get1 = dx'.get1 := funext fun i => get1_data hx i
  unfold dcopyFA
  refine Sim.ite (fun _ => Sim.pure True.intro) fun _ => ?_
  refine Sim.ite (fun _ => ?_) fun _ => ?_
  · have hloop : Sim (Holds y) (forUp 1 (n.tmod 7) a fun dy i => pure (dy.set1 i (dx.get1 i)))
        (forUp 1 (n.tmod 7) b fun dy i => pure (dy.set1 i (dx'.get1 i))) :=
      Sim.forUp h fun s t i hst => Sim.pure (by rw [hg]; exact hst.set1 _ _)
    have hun : ∀ s t i, Holds y s t → Sim (Holds y) (dcopyUnrolled dx s i) (dcopyUnrolled dx' t i) := by
      intro s t i hst
      unfold dcopyUnrolled
      rw [hg]
      exact Sim.bind' fun _ => Sim.bind' fun _ => Sim.bind' fun _ => Sim.bind' fun _ => Sim.bind' fun _ => Sim.bind' fun _ =>
        Sim.bind' fun _ => Sim.bind' fun _ => Sim.bind' fun _ => Sim.bind' fun _ => Sim.bind' fun _ => Sim.bind' fun _ =>
        Sim.pure (((((((hst.set1 _ _).set1 _ _).set1 _ _).set1 _ _).set1 _ _).set1 _ _).set1 _ _)
    refine Sim.ite (fun _ => Sim.bind hloop fun _ _ h' => Sim.pure h') fun _ => ?_
    refine Sim.ite (fun _ => ?_) fun _ => ?_
    · exact Sim.bind hloop fun _ _ h' => Sim.bind' fun _ => Sim.bind (Sim.forStep h' hun) fun _ _ h'' => Sim.pure h''
    · simp only [pure_bind]
      exact Sim.bind' fun _ => Sim.bind (Sim.forStep h hun) fun _ _ h'' => Sim.pure h''
  · refine Sim.bind' fun ix => Sim.bind' fun iy => ?_
    refine Sim.bind (rel := fun s t => Holds y s.1 t.1 ∧ s.2 = t.2) (Sim.forUp ⟨h, rfl⟩ ?_) (by rintro _ _ h'; exact Sim.pure h'.1)
    rintro ⟨s, s2⟩ ⟨t, t2⟩ i ⟨h1, h2⟩
    simp only at h1 h2
    subst h2
    unfold dcopyStep
    rw [hg]
    exact Sim.bind' fun _ => Sim.bind' fun _ => Sim.pure ⟨h1.set1 _ _, rfl⟩

theorem drotPair_holds (c s : F) {x y a b a' b' : FA F} (h : Holds x a a') (k : Holds y b b') (i j : Int) :
    Holds x (drotPair c s a b i j).1 (drotPair c s a' b' i j).1 ∧ Holds y (drotPair c s a b i j).2 (drotPair c s a' b' i j).2 := by
  unfold drotPair
  rw [h.get1, k.get1]
  exact ⟨h.set1 _ _, k.set1 _ _⟩

/-- Both sides return early, or both return two arrays with the same elements. -/
def HoldsO2 (x y : FA F) : Option (FA F × FA F) → Option (FA F × FA F) → Prop
  | some a, some b => Holds x a.1 b.1 ∧ Holds y a.2 b.2
  | none, none => True
  | _, _ => False

theorem drotFA_sim (n : Int) (c s : F) (x a a' : FA F) (incx : Int) (h : Holds x a a') (y b b' : FA F) (incy : Int) (k : Holds y b b') :
    Sim (HoldsO2 x y) (drotFA n a incx b incy c s) (drotFA n a' incx b' incy c s) := by
  unfold drotFA
  refine Sim.ite (fun _ => Sim.pure True.intro) fun _ => ?_
  refine Sim.ite (fun _ => ?_) fun _ => ?_
  · refine Sim.bind (rel := fun s t => Holds x s.1 t.1 ∧ Holds y s.2 t.2) (Sim.forUp ⟨h, k⟩ ?_) (by rintro _ _ h'; exact Sim.pure h')
    exact fun s t i hst => Sim.pure (drotPair_holds _ _ hst.1 hst.2 _ _)
  · refine Sim.bind' fun ix => Sim.bind' fun iy => ?_
    refine Sim.bind (rel := fun s t => (Holds x s.1.1 t.1.1 ∧ Holds y s.1.2 t.1.2) ∧ s.2 = t.2) (Sim.forUp ⟨⟨h, k⟩, rfl⟩ ?_) (by rintro _ _ h'; exact Sim.pure h'.1)
    rintro ⟨s, s2⟩ ⟨t, t2⟩ i ⟨h1, h2⟩
    simp only at h1 h2
    subst h2
    unfold drotStep
    exact Sim.bind' fun _ => Sim.bind' fun _ => Sim.pure ⟨drotPair_holds _ _ h1.1 h1.2 _ _, rfl⟩

/-- **C123.** `dnrm2` of an array, or of a nested vector, is `dnrm2` of its elements in storage order, for every `n` and `incx`. -/
theorem C123_dnrm2 (n : Int) (a : FA F) (w : List (List F)) (incx : Int) :
    (dnrm2 n a incx : R F) = dnrm2 n a.data incx ∧ (dnrm2 n w incx : R F) = dnrm2 n w.flatten incx :=
  ⟨dnrm2_sim n a a a.data incx ⟨rfl, rfl, rfl⟩, dnrm2_sim n (faOfVecVec w) (faOfVecVec w) w.flatten incx ⟨rfl, rfl, rfl⟩⟩

/-- **C123.** `dscal` on an array does to its elements what it does to the flat vector of these, for every `n` and `incx`: the same outcome, in both profiles, and
the array keeps its shape. -/
theorem C123_dscal (n : Int) (da : F) (a : FA F) (incx : Int) :
    Sim (ShapedAs a) (dscal n da a incx) (dscal n da a.data incx) :=
  dscal_sim n da a a a.data incx ⟨rfl, rfl, rfl⟩

/-- **C123.** The same for `dcopy` from an array to an array. -/
theorem C123_dcopy (n : Int) (x : FA F) (incx : Int) (y : FA F) (incy : Int) :
    Sim (ShapedAs y) (dcopy (F := F) n x incx y incy) (dcopy (F := F) n x.data incx y.data incy) := by
  have hx : x.data = (ToFA.toFa x.data : FA F).data := (toFa_data _).symm
  have hy := holds_self y
  unfold dcopy
  refine Sim.bind (dcopyFA_sim n x (ToFA.toFa x.data) hx incx y y (ToFA.toFa y.data) incy hy) ?_
  rintro (_ | a') (_ | b') hab
  · exact Sim.pure ⟨rfl, rfl, rfl⟩
  · exact hab.elim
  · exact hab.elim
  · exact Sim.pure hab

/-- **C123.** The same for `dcopy` from a nested vector, which may be ragged, to an array. -/
theorem C123_dcopy_nested (n : Int) (x : List (List F)) (incx : Int) (y : FA F) (incy : Int) :
    Sim (ShapedAs y) (dcopy (F := F) n x incx y incy) (dcopy (F := F) n x.flatten incx y.data incy) := by
  have hx : (ToFA.toFa x : FA F).data = (ToFA.toFa x.flatten : FA F).data := (toFa_nested_data x).trans (toFa_data _).symm
  have hy := holds_self y
  unfold dcopy
  refine Sim.bind (dcopyFA_sim n (ToFA.toFa x) (ToFA.toFa x.flatten) hx incx y y (ToFA.toFa y.data) incy hy) ?_
  rintro (_ | a') (_ | b') hab
  · exact Sim.pure ⟨rfl, rfl, rfl⟩
  · exact hab.elim
  · exact hab.elim
  · exact Sim.pure hab

/-- **C123.** The same for `drot` on two arrays. -/
theorem C123_drot (n : Int) (x : FA F) (incx : Int) (y : FA F) (incy : Int) (c s : F) :
    Sim (fun r v => ShapedAs x r.1 v.1 ∧ ShapedAs y r.2 v.2) (drot n x incx y incy c s) (drot n x.data incx y.data incy c s) := by
  have hx := holds_self x
  have hy := holds_self y
  unfold drot
  refine Sim.bind (drotFA_sim n c s x x (ToFA.toFa x.data) incx hx y y (ToFA.toFa y.data) incy hy) ?_
  rintro (_ | a') (_ | b') hab
  · exact Sim.pure ⟨⟨rfl, rfl, rfl⟩, ⟨rfl, rfl, rfl⟩⟩
  · exact hab.elim
  · exact hab.elim
  · exact Sim.pure hab

/-- **C123.** The same for `dlarfg`: the same `alpha` and `tau`, and the array holds the vector. -/
theorem C123_dlarfg (n : Int) (alpha : F) (a : FA F) (incx : Int) :
    Sim (fun r v => r.1 = v.1 ∧ ShapedAs a r.2.1 v.2.1 ∧ r.2.2 = v.2.2) (dlarfg n alpha a incx) (dlarfg n alpha a.data incx) :=
  dlarfg_sim n alpha a a a.data incx ⟨rfl, rfl, rfl⟩

theorem shape_forStep {lo hi : Int} {d : Nat} {a : FA F} {f : FA F → Int → R (FA F)} (hf : ∀ a i, Post (f a i) (SameShape a)) : Post (forStep lo hi d a f) (SameShape a) := by
  unfold forStep
  exact Post.bind' fun l => Post.foldlM l (SameShape.refl a) fun _ i _ hs => (hf _ i).mono fun _ h => hs.trans h

/-- An early return, or an array of the same shape. -/
def ShapeO (a : FA F) (o : Option (FA F)) : Prop := ∀ b, o = some b → SameShape a b

theorem shapeO_some {a : FA F} {x : R (FA F)} (h : Post x (SameShape a)) : Post (x >>= fun y => pure (some y)) (ShapeO a) :=
  Post.bind h fun y hy => Post.pure (by rintro b ⟨⟩; exact hy)

theorem dscalWhile_shape (da : F) (nincx incx : Int) (fuel : Nat) : ∀ (a : FA F) (i : Int), Post (dscalWhile da nincx incx fuel a i) (SameShape a) := by
  induction fuel with
  | zero =>
    intro a i
    unfold dscalWhile
    exact Post.ite (fun _ => Post.timeout) fun _ => Post.pure (SameShape.refl a)
  | succ n ih =>
    intro a i
    unfold dscalWhile
    exact Post.ite (fun _ => Post.bind' fun _ => (ih _ _).mono fun _ h => (modify1_shape _ _ _).trans h) fun _ => Post.pure (SameShape.refl a)

theorem dscalFA_shape (n : Int) (da : F) (a : FA F) (incx : Int) : Post (dscalFA n da a incx) (ShapeO a) := by
  have hun : ∀ (b : FA F) i, Post (dscalUnrolled da b i) (SameShape b) := by
    intro b i
    unfold dscalUnrolled
    exact Post.bind' fun _ => Post.bind' fun _ => Post.bind' fun _ => Post.bind' fun _ => Post.pure
      (((((modify1_shape _ _ _).trans (modify1_shape _ _ _)).trans (modify1_shape _ _ _)).trans (modify1_shape _ _ _)).trans (modify1_shape _ _ _))
  have hloop : Post (forUp 1 (n.tmod 5) a fun dx i => pure (dx.modify1 i (· * da))) (SameShape a) :=
    shape_forUp fun _ _ => Post.pure (modify1_shape _ _ _)
  unfold dscalFA
  refine Post.ite (fun _ => Post.pure (by rintro b ⟨⟩)) fun _ => Post.ite (fun _ => ?_) fun _ => Post.bind' fun _ => shapeO_some (dscalWhile_shape _ _ _ _ _ _)
  refine Post.ite (fun _ => shapeO_some hloop) fun _ => Post.ite (fun _ => ?_) fun _ => ?_
  · exact Post.bind hloop fun b hb => Post.bind' fun _ => shapeO_some ((shape_forStep hun).mono fun _ h => hb.trans h)
  · simp only [pure_bind]
    exact Post.bind' fun _ => shapeO_some (shape_forStep hun)

theorem dcopyFA_shape (n : Int) (dx : FA F) (incx : Int) (a : FA F) (incy : Int) : Post (dcopyFA n dx incx a incy) (ShapeO a) := by
  have hun : ∀ (b : FA F) i, Post (dcopyUnrolled dx b i) (SameShape b) := by
    intro b i
    unfold dcopyUnrolled
    exact Post.bind' fun _ => Post.bind' fun _ => Post.bind' fun _ => Post.bind' fun _ => Post.bind' fun _ => Post.bind' fun _ =>
      Post.bind' fun _ => Post.bind' fun _ => Post.bind' fun _ => Post.bind' fun _ => Post.bind' fun _ => Post.bind' fun _ => Post.pure
      (((((((set1_shape _ _ _).trans (set1_shape _ _ _)).trans (set1_shape _ _ _)).trans (set1_shape _ _ _)).trans (set1_shape _ _ _)).trans
        (set1_shape _ _ _)).trans (set1_shape _ _ _))
  have hloop : Post (forUp 1 (n.tmod 7) a fun dy i => pure (dy.set1 i (dx.get1 i))) (SameShape a) :=
    shape_forUp fun _ _ => Post.pure (set1_shape _ _ _)
  unfold dcopyFA
  refine Post.ite (fun _ => Post.pure (by rintro b ⟨⟩)) fun _ => Post.ite (fun _ => ?_) fun _ => ?_
  · refine Post.ite (fun _ => shapeO_some hloop) fun _ => Post.ite (fun _ => ?_) fun _ => ?_
    · exact Post.bind hloop fun b hb => Post.bind' fun _ => shapeO_some ((shape_forStep hun).mono fun _ h => hb.trans h)
    · simp only [pure_bind]
      exact Post.bind' fun _ => shapeO_some (shape_forStep hun)
  · refine Post.bind' fun _ => Post.bind' fun _ => ?_
    refine Post.bind (P := fun s => SameShape a s.1) (Post.foldlM _ (SameShape.refl a) ?_) fun s hs => Post.pure (by rintro b ⟨⟩; exact hs)
    intro s i _ hs
    unfold dcopyStep
    exact Post.bind' fun _ => Post.bind' fun _ => Post.pure (hs.trans (set1_shape _ _ _))

theorem Sim.post {α β : Type} {rel : α → β → Prop} {P : α → Prop} {x : R α} {y : R β} (h : Sim rel x y) (hp : Post x P) :
    Sim (fun a b => rel a b ∧ P a) x y := by
  intro p
  have h1 := h p
  have h2 := hp p
  generalize x p = u at h1 h2 ⊢
  generalize y p = w at h1 ⊢
  cases h1 with
  | ok hab => exact .ok ⟨hab, h2 _ rfl⟩
  | panic e => exact .panic e
  | exit s i => exact .exit s i
  | timeout => exact .timeout

theorem nested_back {v : List (List F)} {r c : Nat} (hv : Rect v r c) (hr : 0 < r) (hrs : r < 2 ^ 31) (hcs : c < 2 ^ 31) {x y : R (Option (FA F))}
    (h : Sim (HoldsO (faOfVecVec v)) x y) (hp : Post x (ShapeO (faOfVecVec v))) :
    Sim (fun w u => w.flatten = u ∧ (Rect w r c ∨ Rect w c r))
      (x >>= fun o => match o with | none => pure v | some a => vecVecOfFa a) (y >>= fun o => match o with | none => pure v.flatten | some a => (pure a.data : R (List F))) := by
  refine Sim.bind (h.post hp) ?_
  rintro (_ | a) (_ | b) ⟨hab, hs⟩
  · exact Sim.pure ⟨rfl, .inl hv⟩
  · exact hab.elim
  · exact hab.elim
  · obtain ⟨w, e, k, l⟩ := back_of_shape hv hr hrs hcs (a := a) (by rw [← nested_taken hv hr hrs hcs]; exact hs a rfl)
    show Sim _ (vecVecOfFa a) _
    rw [e]
    exact Sim.pure ⟨l.trans hab.1, .inr k⟩

/-- **C123.** `dscal` on `r` vectors of length `c` does to the elements in storage order what it does to the flat vector of these. They come back in `r` vectors of length `c` or, by C87, in `c` of
length `r`. -/
theorem C123_dscal_nested (n : Int) (da : F) (w : List (List F)) (r c : Nat) (hw : Rect w r c) (hr : 0 < r) (hrs : r < 2 ^ 31) (hcs : c < 2 ^ 31) (incx : Int) :
    Sim (fun b v => b.flatten = v ∧ (Rect b r c ∨ Rect b c r)) (dscal n da w incx) (dscal n da w.flatten incx) :=
  nested_back hw hr hrs hcs (dscalFA_sim n da _ _ (ToFA.toFa w.flatten) incx ⟨(toFa_nested_data w).trans (toFa_data _).symm, rfl, rfl⟩) (dscalFA_shape n da _ incx)

/-- **C123.** The same for `dcopy` into `r` vectors of length `c`, from an array. -/
theorem C123_dcopy_into_nested (n : Int) (x : FA F) (incx : Int) (w : List (List F)) (r c : Nat) (hw : Rect w r c) (hr : 0 < r) (hrs : r < 2 ^ 31) (hcs : c < 2 ^ 31) (incy : Int) :
    Sim (fun b v => b.flatten = v ∧ (Rect b r c ∨ Rect b c r)) (dcopy (F := F) n x incx w incy) (dcopy (F := F) n x.data incx w.flatten incy) :=
  nested_back hw hr hrs hcs (dcopyFA_sim n x (ToFA.toFa x.data) (toFa_data _).symm incx _ _ (ToFA.toFa w.flatten) incy ⟨(toFa_nested_data w).trans (toFa_data _).symm, rfl, rfl⟩)
    (dcopyFA_shape n x incx _ incy)

theorem drotPair_shape (c s : F) (a b : FA F) (i j : Int) : SameShape a (drotPair c s a b i j).1 ∧ SameShape b (drotPair c s a b i j).2 :=
  ⟨set1_shape _ _ _, set1_shape _ _ _⟩

/-- An early return, or two arrays of the same shapes. -/
def ShapeO2 (a b : FA F) (o : Option (FA F × FA F)) : Prop := ∀ r, o = some r → SameShape a r.1 ∧ SameShape b r.2

theorem drotFA_shape (n : Int) (a : FA F) (incx : Int) (b : FA F) (incy : Int) (c s : F) : Post (drotFA n a incx b incy c s) (ShapeO2 a b) := by
  unfold drotFA
  refine Post.ite (fun _ => Post.pure (by rintro b ⟨⟩)) fun _ => Post.ite (fun _ => ?_) fun _ => ?_
  · refine Post.bind (P := fun t => SameShape a t.1 ∧ SameShape b t.2) (Post.foldlM _ ⟨SameShape.refl a, SameShape.refl b⟩ ?_) fun t ht => Post.pure (by rintro r ⟨⟩; exact ht)
    intro t i _ ht
    exact Post.pure ⟨ht.1.trans (drotPair_shape _ _ _ _ _ _).1, ht.2.trans (drotPair_shape _ _ _ _ _ _).2⟩
  · refine Post.bind' fun _ => Post.bind' fun _ => ?_
    refine Post.bind (P := fun t => SameShape a t.1.1 ∧ SameShape b t.1.2) (Post.foldlM _ ⟨SameShape.refl a, SameShape.refl b⟩ ?_) fun t ht => Post.pure (by rintro r ⟨⟩; exact ht)
    intro t i _ ht
    unfold drotStep
    exact Post.bind' fun _ => Post.bind' fun _ => Post.pure ⟨ht.1.trans (drotPair_shape _ _ _ _ _ _).1, ht.2.trans (drotPair_shape _ _ _ _ _ _).2⟩

/-- **C123.** The same for `drot` on `r` vectors of length `c` and `r'` vectors of length `c'`. -/
theorem C123_drot_nested (n : Int) (x : List (List F)) (r c : Nat) (hx : Rect x r c) (hr : 0 < r) (hrs : r < 2 ^ 31) (hcs : c < 2 ^ 31) (incx : Int)
    (y : List (List F)) (r' c' : Nat) (hy : Rect y r' c') (hr' : 0 < r') (hrs' : r' < 2 ^ 31) (hcs' : c' < 2 ^ 31) (incy : Int) (cs sn : F) :
    Sim (fun b v => (b.1.flatten = v.1 ∧ (Rect b.1 r c ∨ Rect b.1 c r)) ∧ b.2.flatten = v.2 ∧ (Rect b.2 r' c' ∨ Rect b.2 c' r'))
      (drot n x incx y incy cs sn) (drot n x.flatten incx y.flatten incy cs sn) := by
  have kx : Holds (faOfVecVec x) (faOfVecVec x) (ToFA.toFa x.flatten) := ⟨(toFa_nested_data x).trans (toFa_data _).symm, rfl, rfl⟩
  have ky : Holds (faOfVecVec y) (faOfVecVec y) (ToFA.toFa y.flatten) := ⟨(toFa_nested_data y).trans (toFa_data _).symm, rfl, rfl⟩
  unfold drot
  refine Sim.bind ((drotFA_sim n cs sn _ _ _ incx kx _ _ _ incy ky).post (drotFA_shape n _ incx _ incy cs sn)) ?_
  rintro (_ | a) (_ | b) ⟨hab, hs⟩
  · exact Sim.pure ⟨⟨rfl, .inl hx⟩, rfl, .inl hy⟩
  · exact hab.elim
  · exact hab.elim
  · obtain ⟨s1, s2⟩ := hs a rfl
    rw [nested_taken hx hr hrs hcs] at s1
    rw [nested_taken hy hr' hrs' hcs'] at s2
    obtain ⟨w, e, k, l⟩ := back_of_shape hx hr hrs hcs s1
    obtain ⟨w', e', k', l'⟩ := back_of_shape hy hr' hrs' hcs' s2
    show Sim _ (vecVecOfFa a.1 >>= fun x => vecVecOfFa a.2 >>= fun y => pure (x, y)) _
    rw [e, e']
    exact Sim.pure ⟨⟨l.trans hab.1.1, .inr k⟩, l'.trans hab.2.1, .inr k'⟩

theorem Sim.meet {α β γ : Type} {rel : α → β → Prop} {rel' : γ → β → Prop} {x : R α} {y : R β} {z : R γ} (h : Sim rel x y) (k : Sim rel' z y) :
    Sim (fun a c => ∃ b, rel a b ∧ rel' c b) x z := by
  intro p
  have h1 := h p
  have k1 := k p
  generalize x p = u at h1 ⊢
  generalize y p = v at h1 k1
  generalize z p = w at k1 ⊢
  cases h1 with
  | ok hab => cases k1 with | ok hcb => exact .ok ⟨_, hab, hcb⟩
  | panic e => cases k1; exact .panic e
  | exit s i => cases k1; exact .exit s i
  | timeout => cases k1; exact .timeout

/-- **C120 on arrays.** Turning round both directions of `drot` makes no difference to the elements or the shapes. -/
theorem C120_drot_direction_array (n : Nat) (x y : FA F) (incx incy : Int) (c s : F) (hx0 : incx ≠ 0) (hy0 : incy ≠ 0) (hx : StrideFits n incx x.data.length)
    (hy : StrideFits n incy y.data.length) (hox : n * incx.natAbs + 1 < 2 ^ 31) (hoy : n * incy.natAbs + 1 < 2 ^ 31) :
    Sim (fun a b => (a.1.data = b.1.data ∧ a.1.rows = b.1.rows ∧ a.1.cols = b.1.cols) ∧ a.2.data = b.2.data ∧ a.2.rows = b.2.rows ∧ a.2.cols = b.2.cols)
      (drot (n : Int) x (-incx) y (-incy) c s) (drot (n : Int) x incx y incy c s) := by
  have h := C123_drot (n : Int) x (-incx) y (-incy) c s
  rw [C120_drot_direction n x.data y.data incx incy c s hx0 hy0 hx hy hox hoy] at h
  intro p
  have := (h.meet (C123_drot (n : Int) x incx y incy c s)) p
  generalize drot (n : Int) x (-incx) y (-incy) c s p = u at this ⊢
  generalize drot (n : Int) x incx y incy c s p = w at this ⊢
  cases this with
  | ok hab =>
    obtain ⟨v, ⟨⟨a1, a2, a3⟩, b1, b2, b3⟩, ⟨c1, c2, c3⟩, d1, d2, d3⟩ := hab
    exact .ok ⟨⟨a1.trans c1.symm, a2.trans c2.symm, a3.trans c3.symm⟩, b1.trans d1.symm, b2.trans d2.symm, b3.trans d3.symm⟩
  | panic e => exact .panic e
  | exit s i => exact .exit s i
  | timeout => exact .timeout

/-- A case: a 2-by-2 nested vector is scaled with stride 2. -/
theorem C123_example (pr : Profile) :
    (dscal (F := Float) 2 3 ([[1, 2], [4, 5]] : List (List Float)) 2 pr).val? = some [[3, 2], [12, 5]] ∧
    (dscal (F := Float) 2 3 ([1, 2, 4, 5] : List Float) 2 pr).val? = some [3, 2, 12, 5] := by
  cases pr <;> decide +kernel

/-- The ends of a run that does not return agree too: with `n * incx` too large for an `i32` the debug build panics on an array as on the vector. -/
theorem C123_example_panics (a : FA Float) :
    (∃ e, dscal (F := Float) 65536 3 a 65536 .debug = .panic e) ∧ ∃ e, dscal (F := Float) 65536 3 a.data 65536 .debug = .panic e :=
  ⟨⟨.overflow, rfl⟩, ⟨.overflow, rfl⟩⟩

end Verif
