import Verif.Lib.Tot
import Verif.Model.Lapack

/-!
# Simulation: `FortranArray` arguments behave as the vector they hold

`Sim rel x y`: whenever `x` returns, `y` returns in the same profile, with related values.
-/

namespace Verif
open Scalar

variable {α β γ δ σ τ ι F : Type}

/-- The same outcome; for two normal returns, related values. -/
inductive ResRel (rel : α → β → Prop) : Res α → Res β → Prop
  | ok {a : α} {b : β} : rel a b → ResRel rel (.ok a) (.ok b)
  | panic (e : Panic) : ResRel rel (.panic e) (.panic e)
  | exit (s : String) (i : Int) : ResRel rel (.exit s i) (.exit s i)
  | timeout : ResRel rel .timeout .timeout

/-- `x` and `y` have the same outcome in both profiles, with related values when they return. -/
def Sim (rel : α → β → Prop) (x : R α) (y : R β) : Prop := ∀ p, ResRel rel (x p) (y p)

theorem Sim.pure {rel : α → β → Prop} {a : α} {b : β} (h : rel a b) : Sim rel (pure a) (pure b) :=
  fun _ => .ok h

theorem Sim.bind {rel : α → β → Prop} {rel' : γ → δ → Prop} {x : R α} {y : R β} {f : α → R γ} {g : β → R δ}
    (h : Sim rel x y) (hf : ∀ a b, rel a b → Sim rel' (f a) (g b)) : Sim rel' (x >>= f) (y >>= g) := by
  intro p
  rw [R.bind_apply, R.bind_apply]
  have hp := h p
  generalize x p = u at hp ⊢
  generalize y p = w at hp ⊢
  cases hp with
  | ok hab => exact hf _ _ hab p
  | panic e => exact .panic e
  | exit s i => exact .exit s i
  | timeout => exact .timeout

theorem Sim.refl (x : R α) : Sim (fun a b => a = b) x x := by
  intro p
  generalize x p = u
  cases u with
  | ok a => exact .ok rfl
  | panic e => exact .panic e
  | exit s i => exact .exit s i
  | timeout => exact .timeout

/-- `bind` after the same computation on both sides. -/
theorem Sim.bind' {rel' : γ → δ → Prop} {x : R α} {f : α → R γ} {g : α → R δ}
    (hf : ∀ a, Sim rel' (f a) (g a)) : Sim rel' (x >>= f) (x >>= g) :=
  Sim.bind (Sim.refl x) fun a b e => by subst e; exact hf a

theorem Sim.ite {c : Prop} [Decidable c] {rel : α → β → Prop} {x x' : R α} {y y' : R β}
    (h : c → Sim rel x y) (h' : ¬ c → Sim rel x' y') : Sim rel (if c then x else x') (if c then y else y') := by
  split
  · exact h ‹_›
  · exact h' ‹_›

theorem Sim.timeout {rel : α → β → Prop} : Sim rel R.timeout R.timeout := fun _ => .timeout

theorem Sim.foldlM {rel : σ → τ → Prop} {f : σ → ι → R σ} {g : τ → ι → R τ} (l : List ι) {s : σ} {t : τ}
    (hs : rel s t) (hf : ∀ s t i, rel s t → Sim rel (f s i) (g t i)) : Sim rel (l.foldlM f s) (l.foldlM g t) := by
  induction l generalizing s t with
  | nil => exact Sim.pure hs
  | cons i l ih =>
    rw [List.foldlM_cons, List.foldlM_cons]
    exact Sim.bind (hf s t i hs) fun a b hab => ih hab

theorem Sim.forUp {rel : σ → τ → Prop} {f : σ → Int → R σ} {g : τ → Int → R τ} {lo hi : Int} {s : σ} {t : τ}
    (hs : rel s t) (hf : ∀ s t i, rel s t → Sim rel (f s i) (g t i)) :
    Sim rel (forUp lo hi s f) (forUp lo hi t g) := Sim.foldlM _ hs hf

theorem Sim.forStep {rel : σ → τ → Prop} {f : σ → Int → R σ} {g : τ → Int → R τ} {lo hi : Int} {d : Nat} {s : σ}
    {t : τ} (hs : rel s t) (hf : ∀ s t i, rel s t → Sim rel (f s i) (g t i)) :
    Sim rel (forStep lo hi d s f) (forStep lo hi d t g) := by
  unfold Verif.forStep
  exact Sim.bind' fun l => Sim.foldlM l hs hf

/-- What the left side returns when the right side returns. -/
theorem Sim.tot {rel : α → β → Prop} {x : R α} {b : β} (h : Sim rel x (Pure.pure b)) : Tot x (fun a => rel a b) := by
  intro p
  have hp := h p
  generalize x p = u at hp ⊢
  have : (Pure.pure b : R β) p = .ok b := rfl
  rw [this] at hp
  cases hp with
  | ok hab => exact ⟨_, rfl, hab⟩

variable [Scalar F]

/-- Same elements; the left one has the shape of `x`. -/
def Holds (x : FA F) (a b : FA F) : Prop := a.data = b.data ∧ a.rows = x.rows ∧ a.cols = x.cols

theorem Holds.modify1 {x a b : FA F} (h : Holds x a b) (i : Int) (f : F → F) :
    Holds x (a.modify1 i f) (b.modify1 i f) := by
  obtain ⟨h1, h2, h3⟩ := h
  unfold FA.modify1
  rw [h1]
  split
  · exact ⟨rfl, h2, h3⟩
  · split <;> exact ⟨rfl, h2, h3⟩

theorem Holds.get1 {x a b : FA F} (h : Holds x a b) (i : Int) : a.get1 i = b.get1 i := by
  unfold FA.get1; rw [h.1]

theorem dscalWhile_sim (x : FA F) (da : F) (nincx incx : Int) (fuel : Nat) :
    ∀ (a b : FA F) (i : Int), Holds x a b →
      Sim (Holds x) (dscalWhile da nincx incx fuel a i) (dscalWhile da nincx incx fuel b i) := by
  induction fuel with
  | zero =>
    intro a b i h
    unfold dscalWhile
    exact Sim.ite (fun _ => Sim.timeout) fun _ => Sim.pure h
  | succ n ih =>
    intro a b i h
    unfold dscalWhile
    exact Sim.ite (fun _ => Sim.bind' fun j => ih _ _ _ (h.modify1 _ _)) fun _ => Sim.pure h

/-- Both sides return early, or both return arrays with the same elements. -/
def HoldsO (x : FA F) : Option (FA F) → Option (FA F) → Prop
  | some a, some b => Holds x a b
  | none, none => True
  | _, _ => False

theorem dscalFA_sim (n : Int) (da : F) (x a b : FA F) (incx : Int) (h : Holds x a b) :
    Sim (HoldsO x) (dscalFA n da a incx) (dscalFA n da b incx) := by
  unfold dscalFA
  refine Sim.ite (fun _ => Sim.pure True.intro) fun _ => ?_
  refine Sim.ite (fun _ => ?_) fun _ => ?_
  · have hloop : Sim (Holds x) (forUp 1 (n.tmod 5) a fun dx i => pure (dx.modify1 i (· * da)))
        (forUp 1 (n.tmod 5) b fun dx i => pure (dx.modify1 i (· * da))) :=
      Sim.forUp h fun s t i hst => Sim.pure (hst.modify1 _ _)
    have hun : ∀ s t i, Holds x s t → Sim (Holds x) (dscalUnrolled da s i) (dscalUnrolled da t i) := by
      intro s t i hst
      unfold dscalUnrolled
      exact Sim.bind' fun _ => Sim.bind' fun _ => Sim.bind' fun _ => Sim.bind' fun _ =>
        Sim.pure (((((hst.modify1 _ _).modify1 _ _).modify1 _ _).modify1 _ _).modify1 _ _)
    refine Sim.ite (fun _ => Sim.bind hloop fun _ _ h' => Sim.pure h') fun _ => ?_
    refine Sim.ite (fun _ => ?_) fun _ => ?_
    · exact Sim.bind hloop fun _ _ h' => Sim.bind' fun _ => Sim.bind (Sim.forStep h' hun) fun _ _ h'' => Sim.pure h''
    · simp only [pure_bind]
      exact Sim.bind' fun _ => Sim.bind (Sim.forStep h hun) fun _ _ h'' => Sim.pure h''
  · exact Sim.bind' fun _ => Sim.bind (dscalWhile_sim x _ _ _ _ _ _ _ h) fun _ _ h' => Sim.pure h'

/-- The array `a` holds the elements of the vector `v` and has the shape of `x`. -/
def Vec (x : FA F) (a : FA F) (v : List F) : Prop := a.data = v ∧ a.rows = x.rows ∧ a.cols = x.cols

theorem dscal_sim (n : Int) (da : F) (x a : FA F) (v : List F) (incx : Int) (h : Vec x a v) :
    Sim (Vec x) (dscal n da a incx) (dscal n da v incx) := by
  have hh : Holds x a (ToFA.toFa v) := h
  unfold dscal
  refine Sim.bind (dscalFA_sim n da x a (ToFA.toFa v) incx hh) ?_
  rintro (_ | a') (_ | b') hab
  · exact Sim.pure h
  · exact hab.elim
  · exact hab.elim
  · exact Sim.pure hab

theorem dnrm2_sim (n : Int) (x a : FA F) (v : List F) (incx : Int) (h : Vec x a v) :
    (dnrm2 n a incx : R F) = dnrm2 n v incx := by
  have hg : ∀ i, (ToFA.toFa a : FA F).get1 i = (ToFA.toFa v : FA F).get1 i := by
    intro i
    show a.get1 i = (faOfVec v).get1 i
    unfold FA.get1
    rw [h.1]; rfl
  have hs : ∀ incx, nrm2Step (ToFA.toFa a : FA F) incx = nrm2Step (ToFA.toFa v : FA F) incx := by
    intro incx
    funext s i
    unfold nrm2Step
    rw [hg]
  unfold dnrm2 dnrm2FA
  rw [hs]

theorem dlarfgRescale_sim (n incx : Int) (sm rs : F) (x : FA F) (k : Nat) :
    ∀ (a : FA F) (v : List F) (beta alpha : F) (knt : Nat), Vec x a v →
      Sim (fun r s => Vec x r.1 s.1 ∧ r.2 = s.2) (dlarfgRescale n incx sm rs k a beta alpha knt)
        (dlarfgRescale n incx sm rs k v beta alpha knt) := by
  induction k with
  | zero => intro a v beta alpha knt h; exact Sim.pure ⟨h, rfl⟩
  | succ k ih =>
    intro a v beta alpha knt h
    unfold dlarfgRescale
    refine Sim.bind' fun m => Sim.bind (dscal_sim m rs x a v incx h) fun a' v' h' => ?_
    exact Sim.ite (fun _ => Sim.pure ⟨h', rfl⟩) fun _ => ih _ _ _ _ _ h'

theorem dlarfgFinish_sim (n incx : Int) (sm alpha beta : F) (x a : FA F) (v : List F) (knt : Nat) (h : Vec x a v) :
    Sim (fun r s => r.1 = s.1 ∧ Vec x r.2.1 s.2.1 ∧ r.2.2 = s.2.2) (dlarfgFinish n incx sm alpha beta a knt)
      (dlarfgFinish n incx sm alpha beta v knt) := by
  unfold dlarfgFinish
  exact Sim.bind' fun m => Sim.bind (dscal_sim m _ x a v incx h) fun a' v' h' => Sim.pure ⟨rfl, h', rfl⟩

/-- `dlarfg` on a `FortranArray` does what it does on the vector the array holds. -/
theorem dlarfg_sim (n : Int) (alpha : F) (x a : FA F) (v : List F) (incx : Int) (h : Vec x a v) :
    Sim (fun r s => r.1 = s.1 ∧ Vec x r.2.1 s.2.1 ∧ r.2.2 = s.2.2) (dlarfg n alpha a incx) (dlarfg n alpha v incx) := by
  unfold dlarfg
  refine Sim.ite (fun _ => Sim.pure ⟨rfl, h, rfl⟩) fun _ => Sim.bind' fun m => ?_
  rw [dnrm2_sim m x a v incx h]
  refine Sim.bind' fun xn => Sim.ite (fun _ => Sim.pure ⟨rfl, h, rfl⟩) fun _ => ?_
  refine Sim.ite (fun _ => ?_) fun _ => dlarfgFinish_sim _ _ _ _ _ _ _ _ _ h
  refine Sim.bind (dlarfgRescale_sim n incx _ _ x 21 a v _ _ 0 h) ?_
  rintro ⟨a', r⟩ ⟨v', s⟩ ⟨h', e⟩
  simp only at e h'
  subst e
  refine Sim.bind' fun m' => ?_
  rw [dnrm2_sim m' x a' v' incx h']
  exact Sim.bind' fun xn => dlarfgFinish_sim _ _ _ _ _ _ _ _ _ h'

end Verif
