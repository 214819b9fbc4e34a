import Verif.Lib.Loops
import Verif.Model.Array

/-!
# Postconditions

`Post x P`: whenever the computation `x` returns normally, in either build profile, its value satisfies `P`.
-/

namespace Verif

variable {α β σ ι F : Type}

/-- Every value returned by `x` satisfies `P`. -/
def Post (x : R α) (P : α → Prop) : Prop := ∀ p a, x p = .ok a → P a

theorem Post.pure {a : α} {P : α → Prop} (h : P a) : Post (pure a : R α) P := by
  intro p b hb; cases hb; exact h

theorem Post.panic (e : Panic) {P : α → Prop} : Post (R.panic e : R α) P := by intro p b hb; cases hb

theorem Post.timeout {P : α → Prop} : Post (R.timeout : R α) P := by intro p b hb; cases hb

theorem Post.bind {x : R α} {f : α → R β} {P : α → Prop} {Q : β → Prop} (hx : Post x P)
    (hf : ∀ a, P a → Post (f a) Q) : Post (x >>= f) Q := by
  intro p b hb
  rw [R.bind_apply] at hb
  cases hx' : x p with
  | ok a => rw [hx'] at hb; exact hf a (hx p a hx') p b hb
  | panic e => rw [hx'] at hb; cases hb
  | exit s i => rw [hx'] at hb; cases hb
  | timeout => rw [hx'] at hb; cases hb

theorem Post.trivial (x : R α) : Post x (fun _ => True) := fun _ _ _ => True.intro

/-- `bind` whose first part does not matter. -/
theorem Post.bind' {x : R α} {f : α → R β} {Q : β → Prop} (hf : ∀ a, Post (f a) Q) : Post (x >>= f) Q :=
  Post.bind (Post.trivial x) fun a _ => hf a

theorem Post.mono {x : R α} {P Q : α → Prop} (h : Post x P) (hpq : ∀ a, P a → Q a) : Post x Q :=
  fun p a ha => hpq a (h p a ha)

theorem Post.and {x : R α} {P Q : α → Prop} (h : Post x P) (h' : Post x Q) : Post x (fun a => P a ∧ Q a) :=
  fun p a ha => ⟨h p a ha, h' p a ha⟩

theorem Post.ite {c : Prop} [Decidable c] {x y : R α} {P : α → Prop} (hx : c → Post x P) (hy : ¬ c → Post y P) :
    Post (if c then x else y) P := by
  split
  · exact hx ‹_›
  · exact hy ‹_›

/-- The shape `let x ← if c then x else y; f x` is elaborated to. -/
theorem Post.iteBind {c : Prop} [Decidable c] {x y : R α} {f : α → R β} {P : α → Prop} {Q : β → Prop}
    (h : Post (if c then x else y) P) (hf : ∀ a, P a → Post (f a) Q) :
    Post (if c then x >>= f else y >>= f) Q := by
  split
  · rw [if_pos ‹_›] at h; exact Post.bind h hf
  · rw [if_neg ‹_›] at h; exact Post.bind h hf

theorem Post.foldlM {P : σ → Prop} {f : σ → ι → R σ} (l : List ι) {s : σ} (hs : P s)
    (hf : ∀ s, ∀ i ∈ l, P s → Post (f s i) P) : Post (l.foldlM f s) P := by
  induction l generalizing s with
  | nil => exact Post.pure hs
  | cons i l ih =>
    rw [List.foldlM_cons]
    exact Post.bind (hf s i List.mem_cons_self hs) fun a ha => ih ha fun s j hj => hf s j (List.mem_cons_of_mem _ hj)

theorem Post.forUp {P : σ → Prop} {f : σ → Int → R σ} {lo hi : Int} {s : σ} (hs : P s)
    (hf : ∀ s i, lo ≤ i → i ≤ hi → P s → Post (f s i) P) : Post (forUp lo hi s f) P :=
  Post.foldlM _ hs fun s i hi' => hf s i (mem_irange.1 hi').1 (mem_irange.1 hi').2

variable [Scalar F]

/-- Same shape and same number of elements. -/
def SameShape (a b : FA F) : Prop := a.rows = b.rows ∧ a.cols = b.cols ∧ a.data.length = b.data.length

theorem SameShape.refl (a : FA F) : SameShape a a := ⟨rfl, rfl, rfl⟩

theorem SameShape.trans {a b c : FA F} (h : SameShape a b) (h' : SameShape b c) : SameShape a c :=
  ⟨h.1.trans h'.1, h.2.1.trans h'.2.1, h.2.2.trans h'.2.2⟩

theorem modify1_shape (a : FA F) (i : Int) (f : F → F) : SameShape a (a.modify1 i f) := by
  unfold FA.modify1
  split
  · exact ⟨rfl, rfl, rfl⟩
  · split
    · exact ⟨rfl, rfl, by simp⟩
    · exact ⟨rfl, rfl, rfl⟩

theorem set1_shape (a : FA F) (i : Int) (x : F) : SameShape a (a.set1 i x) := modify1_shape a i _

theorem modify2_shape (a : FA F) (i j : Int) (f : F → F) : Post (a.modify2 i j f) (SameShape a) := by
  unfold FA.modify2
  apply Post.bind'
  intro o
  apply Post.pure
  split
  · exact ⟨rfl, rfl, by simp⟩
  · exact ⟨rfl, rfl, rfl⟩

theorem set2_shape (a : FA F) (i j : Int) (x : F) : Post (a.set2 i j x) (SameShape a) := modify2_shape a i j _

/-- `a[i] = x` leaves every other element alone. -/
theorem set1_frame (a : FA F) (i : Int) (x : F) (hi : FitsI32 i) (hl : a.data.length < 2 ^ 63) (k : Nat)
    (hk : (k : Int) + 1 ≠ i) : (a.set1 i x).data[k]? = a.data[k]? := by
  unfold FA.set1 FA.modify1
  split
  · rfl
  · rename_i h0
    split
    · rename_i v hv
      have hlt := (List.getElem?_eq_some_iff.1 hv).1
      have hpos : 0 ≤ i := by
        by_contra hneg
        have := asUsize_neg (by omega) hi
        omega
      rw [asUsize_nonneg hpos hi] at hlt ⊢
      rw [List.getElem?_set_ne (by omega)]
    · rfl

end Verif
