import Verif.Lib.Post

/-!
# One-sided simulation

`Sub rel x y`: whenever `x` returns, `y` returns in the same profile, with related values.
-/

namespace Verif

variable {α β γ δ σ τ ι : Type}

/-- Whenever `x` returns, `y` returns in the same profile, with related values. -/
def Sub (rel : α → β → Prop) (x : R α) (y : R β) : Prop := ∀ p a, x p = .ok a → ∃ b, y p = .ok b ∧ rel a b

theorem Sub.pure {rel : α → β → Prop} {a : α} {b : β} (h : rel a b) : Sub rel (pure a) (pure b) := by
  intro p a' e; cases e; exact ⟨b, rfl, h⟩

theorem Sub.timeout {rel : α → β → Prop} {y : R β} : Sub rel (R.timeout : R α) y := by
  intro p a e; cases e

theorem Sub.mono {rel rel' : α → β → Prop} {x : R α} {y : R β} (h : Sub rel x y) (hr : ∀ a b, rel a b → rel' a b) : Sub rel' x y := by
  intro p a e
  obtain ⟨b, e', hb⟩ := h p a e
  exact ⟨b, e', hr a b hb⟩

theorem Sub.bind {rel : α → β → Prop} {rel' : γ → δ → Prop} {x : R α} {y : R β} {f : α → R γ} {g : β → R δ}
    (h : Sub rel x y) (hf : ∀ a b, rel a b → Sub rel' (f a) (g b)) : Sub rel' (x >>= f) (y >>= g) := by
  intro p c e
  rw [R.bind_apply] at e
  cases hx : x p with
  | ok a =>
    rw [hx] at e
    obtain ⟨b, hy, hab⟩ := h p a hx
    obtain ⟨d, hd, hcd⟩ := hf a b hab p c e
    exact ⟨d, by rw [R.bind_apply, hy]; exact hd, hcd⟩
  | panic _ => rw [hx] at e; cases e
  | exit _ _ => rw [hx] at e; cases e
  | timeout => rw [hx] at e; cases e

theorem Sub.refl (x : R α) : Sub (fun a b => a = b) x x := fun _ a e => ⟨a, e, rfl⟩

/-- `bind` after the same computation on both sides. -/
theorem Sub.bind' {rel' : γ → δ → Prop} {x : R α} {f : α → R γ} {g : α → R δ}
    (hf : ∀ a, Sub rel' (f a) (g a)) : Sub rel' (x >>= f) (x >>= g) :=
  Sub.bind (Sub.refl x) fun a b e => by subst e; exact hf a

/-- A computation made on the left only. -/
theorem Sub.left {rel : γ → δ → Prop} {x : R α} {f : α → R γ} {y : R δ} (hf : ∀ a, Sub rel (f a) y) : Sub rel (x >>= f) y := by
  intro p c e
  rw [R.bind_apply] at e
  cases hx : x p with
  | ok a => rw [hx] at e; exact hf a p c e
  | panic _ => rw [hx] at e; cases e
  | exit _ _ => rw [hx] at e; cases e
  | timeout => rw [hx] at e; cases e

theorem Sub.ite {c : Prop} [Decidable c] {rel : α → β → Prop} {x x' : R α} {y y' : R β}
    (h : c → Sub rel x y) (h' : ¬ c → Sub rel x' y') : Sub rel (if c then x else x') (if c then y else y') := by
  split
  · exact h ‹_›
  · exact h' ‹_›

theorem Sub.iteLeft {c : Prop} [Decidable c] {rel : α → β → Prop} {x x' : R α} {y : R β}
    (h : c → Sub rel x y) (h' : ¬ c → Sub rel x' y) : Sub rel (if c then x else x') y := by
  split
  · exact h ‹_›
  · exact h' ‹_›

theorem Sub.foldlM {rel : σ → τ → Prop} {f : σ → ι → R σ} {g : τ → ι → R τ} (l : List ι) {s : σ} {t : τ}
    (hs : rel s t) (hf : ∀ s t i, rel s t → Sub rel (f s i) (g t i)) : Sub rel (l.foldlM f s) (l.foldlM g t) := by
  induction l generalizing s t with
  | nil => exact Sub.pure hs
  | cons i l ih =>
    rw [List.foldlM_cons, List.foldlM_cons]
    exact Sub.bind (hf s t i hs) fun a b hab => ih hab

theorem Sub.forUp {rel : σ → τ → Prop} {f : σ → Int → R σ} {g : τ → Int → R τ} {lo hi : Int} {s : σ} {t : τ}
    (hs : rel s t) (hf : ∀ s t i, rel s t → Sub rel (f s i) (g t i)) :
    Sub rel (forUp lo hi s f) (forUp lo hi t g) := Sub.foldlM _ hs hf

theorem Sub.forDown {rel : σ → τ → Prop} {f : σ → Int → R σ} {g : τ → Int → R τ} {lo hi : Int} {s : σ} {t : τ}
    (hs : rel s t) (hf : ∀ s t i, rel s t → Sub rel (f s i) (g t i)) :
    Sub rel (forDown lo hi s f) (forDown lo hi t g) := Sub.foldlM _ hs hf

theorem Sub.forStep {rel : σ → τ → Prop} {f : σ → Int → R σ} {g : τ → Int → R τ} {lo hi : Int} {d : Nat} {s : σ}
    {t : τ} (hs : rel s t) (hf : ∀ s t i, rel s t → Sub rel (f s i) (g t i)) :
    Sub rel (forStep lo hi d s f) (forStep lo hi d t g) := by
  unfold Verif.forStep
  exact Sub.bind' fun l => Sub.foldlM l hs hf

end Verif
