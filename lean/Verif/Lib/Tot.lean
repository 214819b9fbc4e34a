import Verif.Lib.Post

/-!
# Total correctness

`Tot x P`: the computation `x` returns normally in both build profiles, and its value satisfies `P`.
-/

namespace Verif

variable {α β σ ι F : Type}

/-- `x` returns normally in both profiles, with a value satisfying `P`. -/
def Tot (x : R α) (P : α → Prop) : Prop := ∀ p, ∃ a, x p = .ok a ∧ P a

theorem Tot.pure {a : α} {P : α → Prop} (h : P a) : Tot (pure a : R α) P := fun _ => ⟨a, rfl, h⟩

theorem Tot.of_eq {x : R α} {a : α} {P : α → Prop} (e : x = Pure.pure a) (h : P a) : Tot x P := by
  rw [e]; exact Tot.pure h

theorem Tot.of_ex {x : R α} {P : α → Prop} (h : ∃ a, x = Pure.pure a ∧ P a) : Tot x P := by
  obtain ⟨a, e, ha⟩ := h
  exact Tot.of_eq e ha

theorem Tot.bind {x : R α} {f : α → R β} {P : α → Prop} {Q : β → Prop} (hx : Tot x P)
    (hf : ∀ a, P a → Tot (f a) Q) : Tot (x >>= f) Q := by
  intro p
  obtain ⟨a, e, ha⟩ := hx p
  obtain ⟨b, e', hb⟩ := hf a ha p
  exact ⟨b, by rw [R.bind_apply, e]; exact e', hb⟩

theorem Tot.mono {x : R α} {P Q : α → Prop} (h : Tot x P) (hpq : ∀ a, P a → Q a) : Tot x Q := by
  intro p
  obtain ⟨a, e, ha⟩ := h p
  exact ⟨a, e, hpq a ha⟩

theorem Tot.ite {c : Prop} [Decidable c] {x y : R α} {P : α → Prop} (hx : c → Tot x P) (hy : ¬ c → Tot y P) :
    Tot (if c then x else y) P := by
  split
  · exact hx ‹_›
  · exact hy ‹_›

/-- The shape `let x ← if c then x else y; f x` is elaborated to. -/
theorem Tot.iteBind {c : Prop} [Decidable c] {x y : R α} {f : α → R β} {P : α → Prop} {Q : β → Prop}
    (h : Tot (if c then x else y) P) (hf : ∀ a, P a → Tot (f a) Q) :
    Tot (if c then x >>= f else y >>= f) Q := by
  split
  · rw [if_pos ‹_›] at h; exact Tot.bind h hf
  · rw [if_neg ‹_›] at h; exact Tot.bind h hf

theorem Tot.post {x : R α} {P : α → Prop} (h : Tot x P) : Post x P := by
  intro p a ha
  obtain ⟨b, e, hb⟩ := h p
  rw [e] at ha
  cases ha
  exact hb

/-- A loop with an invariant depending on the index. -/
theorem Tot.forUp {P : Int → σ → Prop} {f : σ → Int → R σ} {lo hi : Int} (hlh : lo ≤ hi + 1) {s : σ} (hs : P lo s)
    (hf : ∀ i s, lo ≤ i → i ≤ hi → P i s → Tot (f s i) (P (i + 1))) : Tot (forUp lo hi s f) (P (hi + 1)) := by
  obtain ⟨n, hn⟩ : ∃ n : Nat, lo + n = hi + 1 := ⟨(hi + 1 - lo).toNat, by omega⟩
  induction n generalizing lo s with
  | zero =>
    have : lo = hi + 1 := by omega
    subst this
    exact Tot.of_eq (forUp_empty (by omega) _ _) hs
  | succ n ih =>
    rw [forUp_cons (by omega)]
    exact Tot.bind (hf lo s (le_refl _) (by omega) hs) fun a ha =>
      ih (by omega) ha (fun i s h1 h2 => hf i s (by omega) h2) (by omega)

end Verif
