import Verif.Lib.Array

/-!
# Loops over the rows of a column, and over columns
-/

set_option linter.unusedSectionVars false

namespace Verif
open Scalar

variable {F : Type} [Scalar F]

/-- Loop invariant for a descending loop all of whose rounds return normally. -/
theorem forDown_inv {σ : Type} {P : Int → σ → Prop} {f : σ → Int → R σ} {lo hi : Int}
    (hlh : lo ≤ hi + 1)
    (step : ∀ i s, lo ≤ i → i ≤ hi → P i s → ∃ s', f s i = pure s' ∧ P (i - 1) s')
    {s : σ} (h : P hi s) : ∃ s', forDown lo hi s f = pure s' ∧ P (lo - 1) s' := by
  obtain ⟨n, hn⟩ : ∃ n : Nat, lo + n = hi + 1 := ⟨(hi + 1 - lo).toNat, by omega⟩
  induction n generalizing hi s with
  | zero =>
    have : hi = lo - 1 := by omega
    subst this
    exact ⟨s, forDown_empty (by omega) _ _, h⟩
  | succ n ih =>
    obtain ⟨s1, h1, h2⟩ := step hi s (by omega) (le_refl _) h
    obtain ⟨s2, h3, h4⟩ := ih (hi := hi - 1) (by omega)
      (fun i s h1 h2 => step i s h1 (by omega)) h2 (by omega)
    exact ⟨s2, by rw [forDown_cons (by omega), h1]; simpa using h3, h4⟩

/-- A loop over rows `lo..=hi` of column `j`, each round rewriting one entry from values of its
own row. -/
theorem rowLoop {ld L : Nat} {cols : Int} {lo hi j : Int} {f : FA F → Int → R (FA F)}
    (e : (Int → Int → F) → Int → F)
    (hf : ∀ i, lo ≤ i → i ≤ hi → ∀ c g, Is2 c ld cols L g →
      ∃ c', f c i = pure c' ∧ Is2 c' ld cols L (upd2 g i j (e g i)))
    (hloc : ∀ i, lo ≤ i → i ≤ hi → ∀ g g', (∀ j, g i j = g' i j) → e g i = e g' i)
    {c : FA F} {g : Int → Int → F} (hc : Is2 c ld cols L g) :
    ∃ c', forUp lo hi c f = pure c' ∧
      Is2 c' ld cols L (fun i' j' => if (lo ≤ i' ∧ i' ≤ hi) ∧ j' = j then e g i' else g i' j') := by
  by_cases hlh : lo ≤ hi + 1
  · obtain ⟨c', h1, h2⟩ := forUp_inv (f := f) (P := fun i c =>
      Is2 c ld cols L (fun i' j' => if (lo ≤ i' ∧ i' < i) ∧ j' = j then e g i' else g i' j')) hlh
      (fun i c h1 h2 hP => by
        obtain ⟨c', e1, e2⟩ := hf i h1 h2 c _ hP
        refine ⟨c', e1, ?_⟩
        have : (fun i' j' => if (lo ≤ i' ∧ i' < i + 1) ∧ j' = j then e g i' else g i' j') =
            upd2 (fun i' j' => if (lo ≤ i' ∧ i' < i) ∧ j' = j then e g i' else g i' j') i j
              (e (fun i' j' => if (lo ≤ i' ∧ i' < i) ∧ j' = j then e g i' else g i' j') i) := by
          funext i' j'
          unfold upd2
          beta_reduce
          by_cases hij : i' = i ∧ j' = j
          · obtain ⟨rfl, rfl⟩ := hij
            rw [if_pos ⟨⟨h1, by omega⟩, rfl⟩, if_pos ⟨rfl, rfl⟩]
            apply hloc i' h1 h2
            intro j; beta_reduce; rw [if_neg (by omega)]
          · rw [if_neg hij]
            by_cases hj : j' = j
            · have : i' ≠ i := fun e => hij ⟨e, hj⟩
              by_cases hb : lo ≤ i' ∧ i' < i
              · rw [if_pos ⟨⟨hb.1, by omega⟩, hj⟩, if_pos ⟨hb, hj⟩]
              · rw [if_neg (by omega), if_neg (by tauto)]
            · rw [if_neg (by tauto), if_neg (by tauto)]
        rw [this]; exact e2)
      (s := c) (by
        have : (fun i' j' => if (lo ≤ i' ∧ i' < lo) ∧ j' = j then e g i' else g i' j') = g := by
          funext i' j'; rw [if_neg (by omega)]
        rw [this]; exact hc)
    refine ⟨c', h1, ?_⟩
    have : (fun i' j' => if (lo ≤ i' ∧ i' ≤ hi) ∧ j' = j then e g i' else g i' j') =
        (fun i' j' => if (lo ≤ i' ∧ i' < hi + 1) ∧ j' = j then e g i' else g i' j') := by
      funext i' j'
      congr 1
      simp only [Int.lt_add_one_iff]
    rw [this]; exact h2
  · refine ⟨c, forUp_empty (by omega) _ _, ?_⟩
    have : (fun i' j' => if (lo ≤ i' ∧ i' ≤ hi) ∧ j' = j then e g i' else g i' j') = g := by
      funext i' j'; rw [if_neg (by omega)]
    rw [this]; exact hc

/-- A loop over columns `lo..=hi`, each round rewriting one column from values of that column. -/
theorem colLoop {ld L : Nat} {cols : Int} {lo hi : Int} {f : FA F → Int → R (FA F)}
    (E : (Int → Int → F) → Int → Int → F)
    (hf : ∀ j, lo ≤ j → j ≤ hi → ∀ c g, Is2 c ld cols L g →
      ∃ c', f c j = pure c' ∧
        Is2 c' ld cols L (fun i' j' => if j' = j then E g i' j else g i' j'))
    (hloc : ∀ j, lo ≤ j → j ≤ hi → ∀ g g', (∀ i, g i j = g' i j) → ∀ i, E g i j = E g' i j)
    {c : FA F} {g : Int → Int → F} (hc : Is2 c ld cols L g) :
    ∃ c', forUp lo hi c f = pure c' ∧
      Is2 c' ld cols L (fun i' j' => if lo ≤ j' ∧ j' ≤ hi then E g i' j' else g i' j') := by
  by_cases hlh : lo ≤ hi + 1
  · obtain ⟨c', h1, h2⟩ := forUp_inv (f := f) (P := fun j c =>
      Is2 c ld cols L (fun i' j' => if lo ≤ j' ∧ j' < j then E g i' j' else g i' j')) hlh
      (fun j c h1 h2 hP => by
        obtain ⟨c', e1, e2⟩ := hf j h1 h2 c _ hP
        refine ⟨c', e1, ?_⟩
        have : (fun i' j' => if lo ≤ j' ∧ j' < j + 1 then E g i' j' else g i' j') =
            fun i' j' => if j' = j then
              E (fun i' j' => if lo ≤ j' ∧ j' < j then E g i' j' else g i' j') i' j
              else (if lo ≤ j' ∧ j' < j then E g i' j' else g i' j') := by
          funext i' j'
          by_cases hj : j' = j
          · subst hj
            rw [if_pos ⟨h1, by omega⟩, if_pos rfl]
            apply hloc j' h1 h2
            intro i; beta_reduce; rw [if_neg (by omega)]
          · rw [if_neg hj]
            congr 1
            simp only [eq_iff_iff]
            constructor <;> rintro ⟨a, b⟩ <;> exact ⟨a, by omega⟩
        rw [this]; exact e2)
      (s := c) (by
        have : (fun i' j' => if lo ≤ j' ∧ j' < lo then E g i' j' else g i' j') = g := by
          funext i' j'; rw [if_neg (by omega)]
        rw [this]; exact hc)
    refine ⟨c', h1, ?_⟩
    have : (fun i' j' => if lo ≤ j' ∧ j' ≤ hi then E g i' j' else g i' j') =
        (fun i' j' => if lo ≤ j' ∧ j' < hi + 1 then E g i' j' else g i' j') := by
      funext i' j'
      congr 1
      simp only [Int.lt_add_one_iff]
    rw [this]; exact h2
  · refine ⟨c, forUp_empty (by omega) _ _, ?_⟩
    have : (fun i' j' => if lo ≤ j' ∧ j' ≤ hi then E g i' j' else g i' j') = g := by
      funext i' j'; rw [if_neg (by omega)]
    rw [this]; exact hc

/-- A loop that only reads and accumulates. -/
theorem accLoop {σ : Type} {lo hi : Int} {f : σ → Int → R σ} (h : σ → Int → σ)
    (hf : ∀ i, lo ≤ i → i ≤ hi → ∀ s, f s i = pure (h s i)) (s : σ) :
    forUp lo hi s f = pure ((irange lo hi).foldl h s) := by
  obtain ⟨s', h1, h2⟩ := forUp_rel (f := f) (Rel := fun s t => s = t) h
    (fun i h1 h2 s t e => ⟨h s i, hf i h1 h2 s, by rw [e]⟩) (s := s) rfl
  rw [h1, h2]

/-- A loop of pointwise updates of a matrix. -/
theorem pointLoop {ld L : Nat} {cols : Int} {lo hi : Int} {f : FA F → Int → R (FA F)}
    (h : Int → Int → F → Int → F)
    (hf : ∀ l, lo ≤ l → l ≤ hi → ∀ c g, Is2 c ld cols L g →
      ∃ c', f c l = pure c' ∧ Is2 c' ld cols L (fun i' j' => h i' j' (g i' j') l))
    {c : FA F} {g : Int → Int → F} (hc : Is2 c ld cols L g) :
    ∃ c', forUp lo hi c f = pure c' ∧
      Is2 c' ld cols L (fun i' j' => (irange lo hi).foldl (h i' j') (g i' j')) := by
  obtain ⟨c', h1, h2⟩ := forUp_rel (f := f) (Rel := fun c g => Is2 c ld cols L g)
    (G := fun g l => fun i' j' => h i' j' (g i' j') l) (fun l h1 h2 c g hc => hf l h1 h2 c g hc) hc
  refine ⟨c', h1, ?_⟩
  have : ∀ (l : List Int) (g : Int → Int → F) (i' j' : Int),
      l.foldl (fun g l => fun i' j' => h i' j' (g i' j') l) g i' j' = l.foldl (h i' j') (g i' j') := by
    intro l
    induction l with
    | nil => intro g i' j'; rfl
    | cons x l ih => intro g i' j'; simp only [List.foldl_cons]; rw [ih]
  have e : (fun i' j' => (irange lo hi).foldl (h i' j') (g i' j')) =
      (irange lo hi).foldl (fun g l => fun i' j' => h i' j' (g i' j') l) g := by
    funext i' j'; rw [this]
  rw [e]; exact h2

end Verif
