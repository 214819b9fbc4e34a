import Verif.Lib.HqrStep

/-!
# One step of the single-bulge chase of `dlaqr5` on real matrices given by their entries

Step `k` applies a reflector to rows and columns `k + 1`, `k + 2`, `k + 3` (the last one only if it lies in the active block
`kt..kb`).
-/

namespace Verif
open Spec

theorem house_congr {q : ℤ} {v2 v3 t : ℝ} {x y : ℤ → ℝ} {i : ℤ} (h0 : x i = y i) (h1 : x q = y q) (h2 : x (q + 1) = y (q + 1))
    (h3 : v3 = 0 ∨ x (q + 2) = y (q + 2)) : house q v2 v3 t x i = house q v2 v3 t y i := by
  unfold house
  rw [h0, h1, h2]
  rcases h3 with h3 | h3
  · rw [h3]; ring
  · rw [h3]

theorem house_comm (q : ℤ) (v2 v3 t : ℝ) (f : ℤ → ℤ → ℝ) (a b : ℤ) :
    houseL q v2 v3 t (houseR q v2 v3 t f) a b = houseR q v2 v3 t (houseL q v2 v3 t f) a b := by
  unfold houseL houseR house
  ring

/-- What is known of the zero pattern of `T` before step `k`. -/
structure Shape (lo hi kt kb k : ℤ) (T : ℤ → ℤ → ℝ) : Prop where
  hess : ∀ a b, lo ≤ b → b + 1 < a → a ≤ hi →
    ¬ (kt ≤ k ∧ a ≤ kb ∧ ((b = k ∧ (a = k + 2 ∨ a = k + 3)) ∨ (b = k + 1 ∧ a = k + 3))) → T a b = 0
  top : lo < kt → T kt (kt - 1) = 0
  bot : kb < hi → T (kb + 1) kb = 0

section
variable {lo hi kt kb k : ℤ} {T : ℤ → ℤ → ℝ} {v2 v3 t : ℝ}

theorem Shape.left (h : Shape lo hi kt kb k T) (hkt : kt - 1 ≤ k) {a b : ℤ} (ha : kt ≤ a) (ha2 : a ≤ hi) (hb : lo ≤ b) (hb2 : b < kt) :
    T a b = 0 := by
  by_cases hab : b + 1 < a
  · exact h.hess a b hb hab ha2 (by omega)
  · have e1 : a = kt := by omega
    have e2 : b = kt - 1 := by omega
    rw [e1, e2]
    exact h.top (by omega)

theorem Shape.below (h : Shape lo hi kt kb k T) {a b : ℤ} (ha : kb < a) (ha2 : a ≤ hi) (hb : lo ≤ b) (hb2 : b ≤ kb) :
    T a b = 0 := by
  by_cases hab : b + 1 < a
  · exact h.hess a b hb hab ha2 (by omega)
  · have e1 : a = kb + 1 := by omega
    have e2 : b = kb := by omega
    rw [e1, e2]
    exact h.bot (by omega)

/-- The reflector of step `k` lies in the active block. -/
structure InBlk (lo hi kt kb k : ℤ) (v3 : ℝ) : Prop where
  lo : lo ≤ kt
  hi : kb ≤ hi
  kt : kt - 1 ≤ k
  kb : (k + 3 ≤ kb) ∨ (k + 2 = kb ∧ v3 = 0)

theorem InBlk.inside (h : InBlk lo hi kt kb k v3) : Inside lo hi (k + 1) v3 := by
  obtain ⟨h1, h2, h3, h4⟩ := h
  refine ⟨by omega, by omega, ?_⟩
  rcases h4 with h4 | h4
  · left; omega
  · right; exact h4.2

/-- The matrix after step `k`. -/
def bulgeT (k : ℤ) (v2 v3 t : ℝ) (T : ℤ → ℤ → ℝ) : ℤ → ℤ → ℝ := houseR (k + 1) v2 v3 t (houseL (k + 1) v2 v3 t T)

/-- Columns left of the bulge are not changed. -/
theorem bulgeT_left (h : Shape lo hi kt kb k T) (hw : InBlk lo hi kt kb k v3) {a b : ℤ} (hb1 : lo ≤ b) (hb : b < k ∨ (b = k ∧ k < kt)) :
    bulgeT k v2 v3 t T a b = T a b := by
  obtain ⟨w1, w2, w3, w4⟩ := hw
  unfold bulgeT houseR
  rw [house_ne _ (by omega) (by omega) (Or.inl (by omega))]
  unfold houseL
  have z : ∀ a, k + 1 ≤ a → a ≤ hi → T a b = 0 := by
    intro a a1 a2
    by_cases hbk : b < kt
    · exact h.left w3 (by omega) a2 hb1 hbk
    · exact h.hess _ _ hb1 (by omega) (by omega) (by omega)
  apply house_zero
  · exact z _ (by omega) (by omega)
  · exact z _ (by omega) (by omega)
  · rcases w4 with w4 | w4
    · left; exact z _ (by omega) (by omega)
    · exact Or.inr w4.2

/-- Column `k`. -/
theorem bulgeT_col (a : ℤ) : bulgeT k v2 v3 t T a k = houseL (k + 1) v2 v3 t T a k := by
  unfold bulgeT houseR
  rw [house_ne _ (by omega) (by omega) (Or.inl (by omega))]

/-- Column `k` holds `beta` on the subdiagonal and zeros below. -/
theorem bulgeT_maps {beta : ℝ} (hm : Maps (T (k + 1) k) (T (k + 2) k) (T (k + 3) k) beta v2 v3 t) :
    bulgeT k v2 v3 t T (k + 1) k = beta ∧ bulgeT k v2 v3 t T (k + 2) k = 0 ∧ bulgeT k v2 v3 t T (k + 3) k = 0 := by
  have e2 : k + 1 + 1 = k + 2 := by ring
  have e3 : k + 1 + 2 = k + 3 := by ring
  refine ⟨?_, ?_, ?_⟩
  · rw [bulgeT_col]
    unfold houseL house dirv
    rw [if_pos rfl, e2, e3]
    linear_combination hm.e1
  · rw [bulgeT_col]
    unfold houseL house dirv
    rw [if_neg (by omega), if_pos (by omega), e2, e3]
    linear_combination hm.e2
  · rw [bulgeT_col]
    unfold houseL house dirv
    rw [if_neg (by omega), if_neg (by omega), if_pos (by omega), e2, e3]
    linear_combination hm.e3

/-- The two-element version, at the end of the block. -/
theorem bulgeT_maps2 {beta : ℝ} (hm : Maps (T (k + 1) k) (T (k + 2) k) 0 beta v2 0 t) :
    bulgeT k v2 0 t T (k + 1) k = beta ∧ bulgeT k v2 0 t T (k + 2) k = 0 := by
  have e2 : k + 1 + 1 = k + 2 := by ring
  refine ⟨?_, ?_⟩
  · rw [bulgeT_col]
    unfold houseL house dirv
    rw [if_pos rfl, e2]
    linear_combination hm.e1
  · rw [bulgeT_col]
    unfold houseL house dirv
    rw [if_neg (by omega), if_pos (by omega), e2]
    linear_combination hm.e2

/-- Rows below the bulge. -/
theorem bulgeT_low (h : Shape lo hi kt kb k T) (hw : InBlk lo hi kt kb k v3) {a b : ℤ} (ha : k + 3 < a ∨ kb < a) (hai : a ≤ hi)
    (hne : ¬ (a = k + 4 ∧ a ≤ kb)) : bulgeT k v2 v3 t T a b = T a b := by
  obtain ⟨w1, w2, w3, w4⟩ := hw
  have ha' : a ≠ k + 1 ∧ a ≠ k + 2 ∧ (a ≠ k + 3 ∨ v3 = 0) := by
    refine ⟨by omega, by omega, ?_⟩
    rcases w4 with w4 | w4
    · left; omega
    · exact Or.inr w4.2
  have hL : ∀ b, houseL (k + 1) v2 v3 t T a b = T a b := fun b => by
    unfold houseL
    rw [house_ne _ (by omega) (by omega) (by rw [show k + 1 + 2 = k + 3 by ring]; exact ha'.2.2)]
  have z : ∀ b, k + 1 ≤ b → b ≤ k + 3 → b ≤ kb → T a b = 0 := by
    intro b b1 b2 b3
    by_cases hk : kb < a
    · exact h.below hk hai (by omega) b3
    · exact h.hess _ _ (by omega) (by omega) hai (by omega)
  unfold bulgeT houseR
  rw [house_zero]
  · exact hL b
  · rw [hL]; exact z _ (by omega) (by omega) (by omega)
  · rw [hL]; exact z _ (by omega) (by omega) (by omega)
  · rw [hL]
    rcases w4 with w4 | w4
    · left; exact z _ (by omega) (by omega) (by omega)
    · exact Or.inr w4.2

/-- Row `k + 4`. -/
theorem bulgeT_row4 (h : Shape lo hi kt kb k T) (hw : InBlk lo hi kt kb k v3) (h4 : k + 4 ≤ kb) :
    bulgeT k v2 v3 t T (k + 4) (k + 1) = -(v3 * T (k + 4) (k + 3)) * t ∧
    bulgeT k v2 v3 t T (k + 4) (k + 2) = -(v3 * T (k + 4) (k + 3)) * (t * v2) ∧
    bulgeT k v2 v3 t T (k + 4) (k + 3) = T (k + 4) (k + 3) - v3 * T (k + 4) (k + 3) * (t * v3) ∧
    ∀ b, b < k + 1 ∨ k + 3 < b → bulgeT k v2 v3 t T (k + 4) b = T (k + 4) b := by
  obtain ⟨w1, w2, w3, w4⟩ := hw
  have hL : ∀ b, houseL (k + 1) v2 v3 t T (k + 4) b = T (k + 4) b := fun b => by
    unfold houseL
    rw [house_ne _ (by omega) (by omega) (Or.inl (by omega))]
  have z1 : T (k + 4) (k + 1) = 0 := h.hess _ _ (by omega) (by omega) (by omega) (by omega)
  have z2 : T (k + 4) (k + 2) = 0 := h.hess _ _ (by omega) (by omega) (by omega) (by omega)
  have e2 : k + 1 + 1 = k + 2 := by ring
  have e3 : k + 1 + 2 = k + 3 := by ring
  refine ⟨?_, ?_, ?_, ?_⟩
  · unfold bulgeT houseR house dirv
    rw [if_pos rfl, e2, e3]
    simp only [hL, z1, z2]; ring
  · unfold bulgeT houseR house dirv
    rw [if_neg (by omega), if_pos (by omega), e2, e3]
    simp only [hL, z1, z2]; ring
  · unfold bulgeT houseR house dirv
    rw [if_neg (by omega), if_neg (by omega), if_pos (by omega), e2, e3]
    simp only [hL, z1, z2]; ring
  · intro b hb
    unfold bulgeT houseR
    rw [house_ne _ (by omega) (by omega) (Or.inl (by omega)), hL]

/-! ### What the code computes -/

/-- Column `k` as stored by the code. -/
def storeT (kt k : ℤ) (beta : ℝ) (T : ℤ → ℤ → ℝ) (a b : ℤ) : ℝ :=
  if kt ≤ k ∧ b = k then (if a = k + 1 then beta else if a = k + 2 ∨ a = k + 3 then 0 else T a b) else T a b

/-- Rows up to `min kb (k + 3)` updated from the right. -/
def rightT (kb k : ℤ) (v2 v3 t : ℝ) (T : ℤ → ℤ → ℝ) (a b : ℤ) : ℝ :=
  if a ≤ min kb (k + 3) then houseR (k + 1) v2 v3 t T a b else T a b

/-- Columns from `k + 1` to `m` updated from the left. -/
def leftT (m k : ℤ) (v2 v3 t : ℝ) (T : ℤ → ℤ → ℝ) (a b : ℤ) : ℝ :=
  if k + 1 ≤ b ∧ b ≤ m then houseL (k + 1) v2 v3 t T a b else T a b

/-- The code and the reflector agree, but for row `k + 4`. -/
theorem code_eq (h : Shape lo hi kt kb k T) (hw : InBlk lo hi kt kb k v3) {beta : ℝ}
    (hcol : kt ≤ k → bulgeT k v2 v3 t T (k + 1) k = beta ∧ bulgeT k v2 v3 t T (k + 2) k = 0 ∧
      (k + 3 ≤ kb → bulgeT k v2 v3 t T (k + 3) k = 0))
    {m a b : ℤ} (ha1 : lo ≤ a) (ha : a ≤ hi) (hb1 : lo ≤ b) (hb : b ≤ m) :
    leftT m k v2 v3 t (rightT kb k v2 v3 t (storeT kt k beta T)) a b =
      if a = k + 4 ∧ a ≤ kb then T a b else bulgeT k v2 v3 t T a b := by
  obtain ⟨w1, w2, w3, w4⟩ := id hw
  have e1 : ∀ a b, b ≠ k → storeT kt k beta T a b = T a b := by
    intro a b hb
    unfold storeT
    rw [if_neg (by omega)]
  have z3 : kt ≤ k → kb < k + 3 → k + 3 ≤ hi → T (k + 3) k = 0 := fun hkt h3 h4 => h.below h3 h4 (by omega) (by omega)
  by_cases hbk : b ≤ k
  · have eL : leftT m k v2 v3 t (rightT kb k v2 v3 t (storeT kt k beta T)) a b = storeT kt k beta T a b := by
      unfold leftT
      rw [if_neg (by omega)]
      unfold rightT
      split
      · unfold houseR
        rw [house_ne _ (by omega) (by omega) (Or.inl (by omega))]
      · rfl
    rw [eL]
    by_cases hb2 : b < k ∨ (b = k ∧ k < kt)
    · rw [bulgeT_left h hw hb1 hb2, ite_self]
      unfold storeT
      rw [if_neg (by omega)]
    · have hbe : b = k := by omega
      subst hbe
      have hkt : kt ≤ b := by omega
      obtain ⟨c1, c2, c3⟩ := hcol hkt
      unfold storeT
      rw [if_pos ⟨hkt, rfl⟩]
      by_cases a1 : a = b + 1
      · subst a1
        rw [if_pos rfl, if_neg (by omega), c1]
      · rw [if_neg a1]
        by_cases a2 : a = b + 2
        · subst a2
          rw [if_pos (Or.inl rfl), if_neg (by omega), c2]
        · by_cases a3 : a = b + 3
          · subst a3
            rw [if_pos (Or.inr rfl), if_neg (by omega)]
            by_cases h3 : b + 3 ≤ kb
            · exact (c3 h3).symm
            · rw [bulgeT_low h hw (Or.inr (by omega)) ha (by omega)]
              exact (z3 hkt (by omega) ha).symm
          · rw [if_neg (by omega)]
            split
            · rfl
            · rw [bulgeT_col]
              unfold houseL
              rw [house_ne _ (by omega) (by omega) (Or.inl (by omega))]
  · unfold leftT
    rw [if_pos (by omega)]
    have er : ∀ a, a ≤ min kb (k + 3) → rightT kb k v2 v3 t (storeT kt k beta T) a b = houseR (k + 1) v2 v3 t T a b := by
      intro a ha
      unfold rightT
      rw [if_pos ha]
      unfold houseR
      exact house_congr (e1 _ _ (by omega)) (e1 _ _ (by omega)) (e1 _ _ (by omega)) (Or.inr (e1 _ _ (by omega)))
    by_cases ham : a ≤ min kb (k + 3)
    · rw [if_neg (by omega)]
      unfold bulgeT
      rw [← house_comm]
      unfold houseL
      refine house_congr (er _ ham) (er _ (by omega)) (er _ (by omega)) ?_
      rcases w4 with w4 | w4
      · right; exact er _ (by omega)
      · exact Or.inl w4.2
    · have hne : a ≠ k + 3 ∨ v3 = 0 := by
        rcases w4 with w4 | w4
        · left; omega
        · exact Or.inr w4.2
      have eN : houseL (k + 1) v2 v3 t (rightT kb k v2 v3 t (storeT kt k beta T)) a b = T a b := by
        unfold houseL
        rw [house_ne _ (by omega) (by omega) (by rw [show k + 1 + 2 = k + 3 by ring]; exact hne)]
        unfold rightT
        rw [if_neg ham, e1 _ _ (by omega)]
      rw [eN]
      split
      · rfl
      · rw [bulgeT_low h hw (by omega) ha ‹_›]

/-- The zero pattern after the step, whether or not the subdiagonal element in column `k` is set to zero. -/
theorem Shape.step (h : Shape lo hi kt kb k T) (hw : InBlk lo hi kt kb k v3)
    (hcol : kt ≤ k → bulgeT k v2 v3 t T (k + 2) k = 0 ∧ (k + 3 ≤ kb → bulgeT k v2 v3 t T (k + 3) k = 0)) {T' : ℤ → ℤ → ℝ}
    (hT' : ∀ a b, lo ≤ a → a ≤ hi → lo ≤ b → b ≤ hi → T' a b = bulgeT k v2 v3 t T a b ∨ (T' a b = 0 ∧ a = k + 1 ∧ b = k ∧ kt ≤ k)) :
    Shape lo hi kt kb (k + 1) T' := by
  obtain ⟨w1, w2, w3, w4⟩ := id hw
  refine ⟨?_, ?_, ?_⟩
  · intro a b b1 hba ai hn
    rcases hT' a b (by omega) ai b1 (by omega) with e | e
    · rw [e]
      by_cases hbk : b < k ∨ (b = k ∧ k < kt)
      · rw [bulgeT_left h hw b1 hbk]
        exact h.hess a b b1 hba ai (by omega)
      · by_cases hbe : b = k
        · subst hbe
          obtain ⟨c2, c3⟩ := hcol (by omega)
          by_cases a2 : a = b + 2
          · rw [a2]; exact c2
          · by_cases a3 : a = b + 3
            · subst a3
              by_cases h3 : b + 3 ≤ kb
              · exact c3 h3
              · rw [bulgeT_low h hw (Or.inr (by omega)) ai (by omega)]
                exact h.below (by omega) ai b1 (by omega)
            · rw [bulgeT_col]
              unfold houseL
              rw [house_ne _ (by omega) (by omega) (Or.inl (by omega))]
              exact h.hess _ _ b1 hba ai (by omega)
        · by_cases h4 : a = k + 4 ∧ a ≤ kb
          · exfalso; omega
          · rw [bulgeT_low h hw (by omega) ai h4]
            exact h.hess _ _ b1 hba ai (by omega)
    · exact e.1
  · intro hl
    rcases hT' kt (kt - 1) (by omega) (by omega) (by omega) (by omega) with e | e
    · rw [e, bulgeT_left h hw (by omega) (by omega)]
      exact h.top hl
    · exact e.1
  · intro hl
    rcases hT' (kb + 1) kb (by omega) (by omega) (by omega) (by omega) with e | e
    · rw [e, bulgeT_low h hw (Or.inr (by omega)) (by omega) (by omega)]
      exact h.bot hl
    · exact e.1

/-- Subdiagonal entries below the bulge are not changed. -/
theorem bulgeT_sub (h : Shape lo hi kt kb k T) (hw : InBlk lo hi kt kb k v3) {j : ℤ} (hj : k + 4 ≤ j) (hj2 : j < kb) :
    bulgeT k v2 v3 t T (j + 1) j = T (j + 1) j := by
  obtain ⟨w1, w2, w3, w4⟩ := id hw
  exact bulgeT_low h hw (by omega) (by omega) (by omega)

end

/-! ### The orthogonal matrix -/

/-- The entries of the identity. -/
def idT (a b : ℤ) : ℝ := if a = b then 1 else 0

/-- The reflector of step `k` does not touch rows and columns outside `kt..kb`. -/
theorem outside_step {lo hi kt kb k : ℤ} {v2 v3 t : ℝ} (hw : InBlk lo hi kt kb k v3) {Q : ℤ → ℤ → ℝ}
    (hQ : ∀ a b, (a < kt ∨ kb < a) ∨ (b < kt ∨ kb < b) → Q a b = idT a b) (a b : ℤ) (hab : (a < kt ∨ kb < a) ∨ (b < kt ∨ kb < b)) :
    houseR (k + 1) v2 v3 t Q a b = idT a b := by
  obtain ⟨w1, w2, w3, w4⟩ := id hw
  by_cases hb : b < kt ∨ kb < b
  · have hne : b ≠ k + 3 ∨ v3 = 0 := by
      rcases w4 with w4 | w4
      · left; omega
      · exact Or.inr w4.2
    unfold houseR
    rw [house_ne _ (by omega) (by omega) (by rw [show k + 1 + 2 = k + 3 by ring]; exact hne)]
    exact hQ a b hab
  · have ha : a < kt ∨ kb < a := by tauto
    have z : ∀ b, kt ≤ b → b ≤ kb → Q a b = 0 := by
      intro b b1 b2
      rw [hQ a b (Or.inl ha)]
      unfold idT
      rw [if_neg (by omega)]
    unfold houseR
    rw [house_zero]
    · exact hQ a b hab
    · exact z _ (by omega) (by omega)
    · exact z _ (by omega) (by omega)
    · rcases w4 with w4 | w4
      · left; exact z _ (by omega) (by omega)
      · exact Or.inr w4.2

end Verif
