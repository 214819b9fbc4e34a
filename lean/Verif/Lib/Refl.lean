import Verif.Lib.Mat
import Verif.Model.Hqr

/-!
# What the reflector loops of `dlahqr` and `dlaqr5` compute, for any scalar type
-/

set_option linter.unusedSectionVars false

namespace Verif
open Scalar

variable {F : Type} [Scalar F]

/-- A loop over rows `lo..=hi`, each round rewriting one row from values of that row. -/
theorem lineLoop {ld L : Nat} {cols : Int} {lo hi : Int} {f : FA F → Int → R (FA F)}
    (E : (Int → Int → F) → Int → Int → F)
    (hf : ∀ i, lo ≤ i → i ≤ hi → ∀ c g, Is2 c ld cols L g →
      ∃ c', f c i = pure c' ∧
        Is2 c' ld cols L (fun i' j' => if i' = i then E g i j' else g i' j'))
    (hloc : ∀ i, lo ≤ i → i ≤ hi → ∀ g g', (∀ j, g i j = g' i j) → ∀ j, E g i j = E g' i j)
    {c : FA F} {g : Int → Int → F} (hc : Is2 c ld cols L g) :
    ∃ c', forUp lo hi c f = pure c' ∧
      Is2 c' ld cols L (fun i' j' => if lo ≤ i' ∧ i' ≤ hi then E g i' j' else g i' j') := by
  by_cases hlh : lo ≤ hi + 1
  · obtain ⟨c', h1, h2⟩ := forUp_inv (f := f) (P := fun i c =>
      Is2 c ld cols L (fun i' j' => if lo ≤ i' ∧ i' < i then E g i' j' else g i' j')) hlh
      (fun i c h1 h2 hP => by
        obtain ⟨c', e1, e2⟩ := hf i h1 h2 c _ hP
        refine ⟨c', e1, ?_⟩
        have : (fun i' j' => if lo ≤ i' ∧ i' < i + 1 then E g i' j' else g i' j') =
            fun i' j' => if i' = i then
              E (fun i' j' => if lo ≤ i' ∧ i' < i then E g i' j' else g i' j') i j'
              else (if lo ≤ i' ∧ i' < i then E g i' j' else g i' j') := by
          funext i' j'
          by_cases hj : i' = i
          · subst hj
            rw [if_pos ⟨h1, by omega⟩, if_pos rfl]
            apply hloc i' h1 h2
            intro j; beta_reduce; rw [if_neg (by omega)]
          · rw [if_neg hj]
            congr 1
            simp only [eq_iff_iff]
            constructor <;> rintro ⟨a, b⟩ <;> exact ⟨a, by omega⟩
        rw [this]; exact e2)
      (s := c) (by
        have : (fun i' j' => if lo ≤ i' ∧ i' < lo then E g i' j' else g i' j') = g := by
          funext i' j'; rw [if_neg (by omega)]
        rw [this]; exact hc)
    refine ⟨c', h1, ?_⟩
    have : (fun i' j' => if lo ≤ i' ∧ i' ≤ hi then E g i' j' else g i' j') =
        (fun i' j' => if lo ≤ i' ∧ i' < hi + 1 then E g i' j' else g i' j') := by
      funext i' j'
      congr 1
      simp only [Int.lt_add_one_iff]
    rw [this]; exact h2
  · refine ⟨c, forUp_empty (by omega) _ _, ?_⟩
    have : (fun i' j' => if lo ≤ i' ∧ i' ≤ hi then E g i' j' else g i' j') = g := by
      funext i' j'; rw [if_neg (by omega)]
    rw [this]; exact hc

/-- The vector `x` after a three-element reflector at positions `r1`, `r2`, `r3`. -/
def refl3 (r1 r2 r3 : Int) (v2 v3 t1 t2 t3 : F) (x : Int → F) (i : Int) : F :=
  let sum := x r1 + v2 * x r2 + v3 * x r3
  if i = r3 then x r3 - sum * t3 else if i = r2 then x r2 - sum * t2 else if i = r1 then x r1 - sum * t1 else x i

/-- The vector `x` after a two-element reflector at positions `r1`, `r2`. -/
def refl2 (r1 r2 : Int) (v2 t1 t2 : F) (x : Int → F) (i : Int) : F :=
  let sum := x r1 + v2 * x r2
  if i = r2 then x r2 - sum * t2 else if i = r1 then x r1 - sum * t1 else x i

variable {ld L : Nat} {cols : Int} {a : FA F} {g : Int → Int → F}

theorem refl3Rows_ok {lo hi r1 r2 r3 : Int} (v2 v3 t1 t2 t3 : F) (ha : Is2 a ld cols L g) (hL : L < 2 ^ 31)
    (h12 : r1 ≠ r2) (h13 : r1 ≠ r3) (h23 : r2 ≠ r3)
    (hc : ∀ j, lo ≤ j → j ≤ hi → Cell ld L r1 j ∧ Cell ld L r2 j ∧ Cell ld L r3 j) :
    ∃ a', refl3Rows lo hi r1 r2 r3 v2 v3 t1 t2 t3 a = pure a' ∧
      Is2 a' ld cols L fun i j => if lo ≤ j ∧ j ≤ hi then refl3 r1 r2 r3 v2 v3 t1 t2 t3 (fun i => g i j) i else g i j := by
  refine colLoop (E := fun g i j => refl3 r1 r2 r3 v2 v3 t1 t2 t3 (fun i => g i j) i) ?_ ?_ ha
  · intro j h1 h2 c g hg
    obtain ⟨c1, c2, c3⟩ := hc j h1 h2
    obtain ⟨d1, e1, k1⟩ := set2_is2 hg c1 hL (g r1 j - (g r1 j + v2 * g r2 j + v3 * g r3 j) * t1)
    obtain ⟨d2, e2, k2⟩ := modify2_is2 k1 c2 hL (· - (g r1 j + v2 * g r2 j + v3 * g r3 j) * t2)
    obtain ⟨d3, e3, k3⟩ := modify2_is2 k2 c3 hL (· - (g r1 j + v2 * g r2 j + v3 * g r3 j) * t3)
    refine ⟨d3, ?_, ?_⟩
    · rw [get2_is2 hg c1 hL, get2_is2 hg c2 hL, get2_is2 hg c3 hL]
      simp only [pure_bind]
      rw [e1, pure_bind, e2, pure_bind, e3]
    · convert k3 using 1
      funext i' j'
      unfold refl3 upd2
      by_cases hj : j' = j
      · subst hj
        by_cases a3 : i' = r3
        · subst a3; simp [h13.symm, h23.symm]
        · by_cases a2 : i' = r2
          · subst a2; simp [h12.symm, a3]
          · by_cases a1 : i' = r1
            · subst a1; simp [a2, a3]
            · simp [a1, a2, a3]
      · simp [hj]
  · intro j h1 h2 g g' hgg i
    simp only [hgg]

theorem refl3Cols_ok {lo hi r1 r2 r3 : Int} (v2 v3 t1 t2 t3 : F) (ha : Is2 a ld cols L g) (hL : L < 2 ^ 31)
    (h12 : r1 ≠ r2) (h13 : r1 ≠ r3) (h23 : r2 ≠ r3)
    (hc : ∀ i, lo ≤ i → i ≤ hi → Cell ld L i r1 ∧ Cell ld L i r2 ∧ Cell ld L i r3) :
    ∃ a', refl3Cols lo hi r1 r2 r3 v2 v3 t1 t2 t3 a = pure a' ∧
      Is2 a' ld cols L fun i j => if lo ≤ i ∧ i ≤ hi then refl3 r1 r2 r3 v2 v3 t1 t2 t3 (g i) j else g i j := by
  refine lineLoop (E := fun g i j => refl3 r1 r2 r3 v2 v3 t1 t2 t3 (g i) j) ?_ ?_ ha
  · intro j h1 h2 c g hg
    obtain ⟨c1, c2, c3⟩ := hc j h1 h2
    obtain ⟨d1, e1, k1⟩ := set2_is2 hg c1 hL (g j r1 - (g j r1 + v2 * g j r2 + v3 * g j r3) * t1)
    obtain ⟨d2, e2, k2⟩ := modify2_is2 k1 c2 hL (· - (g j r1 + v2 * g j r2 + v3 * g j r3) * t2)
    obtain ⟨d3, e3, k3⟩ := modify2_is2 k2 c3 hL (· - (g j r1 + v2 * g j r2 + v3 * g j r3) * t3)
    refine ⟨d3, ?_, ?_⟩
    · rw [get2_is2 hg c1 hL, get2_is2 hg c2 hL, get2_is2 hg c3 hL]
      simp only [pure_bind]
      rw [e1, pure_bind, e2, pure_bind, e3]
    · convert k3 using 1
      funext i' j'
      unfold refl3 upd2
      by_cases hj : i' = j
      · subst hj
        by_cases a3 : j' = r3
        · subst a3; simp [h13.symm, h23.symm]
        · by_cases a2 : j' = r2
          · subst a2; simp [h12.symm, a3]
          · by_cases a1 : j' = r1
            · subst a1; simp [a2, a3]
            · simp [a1, a2, a3]
      · simp [hj]
  · intro i h1 h2 g g' hgg j
    have : g i = g' i := funext hgg
    simp only [this]

theorem refl2Rows_ok {lo hi r1 r2 : Int} (v2 t1 t2 : F) (ha : Is2 a ld cols L g) (hL : L < 2 ^ 31)
    (h12 : r1 ≠ r2) (hc : ∀ j, lo ≤ j → j ≤ hi → Cell ld L r1 j ∧ Cell ld L r2 j) :
    ∃ a', refl2Rows lo hi r1 r2 v2 t1 t2 a = pure a' ∧
      Is2 a' ld cols L fun i j => if lo ≤ j ∧ j ≤ hi then refl2 r1 r2 v2 t1 t2 (fun i => g i j) i else g i j := by
  refine colLoop (E := fun g i j => refl2 r1 r2 v2 t1 t2 (fun i => g i j) i) ?_ ?_ ha
  · intro j h1 h2 c g hg
    obtain ⟨c1, c2⟩ := hc j h1 h2
    obtain ⟨d1, e1, k1⟩ := set2_is2 hg c1 hL (g r1 j - (g r1 j + v2 * g r2 j) * t1)
    obtain ⟨d2, e2, k2⟩ := modify2_is2 k1 c2 hL (· - (g r1 j + v2 * g r2 j) * t2)
    refine ⟨d2, ?_, ?_⟩
    · rw [get2_is2 hg c1 hL, get2_is2 hg c2 hL]
      simp only [pure_bind]
      rw [e1, pure_bind, e2]
    · convert k2 using 1
      funext i' j'
      unfold refl2 upd2
      by_cases hj : j' = j
      · subst hj
        by_cases a2 : i' = r2
        · subst a2; simp [h12.symm]
        · by_cases a1 : i' = r1
          · subst a1; simp [a2]
          · simp [a1, a2]
      · simp [hj]
  · intro j h1 h2 g g' hgg i
    simp only [hgg]

theorem refl2Cols_ok {lo hi r1 r2 : Int} (v2 t1 t2 : F) (ha : Is2 a ld cols L g) (hL : L < 2 ^ 31)
    (h12 : r1 ≠ r2) (hc : ∀ i, lo ≤ i → i ≤ hi → Cell ld L i r1 ∧ Cell ld L i r2) :
    ∃ a', refl2Cols lo hi r1 r2 v2 t1 t2 a = pure a' ∧
      Is2 a' ld cols L fun i j => if lo ≤ i ∧ i ≤ hi then refl2 r1 r2 v2 t1 t2 (g i) j else g i j := by
  refine lineLoop (E := fun g i j => refl2 r1 r2 v2 t1 t2 (g i) j) ?_ ?_ ha
  · intro j h1 h2 c g hg
    obtain ⟨c1, c2⟩ := hc j h1 h2
    obtain ⟨d1, e1, k1⟩ := set2_is2 hg c1 hL (g j r1 - (g j r1 + v2 * g j r2) * t1)
    obtain ⟨d2, e2, k2⟩ := modify2_is2 k1 c2 hL (· - (g j r1 + v2 * g j r2) * t2)
    refine ⟨d2, ?_, ?_⟩
    · rw [get2_is2 hg c1 hL, get2_is2 hg c2 hL]
      simp only [pure_bind]
      rw [e1, pure_bind, e2]
    · convert k2 using 1
      funext i' j'
      unfold refl2 upd2
      by_cases hj : i' = j
      · subst hj
        by_cases a2 : j' = r2
        · subst a2; simp [h12.symm]
        · by_cases a1 : j' = r1
          · subst a1; simp [a2]
          · simp [a1, a2]
      · simp [hj]
  · intro i h1 h2 g g' hgg j
    have : g i = g' i := funext hgg
    simp only [this]

end Verif
