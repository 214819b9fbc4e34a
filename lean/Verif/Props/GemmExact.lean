import Verif.Lib.Exact

/-!
# `dgemm` in exact arithmetic (C20)
-/

namespace Verif
open Scalar Spec XR

/-- **C20.** In exact arithmetic `dgemm` computes `alpha*op(A)*op(B) + beta*C`. -/
theorem C20_dgemm {ta tb : Char} (hta : TransFlag ta) (htb : TransFlag tb) (m n k : Nat)
    (alpha beta : ℝ) (a b c : List ℝ) (lda ldb ldc : Nat)
    (sa : Stored (a.map fin) lda (storedRows ta m k) (storedCols ta m k))
    (sb : Stored (b.map fin) ldb (storedRows tb k n) (storedCols tb k n))
    (sc : Stored (c.map fin) ldc m n) :
    ∃ c' : List ℝ,
      dgemm ta tb m n k (fin alpha) (a.map fin) lda (b.map fin) ldb (fin beta) (c.map fin) ldc =
        pure (c'.map fin) ∧
      c'.length = c.length ∧
      (∀ i < m, ∀ j < n, c'[i + j * ldc]? = some
        (alpha * ∑ l ∈ Finset.range k, opR ta (mat a lda) i l * opR tb (mat b ldb) l j
          + beta * mat c ldc i j)) ∧
      (∀ p, ¬ InBlock ldc m n p → c'[p]? = c[p]?) := by
  obtain ⟨r, e, u⟩ := C24_dgemm hta htb m n k (fin alpha) (fin beta) _ _ _ lda ldb ldc sa sb sc
  obtain ⟨c', rfl, h⟩ := u.real (w := fun i j =>
    alpha * ∑ l ∈ Finset.range k, opR ta (mat a lda) i l * opR tb (mat b ldb) l j
      + beta * mat c ldc i j) (by
    intro i hi j hj
    rw [← gemmEntry_fin (noTrans ta), entry_map (stored_map sc i hi j hj)]
    have h1 : ∀ l < k, op ta (entry (a.map fin) lda) i l = fin (opR ta (mat a lda) i l) := by
      intro l hl
      unfold op opR
      have := stored_map sa
      unfold storedRows storedCols at this
      cases h : noTrans ta <;> simp only [h, if_true, if_false, Bool.false_eq_true] at this ⊢
      · exact entry_map (this l hl i hi)
      · exact entry_map (this i hi l hl)
    have h2 : ∀ l < k, op tb (entry (b.map fin) ldb) l j = fin (opR tb (mat b ldb) l j) := by
      intro l hl
      unfold op opR
      have := stored_map sb
      unfold storedRows storedCols at this
      cases h : noTrans tb <;> simp only [h, if_true, if_false, Bool.false_eq_true] at this ⊢
      · exact entry_map (this j hj l hl)
      · exact entry_map (this l hl j hj)
    exact gemmEntry_congr h1 h2)
  exact ⟨c', e, h⟩

end Verif
