import Verif.Props.Monotone

/-!
# C111: transposed products and Gram matrices on binary64
-/

namespace Verif
open Float.Model F64 Scalar Spec

theorem dotF64_self {k : Nat} {x : Nat → Float} (hx : ∀ l < k, (x l).isFinite = true) : NNeg (dotF64 k x x) := by
  induction k with
  | zero => exact mo_zero.1
  | succ k ih =>
    have hs : dotF64 (k + 1) x x = dotF64 k x x + x k * x k := by
      unfold dotF64
      rw [List.range_succ, List.foldl_append]; rfl
    rw [hs]
    exact (ih fun l hl => hx l (by omega)).add (NNeg.of_rounds (mul_self_nonneg _) (mul_rounds _ _ (hx k (by omega)) (hx k (by omega))))

theorem gemmEntry_comm {nota : Bool} {k : Nat} {alpha beta : Float} (h : nota = false ∨ alpha = 1) {x y x' y' : Nat → Float} {c c' : Float}
    (hx : ∀ l < k, y' l = x l) (hy : ∀ l < k, x' l = y l) (hc : (beta =ᶠ (zero : Float)) = true ∨ c' = c) :
    gemmEntry nota k alpha beta x y c = gemmEntry nota k alpha beta x' y' c' := by
  have hs : scaled beta c = scaled beta c' := by
    rcases hc with hc | rfl
    · unfold scaled; rw [if_pos hc, if_pos hc]
    · rfl
  have hc1 : (beta =ᶠ (one : Float)) = true → c = c' := by
    intro h1
    rcases hc with hc | rfl
    · exfalso
      have h1 := (eq_toR (y := one) toR_one'.1 h1).2
      have h2 := (eq_toR (y := zero) toR_zero.1 hc).2
      rw [h2, toR_zero.2, toR_one'.2] at h1
      norm_num at h1
    · rfl
  have hd : (List.range k).foldl (fun acc l => acc + x l * y l) (zero : Float) = (List.range k).foldl (fun acc l => acc + x' l * y' l) zero := by
    refine List.foldl_ext _ _ _ fun acc l hl => ?_
    rw [hx l (List.mem_range.1 hl), hy l (List.mem_range.1 hl), F64.mul_comm']
  unfold gemmEntry
  by_cases hq : ((alpha =ᶠ (zero : Float)) = true ∨ k = 0) ∧ (beta =ᶠ (one : Float)) = true
  · rw [if_pos hq, if_pos hq]; exact hc1 hq.2
  rw [if_neg hq, if_neg hq]
  by_cases hz : (alpha =ᶠ (zero : Float)) = true
  · rw [if_pos hz, if_pos hz]; exact hs
  rw [if_neg hz, if_neg hz]
  rcases h with rfl | rfl
  · simp only [Bool.false_eq_true, if_false]
    rw [hd]
    by_cases hb : (beta =ᶠ (zero : Float)) = true
    · rw [if_pos hb, if_pos hb]
    · rw [if_neg hb, if_neg hb, hc.resolve_left hb]
  · cases nota
    · simp only [Bool.false_eq_true, if_false]
      rw [hd]
      by_cases hb : (beta =ᶠ (zero : Float)) = true
      · rw [if_pos hb, if_pos hb]
      · rw [if_neg hb, if_neg hb, hc.resolve_left hb]
    · rw [if_pos rfl, if_pos rfl, hs]
      refine List.foldl_ext _ _ _ fun acc l hl => ?_
      rw [hx l (List.mem_range.1 hl), hy l (List.mem_range.1 hl), one_mul', one_mul', F64.mul_comm']

/-- **C111.** A Gram matrix: let `op(B)` be the transpose of `op(A)`, for instance the same array with the opposite flag, and `C` symmetric or `beta` zero.  If `A` is given transposed, or
`alpha` is one, then `alpha·op(A)·op(B) + beta·C` as computed by `dgemm` on binary64 is symmetric bit for bit. -/
theorem C111_symmetric {ta tb : Char} (hta : TransFlag ta) (htb : TransFlag tb) (m k : Nat) (alpha beta : Float) (a b c : List Float) (lda ldb ldc : Nat)
    (sa : Stored a lda (storedRows ta m k) (storedCols ta m k)) (sb : Stored b ldb (storedRows tb k m) (storedCols tb k m)) (sc : Stored c ldc m m)
    (hal : noTrans ta = false ∨ alpha = 1)
    (hB : ∀ i < m, ∀ l < k, op tb (entry b ldb) l i = op ta (entry a lda) i l)
    (hC : (beta == 0) = true ∨ ∀ i < m, ∀ j < m, entry c ldc j i = entry c ldc i j) :
    ∃ r : List Float, dgemm ta tb m m k alpha a lda b ldb beta c ldc = (pure r : R (List Float)) ∧
      ∀ i < m, ∀ j < m, ∃ v, r[i + j * ldc]? = some v ∧ r[j + i * ldc]? = some v := by
  obtain ⟨r, e, u⟩ := C24_dgemm hta htb m m k alpha beta a b c lda ldb ldc sa sb sc
  refine ⟨r, e, fun i hi j hj => ⟨_, u.block i hi j hj, ?_⟩⟩
  rw [u.block j hj i hi]
  refine congrArg some (gemmEntry_comm hal (fun l hl => ?_) (fun l hl => ?_) (hC.imp_right fun h => h j hj i hi))
  · exact (hB j hj l hl).symm ▸ rfl
  · exact hB i hi l hl ▸ rfl

/-- **C111.** `C111_symmetric` for arrays. -/
theorem C111_symmetric_array {ta tb : Char} (hta : TransFlag ta) (htb : TransFlag tb) (m k : Nat) (alpha beta : Float) (a b c : FA Float) (lda ldb ldc : Int) (ra rb rc : Nat)
    (hla : max 1 (storedRows ta m k : Int) ≤ lda) (hlb : max 1 (storedRows tb k m : Int) ≤ ldb) (hlc : max 1 (m : Int) ≤ ldc) (ha : a.rows = ra) (hb : b.rows = rb) (hc : c.rows = rc)
    (sa : Stored a.data ra (storedRows ta m k) (storedCols ta m k)) (sb : Stored b.data rb (storedRows tb k m) (storedCols tb k m)) (sc : Stored c.data rc m m)
    (hal : noTrans ta = false ∨ alpha = 1)
    (hB : ∀ i < m, ∀ l < k, op tb (entry b.data rb) l i = op ta (entry a.data ra) i l)
    (hC : (beta == 0) = true ∨ ∀ i < m, ∀ j < m, entry c.data rc j i = entry c.data rc i j) :
    ∃ r : FA Float, dgemm ta tb m m k alpha a lda b ldb beta c ldc = (pure r : R (FA Float)) ∧
      ∀ i < m, ∀ j < m, ∃ v, r.data[i + j * rc]? = some v ∧ r.data[j + i * rc]? = some v := by
  obtain ⟨r, e, -, -, u⟩ := C24_dgemm_array hta htb m m k alpha beta a b c lda ldb ldc ra rb rc hla hlb hlc ha hb hc sa sb sc
  refine ⟨r, e, fun i hi j hj => ⟨_, u.block i hi j hj, ?_⟩⟩
  rw [u.block j hj i hi]
  refine congrArg some (gemmEntry_comm hal (fun l hl => ?_) (fun l hl => ?_) (hC.imp_right fun h => h j hj i hi))
  · exact (hB j hj l hl).symm ▸ rfl
  · exact hB i hi l hl ▸ rfl

/-- **C111.** `C111_symmetric` for nested vectors. -/
theorem C111_symmetric_nested {ta tb : Char} (hta : TransFlag ta) (htb : TransFlag tb) (m k : Nat) (alpha beta : Float) (a b c : List (List Float)) (lda ldb ldc : Int) (ra rb rc : Nat)
    (hla : max 1 (storedRows ta m k : Int) ≤ lda) (hlb : max 1 (storedRows tb k m : Int) ≤ ldb) (hlc : max 1 (m : Int) ≤ ldc) (ha : Rect a ra ra) (hb : Rect b rb rb) (hc : Rect c rc rc)
    (sa : Stored a.flatten ra (storedRows ta m k) (storedCols ta m k)) (sb : Stored b.flatten rb (storedRows tb k m) (storedCols tb k m)) (sc : Stored c.flatten rc m m)
    (hal : noTrans ta = false ∨ alpha = 1)
    (hB : ∀ i < m, ∀ l < k, op tb (entry b.flatten rb) l i = op ta (entry a.flatten ra) i l)
    (hC : (beta == 0) = true ∨ ∀ i < m, ∀ j < m, entry c.flatten rc j i = entry c.flatten rc i j) :
    ∃ r : List (List Float), dgemm ta tb m m k alpha a lda b ldb beta c ldc = (pure r : R (List (List Float))) ∧ Rect r rc rc ∧
      ∀ i < m, ∀ j < m, ∃ v, r.flatten[i + j * rc]? = some v ∧ r.flatten[j + i * rc]? = some v := by
  obtain ⟨r, e, q, u⟩ := C24_dgemm_nested hta htb m m k alpha beta a b c lda ldb ldc ra rb rc hla hlb hlc ha hb hc sa sb sc
  refine ⟨r, e, q, fun i hi j hj => ⟨_, u.block i hi j hj, ?_⟩⟩
  rw [u.block j hj i hi]
  refine congrArg some (gemmEntry_comm hal (fun l hl => ?_) (fun l hl => ?_) (hC.imp_right fun h => h j hj i hi))
  · exact (hB j hj l hl).symm ▸ rfl
  · exact hB i hi l hl ▸ rfl

/-- **C111.** The diagonal of `op(A)·op(A)ᵀ` is nonnegative on binary64 if `op(A)` is finite; it can be infinite but never `NaN`. -/
theorem C111_diagonal {ta tb : Char} (hta : TransFlag ta) (htb : TransFlag tb) (m k : Nat) (a b c : List Float) (lda ldb ldc : Nat)
    (sa : Stored a lda (storedRows ta m k) (storedCols ta m k)) (sb : Stored b ldb (storedRows tb k m) (storedCols tb k m)) (sc : Stored c ldc m m)
    (hB : ∀ i < m, ∀ l < k, op tb (entry b ldb) l i = op ta (entry a lda) i l) :
    ∃ r : List Float, dgemm ta tb m m k (1 : Float) a lda b ldb 0 c ldc = (pure r : R (List Float)) ∧
      ∀ i < m, (∀ l < k, (op ta (entry a lda) i l).isFinite = true) → ∃ v, r[i + i * ldc]? = some v ∧ (0 : Float) ≤ v := by
  obtain ⟨r, e, u⟩ := C95_dgemm_dot hta htb m m k a b c lda ldb ldc sa sb sc
  refine ⟨r, e, fun i hi hf => ⟨_, u.block i hi i hi, ?_⟩⟩
  rw [dotF64_congr (fun l _ => rfl) fun l hl => hB i hi l hl]
  rcases dotF64_self hf with h | h
  · exact (le_iff toR_zero.1 h.1).2 (by rw [toR_zero.2]; exact h.2)
  · exact Mo.le ⟨Or.inl ⟨toR_zero.1, toR_zero.2.ge⟩, Or.inl h⟩

/-- The same array with the opposite flag meets the hypothesis of `C111_symmetric`. -/
theorem C111_same_array {ta tb : Char} (h : noTrans ta = !noTrans tb) (a : List Float) (lda i l : Nat) : op tb (entry a lda) l i = op ta (entry a lda) i l := by
  unfold op
  rw [h]
  cases noTrans tb <;> rfl

/-- A case: `Aᵀ·A` for `A = ((0.1, 0.7), (-0.3, 1.1))`, symmetric with positive diagonal. -/
theorem C111_example (pr : Profile) :
    ((dgemm (F := Float) 'T' 'N' 2 2 2 1 [0.1, -0.3, 0.7, 1.1] 2 ([0.1, -0.3, 0.7, 1.1] : List Float) 2 0 ([7, 7, 7, 7] : List Float) 2 pr).val?.map fun r =>
      (decide (0 < r.getD 0 0), r.getD 1 0 == r.getD 2 7, decide (0 < r.getD 3 0))) = some (true, true, true) := by
  cases pr <;> decide +kernel

/-- **C111.** With `A` not transposed and `alpha` not one it can fail: `2.5·A·Aᵀ` for the column `A = (2.7, 0.6)` is not symmetric. -/
theorem C111_not_symmetric (pr : Profile) :
    ((dgemm (F := Float) 'N' 'T' 2 2 1 2.5 [2.7, 0.6] 2 ([2.7, 0.6] : List Float) 2 0 ([7, 7, 7, 7] : List Float) 2 pr).val?.map fun r => r.getD 1 0 == r.getD 2 0) = some false := by
  cases pr <;> decide +kernel

end Verif
