import Verif.Props.Gemm
import Verif.Props.TrmmF64
import Verif.Props.Nrm2F64
import Verif.Props.Qr5Z

/-!
# NaN in the factors of `dgemm` and `dtrmm` (C88)
-/

namespace Verif
open Spec F64

/-! ### Folds -/

theorem foldl_nan_keep {ι : Type} {f : Float → ι → Float} (hf : ∀ x i, x.isNaN = true → (f x i).isNaN = true) (l : List ι) {x : Float} (hx : x.isNaN = true) :
    (l.foldl f x).isNaN = true := by
  induction l generalizing x with
  | nil => exact hx
  | cons i l ih => exact ih (hf x i hx)

theorem foldl_nan_mem {ι : Type} {f : Float → ι → Float} (hf : ∀ x i, x.isNaN = true → (f x i).isNaN = true) {l : List ι} {k : ι} (hk : k ∈ l) (hk' : ∀ x, (f x k).isNaN = true) (x : Float) :
    (l.foldl f x).isNaN = true := by
  induction l generalizing x with
  | nil => cases hk
  | cons i l ih =>
    rcases List.mem_cons.1 hk with h | h
    · subst h
      exact foldl_nan_keep hf l (hk' x)
    · exact ih h _

theorem nan_ne_zero {x : Float} (h : x.isNaN = true) : (x ≠ᶠ (Scalar.zero : Float)) = true := by
  show (!Float.beq x _) = true
  rw [nan_beq _ h]; rfl

theorem nan_eq_false {x : Float} (y : Float) (h : x.isNaN = true) : (x =ᶠ y) = false := nan_beq _ h

/-! ### `dgemm` -/

theorem scaled_nan {beta c : Float} (h : (beta =ᶠ (Scalar.zero : Float)) = false) (hn : c.isNaN = true ∨ beta.isNaN = true) : (scaled beta c).isNaN = true := by
  unfold scaled
  rw [h]
  simp only [Bool.false_eq_true, if_false]
  rcases hn with hn | hn
  · split
    · exact hn
    · exact nan_mul _ hn
  · rw [nan_eq_false _ hn]
    exact mul_nan _ hn

theorem gemmEntry_nan {nota : Bool} {k : Nat} {alpha beta : Float} {x y : Nat → Float} {c : Float} (h0 : (alpha =ᶠ (Scalar.zero : Float)) = false)
    (h : (∃ l < k, (x l).isNaN = true ∨ (y l).isNaN = true ∨ alpha.isNaN = true) ∨ ((beta =ᶠ (Scalar.zero : Float)) = false ∧ (c.isNaN = true ∨ beta.isNaN = true))) :
    (gemmEntry nota k alpha beta x y c).isNaN = true := by
  unfold gemmEntry
  rw [h0]
  simp only [Bool.false_eq_true, false_or, if_false]
  split
  · rename_i hk
    rcases h with ⟨l, hl, -⟩ | ⟨hb, hn⟩
    · omega
    · rcases hn with hn | hn
      · exact hn
      · rw [nan_eq_false _ hn] at hk; simp at hk
  have stepA : ∀ acc l, acc.isNaN = true → (acc + alpha * y l * x l).isNaN = true := fun acc l h => nan_add _ h
  have stepB : ∀ acc l, acc.isNaN = true → (acc + x l * y l).isNaN = true := fun acc l h => nan_add _ h
  split
  · rcases h with ⟨l, hl, hn⟩ | ⟨hb, hn⟩
    · refine foldl_nan_mem stepA (List.mem_range.2 hl) (fun acc => add_nan _ ?_) _
      rcases hn with hn | hn | hn
      · exact mul_nan _ hn
      · exact nan_mul _ (mul_nan _ hn)
      · exact nan_mul _ (nan_mul _ hn)
    · exact foldl_nan_keep stepA _ (scaled_nan hb hn)
  · rcases h with ⟨l, hl, hn⟩ | ⟨hb, hn⟩
    · have ht : (alpha * (List.range k).foldl (fun acc l => acc + x l * y l) Scalar.zero).isNaN = true := by
        rcases hn with hn | hn | hn
        · exact mul_nan _ (foldl_nan_mem stepB (List.mem_range.2 hl) (fun acc => add_nan _ (nan_mul _ hn)) _)
        · exact mul_nan _ (foldl_nan_mem stepB (List.mem_range.2 hl) (fun acc => add_nan _ (mul_nan _ hn)) _)
        · exact nan_mul _ hn
      split
      · exact ht
      · exact nan_add _ ht
    · rw [hb]
      simp only [Bool.false_eq_true, if_false]
      rcases hn with hn | hn
      · exact add_nan _ (mul_nan _ hn)
      · exact add_nan _ (nan_mul _ hn)

/-- **C88 for `dgemm`.** On `f64`, with `alpha ≠ 0`: entry `(i, j)` of the result is NaN as soon as row `i` of `op(A)` or column `j` of `op(B)` holds a NaN, even where the other factor is zero, or,
with `beta ≠ 0`, the old entry is one. -/
theorem C88_dgemm_nan {ta tb : Char} (hta : TransFlag ta) (htb : TransFlag tb) (m n k : Nat) (alpha beta : Float) (a b c : List Float) (lda ldb ldc : Nat)
    (sa : Stored a lda (storedRows ta m k) (storedCols ta m k)) (sb : Stored b ldb (storedRows tb k n) (storedCols tb k n)) (sc : Stored c ldc m n)
    (h0 : (alpha =ᶠ (Scalar.zero : Float)) = false) :
    ∃ c', dgemm ta tb m n k alpha a lda b ldb beta c ldc = (pure c' : R (List Float)) ∧
      ∀ i < m, ∀ j < n,
        ((∃ l < k, (op ta (entry a lda) i l).isNaN = true ∨ (op tb (entry b ldb) l j).isNaN = true ∨ alpha.isNaN = true) ∨
          ((beta =ᶠ (Scalar.zero : Float)) = false ∧ ((entry c ldc i j).isNaN = true ∨ beta.isNaN = true))) →
        ∃ w, c'[i + j * ldc]? = some w ∧ w.isNaN = true := by
  obtain ⟨c', e, u⟩ := C24_dgemm hta htb m n k alpha beta a b c lda ldb ldc sa sb sc
  exact ⟨c', e, fun i hi j hj h => ⟨_, u.block i hi j hj, gemmEntry_nan h0 h⟩⟩

/-! ### `dtrmm` -/

section trmm
variable {alpha : Float} {ga : Int → Int → Float}

theorem diagMul_nan_left {nounit : Bool} {x : Float} (d : Float) (h : x.isNaN = true) : (diagMul nounit x d).isNaN = true := by
  unfold diagMul
  split
  · exact nan_mul _ h
  · exact h

theorem diagMul_nan_right (x : Float) {d : Float} (h : d.isNaN = true) : (diagMul true x d).isNaN = true := mul_nan _ h

theorem lnStep_keep {b : Int → Float} {i : Int} (acc : Float) (k : Int) (h : acc.isNaN = true) : (lnStep alpha ga b i acc k).isNaN = true := by
  unfold lnStep
  split
  · exact nan_add _ h
  · exact h

theorem rAcc_keep {c : Int → Float} {r : Int → Float} (acc : Float) (k : Int) (h : acc.isNaN = true) : (rAcc alpha (c k) r acc k).isNaN = true := by
  unfold rAcc
  split
  · exact nan_add _ h
  · exact h

/-- Side left, no transpose: rows `ks` after row `i`. -/
theorem lnFold_nan {nounit : Bool} {b : Int → Float} {i l : Int} {ks : List Int} (hl : l = i ∨ l ∈ ks)
    (h : (b l).isNaN = true ∨ ((b l ≠ᶠ (Scalar.zero : Float)) = true ∧ (ga i l).isNaN = true ∧ (nounit = false → l ≠ i))) :
    (ks.foldl (lnStep alpha ga b i) (lnStart nounit alpha ga b i)).isNaN = true := by
  have hz : (b l ≠ᶠ (Scalar.zero : Float)) = true := by
    rcases h with h | h
    · exact nan_ne_zero h
    · exact h.1
  by_cases e : l = i
  · subst e
    refine foldl_nan_keep (fun x i => lnStep_keep x i) ks ?_
    unfold lnStart
    rw [if_pos hz]
    rcases h with h | ⟨-, h, hu⟩
    · exact diagMul_nan_left _ (mul_nan _ h)
    · cases nounit
      · exact absurd rfl (hu rfl)
      · exact diagMul_nan_right _ h
  · refine foldl_nan_mem (fun x i => lnStep_keep x i) (hl.resolve_left e) (fun acc => ?_) _
    rw [lnStep_pos hz]
    rcases h with h | ⟨-, h, -⟩
    · exact add_nan _ (nan_mul _ (mul_nan _ h))
    · exact add_nan _ (mul_nan _ h)

/-- Side left, transpose. -/
theorem ltVal_nan {nounit : Bool} {b : Int → Float} {i l lo hi : Int} (hl : l = i ∨ l ∈ irange lo hi)
    (h : (b l).isNaN = true ∨ ((ga l i).isNaN = true ∧ (nounit = false → l ≠ i))) : (ltVal nounit alpha ga b lo hi i).isNaN = true := by
  unfold ltVal
  refine mul_nan _ ?_
  by_cases e : l = i
  · subst e
    refine foldl_nan_keep (fun x i h => nan_add _ h) _ ?_
    rcases h with h | ⟨h, hu⟩
    · exact diagMul_nan_left _ h
    · cases nounit
      · exact absurd rfl (hu rfl)
      · exact diagMul_nan_right _ h
  · refine foldl_nan_mem (fun x i h => nan_add _ h) (hl.resolve_left e) (fun acc => add_nan _ ?_) _
    rcases h with h | ⟨h, -⟩
    · exact mul_nan _ h
    · exact nan_mul _ h

/-- Side right: the coefficients are `c k`. -/
theorem r_nan {c : Int → Float} {r : Int → Float} {j l : Int} {ks : List Int} {start : Float} (hl : l = j ∨ l ∈ ks)
    (h : ((c l).isNaN = true ∧ l ≠ j) ∨ ((r l).isNaN = true ∧ l ≠ j ∧ (c l ≠ᶠ (Scalar.zero : Float)) = true) ∨ (l = j ∧ start.isNaN = true)) :
    (ks.foldl (fun acc k => rAcc alpha (c k) r acc k) start).isNaN = true := by
  have key : l ≠ j → (c l ≠ᶠ (Scalar.zero : Float)) = true → ((c l).isNaN = true ∨ (r l).isNaN = true) → (ks.foldl (fun acc k => rAcc alpha (c k) r acc k) start).isNaN = true := by
    intro e hz hn
    refine foldl_nan_mem (fun x i => rAcc_keep x i) (hl.resolve_left e) (fun acc => ?_) _
    unfold rAcc
    rw [if_pos hz]
    rcases hn with h | h
    · exact add_nan _ (nan_mul _ (mul_nan _ h))
    · exact add_nan _ (mul_nan _ h)
  rcases h with ⟨h, e⟩ | ⟨h, e, hz⟩ | ⟨-, h⟩
  · exact key e (nan_ne_zero h) (Or.inl h)
  · exact key e hz (Or.inr h)
  · exact foldl_nan_keep (fun x i => rAcc_keep x i) ks h

theorem rtStart_nan {nounit : Bool} {r : Int → Float} {j : Int} (h : (r j).isNaN = true ∨ (nounit = true ∧ (ga j j).isNaN = true)) : (rtStart nounit alpha ga r j).isNaN = true := by
  unfold rtStart
  rcases h with h | ⟨rfl, h⟩
  · split
    · exact mul_nan _ h
    · exact h
  · have hd := diagMul_nan_right alpha h
    rw [nan_eq_false _ hd]
    simp only [Bool.not_false, if_true]
    exact nan_mul _ hd

theorem rnStart_nan {nounit : Bool} {r : Int → Float} {j : Int} (h : (r j).isNaN = true ∨ (nounit = true ∧ (ga j j).isNaN = true)) :
    (diagMul nounit alpha (ga j j) * r j).isNaN = true := by
  rcases h with h | ⟨rfl, h⟩
  · exact mul_nan _ h
  · exact nan_mul _ (diagMul_nan_right alpha h)

end trmm

/-- Which of the pairs `(t, x)` multiplied for an entry make it NaN: `t = (op T)(i, l)`, `x = B(l, j)` from the left, `t = (op T)(l, j)`, `x = B(i, l)` from the right. -/
def trmmNaN (left notrans used : Bool) (diagonal : Bool) (t x : Float) : Prop :=
  if left then x.isNaN = true ∨ (used = true ∧ t.isNaN = true ∧ (notrans = true → (x ≠ᶠ (Scalar.zero : Float)) = true))
  else (used = true ∧ t.isNaN = true) ∨ (x.isNaN = true ∧ (diagonal = false → (t ≠ᶠ (Scalar.zero : Float)) = true))

theorem trmmVal_nan (uplo : Char) (left notrans nounit : Bool) {m n : Nat} {alpha : Float} {ga gb : Int → Int → Float} {i j l : Int}
    (hl1 : 1 ≤ l) (hl2 : l ≤ if left then (m : Int) else n)
    (ht : if isUpper uplo then (if notrans = left then (if left then i ≤ l else j ≤ l) else (if left then l ≤ i else l ≤ j))
      else (if notrans = left then (if left then l ≤ i else l ≤ j) else (if left then i ≤ l else j ≤ l)))
    (h : trmmNaN left notrans (nounit || decide (l ≠ if left then i else j)) (decide (l = if left then i else j))
      (if left then (if notrans then ga i l else ga l i) else (if notrans then ga l j else ga j l)) (if left then gb l j else gb i l)) :
    (trmmVal left (isUpper uplo) notrans nounit m n alpha ga gb i j).isNaN = true := by
  unfold trmmVal
  unfold trmmNaN at h
  cases left <;> cases notrans <;> cases hu : isUpper uplo <;> simp only [hu, if_true, if_false, Bool.false_eq_true, reduceCtorEq] at ht h hl2 ⊢
  -- side right, transpose
  · refine r_nan (c := ga j) (l := l) (j := j) (by rw [List.mem_reverse, mem_irange]; omega) ?_
    by_cases e : l = j
    · subst e
      refine Or.inr (Or.inr ⟨rfl, rtStart_nan ?_⟩)
      rcases h with ⟨h1, h2⟩ | ⟨h1, -⟩
      · exact Or.inr ⟨by simpa using h1, h2⟩
      · exact Or.inl h1
    · rcases h with ⟨-, h2⟩ | ⟨h1, h2⟩
      · exact Or.inl ⟨h2, e⟩
      · exact Or.inr (Or.inl ⟨h1, e, h2 (by simpa using e)⟩)
  · refine r_nan (c := ga j) (l := l) (j := j) (by rw [mem_irange]; omega) ?_
    by_cases e : l = j
    · subst e
      refine Or.inr (Or.inr ⟨rfl, rtStart_nan ?_⟩)
      rcases h with ⟨h1, h2⟩ | ⟨h1, -⟩
      · exact Or.inr ⟨by simpa using h1, h2⟩
      · exact Or.inl h1
    · rcases h with ⟨-, h2⟩ | ⟨h1, h2⟩
      · exact Or.inl ⟨h2, e⟩
      · exact Or.inr (Or.inl ⟨h1, e, h2 (by simpa using e)⟩)
  -- side right, no transpose
  · refine r_nan (c := fun k => ga k j) (l := l) (j := j) (by rw [mem_irange]; omega) ?_
    by_cases e : l = j
    · subst e
      refine Or.inr (Or.inr ⟨rfl, rnStart_nan ?_⟩)
      rcases h with ⟨h1, h2⟩ | ⟨h1, -⟩
      · exact Or.inr ⟨by simpa using h1, h2⟩
      · exact Or.inl h1
    · rcases h with ⟨-, h2⟩ | ⟨h1, h2⟩
      · exact Or.inl ⟨h2, e⟩
      · exact Or.inr (Or.inl ⟨h1, e, h2 (by simpa using e)⟩)
  · refine r_nan (c := fun k => ga k j) (l := l) (j := j) (by rw [mem_irange]; omega) ?_
    by_cases e : l = j
    · subst e
      refine Or.inr (Or.inr ⟨rfl, rnStart_nan ?_⟩)
      rcases h with ⟨h1, h2⟩ | ⟨h1, -⟩
      · exact Or.inr ⟨by simpa using h1, h2⟩
      · exact Or.inl h1
    · rcases h with ⟨-, h2⟩ | ⟨h1, h2⟩
      · exact Or.inl ⟨h2, e⟩
      · exact Or.inr (Or.inl ⟨h1, e, h2 (by simpa using e)⟩)
  -- side left
  · refine ltVal_nan (l := l) (by rw [mem_irange]; omega) (h.imp id fun h => ⟨h.2.1, fun hn => ?_⟩)
    subst hn; simpa using h.1
  · refine ltVal_nan (l := l) (by rw [mem_irange]; omega) (h.imp id fun h => ⟨h.2.1, fun hn => ?_⟩)
    subst hn; simpa using h.1
  · refine lnFold_nan (l := l) (by rw [List.mem_reverse, mem_irange]; omega) (h.imp id fun h => ⟨h.2.2 trivial, h.2.1, fun hn => ?_⟩)
    subst hn; simpa using h.1
  · refine lnFold_nan (l := l) (by rw [mem_irange]; omega) (h.imp id fun h => ⟨h.2.2 trivial, h.2.1, fun hn => ?_⟩)
    subst hn; simpa using h.1

namespace Spec

/-- Position `(i, j)` of the stored matrix belongs to the named triangle, diagonal included. -/
def InTriangle (uplo : Char) (i j : Nat) : Prop := if isUpper uplo then i ≤ j else j ≤ i

end Spec

/-- The call of `dtrmm` on arrays, with `alpha ≠ 0` and a block that is not empty. -/
theorem dtrmm_val {F : Type} [Scalar F] {side uplo transa diag : Char} (h1 : SideFlag side) (h2 : UploFlag uplo) (h3 : TransFlag transa) (h4 : DiagFlag diag) {m n : Nat} {lda ldb : Int}
    (hla : max 1 (if isLeft side then (m : Int) else n) ≤ lda) (hlb : max 1 (m : Int) ≤ ldb) (hm : m ≠ 0) (hn : n ≠ 0) (alpha : F) (h0 : (alpha =ᶠ (Scalar.zero : F)) = false)
    (a b : FA F) (ra rb : Nat) (ha : a.rows = ra) (hb : b.rows = rb) (sa : Stored a.data ra (triOrder side m n) (triOrder side m n)) (sb : Stored b.data rb m n) :
    ∃ b' : FA F, dtrmm side uplo transa diag m n alpha a lda b ldb = pure (a, b') ∧
      Updated rb m n b.data b'.data (fun i j => trmmVal (isLeft side) (isUpper uplo) (noTrans transa) (!isUnit diag) m n alpha (ofList2 ra a.data) (ofList2 rb b.data)
        ((i : Int) + 1) ((j : Int) + 1)) := by
  obtain ⟨b', e, -, -, u⟩ := dtrmmFA_ok h1 h2 h3 h4 hla hlb hm hn alpha h0 a b ra rb ha hb sa sb
  refine ⟨b', ?_, u⟩
  unfold dtrmm
  show (dtrmmFA side uplo transa diag m n alpha a lda b ldb >>= _) = _
  rw [e]; rfl

section calls
variable {side uplo transa diag : Char} (h1 : SideFlag side) (h2 : UploFlag uplo) (h3 : TransFlag transa) (h4 : DiagFlag diag) {m n : Nat} {lda ldb : Int}
  (hla : max 1 (if isLeft side then (m : Int) else n) ≤ lda) (hlb : max 1 (m : Int) ≤ ldb)
include h1 h2 h3 h4 hla hlb

/-- **C88 for `dtrmm`, triangle on the left.** `B := alpha*op(T)*B` on `f64`, `alpha ≠ 0`. Position `(p, q)` of the triangle is the one that stands at `(i, l)` of `op(T)`. A NaN in `B(l, j)` always makes entry `(i, j)` NaN,
one in the triangle does so with a transpose, and without one if `B(l, j) ≠ 0`. -/
theorem C88_dtrmm_left_nan (hs : isLeft side = true) (alpha : Float) (h0 : (alpha =ᶠ (Scalar.zero : Float)) = false) (a b : FA Float) (ra rb : Nat) (ha : a.rows = ra) (hb : b.rows = rb)
    (sa : Stored a.data ra (triOrder side m n) (triOrder side m n)) (sb : Stored b.data rb m n) :
    ∃ b' : FA Float, dtrmm side uplo transa diag m n alpha a lda b ldb = pure (a, b') ∧
      ∀ i < m, ∀ j < n, ∀ l < m, ∀ p q, (p, q) = (if noTrans transa then (i, l) else (l, i)) → InTriangle uplo p q →
        ((entry b.data rb l j).isNaN = true ∨
          (InTri uplo diag p q ∧ (entry a.data ra p q).isNaN = true ∧ (noTrans transa = true → (entry b.data rb l j ≠ᶠ (Scalar.zero : Float)) = true))) →
        ∃ w, b'.data[i + j * rb]? = some w ∧ w.isNaN = true := by
  by_cases hq : m = 0 ∨ n = 0
  · refine ⟨b, C27_empty h1 h2 h3 h4 hla hlb hq _ a b, ?_⟩
    intro i hi j hj; omega
  obtain ⟨b', e, u⟩ := dtrmm_val h1 h2 h3 h4 hla hlb (by omega) (by omega) alpha h0 a b ra rb ha hb sa sb
  refine ⟨b', e, fun i hi j hj l hl p q hpq ht h => ⟨_, u.block i hi j hj, ?_⟩⟩
  rw [hs]
  refine trmmVal_nan uplo true (noTrans transa) _ (l := (l : Int) + 1) (by omega) (by simp only [if_true]; omega) ?_ ?_
  · unfold InTriangle at ht
    cases hn : noTrans transa <;> cases hu : isUpper uplo <;> simp [hn, hu] at hpq ht ⊢ <;> omega
  · unfold trmmNaN
    simp only [if_true]
    rw [entry_ofList2]
    refine h.imp id fun ⟨h5, h6, h7⟩ => ⟨?_, ?_, h7⟩
    · cases hd : isUnit diag
      · rfl
      · have := h5.2 hd
        cases hn : noTrans transa <;> simp [hn] at hpq ⊢ <;> omega
    · cases hn : noTrans transa <;> simp only [hn, if_true, if_false, Bool.false_eq_true, Prod.mk.injEq] at hpq ⊢ <;> rw [entry_ofList2, ← hpq.1, ← hpq.2] <;> exact h6

/-- **C88 for `dtrmm`, triangle on the right.** `B := alpha*B*op(T)` on `f64`, `alpha ≠ 0`. Position `(p, q)` of the triangle is the one that stands at `(l, j)` of `op(T)`. A NaN in the triangle always makes entry `(i, j)` NaN,
one in `B(i, l)` does so on the diagonal, `l = j`, and elsewhere if the element of the triangle is not zero. -/
theorem C88_dtrmm_right_nan (hs : isLeft side = false) (alpha : Float) (h0 : (alpha =ᶠ (Scalar.zero : Float)) = false) (a b : FA Float) (ra rb : Nat) (ha : a.rows = ra) (hb : b.rows = rb)
    (sa : Stored a.data ra (triOrder side m n) (triOrder side m n)) (sb : Stored b.data rb m n) :
    ∃ b' : FA Float, dtrmm side uplo transa diag m n alpha a lda b ldb = pure (a, b') ∧
      ∀ i < m, ∀ j < n, ∀ l < n, ∀ p q, (p, q) = (if noTrans transa then (l, j) else (j, l)) → InTriangle uplo p q →
        ((InTri uplo diag p q ∧ (entry a.data ra p q).isNaN = true) ∨
          ((entry b.data rb i l).isNaN = true ∧ (l ≠ j → (entry a.data ra p q ≠ᶠ (Scalar.zero : Float)) = true))) →
        ∃ w, b'.data[i + j * rb]? = some w ∧ w.isNaN = true := by
  by_cases hq : m = 0 ∨ n = 0
  · refine ⟨b, C27_empty h1 h2 h3 h4 hla hlb hq _ a b, ?_⟩
    intro i hi j hj; omega
  obtain ⟨b', e, u⟩ := dtrmm_val h1 h2 h3 h4 hla hlb (by omega) (by omega) alpha h0 a b ra rb ha hb sa sb
  refine ⟨b', e, fun i hi j hj l hl p q hpq ht h => ⟨_, u.block i hi j hj, ?_⟩⟩
  rw [hs]
  refine trmmVal_nan uplo false (noTrans transa) _ (l := (l : Int) + 1) (by omega) (by simp only [if_false, Bool.false_eq_true]; omega) ?_ ?_
  · unfold InTriangle at ht
    cases hn : noTrans transa <;> cases hu : isUpper uplo <;> simp [hn, hu] at hpq ht ⊢ <;> omega
  · have et : (if noTrans transa = true then ofList2 ra a.data ((l : Int) + 1) ((j : Int) + 1) else ofList2 ra a.data ((j : Int) + 1) ((l : Int) + 1)) = entry a.data ra p q := by
      cases hn : noTrans transa <;> simp only [hn, if_true, if_false, Bool.false_eq_true, Prod.mk.injEq] at hpq ⊢ <;> rw [entry_ofList2, ← hpq.1, ← hpq.2]
    unfold trmmNaN
    simp only [if_false, Bool.false_eq_true]
    rw [et, entry_ofList2]
    refine h.imp (fun ⟨h5, h6⟩ => ⟨?_, h6⟩) fun ⟨h5, h6⟩ => ⟨h5, fun hd => h6 (by simp at hd; omega)⟩
    cases hd : isUnit diag
    · rfl
    · have := h5.2 hd
      cases hn : noTrans transa <;> simp [hn] at hpq ⊢ <;> omega

/-- **C88.** What is lost on the left: without transpose, column `j` of the result depends on the triangle only through the elements that meet a nonzero entry of column `j` of `B`. Whatever stands elsewhere, NaN included, leaves no trace. -/
theorem C88_dtrmm_left_skips {F : Type} [Scalar F] (hs : isLeft side = true) (hn : noTrans transa = true) (alpha : F) (h0 : (alpha =ᶠ (Scalar.zero : F)) = false) (a a' b : FA F) (ra ra' rb : Nat) (ha : a.rows = ra) (ha' : a'.rows = ra') (hb : b.rows = rb)
    (sa : Stored a.data ra (triOrder side m n) (triOrder side m n)) (sa' : Stored a'.data ra' (triOrder side m n) (triOrder side m n)) (sb : Stored b.data rb m n) :
    ∃ b' b'' : FA F, dtrmm side uplo transa diag m n alpha a lda b ldb = pure (a, b') ∧ dtrmm side uplo transa diag m n alpha a' lda b ldb = pure (a', b'') ∧
      ∀ j < n, (∀ i < m, ∀ l < m, InTri uplo diag i l → (entry b.data rb l j ≠ᶠ (Scalar.zero : F)) = true → entry a.data ra i l = entry a'.data ra' i l) →
        ∀ i < m, b'.data[i + j * rb]? = b''.data[i + j * rb]? := by
  by_cases hq : m = 0 ∨ n = 0
  · have e := fun a => C27_empty (F := F) (A := FA F) (B := FA F) h1 h2 h3 h4 hla hlb hq alpha a b
    exact ⟨b, b, e a, e a', fun _ _ _ _ _ => rfl⟩
  obtain ⟨b', e, u⟩ := dtrmm_val h1 h2 h3 h4 hla hlb (by omega) (by omega) alpha h0 a b ra rb ha hb sa sb
  obtain ⟨b'', e', u'⟩ := dtrmm_val h1 h2 h3 h4 hla hlb (by omega) (by omega) alpha h0 a' b ra' rb ha' hb sa' sb
  refine ⟨b', b'', e, e', fun j hj h i hi => ?_⟩
  rw [u.block i hi j hj, u'.block i hi j hj]
  congr 1
  have key : ∀ l : Int, 1 ≤ l → l ≤ m → (ofList2 rb b.data l ((j : Int) + 1) ≠ᶠ (Scalar.zero : F)) = true → InTri uplo diag i (l - 1).toNat →
      ofList2 ra a.data ((i : Int) + 1) l = ofList2 ra' a'.data ((i : Int) + 1) l := by
    intro l g1 g2 g3 g4
    have := h i hi (l - 1).toNat (by omega) g4
    rw [← entry_ofList2, ← entry_ofList2, ← entry_ofList2, show (((l - 1).toNat : Int) + 1) = l by omega] at this
    exact this g3
  have hst : lnStart (!isUnit diag) alpha (ofList2 ra a.data) (fun x => ofList2 rb b.data x ((j : Int) + 1)) ((i : Int) + 1) =
      lnStart (!isUnit diag) alpha (ofList2 ra' a'.data) (fun x => ofList2 rb b.data x ((j : Int) + 1)) ((i : Int) + 1) := by
    unfold lnStart
    split
    · rename_i hz
      unfold diagMul
      cases hd : isUnit diag
      · simp only [Bool.not_false, if_true]
        rw [key ((i : Int) + 1) (by omega) (by omega) hz ⟨by split <;> omega, by rw [hd]; simp⟩]
      · rfl
    · rfl
  rw [hs, hn]
  unfold trmmVal
  simp only [if_true]
  rw [hst]
  cases hu : isUpper uplo <;> simp only [if_true, if_false, Bool.false_eq_true]
  · apply foldl_congr'
    intro s k hk
    rw [List.mem_reverse, mem_irange] at hk
    unfold lnStep
    split
    · rename_i hz
      rw [key k (by omega) (by omega) hz ⟨by rw [hu]; simp; omega, fun _ => by omega⟩]
    · rfl
  · apply foldl_congr'
    intro s k hk
    rw [mem_irange] at hk
    unfold lnStep
    split
    · rename_i hz
      rw [key k (by omega) (by omega) hz ⟨by rw [hu]; simp; omega, fun _ => by omega⟩]
    · rfl

/-- **C88.** What is lost on the right: entry `(i, j)` of the result depends on row `i` of `B` only through its own entry and those that meet a nonzero element of the triangle. -/
theorem C88_dtrmm_right_skips {F : Type} [Scalar F] (hs : isLeft side = false) (alpha : F) (h0 : (alpha =ᶠ (Scalar.zero : F)) = false) (a b c : FA F) (ra rb rc : Nat) (ha : a.rows = ra) (hb : b.rows = rb) (hc : c.rows = rc)
    (sa : Stored a.data ra (triOrder side m n) (triOrder side m n)) (sb : Stored b.data rb m n) (sc : Stored c.data rc m n) :
    ∃ b' c' : FA F, dtrmm side uplo transa diag m n alpha a lda b ldb = pure (a, b') ∧ dtrmm side uplo transa diag m n alpha a lda c ldb = pure (a, c') ∧
      ∀ i < m, ∀ j < n, entry b.data rb i j = entry c.data rc i j →
        (∀ l < n, ∀ p q, (p, q) = (if noTrans transa then (l, j) else (j, l)) → InTriangle uplo p q → p ≠ q → (entry a.data ra p q ≠ᶠ (Scalar.zero : F)) = true →
          entry b.data rb i l = entry c.data rc i l) →
        b'.data[i + j * rb]? = c'.data[i + j * rc]? := by
  by_cases hq : m = 0 ∨ n = 0
  · have e := fun b => C27_empty (F := F) (A := FA F) (B := FA F) h1 h2 h3 h4 hla hlb hq alpha a b
    exact ⟨b, c, e b, e c, fun _ _ _ _ => by omega⟩
  obtain ⟨b', e, u⟩ := dtrmm_val h1 h2 h3 h4 hla hlb (by omega) (by omega) alpha h0 a b ra rb ha hb sa sb
  obtain ⟨c', e', u'⟩ := dtrmm_val h1 h2 h3 h4 hla hlb (by omega) (by omega) alpha h0 a c ra rc ha hc sa sc
  refine ⟨b', c', e, e', fun i hi j hj hij h => ?_⟩
  rw [u.block i hi j hj, u'.block i hi j hj]
  congr 1
  rw [← entry_ofList2, ← entry_ofList2] at hij
  have key : ∀ k : Int, 1 ≤ k → k ≤ n → k ≠ (j : Int) + 1 → (if isUpper uplo = noTrans transa then k ≤ (j : Int) + 1 else (j : Int) + 1 ≤ k) →
      ((if noTrans transa then ofList2 ra a.data k ((j : Int) + 1) else ofList2 ra a.data ((j : Int) + 1) k) ≠ᶠ (Scalar.zero : F)) = true →
      ofList2 rb b.data ((i : Int) + 1) k = ofList2 rc c.data ((i : Int) + 1) k := by
    intro k g1 g2 g3 g4 g5
    have hk : (((k - 1).toNat : Int) + 1) = k := by omega
    cases hn : noTrans transa
    · have := h (k - 1).toNat (by omega) j (k - 1).toNat (by rw [hn]; rfl)
      rw [← entry_ofList2, ← entry_ofList2, ← entry_ofList2, hk] at this
      unfold InTriangle at this
      cases hu : isUpper uplo <;> simp only [hn, hu, if_true, if_false, Bool.false_eq_true, reduceCtorEq] at this g4 g5 <;>
        exact this (by omega) (by omega) g5
    · have := h (k - 1).toNat (by omega) (k - 1).toNat j (by rw [hn]; rfl)
      rw [← entry_ofList2, ← entry_ofList2, ← entry_ofList2, hk] at this
      unfold InTriangle at this
      cases hu : isUpper uplo <;> simp only [hn, hu, if_true, if_false, Bool.false_eq_true, reduceCtorEq] at this g4 g5 <;>
        exact this (by omega) (by omega) g5
  rw [hs]
  unfold trmmVal rnVal rtStart
  simp only [if_false, Bool.false_eq_true]
  rw [hij]
  cases hn : noTrans transa <;> cases hu : isUpper uplo <;> simp only [hn, hu, if_true, if_false, Bool.false_eq_true, reduceCtorEq] at key ⊢ <;>
    apply foldl_congr' <;> intro s k hk <;> simp only [List.mem_reverse, mem_irange] at hk <;> unfold rAcc <;> split
  all_goals first
    | rfl
    | (rename_i hz; rw [key k (by omega) (by omega) (by omega) (by omega) hz])

end calls

/-! ### Runs -/

/-- A NaN of the triangle that meets a zero of `B` without transpose: no trace of it; with a transpose, and in `dgemm`, both entries are NaN. -/
theorem C88_examples (pr : Profile) :
    ((dtrmm 'L' 'U' 'N' 'N' 2 1 (1 : Float) (⟨[1, 0, Scalar.nan, 1], 2, 2, 0⟩ : FA Float) 2 (⟨[1, 0], 2, 1, 0⟩ : FA Float) 2) pr).holds
      (fun r => r.2.data.all fun x => x.isFinite) = true ∧
    ((dtrmm 'L' 'L' 'T' 'N' 2 1 (1 : Float) (⟨[1, Scalar.nan, 0, 1], 2, 2, 0⟩ : FA Float) 2 (⟨[1, 0], 2, 1, 0⟩ : FA Float) 2) pr).holds
      (fun r => r.2.data.map (fun x => x.isNaN) == [true, false]) = true ∧
    ((dtrmm 'R' 'U' 'N' 'N' 1 2 (1 : Float) (⟨[1, 0, 0, 1], 2, 2, 0⟩ : FA Float) 2 (⟨[Scalar.nan, 1], 1, 2, 0⟩ : FA Float) 1) pr).holds
      (fun r => r.2.data.map (fun x => x.isNaN) == [true, false]) = true ∧
    ((dgemm 'N' 'N' 2 1 2 (1 : Float) ([1, 0, Scalar.nan, 1] : List Float) 2 ([1, 0] : List Float) 2 0 ([0, 0] : List Float) 2 : R (List Float)) pr).holds
      (fun r => r.map (fun x => x.isNaN) == [true, false]) = true := by
  refine ⟨?_, ?_, ?_, ?_⟩ <;> cases pr <;> decide +kernel

end Verif
