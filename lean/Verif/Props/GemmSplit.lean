import Verif.Props.Gemm
import Verif.Props.Trmm
import Verif.Lib.F64Err
import Verif.Lib.F64Nrm2

/-!
# Splitting a product into blocks does not change the result of `dgemm` and `dtrmm` (C85)
-/

namespace Verif
open Scalar Spec

section generic
variable {F : Type} [Scalar F]

theorem entry_drop (v : List F) (o ld i j : Nat) {i' j' : Nat} (h : o + (i + j * ld) = i' + j' * ld) : entry (v.drop o) ld i j = entry v ld i' j' := by
  unfold entry
  rw [List.getD_eq_getElem?_getD, List.getD_eq_getElem?_getD, List.getElem?_drop, h]

theorem Spec.Stored.drop {v : List F} {ld r c : Nat} (h : Stored v ld r c) {r' c' i0 j0 : Nat} (hr : i0 + r' ≤ r) (hc : j0 + c' ≤ c) :
    Stored (v.drop (i0 + j0 * ld)) ld r' c' := by
  refine ⟨h.pos, by have := h.rows; omega, h.ldSmall, by rw [List.length_drop]; have := h.small; omega, fun i hi j hj => ?_⟩
  rw [List.length_drop]
  have := h.fits (i0 + i) (by omega) (j0 + j) (by omega)
  have e : i0 + i + (j0 + j) * ld = (i0 + j0 * ld) + (i + j * ld) := by ring
  omega

namespace Spec

/-- Position in the stored matrix of the first entry of the block of `op(X)` that starts at row `i` and column `j`. -/
def start (t : Char) (ld i j : Nat) : Nat := if noTrans t then i + j * ld else j + i * ld

end Spec

theorem op_drop (t : Char) (v : List F) (ld i0 j0 i j : Nat) :
    op t (entry (v.drop (start t ld i0 j0)) ld) i j = op t (entry v ld) (i0 + i) (j0 + j) := by
  unfold op start
  split
  · exact entry_drop v _ ld i j (by ring)
  · exact entry_drop v _ ld j i (by ring)

theorem stored_start {t : Char} {v : List F} {ld r c : Nat} (h : Stored v ld (storedRows t r c) (storedCols t r c)) {r' c' i0 j0 : Nat}
    (hr : i0 + r' ≤ r) (hc : j0 + c' ≤ c) : Stored (v.drop (start t ld i0 j0)) ld (storedRows t r' c') (storedCols t r' c') := by
  unfold start
  by_cases ht : noTrans t = true
  · simp only [storedRows, storedCols, ht, if_true] at h ⊢
    exact h.drop hr hc
  · simp only [storedRows, storedCols, ht, if_false, Bool.false_eq_true] at h ⊢
    exact h.drop hc hr

/-- **C85** (blocks of the result). In any arithmetic: computing only the block of `C` that starts at row `i0` and column `j0` (both from 0) by a call on the
corresponding rows of `op(A)` and columns of `op(B)` gives, bit by bit, what the whole call gives there. -/
theorem C85_dgemm_block {ta tb : Char} (hta : TransFlag ta) (htb : TransFlag tb) (m n k : Nat) (alpha beta : F) (a b c : List F) (lda ldb ldc : Nat)
    (sa : Stored a lda (storedRows ta m k) (storedCols ta m k)) (sb : Stored b ldb (storedRows tb k n) (storedCols tb k n)) (sc : Stored c ldc m n)
    (i0 j0 m' n' : Nat) (hm : i0 + m' ≤ m) (hn : j0 + n' ≤ n) :
    ∃ c' d', dgemm ta tb m n k alpha a lda b ldb beta c ldc = (pure c' : R (List F)) ∧
      dgemm ta tb m' n' k alpha (a.drop (start ta lda i0 0)) lda (b.drop (start tb ldb 0 j0)) ldb beta (c.drop (i0 + j0 * ldc)) ldc = (pure d' : R (List F)) ∧
      ∀ i < m', ∀ j < n', d'[i + j * ldc]? = c'[(i0 + i) + (j0 + j) * ldc]? := by
  obtain ⟨c', e1, u1⟩ := C24_dgemm hta htb m n k alpha beta a b c lda ldb ldc sa sb sc
  obtain ⟨d', e2, u2⟩ := C24_dgemm hta htb m' n' k alpha beta (a.drop (start ta lda i0 0)) (b.drop (start tb ldb 0 j0)) (c.drop (i0 + j0 * ldc)) lda ldb ldc
    (stored_start sa hm (by omega)) (stored_start sb (by omega) hn) (sc.drop hm hn)
  refine ⟨c', d', e1, e2, fun i hi j hj => ?_⟩
  rw [u1.block (i0 + i) (by omega) (j0 + j) (by omega), u2.block i hi j hj]
  simp only [op_drop, Nat.zero_add, entry_drop c (i0 + j0 * ldc) ldc i j (i' := i0 + i) (j' := j0 + j) (by ring)]

/-- **C85** (transposed storage of `B`). In any arithmetic: passing `B` stored by rows with the transposition flag gives, bit by bit, the same result as
passing it stored by columns without. -/
theorem C85_dgemm_transposed_b {ta : Char} (hta : TransFlag ta) (m n k : Nat) (alpha beta : F) (a b b' c : List F) (lda ldb ldb' ldc : Nat)
    (sa : Stored a lda (storedRows ta m k) (storedCols ta m k)) (sb : Stored b ldb k n) (sb' : Stored b' ldb' n k) (sc : Stored c ldc m n)
    (hb : ∀ l < k, ∀ j < n, b'[j + l * ldb']? = b[l + j * ldb]?) :
    ∃ c', dgemm ta 'N' m n k alpha a lda b ldb beta c ldc = (pure c' : R (List F)) ∧
      dgemm ta 'T' m n k alpha a lda b' ldb' beta c ldc = (pure c' : R (List F)) := by
  obtain ⟨c', e1, u1⟩ := C24_dgemm hta (tb := 'N') (by unfold TransFlag; decide) m n k alpha beta a b c lda ldb ldc sa sb sc
  obtain ⟨d', e2, u2⟩ := C24_dgemm hta (tb := 'T') (by unfold TransFlag; decide) m n k alpha beta a b' c lda ldb' ldc sa sb' sc
  have hfold : ∀ (f g : F → Nat → F) (s : F), (∀ s, ∀ l < k, f s l = g s l) → (List.range k).foldl f s = (List.range k).foldl g s := by
    intro f g s h
    have : ∀ (l : List Nat) (s : F), (∀ x ∈ l, x < k) → l.foldl f s = l.foldl g s := by
      intro l
      induction l with
      | nil => intro s _; rfl
      | cons x l ih => intro s hx; rw [List.foldl_cons, List.foldl_cons, h s x (hx x (by simp))]; exact ih _ fun y hy => hx y (by simp [hy])
    exact this _ s fun x hx => List.mem_range.1 hx
  have he : ∀ i < m, ∀ j < n, ∀ l < k, op 'T' (entry b' ldb') l j = op 'N' (entry b ldb) l j := by
    intro i _ j hj l hl
    unfold op entry
    rw [if_neg (by decide), if_pos (by decide), List.getD_eq_getElem?_getD, List.getD_eq_getElem?_getD, hb l hl j hj]
  have : d' = c' := by
    apply List.ext_getElem?
    intro p
    by_cases hp : InBlock ldc m n p
    · obtain ⟨i, hi, j, hj, rfl⟩ := hp
      rw [u1.block i hi j hj, u2.block i hi j hj]
      congr 1
      unfold gemmEntry
      rw [hfold (fun acc l => acc + alpha * op 'T' (entry b' ldb') l j * op ta (entry a lda) i l) (fun acc l => acc + alpha * op 'N' (entry b ldb) l j * op ta (entry a lda) i l)
          _ (fun s l hl => by simp only [he i hi j hj l hl]),
        hfold (fun acc l => acc + op ta (entry a lda) i l * op 'T' (entry b' ldb') l j) (fun acc l => acc + op ta (entry a lda) i l * op 'N' (entry b ldb) l j)
          _ (fun s l hl => by simp only [he i hi j hj l hl])]
    · rw [u1.frame p hp, u2.frame p hp]
  exact ⟨c', e1, this ▸ e2⟩

theorem gemmEntry_split (h01 : ∀ x : F, (x =ᶠ zero) = true → (x =ᶠ one) = false) (h11 : ((one : F) =ᶠ one) = true) (k1 k2 : Nat) (alpha beta : F)
    (x y : Nat → F) (c : F) :
    gemmEntry true k2 alpha one (fun l => x (k1 + l)) (fun l => y (k1 + l)) (gemmEntry true k1 alpha beta x y c) = gemmEntry true (k1 + k2) alpha beta x y c := by
  have h10 : ((one : F) =ᶠ zero) = false := by
    cases h : ((one : F) =ᶠ zero) with
    | false => rfl
    | true => have := h01 one h; rw [h11] at this; cases this
  have sc1 : ∀ c : F, scaled one c = c := fun c => by unfold scaled; simp [h10, h11]
  have sb : (beta =ᶠ one) = true → scaled beta c = c := fun h => by
    unfold scaled
    have : (beta =ᶠ zero) = false := by
      cases h' : (beta =ᶠ zero) with
      | false => rfl
      | true => have := h01 beta h'; rw [h] at this; cases this
    simp [h, this]
  have inner : ∀ k (x y : Nat → F), (alpha =ᶠ zero) = false → gemmEntry true k alpha beta x y c = (List.range k).foldl (fun acc l => acc + alpha * y l * x l) (scaled beta c) := by
    intro k x y ha
    unfold gemmEntry
    rw [ha]
    by_cases hk : k = 0 ∧ (beta =ᶠ one) = true
    · simp [hk.1, hk.2, sb hk.2]
    · rw [if_neg (by simpa using hk)]; simp
  cases ha : (alpha =ᶠ zero) with
  | true =>
    unfold gemmEntry
    simp [ha, h11]
  | false =>
    rw [inner k1 x y ha, inner (k1 + k2) x y ha]
    unfold gemmEntry
    rw [ha, sc1, List.range_add, List.foldl_append, List.foldl_map]
    by_cases hk : k2 = 0
    · simp [hk, h11]
    · rw [if_neg (by simp [hk])]; simp

/-- **C85** (splitting the sum). In any arithmetic that tells `0` and `1` apart, if `A` is not transposed: accumulating the first `k1` terms of every inner product
with one call and the other `k2` with a second call with `beta = 1` gives, bit by bit, the result of a single call. -/
theorem C85_dgemm_split_k (h01 : ∀ x : F, (x =ᶠ zero) = true → (x =ᶠ one) = false) (h11 : ((one : F) =ᶠ one) = true)
    {ta tb : Char} (hta : TransFlag ta) (hN : noTrans ta = true) (htb : TransFlag tb) (m n k1 k2 : Nat) (alpha beta : F) (a b c : List F) (lda ldb ldc : Nat)
    (sa : Stored a lda m (k1 + k2)) (sb : Stored b ldb (storedRows tb (k1 + k2) n) (storedCols tb (k1 + k2) n)) (sc : Stored c ldc m n) :
    ∃ c1 c' : List F, dgemm ta tb m n ((k1 + k2 : Nat) : Int) alpha a lda b ldb beta c ldc = (pure c' : R (List F)) ∧
      dgemm ta tb m n k1 alpha a lda b ldb beta c ldc = (pure c1 : R (List F)) ∧
      dgemm ta tb m n k2 alpha (a.drop (k1 * lda)) lda (b.drop (start tb ldb k1 0)) ldb one c1 ldc = (pure c' : R (List F)) := by
  have hrc : ∀ k, storedRows ta m k = m ∧ storedCols ta m k = k := fun k => by unfold storedRows storedCols; simp [hN]
  have sA : ∀ k' o, o + k' ≤ k1 + k2 → Stored (a.drop (o * lda)) lda (storedRows ta m k') (storedCols ta m k') := by
    intro k' o ho
    rw [(hrc k').1, (hrc k').2]
    have := sa.drop (i0 := 0) (j0 := o) (r' := m) (c' := k') (by omega) ho
    rwa [Nat.zero_add] at this
  obtain ⟨c', e0, u0⟩ := C24_dgemm hta htb m n (k1 + k2) alpha beta a b c lda ldb ldc (by have := sA (k1 + k2) 0 (by omega); simpa using this) sb sc
  obtain ⟨c1, e1, u1⟩ := C24_dgemm hta htb m n k1 alpha beta a b c lda ldb ldc (by have := sA k1 0 (by omega); simpa using this)
    (by have := stored_start sb (r' := k1) (c' := n) (i0 := 0) (j0 := 0) (by omega) (by omega); simpa [start] using this) sc
  have sc1 : Stored c1 ldc m n := ⟨sc.pos, sc.rows, sc.ldSmall, by rw [u1.length]; exact sc.small, by rw [u1.length]; exact sc.fits⟩
  obtain ⟨c2, e2, u2⟩ := C24_dgemm hta htb m n k2 alpha one (a.drop (k1 * lda)) (b.drop (start tb ldb k1 0)) c1 lda ldb ldc (sA k2 k1 (by omega))
    (stored_start sb (r' := k2) (c' := n) (i0 := k1) (j0 := 0) (by omega) (by omega)) sc1
  have : c2 = c' := by
    apply List.ext_getElem?
    intro p
    by_cases hp : InBlock ldc m n p
    · obtain ⟨i, hi, j, hj, rfl⟩ := hp
      rw [u0.block i hi j hj, u2.block i hi j hj]
      congr 1
      have ec : entry c1 ldc i j = gemmEntry (noTrans ta) k1 alpha beta (fun l => op ta (entry a lda) i l) (fun l => op tb (entry b ldb) l j) (entry c ldc i j) := by
        unfold entry
        rw [List.getD_eq_getElem?_getD, u1.block i hi j hj]
        rfl
      have ea : ∀ l, op ta (entry (a.drop (k1 * lda)) lda) i l = op ta (entry a lda) i (k1 + l) := by
        intro l
        have := op_drop ta a lda 0 k1 i l
        unfold start at this
        rw [if_pos hN, Nat.zero_add, Nat.zero_add] at this
        exact this
      have eb : ∀ l, op tb (entry (b.drop (start tb ldb k1 0)) ldb) l j = op tb (entry b ldb) (k1 + l) j := by
        intro l
        have := op_drop tb b ldb k1 0 l j
        rwa [Nat.zero_add] at this
      rw [ec]
      simp only [ea, eb]
      rw [hN]
      exact gemmEntry_split h01 h11 k1 k2 alpha beta (fun l => op ta (entry a lda) i l) (fun l => op tb (entry b ldb) l j) (entry c ldc i j)
    · rw [u0.frame p hp, u2.frame p hp, u1.frame p hp]
  exact ⟨c1, c', e0, e1, this ▸ e2⟩

/-! ### `dtrmm` -/

theorem trmmVal_left {upper notrans nounit : Bool} {m n n' : Int} {alpha : F} {ga gb gb' : Int → Int → F} {j j' : Int}
    (h : ∀ k, 1 ≤ k → k ≤ m → gb k j = gb' k j') {i : Int} (hi1 : 1 ≤ i) (hi2 : i ≤ m) :
    trmmVal true upper notrans nounit m n alpha ga gb i j = trmmVal true upper notrans nounit m n' alpha ga gb' i j' := by
  unfold trmmVal
  simp only [if_true]
  have hi := h i hi1 hi2
  cases notrans
  · simp only [Bool.false_eq_true, if_false]
    unfold ltVal
    cases upper <;> simp only [Bool.false_eq_true, if_false, if_true] <;> rw [hi] <;> congr 1 <;>
    · apply foldl_congr'
      intro s k hk
      rw [mem_irange] at hk
      rw [h k (by omega) (by omega)]
  · simp only [if_true]
    unfold lnStart
    cases upper <;> simp only [Bool.false_eq_true, if_false, if_true] <;> rw [hi]
    · apply foldl_congr'
      intro s k hk
      rw [List.mem_reverse, mem_irange] at hk
      unfold lnStep
      beta_reduce
      rw [h k (by omega) (by omega)]
    · apply foldl_congr'
      intro s k hk
      rw [mem_irange] at hk
      unfold lnStep
      beta_reduce
      rw [h k (by omega) (by omega)]

theorem trmmVal_right {upper notrans nounit : Bool} {m m' n : Int} {alpha : F} {ga gb gb' : Int → Int → F} {i i' : Int}
    (h : ∀ k, 1 ≤ k → k ≤ n → gb i k = gb' i' k) {j : Int} (hj1 : 1 ≤ j) (hj2 : j ≤ n) :
    trmmVal false upper notrans nounit m n alpha ga gb i j = trmmVal false upper notrans nounit m' n alpha ga gb' i' j := by
  unfold trmmVal
  simp only [Bool.false_eq_true, if_false]
  have hj := h j hj1 hj2
  cases notrans
  · simp only [Bool.false_eq_true, if_false]
    unfold rtStart
    cases upper <;> simp only [Bool.false_eq_true, if_false, if_true] <;> rw [hj]
    · apply foldl_congr'
      intro s k hk
      rw [List.mem_reverse, mem_irange] at hk
      unfold rAcc
      rw [h k (by omega) (by omega)]
    · apply foldl_congr'
      intro s k hk
      rw [mem_irange] at hk
      unfold rAcc
      rw [h k (by omega) (by omega)]
  · simp only [if_true]
    unfold rnVal
    cases upper <;> simp only [Bool.false_eq_true, if_false, if_true] <;> rw [hj] <;>
    · apply foldl_congr'
      intro s k hk
      rw [mem_irange] at hk
      unfold rAcc
      rw [h k (by omega) (by omega)]

theorem dtrmm_updated {side uplo transa diag : Char} (h1 : SideFlag side) (h2 : UploFlag uplo) (h3 : TransFlag transa) (h4 : DiagFlag diag) {m n : Nat} {lda ldb : Int}
    (hla : max 1 (if isLeft side then (m : Int) else n) ≤ lda) (hlb : max 1 (m : Int) ≤ ldb) (hm : m ≠ 0) (hn : n ≠ 0)
    (alpha : F) (a b : FA F) (ra rb : Nat) (ha : a.rows = ra) (hb : b.rows = rb)
    (sa : Stored a.data ra (triOrder side m n) (triOrder side m n)) (sb : Stored b.data rb m n) :
    ∃ b' : FA F, dtrmm side uplo transa diag m n alpha a lda b ldb = pure (a, b') ∧
      Updated rb m n b.data b'.data (fun i j => if alpha =ᶠ zero then zero else trmmVal (isLeft side) (isUpper uplo)
        (noTrans transa) (!isUnit diag) m n alpha (ofList2 ra a.data) (ofList2 rb b.data) ((i : Int) + 1) ((j : Int) + 1)) := by
  cases h0 : (alpha =ᶠ zero) with
  | true =>
    obtain ⟨b', e, r, c, u⟩ := C27_alpha_zero h1 h2 h3 h4 hla hlb alpha h0 b rb hb sb
    exact ⟨b', e a, by simpa using u⟩
  | false =>
    obtain ⟨b', e, r, c, u⟩ := dtrmmFA_ok h1 h2 h3 h4 hla hlb hm hn alpha h0 a b ra rb ha hb sa sb
    refine ⟨b', ?_, by simpa using u⟩
    unfold dtrmm
    show (dtrmmFA side uplo transa diag m n alpha a lda b ldb >>= _) = _
    rw [e]; rfl

/-- **C85** (`dtrmm` by columns). In any arithmetic: with `A` on the left, a column of the result depends on the same column of `B` alone; if column `j` of `B` and
column `j'` of another matrix, with any number of columns, agree, so do, bit by bit, the results. -/
theorem C85_dtrmm_column {side uplo transa diag : Char} (h1 : SideFlag side) (hL : isLeft side = true) (h2 : UploFlag uplo) (h3 : TransFlag transa) (h4 : DiagFlag diag)
    {m n n' : Nat} {lda ldb ldb' : Int} (hla : max 1 (m : Int) ≤ lda) (hlb : max 1 (m : Int) ≤ ldb) (hlb' : max 1 (m : Int) ≤ ldb')
    (alpha : F) (a b d : FA F) (ra rb rd : Nat) (ha : a.rows = ra) (hb : b.rows = rb) (hd : d.rows = rd)
    (sa : Stored a.data ra m m) (sb : Stored b.data rb m n) (sd : Stored d.data rd m n') (j j' : Nat) (hj : j < n) (hj' : j' < n')
    (hcol : ∀ i < m, d.data[i + j' * rd]? = b.data[i + j * rb]?) :
    ∃ b' d' : FA F, dtrmm side uplo transa diag m n alpha a lda b ldb = pure (a, b') ∧ dtrmm side uplo transa diag m n' alpha a lda d ldb' = pure (a, d') ∧
      ∀ i < m, d'.data[i + j' * rd]? = b'.data[i + j * rb]? := by
  by_cases hm : m = 0
  · subst hm
    exact ⟨b, d, C27_empty h1 h2 h3 h4 (by simpa [hL] using hla) hlb (Or.inl rfl) alpha a b, C27_empty h1 h2 h3 h4 (by simpa [hL] using hla) hlb' (Or.inl rfl) alpha a d,
      fun i hi => absurd hi (by omega)⟩
  · obtain ⟨b', e1, u1⟩ := dtrmm_updated h1 h2 h3 h4 (by simpa [hL] using hla) hlb hm (by omega : n ≠ 0) alpha a b ra rb ha hb (by simpa [triOrder, hL] using sa) sb
    obtain ⟨d', e2, u2⟩ := dtrmm_updated h1 h2 h3 h4 (by simpa [hL] using hla) hlb' hm (by omega : n' ≠ 0) alpha a d ra rd ha hd (by simpa [triOrder, hL] using sa) sd
    refine ⟨b', d', e1, e2, fun i hi => ?_⟩
    rw [u1.block i hi j hj, u2.block i hi j' hj', hL]
    have hk : ∀ k : Int, 1 ≤ k → k ≤ m → ofList2 rd d.data k ((j' : Int) + 1) = ofList2 rb b.data k ((j : Int) + 1) := by
      intro k k1 k2
      have := hcol (k - 1).toNat (by omega)
      unfold ofList2
      rw [show ((j' : Int) + 1 - 1).toNat = j' by omega, show ((j : Int) + 1 - 1).toNat = j by omega, List.getD_eq_getElem?_getD, List.getD_eq_getElem?_getD, this]
    rw [trmmVal_left (n' := (n : Int)) hk (by omega) (by omega)]

/-- **C85** (`dtrmm` by rows). In any arithmetic: with `A` on the right, a row of the result depends on the same row of `B` alone. -/
theorem C85_dtrmm_row {side uplo transa diag : Char} (h1 : SideFlag side) (hR : isLeft side = false) (h2 : UploFlag uplo) (h3 : TransFlag transa) (h4 : DiagFlag diag)
    {m m' n : Nat} {lda ldb ldb' : Int} (hla : max 1 (n : Int) ≤ lda) (hlb : max 1 (m : Int) ≤ ldb) (hlb' : max 1 (m' : Int) ≤ ldb')
    (alpha : F) (a b d : FA F) (ra rb rd : Nat) (ha : a.rows = ra) (hb : b.rows = rb) (hd : d.rows = rd)
    (sa : Stored a.data ra n n) (sb : Stored b.data rb m n) (sd : Stored d.data rd m' n) (i i' : Nat) (hi : i < m) (hi' : i' < m')
    (hrow : ∀ j < n, d.data[i' + j * rd]? = b.data[i + j * rb]?) :
    ∃ b' d' : FA F, dtrmm side uplo transa diag m n alpha a lda b ldb = pure (a, b') ∧ dtrmm side uplo transa diag m' n alpha a lda d ldb' = pure (a, d') ∧
      ∀ j < n, d'.data[i' + j * rd]? = b'.data[i + j * rb]? := by
  by_cases hn : n = 0
  · subst hn
    exact ⟨b, d, C27_empty h1 h2 h3 h4 (by simpa [hR] using hla) hlb (Or.inr rfl) alpha a b, C27_empty h1 h2 h3 h4 (by simpa [hR] using hla) hlb' (Or.inr rfl) alpha a d,
      fun i hi => absurd hi (by omega)⟩
  · obtain ⟨b', e1, u1⟩ := dtrmm_updated h1 h2 h3 h4 (by simpa [hR] using hla) hlb (by omega : m ≠ 0) hn alpha a b ra rb ha hb (by simpa [triOrder, hR] using sa) sb
    obtain ⟨d', e2, u2⟩ := dtrmm_updated h1 h2 h3 h4 (by simpa [hR] using hla) hlb' (by omega : m' ≠ 0) hn alpha a d ra rd ha hd (by simpa [triOrder, hR] using sa) sd
    refine ⟨b', d', e1, e2, fun j hj => ?_⟩
    rw [u1.block i hi j hj, u2.block i' hi' j hj, hR]
    have hk : ∀ k : Int, 1 ≤ k → k ≤ n → ofList2 rd d.data ((i' : Int) + 1) k = ofList2 rb b.data ((i : Int) + 1) k := by
      intro k k1 k2
      have := hrow (k - 1).toNat (by omega)
      unfold ofList2
      rw [show ((i' : Int) + 1 - 1).toNat = i' by omega, show ((i : Int) + 1 - 1).toNat = i by omega, List.getD_eq_getElem?_getD, List.getD_eq_getElem?_getD, this]
    rw [trmmVal_right (m' := (m : Int)) hk (by omega) (by omega)]

/-- The hypotheses of the two statements on `dtrmm` are met: 2-by-2 times 2-by-2, with the second column, or the second row, alone. -/
example (a b : FA F) (ha : a.rows = 2 ∧ a.data.length = 4) (hb : b.rows = 2) (p q r s : F) (hd : b.data = [p, q, r, s]) (alpha : F) :
    (∃ b' d' : FA F, dtrmm 'L' 'U' 'N' 'N' 2 2 alpha a 2 b 2 = pure (a, b') ∧ dtrmm 'L' 'U' 'N' 'N' 2 1 alpha a 2 (⟨[r, s], 2, 1, zero⟩ : FA F) 2 = pure (a, d') ∧
      ∀ i < 2, d'.data[i + 0 * 2]? = b'.data[i + 1 * 2]?) ∧
    ∃ b' d' : FA F, dtrmm 'R' 'U' 'N' 'N' 2 2 alpha a 2 b 2 = pure (a, b') ∧ dtrmm 'R' 'U' 'N' 'N' 1 2 alpha a 2 (⟨[q, s], 1, 2, zero⟩ : FA F) 1 = pure (a, d') ∧
      ∀ j < 2, d'.data[0 + j * 1]? = b'.data[1 + j * 2]? := by
  have st : ∀ v : List F, v.length = 4 → Stored v 2 2 2 := fun v hv => ⟨by norm_num, by norm_num, by norm_num, by omega, fun i hi j hj => by omega⟩
  refine ⟨C85_dtrmm_column (side := 'L') (m := 2) (n := 2) (n' := 1) (by simp [SideFlag]) (by decide) (by simp [UploFlag]) (by simp [TransFlag]) (by simp [DiagFlag]) (by decide) (by decide) (by decide)
      alpha a b ⟨[r, s], 2, 1, zero⟩ 2 2 2 ha.1 hb rfl (st _ ha.2) (st _ (by rw [hd]; rfl)) ⟨by norm_num, by norm_num, by norm_num, by norm_num, fun i hi j hj => by simp; omega⟩ 1 0
      (by norm_num) (by norm_num) ?_,
    C85_dtrmm_row (side := 'R') (m := 2) (m' := 1) (n := 2) (by simp [SideFlag]) (by decide) (by simp [UploFlag]) (by simp [TransFlag]) (by simp [DiagFlag]) (by decide) (by decide) (by decide)
      alpha a b ⟨[q, s], 1, 2, zero⟩ 2 2 1 ha.1 hb rfl (st _ ha.2) (st _ (by rw [hd]; rfl)) ⟨by norm_num, by norm_num, by norm_num, by norm_num, fun i hi j hj => by simp; omega⟩ 1 0
      (by norm_num) (by norm_num) ?_⟩
  · intro i hi
    rw [hd]
    obtain rfl | rfl : i = 0 ∨ i = 1 := by omega
    all_goals rfl
  · intro i hi
    rw [hd]
    obtain rfl | rfl : i = 0 ∨ i = 1 := by omega
    all_goals rfl

end generic

section f64
open F64

theorem one_not_zero_f64 (x : Float) (h : (x =ᶠ (zero : Float)) = true) : (x =ᶠ (one : Float)) = false := by
  change Float.beq x 0 = true at h
  change Float.beq x 1 = false
  rw [beq_toXR, show toXR (0 : Float) = .fin 0 from rfl] at h
  rw [beq_toXR, show toXR (1 : Float) = .fin 1 from by rw [toXR_fin toR_one.1, toR_one.2]]
  cases hx : toXR x <;> rw [hx] at h <;> simp [XR.beq] at h ⊢
  rw [h]; norm_num

/-- **C85** (splitting the sum, binary64). -/
theorem C85_dgemm_split_k_f64 {ta tb : Char} (hta : TransFlag ta) (hN : noTrans ta = true) (htb : TransFlag tb) (m n k1 k2 : Nat) (alpha beta : Float)
    (a b c : List Float) (lda ldb ldc : Nat)
    (sa : Stored a lda m (k1 + k2)) (sb : Stored b ldb (storedRows tb (k1 + k2) n) (storedCols tb (k1 + k2) n)) (sc : Stored c ldc m n) :
    ∃ c1 c' : List Float, dgemm ta tb m n ((k1 + k2 : Nat) : Int) alpha a lda b ldb beta c ldc = (pure c' : R (List Float)) ∧
      dgemm ta tb m n k1 alpha a lda b ldb beta c ldc = (pure c1 : R (List Float)) ∧
      dgemm ta tb m n k2 alpha (a.drop (k1 * lda)) lda (b.drop (start tb ldb k1 0)) ldb 1 c1 ldc = (pure c' : R (List Float)) :=
  C85_dgemm_split_k one_not_zero_f64 (by decide +kernel) hta hN htb m n k1 k2 alpha beta a b c lda ldb ldc sa sb sc

/-- If `A` is transposed, splitting the sum can change the result: `1·1 + 2^-53·1 + 2^-53·1` in one call and in two. -/
theorem C85_split_transposed :
    (match dgemm (F := Float) 'T' 'N' 1 1 3 1 [1, Float.ofBits 0x3CA0000000000000, Float.ofBits 0x3CA0000000000000] 3 ([1, 1, 1] : List Float) 3 0 ([0] : List Float) 1 .release,
        dgemm (F := Float) 'T' 'N' 1 1 1 1 [1, Float.ofBits 0x3CA0000000000000, Float.ofBits 0x3CA0000000000000] 3 ([1, 1, 1] : List Float) 3 0 ([0] : List Float) 1 .release with
      | .ok c', .ok c1 =>
        (match dgemm (F := Float) 'T' 'N' 1 1 2 1 [Float.ofBits 0x3CA0000000000000, Float.ofBits 0x3CA0000000000000] 2 ([1, 1] : List Float) 2 1 c1 1 .release with
          | .ok c2 => (c'.head?.map (· == 1), c2.head?.map (· > 1))
          | _ => (none, none))
      | _, _ => (none, none)) = (some true, some true) := by decide +kernel

/-- The hypotheses are met by 2-by-2 matrices. -/
example (a b c : List Float) (ha : a.length = 4) (hb : b.length = 4) (hc : c.length = 4) :
    ∃ c1 c' : List Float, dgemm (F := Float) 'N' 'T' 2 2 ((1 + 1 : Nat) : Int) 2 a 2 b 2 3 c 2 = (pure c' : R (List Float)) ∧
      dgemm (F := Float) 'N' 'T' 2 2 1 2 a 2 b 2 3 c 2 = (pure c1 : R (List Float)) ∧
      dgemm (F := Float) 'N' 'T' 2 2 1 2 (a.drop 2) 2 (b.drop 2) 2 1 c1 2 = (pure c' : R (List Float)) := by
  have st : ∀ v : List Float, v.length = 4 → Stored v 2 2 2 := fun v hv => ⟨by norm_num, by norm_num, by norm_num, by omega, fun i hi j hj => by omega⟩
  exact C85_dgemm_split_k_f64 (ta := 'N') (tb := 'T') (by unfold TransFlag; decide) (by decide) (by unfold TransFlag; decide) 2 2 1 1 2 3 a b c 2 2 2 (st a ha) (st b hb) (st c hc)

end f64
end Verif
