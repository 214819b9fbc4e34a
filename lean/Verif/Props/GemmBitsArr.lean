import Verif.Props.GemmBits

/-!
# `dgemm` on binary64 with arrays and nested vectors (C95–C97)

The statements of `Verif.Props.GemmBits` for the two other containers.
-/

namespace Verif
open F64 Scalar Spec Finset

/-- **C95.** `C95_dgemm_dot` for an array. -/
theorem C95_dgemm_dot_array {ta tb : Char} (hta : TransFlag ta) (htb : TransFlag tb) (m n k : Nat) (a b c : FA Float) (lda ldb ldc : Int) (ra rb rc : Nat)
    (hla : max 1 (storedRows ta m k : Int) ≤ lda) (hlb : max 1 (storedRows tb k n : Int) ≤ ldb) (hlc : max 1 (m : Int) ≤ ldc)
    (ha : a.rows = ra) (hb : b.rows = rb) (hc : c.rows = rc)
    (sa : Stored a.data ra (storedRows ta m k) (storedCols ta m k)) (sb : Stored b.data rb (storedRows tb k n) (storedCols tb k n)) (sc : Stored c.data rc m n) :
    ∃ r : FA Float, dgemm ta tb m n k (1 : Float) a lda b ldb 0 c ldc = (pure r : R (FA Float)) ∧ r.rows = c.rows ∧ r.cols = c.cols ∧
      Updated rc m n c.data r.data fun i j => dotF64 k (fun l => op ta (entry a.data ra) i l) (fun l => op tb (entry b.data rb) l j) := by
  obtain ⟨r, e, q₁, q₂, u⟩ := C24_dgemm_array hta htb m n k (1 : Float) 0 a b c lda ldb ldc ra rb rc hla hlb hlc ha hb hc sa sb sc
  refine ⟨r, e, q₁, q₂, u.length, fun i hi j hj => ?_, u.frame⟩
  rw [u.block i hi j hj, gemmEntry_plain]

/-- **C95.** A product of an array has bitwise the entries of the product of flat vectors holding the same two matrices. -/
theorem C95_dgemm_storage_array {ta' tb' : Char} (hta' : TransFlag ta') (htb' : TransFlag tb') {ta tb : Char} (hta : TransFlag ta) (htb : TransFlag tb) (m n k : Nat) (a b c : FA Float) (lda ldb ldc : Int) (ra rb rc : Nat)
    (hla : max 1 (storedRows ta m k : Int) ≤ lda) (hlb : max 1 (storedRows tb k n : Int) ≤ ldb) (hlc : max 1 (m : Int) ≤ ldc)
    (ha : a.rows = ra) (hb : b.rows = rb) (hc : c.rows = rc)
    (sa : Stored a.data ra (storedRows ta m k) (storedCols ta m k)) (sb : Stored b.data rb (storedRows tb k n) (storedCols tb k n)) (sc : Stored c.data rc m n)
    (a' b' c' : List Float) (lda' ldb' ldc' : Nat)
    (sa' : Stored a' lda' (storedRows ta' m k) (storedCols ta' m k)) (sb' : Stored b' ldb' (storedRows tb' k n) (storedCols tb' k n)) (sc' : Stored c' ldc' m n)
    (hA : ∀ i < m, ∀ l < k, op ta (entry a.data ra) i l = op ta' (entry a' lda') i l)
    (hB : ∀ l < k, ∀ j < n, op tb (entry b.data rb) l j = op tb' (entry b' ldb') l j) :
    ∃ (r : FA Float) (r' : List Float), dgemm ta tb m n k (1 : Float) a lda b ldb 0 c ldc = (pure r : R (FA Float)) ∧
      dgemm ta' tb' m n k (1 : Float) a' lda' b' ldb' 0 c' ldc' = (pure r' : R (List Float)) ∧
      ∀ i < m, ∀ j < n, ∃ w, r.data[i + j * rc]? = some w ∧ r'[i + j * ldc']? = some w := by
  obtain ⟨r, e, q₁, q₂, u⟩ := C95_dgemm_dot_array hta htb m n k a b c lda ldb ldc ra rb rc hla hlb hlc ha hb hc sa sb sc
  obtain ⟨r', e', u'⟩ := C95_dgemm_dot hta' htb' m n k a' b' c' lda' ldb' ldc' sa' sb' sc'
  refine ⟨r, r', e, e', fun i hi j hj => ⟨_, u.block i hi j hj, ?_⟩⟩
  rw [u'.block i hi j hj]
  exact congrArg some (dotF64_congr (fun l hl => (hA i hi l hl).symm) fun l hl => (hB l hl j hj).symm)

/-- **C96.** `C96_dgemm_integers` for an array. -/
theorem C96_dgemm_integers_array {ta tb : Char} (hta : TransFlag ta) (htb : TransFlag tb) (m n k : Nat) (alpha beta : Float) (a b c : FA Float) (lda ldb ldc : Int) (ra rb rc : Nat)
    (hla : max 1 (storedRows ta m k : Int) ≤ lda) (hlb : max 1 (storedRows tb k n : Int) ≤ ldb) (hlc : max 1 (m : Int) ≤ ldc)
    (ha : a.rows = ra) (hb : b.rows = rb) (hc : c.rows = rc)
    (sa : Stored a.data ra (storedRows ta m k) (storedCols ta m k)) (sb : Stored b.data rb (storedRows tb k n) (storedCols tb k n)) (sc : Stored c.data rc m n)
    (α β : ℤ) (A B C : Nat → Nat → ℤ) (P Q S : ℤ) (hα : HasInt alpha α) (hβ : HasInt beta β)
    (hA : ∀ i < m, ∀ l < k, HasInt (op ta (entry a.data ra) i l) (A i l) ∧ |A i l| ≤ P)
    (hB : ∀ l < k, ∀ j < n, HasInt (op tb (entry b.data rb) l j) (B l j) ∧ |B l j| ≤ Q)
    (hC : β ≠ 0 → ∀ i < m, ∀ j < n, HasInt (entry c.data rc i j) (C i j) ∧ |C i j| ≤ S)
    (hP : 1 ≤ P) (hQ : 0 ≤ Q) (hS : 0 ≤ S) (hbd : |α| * (k * (P * Q)) + |β| * S < 2 ^ 53) :
    ∃ r : FA Float, dgemm ta tb m n k alpha a lda b ldb beta c ldc = (pure r : R (FA Float)) ∧
      ∀ i < m, ∀ j < n, ∃ w, r.data[i + j * rc]? = some w ∧ HasInt w (α * ∑ l ∈ range k, A i l * B l j + β * C i j) := by
  obtain ⟨r, e, q₁, q₂, u⟩ := C24_dgemm_array hta htb m n k alpha beta a b c lda ldb ldc ra rb rc hla hlb hlc ha hb hc sa sb sc
  refine ⟨r, e, fun i hi j hj => ⟨_, u.block i hi j hj, ?_⟩⟩
  exact gemmEntry_int _ hα hβ (fun l hl => (hA i hi l hl).1) (fun l hl => (hB l hl j hj).1) (fun h => (hC h i hi j hj).1)
    (fun l hl => (hA i hi l hl).2) (fun l hl => (hB l hl j hj).2) (fun h => (hC h i hi j hj).2) hP hQ hS hbd

/-- **C97.** `C97_dgemm_select_rows` for an array. -/
theorem C97_dgemm_select_rows_array {ta tb : Char} (hta : TransFlag ta) (htb : TransFlag tb) (m n k : Nat) (a b c : FA Float) (lda ldb ldc : Int) (ra rb rc : Nat)
    (hla : max 1 (storedRows ta m k : Int) ≤ lda) (hlb : max 1 (storedRows tb k n : Int) ≤ ldb) (hlc : max 1 (m : Int) ≤ ldc)
    (ha : a.rows = ra) (hb : b.rows = rb) (hc : c.rows = rc)
    (sa : Stored a.data ra (storedRows ta m k) (storedCols ta m k)) (sb : Stored b.data rb (storedRows tb k n) (storedCols tb k n)) (sc : Stored c.data rc m n)
    (σ : Nat → Nat) (hσ : ∀ i < m, σ i < k) (hA : ∀ i < m, ∀ l < k, HasInt (op ta (entry a.data ra) i l) (if l = σ i then 1 else 0))
    (hB : ∀ l < k, ∀ j < n, (op tb (entry b.data rb) l j).isFinite = true) :
    ∃ r : FA Float, dgemm ta tb m n k (1 : Float) a lda b ldb 0 c ldc = (pure r : R (FA Float)) ∧
      ∀ i < m, ∀ j < n, ∃ w, r.data[i + j * rc]? = some w ∧ SameNumber w (op tb (entry b.data rb) (σ i) j) := by
  obtain ⟨r, e, q₁, q₂, u⟩ := C95_dgemm_dot_array hta htb m n k a b c lda ldb ldc ra rb rc hla hlb hlc ha hb hc sa sb sc
  exact ⟨r, e, fun i hi j hj => ⟨_, u.block i hi j hj, dot_unit (y := fun l => op tb (entry b.data rb) l j) (hσ i hi) (hA i hi) fun l hl => hB l hl j hj⟩⟩

/-- **C97.** `C97_dgemm_select_columns` for an array. -/
theorem C97_dgemm_select_columns_array {ta tb : Char} (hta : TransFlag ta) (htb : TransFlag tb) (m n k : Nat) (a b c : FA Float) (lda ldb ldc : Int) (ra rb rc : Nat)
    (hla : max 1 (storedRows ta m k : Int) ≤ lda) (hlb : max 1 (storedRows tb k n : Int) ≤ ldb) (hlc : max 1 (m : Int) ≤ ldc)
    (ha : a.rows = ra) (hb : b.rows = rb) (hc : c.rows = rc)
    (sa : Stored a.data ra (storedRows ta m k) (storedCols ta m k)) (sb : Stored b.data rb (storedRows tb k n) (storedCols tb k n)) (sc : Stored c.data rc m n)
    (σ : Nat → Nat) (hσ : ∀ j < n, σ j < k) (hB : ∀ l < k, ∀ j < n, HasInt (op tb (entry b.data rb) l j) (if l = σ j then 1 else 0))
    (hA : ∀ i < m, ∀ l < k, (op ta (entry a.data ra) i l).isFinite = true) :
    ∃ r : FA Float, dgemm ta tb m n k (1 : Float) a lda b ldb 0 c ldc = (pure r : R (FA Float)) ∧
      ∀ i < m, ∀ j < n, ∃ w, r.data[i + j * rc]? = some w ∧ SameNumber w (op ta (entry a.data ra) i (σ j)) := by
  obtain ⟨r, e, q₁, q₂, u⟩ := C95_dgemm_dot_array hta htb m n k a b c lda ldb ldc ra rb rc hla hlb hlc ha hb hc sa sb sc
  refine ⟨r, e, fun i hi j hj => ⟨_, u.block i hi j hj, ?_⟩⟩
  rw [dotF64_comm]
  exact dot_unit (y := fun l => op ta (entry a.data ra) i l) (hσ j hj) (fun l hl => hB l hl j hj) fun l hl => hA i hi l hl

/-- **C95.** `C95_dgemm_dot` for nested vectors. -/
theorem C95_dgemm_dot_nested {ta tb : Char} (hta : TransFlag ta) (htb : TransFlag tb) (m n k : Nat) (a b c : List (List Float)) (lda ldb ldc : Int) (ra rb rc : Nat)
    (hla : max 1 (storedRows ta m k : Int) ≤ lda) (hlb : max 1 (storedRows tb k n : Int) ≤ ldb) (hlc : max 1 (m : Int) ≤ ldc)
    (ha : Rect a ra ra) (hb : Rect b rb rb) (hc : Rect c rc rc)
    (sa : Stored a.flatten ra (storedRows ta m k) (storedCols ta m k)) (sb : Stored b.flatten rb (storedRows tb k n) (storedCols tb k n)) (sc : Stored c.flatten rc m n) :
    ∃ r : List (List Float), dgemm ta tb m n k (1 : Float) a lda b ldb 0 c ldc = (pure r : R (List (List Float))) ∧ Rect r rc rc ∧
      Updated rc m n c.flatten r.flatten fun i j => dotF64 k (fun l => op ta (entry a.flatten ra) i l) (fun l => op tb (entry b.flatten rb) l j) := by
  obtain ⟨r, e, q, u⟩ := C24_dgemm_nested hta htb m n k (1 : Float) 0 a b c lda ldb ldc ra rb rc hla hlb hlc ha hb hc sa sb sc
  refine ⟨r, e, q, u.length, fun i hi j hj => ?_, u.frame⟩
  rw [u.block i hi j hj, gemmEntry_plain]

/-- **C95.** A product of nested vectors has bitwise the entries of the product of flat vectors holding the same two matrices. -/
theorem C95_dgemm_storage_nested {ta' tb' : Char} (hta' : TransFlag ta') (htb' : TransFlag tb') {ta tb : Char} (hta : TransFlag ta) (htb : TransFlag tb) (m n k : Nat) (a b c : List (List Float)) (lda ldb ldc : Int) (ra rb rc : Nat)
    (hla : max 1 (storedRows ta m k : Int) ≤ lda) (hlb : max 1 (storedRows tb k n : Int) ≤ ldb) (hlc : max 1 (m : Int) ≤ ldc)
    (ha : Rect a ra ra) (hb : Rect b rb rb) (hc : Rect c rc rc)
    (sa : Stored a.flatten ra (storedRows ta m k) (storedCols ta m k)) (sb : Stored b.flatten rb (storedRows tb k n) (storedCols tb k n)) (sc : Stored c.flatten rc m n)
    (a' b' c' : List Float) (lda' ldb' ldc' : Nat)
    (sa' : Stored a' lda' (storedRows ta' m k) (storedCols ta' m k)) (sb' : Stored b' ldb' (storedRows tb' k n) (storedCols tb' k n)) (sc' : Stored c' ldc' m n)
    (hA : ∀ i < m, ∀ l < k, op ta (entry a.flatten ra) i l = op ta' (entry a' lda') i l)
    (hB : ∀ l < k, ∀ j < n, op tb (entry b.flatten rb) l j = op tb' (entry b' ldb') l j) :
    ∃ (r : List (List Float)) (r' : List Float), dgemm ta tb m n k (1 : Float) a lda b ldb 0 c ldc = (pure r : R (List (List Float))) ∧
      dgemm ta' tb' m n k (1 : Float) a' lda' b' ldb' 0 c' ldc' = (pure r' : R (List Float)) ∧
      ∀ i < m, ∀ j < n, ∃ w, r.flatten[i + j * rc]? = some w ∧ r'[i + j * ldc']? = some w := by
  obtain ⟨r, e, q, u⟩ := C95_dgemm_dot_nested hta htb m n k a b c lda ldb ldc ra rb rc hla hlb hlc ha hb hc sa sb sc
  obtain ⟨r', e', u'⟩ := C95_dgemm_dot hta' htb' m n k a' b' c' lda' ldb' ldc' sa' sb' sc'
  refine ⟨r, r', e, e', fun i hi j hj => ⟨_, u.block i hi j hj, ?_⟩⟩
  rw [u'.block i hi j hj]
  exact congrArg some (dotF64_congr (fun l hl => (hA i hi l hl).symm) fun l hl => (hB l hl j hj).symm)

/-- **C96.** `C96_dgemm_integers` for nested vectors. -/
theorem C96_dgemm_integers_nested {ta tb : Char} (hta : TransFlag ta) (htb : TransFlag tb) (m n k : Nat) (alpha beta : Float) (a b c : List (List Float)) (lda ldb ldc : Int) (ra rb rc : Nat)
    (hla : max 1 (storedRows ta m k : Int) ≤ lda) (hlb : max 1 (storedRows tb k n : Int) ≤ ldb) (hlc : max 1 (m : Int) ≤ ldc)
    (ha : Rect a ra ra) (hb : Rect b rb rb) (hc : Rect c rc rc)
    (sa : Stored a.flatten ra (storedRows ta m k) (storedCols ta m k)) (sb : Stored b.flatten rb (storedRows tb k n) (storedCols tb k n)) (sc : Stored c.flatten rc m n)
    (α β : ℤ) (A B C : Nat → Nat → ℤ) (P Q S : ℤ) (hα : HasInt alpha α) (hβ : HasInt beta β)
    (hA : ∀ i < m, ∀ l < k, HasInt (op ta (entry a.flatten ra) i l) (A i l) ∧ |A i l| ≤ P)
    (hB : ∀ l < k, ∀ j < n, HasInt (op tb (entry b.flatten rb) l j) (B l j) ∧ |B l j| ≤ Q)
    (hC : β ≠ 0 → ∀ i < m, ∀ j < n, HasInt (entry c.flatten rc i j) (C i j) ∧ |C i j| ≤ S)
    (hP : 1 ≤ P) (hQ : 0 ≤ Q) (hS : 0 ≤ S) (hbd : |α| * (k * (P * Q)) + |β| * S < 2 ^ 53) :
    ∃ r : List (List Float), dgemm ta tb m n k alpha a lda b ldb beta c ldc = (pure r : R (List (List Float))) ∧
      ∀ i < m, ∀ j < n, ∃ w, r.flatten[i + j * rc]? = some w ∧ HasInt w (α * ∑ l ∈ range k, A i l * B l j + β * C i j) := by
  obtain ⟨r, e, q, u⟩ := C24_dgemm_nested hta htb m n k alpha beta a b c lda ldb ldc ra rb rc hla hlb hlc ha hb hc sa sb sc
  refine ⟨r, e, fun i hi j hj => ⟨_, u.block i hi j hj, ?_⟩⟩
  exact gemmEntry_int _ hα hβ (fun l hl => (hA i hi l hl).1) (fun l hl => (hB l hl j hj).1) (fun h => (hC h i hi j hj).1)
    (fun l hl => (hA i hi l hl).2) (fun l hl => (hB l hl j hj).2) (fun h => (hC h i hi j hj).2) hP hQ hS hbd

/-- **C97.** `C97_dgemm_select_rows` for nested vectors. -/
theorem C97_dgemm_select_rows_nested {ta tb : Char} (hta : TransFlag ta) (htb : TransFlag tb) (m n k : Nat) (a b c : List (List Float)) (lda ldb ldc : Int) (ra rb rc : Nat)
    (hla : max 1 (storedRows ta m k : Int) ≤ lda) (hlb : max 1 (storedRows tb k n : Int) ≤ ldb) (hlc : max 1 (m : Int) ≤ ldc)
    (ha : Rect a ra ra) (hb : Rect b rb rb) (hc : Rect c rc rc)
    (sa : Stored a.flatten ra (storedRows ta m k) (storedCols ta m k)) (sb : Stored b.flatten rb (storedRows tb k n) (storedCols tb k n)) (sc : Stored c.flatten rc m n)
    (σ : Nat → Nat) (hσ : ∀ i < m, σ i < k) (hA : ∀ i < m, ∀ l < k, HasInt (op ta (entry a.flatten ra) i l) (if l = σ i then 1 else 0))
    (hB : ∀ l < k, ∀ j < n, (op tb (entry b.flatten rb) l j).isFinite = true) :
    ∃ r : List (List Float), dgemm ta tb m n k (1 : Float) a lda b ldb 0 c ldc = (pure r : R (List (List Float))) ∧
      ∀ i < m, ∀ j < n, ∃ w, r.flatten[i + j * rc]? = some w ∧ SameNumber w (op tb (entry b.flatten rb) (σ i) j) := by
  obtain ⟨r, e, q, u⟩ := C95_dgemm_dot_nested hta htb m n k a b c lda ldb ldc ra rb rc hla hlb hlc ha hb hc sa sb sc
  exact ⟨r, e, fun i hi j hj => ⟨_, u.block i hi j hj, dot_unit (y := fun l => op tb (entry b.flatten rb) l j) (hσ i hi) (hA i hi) fun l hl => hB l hl j hj⟩⟩

/-- **C97.** `C97_dgemm_select_columns` for nested vectors. -/
theorem C97_dgemm_select_columns_nested {ta tb : Char} (hta : TransFlag ta) (htb : TransFlag tb) (m n k : Nat) (a b c : List (List Float)) (lda ldb ldc : Int) (ra rb rc : Nat)
    (hla : max 1 (storedRows ta m k : Int) ≤ lda) (hlb : max 1 (storedRows tb k n : Int) ≤ ldb) (hlc : max 1 (m : Int) ≤ ldc)
    (ha : Rect a ra ra) (hb : Rect b rb rb) (hc : Rect c rc rc)
    (sa : Stored a.flatten ra (storedRows ta m k) (storedCols ta m k)) (sb : Stored b.flatten rb (storedRows tb k n) (storedCols tb k n)) (sc : Stored c.flatten rc m n)
    (σ : Nat → Nat) (hσ : ∀ j < n, σ j < k) (hB : ∀ l < k, ∀ j < n, HasInt (op tb (entry b.flatten rb) l j) (if l = σ j then 1 else 0))
    (hA : ∀ i < m, ∀ l < k, (op ta (entry a.flatten ra) i l).isFinite = true) :
    ∃ r : List (List Float), dgemm ta tb m n k (1 : Float) a lda b ldb 0 c ldc = (pure r : R (List (List Float))) ∧
      ∀ i < m, ∀ j < n, ∃ w, r.flatten[i + j * rc]? = some w ∧ SameNumber w (op ta (entry a.flatten ra) i (σ j)) := by
  obtain ⟨r, e, q, u⟩ := C95_dgemm_dot_nested hta htb m n k a b c lda ldb ldc ra rb rc hla hlb hlc ha hb hc sa sb sc
  refine ⟨r, e, fun i hi j hj => ⟨_, u.block i hi j hj, ?_⟩⟩
  rw [dotF64_comm]
  exact dot_unit (y := fun l => op ta (entry a.flatten ra) i l) (hσ j hj) (fun l hl => hB l hl j hj) fun l hl => hA i hi l hl

/-- A case with nested vectors: the matrix that exchanges two rows exchanges the rows of `[1 5; 2 6]`. -/
theorem C97_nested_example (pr : Profile) :
    ((dgemm (F := Float) 'N' 'N' 2 2 2 1 ([[0, 1], [1, 0]] : List (List Float)) 2 ([[1, 2], [5, 6]] : List (List Float)) 2 0 ([[9, 9], [9, 9]] : List (List Float)) 2 pr).val?.map
      fun r => r.flatten.zipWith (· == ·) [2, 1, 6, 5]) = some [true, true, true, true] := by
  cases pr <;> decide +kernel

end Verif
