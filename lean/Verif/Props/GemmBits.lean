import Verif.Lib.F64Alg
import Verif.Lib.F64Rel
import Verif.Props.HqrIndep

/-!
# `dgemm` on binary64: products that do not depend on the storage, integer products, selections (C95–C97)
-/

namespace Verif
open F64 Scalar Spec Finset

/-! ## C95 -/

/-- The product of a row and a column, summed from left to right, starting from zero. -/
def Spec.dotF64 (k : Nat) (x y : Nat → Float) : Float := (List.range k).foldl (fun acc l => acc + x l * y l) zero

theorem dotF64_comm (k : Nat) (x y : Nat → Float) : dotF64 k x y = dotF64 k y x := by
  have h : (fun (acc : Float) l => acc + x l * y l) = fun acc l => acc + y l * x l :=
    funext fun acc => funext fun l => congrArg (acc + ·) (mul_comm' (x l) (y l))
  unfold dotF64
  rw [h]

theorem dotF64_congr {k : Nat} {x y x' y' : Nat → Float} (hx : ∀ l < k, x l = x' l) (hy : ∀ l < k, y l = y' l) : dotF64 k x y = dotF64 k x' y' := by
  unfold dotF64
  exact List.foldl_ext _ _ _ fun acc l hl => congrArg (acc + ·) (congrArg₂ (· * ·) (hx l (List.mem_range.1 hl)) (hy l (List.mem_range.1 hl)))

/-- Without scaling both ways of computing an entry do the same roundings. -/
theorem gemmEntry_plain (b : Bool) (k : Nat) (x y : Nat → Float) (c : Float) :
    gemmEntry b k (1 : Float) 0 x y c = dotF64 k x y := by
  have h1 : ((0 : Float) =ᶠ (one : Float)) = false := by decide +kernel
  have h2 : ((1 : Float) =ᶠ (zero : Float)) = false := by decide +kernel
  have h3 : ((0 : Float) =ᶠ (zero : Float)) = true := by decide +kernel
  unfold gemmEntry scaled
  rw [h1, h2, h3]
  rw [if_neg (by simp), if_neg (by simp)]
  cases b
  · rw [if_neg (by simp), if_pos rfl, one_mul']
    unfold dotF64
    rfl
  · rw [if_pos rfl, if_pos rfl]
    unfold dotF64
    congr 1
    funext acc l
    rw [one_mul', mul_comm']

/-- **C95.** `dgemm` with `alpha = 1` and `beta = 0` on binary64: entry `(i, j)` is the sum from left to right of the products, whatever the flags. -/
theorem C95_dgemm_dot {ta tb : Char} (hta : TransFlag ta) (htb : TransFlag tb) (m n k : Nat) (a b c : List Float) (lda ldb ldc : Nat)
    (sa : Stored a lda (storedRows ta m k) (storedCols ta m k)) (sb : Stored b ldb (storedRows tb k n) (storedCols tb k n)) (sc : Stored c ldc m n) :
    ∃ r : List Float, dgemm ta tb m n k (1 : Float) a lda b ldb 0 c ldc = (pure r : R (List Float)) ∧
      Updated ldc m n c r fun i j => dotF64 k (fun l => op ta (entry a lda) i l) (fun l => op tb (entry b ldb) l j) := by
  obtain ⟨r, e, u⟩ := C24_dgemm hta htb m n k (1 : Float) 0 a b c lda ldb ldc sa sb sc
  refine ⟨r, e, u.length, fun i hi j hj => ?_, u.frame⟩
  rw [u.block i hi j hj, gemmEntry_plain]

/-- **C95.** The product of two matrices on binary64 does not depend on how they are stored: transposed or not, with whatever leading dimensions. -/
theorem C95_dgemm_storage {ta tb ta' tb' : Char} (hta : TransFlag ta) (htb : TransFlag tb) (hta' : TransFlag ta') (htb' : TransFlag tb') (m n k : Nat)
    (a b c a' b' c' : List Float) (lda ldb ldc lda' ldb' ldc' : Nat)
    (sa : Stored a lda (storedRows ta m k) (storedCols ta m k)) (sb : Stored b ldb (storedRows tb k n) (storedCols tb k n)) (sc : Stored c ldc m n)
    (sa' : Stored a' lda' (storedRows ta' m k) (storedCols ta' m k)) (sb' : Stored b' ldb' (storedRows tb' k n) (storedCols tb' k n)) (sc' : Stored c' ldc' m n)
    (hA : ∀ i < m, ∀ l < k, op ta (entry a lda) i l = op ta' (entry a' lda') i l)
    (hB : ∀ l < k, ∀ j < n, op tb (entry b ldb) l j = op tb' (entry b' ldb') l j) :
    ∃ r r' : List Float, dgemm ta tb m n k (1 : Float) a lda b ldb 0 c ldc = (pure r : R (List Float)) ∧
      dgemm ta' tb' m n k (1 : Float) a' lda' b' ldb' 0 c' ldc' = (pure r' : R (List Float)) ∧
      ∀ i < m, ∀ j < n, ∃ w, r[i + j * ldc]? = some w ∧ r'[i + j * ldc']? = some w := by
  obtain ⟨r, e, u⟩ := C95_dgemm_dot hta htb m n k a b c lda ldb ldc sa sb sc
  obtain ⟨r', e', u'⟩ := C95_dgemm_dot hta' htb' m n k a' b' c' lda' ldb' ldc' sa' sb' sc'
  refine ⟨r, r', e, e', fun i hi j hj => ⟨_, u.block i hi j hj, ?_⟩⟩
  rw [u'.block i hi j hj]
  exact congrArg some (dotF64_congr (fun l hl => (hA i hi l hl).symm) fun l hl => (hB l hl j hj).symm)

/-- **C95.** The product of the transposed factors in the other order is on binary64 exactly the transposed product. -/
theorem C95_dgemm_transposed {ta tb ta' tb' : Char} (hta : TransFlag ta) (htb : TransFlag tb) (hta' : TransFlag ta') (htb' : TransFlag tb') (m n k : Nat)
    (a b c a' b' c' : List Float) (lda ldb ldc lda' ldb' ldc' : Nat)
    (sa : Stored a lda (storedRows ta m k) (storedCols ta m k)) (sb : Stored b ldb (storedRows tb k n) (storedCols tb k n)) (sc : Stored c ldc m n)
    (sa' : Stored a' lda' (storedRows ta' k m) (storedCols ta' k m)) (sb' : Stored b' ldb' (storedRows tb' n k) (storedCols tb' n k)) (sc' : Stored c' ldc' n m)
    (hA : ∀ i < m, ∀ l < k, op ta' (entry a' lda') l i = op ta (entry a lda) i l)
    (hB : ∀ l < k, ∀ j < n, op tb' (entry b' ldb') j l = op tb (entry b ldb) l j) :
    ∃ r r' : List Float, dgemm ta tb m n k (1 : Float) a lda b ldb 0 c ldc = (pure r : R (List Float)) ∧
      dgemm tb' ta' n m k (1 : Float) b' ldb' a' lda' 0 c' ldc' = (pure r' : R (List Float)) ∧
      ∀ i < m, ∀ j < n, ∃ w, r[i + j * ldc]? = some w ∧ r'[j + i * ldc']? = some w := by
  obtain ⟨r, e, u⟩ := C95_dgemm_dot hta htb m n k a b c lda ldb ldc sa sb sc
  obtain ⟨r', e', u'⟩ := C95_dgemm_dot htb' hta' n m k b' a' c' ldb' lda' ldc' sb' sa' sc'
  refine ⟨r, r', e, e', fun i hi j hj => ⟨_, u.block i hi j hj, ?_⟩⟩
  rw [u'.block j hj i hi, dotF64_comm]
  exact congrArg some (dotF64_congr (fun l hl => hA i hi l hl) fun l hl => hB l hl j hj)

/-- A case: `[1, 2^-53; 3, 4]` times a vector, stored both ways, gives the same. -/
theorem C95_example (pr : Profile) :
    (dgemm (F := Float) 'N' 'N' 2 1 2 1 [1, 3, Float.ofBits 0x3CA0000000000000, 4] 2 ([0.1, 1] : List Float) 2 0 ([7, 7] : List Float) 2 pr).val? =
      (dgemm (F := Float) 'T' 'N' 2 1 2 1 [1, Float.ofBits 0x3CA0000000000000, 3, 4] 2 ([0.1, 1] : List Float) 2 0 ([7, 7] : List Float) 2 pr).val? := by
  cases pr <;> decide +kernel

/-- With a factor the storage matters: `3·(1·1 + 2^-53·1)` gives `3` if `A` is transposed, and the next larger number otherwise. -/
theorem C95_scaled_differs (pr : Profile) :
    ((dgemm (F := Float) 'N' 'N' 1 1 2 3 [1, Float.ofBits 0x3CA0000000000000] 1 ([1, 1] : List Float) 2 0 ([0] : List Float) 1 pr).val?.map fun r =>
        r.map fun w => decide (w > 3)) = some [true] ∧
      ((dgemm (F := Float) 'T' 'N' 1 1 2 3 [1, Float.ofBits 0x3CA0000000000000] 2 ([1, 1] : List Float) 2 0 ([0] : List Float) 1 pr).val?.map fun r =>
        r.map fun w => w == 3) = some [true] := by
  cases pr <;> decide +kernel

/-! ## C96 -/

theorem HasInt.beq {x y : Float} {a b : ℤ} (hx : HasInt x a) (hy : HasInt y b) : (x =ᶠ y) = true ↔ a = b := by
  change Float.beq x y = true ↔ a = b
  rw [beq_toXR, toXR_fin hx.1, toXR_fin hy.1, hx.2, hy.2]
  simp [XR.beq]

theorem hasInt_zero : HasInt (zero : Float) 0 := ⟨toR_zero.1, by rw [toR_zero.2]; simp⟩
theorem hasInt_one : HasInt (one : Float) 1 := ⟨toR_one'.1, by rw [toR_one'.2]; simp⟩

theorem sum_le_const {k : Nat} {f : Nat → ℤ} {M : ℤ} (h : ∀ l < k, |f l| ≤ M) : |∑ l ∈ range k, f l| ≤ k * M := by
  refine (abs_sum_le_sum_abs _ _).trans ?_
  refine (sum_le_sum fun l hl => h l (mem_range.1 hl)).trans ?_
  simp

/-- Sums of integers are exact as long as no sum of absolute values reaches `2^53`. -/
theorem fold_int {k : Nat} {t : Nat → Float} {f : Nat → ℤ} {s : Float} {s0 M B : ℤ} (hs : HasInt s s0) (h0 : |s0| ≤ B) (hM : 0 ≤ M)
    (ht : ∀ l < k, HasInt (t l) (f l)) (hf : ∀ l < k, |f l| ≤ M) (hB : B + k * M < 2 ^ 53) :
    HasInt ((List.range k).foldl (fun acc l => acc + t l) s) (s0 + ∑ l ∈ range k, f l) := by
  induction k with
  | zero => simpa using hs
  | succ k ih =>
    rw [List.range_succ, List.foldl_append, List.foldl_cons, List.foldl_nil, sum_range_succ, ← add_assoc]
    push_cast at hB
    have hk : (k : ℤ) * M ≤ (k + 1) * M := by nlinarith
    refine (ih (fun l hl => ht l (by omega)) (fun l hl => hf l (by omega)) (by linarith)).add (ht k (by omega)) ?_
    have h1 := sum_le_const (k := k) (f := f) fun l hl => hf l (by omega)
    have h2 := hf k (by omega)
    have h3 := abs_add_le (s0 + ∑ l ∈ range k, f l) (f k)
    have h4 := abs_add_le s0 (∑ l ∈ range k, f l)
    have : ((k : ℤ) + 1) * M = k * M + M := by ring
    linarith

/-- One entry of an integer product. -/
theorem gemmEntry_int (b : Bool) {k : Nat} {alpha beta : Float} {x y : Nat → Float} {c : Float} {α β : ℤ} {X Y : Nat → ℤ} {C P Q S : ℤ}
    (hα : HasInt alpha α) (hβ : HasInt beta β) (hx : ∀ l < k, HasInt (x l) (X l)) (hy : ∀ l < k, HasInt (y l) (Y l)) (hc : β ≠ 0 → HasInt c C)
    (bx : ∀ l < k, |X l| ≤ P) (by' : ∀ l < k, |Y l| ≤ Q) (bc : β ≠ 0 → |C| ≤ S) (hP : 1 ≤ P) (hQ : 0 ≤ Q) (hS : 0 ≤ S)
    (hb : |α| * (k * (P * Q)) + |β| * S < 2 ^ 53) :
    HasInt (gemmEntry b k alpha beta x y c) (α * ∑ l ∈ range k, X l * Y l + β * C) := by
  have aα := abs_nonneg α
  have aβ := abs_nonneg β
  have hPQ : 0 ≤ P * Q := by positivity
  have hkPQ : 0 ≤ (k : ℤ) * (P * Q) := by positivity
  have hβS : |β * C| ≤ |β| * S := by
    rw [abs_mul]
    by_cases h : β = 0
    · simp [h]
    · exact mul_le_mul_of_nonneg_left (bc h) aβ
  have n1 : 0 ≤ |α| * (k * (P * Q)) := by positivity
  have n2 : 0 ≤ |β| * S := by positivity
  have hsc : HasInt (scaled beta c) (β * C) := by
    unfold scaled
    by_cases h0 : β = 0
    · rw [if_pos ((HasInt.beq hβ hasInt_zero).2 h0), h0, zero_mul]; exact hasInt_zero
    · rw [if_neg (fun h => h0 ((HasInt.beq hβ hasInt_zero).1 h))]
      by_cases h1 : β = 1
      · rw [if_pos ((HasInt.beq hβ hasInt_one).2 h1), h1, one_mul]; exact hc h0
      · rw [if_neg (fun h => h1 ((HasInt.beq hβ hasInt_one).1 h)), mul_comm β C]
        refine (hc h0).mul hβ ?_
        rw [mul_comm C β]; linarith
  have hXY : ∀ l < k, |X l * Y l| ≤ P * Q := fun l hl => by
    rw [abs_mul]
    exact mul_le_mul (bx l hl) (by' l hl) (abs_nonneg _) (by linarith)
  unfold gemmEntry
  by_cases hq : ((alpha =ᶠ zero) = true ∨ k = 0) ∧ (beta =ᶠ one) = true
  · rw [if_pos hq]
    have h1 := (HasInt.beq hβ hasInt_one).1 hq.2
    have h0 : α * ∑ l ∈ range k, X l * Y l = 0 := by
      rcases hq.1 with h | h
      · rw [(HasInt.beq hα hasInt_zero).1 h, zero_mul]
      · rw [h]; simp
    rw [h0, h1, zero_add, one_mul]
    exact hc (by rw [h1]; norm_num)
  rw [if_neg hq]
  by_cases ha : (alpha =ᶠ zero) = true
  · rw [if_pos ha, (HasInt.beq hα hasInt_zero).1 ha, zero_mul, zero_add]
    exact hsc
  rw [if_neg ha]
  have hα0 : α ≠ 0 := fun h => ha ((HasInt.beq hα hasInt_zero).2 h)
  have hα1 : 1 ≤ |α| := Int.one_le_abs hα0
  cases b
  · rw [if_neg (by simp)]
    have hb1 : (k : ℤ) * (P * Q) ≤ |α| * (k * (P * Q)) := by nlinarith
    have ht := fold_int (k := k) (t := fun l => x l * y l) (f := fun l => X l * Y l) hasInt_zero (B := 0) (by simp) hPQ
      (fun l hl => (hx l hl).mul (hy l hl) (by
        have := hXY l hl
        have hk : (1 : ℤ) ≤ k := by omega
        have : P * Q ≤ k * (P * Q) := by nlinarith
        linarith)) hXY (by linarith)
    rw [zero_add] at ht
    have hsum := sum_le_const hXY
    have hat : |α * ∑ l ∈ range k, X l * Y l| ≤ |α| * (k * (P * Q)) := by
      rw [abs_mul]; exact mul_le_mul_of_nonneg_left hsum aα
    have hmul := hα.mul ht (by linarith)
    show HasInt (if (beta =ᶠ zero) = true then _ else _) _
    by_cases h0 : β = 0
    · rw [if_pos ((HasInt.beq hβ hasInt_zero).2 h0), h0, zero_mul, add_zero]; exact hmul
    · rw [if_neg (fun h => h0 ((HasInt.beq hβ hasInt_zero).1 h))]
      refine hmul.add (hβ.mul (hc h0) (by linarith)) ?_
      have := abs_add_le (α * ∑ l ∈ range k, X l * Y l) (β * C)
      linarith
  · rw [if_pos rfl]
    have hbd : ∀ l < k, |α * Y l * X l| ≤ |α| * (P * Q) := fun l hl => by
      rw [mul_assoc, abs_mul, mul_comm (Y l)]
      exact mul_le_mul_of_nonneg_left (hXY l hl) aα
    have hf := fold_int (k := k) (t := fun l => alpha * y l * x l) (f := fun l => α * Y l * X l) hsc (B := |β| * S) hβS (M := |α| * (P * Q)) (by positivity)
      (fun l hl => by
        have hk : (1 : ℤ) ≤ k := by omega
        have e1 : |α| * (P * Q) ≤ |α| * (k * (P * Q)) := mul_le_mul_of_nonneg_left (by nlinarith) aα
        have e2 : |α * Y l| ≤ |α| * (P * Q) := by
          rw [abs_mul]
          refine mul_le_mul_of_nonneg_left ((by' l hl).trans ?_) aα
          nlinarith
        exact (hα.mul (hy l hl) (by linarith)).mul (hx l hl) (by linarith [hbd l hl]))
      hbd (by rw [show (k : ℤ) * (|α| * (P * Q)) = |α| * (k * (P * Q)) by ring]; linarith)
    have e : α * ∑ l ∈ range k, X l * Y l + β * C = β * C + ∑ l ∈ range k, α * Y l * X l := by
      rw [mul_sum, add_comm]
      congr 1
      exact sum_congr rfl fun l _ => by ring
    rw [e]
    exact hf

/-- **C96.** On binary64 `dgemm` is exact for integers: if `alpha`, `beta` and the entries are integers, bounded by `P` in `A`, `Q` in `B` and `S` in `C`,
and `|alpha|·k·P·Q + |beta|·S < 2^53`, the result is exactly `alpha*op(A)*op(B) + beta*C`. Nothing is asked of `C` if `beta` is zero. -/
theorem C96_dgemm_integers {ta tb : Char} (hta : TransFlag ta) (htb : TransFlag tb) (m n k : Nat) (alpha beta : Float) (a b c : List Float) (lda ldb ldc : Nat)
    (sa : Stored a lda (storedRows ta m k) (storedCols ta m k)) (sb : Stored b ldb (storedRows tb k n) (storedCols tb k n)) (sc : Stored c ldc m n)
    (α β : ℤ) (A B C : Nat → Nat → ℤ) (P Q S : ℤ) (hα : HasInt alpha α) (hβ : HasInt beta β)
    (hA : ∀ i < m, ∀ l < k, HasInt (op ta (entry a lda) i l) (A i l) ∧ |A i l| ≤ P)
    (hB : ∀ l < k, ∀ j < n, HasInt (op tb (entry b ldb) l j) (B l j) ∧ |B l j| ≤ Q)
    (hC : β ≠ 0 → ∀ i < m, ∀ j < n, HasInt (entry c ldc i j) (C i j) ∧ |C i j| ≤ S)
    (hP : 1 ≤ P) (hQ : 0 ≤ Q) (hS : 0 ≤ S) (hb : |α| * (k * (P * Q)) + |β| * S < 2 ^ 53) :
    ∃ r : List Float, dgemm ta tb m n k alpha a lda b ldb beta c ldc = (pure r : R (List Float)) ∧
      ∀ i < m, ∀ j < n, ∃ w, r[i + j * ldc]? = some w ∧ HasInt w (α * ∑ l ∈ range k, A i l * B l j + β * C i j) := by
  obtain ⟨r, e, u⟩ := C24_dgemm hta htb m n k alpha beta a b c lda ldb ldc sa sb sc
  refine ⟨r, e, fun i hi j hj => ⟨_, u.block i hi j hj, ?_⟩⟩
  exact gemmEntry_int _ hα hβ (fun l hl => (hA i hi l hl).1) (fun l hl => (hB l hl j hj).1) (fun h => (hC h i hi j hj).1)
    (fun l hl => (hA i hi l hl).2) (fun l hl => (hB l hl j hj).2) (fun h => (hC h i hi j hj).2) hP hQ hS hb

/-- A case: `2·[1 2; 3 4]·[5 6; 7 8] - [1 1; 1 1]`. -/
theorem C96_example (pr : Profile) :
    ((dgemm (F := Float) 'N' 'N' 2 2 2 2 ([1, 3, 2, 4] : List Float) 2 ([5, 7, 6, 8] : List Float) 2 (-1) ([1, 1, 1, 1] : List Float) 2 pr).val?.map fun r =>
      r.zipWith (· == ·) [37, 85, 43, 99]) = some [true, true, true, true] := by
  cases pr <;> decide +kernel

/-- The bound is needed: `2^53·1 + 1·1` is not exact. -/
theorem C96_bound_needed (pr : Profile) :
    ((dgemm (F := Float) 'N' 'N' 1 1 2 1 ([9007199254740992, 1] : List Float) 1 ([1, 1] : List Float) 2 0 ([0] : List Float) 1 pr).val?.map fun r =>
      r.map fun w => w == 9007199254740992) = some [true] := by
  cases pr <;> decide +kernel

/-! ## C97 -/

/-- `v` and `w` are the same finite number; they can differ only if one is `0` and the other `-0`. -/
def Spec.SameNumber (v w : Float) : Prop := v.isFinite = true ∧ w.isFinite = true ∧ toR v = toR w ∧ (toR w ≠ 0 → v = w)

theorem sameNumber_of {v w : Float} (hv : v.isFinite = true) (hw : w.isFinite = true) (h : toR v = toR w) : SameNumber v w :=
  ⟨hv, hw, h, fun h0 => toR_inj h hv hw (by rw [h]; exact h0)⟩

theorem dot_unit {k p : Nat} {x y : Nat → Float} (hp : p < k) (hx : ∀ l < k, HasInt (x l) (if l = p then 1 else 0))
    (hy : ∀ l < k, (y l).isFinite = true) : SameNumber (dotF64 k x y) (y p) := by
  have key : ∀ j ≤ k, (dotF64 j x y).isFinite = true ∧ toR (dotF64 j x y) = if p < j then toR (y p) else 0 := by
    intro j
    induction j with
    | zero =>
      intro _
      have h0 : dotF64 0 x y = zero := by unfold dotF64; rw [List.range_zero, List.foldl_nil]
      rw [h0, if_neg (by omega)]
      exact toR_zero
    | succ j ih =>
      intro hj
      obtain ⟨f, v⟩ := ih (by omega)
      have hd : dotF64 (j + 1) x y = dotF64 j x y + x j * y j := by
        unfold dotF64
        rw [List.range_succ, List.foldl_append, List.foldl_cons, List.foldl_nil]
      have hxj := hx j (by omega)
      have hyj := hy j (by omega)
      have hm : (x j * y j).isFinite = true ∧ toR (x j * y j) = if j = p then toR (y p) else 0 := by
        by_cases h : j = p
        · subst h
          rw [if_pos rfl] at hxj ⊢
          have hv : toR (x j) * toR (y j) = toR (y j) := by rw [hxj.2]; simp
          have := mul_exact hxj.1 hyj (by rw [hv]; exact grid_toR _) (by rw [hv]; exact abs_toR_lt _)
          rwa [hv] at this
        · rw [if_neg h] at hxj ⊢
          have hv : toR (x j) * toR (y j) = 0 := by rw [hxj.2]; simp
          have g := int_grid (n := 0) (by norm_num)
          rw [Int.cast_zero] at g
          have := mul_exact hxj.1 hyj (by rw [hv]; exact g.1) (by rw [hv]; exact g.2)
          rwa [hv] at this
      have hs : toR (dotF64 j x y) + toR (x j * y j) = if p < j + 1 then toR (y p) else 0 := by
        rw [v, hm.2]
        rcases lt_trichotomy p j with h | h | h
        · rw [if_pos h, if_neg (by omega), if_pos (by omega), add_zero]
        · rw [if_neg (by omega), if_pos h.symm, if_pos (by omega), zero_add]
        · rw [if_neg (by omega), if_neg (by omega), if_neg (by omega), add_zero]
      have hg : Grid (if p < j + 1 then toR (y p) else 0) ∧ |if p < j + 1 then toR (y p) else 0| < ovf := by
        split
        · exact ⟨grid_toR _, abs_toR_lt _⟩
        · have g := int_grid (n := 0) (by norm_num)
          rwa [Int.cast_zero] at g
      have := add_exact f hm.1 (by rw [hs]; exact hg.1) (by rw [hs]; exact hg.2)
      rw [hd, ← hs]
      exact this
  obtain ⟨f, v⟩ := key k le_rfl
  rw [if_pos hp] at v
  exact sameNumber_of f (hy p hp) v

/-- **C97.** If row `i` of `op(A)` is the `σ i`-th unit vector (as in the identity, a permutation or a selection of rows) and `op(B)` is finite, then row `i`
of the product is row `σ i` of `op(B)`, without any rounding; only `-0` can become `0`. -/
theorem C97_dgemm_select_rows {ta tb : Char} (hta : TransFlag ta) (htb : TransFlag tb) (m n k : Nat) (a b c : List Float) (lda ldb ldc : Nat)
    (sa : Stored a lda (storedRows ta m k) (storedCols ta m k)) (sb : Stored b ldb (storedRows tb k n) (storedCols tb k n)) (sc : Stored c ldc m n)
    (σ : Nat → Nat) (hσ : ∀ i < m, σ i < k) (hA : ∀ i < m, ∀ l < k, HasInt (op ta (entry a lda) i l) (if l = σ i then 1 else 0))
    (hB : ∀ l < k, ∀ j < n, (op tb (entry b ldb) l j).isFinite = true) :
    ∃ r : List Float, dgemm ta tb m n k (1 : Float) a lda b ldb 0 c ldc = (pure r : R (List Float)) ∧
      ∀ i < m, ∀ j < n, ∃ w, r[i + j * ldc]? = some w ∧ SameNumber w (op tb (entry b ldb) (σ i) j) := by
  obtain ⟨r, e, u⟩ := C95_dgemm_dot hta htb m n k a b c lda ldb ldc sa sb sc
  exact ⟨r, e, fun i hi j hj => ⟨_, u.block i hi j hj, dot_unit (y := fun l => op tb (entry b ldb) l j) (hσ i hi) (hA i hi) fun l hl => hB l hl j hj⟩⟩

/-- **C97.** The same for columns: if column `j` of `op(B)` is the `σ j`-th unit vector, then column `j` of the product is column `σ j` of `op(A)`. -/
theorem C97_dgemm_select_columns {ta tb : Char} (hta : TransFlag ta) (htb : TransFlag tb) (m n k : Nat) (a b c : List Float) (lda ldb ldc : Nat)
    (sa : Stored a lda (storedRows ta m k) (storedCols ta m k)) (sb : Stored b ldb (storedRows tb k n) (storedCols tb k n)) (sc : Stored c ldc m n)
    (σ : Nat → Nat) (hσ : ∀ j < n, σ j < k) (hB : ∀ l < k, ∀ j < n, HasInt (op tb (entry b ldb) l j) (if l = σ j then 1 else 0))
    (hA : ∀ i < m, ∀ l < k, (op ta (entry a lda) i l).isFinite = true) :
    ∃ r : List Float, dgemm ta tb m n k (1 : Float) a lda b ldb 0 c ldc = (pure r : R (List Float)) ∧
      ∀ i < m, ∀ j < n, ∃ w, r[i + j * ldc]? = some w ∧ SameNumber w (op ta (entry a lda) i (σ j)) := by
  obtain ⟨r, e, u⟩ := C95_dgemm_dot hta htb m n k a b c lda ldb ldc sa sb sc
  refine ⟨r, e, fun i hi j hj => ⟨_, u.block i hi j hj, ?_⟩⟩
  rw [dotF64_comm]
  exact dot_unit (y := fun l => op ta (entry a lda) i l) (hσ j hj) (fun l hl => hB l hl j hj) fun l hl => hA i hi l hl

/-- A case: exchanging the rows of `[0.1 -0.3; 0.7 1e300]`. -/
theorem C97_example (pr : Profile) :
    ((dgemm (F := Float) 'N' 'N' 2 2 2 1 ([0, 1, 1, 0] : List Float) 2 ([0.1, 0.7, -0.3, 1e300] : List Float) 2 0 ([7, 7, 7, 7] : List Float) 2 pr).val?.map fun r =>
      r.zipWith (· == ·) [0.7, 0.1, 1e300, -0.3]) = some [true, true, true, true] := by
  cases pr <;> decide +kernel

/-- Finiteness is needed: an infinity turns the other entries of its column into `NaN`. -/
theorem C97_infinity (pr : Profile) :
    ((dgemm (F := Float) 'N' 'N' 2 1 2 1 ([1, 0, 0, 1] : List Float) 2 ([1 / 0, 1] : List Float) 2 0 ([7, 7] : List Float) 2 pr).val?.map fun r =>
      r.map fun w => w.isNaN) = some [false, true] := by
  cases pr <;> decide +kernel

end Verif
