import Verif.Lib.Exact
import Verif.Props.Trmm
import Mathlib.Algebra.BigOperators.Ring.List

/-!
# `dtrmm` in exact arithmetic (C25)
-/

namespace Verif
open Scalar Spec XR

theorem foldl_fin {step : XR → Int → XR} {f : Int → ℝ} {l : List Int} (s : ℝ)
    (h : ∀ s : ℝ, ∀ k ∈ l, step (fin s) k = fin (s + f k)) :
    l.foldl step (fin s) = fin (s + (l.map f).sum) := by
  induction l generalizing s with
  | nil => simp
  | cons k l ih =>
    rw [List.foldl_cons, h s k (by simp), ih _ (fun s k hk => h s k (by simp [hk]))]
    simp [add_assoc]

theorem sum_range_irange (G : Nat → ℝ) (s : Nat) :
    ∑ l ∈ Finset.range s, G l = ((irange 1 s).map (fun k => G (k - 1).toNat)).sum := by
  induction s with
  | zero => rw [irange_empty (by simp)]; simp
  | succ s ih =>
    rw [Finset.sum_range_succ, irange_snoc (lo := 1) (hi := ((s + 1 : Nat) : Int)) (by omega),
      show ((s + 1 : Nat) : Int) - 1 = s by omega, ih]
    simp

theorem sum_split (G : Nat → ℝ) {s : Nat} {i : Int} (h1 : 1 ≤ i) (h2 : i ≤ s) :
    ∑ l ∈ Finset.range s, G l = ((irange 1 (i - 1)).map (fun k => G (k - 1).toNat)).sum
      + G (i - 1).toNat + ((irange (i + 1) s).map (fun k => G (k - 1).toNat)).sum := by
  rw [sum_range_irange, irange_append (lo := 1) (mid := i) (hi := (s : Int)) (by omega) h2,
    irange_snoc (lo := 1) (hi := i) h1]
  simp only [List.map_append, List.sum_append, List.map_cons, List.map_nil, List.sum_cons,
    List.sum_nil, add_zero]

theorem sum_zero_of {l : List Int} {f : Int → ℝ} (h : ∀ k ∈ l, f k = 0) : (l.map f).sum = 0 := by
  induction l with
  | nil => rfl
  | cons k l ih => simp [h k (by simp), ih (fun k hk => h k (by simp [hk]))]

/-- A sum whose terms before `i` vanish. -/
theorem sum_upper (G : Nat → ℝ) {s : Nat} {i : Int} (h1 : 1 ≤ i) (h2 : i ≤ s)
    (hz : ∀ l : Nat, (l : Int) < i - 1 → G l = 0) :
    ∑ l ∈ Finset.range s, G l =
      G (i - 1).toNat + ((irange (i + 1) s).map (fun k => G (k - 1).toNat)).sum := by
  rw [sum_split G h1 h2, sum_zero_of (l := irange 1 (i - 1))]
  · ring
  · intro k hk
    rw [mem_irange] at hk
    exact hz _ (by omega)

/-- A sum whose terms after `i` vanish. -/
theorem sum_lower (G : Nat → ℝ) {s : Nat} {i : Int} (h1 : 1 ≤ i) (h2 : i ≤ s)
    (hz : ∀ l : Nat, i - 1 < (l : Int) → l < s → G l = 0) :
    ∑ l ∈ Finset.range s, G l =
      G (i - 1).toNat + ((irange 1 (i - 1)).map (fun k => G (k - 1).toNat)).sum := by
  rw [sum_split G h1 h2, sum_zero_of (l := irange (i + 1) s)]
  · ring
  · intro k hk
    rw [mem_irange] at hk
    exact hz _ (by omega) (by omega)

/-- Reindexing a fold of products. -/
theorem fold_total {alpha : ℝ} {T x : Nat → ℝ} {l : List Int} {i : Int} {step : XR → Int → XR}
    {start : XR} (hs : start = fin (alpha * (T (i - 1).toNat * x (i - 1).toNat)))
    (h : ∀ s : ℝ, ∀ k ∈ l, step (fin s) k =
      fin (s + alpha * (T (k - 1).toNat * x (k - 1).toNat))) :
    l.foldl step start = fin (alpha * (T (i - 1).toNat * x (i - 1).toNat +
      (l.map (fun k => T (k - 1).toNat * x (k - 1).toNat)).sum)) := by
  rw [hs, foldl_fin _ h, List.sum_map_mul_left, mul_add]

section
variable {A B : Nat → Nat → ℝ} {ga gb : Int → Int → XR} {m n : Nat}

theorem lnStart_fin {nounit : Bool} {alpha d : ℝ} {b : Int → XR} {x : ℝ} {i : Int}
    (hb : b i = fin x) (hd : nounit = true → ga i i = fin d) :
    lnStart nounit (fin alpha) ga b i = fin (alpha * ((if nounit then d else 1) * x)) := by
  unfold lnStart diagMul
  rw [hb]
  by_cases hx : x = 0
  · simp [hx]
  · cases nounit
    · simp [hx]
    · rw [hd rfl]; simp [hx]; ring

theorem lnStep_fin {alpha a x s : ℝ} {b : Int → XR} {i k : Int}
    (hb : b k = fin x) (ha : ga i k = fin a) :
    lnStep (fin alpha) ga b i (fin s) k = fin (s + alpha * (a * x)) := by
  unfold lnStep
  rw [hb, ha]
  by_cases hx : x = 0
  · simp [hx]
  · simp [hx]; ring

theorem rAcc_fin {alpha a x s : ℝ} {r : Int → XR} {k : Int} (hr : r k = fin x) :
    rAcc (fin alpha) (fin a) r (fin s) k = fin (s + alpha * (a * x)) := by
  unfold rAcc
  rw [hr]
  by_cases ha : a = 0
  · simp [ha]
  · simp [ha]; ring

theorem diagMul_fin {nounit : Bool} {x d : ℝ} {g : XR} (hd : nounit = true → g = fin d) :
    diagMul nounit (fin x) g = fin (x * (if nounit then d else 1)) := by
  unfold diagMul
  cases nounit
  · simp
  · rw [hd rfl]; simp

theorem rtStart_fin {nounit : Bool} {alpha x d : ℝ} {r : Int → XR} {j : Int} (hr : r j = fin x)
    (hd : nounit = true → ga j j = fin d) :
    rtStart nounit (fin alpha) ga r j = fin (alpha * ((if nounit then d else 1) * x)) := by
  unfold rtStart
  rw [diagMul_fin hd, hr]
  by_cases h1 : alpha * (if nounit then d else 1) = 1
  · rw [if_neg (by simp [h1]), ← mul_assoc, h1, one_mul]
  · rw [if_pos (by simpa [-mul_ite] using h1), fin_mul, mul_assoc]

theorem tri_diag (uplo diag : Char) (x : Nat → Nat → ℝ) (i : Nat) :
    tri uplo diag x i i = if !isUnit diag then x i i else 1 := by
  unfold tri; cases isUnit diag <;> simp

theorem tri_in {uplo diag : Char} {x : Nat → Nat → ℝ} {i j : Nat} (hne : i ≠ j)
    (h : if isUpper uplo then i < j else j < i) : tri uplo diag x i j = x i j := by
  unfold tri; rw [if_neg hne, if_pos h]

theorem tri_out {uplo diag : Char} {x : Nat → Nat → ℝ} {i j : Nat} (hne : i ≠ j)
    (h : ¬ (if isUpper uplo then i < j else j < i)) : tri uplo diag x i j = 0 := by
  unfold tri; rw [if_neg hne, if_neg h]

theorem ltVal_fin {nounit : Bool} {alpha : ℝ} {b : Int → XR} {lo hi i : Int} {T x : Nat → ℝ} {d : ℝ}
    (hb : ∀ k, (lo ≤ k ∧ k ≤ hi ∨ k = i) → b k = fin (x (k - 1).toNat))
    (ha : ∀ k, lo ≤ k → k ≤ hi → ga k i = fin (T (k - 1).toNat))
    (hd : nounit = true → ga i i = fin d) (hT : T (i - 1).toNat = if nounit then d else 1) :
    ltVal nounit (fin alpha) ga b lo hi i = fin (alpha * (T (i - 1).toNat * x (i - 1).toNat +
      ((irange lo hi).map (fun k => T (k - 1).toNat * x (k - 1).toNat)).sum)) := by
  unfold ltVal
  rw [hb i (Or.inr rfl), diagMul_fin hd, foldl_fin (f := fun k => T (k - 1).toNat * x (k - 1).toNat),
    fin_mul, ← hT, mul_comm (x _)]
  intro s k hk
  rw [mem_irange] at hk
  rw [ha k hk.1 hk.2, hb k (Or.inl hk)]
  simp

theorem trmmVal_fin {uplo diag transa : Char} (lside : Bool) (alpha : ℝ)
    (hA : ∀ i j : Int, 1 ≤ i → i ≤ (if lside then m else n : Nat) → 1 ≤ j →
      j ≤ (if lside then m else n : Nat) → ga i j = fin (A (i - 1).toNat (j - 1).toNat))
    (hB : ∀ i j : Int, 1 ≤ i → i ≤ m → 1 ≤ j → j ≤ n → gb i j = fin (B (i - 1).toNat (j - 1).toNat))
    {i j : Int} (hi1 : 1 ≤ i) (hi2 : i ≤ m) (hj1 : 1 ≤ j) (hj2 : j ≤ n) :
    trmmVal lside (isUpper uplo) (noTrans transa) (!isUnit diag) m n (fin alpha) ga gb i j =
      fin (alpha * (if lside then
        ∑ l ∈ Finset.range m, opR transa (tri uplo diag A) (i - 1).toNat l * B l (j - 1).toNat
        else ∑ l ∈ Finset.range n, B (i - 1).toNat l * opR transa (tri uplo diag A) l (j - 1).toNat))
      := by
  unfold trmmVal opR
  cases lside
  · simp only [Bool.false_eq_true, if_false] at hA ⊢
    have hd : (!isUnit diag) = true → ga j j = fin (A (j - 1).toNat (j - 1).toNat) :=
      fun _ => hA j j hj1 hj2 hj1 hj2
    simp only [mul_comm (B _ _)]
    cases noTrans transa
    · simp only [Bool.false_eq_true, if_false]
      cases hu : isUpper uplo
      · simp only [Bool.false_eq_true, if_false]
        rw [sum_lower _ hj1 hj2 (fun l h1 h2 => by
          rw [tri_out (by omega) (by rw [hu]; simp; omega), zero_mul])]
        rw [fold_total (T := tri uplo diag A (j - 1).toNat) (x := B (i - 1).toNat) (i := j)
          (alpha := alpha)]
        · rw [List.map_reverse, List.sum_reverse]
        · rw [rtStart_fin (hB i j hi1 hi2 hj1 hj2) hd, tri_diag]
        · intro s k hk
          rw [List.mem_reverse, mem_irange] at hk
          rw [hA j k hj1 hj2 (by omega) (by omega), rAcc_fin (hB i k hi1 hi2 (by omega) (by omega)),
            tri_in (by omega) (by rw [hu]; simp; omega)]
      · simp only [if_true]
        rw [sum_upper _ hj1 hj2 (fun l h1 => by
          rw [tri_out (by omega) (by rw [hu]; simp; omega), zero_mul])]
        rw [fold_total (T := tri uplo diag A (j - 1).toNat) (x := B (i - 1).toNat) (i := j)
          (alpha := alpha)]
        · rw [rtStart_fin (hB i j hi1 hi2 hj1 hj2) hd, tri_diag]
        · intro s k hk
          rw [mem_irange] at hk
          rw [hA j k hj1 hj2 (by omega) (by omega), rAcc_fin (hB i k hi1 hi2 (by omega) (by omega)),
            tri_in (by omega) (by rw [hu]; simp; omega)]
    · simp only [if_true]
      unfold rnVal
      cases hu : isUpper uplo
      · simp only [Bool.false_eq_true, if_false]
        rw [sum_upper _ hj1 hj2 (fun l h1 => by
          rw [tri_out (by omega) (by rw [hu]; simp; omega), zero_mul])]
        rw [fold_total (T := fun l => tri uplo diag A l (j - 1).toNat) (x := B (i - 1).toNat) (i := j)
          (alpha := alpha)]
        · rw [diagMul_fin hd, hB i j hi1 hi2 hj1 hj2, tri_diag, fin_mul, mul_assoc]
        · intro s k hk
          rw [mem_irange] at hk
          rw [hA k j (by omega) (by omega) hj1 hj2, rAcc_fin (hB i k hi1 hi2 (by omega) (by omega)),
            tri_in (by omega) (by rw [hu]; simp; omega)]
      · simp only [if_true]
        rw [sum_lower _ hj1 hj2 (fun l h1 h2 => by
          rw [tri_out (by omega) (by rw [hu]; simp; omega), zero_mul])]
        rw [fold_total (T := fun l => tri uplo diag A l (j - 1).toNat) (x := B (i - 1).toNat) (i := j)
          (alpha := alpha)]
        · rw [diagMul_fin hd, hB i j hi1 hi2 hj1 hj2, tri_diag, fin_mul, mul_assoc]
        · intro s k hk
          rw [mem_irange] at hk
          rw [hA k j (by omega) (by omega) hj1 hj2, rAcc_fin (hB i k hi1 hi2 (by omega) (by omega)),
            tri_in (by omega) (by rw [hu]; simp; omega)]
  · simp only [if_true] at hA ⊢
    have hd : (!isUnit diag) = true → ga i i = fin (A (i - 1).toNat (i - 1).toNat) :=
      fun _ => hA i i hi1 hi2 hi1 hi2
    cases noTrans transa
    · simp only [Bool.false_eq_true, if_false]
      cases hu : isUpper uplo
      · simp only [Bool.false_eq_true, if_false]
        rw [sum_upper _ hi1 hi2 (fun l h1 => by
          rw [tri_out (by omega) (by rw [hu]; simp; omega), zero_mul])]
        refine ltVal_fin (T := fun l => tri uplo diag A l (i - 1).toNat)
          (x := fun l => B l (j - 1).toNat) ?_ ?_ hd (tri_diag _ _ _ _)
        · intro k hk; exact hB k j (by omega) (by omega) hj1 hj2
        · intro k h1 h2
          rw [hA k i (by omega) h2 hi1 hi2, tri_in (by omega) (by rw [hu]; simp; omega)]
      · simp only [if_true]
        rw [sum_lower _ hi1 hi2 (fun l h1 h2 => by
          rw [tri_out (by omega) (by rw [hu]; simp; omega), zero_mul])]
        refine ltVal_fin (T := fun l => tri uplo diag A l (i - 1).toNat)
          (x := fun l => B l (j - 1).toNat) ?_ ?_ hd (tri_diag _ _ _ _)
        · intro k hk; exact hB k j (by omega) (by omega) hj1 hj2
        · intro k h1 h2
          rw [hA k i (by omega) (by omega) hi1 hi2, tri_in (by omega) (by rw [hu]; simp; omega)]
    · simp only [if_true]
      cases hu : isUpper uplo
      · simp only [Bool.false_eq_true, if_false]
        rw [sum_lower _ hi1 hi2 (fun l h1 h2 => by
          rw [tri_out (by omega) (by rw [hu]; simp; omega), zero_mul])]
        rw [fold_total (T := tri uplo diag A (i - 1).toNat) (x := fun l => B l (j - 1).toNat) (i := i)
          (alpha := alpha)]
        · rw [List.map_reverse, List.sum_reverse]
        · rw [lnStart_fin (b := fun x => gb x j) (hB i j hi1 hi2 hj1 hj2) hd, tri_diag]
        · intro s k hk
          rw [List.mem_reverse, mem_irange] at hk
          rw [lnStep_fin (b := fun x => gb x j) (hB k j (by omega) (by omega) hj1 hj2) (hA i k hi1 hi2 (by omega) (by omega)),
            tri_in (by omega) (by rw [hu]; simp; omega)]
      · simp only [if_true]
        rw [sum_upper _ hi1 hi2 (fun l h1 => by
          rw [tri_out (by omega) (by rw [hu]; simp; omega), zero_mul])]
        rw [fold_total (T := tri uplo diag A (i - 1).toNat) (x := fun l => B l (j - 1).toNat) (i := i)
          (alpha := alpha)]
        · rw [lnStart_fin (b := fun x => gb x j) (hB i j hi1 hi2 hj1 hj2) hd, tri_diag]
        · intro s k hk
          rw [mem_irange] at hk
          rw [lnStep_fin (b := fun x => gb x j) (hB k j (by omega) (by omega) hj1 hj2) (hA i k hi1 hi2 (by omega) (by omega)),
            tri_in (by omega) (by rw [hu]; simp; omega)]

end

theorem ofList2_map {v : List ℝ} {ld r c : Nat} (h : Stored (v.map fin) ld r c) {i j : Int}
    (h1 : 1 ≤ i) (h2 : i ≤ r) (h3 : 1 ≤ j) (h4 : j ≤ c) :
    ofList2 ld (v.map fin) i j = fin (mat v ld (i - 1).toNat (j - 1).toNat) := by
  rw [← entry_map (stored_map h _ (by omega) _ (by omega)), ← entry_ofList2]
  rw [show (((i - 1).toNat : Int) + 1) = i by omega, show (((j - 1).toNat : Int) + 1) = j by omega]

/-- **C25.** In exact arithmetic `dtrmm` on arrays overwrites the `m`-by-`n` block of `B` by
`alpha*op(T)*B` (side left) or `alpha*B*op(T)` (side right), `T` being the triangular matrix
designated by `uplo` and `diag` in `A`. -/
theorem C25_dtrmm {side uplo transa diag : Char} (h1 : SideFlag side) (h2 : UploFlag uplo)
    (h3 : TransFlag transa) (h4 : DiagFlag diag) {m n : Nat} {lda ldb : Int}
    (hla : max 1 (if isLeft side then (m : Int) else n) ≤ lda) (hlb : max 1 (m : Int) ≤ ldb)
    (alpha : ℝ) (A B : List ℝ) (a b : FA XR) (ra rb : Nat) (ha : a.rows = ra) (hb : b.rows = rb)
    (hA : a.data = A.map fin) (hB : b.data = B.map fin)
    (sa : Stored a.data ra (triOrder side m n) (triOrder side m n))
    (sb : Stored b.data rb m n) :
    ∃ (b' : FA XR) (B' : List ℝ),
      dtrmm side uplo transa diag m n (fin alpha) a lda b ldb = pure (a, b') ∧
      b'.rows = b.rows ∧ b'.cols = b.cols ∧ b'.data = B'.map fin ∧ B'.length = B.length ∧
      (∀ i < m, ∀ j < n, B'[i + j * rb]? = some (alpha * (if isLeft side then
        ∑ l ∈ Finset.range m, opR transa (tri uplo diag (mat A ra)) i l * mat B rb l j
        else ∑ l ∈ Finset.range n, mat B rb i l * opR transa (tri uplo diag (mat A ra)) l j))) ∧
      (∀ p, ¬ InBlock rb m n p → B'[p]? = B[p]?) := by
  by_cases hq : m = 0 ∨ n = 0
  · refine ⟨b, B, C27_empty h1 h2 h3 h4 hla hlb hq _ a b, rfl, rfl, hB, rfl, ?_, fun _ _ => rfl⟩
    intro i hi j hj; omega
  · rw [hA] at sa; rw [hB] at sb
    by_cases h0 : alpha = 0
    · obtain ⟨b', e, r, c, u⟩ := C27_alpha_zero h1 h2 h3 h4 hla hlb (fin alpha) (by simp [h0]) b rb hb
        (by rw [hB]; exact sb)
      rw [hB] at u
      obtain ⟨B', q1, q2, q3, q4⟩ := u.real (w := fun _ _ => 0) (fun i hi j hj => by simp)
      refine ⟨b', B', e a, r, c, q1, q2, ?_, q4⟩
      intro i hi j hj
      rw [q3 i hi j hj, h0, zero_mul]
    · obtain ⟨b', e, r, c, u⟩ := dtrmmFA_ok h1 h2 h3 h4 hla hlb (by omega) (by omega) (fin alpha)
        (by simp [h0]) a b ra rb ha hb (by rw [hA]; exact sa) (by rw [hB]; exact sb)
      rw [hA, hB] at u
      obtain ⟨B', q1, q2, q3, q4⟩ := u.real (w := fun i j => alpha * (if isLeft side then
        ∑ l ∈ Finset.range m, opR transa (tri uplo diag (mat A ra)) i l * mat B rb l j
        else ∑ l ∈ Finset.range n, mat B rb i l * opR transa (tri uplo diag (mat A ra)) l j))
        (fun i hi j hj => by
          rw [trmmVal_fin (A := mat A ra) (B := mat B rb) (isLeft side) alpha
            (fun i j g1 g2 g3 g4 => ofList2_map sa g1 g2 g3 g4)
            (fun i j g1 g2 g3 g4 => ofList2_map sb g1 g2 g3 g4) (by omega) (by omega) (by omega)
            (by omega)]
          have t1 : ((i : Int) + 1 - 1).toNat = i := by omega
          have t2 : ((j : Int) + 1 - 1).toNat = j := by omega
          rw [t1, t2])
      refine ⟨b', B', ?_, r, c, q1, q2, q3, q4⟩
      unfold dtrmm
      show (dtrmmFA side uplo transa diag m n (fin alpha) a lda b ldb >>= _) = _
      rw [e]; rfl

end Verif
