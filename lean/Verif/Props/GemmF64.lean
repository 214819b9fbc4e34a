import Verif.Lib.F64Sum
import Verif.Props.Gemm
import Verif.Lib.F64Int
import Mathlib.Analysis.Complex.ExponentialBounds

/-!
# C63: rounding errors of `dgemm` on binary64
-/

namespace Verif
open F64 Scalar Spec Finset

namespace F64

theorem toR_zero : (Scalar.zero : Float).isFinite = true ∧ toR (Scalar.zero : Float) = 0 := by
  have := ofInt_exact 0 (by norm_num)
  rw [Int.cast_zero] at this
  exact this
theorem toR_one' : (Scalar.one : Float).isFinite = true ∧ toR (Scalar.one : Float) = 1 := by
  have := ofInt_exact 1 (by norm_num)
  rw [Int.cast_one] at this
  exact this

end F64

/-- `alpha * Σ x_l y_l + beta * c`, in exact arithmetic. -/
noncomputable def gemmReal (k : Nat) (alpha beta : Float) (x y : Nat → Float) (c : Float) : ℝ :=
  toR alpha * ∑ l ∈ range k, toR (x l) * toR (y l) + toR beta * toR c

/-- `|alpha| * Σ |x_l| |y_l| + |beta| * |c|`, in exact arithmetic. -/
noncomputable def gemmSize (k : Nat) (alpha beta : Float) (x y : Nat → Float) (c : Float) : ℝ :=
  |toR alpha| * ∑ l ∈ range k, |toR (x l)| * |toR (y l)| + |toR beta| * |toR c|

/-- The number of underflow errors, each weighted with what it is multiplied by afterwards. -/
noncomputable def gemmUnder (k : Nat) (alpha : Float) (x : Nat → Float) : ℝ :=
  2 + k + k * |toR alpha| + ∑ l ∈ range k, |toR (x l)|

/-- A bound on everything computed on the way. -/
noncomputable def gemmBig (k : Nat) (alpha beta : Float) (x y : Nat → Float) (c : Float) : ℝ :=
  max 1 |toR alpha| * ∑ l ∈ range k, max 1 |toR (x l)| * |toR (y l)| + |toR beta| * |toR c|

theorem gemmEntry_val {P : Prop} (nota : Bool) (k : Nat) (alpha beta : Float) (x y : Nat → Float) (c : Float)
    (ha : P → alpha.isFinite = true) (hb : P → beta.isFinite = true) (hx : P → ∀ l < k, (x l).isFinite = true)
    (hy : P → ∀ l < k, (y l).isFinite = true) (hc : P → c.isFinite = true)
    (hB : P → (1 + ur) ^ (k + 3) * (gemmBig k alpha beta x y c + eta * gemmUnder k alpha x) < ovf) :
    Val P (k + 3) (gemmEntry nota k alpha beta x y c) (gemmReal k alpha beta x y c) (gemmSize k alpha beta x y c)
      (eta * gemmUnder k alpha x) := by
  have he := eta_pos
  have hA := abs_nonneg (toR alpha)
  have hN0 : ∀ l, 0 ≤ |toR (x l)| * |toR (y l)| := fun l => mul_nonneg (abs_nonneg _) (abs_nonneg _)
  have hN1 : 0 ≤ ∑ l ∈ range k, |toR (x l)| * |toR (y l)| := sum_nonneg fun l _ => hN0 l
  have hN2 : 0 ≤ ∑ l ∈ range k, |toR (x l)| := sum_nonneg fun l _ => abs_nonneg _
  have hN3 : 0 ≤ |toR beta| * |toR c| := mul_nonneg (abs_nonneg _) (abs_nonneg _)
  have hk0 : (0 : ℝ) ≤ k := Nat.cast_nonneg _
  have hkA : 0 ≤ k * |toR alpha| := mul_nonneg hk0 hA
  have hU : 1 ≤ gemmUnder k alpha x := by unfold gemmUnder; linarith
  have hUe : eta ≤ eta * gemmUnder k alpha x := le_mul_of_one_le_right he.le hU
  have hM : (1 : ℝ) ≤ max 1 |toR alpha| := le_max_left _ _
  have hMA : |toR alpha| ≤ max 1 |toR alpha| := le_max_right _ _
  have hBig0 : ∑ l ∈ range k, |toR (x l)| * |toR (y l)| ≤ ∑ l ∈ range k, max 1 |toR (x l)| * |toR (y l)| :=
    sum_le_sum fun l _ => mul_le_mul_of_nonneg_right (le_max_right _ _) (abs_nonneg _)
  -- everything computed is at most `gemmBig`
  have hpw : ∀ {n : Nat} {V : ℝ}, n ≤ k + 3 → V ≤ gemmBig k alpha beta x y c + eta * gemmUnder k alpha x → 0 ≤ V → P →
      (1 + ur) ^ n * V < ovf := by
    intro n V hn hV hV0 hP
    exact lt_of_le_of_lt (mul_le_mul (pow_le_pow_right₀ (by linarith [ur_pos]) hn) hV hV0 (by linarith [one_le_pow (k + 3)])) (hB hP)
  have hbc : |toR beta| * |toR c| ≤ gemmBig k alpha beta x y c := by
    unfold gemmBig
    have : 0 ≤ max 1 |toR alpha| * ∑ l ∈ range k, max 1 |toR (x l)| * |toR (y l)| := mul_nonneg (by linarith) (by linarith)
    linarith
  -- the old entry, scaled
  have hsc : Val P 1 (scaled beta c) (toR beta * toR c) (|toR beta| * |toR c|) eta := by
    unfold scaled
    split_ifs with h0 h1
    · have h0' := (eq_toR toR_zero.1 h0).2
      have := (Val.float (P := P) (Scalar.zero : Float) (fun _ => toR_zero.1)).mono (n' := 1) (U' := eta) (by omega) he.le
      rw [h0', toR_zero.2, abs_zero, zero_mul, zero_mul]
      rwa [toR_zero.2, abs_zero] at this
    · have h1' := (eq_toR toR_one'.1 h1).2
      rw [h1', toR_one'.2, abs_one, one_mul, one_mul]
      exact (Val.float (P := P) c hc).mono (by omega) he.le
    · have := (Val.float (P := P) c hc).mul hb (by
        intro hP
        have := hpw (n := 0) (V := |toR beta| * |toR c|) (by omega) (by linarith) hN3 hP
        simpa [mul_comm] using this)
      rw [mul_comm (toR beta), mul_comm |toR beta|]
      simpa using this
  have hx0 : gemmReal k alpha beta x y c = toR beta * toR c + toR alpha * ∑ l ∈ range k, toR (x l) * toR (y l) := by
    unfold gemmReal; ring
  have hs0 : gemmSize k alpha beta x y c = |toR beta| * |toR c| + |toR alpha| * ∑ l ∈ range k, |toR (x l)| * |toR (y l)| := by
    unfold gemmSize; ring
  have hz : (toR alpha = 0 ∨ k = 0) → toR alpha * ∑ l ∈ range k, toR (x l) * toR (y l) = 0 ∧
      |toR alpha| * ∑ l ∈ range k, |toR (x l)| * |toR (y l)| = 0 := by
    rintro (h | h)
    · rw [h]; simp
    · subst h; simp
  unfold gemmEntry
  split_ifs with h1 h2 h3 h4
  · obtain ⟨h1, h1'⟩ := h1
    have hb1 := (eq_toR toR_one'.1 h1').2
    rw [toR_one'.2] at hb1
    obtain ⟨z1, z2⟩ := hz (h1.imp (fun h => (eq_toR toR_zero.1 h).2.trans toR_zero.2) id)
    rw [hx0, hs0, z1, z2, hb1, abs_one, one_mul, one_mul, add_zero, add_zero]
    exact (Val.float (P := P) c hc).mono (by omega) (by linarith)
  · obtain ⟨z1, z2⟩ := hz (Or.inl ((eq_toR toR_zero.1 h2).2.trans toR_zero.2))
    rw [hx0, hs0, z1, z2, add_zero, add_zero]
    exact hsc.mono (by omega) hUe
  · -- `A` not transposed
    have hp : ∀ l < k, Val P 2 (alpha * y l * x l) (toR alpha * toR (y l) * toR (x l)) (|toR alpha| * |toR (y l)| * |toR (x l)|)
        (eta * |toR (x l)| + eta) := by
      intro l hl
      have e1 : |toR alpha| * (|toR (y l)| * |toR (x l)|) ≤ |toR alpha| * ∑ l ∈ range k, |toR (x l)| * |toR (y l)| := by
        refine mul_le_mul_of_nonneg_left ?_ hA
        rw [mul_comm |toR (y l)|]
        exact single_le_sum (f := fun l => |toR (x l)| * |toR (y l)|) (fun l _ => hN0 l) (mem_range.2 hl)
      have e2 : |toR (x l)| ≤ ∑ l ∈ range k, |toR (x l)| :=
        single_le_sum (f := fun l => |toR (x l)|) (fun l _ => abs_nonneg _) (mem_range.2 hl)
      have e3 : |toR (y l)| ≤ ∑ l ∈ range k, max 1 |toR (x l)| * |toR (y l)| :=
        (le_mul_of_one_le_left (abs_nonneg _) (le_max_left 1 |toR (x l)|)).trans
          (single_le_sum (f := fun l => max 1 |toR (x l)| * |toR (y l)|) (fun l _ => mul_nonneg (by positivity) (abs_nonneg _)) (mem_range.2 hl))
      have t1 := (Val.float (P := P) alpha ha).mul (g := y l) (fun hP => hy hP l hl) (by
        intro hP
        have := hpw (n := 0) (V := |toR alpha| * |toR (y l)|) (by omega) (by
          have : |toR alpha| * |toR (y l)| ≤ max 1 |toR alpha| * ∑ l ∈ range k, max 1 |toR (x l)| * |toR (y l)| :=
            mul_le_mul hMA e3 (abs_nonneg _) (by linarith)
          unfold gemmBig
          linarith) (mul_nonneg hA (abs_nonneg _)) hP
        simpa using this)
      rw [zero_mul, zero_add, zero_add] at t1
      exact t1.mul (fun hP => hx hP l hl) (by
        intro hP
        rw [mul_assoc]
        refine hpw (by omega) ?_ (mul_nonneg (add_nonneg (mul_nonneg hA (abs_nonneg _)) he.le) (abs_nonneg _)) hP
        have e4 : |toR alpha| * ∑ l ∈ range k, |toR (x l)| * |toR (y l)| ≤ max 1 |toR alpha| * ∑ l ∈ range k, max 1 |toR (x l)| * |toR (y l)| :=
          mul_le_mul hMA hBig0 hN1 (by linarith)
        have e5 : eta * |toR (x l)| ≤ eta * gemmUnder k alpha x := mul_le_mul_of_nonneg_left (by unfold gemmUnder; linarith) he.le
        unfold gemmBig
        nlinarith)
    have hU2 : eta + ∑ l ∈ range k, (eta * |toR (x l)| + eta) = eta * (1 + k + ∑ l ∈ range k, |toR (x l)|) := by
      rw [sum_add_distrib, ← mul_sum, sum_const, card_range, nsmul_eq_mul]; ring
    have hS2 : ∑ l ∈ range k, |toR alpha| * |toR (y l)| * |toR (x l)| = |toR alpha| * ∑ l ∈ range k, |toR (x l)| * |toR (y l)| := by
      rw [mul_sum]; exact sum_congr rfl fun l _ => by ring
    have hX2 : ∑ l ∈ range k, toR alpha * toR (y l) * toR (x l) = toR alpha * ∑ l ∈ range k, toR (x l) * toR (y l) := by
      rw [mul_sum]; exact sum_congr rfl fun l _ => by ring
    have hU3 : eta * (1 + k + ∑ l ∈ range k, |toR (x l)|) ≤ eta * gemmUnder k alpha x :=
      mul_le_mul_of_nonneg_left (by unfold gemmUnder; linarith) he.le
    have := Val.fold (p := fun l => alpha * y l * x l) k (hsc.mono (n' := 2) (by omega) (le_refl _)) hp (by
      intro hP
      have e4 : |toR alpha| * ∑ l ∈ range k, |toR (x l)| * |toR (y l)| ≤ max 1 |toR alpha| * ∑ l ∈ range k, max 1 |toR (x l)| * |toR (y l)| :=
        mul_le_mul hMA hBig0 hN1 (by linarith)
      refine hpw (by omega) ?_ ?_ hP
      · rw [sum_add_distrib, hS2]
        unfold gemmBig
        linarith
      · rw [sum_add_distrib, hS2]
        have := mul_nonneg hA hN1
        have : 0 ≤ ∑ l ∈ range k, (eta * |toR (x l)| + eta) := sum_nonneg fun l _ => add_nonneg (mul_nonneg he.le (abs_nonneg _)) he.le
        linarith)
    rw [hX2, hS2, hU2] at this
    rw [hx0, hs0]
    exact this.mono (by omega) hU3
  all_goals
    have hp : ∀ l < k, Val P 1 (x l * y l) (toR (x l) * toR (y l)) (|toR (x l)| * |toR (y l)|) eta := by
      intro l hl
      have t1 := (Val.float (P := P) (x l) (fun hP => hx hP l hl)).mul (g := y l) (fun hP => hy hP l hl) (by
        intro hP
        have e1 : |toR (x l)| * |toR (y l)| ≤ ∑ l ∈ range k, |toR (x l)| * |toR (y l)| :=
          single_le_sum (f := fun l => |toR (x l)| * |toR (y l)|) (fun l _ => hN0 l) (mem_range.2 hl)
        have := hpw (n := 0) (V := |toR (x l)| * |toR (y l)|) (by omega) (by
          have : ∑ l ∈ range k, max 1 |toR (x l)| * |toR (y l)| ≤ max 1 |toR alpha| * ∑ l ∈ range k, max 1 |toR (x l)| * |toR (y l)| :=
            le_mul_of_one_le_left (by linarith) hM
          unfold gemmBig
          linarith) (hN0 l) hP
        simpa using this)
      rwa [zero_mul, zero_add, zero_add] at t1
    have hUk : eta * (k * |toR alpha|) + 2 * eta ≤ eta * gemmUnder k alpha x := by
      rw [show eta * (k * |toR alpha|) + 2 * eta = eta * (2 + k * |toR alpha|) by ring]
      exact mul_le_mul_of_nonneg_left (by unfold gemmUnder; linarith) he.le
    have hUk' : k * eta ≤ eta * gemmUnder k alpha x := by
      rw [mul_comm]
      exact mul_le_mul_of_nonneg_left (by unfold gemmUnder; linarith) he.le
    have e3 : ∑ l ∈ range k, max 1 |toR (x l)| * |toR (y l)| ≤ max 1 |toR alpha| * ∑ l ∈ range k, max 1 |toR (x l)| * |toR (y l)| :=
      le_mul_of_one_le_left (by linarith) hM
    have e4 : |toR alpha| * ∑ l ∈ range k, |toR (x l)| * |toR (y l)| ≤ max 1 |toR alpha| * ∑ l ∈ range k, max 1 |toR (x l)| * |toR (y l)| :=
      mul_le_mul hMA hBig0 hN1 (by linarith)
    have e5 : 0 ≤ |toR alpha| * ∑ l ∈ range k, |toR (x l)| * |toR (y l)| := mul_nonneg hA hN1
    have e6 : 0 ≤ eta * (k * |toR alpha|) := mul_nonneg he.le hkA
    have t := Val.fold (P := P) (p := fun l => x l * y l) k ((Val.float (Scalar.zero : Float) (fun _ => toR_zero.1)).mono (n' := 1) (by omega) (le_refl _)) hp (by
      intro hP
      refine hpw (by omega) ?_ ?_ hP
      · rw [toR_zero.2, abs_zero, sum_add_distrib, sum_const, card_range, nsmul_eq_mul]
        unfold gemmBig
        linarith
      · rw [toR_zero.2, abs_zero, sum_add_distrib, sum_const, card_range, nsmul_eq_mul]
        have := mul_nonneg hk0 he.le
        linarith)
    rw [toR_zero.2, abs_zero, zero_add, zero_add, zero_add, sum_const, card_range, nsmul_eq_mul] at t
    have t2 := t.mul' ha (by
      intro hP
      rw [mul_assoc]
      refine hpw (by omega) ?_ (mul_nonneg (add_nonneg hN1 (mul_nonneg hk0 he.le)) hA) hP
      unfold gemmBig
      linarith)
    rw [show |toR alpha| * (k * eta) = eta * (k * |toR alpha|) by ring] at t2
  · have hb0 : toR beta = 0 := (eq_toR toR_zero.1 h4).2.trans toR_zero.2
    rw [hx0, hs0, hb0, abs_zero, zero_mul, zero_mul, zero_add, zero_add]
    exact t2.mono (by omega) (by linarith)
  · have hbc : Val P 1 (beta * c) (toR beta * toR c) (|toR beta| * |toR c|) eta := by
      have := (Val.float (P := P) c hc).mul' hb (by
        intro hP
        have := hpw (n := 0) (V := |toR beta| * |toR c|) (by omega) (by linarith) hN3 hP
        simpa [mul_comm] using this)
      simpa using this
    have := t2.add (hbc.mono (n' := 1 + k + 1) (by omega) (le_refl _)) (by
      intro hP
      refine hpw (by omega) ?_ ?_ hP
      · unfold gemmBig
        linarith
      · linarith)
    unfold gemmReal gemmSize
    exact this.mono (by omega) (by linarith)

/-- What is claimed about one entry `w` of the product computed by `dgemm` on binary64, `x` being the row
of `op(A)`, `y` the column of `op(B)` and `c` the old entry: if it is finite, it differs from the exact
value by at most `(1+2^-53)^(k+3) - 1` times the sum of the magnitudes of the terms, plus underflow
errors; and it is finite if the data are and nothing computed on the way comes near the overflow threshold. -/
structure GemmAccurate (k : Nat) (alpha beta : Float) (x y : Nat → Float) (c w : Float) : Prop where
  error : w.isFinite = true →
    |toR w - (toR alpha * ∑ l ∈ range k, toR (x l) * toR (y l) + toR beta * toR c)| ≤
      ((1 + 1 / 2 ^ 53) ^ (k + 3) - 1) * (|toR alpha| * ∑ l ∈ range k, |toR (x l)| * |toR (y l)| + |toR beta| * |toR c|) +
      (1 + 1 / 2 ^ 53) ^ (k + 3) * (1 / 2 ^ 1075 * (2 + k + k * |toR alpha| + ∑ l ∈ range k, |toR (x l)|))
  finite : alpha.isFinite = true → beta.isFinite = true → (∀ l < k, (x l).isFinite = true) → (∀ l < k, (y l).isFinite = true) →
    c.isFinite = true →
    (1 + 1 / 2 ^ 53) ^ (k + 3) * (max 1 |toR alpha| * ∑ l ∈ range k, max 1 |toR (x l)| * |toR (y l)| + |toR beta| * |toR c| +
      1 / 2 ^ 1075 * (2 + k + k * |toR alpha| + ∑ l ∈ range k, |toR (x l)|)) < ovf → w.isFinite = true

theorem gemmEntry_accurate (nota : Bool) (k : Nat) (alpha beta : Float) (x y : Nat → Float) (c : Float) :
    GemmAccurate k alpha beta x y c (gemmEntry nota k alpha beta x y c) where
  error h := ((gemmEntry_val (P := False) nota k alpha beta x y c (fun h => h.elim) (fun h => h.elim) (fun h => h.elim) (fun h => h.elim)
    (fun h => h.elim) (fun h => h.elim)).appr h).err
  finite ha hb hx hy hc hB := (gemmEntry_val (P := True) nota k alpha beta x y c (fun _ => ha) (fun _ => hb) (fun _ => hx) (fun _ => hy)
    (fun _ => hc) (fun _ => hB)).fin trivial

/-- **C63.** On binary64 every entry `dgemm` computes has a small componentwise error, and does not
overflow unless the data come near the overflow threshold. -/
theorem C63_dgemm_f64 {ta tb : Char} (hta : TransFlag ta) (htb : TransFlag tb) (m n k : Nat)
    (alpha beta : Float) (a b c : List Float) (lda ldb ldc : Nat)
    (sa : Stored a lda (storedRows ta m k) (storedCols ta m k))
    (sb : Stored b ldb (storedRows tb k n) (storedCols tb k n))
    (sc : Stored c ldc m n) :
    ∃ c', dgemm ta tb m n k alpha a lda b ldb beta c ldc = (pure c' : R (List Float)) ∧ c'.length = c.length ∧
      (∀ i < m, ∀ j < n, ∃ w, c'[i + j * ldc]? = some w ∧
        GemmAccurate k alpha beta (fun l => op ta (entry a lda) i l) (fun l => op tb (entry b ldb) l j) (entry c ldc i j) w) ∧
      (∀ p, ¬ InBlock ldc m n p → c'[p]? = c[p]?) := by
  obtain ⟨c', e, u⟩ := C24_dgemm hta htb m n k alpha beta a b c lda ldb ldc sa sb sc
  exact ⟨c', e, u.length, fun i hi j hj => ⟨_, u.block i hi j hj, gemmEntry_accurate _ _ _ _ _ _ _⟩, u.frame⟩

/-- **C63.** The same for `Array2d`-like matrices. -/
theorem C63_dgemm_f64_array {ta tb : Char} (hta : TransFlag ta) (htb : TransFlag tb) (m n k : Nat)
    (alpha beta : Float) (a b c : FA Float) (lda ldb ldc : Int) (ra rb rc : Nat)
    (hla : max 1 (storedRows ta m k : Int) ≤ lda) (hlb : max 1 (storedRows tb k n : Int) ≤ ldb)
    (hlc : max 1 (m : Int) ≤ ldc)
    (ha : a.rows = ra) (hb : b.rows = rb) (hc : c.rows = rc)
    (sa : Stored a.data ra (storedRows ta m k) (storedCols ta m k))
    (sb : Stored b.data rb (storedRows tb k n) (storedCols tb k n))
    (sc : Stored c.data rc m n) :
    ∃ c', dgemm ta tb m n k alpha a lda b ldb beta c ldc = (pure c' : R (FA Float)) ∧
      c'.rows = c.rows ∧ c'.cols = c.cols ∧ c'.data.length = c.data.length ∧
      (∀ i < m, ∀ j < n, ∃ w, c'.data[i + j * rc]? = some w ∧
        GemmAccurate k alpha beta (fun l => op ta (entry a.data ra) i l) (fun l => op tb (entry b.data rb) l j)
          (entry c.data rc i j) w) ∧
      (∀ p, ¬ InBlock rc m n p → c'.data[p]? = c.data[p]?) := by
  obtain ⟨c', e, h1, h2, u⟩ := C24_dgemm_array hta htb m n k alpha beta a b c lda ldb ldc ra rb rc hla hlb hlc ha hb hc sa sb sc
  exact ⟨c', e, h1, h2, u.length, fun i hi j hj => ⟨_, u.block i hi j hj, gemmEntry_accurate _ _ _ _ _ _ _⟩, u.frame⟩

/-- **C63.** The same for nested vectors. -/
theorem C63_dgemm_f64_nested {ta tb : Char} (hta : TransFlag ta) (htb : TransFlag tb) (m n k : Nat)
    (alpha beta : Float) (a b c : List (List Float)) (lda ldb ldc : Int) (ra rb rc : Nat)
    (hla : max 1 (storedRows ta m k : Int) ≤ lda) (hlb : max 1 (storedRows tb k n : Int) ≤ ldb)
    (hlc : max 1 (m : Int) ≤ ldc)
    (ha : Rect a ra ra) (hb : Rect b rb rb) (hc : Rect c rc rc)
    (sa : Stored a.flatten ra (storedRows ta m k) (storedCols ta m k))
    (sb : Stored b.flatten rb (storedRows tb k n) (storedCols tb k n))
    (sc : Stored c.flatten rc m n) :
    ∃ c', dgemm ta tb m n k alpha a lda b ldb beta c ldc = (pure c' : R (List (List Float))) ∧
      Rect c' rc rc ∧
      (∀ i < m, ∀ j < n, ∃ w, c'.flatten[i + j * rc]? = some w ∧
        GemmAccurate k alpha beta (fun l => op ta (entry a.flatten ra) i l) (fun l => op tb (entry b.flatten rb) l j)
          (entry c.flatten rc i j) w) ∧
      (∀ p, ¬ InBlock rc m n p → c'.flatten[p]? = c.flatten[p]?) := by
  obtain ⟨c', e, h1, u⟩ := C24_dgemm_nested hta htb m n k alpha beta a b c lda ldb ldc ra rb rc hla hlb hlc ha hb hc sa sb sc
  exact ⟨c', e, h1, fun i hi j hj => ⟨_, u.block i hi j hj, gemmEntry_accurate _ _ _ _ _ _ _⟩, u.frame⟩

theorem F64.pow_ur_le (n : Nat) (h : n ≤ 2 ^ 53) : (1 + ur) ^ n ≤ 3 := by
  have h1 : (1 + ur) ^ n ≤ Real.exp (n * ur) := by
    rw [Real.exp_nat_mul]
    exact pow_le_pow_left₀ (by linarith [ur_pos]) (by linarith [Real.add_one_le_exp ur]) n
  have h2 : n * ur ≤ 1 := by
    unfold ur
    rw [mul_one_div, div_le_one (by positivity)]
    exact_mod_cast h
  have h3 := Real.exp_le_exp.2 h2
  have h4 := Real.exp_one_lt_d9
  linarith

/-- The error factor in terms of `k`: at most `2 (k+3) 2^-53` for all sizes in question. -/
theorem F64.gamma_le (n : Nat) (h : n ≤ 2 ^ 52) : (1 + ur) ^ n - 1 ≤ 2 * n * ur := by
  have hu := ur_pos
  have h2 : n * ur ≤ 1 / 2 := by
    unfold ur
    rw [mul_one_div, div_le_div_iff₀ (by positivity) (by norm_num)]
    have : ((n : Nat) : ℝ) ≤ 2 ^ 52 := by exact_mod_cast h
    linarith [show (2 : ℝ) ^ 53 = 2 * 2 ^ 52 by norm_num]
  clear h
  have key : ∀ j : Nat, j * ur ≤ 1 / 2 → (1 + ur) ^ j ≤ 1 + 2 * j * ur := by
    intro j
    induction j with
    | zero => intro _; simp
    | succ j ih =>
      intro hj
      push_cast at hj ⊢
      have h3 := ih (by linarith)
      have h4 : 0 ≤ (j : ℝ) := Nat.cast_nonneg _
      rw [pow_succ]
      have h5 : (1 + ur) ^ j * (1 + ur) ≤ (1 + 2 * j * ur) * (1 + ur) := mul_le_mul_of_nonneg_right h3 (by linarith)
      have h6 : 2 * (j * ur) * ur ≤ 1 * ur := mul_le_mul_of_nonneg_right (by linarith) hu.le
      nlinarith
  linarith [key n h2]

theorem gemm_finite {k : Nat} {alpha beta : Float} {x y : Nat → Float} {c w : Float} (h : GemmAccurate k alpha beta x y c w)
    (hk : k < 2 ^ 31) (ha : alpha.isFinite = true) (hb : beta.isFinite = true) (hx : ∀ l < k, (x l).isFinite = true)
    (hy : ∀ l < k, (y l).isFinite = true) (hc : c.isFinite = true)
    (ba : |toR alpha| ≤ 2 ^ 300) (bb : |toR beta| ≤ 2 ^ 300) (bx : ∀ l < k, |toR (x l)| ≤ 2 ^ 300)
    (yb : ∀ l < k, |toR (y l)| ≤ 2 ^ 300) (bc : |toR c| ≤ 2 ^ 300) : w.isFinite = true := by
  refine h.finite ha hb hx hy hc ?_
  have hov : (2 : ℝ) ^ 36 * 2 ^ 900 < ovf := by
    rw [← pow_add, ovf]
    exact lt_of_lt_of_le (pow_lt_pow_right₀ (by norm_num) (by norm_num : 36 + 900 < 971)) (le_mul_of_one_le_left (by positivity) (by norm_num))
  have h900 : (2 : ℝ) ^ 900 = 2 ^ 300 * 2 ^ 300 * 2 ^ 300 := by rw [← pow_add, ← pow_add]
  rw [h900] at hov
  have hB1 : (1 : ℝ) ≤ 2 ^ 300 := one_le_pow₀ (by norm_num)
  generalize (2 : ℝ) ^ 300 = B at *
  clear h900
  have s1 : ∑ l ∈ range k, max 1 |toR (x l)| * |toR (y l)| ≤ k * (B * B) := by
    refine (sum_le_card_nsmul _ _ (B * B) fun l hl => ?_).trans (by rw [card_range, nsmul_eq_mul])
    exact mul_le_mul (max_le hB1 (bx l (mem_range.1 hl))) (yb l (mem_range.1 hl)) (abs_nonneg _) (by linarith)
  have s0 : 0 ≤ ∑ l ∈ range k, max 1 |toR (x l)| * |toR (y l)| := sum_nonneg fun l _ => mul_nonneg (by positivity) (abs_nonneg _)
  have s2 : ∑ l ∈ range k, |toR (x l)| ≤ k * B := by
    refine (sum_le_card_nsmul _ _ B fun l hl => bx l (mem_range.1 hl)).trans (by rw [card_range, nsmul_eq_mul])
  have s3 : 0 ≤ ∑ l ∈ range k, |toR (x l)| := sum_nonneg fun l _ => abs_nonneg _
  have t1 : max 1 |toR alpha| * ∑ l ∈ range k, max 1 |toR (x l)| * |toR (y l)| ≤ B * (k * (B * B)) :=
    mul_le_mul (max_le hB1 ba) s1 s0 (by linarith)
  have t2 : |toR beta| * |toR c| ≤ B * B := mul_le_mul bb bc (abs_nonneg _) (by linarith)
  have hk0 : (0 : ℝ) ≤ k := Nat.cast_nonneg _
  have hkr : (k : ℝ) ≤ 2 ^ 31 := by exact_mod_cast hk.le
  have t3 : k * |toR alpha| ≤ k * B := mul_le_mul_of_nonneg_left ba hk0
  have t4 : (1 : ℝ) / 2 ^ 1075 * (2 + k + k * |toR alpha| + ∑ l ∈ range k, |toR (x l)|) ≤ 1 * (2 + k + k * B + k * B) := by
    refine mul_le_mul ?_ (by linarith) ?_ (by norm_num)
    · rw [div_le_one (by positivity)]; exact one_le_pow₀ (by norm_num)
    · have := mul_nonneg hk0 (abs_nonneg (toR alpha)); linarith
  have hBB : B ≤ B * B := le_mul_of_one_le_left (by linarith) hB1
  have hBBB : B * B ≤ B * B * B := le_mul_of_one_le_right (by nlinarith) hB1
  have q1 : k * B ≤ k * (B * B * B) := mul_le_mul_of_nonneg_left (by linarith) hk0
  have q2 : k * 1 ≤ k * (B * B * B) := mul_le_mul_of_nonneg_left (by linarith) hk0
  have hp := pow_ur_le (k + 3) (by omega)
  unfold ur at hp
  have q3 : (k : ℝ) * (B * B * B) ≤ 2 ^ 31 * (B * B * B) := mul_le_mul_of_nonneg_right hkr (by linarith)
  refine lt_of_le_of_lt (mul_le_mul hp (c := _) (d := 4 * (k * (B * B * B)) + 3 * (B * B * B)) ?_ ?_ (by norm_num)) (lt_of_le_of_lt ?_ hov)
  · linarith
  · have z1 : 0 ≤ max 1 |toR alpha| * ∑ l ∈ range k, max 1 |toR (x l)| * |toR (y l)| := mul_nonneg (by positivity) s0
    have z2 : 0 ≤ |toR beta| * |toR c| := mul_nonneg (abs_nonneg _) (abs_nonneg _)
    have z3 : (0 : ℝ) ≤ 1 / 2 ^ 1075 * (2 + k + k * |toR alpha| + ∑ l ∈ range k, |toR (x l)|) := by
      refine mul_nonneg (by positivity) ?_
      have := mul_nonneg hk0 (abs_nonneg (toR alpha)); linarith
    linarith
  · have : 0 ≤ B * B * B := by linarith
    linarith

/-- Every entry of the `r`-by-`c` matrix stored in `v` is finite and at most `2^300` in magnitude. -/
def Moderate (v : List Float) (ld r c : Nat) : Prop :=
  ∀ i < r, ∀ j < c, (entry v ld i j).isFinite = true ∧ |toR (entry v ld i j)| ≤ 2 ^ 300

/-- **C63.** Data of moderate size never lead to overflow. -/
theorem C63_dgemm_no_overflow {ta tb : Char} (hta : TransFlag ta) (htb : TransFlag tb) (m n k : Nat) (hk : k < 2 ^ 31)
    (alpha beta : Float) (a b c : List Float) (lda ldb ldc : Nat)
    (sa : Stored a lda (storedRows ta m k) (storedCols ta m k))
    (sb : Stored b ldb (storedRows tb k n) (storedCols tb k n))
    (sc : Stored c ldc m n)
    (hal : alpha.isFinite = true) (hbe : beta.isFinite = true) (bal : |toR alpha| ≤ 2 ^ 300) (bbe : |toR beta| ≤ 2 ^ 300)
    (ma : Moderate a lda (storedRows ta m k) (storedCols ta m k))
    (mb : Moderate b ldb (storedRows tb k n) (storedCols tb k n))
    (mc : Moderate c ldc m n) :
    ∃ c', dgemm ta tb m n k alpha a lda b ldb beta c ldc = (pure c' : R (List Float)) ∧
      ∀ i < m, ∀ j < n, ∃ w, c'[i + j * ldc]? = some w ∧ w.isFinite = true := by
  obtain ⟨c', e, -, h, -⟩ := C63_dgemm_f64 hta htb m n k alpha beta a b c lda ldb ldc sa sb sc
  refine ⟨c', e, fun i hi j hj => ?_⟩
  obtain ⟨w, hw, hacc⟩ := h i hi j hj
  have fa : ∀ l < k, (op ta (entry a lda) i l).isFinite = true ∧ |toR (op ta (entry a lda) i l)| ≤ 2 ^ 300 := by
    intro l hl
    unfold Moderate storedRows storedCols at ma
    unfold op
    cases ht : noTrans ta <;> simp only [ht, if_true, if_false, Bool.false_eq_true] at ma ⊢
    · exact ma l hl i hi
    · exact ma i hi l hl
  have fb : ∀ l < k, (op tb (entry b ldb) l j).isFinite = true ∧ |toR (op tb (entry b ldb) l j)| ≤ 2 ^ 300 := by
    intro l hl
    unfold Moderate storedRows storedCols at mb
    unfold op
    cases ht : noTrans tb <;> simp only [ht, if_true, if_false, Bool.false_eq_true] at mb ⊢
    · exact mb j hj l hl
    · exact mb l hl j hj
  exact ⟨w, hw, gemm_finite hacc hk hal hbe (fun l hl => (fa l hl).1) (fun l hl => (fb l hl).1) (mc i hi j hj).1 bal bbe
    (fun l hl => (fa l hl).2) (fun l hl => (fb l hl).2) (mc i hi j hj).2⟩

theorem moderate_int {z : Int} (h : z.natAbs < 2 ^ 53) : (Float.ofInt z).isFinite = true ∧ |toR (Float.ofInt z)| ≤ 2 ^ 300 := by
  obtain ⟨h1, h2⟩ := ofInt_exact z h
  refine ⟨h1, ?_⟩
  rw [h2, ← Int.cast_abs, ← Nat.cast_natAbs]
  exact (by exact_mod_cast h.le : ((z.natAbs : Nat) : ℝ) ≤ 2 ^ 53).trans (pow_le_pow_right₀ (by norm_num) (by norm_num))

/-- Non-vacuity of C63: a transposed 2-by-2 product of integers, with `alpha = 3` and `beta = -7`. -/
theorem C63_example : ∃ c', dgemm 'N' 'T' 2 2 2 (Float.ofInt 3) ([1, 2, 3, 4].map Float.ofInt) 2 ([-5, 6, 7, 8].map Float.ofInt) 2
      (Float.ofInt (-7)) ([9, 10, 11, -12].map Float.ofInt) 2 = (pure c' : R (List Float)) ∧
    ∀ i < 2, ∀ j < 2, ∃ w, c'[i + j * 2]? = some w ∧ w.isFinite = true := by
  have st : ∀ v : List Float, v.length = 4 → Stored v 2 2 2 := by
    intro v hv
    exact ⟨by norm_num, le_refl _, by norm_num, by rw [hv]; norm_num, fun i hi j hj => by rw [hv]; omega⟩
  have mo : ∀ a b c d : Int, a.natAbs < 2 ^ 53 → b.natAbs < 2 ^ 53 → c.natAbs < 2 ^ 53 → d.natAbs < 2 ^ 53 →
      Moderate ([a, b, c, d].map Float.ofInt) 2 2 2 := by
    intro a b c d ha hb hc hd i hi j hj
    interval_cases i <;> interval_cases j
    · exact moderate_int ha
    · exact moderate_int hc
    · exact moderate_int hb
    · exact moderate_int hd
  exact C63_dgemm_no_overflow (ta := 'N') (tb := 'T') (by simp [TransFlag]) (by simp [TransFlag]) 2 2 2 (by norm_num) _ _ _ _ _ 2 2 2 (st _ rfl) (st _ rfl) (st _ rfl)
    (moderate_int (by norm_num)).1 (moderate_int (by norm_num)).1 (moderate_int (by norm_num)).2 (moderate_int (by norm_num)).2
    (mo _ _ _ _ (by norm_num) (by norm_num) (by norm_num) (by norm_num)) (mo _ _ _ _ (by norm_num) (by norm_num) (by norm_num) (by norm_num))
    (mo _ _ _ _ (by norm_num) (by norm_num) (by norm_num) (by norm_num))

end Verif
