import Verif.Inst.XR
import Verif.Model.Lapack
import Mathlib.Tactic.FieldSimp
import Mathlib.Tactic.Positivity

/-!
# `dlamch` and `dlapy2` in exact arithmetic (C32)
-/

namespace Verif
open Scalar XR

/-- The largest finite `f64`, as a real number. -/
noncomputable abbrev Spec.fMax : ℝ := (2 - 1 / 2 ^ 52) * 2 ^ 1023

theorem fMax_pos : (0 : ℝ) < Spec.fMax := by
  have : (0 : ℝ) < 2 - 1 / 2 ^ 52 := by norm_num
  positivity

/-- **C32.** In exact arithmetic `dlapy2(x, y) = sqrt(x² + y²)` for arguments up to `f64::MAX`. -/
theorem C32_dlapy2 (x y : ℝ) (hx : |x| ≤ Spec.fMax) (hy : |y| ≤ Spec.fMax) :
    dlapy2 (fin x) (fin y) = fin (Real.sqrt (x ^ 2 + y ^ 2)) := by
  unfold dlapy2
  simp only [fin_isNaN, Bool.false_eq_true, if_false, fin_abs, fin_fmax, fin_fmin, ofInt_eq, fin_beq,
    maxValue_eq, fin_lt, Bool.or_eq_true, decide_eq_true_eq, Int.cast_zero, Int.cast_one]
  have hmm : max |x| |y| ^ 2 + min |x| |y| ^ 2 = x ^ 2 + y ^ 2 := by
    rcases le_total |x| |y| with h | h
    · rw [max_eq_right h, min_eq_left h, sq_abs, sq_abs]; ring
    · rw [max_eq_left h, min_eq_right h, sq_abs, sq_abs]
  have h2 : ¬ (Spec.fMax < max |x| |y|) := not_lt.2 (max_le hx hy)
  have hw : 0 ≤ max |x| |y| := le_max_of_le_left (abs_nonneg x)
  rw [← hmm]
  by_cases h0 : min |x| |y| = 0
  · rw [if_pos (Or.inl h0), h0]
    congr 1
    rw [zero_pow (by norm_num), add_zero, Real.sqrt_sq hw]
  · rw [if_neg (by push Not; exact ⟨h0, not_lt.1 h2⟩)]
    have hz : 0 ≤ min |x| |y| := le_min (abs_nonneg x) (abs_nonneg y)
    have hwp : 0 < max |x| |y| :=
      lt_of_lt_of_le (lt_of_le_of_ne hz (Ne.symm h0)) min_le_max
    rw [fin_div _ _ (ne_of_gt hwp), fin_powi2, fin_add, fin_sqrt _ (by positivity), fin_mul]
    congr 1
    generalize max |x| |y| = w at *
    generalize min |x| |y| = z at *
    have : w ^ 2 + z ^ 2 = w ^ 2 * (1 + z / w * (z / w)) := by field_simp
    rw [this, Real.sqrt_mul (by positivity), Real.sqrt_sq hw]

/-- Outside the range of `f64` the larger magnitude is returned (exact arithmetic). -/
theorem C32_dlapy2_huge (x y : ℝ) (h : Spec.fMax < max |x| |y|) :
    dlapy2 (fin x) (fin y) = fin (max |x| |y|) := by
  unfold dlapy2
  simp only [fin_isNaN, Bool.false_eq_true, if_false, fin_abs, fin_fmax, fin_fmin, ofInt_eq, fin_beq,
    maxValue_eq, fin_lt, Bool.or_eq_true, decide_eq_true_eq]
  rw [if_pos (Or.inr h)]

example : |(3 : ℝ)| ≤ Spec.fMax ∧ |(-4 : ℝ)| ≤ Spec.fMax := by
  have h4 : (4 : ℝ) ≤ Spec.fMax := by
    have h1 : (1 : ℝ) ≤ 2 - 1 / 2 ^ 52 := by norm_num
    have h2 : (4 : ℝ) ≤ 2 ^ 1023 := by
      calc (4 : ℝ) = 2 ^ 2 := by norm_num
        _ ≤ 2 ^ 1023 := pow_le_pow_right₀ (by norm_num) (by norm_num)
    calc (4 : ℝ) = 1 * 4 := by norm_num
      _ ≤ _ := mul_le_mul h1 h2 (by norm_num) (le_trans (by norm_num) h1)
  constructor
  · rw [abs_of_pos (by norm_num)]; linarith
  · rw [abs_neg, abs_of_pos (by norm_num)]; exact h4

/-! ### `dlamch` -/

theorem dlamch_E : (dlamch 'E' : XR) = fin (1 / 2 ^ 53) := by
  unfold dlamch
  simp only [epsilon_eq, lit_eq, fin_mul]
  congr 1; norm_num

theorem dlamch_P : (dlamch 'P' : XR) = fin (1 / 2 ^ 52) := by
  unfold dlamch
  simp only [epsilon_eq, lit_eq, fin_mul, ofInt_eq]
  congr 1; norm_num

theorem dlamch_B : (dlamch 'B' : XR) = fin 2 := by
  unfold dlamch
  simp

theorem dlamch_S : (dlamch 'S' : XR) = fin (1 / 2 ^ 1022) := by
  unfold dlamch
  have h0 := fMax_pos
  simp only [maxValue_eq, minPositive_eq, ofInt_eq, Int.cast_one]
  rw [fin_div _ _ (ne_of_gt h0), fin_le]
  rw [if_neg]
  rw [decide_eq_true_eq, not_le]
  apply one_div_lt_one_div_of_lt (by positivity)
  have h1 : (1 : ℝ) < 2 - 1 / 2 ^ 52 := by norm_num
  have h2 : (2 : ℝ) ^ 1022 < 2 ^ 1023 := pow_lt_pow_right₀ (by norm_num) (by norm_num)
  have h3 : (0 : ℝ) < 2 ^ 1022 := by positivity
  calc (2 : ℝ) ^ 1022 < 2 ^ 1023 := h2
    _ = 1 * 2 ^ 1023 := (one_mul _).symm
    _ ≤ _ := mul_le_mul_of_nonneg_right h1.le (by positivity)

end Verif
