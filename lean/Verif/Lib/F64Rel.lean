import Verif.Lib.F64Num

/-!
# Relative errors counted in roundings

`Rl k y x`: `y = x (1 + δ)` with `|δ| ≤ k 2^-53`.  The rules add one spare unit for the terms of second
order, which is enough as long as the counts stay below 1000.
-/

namespace Verif.F64

/-- `y` equals `x` up to `k` roundings. -/
def Rl (k : ℝ) (y x : ℝ) : Prop := ∃ t, |t - 1| ≤ k * ur ∧ y = x * t

variable {k l : ℝ} {x y x' y' : ℝ}

theorem ur_small : ur ≤ 1 / 1000000000000000 := by unfold ur; norm_num

theorem Rl.refl (x : ℝ) : Rl 0 x x := ⟨1, by simp, by simp⟩

theorem Rl.mono (h : Rl k y x) (hk : k ≤ l) : Rl l y x := by
  obtain ⟨t, h1, h2⟩ := h
  exact ⟨t, h1.trans (mul_le_mul_of_nonneg_right hk ur_pos.le), h2⟩

theorem Rl.of_err (h : |y - x| ≤ k * ur * |x|) (hx : x = 0 → y = 0) (hk : 0 ≤ k) : Rl k y x := by
  by_cases h0 : x = 0
  · exact ⟨1, by simpa using mul_nonneg hk ur_pos.le, by rw [h0, hx h0, zero_mul]⟩
  · refine ⟨y / x, ?_, by field_simp⟩
    rw [show y / x - 1 = (y - x) / x by field_simp, abs_div, div_le_iff₀ (abs_pos.2 h0)]
    exact h

theorem Rl.of_err' (h : |y - x| ≤ k * ur * |x|) (hk : 0 ≤ k) : Rl k y x :=
  Rl.of_err h (fun h0 => by rw [h0] at h; simpa using h) hk

theorem Rl.err (h : Rl k y x) : |y - x| ≤ k * ur * |x| := by
  obtain ⟨t, h1, rfl⟩ := h
  rw [show x * t - x = (t - 1) * x by ring, abs_mul]
  exact mul_le_mul_of_nonneg_right h1 (abs_nonneg _)

theorem Rl.neg (h : Rl k y x) : Rl k (-y) (-x) := by
  obtain ⟨t, h1, rfl⟩ := h
  exact ⟨t, h1, by ring⟩

theorem Rl.abs (h : Rl k y x) (hk : k ≤ 1000) : Rl k |y| |x| := by
  obtain ⟨t, h1, rfl⟩ := h
  refine ⟨t, h1, ?_⟩
  have h2 := abs_le.1 h1
  have := ur_small; have h0 := ur_pos
  rw [abs_mul, abs_of_nonneg (show 0 ≤ t by nlinarith)]

theorem ku {k : ℝ} (hk : k ≤ 1000) : k * ur ≤ 1 / 1000000000000 := by
  have := ur_small; have := ur_pos; nlinarith

theorem Rl.mul (h : Rl k y x) (h' : Rl l y' x') (hk0 : 0 ≤ k) (hl0 : 0 ≤ l) (hk : k ≤ 1000) (hl : l ≤ 1000) :
    Rl (k + l + 1) (y * y') (x * x') := by
  obtain ⟨t, h1, rfl⟩ := h
  obtain ⟨s, h2, rfl⟩ := h'
  refine ⟨t * s, ?_, by ring⟩
  rw [show t * s - 1 = (t - 1) + (s - 1) + (t - 1) * (s - 1) by ring]
  have := ur_small; have h0 := ur_pos
  have h3 : |(t - 1) * (s - 1)| ≤ ur := by
    rw [abs_mul]
    calc _ ≤ (k * ur) * (l * ur) := mul_le_mul h1 h2 (abs_nonneg _) (by positivity)
      _ ≤ 1 / 1000000000000 * (1000 * ur) := mul_le_mul (ku hk) (mul_le_mul_of_nonneg_right hl h0.le) (by positivity) (by norm_num)
      _ ≤ ur := by linarith
  calc _ ≤ |t - 1| + |s - 1| + |(t - 1) * (s - 1)| := abs_add_three _ _ _
    _ ≤ _ := by linarith

theorem Rl.inv (h : Rl k y x) (hk0 : 0 ≤ k) (hk : k ≤ 1000) : Rl (k + 1) y⁻¹ x⁻¹ := by
  obtain ⟨t, h1, rfl⟩ := h
  have hkk := ku hk
  have h2 := abs_le.1 h1
  have h0 := ur_pos
  have ht : 1 / 2 ≤ t := by linarith
  refine ⟨t⁻¹, ?_, by rw [mul_inv]⟩
  have ht0 : 0 < t := by linarith
  rw [show t⁻¹ - 1 = (1 - t) / t by field_simp, abs_div, div_le_iff₀ (abs_pos.2 ht0.ne'), abs_of_pos ht0, abs_sub_comm]
  refine h1.trans ?_
  have h3 : 1 - k * ur ≤ t := by linarith
  have h4 : (k * ur) * (k * ur) ≤ 1 / 1000000000000 * (1000 * ur) :=
    mul_le_mul hkk (mul_le_mul_of_nonneg_right hk h0.le) (by positivity) (by norm_num)
  have h5 : (k + 1) * ur * (1 - k * ur) ≤ (k + 1) * ur * t := mul_le_mul_of_nonneg_left h3 (by positivity)
  nlinarith

theorem Rl.div (h : Rl k y x) (h' : Rl l y' x') (hk0 : 0 ≤ k) (hl0 : 0 ≤ l) (hk : k ≤ 1000) (hl : l ≤ 999) :
    Rl (k + l + 2) (y / y') (x / x') := by
  rw [div_eq_mul_inv, div_eq_mul_inv]
  exact (h.mul (h'.inv hl0 (by linarith)) hk0 (by linarith) hk (by linarith)).mono (by linarith)

theorem Rl.trans {z : ℝ} (h : Rl k z y) (h' : Rl l y x) (hk0 : 0 ≤ k) (hl0 : 0 ≤ l) (hk : k ≤ 1000) (hl : l ≤ 1000) :
    Rl (k + l + 1) z x := by
  obtain ⟨t, h1, rfl⟩ := h
  obtain ⟨s, h2, rfl⟩ := h'
  have := (show Rl k (1 * t) 1 from ⟨t, h1, by ring⟩).mul (show Rl l (x * s) x from ⟨s, h2, rfl⟩) hk0 hl0 hk hl
  rw [one_mul, one_mul] at this
  rwa [mul_comm (x * s)]

theorem Rl.sqrt (h : Rl k y x) (hk : k ≤ 1000) : Rl k (Real.sqrt y) (Real.sqrt x) := by
  obtain ⟨t, h1, rfl⟩ := h
  have hkk := ku hk
  have h2 := abs_le.1 h1
  have ht : 0 ≤ t := by linarith
  refine ⟨Real.sqrt t, ?_, by rw [Real.sqrt_mul' _ ht]⟩
  have e : (Real.sqrt t - 1) * (Real.sqrt t + 1) = t - 1 := by
    have := Real.mul_self_sqrt ht
    linear_combination this
  refine le_trans ?_ h1
  rw [← e, abs_mul]
  refine le_mul_of_one_le_right (abs_nonneg _) ?_
  rw [abs_of_nonneg (by positivity)]
  linarith [Real.sqrt_nonneg t]

/-- Sums of numbers of the same sign. -/
theorem Rl.addPos (h : Rl k y x) (h' : Rl k y' x') (hs : 0 ≤ x * x') (hk : 0 ≤ k) : Rl k (y + y') (x + x') := by
  have e1 := h.err
  have e2 := h'.err
  have : |x + x'| = |x| + |x'| := by
    rcases le_total 0 x with a | a <;> rcases le_total 0 x' with b | b
    · rw [abs_of_nonneg a, abs_of_nonneg b, abs_of_nonneg (add_nonneg a b)]
    · rcases eq_or_lt_of_le a with a | a
      · rw [← a]; simp
      · have : x' = 0 := by
          by_contra h0
          have : x' < 0 := lt_of_le_of_ne b h0
          have := mul_neg_of_pos_of_neg a this
          linarith
        rw [this]; simp
    · rcases eq_or_lt_of_le b with b | b
      · rw [← b]; simp
      · have : x = 0 := by
          by_contra h0
          have : x < 0 := lt_of_le_of_ne a h0
          have := mul_neg_of_neg_of_pos this b
          linarith
        rw [this]; simp
    · rw [abs_of_nonpos a, abs_of_nonpos b, abs_of_nonpos (add_nonpos a b)]; ring
  refine Rl.of_err' ?_ hk
  rw [this, show y + y' - (x + x') = (y - x) + (y' - x') by ring]
  refine (abs_add_le _ _).trans ?_
  linarith

theorem Rl.abs_le (h : Rl k y x) (hk : k ≤ 1000) : |y| ≤ 1001 / 1000 * |x| := by
  obtain ⟨t, h1, rfl⟩ := h
  have hkk := ku hk
  have h2 := _root_.abs_le.1 h1
  rw [abs_mul, abs_of_nonneg (show 0 ≤ t by linarith), mul_comm]
  exact mul_le_mul_of_nonneg_right (by linarith) (abs_nonneg _)

theorem Rl.abs_ge (h : Rl k y x) (hk : k ≤ 1000) : 999 / 1000 * |x| ≤ |y| := by
  obtain ⟨t, h1, rfl⟩ := h
  have hkk := ku hk
  have h2 := _root_.abs_le.1 h1
  rw [abs_mul, abs_of_nonneg (show 0 ≤ t by linarith), mul_comm |x|]
  exact mul_le_mul_of_nonneg_right (by linarith) (abs_nonneg _)

theorem Rl.nonneg (h : Rl k y x) (hk : k ≤ 1000) (hx : 0 ≤ x) : 0 ≤ y := by
  obtain ⟨t, h1, rfl⟩ := h
  have hkk := ku hk
  have h2 := _root_.abs_le.1 h1
  exact mul_nonneg hx (by linarith)

/-! ### The operations -/

theorem addF {x y : Float} (hx : x.isFinite = true) (hy : y.isFinite = true) (hB : |toR x + toR y| ≤ 1024 * big) :
    (x + y).isFinite = true ∧ Rl 1 (toR (x + y)) (toR x + toR y) := by
  have := ovf_big; have := big_pos
  have hf := (add_rounds x y hx hy).finite (by linarith)
  exact ⟨hf, Rl.of_err' (by rw [one_mul]; exact add_err hx hy hf) (by norm_num)⟩

theorem subF {x y : Float} (hx : x.isFinite = true) (hy : y.isFinite = true) (hB : |toR x - toR y| ≤ 1024 * big) :
    (x - y).isFinite = true ∧ Rl 1 (toR (x - y)) (toR x - toR y) := by
  have := ovf_big; have := big_pos
  have hf := (sub_rounds x y hx hy).finite (by linarith)
  exact ⟨hf, Rl.of_err' (by rw [one_mul]; exact sub_err hx hy hf) (by norm_num)⟩

theorem mulF {x y : Float} (hx : x.isFinite = true) (hy : y.isFinite = true) (hB : |toR x * toR y| ≤ 1024 * big) :
    (x * y).isFinite = true ∧ Fl (toR x * toR y) (toR (x * y)) := by
  have := ovf_big; have := big_pos
  have hf := (mul_rounds x y hx hy).finite (by linarith)
  exact ⟨hf, (mul_rounds x y hx hy).fl hf⟩

theorem divF {x y : Float} (hx : x.isFinite = true) (hy : y.isFinite = true) (hy0 : toR y ≠ 0) (hB : |toR x / toR y| ≤ 1024 * big) :
    (x / y).isFinite = true ∧ Fl (toR x / toR y) (toR (x / y)) := by
  have := ovf_big; have := big_pos
  have hf := (div_rounds x y hx hy hy0).finite (by linarith)
  exact ⟨hf, (div_rounds x y hx hy hy0).fl hf⟩

theorem sqrtF {x : Float} (hx : x.isFinite = true) (h0 : 0 ≤ toR x) :
    x.sqrt.isFinite = true ∧ 0 ≤ toR x.sqrt ∧ Rl 1 (toR x.sqrt) (Real.sqrt (toR x)) := by
  obtain ⟨h1, h2, h3⟩ := sqrt_err hx h0
  refine ⟨h1, h2, Rl.of_err' ?_ (by norm_num)⟩
  rwa [one_mul, abs_of_nonneg (Real.sqrt_nonneg _)]

theorem Fl.rl {X Y : ℝ} (h : Fl X Y) (hX : (2 : ℝ) ^ (-1022 : ℤ) ≤ |X|) : Rl 1 Y X :=
  Rl.of_err' (by rw [one_mul]; exact h.normal hX) (by norm_num)

/-- The least size of the data, `2^-969`, and what it means for underflow. -/
noncomputable def tiny : ℝ := 1 / 2 ^ 969

theorem tiny_pos : 0 < tiny := by unfold tiny; positivity

theorem eta_tiny : eta ≤ ur * ur * tiny := by
  unfold eta ur tiny
  rw [show (1 : ℝ) / 2 ^ 53 * (1 / 2 ^ 53) * (1 / 2 ^ 969) = 1 / 2 ^ 1075 by
    rw [show (1075 : ℕ) = 53 + 53 + 969 by norm_num, pow_add, pow_add]; field_simp]

theorem tiny_le_one : tiny ≤ 1 := by
  unfold tiny
  rw [div_le_one (by positivity)]
  exact one_le_pow₀ (by norm_num)

theorem half_exact : (Scalar.lit 1 1 : Float).isFinite = true ∧ toR (Scalar.lit 1 1 : Float) = 1 / 2 := by
  have h1 := ofInt_exact 1 (by norm_num)
  have h2 := ofInt_exact 2 (by norm_num)
  have hr := div_rounds (Float.ofInt 1) (Float.ofInt 2) h1.1 h2.1 (by rw [h2.2]; norm_num)
  rw [h1.2, h2.2] at hr
  have := hr.exact (by push_cast; exact (by norm_num : |(1 : ℝ) / 2| < 2).trans two_lt_ovf) (by
    have := grid_pow (-1) (by norm_num)
    simpa using this)
  exact ⟨this.1, by rw [show (1:ℝ)/2 = ((1 : Int) : ℝ) / ((2 : Int) : ℝ) by norm_num]; exact this.2⟩

end Verif.F64
