import Verif.Props.Lamch

/-!
# C33, C47: `dlapy2` on binary64
-/

namespace Verif
open Float.Model Float.Model.UnpackedFloat F64

namespace F64

theorem dlapy2_def (x y : Float) : dlapy2 x y =
    if x.isNaN then x else if y.isNaN then y
    else if (Float.beq (fmin x.abs y.abs) 0) || (Float.lt Scalar.maxValue (fmax x.abs y.abs)) then fmax x.abs y.abs
    else fmax x.abs y.abs * Float.sqrt (1 + (fmin x.abs y.abs / fmax x.abs y.abs) * (fmin x.abs y.abs / fmax x.abs y.abs)) := rfl

theorem abs_abs' (x : Float) : x.abs.abs = x.abs := up_inj (by
  rw [up_abs', up_abs']; cases up x <;> rfl)
theorem abs_neg' (x : Float) : (-x).abs = x.abs := up_inj (by
  rw [up_abs', up_abs', up_neg']; cases up x <;> rfl)
theorem isNaN_neg (x : Float) : (-x).isNaN = x.isNaN := by
  rw [isNaN_up, isNaN_up, up_neg']; cases up x <;> rfl
theorem isNaN_abs (x : Float) : x.abs.isNaN = x.isNaN := by
  rw [isNaN_up, isNaN_up, up_abs']; cases up x <;> rfl
theorem neg_nan {x : Float} (h : x.isNaN = true) : -x = x := up_inj (by
  rw [isNaN_up] at h; rw [up_neg']
  cases hu : up x <;> rw [hu] at h <;> first | rfl | cases h)
theorem abs_nan {x : Float} (h : x.isNaN = true) : x.abs = x := up_inj (by
  rw [isNaN_up] at h; rw [up_abs']
  cases hu : up x <;> rw [hu] at h <;> first | rfl | cases h)

theorem nan_unique {x y : Float} (h : x.isNaN = true) (h' : y.isNaN = true) : x = y := up_inj (by
  rw [isNaN_up] at h h'
  cases hu : up x <;> rw [hu] at h <;> first | cases h | skip
  cases hv : up y <;> rw [hv] at h' <;> first | cases h' | rfl)

/-- Absolute values that are not NaN are equal or strictly ordered. -/
theorem abs_tri {x y : Float} (hx : x.isNaN = false) (hy : y.isNaN = false) :
    Float.lt x.abs y.abs = true ∨ x.abs = y.abs ∨ Float.lt y.abs x.abs = true := by
  rw [lt_toXR, lt_toXR, abs_toXR, abs_toXR]
  rw [isNaN_toXR] at hx hy
  cases hX : toXR x with
  | nan => rw [hX] at hx; cases hx
  | pinf =>
    cases hY : toXR y with
    | nan => rw [hY] at hy; cases hy
    | fin b => right; right; rfl
    | pinf =>
      right; left; apply up_inj; rw [up_abs', up_abs']
      unfold toXR at hX hY
      cases hu : up x with
      | infinity s =>
        cases hv : up y with
        | infinity t => rfl
        | _ => rw [hv] at hY; cases hY
      | _ => rw [hu] at hX; cases hX
    | ninf =>
      right; left; apply up_inj; rw [up_abs', up_abs']
      unfold toXR at hX hY
      cases hu : up x with
      | infinity s =>
        cases hv : up y with
        | infinity t => rfl
        | _ => rw [hv] at hY; cases hY
      | _ => rw [hu] at hX; cases hX
  | ninf =>
    cases hY : toXR y with
    | nan => rw [hY] at hy; cases hy
    | fin b => right; right; rfl
    | pinf =>
      right; left; apply up_inj; rw [up_abs', up_abs']
      unfold toXR at hX hY
      cases hu : up x with
      | infinity s =>
        cases hv : up y with
        | infinity t => rfl
        | _ => rw [hv] at hY; cases hY
      | _ => rw [hu] at hX; cases hX
    | ninf =>
      right; left; apply up_inj; rw [up_abs', up_abs']
      unfold toXR at hX hY
      cases hu : up x with
      | infinity s =>
        cases hv : up y with
        | infinity t => rfl
        | _ => rw [hv] at hY; cases hY
      | _ => rw [hu] at hX; cases hX
  | fin a =>
    cases hY : toXR y with
    | nan => rw [hY] at hy; cases hy
    | pinf => left; rfl
    | ninf => left; rfl
    | fin b =>
      simp only [XR.abs, XR.lt, decide_eq_true_eq]
      rcases lt_trichotomy |a| |b| with h | h | h
      · exact Or.inl h
      · right; left
        obtain ⟨fx, rx⟩ := fin_toXR hX
        obtain ⟨fy, ry⟩ := fin_toXR hY
        by_cases h0 : a = 0
        · have hb : b = 0 := by rw [h0] at h; simpa using h.symm
          obtain ⟨s, hs⟩ := toR_eq_zero fx (by rw [rx, h0])
          obtain ⟨t, ht⟩ := toR_eq_zero fy (by rw [ry, hb])
          apply up_inj; rw [up_abs', up_abs', hs, ht]; rfl
        · apply toR_inj
          · rw [abs_toR, abs_toR, rx, ry, h]
          · rw [abs_finite]; exact fx
          · rw [abs_finite]; exact fy
          · rw [abs_toR, rx]; exact abs_ne_zero.2 h0
      · exact Or.inr (Or.inr h)

theorem lt_asymm' {x y : Float} (h : Float.lt x y = true) : Float.lt y x = false := by
  rw [lt_toXR] at h ⊢
  cases hx : toXR x <;> cases hy : toXR y <;> rw [hx, hy] at h <;> first | rfl | cases h | skip
  simp only [XR.lt, decide_eq_true_eq, decide_eq_false_iff_not] at h ⊢
  exact h.not_gt

theorem fmax_comm {x y : Float} (hx : x.isNaN = false) (hy : y.isNaN = false) :
    fmax x.abs y.abs = fmax y.abs x.abs := by
  unfold fmax
  rw [isNaN_abs, isNaN_abs, hx, hy]
  simp only [Bool.false_eq_true, if_false]
  rcases abs_tri hx hy with h | h | h
  · rw [if_pos (show x.abs < y.abs from h), if_neg (show ¬ (y.abs < x.abs) from by
      intro h'; have := lt_asymm' h; rw [show Float.lt y.abs x.abs = true from h'] at this; cases this)]
  · rw [h]
  · rw [if_neg (show ¬ (x.abs < y.abs) from by
      intro h'; have := lt_asymm' h; rw [show Float.lt x.abs y.abs = true from h'] at this; cases this),
      if_pos (show y.abs < x.abs from h)]

theorem fmin_comm {x y : Float} (hx : x.isNaN = false) (hy : y.isNaN = false) :
    fmin x.abs y.abs = fmin y.abs x.abs := by
  unfold fmin
  rw [isNaN_abs, isNaN_abs, hx, hy]
  simp only [Bool.false_eq_true, if_false]
  rcases abs_tri hx hy with h | h | h
  · rw [if_pos (show x.abs < y.abs from h), if_neg (show ¬ (y.abs < x.abs) from by
      intro h'; have := lt_asymm' h; rw [show Float.lt y.abs x.abs = true from h'] at this; cases this)]
  · rw [h]
  · rw [if_neg (show ¬ (x.abs < y.abs) from by
      intro h'; have := lt_asymm' h; rw [show Float.lt x.abs y.abs = true from h'] at this; cases this),
      if_pos (show y.abs < x.abs from h)]

/-- The larger and the smaller of two finite absolute values. -/
theorem fmax_fin {x y : Float} (hx : x.isFinite = true) (hy : y.isFinite = true) :
    (fmax x.abs y.abs).isFinite = true ∧ toR (fmax x.abs y.abs) = max |toR x| |toR y| := by
  apply fin_toXR
  rw [fmax_toXR, abs_toXR, abs_toXR, toXR_fin hx, toXR_fin hy]
  simp only [XR.abs, XR.fmax, XR.isNaN, XR.lt, Bool.false_eq_true, if_false, decide_eq_true_eq]
  by_cases h : |toR x| < |toR y|
  · rw [if_pos h, max_eq_right h.le]
  · rw [if_neg h, max_eq_left (not_lt.1 h)]

theorem fmin_fin {x y : Float} (hx : x.isFinite = true) (hy : y.isFinite = true) :
    (fmin x.abs y.abs).isFinite = true ∧ toR (fmin x.abs y.abs) = min |toR x| |toR y| := by
  apply fin_toXR
  rw [fmin_toXR, abs_toXR, abs_toXR, toXR_fin hx, toXR_fin hy]
  simp only [XR.abs, XR.fmin, XR.isNaN, XR.lt, Bool.false_eq_true, if_false, decide_eq_true_eq]
  by_cases h : |toR y| < |toR x|
  · rw [if_pos h, min_eq_right h.le]
  · rw [if_neg h, min_eq_left (not_lt.1 h)]

theorem finite_not_nan {x : Float} (h : x.isFinite = true) : x.isNaN = false := by
  rw [isNaN_toXR, toXR_fin h]; rfl

theorem le_max {x : Float} (h : x.isFinite = true) : Float.lt Scalar.maxValue x = false := by
  have h1 := (C31_dlamch_range.1 x h).1
  have h2 : (dlamch 'O' : Float) = Scalar.maxValue := rfl
  rw [h2] at h1
  have h3 : (Scalar.maxValue : Float).isFinite = true := rfl
  rw [le_iff h h3] at h1
  rw [lt_toXR, toXR_fin h, toXR_fin h3]
  simpa [XR.lt] using h1

theorem eta_le_u : (1 : ℝ) / 2 ^ 1075 ≤ 1 / 2 ^ 53 :=
  one_div_le_one_div_of_le (by norm_num) (pow_le_pow_right₀ (by norm_num) (by norm_num))

theorem grid_one : Grid 1 := by simpa using grid_nat (n := 1) (by norm_num)
theorem grid_two : Grid 2 := by simpa using grid_nat (n := 2) (by norm_num)

theorem two_lt_ovf : (2 : ℝ) < ovf := by
  have := val_lt_ovf (m := 2) (e := 0) (by norm_num) (by norm_num)
  simpa using this

/-- Error of a rounded number of magnitude at most `B`, `B ≥ 1`. -/
theorem Fl.err_le {X Y B : ℝ} (h : Fl X Y) (hX : |X| ≤ B) (hB : 1 ≤ B) : |Y - X| ≤ B / 2 ^ 53 := by
  refine h.err.trans (max_le ?_ ?_)
  · exact div_le_div_of_nonneg_right hX (by norm_num)
  · refine eta_le_u.trans ?_
    exact div_le_div_of_nonneg_right hB (by norm_num)

/-- Error of a rounded number of magnitude at least `1`. -/
theorem Fl.err_rel {X Y : ℝ} (h : Fl X Y) (hX : 1 ≤ |X|) : |Y - X| ≤ |X| / 2 ^ 53 :=
  h.err_le le_rfl hX

/-- The scaled square root in `dlapy2`. -/
theorem lapy2_core {w z : Float} (hw : w.isFinite = true) (hz : z.isFinite = true) (h0 : 0 < toR z)
    (hle : toR z ≤ toR w) : ∃ S : ℝ, 1 ≤ S ∧ S ≤ 2 ∧
      |S - Real.sqrt (1 + (toR z / toR w) ^ 2)| ≤ 4 / 2 ^ 53 * Real.sqrt (1 + (toR z / toR w) ^ 2) ∧
      Rounds (toR w * S) (w * Float.sqrt (1 + (z / w) * (z / w))) := by
  have hW : 0 < toR w := h0.trans_le hle
  have hQ := div_rounds z w hz hw hW.ne'
  set Q := toR z / toR w with hQd
  have hQ0 : 0 < Q := div_pos h0 hW
  have hQ1 : Q ≤ 1 := by rw [hQd, div_le_one hW]; exact hle
  have fq := hQ.finite (by rw [abs_of_pos hQ0]; exact hQ1.trans_lt one_lt_ovf)
  have hq := hQ.fl fq
  set q := toR (z / w) with hqd
  have hq0 : 0 ≤ q := hq.nonneg hQ0.le
  have hq1 : q ≤ 1 := hq.upper 1 grid_one hQ1
  have eq1 : |q - Q| ≤ 1 / 2 ^ 53 := hq.err_le (by rw [abs_of_pos hQ0]; exact hQ1) le_rfl
  have hT := mul_rounds _ _ fq fq
  rw [← hqd] at hT
  have hqq0 : 0 ≤ q * q := mul_nonneg hq0 hq0
  have hqq1 : q * q ≤ 1 := by nlinarith
  have ft := hT.finite (by rw [abs_of_nonneg hqq0]; exact hqq1.trans_lt one_lt_ovf)
  have ht := hT.fl ft
  set t := toR ((z / w) * (z / w)) with htd
  have ht0 : 0 ≤ t := ht.nonneg hqq0
  have ht1 : t ≤ 1 := ht.upper 1 grid_one hqq1
  have et : |t - q * q| ≤ 1 / 2 ^ 53 := ht.err_le (by rw [abs_of_nonneg hqq0]; exact hqq1) le_rfl
  have hS := add_rounds 1 _ toR_one.1 ft
  rw [toR_one.2, ← htd] at hS
  have fs := hS.finite (by rw [abs_of_nonneg (by linarith)]; exact (by linarith : 1 + t ≤ 2).trans_lt two_lt_ovf)
  have hs := hS.fl fs
  set s := toR (1 + (z / w) * (z / w)) with hsd
  have hs1 : 1 ≤ s := hs.lower 1 grid_one (by linarith)
  have hs2 : s ≤ 2 := hs.upper 2 grid_two (by linarith)
  have es : |s - (1 + t)| ≤ 2 / 2 ^ 53 := hs.err_le (by rw [abs_of_nonneg (by linarith)]; linarith) (by norm_num)
  have hR := sqrt_rounds _ fs (by rw [← hsd]; linarith)
  rw [← hsd] at hR
  have ra1 : 1 ≤ Real.sqrt s := by rw [Real.one_le_sqrt]; exact hs1
  have ra2 : Real.sqrt s ≤ 2 := by rw [Real.sqrt_le_left (by norm_num)]; linarith
  have fr := hR.finite (by rw [abs_of_nonneg (by linarith)]; exact ra2.trans_lt two_lt_ovf)
  have hr := hR.fl fr
  have er := hr.err_rel (by rw [abs_of_nonneg (by linarith)]; exact ra1)
  rw [abs_of_nonneg (by linarith : (0 : ℝ) ≤ Real.sqrt s)] at er
  refine ⟨_, hr.lower 1 grid_one ra1, hr.upper 2 grid_two ra2, ?_, mul_rounds _ _ hw fr⟩
  set r := toR (Float.sqrt (1 + (z / w) * (z / w)))
  have hb1 : 1 ≤ Real.sqrt (1 + Q ^ 2) := by rw [Real.one_le_sqrt]; nlinarith
  have e1 : |s - (1 + Q ^ 2)| ≤ 5 / 2 ^ 53 := by
    have e2 : |q * q - Q ^ 2| ≤ 2 / 2 ^ 53 := by
      rw [show q * q - Q ^ 2 = (q - Q) * (q + Q) by ring, abs_mul, abs_of_nonneg (by linarith : 0 ≤ q + Q)]
      have := mul_le_mul eq1 (by linarith : q + Q ≤ 2) (by linarith) (by norm_num)
      linarith
    have := abs_le.1 es
    have := abs_le.1 et
    have := abs_le.1 e2
    rw [abs_le]; constructor <;> linarith
  have sa := Real.mul_self_sqrt (by linarith : 0 ≤ s)
  have sb := Real.mul_self_sqrt (by positivity : 0 ≤ 1 + Q ^ 2)
  generalize Real.sqrt s = A at *
  generalize Real.sqrt (1 + Q ^ 2) = B at *
  have e3 : |A - B| ≤ (5 / 2) / 2 ^ 53 := by
    have : |A - B| * 2 ≤ |A - B| * (A + B) := mul_le_mul_of_nonneg_left (by linarith) (abs_nonneg _)
    have h2 : |A - B| * (A + B) = |s - (1 + Q ^ 2)| := by
      rw [← sa, ← sb, show A * A - B * B = (A - B) * (A + B) by ring, abs_mul, abs_of_nonneg (by linarith : 0 ≤ A + B)]
    rw [h2] at this
    linarith
  have := abs_le.1 e3
  have := abs_le.1 er
  rw [abs_le]
  norm_num at *
  constructor <;> nlinarith

/-- The maximum is infinite if an argument is. -/
theorem fmax_inf {x y : Float} (hx : x.isNaN = false) (hy : y.isNaN = false)
    (h : ¬ (x.isFinite = true ∧ y.isFinite = true)) : up (fmax x.abs y.abs) = .infinity .positive := by
  have key : toXR (fmax x.abs y.abs) = .pinf := by
    rw [fmax_toXR, abs_toXR, abs_toXR]
    rw [finite_iff, finite_iff] at h
    rw [isNaN_toXR] at hx hy
    cases hX : toXR x <;> cases hY : toXR y <;> rw [hX] at hx h <;> rw [hY] at hy h <;>
      first
        | (exfalso; revert hx; simp [XR.isNaN]; done)
        | (exfalso; revert hy; simp [XR.isNaN]; done)
        | (exfalso; exact h ⟨⟨_, rfl⟩, ⟨_, rfl⟩⟩)
        | simp [XR.abs, XR.fmax, XR.isNaN, XR.lt]
  unfold toXR at key
  cases hu : up (fmax x.abs y.abs) with
  | infinity s => cases s <;> rw [hu] at key <;> first | rfl | cases key
  | _ => rw [hu] at key; cases key

theorem dlapy2_inf {x y : Float} (hx : x.isNaN = false) (hy : y.isNaN = false)
    (h : ¬ (x.isFinite = true ∧ y.isFinite = true)) : up (dlapy2 x y) = .infinity .positive := by
  have hi := fmax_inf hx hy h
  rw [dlapy2_def, hx, hy]
  have : Float.lt Scalar.maxValue (fmax x.abs y.abs) = true := by
    rw [lt_toXR, toXR_fin (show (Scalar.maxValue : Float).isFinite = true from rfl), toXR, hi]; rfl
  rw [this]
  simpa using hi

theorem hypot_eq {a b : ℝ} : Real.sqrt (a ^ 2 + b ^ 2) = Real.sqrt (max |a| |b| ^ 2 + min |a| |b| ^ 2) := by
  congr 1
  rcases le_total |a| |b| with h | h
  · rw [max_eq_right h, min_eq_left h, sq_abs, sq_abs, add_comm]
  · rw [max_eq_left h, min_eq_right h, sq_abs, sq_abs]

theorem scale_sqrt {W Z : ℝ} (hW : 0 < W) : W * Real.sqrt (1 + (Z / W) ^ 2) = Real.sqrt (W ^ 2 + Z ^ 2) := by
  have : W ^ 2 + Z ^ 2 = W ^ 2 * (1 + (Z / W) ^ 2) := by field_simp
  rw [this, Real.sqrt_mul (by positivity), Real.sqrt_sq hW.le]

/-- `dlapy2` of finite numbers: an exact zero case, and else one rounding of a slightly perturbed
hypotenuse. -/
theorem lapy2_fin {x y : Float} (hx : x.isFinite = true) (hy : y.isFinite = true) :
    (min |toR x| |toR y| = 0 ∧ dlapy2 x y = fmax x.abs y.abs) ∨
    (∃ H : ℝ, max |toR x| |toR y| ≤ H ∧
      |H - Real.sqrt (toR x ^ 2 + toR y ^ 2)| ≤ 4 / 2 ^ 53 * Real.sqrt (toR x ^ 2 + toR y ^ 2) ∧
      Rounds H (dlapy2 x y)) := by
  rw [dlapy2_def]
  rw [if_neg (by rw [finite_not_nan hx]; simp), if_neg (by rw [finite_not_nan hy]; simp)]
  obtain ⟨fw, rw'⟩ := fmax_fin hx hy
  obtain ⟨fz, rz⟩ := fmin_fin hx hy
  rw [le_max fw, Bool.or_false]
  have h0 : Float.beq (fmin x.abs y.abs) 0 = decide (min |toR x| |toR y| = 0) := by
    rw [beq_toXR, toXR_fin fz, rz, toXR_fin (x := 0) rfl]
    rfl
  rw [h0]
  by_cases hm : min |toR x| |toR y| = 0
  · left
    rw [if_pos (by simpa using hm)]
    exact ⟨hm, rfl⟩
  · right
    rw [if_neg (by simpa using hm)]
    have hpos : 0 < toR (fmin x.abs y.abs) := by
      rw [rz]; exact lt_of_le_of_ne (le_min (abs_nonneg _) (abs_nonneg _)) (Ne.symm hm)
    have hle : toR (fmin x.abs y.abs) ≤ toR (fmax x.abs y.abs) := by rw [rz, rw']; exact min_le_max
    obtain ⟨S, hS1, hS2, hS3, hS4⟩ := lapy2_core fw fz hpos hle
    refine ⟨_, ?_, ?_, hS4⟩
    · rw [rw']
      have : 0 ≤ max |toR x| |toR y| := le_max_of_le_left (abs_nonneg _)
      nlinarith
    · have hW := hpos.trans_le hle
      rw [rw', rz] at *
      rw [hypot_eq, ← scale_sqrt hW, ← mul_sub, abs_mul, abs_of_pos hW]
      calc _ ≤ max |toR x| |toR y| * _ := mul_le_mul_of_nonneg_left hS3 hW.le
        _ = _ := by ring

end F64

/-- **C33.** `dlapy2` returns `NaN` if and only if an argument is `NaN`. -/
theorem C33_dlapy2_nan (x y : Float) : (dlapy2 x y).isNaN = (x.isNaN || y.isNaN) := by
  by_cases hx : x.isNaN = true
  · rw [dlapy2_def, if_pos hx, hx]; rfl
  by_cases hy : y.isNaN = true
  · rw [dlapy2_def, if_neg hx, if_pos hy, hy]; simp
  rw [Bool.not_eq_true] at hx hy
  rw [hx, hy]
  by_cases hf : x.isFinite = true ∧ y.isFinite = true
  · rcases lapy2_fin hf.1 hf.2 with h | ⟨H, _, _, h⟩
    · rw [h.2]; exact finite_not_nan (fmax_fin hf.1 hf.2).1
    · exact h.not_nan
  · rw [isNaN_up, dlapy2_inf hx hy hf]; rfl

/-- **C33.** `dlapy2` returns `+∞` if an argument is infinite and none is `NaN`. -/
theorem C33_dlapy2_inf (x y : Float) (hx : x.isNaN = false) (hy : y.isNaN = false)
    (h : x.isInf = true ∨ y.isInf = true) : dlapy2 x y = 1 / 0 := by
  apply up_inj
  rw [dlapy2_inf hx hy ?_]
  · rfl
  · rintro ⟨h1, h2⟩
    rw [isInf_up, isInf_up] at h
    rw [isFinite_up] at h1 h2
    rcases h with h | h
    · cases hu : up x <;> rw [hu] at h h1 <;> first | (revert h; simp [UnpackedFloat.isInf]; done) | (revert h1; simp [UnpackedFloat.isFinite]; done)
    · cases hu : up y <;> rw [hu] at h h2 <;> first | (revert h; simp [UnpackedFloat.isInf]; done) | (revert h2; simp [UnpackedFloat.isFinite]; done)

/-- **C33.** The signs of the arguments do not matter. -/
theorem C33_dlapy2_sign (x y : Float) : dlapy2 (-x) y = dlapy2 x y ∧ dlapy2 x (-y) = dlapy2 x y := by
  constructor
  · rw [dlapy2_def, dlapy2_def, isNaN_neg, abs_neg']
    by_cases h : x.isNaN = true
    · rw [if_pos h, if_pos h, neg_nan h]
    · rw [if_neg h, if_neg h]
  · rw [dlapy2_def, dlapy2_def, isNaN_neg, abs_neg']
    by_cases h : x.isNaN = true
    · rw [if_pos h, if_pos h]
    · rw [if_neg h, if_neg h]
      by_cases h : y.isNaN = true
      · rw [if_pos h, if_pos h, neg_nan h]
      · rw [if_neg h, if_neg h]

/-- **C33.** The order of the arguments does not matter. -/
theorem C33_dlapy2_comm (x y : Float) : dlapy2 x y = dlapy2 y x := by
  by_cases hx : x.isNaN = true
  · exact nan_unique (by rw [C33_dlapy2_nan, hx]; rfl) (by rw [C33_dlapy2_nan, hx]; simp)
  by_cases hy : y.isNaN = true
  · exact nan_unique (by rw [C33_dlapy2_nan, hy]; simp) (by rw [C33_dlapy2_nan, hy]; simp)
  rw [Bool.not_eq_true] at hx hy
  rw [dlapy2_def, dlapy2_def, fmax_comm hx hy, fmin_comm hx hy, hx, hy]
  rfl

/-- **C33.** If one argument is a zero, the result is exactly the absolute value of the other. -/
theorem C33_dlapy2_zero (x : Float) : dlapy2 x 0 = x.abs ∧ dlapy2 x (-0) = x.abs ∧
    dlapy2 0 x = x.abs ∧ dlapy2 (-0) x = x.abs := by
  have h : dlapy2 x 0 = x.abs := by
    rw [dlapy2_def]
    by_cases hx : x.isNaN = true
    · rw [if_pos hx, abs_nan hx]
    · rw [if_neg hx, if_neg (by decide)]
      rw [Bool.not_eq_true] at hx
      have h1 : Float.beq (fmin x.abs (Float.abs 0)) 0 = true := by
        rw [beq_toXR, fmin_toXR, abs_toXR, show toXR (Float.abs 0) = .fin 0 from rfl, show toXR 0 = .fin 0 from rfl]
        rw [isNaN_toXR] at hx
        cases hX : toXR x with
        | nan => rw [hX] at hx; exact absurd hx (by simp [XR.isNaN])
        | fin a =>
          simp only [XR.abs, XR.fmin, XR.isNaN, XR.lt, Bool.false_eq_true, if_false, decide_eq_true_eq]
          by_cases h0 : 0 < |a|
          · rw [if_pos h0]; simp [XR.beq]
          · rw [if_neg h0]
            have : a = 0 := by simpa using h0
            rw [this]; simp [XR.beq]
        | _ => simp [XR.abs, XR.fmin, XR.isNaN, XR.lt, XR.beq]
      rw [h1, Bool.true_or, if_pos rfl]
      unfold fmax
      rw [isNaN_abs, hx, if_neg (by decide), if_neg (by decide), if_neg]
      show ¬ (Float.lt x.abs (Float.abs 0) = true)
      rw [lt_toXR, abs_toXR, show toXR (Float.abs 0) = .fin 0 from rfl]
      cases toXR x with
      | fin a => simp [XR.abs, XR.lt]
      | _ => simp [XR.abs, XR.lt]
  refine ⟨h, ?_, ?_, ?_⟩
  · rw [(C33_dlapy2_sign x 0).2, h]
  · rw [C33_dlapy2_comm, h]
  · rw [(C33_dlapy2_sign 0 x).1, C33_dlapy2_comm, h]

/-- **C47 (accuracy).** For finite arguments, whenever the result is finite it agrees with the exact
`√(x² + y²)` up to six units of the relative rounding error `2⁻⁵³` (plus half of the smallest subnormal
number), whatever the sizes of `x` and `y`: there is no loss from intermediate overflow or underflow. -/
theorem C47_dlapy2_accuracy (x y : Float) (hx : x.isFinite = true) (hy : y.isFinite = true)
    (hr : (dlapy2 x y).isFinite = true) :
    |toR (dlapy2 x y) - Real.sqrt (toR x ^ 2 + toR y ^ 2)| ≤
      6 / 2 ^ 53 * Real.sqrt (toR x ^ 2 + toR y ^ 2) + 1 / 2 ^ 1075 := by
  have hs := Real.sqrt_nonneg (toR x ^ 2 + toR y ^ 2)
  have hp : (0 : ℝ) < 1 / 2 ^ 1075 := by positivity
  rcases lapy2_fin hx hy with ⟨h0, h⟩ | ⟨H, h1, h2, h3⟩
  · rw [h, (fmax_fin hx hy).2, hypot_eq, h0]
    have : 0 ≤ max |toR x| |toR y| := le_max_of_le_left (abs_nonneg _)
    rw [show max |toR x| |toR y| ^ 2 + (0 : ℝ) ^ 2 = max |toR x| |toR y| ^ 2 by ring, Real.sqrt_sq this, sub_self, abs_zero]
    positivity
  · have hH : 0 ≤ H := le_trans (le_max_of_le_left (abs_nonneg _)) h1
    have e := (h3.fl hr).err
    rw [abs_of_nonneg hH] at e
    have h2' := abs_le.1 h2
    generalize Real.sqrt (toR x ^ 2 + toR y ^ 2) = E at *
    generalize toR (dlapy2 x y) = r at *
    generalize (1 : ℝ) / 2 ^ 1075 = η at *
    have e2 : |r - H| ≤ H / 2 ^ 53 + η := e.trans (max_le (by linarith) (by
      have : 0 ≤ H / 2 ^ 53 := by positivity
      linarith))
    have := abs_le.1 e2
    rw [abs_le]
    norm_num at *
    constructor <;> nlinarith

/-- **C47 (no premature overflow).** For finite arguments the result is infinite only if the exact value,
enlarged by four units of the relative rounding error, is beyond the overflow limit
`(2⁵³ - 1/2)·2⁹⁷¹` from which numbers round to infinity. -/
theorem C47_dlapy2_overflow (x y : Float) (hx : x.isFinite = true) (hy : y.isFinite = true)
    (hr : (dlapy2 x y).isFinite = false) :
    (2 ^ 53 - 1 / 2) * 2 ^ 971 ≤ (1 + 4 / 2 ^ 53) * Real.sqrt (toR x ^ 2 + toR y ^ 2) := by
  rcases lapy2_fin hx hy with ⟨h0, h⟩ | ⟨H, h1, h2, h3⟩
  · rw [h, (fmax_fin hx hy).1] at hr; cases hr
  · have hH : 0 ≤ H := le_trans (le_max_of_le_left (abs_nonneg _)) h1
    have h4 : ovf ≤ H := by
      by_contra hc
      have := h3.finite (by rw [abs_of_nonneg hH]; linarith)
      rw [this] at hr; cases hr
    have := (abs_le.1 h2).2
    rw [ovf] at h4
    linarith

/-- **C47 (lower bound).** The result is never below the larger magnitude. -/
theorem C47_dlapy2_ge (x y : Float) (hx : x.isNaN = false) (hy : y.isNaN = false) :
    x.abs ≤ dlapy2 x y ∧ y.abs ≤ dlapy2 x y := by
  have key : ∀ x y : Float, x.isNaN = false → y.isNaN = false → x.abs ≤ dlapy2 x y := by
    intro x y hx hy
    by_cases hf : x.isFinite = true ∧ y.isFinite = true
    · have hfx : x.abs.isFinite = true := by rw [abs_finite]; exact hf.1
      rcases lapy2_fin hf.1 hf.2 with ⟨h0, h⟩ | ⟨H, h1, h2, h3⟩
      · rw [h, le_iff hfx (fmax_fin hf.1 hf.2).1, (fmax_fin hf.1 hf.2).2, abs_toR]
        exact le_max_left _ _
      · rcases h3.cases with hc | hc | hc
        · rw [le_iff hfx hc.1]
          exact hc.2.lower _ (grid_toR _) (by rw [abs_toR]; exact le_trans (le_max_left _ _) h1)
        · show Float.le _ _ = true
          rw [le_toXR, toXR_fin hfx, toXR, hc.1]; rfl
        · exfalso
          have : 0 ≤ H := le_trans (le_max_of_le_left (abs_nonneg _)) h1
          have := one_lt_ovf
          linarith [hc.2]
    · show Float.le _ _ = true
      have := dlapy2_inf hx hy hf
      rw [le_toXR, toXR, toXR, this, up_abs']
      rw [isNaN_up] at hx
      cases hu : up x with
      | notANumber => rw [hu] at hx; exact absurd hx (by decide)
      | _ => simp [UnpackedFloat.abs, xr, XR.le, XR.lt, XR.beq]
  exact ⟨key x y hx hy, by rw [C33_dlapy2_comm]; exact key y x hy hx⟩

/-- Non-trivial instances: finite arguments with a finite result (3, 4), finite arguments with an infinite result
(`MAX`, `MAX`). -/
example : (dlapy2 (3 : Float) 4).isFinite = true ∧
    (dlapy2 (Scalar.maxValue : Float) Scalar.maxValue).isFinite = false ∧
    (3 : Float).isFinite = true ∧ (4 : Float).isFinite = true ∧ (Scalar.maxValue : Float).isFinite = true := by
  decide +kernel

end Verif
