import Verif.Props.Nrm2Acc
import Verif.Props.Larfg
import Verif.Props.Lamch

/-!
# Accuracy of `dlarfg` on binary64
-/

namespace Verif.F64
open Float.Model Float.Model.UnpackedFloat

/-- The sign of a float that is not `NaN`, from its unpacked form. -/
theorem signBit_sign (x : Float) : signBit x = true ↔ Sign.ofBitVec (unpackSign (spec := Format.binary64) x.toModel.toBits.toBitVec) = .negative := by
  unfold signBit Sign.ofBitVec
  show (x.toModel.toBits >>> 63 == 1) = true ↔ _
  generalize x.toModel.toBits = b
  rw [beq_iff_eq, ← UInt64.toBitVec_inj]
  have e : (b >>> 63).toBitVec = b.toBitVec >>> 63 := by simp
  rw [e]
  generalize b.toBitVec = c
  have h1 : (unpackSign (spec := Format.binary64) c) = c.extractLsb' 63 1 := rfl
  rw [h1]
  have h2 : c.extractLsb' 63 1 = 0#1 ↔ c >>> 63 = 0#64 := by
    constructor
    · intro h
      apply BitVec.eq_of_toNat_eq
      have := congrArg BitVec.toNat h
      simp [BitVec.extractLsb'_toNat, Nat.shiftRight_eq_div_pow] at this ⊢
      omega
    · intro h
      apply BitVec.eq_of_toNat_eq
      have := congrArg BitVec.toNat h
      simp [BitVec.extractLsb'_toNat, Nat.shiftRight_eq_div_pow] at this ⊢
      omega
  have h3 : c >>> 63 = 0#64 ∨ c >>> 63 = 1#64 := by
    have : (c >>> 63).toNat = 0 ∨ (c >>> 63).toNat = 1 := by
      simp [Nat.shiftRight_eq_div_pow]; omega
    rcases this with h | h
    · exact Or.inl (BitVec.eq_of_toNat_eq (by simpa using h))
    · exact Or.inr (BitVec.eq_of_toNat_eq (by simpa using h))
  rcases h3 with h | h
  · rw [if_pos (h2.2 h), h]; simp
  · rw [if_neg (fun hh => by rw [h2.1 hh] at h; exact absurd h (by decide)), h]; simp

theorem up_sign (x : Float) : (∀ s m e h, up x = .finite s m e h → s = Sign.ofBitVec (unpackSign (spec := Format.binary64) x.toModel.toBits.toBitVec)) := by
  intro s m e h hu
  unfold up Float.Model.unpack UnpackedFloat.unpack at hu
  simp only at hu
  split at hu
  · split at hu <;> cases hu
  · split at hu
    · split at hu
      · cases hu
      · simp only [UnpackedFloat.finite.injEq] at hu; exact hu.1.symm
    · simp only [UnpackedFloat.finite.injEq] at hu; exact hu.1.symm

theorem one_fin : (1 : Float).isFinite = true := rfl

/-- `signum` is `1` or `-1`, with the sign of its argument. -/
theorem signum_fin {x : Float} (hx : x.isFinite = true) : ∃ s : ℝ, (s = 1 ∨ s = -1) ∧ s * toR x = |toR x| ∧ (signum x).isFinite = true ∧ toR (signum x) = s := by
  have hn : x.isNaN = false := by
    rw [isNaN_up]; rw [isFinite_up] at hx
    cases hu : up x <;> rw [hu] at hx <;> first | rfl | cases hx
  have h1 : toR (1 : Float).abs = 1 := by rw [abs_toR, toR_one.2, abs_one]
  have h1f : (1 : Float).abs.isFinite = true := abs_fin toR_one.1
  unfold signum copysign
  rw [hn, if_neg (by simp)]
  have sg : ∀ s m e h, up x = .finite s m e h → toR x = sgnR s * (m * (2 : ℝ) ^ e) := by
    intro s m e h hu; unfold toR; rw [hu]; rfl
  have z0 : (∀ s m e h, up x ≠ .finite s m e h) → toR x = 0 := by
    intro h; unfold toR; cases hu : up x <;> first | rfl | exact absurd hu (h _ _ _ _)
  by_cases hb : signBit x = true
  · rw [if_pos hb]
    refine ⟨-1, Or.inr rfl, ?_, by rw [neg_finite]; exact h1f, by rw [neg_toR, h1]⟩
    by_cases hf : ∃ s m e h, up x = .finite s m e h
    · obtain ⟨s, m, e, h, hu⟩ := hf
      have := up_sign x s m e h hu
      rw [signBit_sign] at hb
      rw [hb] at this
      rw [sg s m e h hu, this]
      have : 0 ≤ (m : ℝ) * (2 : ℝ) ^ e := mul_nonneg (Nat.cast_nonneg _) (zp _).le
      rw [show sgnR .negative = -1 from rfl, show (-1 : ℝ) * (-1 * (m * 2 ^ e)) = m * 2 ^ e by ring, abs_mul, abs_of_nonneg this]; norm_num
    · push Not at hf
      rw [z0 hf]; simp
  · rw [if_neg hb]
    refine ⟨1, Or.inl rfl, ?_, h1f, h1⟩
    by_cases hf : ∃ s m e h, up x = .finite s m e h
    · obtain ⟨s, m, e, h, hu⟩ := hf
      have := up_sign x s m e h hu
      rw [signBit_sign] at hb
      have hs : s = .positive := by
        cases s
        · exact absurd this.symm hb
        · rfl
      rw [sg s m e h hu, hs]
      have : 0 ≤ (m : ℝ) * (2 : ℝ) ^ e := mul_nonneg (Nat.cast_nonneg _) (zp _).le
      rw [show sgnR .positive = 1 from rfl, one_mul, one_mul, abs_of_nonneg this]
    · push Not at hf
      rw [z0 hf]; simp

/-! ### Differences, and values up to sign -/

theorem Fl.of_int {X Y : ℝ} (hf : Fl X Y) (c : ℤ) (hX : X = c * (2 : ℝ) ^ (-1074 : ℤ)) : |Y - X| ≤ ur * |X| := by
  by_cases hc : c.natAbs < 2 ^ 53
  · have : Grid X := by
      refine ⟨c.natAbs, -1074, hc, le_refl _, ?_⟩
      rw [hX, abs_mul, abs_of_pos (zp _)]
      congr 1
      rw [Nat.cast_natAbs, Int.cast_abs]
    rw [hf.exact this, sub_self, abs_zero]
    exact mul_nonneg ur_pos.le (abs_nonneg _)
  · refine hf.err.trans (max_le (le_of_eq ?_) ?_)
    · unfold ur; ring
    · have h1 : (2 : ℝ) ^ 53 * 2 ^ (-1074 : ℤ) ≤ |X| := by
        rw [hX, abs_mul, abs_of_pos (zp (-1074))]
        refine mul_le_mul_of_nonneg_right ?_ (zp _).le
        rw [← Int.cast_abs, ← Nat.cast_natAbs]
        exact_mod_cast (by omega : 2 ^ 53 ≤ c.natAbs)
      calc (1 : ℝ) / 2 ^ 1075 ≤ ur * (2 ^ 53 * 2 ^ (-1074 : ℤ)) := by
            unfold ur
            rw [← mul_assoc, div_mul_cancel₀ _ (by positivity), one_mul, show (1 : ℝ) / 2 ^ 1075 = 2 ^ (-1075 : ℤ) by rw [zpow_neg, one_div]; rfl]
            exact zpow_le_zpow_right₀ (by norm_num) (by norm_num)
        _ ≤ _ := mul_le_mul_of_nonneg_left h1 ur_pos.le

/-- The difference of two floats has no underflow error. -/
theorem sub_err {x y : Float} (hx : x.isFinite = true) (hy : y.isFinite = true) (h : (x - y).isFinite = true) :
    |toR (x - y) - (toR x - toR y)| ≤ ur * |toR x - toR y| := by
  obtain ⟨a, ha⟩ := grid_int (x := x)
  obtain ⟨b, hb⟩ := grid_int (x := y)
  exact ((sub_rounds x y hx hy).fl h).of_int (a - b) (by rw [ha, hb]; push_cast; ring)

theorem Fl.sign {s X Y : ℝ} (hs : s = 1 ∨ s = -1) (h : Fl (s * X) Y) : Fl X (s * Y) := by
  rcases hs with rfl | rfl
  · simpa using h
  · simpa using h.neg

theorem sign_sq {s : ℝ} (hs : s = 1 ∨ s = -1) : s * s = 1 := by rcases hs with rfl | rfl <;> norm_num
theorem sign_abs {s : ℝ} (hs : s = 1 ∨ s = -1) : |s| = 1 := by rcases hs with rfl | rfl <;> norm_num
theorem sign_neg {s : ℝ} (hs : s = 1 ∨ s = -1) : -s = 1 ∨ -s = -1 := by rcases hs with rfl | rfl <;> norm_num

/-- The sum of the magnitudes of `alpha` and `beta`, which have opposite signs, as `beta - alpha` or `alpha - beta`. -/
theorem opp_sub {x y : Float} {s A D : ℝ} (hs : s = 1 ∨ s = -1) (hx : x.isFinite = true) (hy : y.isFinite = true)
    (hX : toR x - toR y = s * (D + A)) (hA : 0 ≤ A) (hAD : A ≤ D) (hg : Grid D) (hD : D ≤ 2 ^ (1021 : ℤ)) :
    (x - y).isFinite = true ∧ D ≤ s * toR (x - y) ∧ s * toR (x - y) ≤ 2 * D ∧ |s * toR (x - y) - (D + A)| ≤ ur * (D + A) := by
  have hr := sub_rounds x y hx hy
  have hfin : (x - y).isFinite = true := hr.finite (by
    rw [hX, abs_mul, sign_abs hs, one_mul, abs_of_nonneg (by linarith)]
    refine lt_ovf (a := 1022) ?_ (by norm_num)
    rw [show (1022 : ℤ) = 1021 + 1 by norm_num, ← z2]
    generalize (2 : ℝ) ^ (1021 : ℤ) = w at *
    rw [zpow_one]; linarith)
  have hf := hr.fl hfin
  rw [hX] at hf
  have hf' := hf.sign hs
  refine ⟨hfin, hf'.lower D hg (by linarith), hf'.upper (2 * D) ?_ (by linarith), ?_⟩
  · have := grid_scale hg 1
    rw [show ((1 : ℕ) : ℤ) = 1 from rfl, zpow_one] at this
    rwa [mul_comm]
  · have := sub_err hx hy hfin
    rw [hX, abs_mul, sign_abs hs, one_mul, abs_of_nonneg (show 0 ≤ D + A by linarith)] at this
    rw [show s * toR (x - y) - (D + A) = s * (toR (x - y) - s * (D + A)) by rw [mul_sub, ← mul_assoc, sign_sq hs, one_mul], abs_mul, sign_abs hs, one_mul]
    exact this

theorem finish_tau {alpha beta : Float} {s D : ℝ} (hs : s = 1 ∨ s = -1) (ha : alpha.isFinite = true) (hb : beta.isFinite = true)
    (hsa : s * toR alpha = |toR alpha|) (hbe : toR beta = -s * D) (h1 : |toR alpha| ≤ D) (h0 : 0 < D) (h2 : D ≤ 2 ^ (1021 : ℤ)) :
    ((beta - alpha) / beta).isFinite = true ∧ 1 ≤ toR ((beta - alpha) / beta) ∧ toR ((beta - alpha) / beta) ≤ 2 ∧
      |toR ((beta - alpha) / beta) - (D + |toR alpha|) / D| ≤ 3 * ur * ((D + |toR alpha|) / D) := by
  have hg : Grid D := by
    have h3 : D = -s * toR beta := by rw [hbe, ← mul_assoc, neg_mul_neg, sign_sq hs, one_mul]
    rcases hs with rfl | rfl
    · rw [h3, neg_one_mul]; exact (grid_toR beta).neg
    · rw [h3, neg_neg, one_mul]; exact grid_toR beta
  have ea : toR alpha = s * |toR alpha| := by rw [← hsa, ← mul_assoc, sign_sq hs, one_mul]
  obtain ⟨f1, l1, u1, e1⟩ := opp_sub (sign_neg hs) hb ha (by rw [hbe, show toR alpha = s * |toR alpha| from ea]; rw [abs_mul, sign_abs hs, one_mul, abs_abs]; ring) (abs_nonneg (toR alpha)) h1 hg h2
  set w := toR (beta - alpha) with hw
  set A := |toR alpha| with hA
  have A0 : 0 ≤ A := abs_nonneg _
  have hr := div_rounds (beta - alpha) beta f1 hb (by
    rw [hbe]; rcases hs with rfl | rfl <;> simp <;> linarith)
  have eq : toR (beta - alpha) / toR beta = (-s * w) / D := by
    rw [← hw, hbe]
    rcases hs with rfl | rfl
    · rw [neg_one_mul, neg_one_mul, div_neg, neg_div]
    · norm_num
  rw [eq] at hr
  set W := -s * w with hW
  have q1 : 1 ≤ W / D := by rw [le_div_iff₀ h0]; linarith
  have q2 : W / D ≤ 2 := by rw [div_le_iff₀ h0]; linarith
  have hfin : ((beta - alpha) / beta).isFinite = true := hr.finite (by
    rw [abs_of_nonneg (by linarith)]
    exact lt_ovf (a := 1) (by rw [zpow_one]; exact q2) (by norm_num))
  have hf := hr.fl hfin
  refine ⟨hfin, hf.lower 1 grid_one q1, hf.upper 2 grid_two q2, ?_⟩
  have e2 := hf.normal (by
    rw [abs_of_nonneg (by linarith)]
    refine le_trans (z2le (show (-1022 : ℤ) ≤ 0 by norm_num)) ?_
    rw [zpow_zero]; exact q1)
  rw [abs_of_nonneg (by linarith : 0 ≤ W / D)] at e2
  have e3 : |W / D - (D + A) / D| ≤ ur * ((D + A) / D) := by
    rw [← sub_div, abs_div, abs_of_pos h0, mul_div_assoc']
    exact div_le_div_of_nonneg_right e1 h0.le
  have T1 : 0 ≤ (D + A) / D := by positivity
  generalize (D + A) / D = T at *
  generalize W / D = V at *
  have hu := ur_pos
  have hu1 : ur ≤ 1 / 2 := by unfold ur; norm_num
  have i1 := _root_.abs_le.1 e2
  have i2 := _root_.abs_le.1 e3
  have : ur * V ≤ ur * ((1 + ur) * T) := mul_le_mul_of_nonneg_left (by linarith) hu.le
  have : ur * ((1 + ur) * T) ≤ 2 * ur * T := by nlinarith [mul_nonneg hu.le T1]
  rw [_root_.abs_le]; constructor <;> linarith

/-- The factor `1 / (alpha - beta)`. -/
theorem finish_scale {alpha beta : Float} {s D : ℝ} (hs : s = 1 ∨ s = -1) (ha : alpha.isFinite = true) (hb : beta.isFinite = true)
    (hsa : s * toR alpha = |toR alpha|) (hbe : toR beta = -s * D) (h1 : |toR alpha| ≤ D) (h0 : (2 : ℝ) ^ (-972 : ℤ) ≤ D) (h2 : D ≤ 2 ^ (1021 : ℤ)) :
    (1 / (alpha - beta)).isFinite = true ∧ |s * toR (1 / (alpha - beta)) - 1 / (D + |toR alpha|)| ≤ 3 * ur * (1 / (D + |toR alpha|)) := by
  have hD0 : 0 < D := lt_of_lt_of_le (zp _) h0
  have hg : Grid D := by
    have h3 : D = -s * toR beta := by rw [hbe, ← mul_assoc, neg_mul_neg, sign_sq hs, one_mul]
    rcases hs with rfl | rfl
    · rw [h3, neg_one_mul]; exact (grid_toR beta).neg
    · rw [h3, neg_neg, one_mul]; exact grid_toR beta
  have ea : toR alpha = s * |toR alpha| := by rw [← hsa, ← mul_assoc, sign_sq hs, one_mul]
  obtain ⟨f1, l1, u1, e1⟩ := opp_sub hs ha hb (by rw [hbe, show toR alpha = s * |toR alpha| from ea]; rw [abs_mul, sign_abs hs, one_mul, abs_abs]; ring) (abs_nonneg (toR alpha)) h1 hg h2
  set w := toR (alpha - beta) with hw
  set A := |toR alpha| with hA
  have A0 : 0 ≤ A := abs_nonneg _
  set W := s * w with hW
  have W0 : 0 < W := by linarith
  have ew : w = s * W := by rw [hW, ← mul_assoc, sign_sq hs, one_mul]
  have hr := div_rounds 1 (alpha - beta) toR_one.1 f1 (by
    rw [← hw, ew]; rcases hs with rfl | rfl <;> simp <;> linarith)
  have eq : toR 1 / toR (alpha - beta) = s * (1 / W) := by
    rw [← hw, ew, toR_one.2]
    rcases hs with rfl | rfl
    · rw [one_mul, one_mul]
    · rw [neg_one_mul, neg_one_mul, div_neg]
  rw [eq] at hr
  have w1 : 1 / W ≤ 2 ^ (972 : ℤ) := by
    rw [div_le_iff₀ W0]
    refine le_trans (le_of_eq ?_) (mul_le_mul_of_nonneg_left (h0.trans l1) (zp _).le)
    rw [z2]; norm_num
  have w2 : (2 : ℝ) ^ (-1022 : ℤ) ≤ 1 / W := by
    rw [le_div_iff₀ W0]
    refine le_trans (mul_le_mul_of_nonneg_left (u1.trans (mul_le_mul_of_nonneg_left h2 (by norm_num))) (zp _).le) (le_of_eq ?_)
    rw [show (2 : ℝ) * 2 ^ (1021 : ℤ) = 2 ^ (1 : ℤ) * 2 ^ (1021 : ℤ) by rw [zpow_one], z2, z2]; norm_num
  have w0 : 0 ≤ 1 / W := by positivity
  have hfin : (1 / (alpha - beta)).isFinite = true := hr.finite (by
    rw [abs_mul, sign_abs hs, one_mul, abs_of_nonneg w0]
    exact lt_ovf w1 (by norm_num))
  have hf := (hr.fl hfin).sign hs
  refine ⟨hfin, ?_⟩
  have e2 := hf.normal (by rw [abs_of_nonneg w0]; exact w2)
  rw [abs_of_nonneg w0] at e2
  set Q := s * toR (1 / (alpha - beta)) with hQ
  have Y0 : 0 < D + A := by linarith
  have hu := ur_pos
  have hu1 : ur ≤ 1 / 16 := by unfold ur; norm_num
  have i1 := _root_.abs_le.1 e1
  have e3 : |1 / W - 1 / (D + A)| ≤ 3 / 2 * ur * (1 / (D + A)) := by
    rw [div_sub_div _ _ W0.ne' Y0.ne', abs_div, abs_of_pos (mul_pos W0 Y0), div_le_iff₀ (mul_pos W0 Y0), one_mul, mul_one]
    rw [show 3 / 2 * ur * (1 / (D + A)) * (W * (D + A)) = 3 / 2 * ur * W by field_simp]
    rw [_root_.abs_le]
    constructor <;> nlinarith [mul_pos hu Y0]
  have i2 := _root_.abs_le.1 e2
  have i3 := _root_.abs_le.1 e3
  have Z0 : 0 ≤ 1 / (D + A) := by positivity
  generalize 1 / (D + A) = Z at *
  generalize 1 / W = V at *
  clear_value Q
  have : ur * V ≤ ur * ((1 + 3 / 2 * ur) * Z) := mul_le_mul_of_nonneg_left (by linarith) hu.le
  have : ur * ((1 + 3 / 2 * ur) * Z) ≤ 3 / 2 * ur * Z := by nlinarith [mul_nonneg hu.le Z0]
  rw [_root_.abs_le]; constructor <;> linarith

/-! ### The computed norm -/

theorem sqrt_lip (a x y : ℝ) : |Real.sqrt (a ^ 2 + x ^ 2) - Real.sqrt (a ^ 2 + y ^ 2)| ≤ |x - y| := by
  have key : ∀ x y : ℝ, Real.sqrt (a ^ 2 + x ^ 2) ≤ Real.sqrt (a ^ 2 + y ^ 2) + |x - y| := by
    intro x y
    have h0 := Real.sqrt_nonneg (a ^ 2 + y ^ 2)
    have h1 : |y| ≤ Real.sqrt (a ^ 2 + y ^ 2) := Real.abs_le_sqrt (by nlinarith [sq_nonneg a])
    have h2 := Real.sq_sqrt (show 0 ≤ a ^ 2 + y ^ 2 by positivity)
    rw [Real.sqrt_le_left (by positivity)]
    have h3 : y * (x - y) ≤ |y| * |x - y| := by rw [← abs_mul]; exact le_abs_self _
    have h4 := mul_le_mul_of_nonneg_right h1 (abs_nonneg (x - y))
    have h5 := sq_abs (x - y)
    nlinarith
  rw [_root_.abs_le]
  have k1 := key x y
  have k2 := key y x
  rw [abs_sub_comm] at k2
  constructor <;> linarith

/-- `dlapy2 alpha xnorm` approximates the norm of the whole vector. -/
theorem lapy2_norm {alpha r : Float} {l : List Float} {m : Nat} (hr : NormAccurate m l r) (hm : m < 2 ^ 31) (ha : alpha.isFinite = true)
    (hN : Real.sqrt (toR alpha ^ 2 + norm2 l ^ 2) ≤ 2 ^ (1020 : ℤ)) :
    (dlapy2 alpha r).isFinite = true ∧ |toR alpha| ≤ toR (dlapy2 alpha r) ∧ toR r ≤ toR (dlapy2 alpha r) ∧
      |toR (dlapy2 alpha r) - Real.sqrt (toR alpha ^ 2 + norm2 l ^ 2)| ≤
        (2 * m + 31) * ur * Real.sqrt (toR alpha ^ 2 + norm2 l ^ 2) + 2 ^ (-1036 : ℤ) := by
  set N := Real.sqrt (toR alpha ^ 2 + norm2 l ^ 2) with hNdef
  set H := Real.sqrt (toR alpha ^ 2 + toR r ^ 2) with hH
  have N0 : 0 ≤ N := Real.sqrt_nonneg _
  have H0 : 0 ≤ H := Real.sqrt_nonneg _
  have X0 : 0 ≤ norm2 l := Real.sqrt_nonneg _
  have XN : norm2 l ≤ N := (le_abs_self _).trans (Real.abs_le_sqrt (by nlinarith [sq_nonneg (toR alpha)]))
  have hu := ur_pos
  have g1 := gamma_le (m + 12) (by omega)
  have hmr : (m : ℝ) ≤ 2 ^ 31 := by exact_mod_cast hm.le
  have m0 : (0 : ℝ) ≤ m := Nat.cast_nonneg m
  have V1 : Real.sqrt m * 2 ^ (-1053 : ℤ) ≤ 2 ^ (-1037 : ℤ) := by
    have : Real.sqrt m ≤ 2 ^ (16 : ℤ) := by
      rw [Real.sqrt_le_left (by positivity)]
      refine hmr.trans ?_
      norm_num
    refine (mul_le_mul_of_nonneg_right this (zp _).le).trans (le_of_eq ?_)
    rw [z2]; norm_num
  have e1 : |H - N| ≤ 2 * (m + 12) * ur * N + 2 ^ (-1037 : ℤ) := by
    refine (sqrt_lip _ _ _).trans (hr.err.trans (add_le_add ?_ V1))
    have p0 := one_le_pow (m + 12)
    refine (mul_le_mul_of_nonneg_left XN (by linarith)).trans (mul_le_mul_of_nonneg_right ?_ N0)
    push_cast at g1
    linarith
  have ub : ur * (2 * m + 31) ≤ 1 / 1000 := by
    refine (mul_le_mul_of_nonneg_left (show (2 * m + 31 : ℝ) ≤ 2 * 2 ^ 31 + 31 by linarith) hu.le).trans ?_
    unfold ur; norm_num
  have hz : (2 : ℝ) ^ (-1037 : ℤ) ≤ 1 := by
    have := z2le (show (-1037 : ℤ) ≤ 0 by norm_num)
    rwa [zpow_zero] at this
  have HN : H ≤ 2 * N + 1 := by
    have := (_root_.abs_le.1 e1).2
    have h2 : 2 * (m + 12) * ur * N ≤ 1 * N := mul_le_mul_of_nonneg_right (by nlinarith) N0
    linarith only [this, h2, hz, N0]
  have hfin : (dlapy2 alpha r).isFinite = true := by
    by_contra hc
    have := C47_dlapy2_overflow alpha r ha hr.finite (by simpa using hc)
    rw [← hH] at this
    have o := ovf_ge
    unfold ovf at o
    have h4 : (1 + 4 / 2 ^ 53 : ℝ) * H ≤ 2 * (2 * N + 1) := mul_le_mul (by norm_num) HN H0 (by norm_num)
    have h5 : (2 : ℝ) ^ (1022 : ℤ) = 4 * 2 ^ (1020 : ℤ) := by
      rw [show (4 : ℝ) = 2 ^ (2 : ℤ) by norm_num, z2]; norm_num
    have h6 : (1 : ℝ) ≤ 2 ^ (1020 : ℤ) := by
      have := z2le (show (0 : ℤ) ≤ 1020 by norm_num)
      rwa [zpow_zero] at this
    rw [h5] at o
    generalize (2 : ℝ) ^ (1020 : ℤ) = w at *
    generalize ((2 : ℝ) ^ 53 - 1 / 2) * 2 ^ 971 = v at *
    linarith only [this, o, h4, hN, h6]
  have e2 := C47_dlapy2_accuracy alpha r ha hr.finite hfin
  rw [← hH] at e2
  have nn : ∀ x : Float, x.isFinite = true → x.isNaN = false := by
    intro x hx
    rw [isNaN_up]; rw [isFinite_up] at hx
    cases hu : up x <;> rw [hu] at hx <;> first | rfl | cases hx
  obtain ⟨g2, g3⟩ := C47_dlapy2_ge alpha r (nn _ ha) (nn _ hr.finite)
  rw [le_iff (abs_fin ha) hfin, abs_toR] at g2
  rw [le_iff (abs_fin hr.finite) hfin, abs_toR] at g3
  refine ⟨hfin, g2, (le_abs_self _).trans g3, ?_⟩
  set d := toR (dlapy2 alpha r)
  have e3 : |d - N| ≤ |d - H| + |H - N| := by
    calc |d - N| = |(d - H) + (H - N)| := by ring_nf
      _ ≤ _ := abs_add_le _ _
  refine e3.trans ((add_le_add e2 e1).trans ?_)
  have h7 : H ≤ (1 + 2 * (m + 12) * ur) * N + 2 ^ (-1037 : ℤ) := by
    have := (_root_.abs_le.1 e1).2
    linarith only [this]
  have h8 : 6 / 2 ^ 53 * H ≤ 6 * ur * ((1 + 2 * (m + 12) * ur) * N + 2 ^ (-1037 : ℤ)) := by
    rw [show (6 : ℝ) / 2 ^ 53 = 6 * ur by unfold ur; ring]
    exact mul_le_mul_of_nonneg_left h7 (by positivity)
  have h9 : (1 : ℝ) / 2 ^ 1075 ≤ 1 / 4 * 2 ^ (-1037 : ℤ) := by
    rw [show (1 : ℝ) / 2 ^ 1075 = 2 ^ (-1075 : ℤ) from (zpneg 1075).symm, show (1 / 4 : ℝ) = 2 ^ (-2 : ℤ) by norm_num, z2]
    exact z2le (by norm_num)
  have h10 : (2 : ℝ) ^ (-1036 : ℤ) = 2 * 2 ^ (-1037 : ℤ) := by
    rw [show (2 : ℝ) * 2 ^ (-1037 : ℤ) = 2 ^ (1 : ℤ) * 2 ^ (-1037 : ℤ) by rw [zpow_one], z2]; norm_num
  have hz0 := zp (-1037)
  rw [h10]
  have h11 : 6 * ur ≤ 1 / 4 := by unfold ur; norm_num
  generalize (2 : ℝ) ^ (-1037 : ℤ) = w at *
  have h12 : 6 * ur * w ≤ 1 / 4 * w := mul_le_mul_of_nonneg_right h11 hz0.le
  have h13 : 6 * ur * (2 * (m + 12) * ur * N) ≤ ur * N := by
    have : 2 * (m + 12) * ur ≤ 1 / 6 := by nlinarith
    calc 6 * ur * (2 * (m + 12) * ur * N) = (6 * (2 * (m + 12) * ur)) * (ur * N) := by ring
      _ ≤ 1 * (ur * N) := mul_le_mul_of_nonneg_right (by linarith) (mul_nonneg hu.le N0)
      _ = _ := one_mul _
  generalize (1 : ℝ) / 2 ^ 1075 = z at *
  nlinarith only [h8, h9, h12, h13, hz0]

end Verif.F64

namespace Verif
open Scalar Spec F64

/-! ### Scaling -/

/-- Element `k` of a strided vector. -/
def fel (m : Nat) (inc : Int) (x : List Float) (k : Nat) : Float := x.getD (strideIx m inc k) minPositive

theorem strided_fel (m : Nat) (inc : Int) (x : List Float) : strided m inc x = (List.range m).map (fel m inc x) := rfl

theorem dscal_fl (m : Nat) (a : Float) (ha : a.isFinite = true) (x : List Float) (incx : Int) (hinc : 1 ≤ incx)
    (hx : StrideFits m incx x.length) (hox : m * incx.natAbs + 1 < 2 ^ 31) :
    ∃ x' : List Float, dscal (m : Int) a x incx = pure x' ∧ OnlyStride m incx x x' ∧
      ∀ k < m, (fel m incx x k).isFinite = true → |toR (fel m incx x k) * toR a| < ovf →
        (fel m incx x' k).isFinite = true ∧ Fl (toR (fel m incx x k) * toR a) (toR (fel m incx x' k)) := by
  by_cases h1 : (a =ᶠ (one : Float)) = true
  · refine ⟨x, C13_dscal_noop _ _ _ _ (Or.inr (Or.inr h1)), ⟨rfl, fun _ _ => rfl⟩, fun k _ hf _ => ⟨hf, ?_⟩⟩
    have e : toR a = 1 := by
      have := (eq_toR (y := (1 : Float)) toR_one.1 (x := a) h1).2
      rw [this, toR_one.2]
    rw [e, mul_one]
    exact ⟨by rw [sub_self, abs_zero]; exact le_max_of_le_right (by positivity), fun _ _ h => h, fun _ _ h => h⟩
  · obtain ⟨x', e, l, h, f⟩ := C12_dscal (F := Float) m a (by simpa using h1) x incx hinc hx hox
    refine ⟨x', e, ⟨l, f⟩, fun k hk hf hb => ?_⟩
    have : fel m incx x' k = fel m incx x k * a := by
      unfold fel
      have := h k hk
      have hp := hx k hk
      rw [List.getD_eq_getElem?_getD, this, List.getD_eq_getElem?_getD, List.getElem?_eq_getElem hp]
      rfl
    rw [this]
    have hr := mul_rounds (fel m incx x k) a hf ha
    exact ⟨hr.finite hb, hr.fl (hr.finite hb)⟩

theorem sum_map_range (f : Nat → ℝ) (m : Nat) : ((List.range m).map f).sum = ∑ k ∈ Finset.range m, f k := by
  induction m with
  | zero => simp
  | succ m ih => rw [List.range_succ, List.map_append, List.sum_append, ih, Finset.sum_range_succ]; simp

theorem norm2_sq (m : Nat) (incx : Int) (x : List Float) : norm2 (strided m incx x) ^ 2 = ∑ k ∈ Finset.range m, toR (fel m incx x k) ^ 2 := by
  unfold norm2
  rw [strided_fel, List.map_map, sum_map_range, Real.sq_sqrt]
  · rfl
  · exact Finset.sum_nonneg fun _ _ => by simp only [Function.comp]; positivity

/-- The norm of `(alpha, x)`. -/
noncomputable def wholeNorm (m : Nat) (incx : Int) (alpha : Float) (x : List Float) : ℝ :=
  Real.sqrt (toR alpha ^ 2 + ∑ k ∈ Finset.range m, toR (fel m incx x k) ^ 2)

theorem fel_le_norm {m : Nat} {incx : Int} {alpha : Float} {x : List Float} {k : Nat} (hk : k < m) :
    |toR (fel m incx x k)| ≤ wholeNorm m incx alpha x := by
  refine Real.abs_le_sqrt ?_
  have := Finset.single_le_sum (f := fun k => toR (fel m incx x k) ^ 2) (fun _ _ => by positivity) (Finset.mem_range.2 hk)
  nlinarith [sq_nonneg (toR alpha)]

theorem alpha_le_norm {m : Nat} {incx : Int} {alpha : Float} {x : List Float} : |toR alpha| ≤ wholeNorm m incx alpha x := by
  refine Real.abs_le_sqrt ?_
  have : 0 ≤ ∑ k ∈ Finset.range m, toR (fel m incx x k) ^ 2 := Finset.sum_nonneg fun _ _ => by positivity
  linarith

/-- The state before the last step of `dlarfg`: what is computed from `alpha`, `x` and the computed norm `r` of `x`. -/
structure Finished (m : Nat) (incx : Int) (alpha : Float) (x : List Float) (s : ℝ) (beta tau : Float) (x' : List Float) : Prop where
  sgn : s = 1 ∨ s = -1
  same : s * toR alpha = |toR alpha|
  bfin : beta.isFinite = true
  berr : |toR beta - -s * wholeNorm m incx alpha x| ≤ (2 * m + 32) * ur * wholeNorm m incx alpha x
  tfin : tau.isFinite = true
  tlo : 1 ≤ toR tau
  thi : toR tau ≤ 2
  terr : |toR tau - (wholeNorm m incx alpha x + |toR alpha|) / wholeNorm m incx alpha x| ≤
    3 * (m + 20) * ur * ((wholeNorm m incx alpha x + |toR alpha|) / wholeNorm m incx alpha x)
  only : OnlyStride m incx x x'
  vfin : ∀ k < m, (fel m incx x' k).isFinite = true
  verr : ∀ k < m, |toR (fel m incx x' k) - s * toR (fel m incx x k) / (wholeNorm m incx alpha x + |toR alpha|)| ≤
    3 * (m + 20) * ur * |s * toR (fel m incx x k) / (wholeNorm m incx alpha x + |toR alpha|)| + eta

theorem inv_close {N D A g : ℝ} (hN : 0 < N) (hA : 0 ≤ A) (hg0 : 0 ≤ g) (hg : g ≤ 1 / 1000) (h : |D - N| ≤ g * N) :
    |1 / (D + A) - 1 / (N + A)| ≤ 1.01 * g * (1 / (N + A)) := by
  have i := abs_le.1 h
  have hD : 0.999 * N ≤ D := by nlinarith
  have D0 : 0 < D := by linarith
  have h1 : 0 < D + A := by linarith
  have h2 : 0 < N + A := by linarith
  rw [div_sub_div _ _ h1.ne' h2.ne', abs_div, abs_of_pos (mul_pos h1 h2), div_le_iff₀ (mul_pos h1 h2), one_mul, mul_one,
    show 1.01 * g * (1 / (N + A)) * ((D + A) * (N + A)) = 1.01 * g * (D + A) by field_simp, abs_sub_comm, show D + A - (N + A) = D - N by ring]
  refine h.trans ?_
  nlinarith [mul_nonneg hg0 hA, mul_nonneg hg0 (show 0 ≤ D - 0.999 * N by linarith)]

theorem tau_close {N D A g : ℝ} (hN : 0 < N) (hA : 0 ≤ A) (hAD : A ≤ D) (hg0 : 0 ≤ g) (hg : g ≤ 1 / 1000) (h : |D - N| ≤ g * N) :
    |(D + A) / D - (N + A) / N| ≤ g * ((N + A) / N) := by
  have i := abs_le.1 h
  have hD : 0.999 * N ≤ D := by nlinarith
  have D0 : 0 < D := by linarith
  have e : (D + A) / D - (N + A) / N = A * (N - D) / (D * N) := by field_simp; ring
  rw [e, abs_div, abs_mul, abs_of_nonneg hA, abs_of_pos (mul_pos D0 hN), abs_sub_comm, div_le_iff₀ (mul_pos D0 hN),
    show g * ((N + A) / N) * (D * N) = g * (N + A) * D by field_simp]
  calc A * |D - N| ≤ D * (g * N) := mul_le_mul hAD h (abs_nonneg _) D0.le
    _ = g * N * D := by ring
    _ ≤ g * (N + A) * D := mul_le_mul_of_nonneg_right (mul_le_mul_of_nonneg_left (by linarith) hg0) D0.le

theorem finish_ok {m : Nat} {incx : Int} {alpha r : Float} {x : List Float} {sm : Float} {knt : Nat} (hm : m < 2 ^ 31 - 1) (hinc : 1 ≤ incx)
    (hx : StrideFits m incx x.length) (hox : m * incx.natAbs + 1 < 2 ^ 31) (ha : alpha.isFinite = true)
    (hxf : ∀ k < m, (fel m incx x k).isFinite = true) (hr : NormAccurate m (strided m incx x) r)
    (hl : (2 : ℝ) ^ (-971 : ℤ) ≤ wholeNorm m incx alpha x) (hh : wholeNorm m incx alpha x ≤ 2 ^ (1020 : ℤ)) :
    ∃ (s : ℝ) (beta tau : Float) (x' : List Float), beta = -Scalar.signum alpha * dlapy2 alpha r ∧
      dlarfgFinish ((m : Int) + 1) incx sm alpha beta x knt = pure (mulPow sm knt beta, x', tau) ∧
      Finished m incx alpha x s beta tau x' := by
  have eN : Real.sqrt (toR alpha ^ 2 + norm2 (strided m incx x) ^ 2) = wholeNorm m incx alpha x := by
    unfold wholeNorm; rw [norm2_sq]
  obtain ⟨df, dA, -, dN⟩ := lapy2_norm hr (by omega) ha (by rw [eN]; exact hh)
  rw [eN] at dN
  have xN : ∀ k < m, |toR (fel m incx x k)| ≤ wholeNorm m incx alpha x := fun k hk => fel_le_norm hk
  obtain ⟨s, hs, hsa, sf, sv⟩ := signum_fin ha
  set N := wholeNorm m incx alpha x with hN
  set d := dlapy2 alpha r with hd
  have N0 : 0 < N := lt_of_lt_of_le (zp _) hl
  have hu := ur_pos
  have hmr : (m : ℝ) ≤ 2 ^ 31 := by exact_mod_cast (by omega : m ≤ 2 ^ 31)
  have m0 : (0 : ℝ) ≤ m := Nat.cast_nonneg m
  have g0 : 0 ≤ (2 * m + 32) * ur := by positivity
  have gs : (2 * m + 32) * ur ≤ 1 / 1000 := by
    refine (mul_le_mul_of_nonneg_right (show (2 * m + 32 : ℝ) ≤ 2 * 2 ^ 31 + 32 by linarith) hu.le).trans ?_
    unfold ur; norm_num
  have dN' : |toR d - N| ≤ (2 * m + 32) * ur * N := by
    refine dN.trans ?_
    have : (2 : ℝ) ^ (-1036 : ℤ) ≤ ur * N := by
      refine le_trans ?_ (mul_le_mul_of_nonneg_left hl hu.le)
      rw [ur_z, z2]; exact z2le (by norm_num)
    generalize (2 : ℝ) ^ (-1036 : ℤ) = w at *
    linarith only [this, mul_comm ur N]
  have iD := abs_le.1 dN'
  have gN : (2 * m + 32) * ur * N ≤ 1 / 1000 * N := mul_le_mul_of_nonneg_right gs N0.le
  have D1 : 1 / 2 * N ≤ toR d := by linarith only [iD.1, gN, N0]
  have D2 : toR d ≤ 2 * N := by linarith only [iD.2, gN, N0]
  have DL : (2 : ℝ) ^ (-972 : ℤ) ≤ toR d := by
    refine le_trans ?_ D1
    rw [show (1 / 2 : ℝ) = 2 ^ (-1 : ℤ) by norm_num]
    refine le_trans (le_of_eq ?_) (mul_le_mul_of_nonneg_left hl (zp _).le)
    rw [z2]; norm_num
  have DH : toR d ≤ 2 ^ (1021 : ℤ) := by
    refine D2.trans ((mul_le_mul_of_nonneg_left hh (by norm_num)).trans (le_of_eq ?_))
    rw [show (2 : ℝ) * 2 ^ (1020 : ℤ) = 2 ^ (1 : ℤ) * 2 ^ (1020 : ℤ) by rw [zpow_one], z2]; norm_num
  have D0 : 0 < toR d := lt_of_lt_of_le (zp _) DL
  have bx : (-Scalar.signum alpha * d).isFinite = true ∧ toR (-Scalar.signum alpha * d) = -s * toR d := by
    have hrr := mul_rounds (-Scalar.signum alpha) d (by rw [neg_finite]; exact sf) df
    rw [neg_toR, show toR (Scalar.signum alpha) = s from sv] at hrr
    refine hrr.exact ?_ ?_
    · rw [abs_mul, abs_neg, sign_abs hs, one_mul]; exact abs_toR_lt d
    · rcases hs with rfl | rfl
      · rw [neg_one_mul]; exact (grid_toR d).neg
      · rw [neg_neg, one_mul]; exact grid_toR d
  obtain ⟨bf, bv⟩ := bx
  obtain ⟨tf, t1, t2, te⟩ := finish_tau hs ha bf hsa bv dA D0 DH
  obtain ⟨qf, qe⟩ := finish_scale hs ha bf hsa bv dA DL DH
  set beta := -Scalar.signum alpha * d with hb
  set A := |toR alpha| with hA
  have A0 : 0 ≤ A := abs_nonneg _
  obtain ⟨x', ex, ho, hv⟩ := dscal_fl m (1 / (alpha - beta)) qf x incx hinc hx hox
  have Y0 : 0 < N + A := by linarith
  -- the factor
  have q2 : |s * toR (1 / (alpha - beta)) - 1 / (N + A)| ≤ 3 * (m + 19) * ur * (1 / (N + A)) := by
    have c := inv_close N0 A0 g0 gs dN'
    have Z0 : 0 ≤ 1 / (N + A) := by positivity
    have i1 := abs_le.1 qe
    have i2 := abs_le.1 c
    generalize 1 / (N + A) = Z at *
    generalize 1 / (toR d + A) = W at *
    have hW : W ≤ 1.02 * Z := by
      have : 1.01 * ((2 * m + 32) * ur) * Z ≤ 0.02 * Z := mul_le_mul_of_nonneg_right (by linarith) Z0
      linarith
    have h1 : 3 * ur * W ≤ 3 * ur * (1.02 * Z) := mul_le_mul_of_nonneg_left hW (by positivity)
    have h2 : 0 ≤ ur * Z := by positivity
    have h3 : 0 ≤ m * (ur * Z) := by positivity
    rw [abs_le]
    constructor <;> nlinarith only [i1.1, i1.2, i2.1, i2.2, h1, h2, h3]
  have Z1 : N * (1 / (N + A)) ≤ 1 := by rw [mul_one_div, div_le_one Y0]; linarith
  have hm19 : 3 * (m + 19) * ur ≤ 1 / 100 := by nlinarith
  have Z0 : 0 ≤ 1 / (N + A) := by positivity
  have hq : |toR (1 / (alpha - beta))| ≤ 2 * (1 / (N + A)) := by
    have h1 : |s * toR (1 / (alpha - beta))| ≤ 2 * (1 / (N + A)) := by
      have i := abs_le.1 q2
      have : 3 * (m + 19) * ur * (1 / (N + A)) ≤ 1 / 100 * (1 / (N + A)) := mul_le_mul_of_nonneg_right hm19 Z0
      rw [abs_le]; constructor <;> linarith
    rwa [abs_mul, sign_abs hs, one_mul] at h1
  have hprod : ∀ k < m, |toR (fel m incx x k) * toR (1 / (alpha - beta))| ≤ 2 := by
    intro k hk
    rw [abs_mul]
    calc |toR (fel m incx x k)| * |toR (1 / (alpha - beta))| ≤ N * (2 * (1 / (N + A))) := mul_le_mul (xN k hk) hq (abs_nonneg _) N0.le
      _ = 2 * (N * (1 / (N + A))) := by ring
      _ ≤ 2 := by linarith
  have hvk := fun k hk => hv k hk (hxf k hk) (lt_of_le_of_lt (hprod k hk) (lt_ovf (a := 1) (by rw [zpow_one]) (by norm_num)))
  refine ⟨s, beta, (beta - alpha) / beta, x', rfl, ?_, ⟨hs, hsa, bf, ?_, tf, t1, t2, ?_, ho, fun k hk => (hvk k hk).1, fun k hk => ?_⟩⟩
  · unfold dlarfgFinish
    rw [isub_ok (by unfold FitsI32; omega), pure_bind, show (m : Int) + 1 - 1 = m by ring]
    show (dscal (m : Int) (1 / (alpha - beta)) x incx >>= _) = _
    rw [ex, pure_bind]
  · rw [bv, show -s * toR d - -s * N = -s * (toR d - N) by ring, abs_mul, abs_neg, sign_abs hs, one_mul]
    exact dN'
  · have c := tau_close N0 A0 dA g0 gs dN'
    have T0 : 0 ≤ (N + A) / N := by positivity
    have i1 := abs_le.1 te
    have i2 := abs_le.1 c
    generalize (N + A) / N = T at *
    generalize (toR d + A) / toR d = W at *
    generalize toR ((beta - alpha) / beta) = t at *
    have hW : W ≤ 1.01 * T := by
      have : (2 * m + 32) * ur * T ≤ 0.01 * T := mul_le_mul_of_nonneg_right (by linarith) T0
      linarith
    have h1 : 3 * ur * W ≤ 3 * ur * (1.01 * T) := mul_le_mul_of_nonneg_left hW (by positivity)
    have h2 : 0 ≤ ur * T := by positivity
    have h3 : 0 ≤ m * (ur * T) := by positivity
    rw [abs_le]
    constructor <;> nlinarith only [i1.1, i1.2, i2.1, i2.2, h1, h2, h3]
  · have hf := (hvk k hk).2.general
    set xk := toR (fel m incx x k)
    set q := toR (1 / (alpha - beta))
    set v := toR (fel m incx x' k)
    have e1 : s * xk / (N + A) = s * xk * (1 / (N + A)) := by ring
    have e2 : |xk * q - s * xk * (1 / (N + A))| ≤ 3 * (m + 19) * ur * |s * xk * (1 / (N + A))| := by
      rw [show xk * q - s * xk * (1 / (N + A)) = s * xk * (s * q - 1 / (N + A)) by
        have := sign_sq hs
        linear_combination -(xk * q) * this]
      rw [abs_mul, abs_mul (s * xk), abs_of_nonneg Z0]
      calc |s * xk| * |s * q - 1 / (N + A)| ≤ |s * xk| * (3 * (m + 19) * ur * (1 / (N + A))) := mul_le_mul_of_nonneg_left q2 (abs_nonneg _)
        _ = _ := by ring
    rw [e1]
    set V := s * xk * (1 / (N + A))
    have e3 : |xk * q| ≤ |V| + |xk * q - V| := by
      calc |xk * q| = |V + (xk * q - V)| := by ring_nf
        _ ≤ _ := abs_add_le _ _
    have e4 : |v - V| ≤ |v - xk * q| + |xk * q - V| := by
      calc |v - V| = |(v - xk * q) + (xk * q - V)| := by ring_nf
        _ ≤ _ := abs_add_le _ _
    have V0 := abs_nonneg V
    have h1 : ur * |xk * q| ≤ ur * (|V| + 1 / 100 * |V|) := mul_le_mul_of_nonneg_left
      (e3.trans (add_le_add (le_refl _) (e2.trans (mul_le_mul_of_nonneg_right hm19 V0)))) hu.le
    have h2 : 0 ≤ ur * |V| := by positivity
    nlinarith only [hf, e2, e4, h1, h2]

/-! ### The two thresholds -/

theorem grid_z (e : ℤ) (he : -1074 ≤ e) : Grid ((2 : ℝ) ^ e) := ⟨1, e, by norm_num, he, by rw [abs_of_pos (zp e)]; simp⟩

theorem safmin_f64 : (dlamch 'S' / dlamch 'E' : Float).isFinite = true ∧ toR (dlamch 'S' / dlamch 'E') = 2 ^ (-969 : ℤ) := by
  obtain ⟨f1, v1⟩ := dlamch_val 'S'
  obtain ⟨f2, v2⟩ := dlamch_val 'E'
  rw [machine_S, ← show (2 : ℝ) ^ (-1022 : ℤ) = 1 / 2 ^ 1022 from zpneg 1022] at v1
  rw [machine_E, ← show (2 : ℝ) ^ (-53 : ℤ) = 1 / 2 ^ 53 from zpneg 53] at v2
  have hr := div_rounds (dlamch 'S') (dlamch 'E') f1 f2 (by rw [v2]; exact (zp _).ne')
  rw [v1, v2, ← zpow_sub₀ (by norm_num), show (-1022 - -53 : ℤ) = -969 by norm_num] at hr
  exact hr.exact (by rw [abs_of_pos (zp _)]; exact lt_ovf (le_refl _) (by norm_num)) (grid_z _ (by norm_num))

theorem rsafmn_f64 : (1 / (dlamch 'S' / dlamch 'E') : Float).isFinite = true ∧ toR (1 / (dlamch 'S' / dlamch 'E')) = 2 ^ (969 : ℤ) := by
  obtain ⟨f1, v1⟩ := safmin_f64
  have hr := div_rounds 1 (dlamch 'S' / dlamch 'E') toR_one.1 f1 (by rw [v1]; exact (zp _).ne')
  rw [v1, toR_one.2, one_div, ← zpow_neg, neg_neg] at hr
  exact hr.exact (by rw [abs_of_pos (zp _)]; exact lt_ovf (le_refl _) (by norm_num)) (grid_z _ (by norm_num))

/-- Multiplication by `2^969` of a small number is exact. -/
theorem up969 {f : Float} (hf : f.isFinite = true) (hb : |toR f| ≤ 2 ^ (-967 : ℤ)) {q : Float} (hq : q.isFinite = true) (hq' : toR q = 2 ^ (969 : ℤ)) :
    (f * q).isFinite = true ∧ toR (f * q) = toR f * 2 ^ (969 : ℤ) := by
  have hr := mul_rounds f q hf hq
  rw [hq'] at hr
  refine hr.exact ?_ (grid_scale (grid_toR f) 969)
  rw [abs_mul, abs_of_pos (zp _)]
  refine lt_ovf (a := 2) ((mul_le_mul_of_nonneg_right hb (zp _).le).trans (le_of_eq ?_)) (by norm_num)
  rw [z2]; norm_num

theorem mediumSq_le_sq (l : List Float) : mediumSq l ≤ norm2 l ^ 2 := by
  unfold norm2
  have h0 : ∀ l : List Float, 0 ≤ (l.map fun e => toR e ^ 2).sum := fun l => List.sum_nonneg (by
    intro y hy; obtain ⟨e, -, rfl⟩ := List.mem_map.1 hy; positivity)
  rw [Real.sq_sqrt (h0 l)]
  unfold mediumSq
  induction l with
  | nil => simp
  | cons a l ih =>
    rw [List.map_cons, List.sum_cons]
    by_cases h : |toR a| ≤ 2 ^ (505 : ℤ)
    · rw [List.filter_cons_of_pos (by simpa using h), List.map_cons, List.sum_cons]
      linarith
    · rw [List.filter_cons_of_neg (by simpa using h)]
      nlinarith [sq_nonneg (toR a)]

/-! ### The specification -/

/-- Specification: `H = I - tau (1;v) (1;v)^T` is orthogonal and `H (alpha;x) = (beta;0)`. -/
structure Spec.Reflector (m : Nat) (alpha : ℝ) (x : Nat → ℝ) (beta tau : ℝ) (v : Nat → ℝ) : Prop where
  orthogonal : tau * (1 + ∑ k ∈ Finset.range m, v k ^ 2) = 2
  first : alpha - tau * (alpha + ∑ k ∈ Finset.range m, v k * x k) = beta
  rest : ∀ j < m, x j - tau * v j * (alpha + ∑ k ∈ Finset.range m, v k * x k) = 0
  norm : |beta| = Real.sqrt (alpha ^ 2 + ∑ k ∈ Finset.range m, x k ^ 2)
  sign : alpha * beta ≤ 0

/-- Specification: the computed `beta`, `tau`, `v` are close, component by component, to an exact reflector for `alpha`, `x`. -/
def Spec.LarfgAccurate (m : Nat) (alpha : Float) (x : Nat → Float) (beta tau : Float) (v : Nat → Float) : Prop :=
  ∃ (B T : ℝ) (V : Nat → ℝ), Reflector m (toR alpha) (fun k => toR (x k)) B T V ∧
    beta.isFinite = true ∧ |toR beta - B| ≤ 3 * (m + 20) / 2 ^ 53 * |B| + 1 / 2 ^ 1075 ∧
    tau.isFinite = true ∧ 1 ≤ toR tau ∧ toR tau ≤ 2 ∧ |toR tau - T| ≤ 3 * (m + 20) / 2 ^ 53 * |T| ∧
    ∀ k < m, (v k).isFinite = true ∧ |toR (v k) - V k| ≤ 3 * (m + 20) / 2 ^ 53 * |V k| + 1 / 2 ^ 1075

theorem reflector_of {m : Nat} {alpha s N : ℝ} {x : Nat → ℝ} (hs : s = 1 ∨ s = -1) (hsa : s * alpha = |alpha|) (hN0 : 0 < N)
    (hN : N ^ 2 = alpha ^ 2 + ∑ k ∈ Finset.range m, x k ^ 2) :
    Reflector m alpha x (-s * N) ((N + |alpha|) / N) (fun k => s * x k / (N + |alpha|)) := by
  have A0 := abs_nonneg alpha
  set A := |alpha| with hA
  have ea : alpha = s * A := by rw [← hsa, ← mul_assoc, sign_sq hs, one_mul]
  have hss := sign_sq hs
  have ha2 : alpha ^ 2 = A ^ 2 := by rw [hA, sq_abs]
  have Y0 : 0 < N + A := by linarith
  have hsum : ∑ k ∈ Finset.range m, x k ^ 2 = N ^ 2 - A ^ 2 := by rw [hN, ha2]; ring
  have s1 : ∑ k ∈ Finset.range m, (s * x k / (N + A)) ^ 2 = (N - A) / (N + A) := by
    have : ∀ k, (s * x k / (N + A)) ^ 2 = 1 / (N + A) ^ 2 * x k ^ 2 := fun k => by
      rw [div_pow, mul_pow, sq s, hss, one_mul]; ring
    simp only [this]
    rw [← Finset.mul_sum, hsum]
    field_simp; ring
  have s2 : ∑ k ∈ Finset.range m, s * x k / (N + A) * x k = s * (N - A) := by
    have : ∀ k, s * x k / (N + A) * x k = s / (N + A) * x k ^ 2 := fun k => by ring
    simp only [this]
    rw [← Finset.mul_sum, hsum]
    field_simp; ring
  refine ⟨?_, ?_, ?_, ?_, ?_⟩
  · rw [s1]; field_simp; ring
  · rw [s2, ea]; field_simp; ring
  · intro j _
    rw [s2, ea]
    field_simp
    linear_combination (-x j * N) * hss
  · rw [← hN, Real.sqrt_sq hN0.le, abs_mul, abs_neg, sign_abs hs, one_mul, abs_of_pos hN0]
  · rw [ea, show s * A * (-s * N) = -(s * s) * (A * N) by ring, hss]
    nlinarith [mul_nonneg A0 hN0.le]

theorem wholeNorm_sq (m : Nat) (incx : Int) (alpha : Float) (x : List Float) :
    wholeNorm m incx alpha x ^ 2 = toR alpha ^ 2 + ∑ k ∈ Finset.range m, toR (fel m incx x k) ^ 2 := by
  unfold wholeNorm
  rw [Real.sq_sqrt]
  exact add_nonneg (sq_nonneg _) (Finset.sum_nonneg fun _ _ => by positivity)

theorem wholeNorm_nonneg (m : Nat) (incx : Int) (alpha : Float) (x : List Float) : 0 ≤ wholeNorm m incx alpha x := Real.sqrt_nonneg _

theorem norm2_le_whole (m : Nat) (incx : Int) (alpha : Float) (x : List Float) : norm2 (strided m incx x) ≤ wholeNorm m incx alpha x := by
  have h1 : 0 ≤ norm2 (strided m incx x) := Real.sqrt_nonneg _
  have h2 := norm2_sq m incx x
  have h3 := wholeNorm_sq m incx alpha x
  refine le_of_sq_le_sq ?_ (wholeNorm_nonneg m incx alpha x)
  nlinarith [sq_nonneg (toR alpha)]

theorem wholeNorm_pos {m : Nat} {incx : Int} {alpha : Float} {x : List Float} (h : wholeNorm m incx alpha x ≠ 0) :
    (2 : ℝ) ^ (-1074 : ℤ) ≤ wholeNorm m incx alpha x := by
  by_cases ha : toR alpha = 0
  · by_cases hx : ∃ k < m, toR (fel m incx x k) ≠ 0
    · obtain ⟨k, hk, hne⟩ := hx
      refine le_trans ?_ (fel_le_norm hk)
      rw [← abs_toR]
      exact pos_ge (by rw [abs_toR]; positivity)
    · push Not at hx
      exfalso; apply h
      unfold wholeNorm
      rw [ha, Finset.sum_eq_zero (fun k hk => by rw [hx k (Finset.mem_range.1 hk)]; norm_num)]
      norm_num
  · refine le_trans ?_ alpha_le_norm
    rw [← abs_toR]
    exact pos_ge (by rw [abs_toR]; positivity)

/-- Without rescaling. -/
theorem Finished.accurate {m : Nat} {incx : Int} {alpha : Float} {x : List Float} {s : ℝ} {beta tau : Float} {x' : List Float}
    (h : Finished m incx alpha x s beta tau x') (hN : 0 < wholeNorm m incx alpha x) :
    LarfgAccurate m alpha (fel m incx x) beta tau (fel m incx x') := by
  refine ⟨_, _, _, reflector_of h.sgn h.same hN (wholeNorm_sq m incx alpha x), h.bfin, ?_, h.tfin, h.tlo, h.thi, ?_, fun k hk => ⟨h.vfin k hk, ?_⟩⟩
  · refine h.berr.trans ?_
    rw [abs_mul, abs_neg, sign_abs h.sgn, one_mul, abs_of_pos hN]
    have e : (0 : ℝ) ≤ 1 / 2 ^ 1075 := by positivity
    refine le_trans (mul_le_mul_of_nonneg_right ?_ hN.le) (le_add_of_nonneg_right e)
    unfold ur
    rw [mul_one_div]
    refine div_le_div_of_nonneg_right ?_ (by positivity)
    have : (0 : ℝ) ≤ m := Nat.cast_nonneg m
    linarith
  · have T0 : 0 ≤ (wholeNorm m incx alpha x + |toR alpha|) / wholeNorm m incx alpha x := by positivity
    rw [abs_of_nonneg T0]
    refine h.terr.trans (le_of_eq ?_)
    unfold ur; ring
  · refine (h.verr k hk).trans (le_of_eq ?_)
    unfold ur eta; ring

/-- With rescaling by `2^969`. -/
theorem Finished.rescaled {m : Nat} {incx : Int} {alpha alpha1 : Float} {x x1 : List Float} {s : ℝ} {beta beta' tau : Float} {x' : List Float}
    (h : Finished m incx alpha1 x1 s beta tau x') (hN : 0 < wholeNorm m incx alpha x) (ha : toR alpha1 = toR alpha * 2 ^ (969 : ℤ))
    (hx : ∀ k < m, toR (fel m incx x1 k) = toR (fel m incx x k) * 2 ^ (969 : ℤ))
    (hbf : beta'.isFinite = true) (hbe : |toR beta' - toR beta * 2 ^ (-969 : ℤ)| ≤ ur * |toR beta * 2 ^ (-969 : ℤ)| + eta) :
    LarfgAccurate m alpha (fel m incx x) beta' tau (fel m incx x') ∧ wholeNorm m incx alpha1 x1 = wholeNorm m incx alpha x * 2 ^ (969 : ℤ) := by
  have hz := zp 969
  have eN : wholeNorm m incx alpha1 x1 = wholeNorm m incx alpha x * 2 ^ (969 : ℤ) := by
    have e1 := wholeNorm_sq m incx alpha1 x1
    have e2 := wholeNorm_sq m incx alpha x
    have : wholeNorm m incx alpha1 x1 ^ 2 = (wholeNorm m incx alpha x * 2 ^ (969 : ℤ)) ^ 2 := by
      rw [e1, mul_pow, e2, ha, add_mul, Finset.sum_mul, mul_pow]
      congr 1
      exact Finset.sum_congr rfl fun k hk => by rw [hx k (Finset.mem_range.1 hk), mul_pow]
    exact (sq_eq_sq₀ (wholeNorm_nonneg _ _ _ _) (mul_nonneg hN.le hz.le)).1 this
  have eA : |toR alpha1| = |toR alpha| * 2 ^ (969 : ℤ) := by rw [ha, abs_mul, abs_of_pos hz]
  have hinv : (2 : ℝ) ^ (969 : ℤ) * 2 ^ (-969 : ℤ) = 1 := by rw [z2]; norm_num
  have hz' := zp (-969)
  obtain ⟨hs, hsa, bf, be, tf, tl, th, te, -, vf, ve⟩ := h
  rw [eN] at be te ve
  rw [eA] at te ve
  simp only [← add_mul] at te ve
  have hsa' : s * toR alpha = |toR alpha| := by
    have : s * toR alpha * 2 ^ (969 : ℤ) = |toR alpha| * 2 ^ (969 : ℤ) := by rw [← eA, ← hsa, ha]; ring
    exact mul_right_cancel₀ hz.ne' this
  refine ⟨⟨_, _, _, reflector_of hs hsa' hN (wholeNorm_sq m incx alpha x), hbf, ?_, tf, tl, th, ?_, fun k hk => ⟨vf k hk, ?_⟩⟩, eN⟩
  · rw [abs_mul, abs_neg, sign_abs hs, one_mul, abs_of_pos hN]
    set N := wholeNorm m incx alpha x
    generalize toR beta' = b' at *
    generalize toR beta = b at *
    have e1 : |b * 2 ^ (-969 : ℤ) - -s * N| ≤ (2 * m + 32) * ur * N := by
      have := mul_le_mul_of_nonneg_right be hz'.le
      rw [← abs_of_pos hz', ← abs_mul, abs_of_pos hz', sub_mul] at this
      rw [show -s * (N * 2 ^ (969 : ℤ)) * 2 ^ (-969 : ℤ) = -s * N * (2 ^ (969 : ℤ) * 2 ^ (-969 : ℤ)) by ring, hinv, mul_one,
        show (2 * m + 32) * ur * (N * 2 ^ (969 : ℤ)) * 2 ^ (-969 : ℤ) = (2 * m + 32) * ur * N * (2 ^ (969 : ℤ) * 2 ^ (-969 : ℤ)) by ring, hinv, mul_one] at this
      exact this
    generalize b * 2 ^ (-969 : ℤ) = c at *
    have hu := ur_pos
    have e2 : |c| ≤ N + (2 * m + 32) * ur * N := by
      calc |c| = |(c - -s * N) + -s * N| := by ring_nf
        _ ≤ |c - -s * N| + |-s * N| := abs_add_le _ _
        _ ≤ _ := by rw [abs_mul, abs_neg, sign_abs hs, one_mul, abs_of_pos hN]; linarith
    have e3 : |b' - -s * N| ≤ |b' - c| + |c - -s * N| := by
      calc |b' - -s * N| = |(b' - c) + (c - -s * N)| := by ring_nf
        _ ≤ _ := abs_add_le _ _
    rw [show 3 * (m + 20) / 2 ^ 53 * N = 3 * (m + 20) * (ur * N) by unfold ur; ring, show (1 : ℝ) / 2 ^ 1075 = eta from rfl]
    have p0 : 0 ≤ ur * N := by positivity
    have p1 : 0 ≤ m * (ur * N) := by positivity
    have p2 : ur * |c| ≤ ur * (N + (2 * m + 32) * ur * N) := mul_le_mul_of_nonneg_left e2 hu.le
    have p3 : ur * ((2 * m + 32) * ur * N) ≤ (m + 16) * (ur * N) := by
      have : 2 * ur ≤ 1 := by unfold ur; norm_num
      calc ur * ((2 * m + 32) * ur * N) = (2 * ur) * ((m + 16) * (ur * N)) := by ring
        _ ≤ 1 * ((m + 16) * (ur * N)) := mul_le_mul_of_nonneg_right this (by positivity)
        _ = _ := one_mul _
    nlinarith only [e3, hbe, e1, p0, p1, p2, p3]
  · set N := wholeNorm m incx alpha x
    have T0 : 0 ≤ (N + |toR alpha|) / N := by positivity
    rw [mul_div_mul_right _ _ hz.ne'] at te
    rw [abs_of_nonneg T0]
    refine te.trans (le_of_eq ?_)
    unfold ur; ring
  · have := ve k hk
    rw [hx k hk, ← mul_assoc, mul_div_mul_right _ _ hz.ne'] at this
    refine this.trans (le_of_eq ?_)
    unfold ur eta; ring

theorem strided_mem {m : Nat} {incx : Int} {x : List Float} {e : Float} (he : e ∈ strided m incx x) : ∃ k < m, e = fel m incx x k := by
  rw [strided_fel] at he
  obtain ⟨k, hk, rfl⟩ := List.mem_map.1 he
  exact ⟨k, List.mem_range.1 hk, rfl⟩

theorem rescale_once {m : Nat} {incx : Int} (hm : m < 2 ^ 31 - 1) {x x1 : List Float} {beta alpha sm rs : Float}
    (hd : dscal (m : Int) rs x incx = pure x1) (hb : Float.lt sm (beta * rs).abs = true) :
    dlarfgRescale ((m : Int) + 1) incx sm rs 21 x beta alpha 0 = pure (x1, beta * rs, alpha * rs, 1) := by
  unfold dlarfgRescale
  rw [isub_ok (by unfold FitsI32; omega), pure_bind, show (m : Int) + 1 - 1 = m by ring, hd, pure_bind]
  show (if (Float.lt sm (beta * rs).abs || decide (0 + 1 > 20)) = true then _ else _) = _
  rw [hb, Bool.true_or, if_pos rfl]

/-- **C66.** On finite binary64 data, as long as the norm of `(alpha, x)` is at most `2^1020`, `dlarfg` leaves everything unchanged
with `tau = 0` if `x` is (almost) zero, and otherwise delivers a reflector close to the exact one. -/
theorem C66_dlarfg_f64 (m : Nat) (hm1 : 1 ≤ m) (alpha : Float) (x : List Float) (incx : Int) (hinc : 1 ≤ incx)
    (hx : StrideFits m incx x.length) (hl : x.length < 2 ^ 60) (hox : m * incx.natAbs + 1 < 2 ^ 31)
    (ha : alpha.isFinite = true) (hxf : ∀ k < m, (fel m incx x k).isFinite = true)
    (hM : mediumSq (strided m incx x) ≤ 2 ^ (1022 : ℤ))
    (hN : Real.sqrt (toR alpha ^ 2 + ∑ k ∈ Finset.range m, toR (fel m incx x k) ^ 2) ≤ 2 ^ (1020 : ℤ)) :
    ∃ (beta tau : Float) (x' : List Float), dlarfg ((m : Int) + 1) alpha x incx = pure (beta, x', tau) ∧ OnlyStride m incx x x' ∧
      ((beta = alpha ∧ x' = x ∧ tau = 0 ∧ Real.sqrt (∑ k ∈ Finset.range m, toR (fel m incx x k) ^ 2) ≤ Real.sqrt m / 2 ^ 1052) ∨
        LarfgAccurate m alpha (fel m incx x) beta tau (fel m incx x')) := by
  change wholeNorm m incx alpha x ≤ _ at hN
  have hm : m < 2 ^ 31 - 1 := by
    have : m * 1 ≤ m * incx.natAbs := Nat.mul_le_mul_left _ (by omega)
    omega
  have hN' : norm2 (strided m incx x) ≤ 2 ^ (1022 : ℤ) := (norm2_le_whole m incx alpha x).trans (hN.trans (z2le (by norm_num)))
  obtain ⟨r, er, hr⟩ := C65_dnrm2_f64 m x incx (by omega) (by omega) hox (by omega)
    (fun e he => by obtain ⟨k, hk, rfl⟩ := strided_mem he; exact hxf k hk) hM hN'
  have n2 : Real.sqrt (∑ k ∈ Finset.range m, toR (fel m incx x k) ^ 2) = norm2 (strided m incx x) := by
    rw [← norm2_sq, Real.sqrt_sq (show 0 ≤ norm2 (strided m incx x) from Real.sqrt_nonneg _)]
  have hmr : (m : ℝ) ≤ 2 ^ 31 := by exact_mod_cast (by omega : m ≤ 2 ^ 31)
  have m0 : (0 : ℝ) ≤ m := Nat.cast_nonneg m
  have hu := ur_pos
  unfold dlarfg
  rw [if_neg (by omega), isub_ok (by unfold FitsI32; omega), pure_bind, show (m : Int) + 1 - 1 = m by ring, er, pure_bind]
  by_cases hr0 : toR r = 0
  · have hb : (r =ᶠ (Scalar.zero : Float)) = true := by
      show Float.beq r 0 = true
      rw [beq_toXR, toXR_fin hr.finite, toXR_fin (show (0 : Float).isFinite = true from toR_zero.1), hr0, show toR 0 = 0 from toR_zero.2]
      simp [XR.beq]
    rw [if_pos hb]
    refine ⟨alpha, 0, x, rfl, ⟨rfl, fun _ _ => rfl⟩, Or.inl ⟨rfl, rfl, rfl, ?_⟩⟩
    rw [n2]
    have e := hr.err
    rw [hr0, zero_sub, abs_neg, abs_of_nonneg (show 0 ≤ norm2 (strided m incx x) from Real.sqrt_nonneg _)] at e
    have X0 : 0 ≤ norm2 (strided m incx x) := Real.sqrt_nonneg _
    have g := gamma_le (m + 12) (by omega)
    have ub : 2 * ((m + 12 : ℕ) : ℝ) * ur ≤ 1 / 1000 := by
      push_cast
      refine (mul_le_mul_of_nonneg_right (show (2 * (m + 12) : ℝ) ≤ 2 * 2 ^ 31 + 24 by linarith) hu.le).trans ?_
      unfold ur; norm_num
    have e2 : ((1 + ur) ^ (m + 12) - 1) * norm2 (strided m incx x) ≤ 1 / 1000 * norm2 (strided m incx x) := mul_le_mul_of_nonneg_right (by linarith) X0
    have e3 : Real.sqrt m / 2 ^ 1052 = 2 * (Real.sqrt m * 2 ^ (-1053 : ℤ)) := by
      rw [div_eq_mul_one_div, show (1 : ℝ) / 2 ^ 1052 = 2 ^ (-1052 : ℤ) from (zpneg 1052).symm, show (-1052 : ℤ) = 1 + -1053 by norm_num, ← z2, zpow_one]; ring
    rw [e3]
    have e4 : 0 ≤ Real.sqrt m * 2 ^ (-1053 : ℤ) := mul_nonneg (Real.sqrt_nonneg _) (zp _).le
    generalize Real.sqrt m * 2 ^ (-1053 : ℤ) = w at *
    linarith only [e, e2, e4, X0]
  · have hb : (r =ᶠ (Scalar.zero : Float)) = false := by
      show Float.beq r 0 = false
      rw [beq_toXR, toXR_fin hr.finite, toXR_fin (show (0 : Float).isFinite = true from toR_zero.1), show toR 0 = 0 from toR_zero.2]
      simp [XR.beq, hr0]
    rw [if_neg (by rw [hb]; simp)]
    have eN : Real.sqrt (toR alpha ^ 2 + norm2 (strided m incx x) ^ 2) = wholeNorm m incx alpha x := by
      unfold wholeNorm; rw [norm2_sq]
    obtain ⟨df, dA, dr, dN⟩ := lapy2_norm hr (by omega) ha (by rw [eN]; exact hN)
    rw [eN] at dN
    have r0 : 0 < toR r := lt_of_le_of_ne hr.nonneg (Ne.symm hr0)
    have d0 : 0 < toR (dlapy2 alpha r) := lt_of_lt_of_le r0 dr
    have dge := pos_ge d0
    obtain ⟨s, hs, hsa, sf, sv⟩ := signum_fin ha
    have bx : (-Scalar.signum alpha * dlapy2 alpha r).isFinite = true ∧ toR (-Scalar.signum alpha * dlapy2 alpha r) = -s * toR (dlapy2 alpha r) := by
      have hrr := mul_rounds (-Scalar.signum alpha) (dlapy2 alpha r) (by rw [neg_finite]; exact sf) df
      rw [neg_toR, show toR (Scalar.signum alpha) = s from sv] at hrr
      refine hrr.exact ?_ ?_
      · rw [abs_mul, abs_neg, sign_abs hs, one_mul]; exact abs_toR_lt _
      · rcases hs with rfl | rfl
        · rw [neg_one_mul]; exact (grid_toR _).neg
        · rw [neg_neg, one_mul]; exact grid_toR _
    obtain ⟨bf, bv⟩ := bx
    have babs : toR (-Scalar.signum alpha * dlapy2 alpha r).abs = toR (dlapy2 alpha r) := by
      rw [abs_toR, bv, abs_mul, abs_neg, sign_abs hs, one_mul, abs_of_pos d0]
    obtain ⟨smf, smv⟩ := safmin_f64
    obtain ⟨rsf, rsv⟩ := rsafmn_f64
    have gs : (2 * m + 31) * ur ≤ 1 / 1000 := by
      refine (mul_le_mul_of_nonneg_right (show (2 * m + 31 : ℝ) ≤ 2 * 2 ^ 31 + 31 by linarith) hu.le).trans ?_
      unfold ur; norm_num
    have N0 := wholeNorm_nonneg m incx alpha x
    have gN : (2 * m + 31) * ur * wholeNorm m incx alpha x ≤ 1 / 1000 * wholeNorm m incx alpha x := mul_le_mul_of_nonneg_right gs N0
    have iD := abs_le.1 dN
    have hz1 : (2 : ℝ) ^ (-1036 : ℤ) ≤ 1 / 8 * 2 ^ (-969 : ℤ) := by
      rw [show (1 / 8 : ℝ) = 2 ^ (-3 : ℤ) by norm_num, z2]; exact z2le (by norm_num)
    have z69 := zp (-969)
    by_cases hlt : (Scalar.abs (-Scalar.signum alpha * dlapy2 alpha r) <ᶠ (dlamch 'S' / dlamch 'E' : Float)) = true
    · have hd69 : toR (dlapy2 alpha r) < 2 ^ (-969 : ℤ) := by
        have := (lt_iff (abs_fin bf) smf).1 hlt
        rwa [babs, smv] at this
      have NU : wholeNorm m incx alpha x ≤ 2 ^ (-967 : ℤ) := by
        have : (2 : ℝ) ^ (-967 : ℤ) = 4 * 2 ^ (-969 : ℤ) := by rw [show (4 : ℝ) = 2 ^ (2 : ℤ) by norm_num, z2]; norm_num
        rw [this]
        generalize (2 : ℝ) ^ (-969 : ℤ) = w at *
        generalize (2 : ℝ) ^ (-1036 : ℤ) = v at *
        linarith only [iD.1, gN, hd69, hz1, N0]
      have Nne : wholeNorm m incx alpha x ≠ 0 := by
        intro h0
        have hz : ∀ k < m, toR (fel m incx x k) = 0 := fun k hk => by
          have := fel_le_norm (incx := incx) (alpha := alpha) (x := x) hk
          rw [h0] at this
          exact abs_eq_zero.1 (le_antisymm this (abs_nonneg _))
        have := hr.rel (fun e he => by obtain ⟨k, hk, rfl⟩ := strided_mem he; exact Or.inl (hz k hk))
        have hn : norm2 (strided m incx x) = 0 := by
          rw [← n2, Finset.sum_eq_zero (fun k hk => by rw [hz k (Finset.mem_range.1 hk)]; norm_num), Real.sqrt_zero]
        rw [hn, mul_zero, sub_zero] at this
        exact hr0 (abs_eq_zero.1 (le_antisymm this (abs_nonneg _)))
      have NL := wholeNorm_pos Nne
      obtain ⟨x1, ex1, ho1, hv1⟩ := dscal_fl m (1 / (dlamch 'S' / dlamch 'E')) rsf x incx hinc hx hox
      have bsm : |toR (-Scalar.signum alpha * dlapy2 alpha r)| ≤ 2 ^ (-967 : ℤ) := by
        rw [← abs_toR, babs]; exact hd69.le.trans (z2le (by norm_num))
      obtain ⟨b1f, b1v⟩ := up969 bf bsm rsf rsv
      obtain ⟨a1f, a1v⟩ := up969 ha (alpha_le_norm.trans NU) rsf rsv
      have hx1 : ∀ k < m, (fel m incx x1 k).isFinite = true ∧ toR (fel m incx x1 k) = toR (fel m incx x k) * 2 ^ (969 : ℤ) := by
        intro k hk
        have hbd : |toR (fel m incx x k) * 2 ^ (969 : ℤ)| < ovf := by
          rw [abs_mul, abs_of_pos (zp _)]
          refine lt_ovf (a := 2) ((mul_le_mul_of_nonneg_right ((fel_le_norm (alpha := alpha) hk).trans NU) (zp _).le).trans (le_of_eq ?_)) (by norm_num)
          rw [z2]; norm_num
        have := hv1 k hk (hxf k hk) (by rw [rsv]; exact hbd)
        refine ⟨this.1, ?_⟩
        have h2 := this.2
        rw [rsv] at h2
        exact h2.exact (grid_scale (grid_toR _) 969)
      have hexit : Float.lt (dlamch 'S' / dlamch 'E') (-Scalar.signum alpha * dlapy2 alpha r * (1 / (dlamch 'S' / dlamch 'E'))).abs = true := by
        refine (lt_iff smf (abs_fin b1f)).2 ?_
        rw [smv, abs_toR, b1v, abs_mul, abs_of_pos (zp _), ← abs_toR (-Scalar.signum alpha * dlapy2 alpha r), babs]
        refine lt_of_lt_of_le ?_ (mul_le_mul_of_nonneg_right dge (zp _).le)
        rw [z2]; exact z2lt (by norm_num)
      rw [if_pos hlt]
      have hresc := rescale_once (alpha := alpha) hm ex1 hexit
      simp only
      rw [show (Scalar.one / (dlamch 'S' / dlamch 'E') : Float) = 1 / (dlamch 'S' / dlamch 'E') from rfl, hresc, pure_bind]
      simp only
      have Npos : 0 < wholeNorm m incx alpha x := lt_of_lt_of_le (zp _) NL
      set alpha1 := alpha * (1 / (dlamch 'S' / dlamch 'E')) with ha1
      have eN1 : wholeNorm m incx alpha1 x1 = wholeNorm m incx alpha x * 2 ^ (969 : ℤ) := by
        have e1 := wholeNorm_sq m incx alpha1 x1
        have e2 := wholeNorm_sq m incx alpha x
        have : wholeNorm m incx alpha1 x1 ^ 2 = (wholeNorm m incx alpha x * 2 ^ (969 : ℤ)) ^ 2 := by
          have es : ∑ k ∈ Finset.range m, toR (fel m incx x1 k) ^ 2 = (∑ k ∈ Finset.range m, toR (fel m incx x k) ^ 2) * (2 ^ (969 : ℤ)) ^ 2 := by
            rw [Finset.sum_mul]
            exact Finset.sum_congr rfl fun k hk => by rw [(hx1 k (Finset.mem_range.1 hk)).2, mul_pow]
          rw [e1, es, mul_pow, e2, a1v, add_mul, mul_pow]
        exact (sq_eq_sq₀ (wholeNorm_nonneg _ _ _ _) (mul_nonneg Npos.le (zp _).le)).1 this
      have N1U : wholeNorm m incx alpha1 x1 ≤ 2 ^ (2 : ℤ) := by
        rw [eN1]
        refine (mul_le_mul_of_nonneg_right NU (zp _).le).trans (le_of_eq ?_)
        rw [z2]; norm_num
      have N1L : (2 : ℝ) ^ (-971 : ℤ) ≤ wholeNorm m incx alpha1 x1 := by
        rw [eN1]
        refine le_trans ?_ (mul_le_mul_of_nonneg_right NL (zp _).le)
        rw [z2]; exact z2le (by norm_num)
      have n1U := (norm2_le_whole m incx alpha1 x1).trans N1U
      have hx1' : StrideFits m incx x1.length := by rw [ho1.length]; exact hx
      obtain ⟨r1, er1, hr1⟩ := C65_dnrm2_f64 m x1 incx (by omega) (by omega) hox (by rw [ho1.length]; omega)
        (fun e he => by obtain ⟨k, hk, rfl⟩ := strided_mem he; exact (hx1 k hk).1)
        ((mediumSq_le_sq _).trans ((pow_le_pow_left₀ (Real.sqrt_nonneg _) n1U 2).trans (by rw [z2sq]; exact z2le (by norm_num))))
        (n1U.trans (z2le (by norm_num)))
      rw [pure_bind, er1, pure_bind]
      obtain ⟨s1, beta1, tau, x', eb, efin, hF⟩ := finish_ok (sm := dlamch 'S' / dlamch 'E') (knt := 1) hm hinc hx1' hox a1f (fun k hk => (hx1 k hk).1) hr1 N1L
        (N1U.trans (z2le (by norm_num)))
      rw [← eb, efin]
      have hfr := mul_rounds beta1 (dlamch 'S' / dlamch 'E') hF.bfin smf
      have b1U : |toR beta1| ≤ 2 ^ (3 : ℤ) := by
        have e := hF.berr
        have e2 : (2 * m + 32) * ur * wholeNorm m incx alpha1 x1 ≤ 1 * wholeNorm m incx alpha1 x1 :=
          mul_le_mul_of_nonneg_right (by nlinarith) (wholeNorm_nonneg _ _ _ _)
        have e3 : |toR beta1| ≤ |toR beta1 - -s1 * wholeNorm m incx alpha1 x1| + |-s1 * wholeNorm m incx alpha1 x1| := by
          calc |toR beta1| = |(toR beta1 - -s1 * wholeNorm m incx alpha1 x1) + -s1 * wholeNorm m incx alpha1 x1| := by ring_nf
            _ ≤ _ := abs_add_le _ _
        rw [abs_mul, abs_neg, sign_abs hF.sgn, one_mul, abs_of_nonneg (wholeNorm_nonneg _ _ _ _)] at e3
        have : (2 : ℝ) ^ (3 : ℤ) = 2 * 2 ^ (2 : ℤ) := by norm_num
        rw [this]; linarith only [e, e2, e3, N1U]
      rw [smv] at hfr
      have hffin := hfr.finite (by
        rw [abs_mul, abs_of_pos (zp _)]
        refine lt_ovf (a := -966) ((mul_le_mul_of_nonneg_right b1U (zp _).le).trans (le_of_eq ?_)) (by norm_num)
        rw [z2]; norm_num)
      obtain ⟨hacc, -⟩ := hF.rescaled (beta' := beta1 * (dlamch 'S' / dlamch 'E')) Npos a1v (fun k hk => (hx1 k hk).2) hffin (hfr.fl hffin).general
      refine ⟨_, _, _, rfl, ⟨hF.only.length.trans ho1.length, fun p hp => (hF.only.frame p hp).trans (ho1.frame p hp)⟩, Or.inr hacc⟩
    · have hd69 : (2 : ℝ) ^ (-969 : ℤ) ≤ toR (dlapy2 alpha r) := by
        have := mt (lt_iff (abs_fin bf) smf).2 hlt
        rw [babs, smv] at this
        exact not_lt.1 this
      have NL : (2 : ℝ) ^ (-971 : ℤ) ≤ wholeNorm m incx alpha x := by
        have : (2 : ℝ) ^ (-971 : ℤ) = 1 / 4 * 2 ^ (-969 : ℤ) := by rw [show (1 / 4 : ℝ) = 2 ^ (-2 : ℤ) by norm_num, z2]; norm_num
        rw [this]
        generalize (2 : ℝ) ^ (-969 : ℤ) = w at *
        generalize (2 : ℝ) ^ (-1036 : ℤ) = v at *
        linarith only [iD.2, gN, hd69, hz1, N0, z69]
      rw [if_neg hlt]
      obtain ⟨s1, beta1, tau, x', eb, efin, hF⟩ := finish_ok (sm := dlamch 'S' / dlamch 'E') (knt := 0) hm hinc hx hox ha hxf hr NL hN
      rw [← eb, efin]
      exact ⟨_, _, _, rfl, hF.only, Or.inr (hF.accurate (lt_of_lt_of_le (zp _) NL))⟩

/-- The condition on `mediumSq` holds for short vectors and for vectors of moderate elements. -/
theorem C66_dlarfg_f64_simple (m : Nat) (hm1 : 1 ≤ m) (alpha : Float) (x : List Float) (incx : Int) (hinc : 1 ≤ incx)
    (hx : StrideFits m incx x.length) (hl : x.length < 2 ^ 60) (hox : m * incx.natAbs + 1 < 2 ^ 31)
    (ha : alpha.isFinite = true) (hxf : ∀ k < m, (fel m incx x k).isFinite = true)
    (hs : m ≤ 2 ^ 12 ∨ ∀ k < m, |toR (fel m incx x k)| ≤ 2 ^ (495 : ℤ))
    (hN : Real.sqrt (toR alpha ^ 2 + ∑ k ∈ Finset.range m, toR (fel m incx x k) ^ 2) ≤ 2 ^ (1020 : ℤ)) :
    ∃ (beta tau : Float) (x' : List Float), dlarfg ((m : Int) + 1) alpha x incx = pure (beta, x', tau) ∧ OnlyStride m incx x x' ∧
      ((beta = alpha ∧ x' = x ∧ tau = 0 ∧ Real.sqrt (∑ k ∈ Finset.range m, toR (fel m incx x k) ^ 2) ≤ Real.sqrt m / 2 ^ 1052) ∨
        LarfgAccurate m alpha (fel m incx x) beta tau (fel m incx x')) := by
  have hlen : (strided m incx x).length = m := by simp [strided]
  have hm : m < 2 ^ 31 := by
    have : m * 1 ≤ m * incx.natAbs := Nat.mul_le_mul_left _ (by omega)
    omega
  refine C66_dlarfg_f64 m hm1 alpha x incx hinc hx hl hox ha hxf (mediumSq_le (by omega) ?_) hN
  rw [hlen]
  exact hs.imp id fun h e he => by obtain ⟨k, hk, rfl⟩ := strided_mem he; exact h k hk

/-- Three elements of any magnitude up to `2^1018`: `dlarfg` delivers an accurate reflector as soon as the first element of `x` is
not tiny. -/
theorem C66_example_of (a b c : Float) (ha : a.isFinite = true) (hb : b.isFinite = true) (hc : c.isFinite = true)
    (h1 : |toR a| ≤ 2 ^ (1018 : ℤ)) (h2 : |toR b| ≤ 2 ^ (1018 : ℤ)) (h3 : |toR c| ≤ 2 ^ (1018 : ℤ)) (hb1 : (2 : ℝ) ^ (-1050 : ℤ) ≤ |toR b|) :
    ∃ (beta tau b' c' : Float), dlarfg 3 a [b, c] 1 = pure (beta, [b', c'], tau) ∧
      LarfgAccurate 2 a (fun k => [b, c].getD k 0) beta tau (fun k => [b', c'].getD k 0) := by
  have e0 : ∀ y z : Float, fel 2 1 [y, z] 0 = y := fun _ _ => rfl
  have e1 : ∀ y z : Float, fel 2 1 [y, z] 1 = z := fun _ _ => rfl
  have sq : ∀ w : ℝ, |w| ≤ 2 ^ (1018 : ℤ) → w ^ 2 ≤ 2 ^ (2036 : ℤ) := fun w hw => by
    rw [← sq_abs, show (2036 : ℤ) = 1018 + 1018 by norm_num, ← z2sq]
    exact pow_le_pow_left₀ (abs_nonneg _) hw 2
  obtain ⟨beta, tau, x', e, ho, hcase⟩ := C66_dlarfg_f64_simple 2 (by norm_num) a [b, c] 1 (le_refl _) (fun k hk => by
      have : k = 0 ∨ k = 1 := by omega
      rcases this with rfl | rfl
      · exact (by decide : strideIx 2 1 0 < 2)
      · exact (by decide : strideIx 2 1 1 < 2)) (by simp) (by norm_num) ha
    (fun k hk => by
      have : k = 0 ∨ k = 1 := by omega
      rcases this with rfl | rfl
      · rw [e0]; exact hb
      · rw [e1]; exact hc) (Or.inl (by norm_num)) (by
      rw [Finset.sum_range_succ, Finset.sum_range_one, e0, e1]
      refine Real.sqrt_le_iff.2 ⟨(zp _).le, ?_⟩
      have q1 := sq _ h1
      have q2 := sq _ h2
      have q3 := sq _ h3
      have q4 : ((2 : ℝ) ^ (1020 : ℤ)) ^ 2 = 16 * 2 ^ (2036 : ℤ) := by
        rw [z2sq, show (16 : ℝ) = 2 ^ (4 : ℤ) by norm_num, z2]; norm_num
      have q5 := zp 2036
      rw [q4]
      generalize (2 : ℝ) ^ (2036 : ℤ) = w at *
      linarith only [q1, q2, q3, q5])
  have hlen : x'.length = 2 := ho.length
  obtain ⟨b', c', rfl⟩ : ∃ b' c', x' = [b', c'] := by
    match x', hlen with
    | [p, q], _ => exact ⟨p, q, rfl⟩
  refine ⟨beta, tau, b', c', e, ?_⟩
  rcases hcase with ⟨-, -, -, h⟩ | h
  · exfalso
    rw [Finset.sum_range_succ, Finset.sum_range_one, e0, e1] at h
    have h5 : |toR b| ≤ Real.sqrt (toR b ^ 2 + toR c ^ 2) := by
      rw [← Real.sqrt_sq_eq_abs]; exact Real.sqrt_le_sqrt (by nlinarith [sq_nonneg (toR c)])
    have h6 : Real.sqrt ((2 : ℕ) : ℝ) / 2 ^ 1052 ≤ 2 ^ (-1051 : ℤ) := by
      rw [div_eq_mul_one_div, show (1 : ℝ) / 2 ^ 1052 = 2 ^ (-1052 : ℤ) from (zpneg 1052).symm, show (-1051 : ℤ) = 1 + -1052 by norm_num, ← z2, zpow_one]
      refine mul_le_mul_of_nonneg_right ?_ (zp _).le
      rw [Real.sqrt_le_left (by norm_num)]; norm_num
    exact absurd (hb1.trans (h5.trans (h.trans h6))) (not_le.2 (z2lt (by norm_num)))
  · obtain ⟨B, T, V, hR, q1, q2, q3, q4, q5, q6, q7⟩ := h
    have ee : ∀ (y z : Float) k, k < 2 → fel 2 1 [y, z] k = [y, z].getD k 0 := fun y z k hk => by
      have : k = 0 ∨ k = 1 := by omega
      rcases this with rfl | rfl <;> rfl
    refine ⟨B, T, V, ⟨hR.orthogonal, ?_, ?_, ?_, hR.sign⟩, q1, q2, q3, q4, q5, q6, fun k hk => ?_⟩
    · have := hR.first
      rw [Finset.sum_range_succ, Finset.sum_range_one] at this ⊢
      exact this
    · intro j hj
      have := hR.rest j hj
      rw [Finset.sum_range_succ, Finset.sum_range_one] at this ⊢
      simp only [ee b c j hj] at this
      exact this
    · have := hR.norm
      rw [Finset.sum_range_succ, Finset.sum_range_one] at this ⊢
      exact this
    · have := q7 k hk
      rwa [ee b' c' k hk] at this

/-- The hypotheses of `C66_dlarfg_f64` are met by numbers of wildly different magnitudes. -/
theorem C66_example : ∃ (beta tau b' c' : Float), dlarfg 3 (tsml : Float) [sbig, tbig] 1 = pure (beta, [b', c'], tau) ∧
    LarfgAccurate 2 tsml (fun k => [(sbig : Float), tbig].getD k 0) beta tau (fun k => [b', c'].getD k 0) := by
  refine C66_example_of _ _ _ toR_tsml.1 toR_sbig.1 toR_tbig.1 ?_ ?_ ?_ ?_
  · rw [toR_tsml.2, abs_of_pos (zp _)]; exact z2le (by norm_num)
  · rw [toR_sbig.2, abs_of_pos (zp _)]; exact z2le (by norm_num)
  · rw [toR_tbig.2, abs_of_pos (zp _)]; exact z2le (by norm_num)
  · rw [toR_sbig.2, abs_of_pos (zp _)]; exact z2le (by norm_num)

end Verif
