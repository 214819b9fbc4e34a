import Verif.Props.GemmF64

/-!
# Rounding errors of `dnrm2` on binary64: lemmas
-/

namespace Verif.F64
open Float.Model Float.Model.UnpackedFloat Scalar

/-! ### More rules for `Appr` -/

variable {n m : Nat} {x X S U : ℝ}

theorem Appr.absorb (h : Appr n x X S U) (hU : U ≤ ur * S) : Appr (n + 1) x X S 0 := by
  have h1 := one_le_pow n
  refine ⟨h.err.trans ?_, h.size, le_refl _⟩
  have h2 : (1 + ur) ^ n * U ≤ (1 + ur) ^ n * (ur * S) := mul_le_mul_of_nonneg_left hU (by linarith)
  rw [pow_succ]
  linarith

theorem Appr.rel {f : ℝ} (h : Appr n x X S U) (hf : |f - x| ≤ ur * |x|) : Appr (n + 1) f X S U := by
  have hu := ur_pos
  have h1 := h.abs_le
  have h2 := h.err
  refine ⟨?_, h.size, h.under⟩
  have h3 : |f - X| ≤ |f - x| + |x - X| := by
    calc |f - X| = |f - x + (x - X)| := by ring_nf
      _ ≤ _ := abs_add_le _ _
  have h4 : ur * |x| ≤ ur * ((1 + ur) ^ n * (S + U)) := mul_le_mul_of_nonneg_left h1 hu.le
  rw [pow_succ]
  nlinarith

/-- The exact value is replaced by a slightly larger one. -/
theorem Appr.shift {X' : ℝ} (h : Appr n x X X U) (h1 : X ≤ X') (h2 : X' - X ≤ ur * X') : Appr (n + 1) x X' X' U := by
  have hu := ur_pos
  have hp := one_le_pow n
  have hX := h.s0
  have he := h.err
  have hU := h.under
  refine ⟨?_, by rw [abs_of_nonneg (by linarith)], hU⟩
  have h3 : |x - X'| ≤ |x - X| + |X - X'| := by
    calc |x - X'| = |x - X + (X - X')| := by ring_nf
      _ ≤ _ := abs_add_le _ _
  rw [abs_sub_comm X, abs_of_nonneg (by linarith : 0 ≤ X' - X)] at h3
  have h4 : ((1 + ur) ^ n - 1) * X ≤ ((1 + ur) ^ n - 1) * X' := mul_le_mul_of_nonneg_left h1 (by linarith)
  have h5 : ur * X' ≤ (1 + ur) ^ n * (ur * X') := le_mul_of_one_le_left (mul_nonneg hu.le (by linarith)) hp
  have h6 : (1 + ur) ^ n * U ≤ (1 + ur) ^ n * U * (1 + ur) := le_mul_of_one_le_right (mul_nonneg (by linarith) hU) (by linarith)
  rw [pow_succ]
  nlinarith

/-- An absolute error. -/
theorem Appr.plus {X' V : ℝ} (h : Appr n x X X U) (h1 : X ≤ X') (h2 : X' - X ≤ V) : Appr n x X' X' (U + V) := by
  have hp := one_le_pow n
  have hX := h.s0
  have he := h.err
  have hU := h.under
  have hV : 0 ≤ V := by linarith
  refine ⟨?_, by rw [abs_of_nonneg (by linarith)], by linarith⟩
  have h3 : |x - X'| ≤ |x - X| + |X - X'| := by
    calc |x - X'| = |x - X + (X - X')| := by ring_nf
      _ ≤ _ := abs_add_le _ _
  rw [abs_sub_comm X, abs_of_nonneg (by linarith : 0 ≤ X' - X)] at h3
  have h4 : ((1 + ur) ^ n - 1) * X ≤ ((1 + ur) ^ n - 1) * X' := mul_le_mul_of_nonneg_left h1 (by linarith)
  have h5 : V ≤ (1 + ur) ^ n * V := le_mul_of_one_le_left hV hp
  nlinarith

theorem Appr.comp {Y : ℝ} (h : Appr n x Y Y 0) (h' : Appr m Y X X U) : Appr (n + m) x X X U := by
  have hn := one_le_pow n
  have hm := one_le_pow m
  have h1 := h.err
  have h2 := h'.err
  have h3 := h'.abs_le
  rw [abs_of_nonneg h.s0] at h3
  refine ⟨?_, h'.size, h'.under⟩
  have h4 : |x - X| ≤ |x - Y| + |Y - X| := by
    calc |x - X| = |x - Y + (Y - X)| := by ring_nf
      _ ≤ _ := abs_add_le _ _
  have h5 : ((1 + ur) ^ n - 1) * Y ≤ ((1 + ur) ^ n - 1) * ((1 + ur) ^ m * (X + U)) := mul_le_mul_of_nonneg_left h3 (by linarith)
  rw [pow_add]
  nlinarith

theorem Appr.mulA {y Y T V : ℝ} (h : Appr n x X S U) (h' : Appr m y Y T V) : Appr (n + m) (x * y) (X * Y) (S * T) (S * V + U * T + U * V) := by
  have hn := one_le_pow n
  have hm := one_le_pow m
  have e1 := h.err
  have e2 := h'.err
  have e3 := h.abs_le
  have s1 := h.s0
  have s2 := h'.s0
  have u1 := h.under
  have u2 := h'.under
  refine ⟨?_, by rw [abs_mul]; exact mul_le_mul h.size h'.size (abs_nonneg _) s1, by positivity⟩
  have h4 : |x * y - X * Y| ≤ |x| * |y - Y| + |Y| * |x - X| := by
    rw [← abs_mul, ← abs_mul]
    calc |x * y - X * Y| = |x * (y - Y) + Y * (x - X)| := by ring_nf
      _ ≤ _ := abs_add_le _ _
  have h5 : |x| * |y - Y| ≤ ((1 + ur) ^ n * (S + U)) * (((1 + ur) ^ m - 1) * T + (1 + ur) ^ m * V) :=
    mul_le_mul e3 e2 (abs_nonneg _) ((abs_nonneg _).trans e3)
  have h6 : |Y| * |x - X| ≤ T * (((1 + ur) ^ n - 1) * S + (1 + ur) ^ n * U) := mul_le_mul h'.size e1 (abs_nonneg _) s2
  rw [pow_add]
  refine h4.trans ((add_le_add h5 h6).trans (le_of_eq ?_))
  ring

theorem sqrt_le_of {a b : ℝ} (ha : 0 ≤ a) (hb : 0 ≤ b) : Real.sqrt (a + b) ≤ Real.sqrt a + Real.sqrt b := by
  rw [Real.sqrt_le_left (by positivity)]
  have h1 := Real.sq_sqrt ha
  have h2 := Real.sq_sqrt hb
  nlinarith [mul_nonneg (Real.sqrt_nonneg a) (Real.sqrt_nonneg b)]

theorem Appr.sqrt {y Y : ℝ} (h : Appr n y Y Y U) (hy : 0 ≤ y) : Appr n (Real.sqrt y) (Real.sqrt Y) (Real.sqrt Y) (Real.sqrt U) := by
  have hp := one_le_pow n
  have hY := h.s0
  have hU := h.under
  have he := _root_.abs_le.1 h.err
  set g := (1 + ur) ^ n with hg
  have sY := Real.sqrt_nonneg Y
  have sgU : Real.sqrt (g * U) ≤ g * Real.sqrt U := by
    rw [Real.sqrt_le_left (by positivity), mul_pow, Real.sq_sqrt hU]
    have : g ≤ g ^ 2 := by nlinarith
    exact mul_le_mul_of_nonneg_right this hU
  refine ⟨?_, by rw [abs_of_nonneg sY], Real.sqrt_nonneg _⟩
  rw [_root_.abs_le]
  constructor
  · -- lower bound
    by_cases hg2 : 2 ≤ g
    · have : Real.sqrt Y ≤ (g - 1) * Real.sqrt Y := le_mul_of_one_le_left sY (by linarith)
      have : 0 ≤ g * Real.sqrt U := by positivity
      have := Real.sqrt_nonneg y
      linarith
    · push Not at hg2
      have h1 : (2 - g) * Y ≤ y + g * U := by nlinarith
      have h2 : (2 - g) * Real.sqrt Y ≤ Real.sqrt y + Real.sqrt (g * U) := by
        refine le_trans ?_ ((Real.sqrt_le_sqrt h1).trans (sqrt_le_of hy (by positivity)))
        refine Real.le_sqrt_of_sq_le ?_
        rw [mul_pow, Real.sq_sqrt hY]
        exact mul_le_mul_of_nonneg_right (by nlinarith) hY
      linarith
  · have h1 : y ≤ g * Y + g * U := by nlinarith
    have h2 : Real.sqrt y ≤ Real.sqrt (g * Y) + Real.sqrt (g * U) := (Real.sqrt_le_sqrt h1).trans (sqrt_le_of (by positivity) (by positivity))
    have h3 : Real.sqrt (g * Y) ≤ g * Real.sqrt Y := by
      rw [Real.sqrt_le_left (by positivity), mul_pow, Real.sq_sqrt hY]
      have : g ≤ g ^ 2 := by nlinarith
      exact mul_le_mul_of_nonneg_right this hY
    linarith

/-- Two components. -/
theorem Appr.hypot {a b A B V : ℝ} (ha : Appr n a A A 0) (hb : Appr n b B B V) (h0 : 0 ≤ a) (h0' : 0 ≤ b) :
    Appr n (Real.sqrt (a ^ 2 + b ^ 2)) (Real.sqrt (A ^ 2 + B ^ 2)) (Real.sqrt (A ^ 2 + B ^ 2)) V := by
  have hp := one_le_pow n
  have hA := ha.s0
  have hB := hb.s0
  have hV := hb.under
  have e1 := ha.err
  have e2 := hb.err
  set g := (1 + ur) ^ n with hg
  have hN := Real.sqrt_nonneg (A ^ 2 + B ^ 2)
  refine ⟨?_, by rw [abs_of_nonneg hN], hV⟩
  -- Minkowski
  have mink : ∀ p q r s : ℝ, 0 ≤ p → 0 ≤ q → 0 ≤ r → 0 ≤ s →
      Real.sqrt ((p + r) ^ 2 + (q + s) ^ 2) ≤ Real.sqrt (p ^ 2 + q ^ 2) + Real.sqrt (r ^ 2 + s ^ 2) := by
    intro p q r s hp hq hr hs
    rw [Real.sqrt_le_left (by positivity)]
    have h1 := Real.sq_sqrt (show 0 ≤ p ^ 2 + q ^ 2 by positivity)
    have h2 := Real.sq_sqrt (show 0 ≤ r ^ 2 + s ^ 2 by positivity)
    have h3 : p * r + q * s ≤ Real.sqrt (p ^ 2 + q ^ 2) * Real.sqrt (r ^ 2 + s ^ 2) := by
      rw [← Real.sqrt_mul (by positivity)]
      refine Real.le_sqrt_of_sq_le ?_
      nlinarith [sq_nonneg (p * s - q * r)]
    nlinarith
  have dist : Real.sqrt (((g - 1) * A) ^ 2 + ((g - 1) * B + g * V) ^ 2) ≤ (g - 1) * Real.sqrt (A ^ 2 + B ^ 2) + g * V := by
    have h1 := mink ((g - 1) * A) ((g - 1) * B) 0 (g * V) (by nlinarith) (by nlinarith) (le_refl _) (by positivity)
    rw [add_zero] at h1
    refine h1.trans (add_le_add (le_of_eq ?_) (le_of_eq ?_))
    · rw [show ((g - 1) * A) ^ 2 + ((g - 1) * B) ^ 2 = (g - 1) ^ 2 * (A ^ 2 + B ^ 2) by ring, Real.sqrt_mul (by positivity),
        Real.sqrt_sq (by linarith)]
    · rw [show (0 : ℝ) ^ 2 + (g * V) ^ 2 = (g * V) ^ 2 by ring, Real.sqrt_sq (by positivity)]
  have e1' := _root_.abs_le.1 e1
  have e2' := _root_.abs_le.1 e2
  rw [mul_zero, add_zero] at e1'
  rw [_root_.abs_le]
  constructor
  · have h1 : Real.sqrt (A ^ 2 + B ^ 2) ≤ Real.sqrt ((a + (g - 1) * A) ^ 2 + (b + ((g - 1) * B + g * V)) ^ 2) := by
      apply Real.sqrt_le_sqrt
      have k1 : A ^ 2 ≤ (a + (g - 1) * A) ^ 2 := pow_le_pow_left₀ hA (by linarith) 2
      have k2 : B ^ 2 ≤ (b + ((g - 1) * B + g * V)) ^ 2 := pow_le_pow_left₀ hB (by linarith) 2
      linarith
    have h2 := mink a b ((g - 1) * A) ((g - 1) * B + g * V) h0 h0' (by nlinarith) (add_nonneg (by nlinarith) (by positivity))
    linarith
  · have h1 : Real.sqrt (a ^ 2 + b ^ 2) ≤ Real.sqrt ((A + (g - 1) * A) ^ 2 + (B + ((g - 1) * B + g * V)) ^ 2) := by
      apply Real.sqrt_le_sqrt
      have k1 : a ^ 2 ≤ (A + (g - 1) * A) ^ 2 := pow_le_pow_left₀ h0 (by linarith) 2
      have k2 : b ^ 2 ≤ (B + ((g - 1) * B + g * V)) ^ 2 := pow_le_pow_left₀ h0' (by linarith) 2
      linarith
    have h2 := mink A B ((g - 1) * A) ((g - 1) * B + g * V) hA hB (by nlinarith) (add_nonneg (by nlinarith) (by positivity))
    linarith

/-! ### Rounding without underflow -/

theorem Fl.normal {X Y : ℝ} (h : Fl X Y) (hX : (2 : ℝ) ^ (-1022 : ℤ) ≤ |X|) : |Y - X| ≤ ur * |X| := by
  refine h.err.trans (max_le (le_of_eq ?_) ?_)
  · unfold ur; ring
  · have h1 : ur * (2 : ℝ) ^ (-1022 : ℤ) ≤ ur * |X| := mul_le_mul_of_nonneg_left hX ur_pos.le
    refine le_trans (le_of_eq ?_) h1
    unfold ur
    rw [show (1 : ℝ) / 2 ^ 53 = 2 ^ (-53 : ℤ) from (zpneg 53).symm, show (1 : ℝ) / 2 ^ 1075 = 2 ^ (-1075 : ℤ) from (zpneg 1075).symm,
      ← zpow_add₀ (by norm_num)]
    norm_num

theorem Fl.general {X Y : ℝ} (h : Fl X Y) : |Y - X| ≤ ur * |X| + eta := by
  refine h.err.trans (max_le ?_ ?_)
  · have := eta_pos
    unfold ur
    linarith [show |X| / 2 ^ 53 = 1 / 2 ^ 53 * |X| by ring]
  · have : 0 ≤ ur * |X| := mul_nonneg ur_pos.le (abs_nonneg _)
    unfold eta
    linarith

theorem pos_ge {x : Float} (h : 0 < toR x) : (2 : ℝ) ^ (-1074 : ℤ) ≤ toR x := by
  by_contra hc
  push Not at hc
  rw [show (2 : ℝ) ^ (-1074 : ℤ) = 1 / 2 ^ 1074 from zpneg 1074] at hc
  have := toR_tiny (x := x) (by rwa [abs_of_pos h])
  linarith

theorem z2 (a b : ℤ) : (2 : ℝ) ^ a * 2 ^ b = 2 ^ (a + b) := (zpow_add₀ (by norm_num) a b).symm
theorem z2le {a b : ℤ} (h : a ≤ b) : (2 : ℝ) ^ a ≤ 2 ^ b := zpow_le_zpow_right₀ (by norm_num) h
theorem z2lt {a b : ℤ} (h : a < b) : (2 : ℝ) ^ a < 2 ^ b := zpow_lt_zpow_right₀ (by norm_num) h
theorem z2sq (a : ℤ) : ((2 : ℝ) ^ a) ^ 2 = 2 ^ (a + a) := by rw [sq, z2]
theorem z2sqrt (a : ℤ) : Real.sqrt ((2 : ℝ) ^ (a + a)) = 2 ^ a := by rw [← z2sq, Real.sqrt_sq (zp a).le]
theorem ur_z : ur = (2 : ℝ) ^ (-53 : ℤ) := by unfold ur; exact (zpneg 53).symm
theorem eta_z : eta = (2 : ℝ) ^ (-1075 : ℤ) := by unfold eta; exact (zpneg 1075).symm

theorem ovf_ge : 3 * (2 : ℝ) ^ (1022 : ℤ) < ovf := by
  unfold ovf
  rw [show (2 : ℝ) ^ 971 = 2 ^ (971 : ℤ) from (zpn 971).symm, show (1022 : ℤ) = 51 + 971 by norm_num, ← z2, ← mul_assoc]
  refine mul_lt_mul_of_pos_right ?_ (zp _)
  norm_num

theorem lt_ovf {t : ℝ} {a : ℤ} (h : t ≤ 2 ^ a) (ha : a ≤ 1022) : t < ovf := by
  have h1 := h.trans (z2le ha)
  have h2 := ovf_ge
  have h3 := zp 1022
  generalize (2 : ℝ) ^ (1022 : ℤ) = w at *
  linarith

theorem sqrt_err {x : Float} (hx : x.isFinite = true) (h0 : 0 ≤ toR x) : x.sqrt.isFinite = true ∧ 0 ≤ toR x.sqrt ∧
    |toR x.sqrt - Real.sqrt (toR x)| ≤ ur * Real.sqrt (toR x) := by
  have hr := sqrt_rounds x hx h0
  have hlt : |Real.sqrt (toR x)| < ovf := by
    rw [abs_of_nonneg (Real.sqrt_nonneg _)]
    have h1 := abs_toR_lt x
    rw [abs_of_nonneg h0] at h1
    have h2 : (1 : ℝ) < ovf := one_lt_ovf
    rw [Real.sqrt_lt' (by linarith)]
    nlinarith
  have hf := hr.finite hlt
  have hfl := hr.fl hf
  refine ⟨hf, hfl.nonneg (Real.sqrt_nonneg _), ?_⟩
  rcases h0.lt_or_eq with h | h
  · have h1 := pos_ge h
    have h2 : (2 : ℝ) ^ (-1022 : ℤ) ≤ |Real.sqrt (toR x)| := by
      rw [abs_of_nonneg (Real.sqrt_nonneg _)]
      refine Real.le_sqrt_of_sq_le (le_trans ?_ h1)
      rw [z2sq]; exact z2le (by norm_num)
    have := hfl.normal h2
    rwa [abs_of_nonneg (Real.sqrt_nonneg _)] at this
  · rw [← h, Real.sqrt_zero] at hfl ⊢
    have := hfl.exact (by simpa using grid_nat (n := 0) (by norm_num))
    rw [this]; simp

theorem grid_scale {G : ℝ} (h : Grid G) (k : ℕ) : Grid (G * 2 ^ (k : ℤ)) := by
  obtain ⟨m, e, h1, h2, h3⟩ := h
  refine ⟨m, e + k, h1, by omega, ?_⟩
  rw [abs_mul, h3, abs_of_pos (zp _), mul_assoc, z2]

theorem grid_unscale {G : ℝ} (h : Grid G) (a k : ℤ) (hG : (2 : ℝ) ^ a < |G|) (hk : -1074 ≤ a - 52 + k) : Grid (G * 2 ^ k) := by
  obtain ⟨m, e, h1, h2, h3⟩ := h
  refine ⟨m, e + k, h1, ?_, by rw [abs_mul, h3, abs_of_pos (zp _), mul_assoc, z2]⟩
  have : a < 53 + e := by
    by_contra hc
    push Not at hc
    have h4 : |G| ≤ (2 : ℝ) ^ (53 : ℤ) * 2 ^ e := by
      rw [h3]
      refine mul_le_mul_of_nonneg_right ?_ (zp _).le
      have : ((m : Nat) : ℝ) ≤ ((2 ^ 53 : ℕ) : ℝ) := by exact_mod_cast h1.le
      refine this.trans (le_of_eq ?_)
      norm_num
    rw [z2] at h4
    exact absurd (hG.trans_le (h4.trans (z2le hc))) (lt_irrefl _)
  omega

/-! ### Accumulators -/

/-- A non-negative float that approximates `X ≥ 0`. -/
structure Acc (k : Nat) (f : Float) (X U : ℝ) : Prop where
  fin : f.isFinite = true
  nonneg : 0 ≤ toR f
  appr : Appr k (toR f) X X U

variable {k : Nat} {f g : Float} {Y V : ℝ}

theorem Acc.x0 (h : Acc k f X U) : 0 ≤ X := h.appr.s0
theorem Acc.mono {k' : Nat} {U' : ℝ} (h : Acc k f X U) (hk : k ≤ k') (hU : U ≤ U') : Acc k' f X U' := ⟨h.fin, h.nonneg, h.appr.mono hk hU⟩

theorem Acc.zero (k : Nat) : Acc k 0 0 0 :=
  ⟨toR_zero.1, by rw [show toR 0 = 0 from toR_zero.2], by rw [show toR 0 = 0 from toR_zero.2]; exact ⟨by simp, by simp, le_refl _⟩⟩

theorem Acc.le (h : Acc k f X U) : toR f ≤ (1 + ur) ^ k * (X + U) := (le_abs_self _).trans h.appr.abs_le

theorem Acc.add (hf : Acc k f X U) (hg : Acc k g Y V) (hb : (1 + ur) ^ k * (X + U + (Y + V)) < ovf) : Acc (k + 1) (f + g) (X + Y) (U + V) := by
  have hr := add_rounds f g hf.fin hg.fin
  have h0 : 0 ≤ toR f + toR g := add_nonneg hf.nonneg hg.nonneg
  have hfin : (f + g).isFinite = true := hr.finite (by
    rw [abs_of_nonneg h0]
    have := hf.le
    have := hg.le
    linarith)
  exact ⟨hfin, (hr.fl hfin).nonneg h0, hf.appr.add hg.appr (add_err hf.fin hg.fin hfin)⟩

theorem Acc.sqrt (h : Acc k f X U) : Acc (k + 1) f.sqrt (Real.sqrt X) (Real.sqrt U) := by
  obtain ⟨h1, h2, h3⟩ := sqrt_err h.fin h.nonneg
  refine ⟨h1, h2, (h.appr.sqrt h.nonneg).rel ?_⟩
  rwa [abs_of_nonneg (Real.sqrt_nonneg _)]

/-- Multiplication by a power of two. -/
theorem Acc.mulPow {c : Float} {e : ℤ} (h : Acc k f X U) (hc : c.isFinite = true) (hce : toR c = 2 ^ e) (hb : (1 + ur) ^ k * (X + U) * 2 ^ e < ovf) :
    Acc (k + 1) (f * c) (X * 2 ^ e) (U * 2 ^ e + eta) := by
  have hr := mul_rounds f c h.fin hc
  have h0 : 0 ≤ toR f * toR c := mul_nonneg h.nonneg (by rw [hce]; exact (zp e).le)
  have hfin : (f * c).isFinite = true := hr.finite (by
    rw [abs_of_nonneg h0, hce]
    exact lt_of_le_of_lt (mul_le_mul_of_nonneg_right h.le (zp e).le) hb)
  have := h.appr.mulL (mul_err h.fin hc hfin)
  rw [hce, abs_of_pos (zp e)] at this
  exact ⟨hfin, (hr.fl hfin).nonneg h0, this⟩

theorem Acc.divPow {c : Float} {e : ℤ} (h : Acc k f X U) (hc : c.isFinite = true) (hce : toR c = 2 ^ e) (hb : (1 + ur) ^ k * (X + U) * 2 ^ (-e) < ovf) :
    Acc (k + 1) (f / c) (X * 2 ^ (-e)) (U * 2 ^ (-e) + eta) := by
  have hr := div_rounds f c h.fin hc (by rw [hce]; exact (zp e).ne')
  have hd : toR f / toR c = toR f * 2 ^ (-e) := by rw [hce, zpow_neg, div_eq_mul_inv]
  rw [hd] at hr
  have h0 : 0 ≤ toR f * 2 ^ (-e) := mul_nonneg h.nonneg (zp _).le
  have hfin : (f / c).isFinite = true := hr.finite (by
    rw [abs_of_nonneg h0]
    exact lt_of_le_of_lt (mul_le_mul_of_nonneg_right h.le (zp _).le) hb)
  have := h.appr.mulL ((hr.fl hfin).general)
  rw [abs_of_pos (zp (-e))] at this
  exact ⟨hfin, (hr.fl hfin).nonneg h0, this⟩

theorem Acc.absorb (h : Acc k f X U) (hU : U ≤ ur * X) : Acc (k + 1) f X 0 := ⟨h.fin, h.nonneg, h.appr.absorb hU⟩
theorem Acc.shift {X' : ℝ} (h : Acc k f X U) (h1 : X ≤ X') (h2 : X' - X ≤ ur * X') : Acc (k + 1) f X' U := ⟨h.fin, h.nonneg, h.appr.shift h1 h2⟩

/-! ### Squares of the elements -/

theorem sq_exact {a : Float} {X : ℝ} (ha : a.isFinite = true) (hX : toR a = X) (hb : X * X < ovf) :
    (a * a).isFinite = true ∧ Fl (X * X) (toR (a * a)) := by
  have hr := mul_rounds a a ha ha
  rw [hX] at hr
  have hfin := hr.finite (by rwa [abs_of_nonneg (mul_self_nonneg _)])
  exact ⟨hfin, hr.fl hfin⟩

theorem abs_fin {x : Float} (h : x.isFinite = true) : x.abs.isFinite = true := by
  rw [isFinite_up] at h ⊢
  rw [up_abs']
  cases hu : up x <;> rw [hu] at h <;> first | rfl | cases h

theorem sq_normal {a : Float} {X : ℝ} (ha : a.isFinite = true) (hX : toR a = X) (hb : X * X < ovf) (hl : (2 : ℝ) ^ (-1022 : ℤ) ≤ X * X) :
    Acc 1 (a * a) (X * X) 0 := by
  obtain ⟨h1, h2⟩ := sq_exact ha hX hb
  refine ⟨h1, h2.nonneg (mul_self_nonneg _), ?_⟩
  have h3 := h2.normal (by rwa [abs_of_nonneg (mul_self_nonneg _)])
  rw [abs_of_nonneg (mul_self_nonneg X)] at h3
  exact ⟨by simpa using h3, by rw [abs_of_nonneg (mul_self_nonneg _)], le_refl _⟩

theorem sq_general {a : Float} {X : ℝ} (ha : a.isFinite = true) (hX : toR a = X) (hb : X * X < ovf) :
    Acc 1 (a * a) (X * X) eta := by
  obtain ⟨h1, h2⟩ := sq_exact ha hX hb
  refine ⟨h1, h2.nonneg (mul_self_nonneg _), ?_⟩
  have h3 := h2.general
  rw [abs_of_nonneg (mul_self_nonneg X)] at h3
  have h4 : eta ≤ (1 + ur) * eta := le_mul_of_one_le_left eta_pos.le (by linarith [ur_pos])
  refine ⟨?_, by rw [abs_of_nonneg (mul_self_nonneg _)], eta_pos.le⟩
  rw [pow_one, add_sub_cancel_left]
  linarith

theorem z2mul {x : ℝ} {a b : ℤ} (h : (2 : ℝ) ^ a ≤ |x|) : (2 : ℝ) ^ (a + b) ≤ |x| * 2 ^ b := by
  rw [← z2]; exact mul_le_mul_of_nonneg_right h (zp b).le

theorem sq_med {x : Float} (hx : x.isFinite = true) (h1 : (2 : ℝ) ^ (-511 : ℤ) ≤ |toR x|) (h2 : |toR x| ≤ 2 ^ (505 : ℤ)) :
    Acc 1 (x.abs * x.abs) (toR x ^ 2) 0 ∧ (2 : ℝ) ^ (-1022 : ℤ) ≤ toR (x.abs * x.abs) := by
  have hb : |toR x| * |toR x| < ovf := by
    refine lt_ovf ((mul_le_mul h2 h2 (abs_nonneg _) (zp _).le).trans (le_of_eq (z2 _ _))) (by norm_num)
  have hl : (2 : ℝ) ^ (-1022 : ℤ) ≤ |toR x| * |toR x| := by
    refine le_trans (le_of_eq ?_) (mul_le_mul h1 h1 (zp _).le (abs_nonneg _))
    rw [z2]; norm_num
  have h := sq_normal (abs_fin hx) (abs_toR x) hb hl
  rw [abs_mul_abs_self, ← sq] at h
  exact ⟨h, (sq_exact (abs_fin hx) (abs_toR x) hb).2.lower _ (grid_pow _ (by norm_num)) hl⟩

theorem scaled_big {x : Float} (hx : x.isFinite = true) (h1 : (2 : ℝ) ^ (505 : ℤ) < |toR x|) :
    (x.abs * sbig).isFinite = true ∧ toR (x.abs * sbig) = |toR x| * 2 ^ (-519 : ℤ) := by
  have hr := mul_rounds x.abs sbig (abs_fin hx) toR_sbig.1
  rw [abs_toR, toR_sbig.2] at hr
  have h0 : 0 ≤ |toR x| * 2 ^ (-519 : ℤ) := mul_nonneg (abs_nonneg _) (zp _).le
  refine hr.exact ?_ (grid_unscale (by rw [← abs_toR]; exact grid_toR _) 505 (-519) (by rwa [abs_abs]) (by norm_num))
  rw [abs_of_nonneg h0]
  refine lt_of_le_of_lt (mul_le_of_le_one_right (abs_nonneg _) ?_) (abs_toR_lt x)
  rw [show (1 : ℝ) = 2 ^ (0 : ℤ) by norm_num]; exact z2le (by norm_num)

theorem ovf_le : ovf ≤ (2 : ℝ) ^ (1024 : ℤ) := by
  unfold ovf
  rw [show (2 : ℝ) ^ 971 = 2 ^ (971 : ℤ) from (zpn 971).symm, show (1024 : ℤ) = 53 + 971 by norm_num, ← z2]
  refine mul_le_mul_of_nonneg_right ?_ (zp _).le
  norm_num

theorem sq_big {x : Float} (hx : x.isFinite = true) (h1 : (2 : ℝ) ^ (505 : ℤ) < |toR x|) :
    Acc 1 ((x.abs * sbig) * (x.abs * sbig)) (toR x ^ 2 * 2 ^ (-1038 : ℤ)) 0 := by
  obtain ⟨hf, he⟩ := scaled_big hx h1
  have hu : |toR x| * 2 ^ (-519 : ℤ) ≤ 2 ^ (505 : ℤ) := by
    refine (mul_le_mul_of_nonneg_right ((abs_toR_lt x).le.trans ovf_le) (zp _).le).trans (le_of_eq ?_)
    rw [z2]; norm_num
  have h0 : 0 ≤ |toR x| * 2 ^ (-519 : ℤ) := mul_nonneg (abs_nonneg _) (zp _).le
  have hl := z2mul (b := -519) h1.le
  have hb : |toR x| * 2 ^ (-519 : ℤ) * (|toR x| * 2 ^ (-519 : ℤ)) < ovf := by
    refine lt_ovf ((mul_le_mul hu hu h0 (zp _).le).trans (le_of_eq (z2 _ _))) (by norm_num)
  have h := sq_normal hf he hb (by
    refine le_trans ?_ (mul_le_mul hl hl (zp _).le h0)
    rw [z2]; exact z2le (by norm_num))
  convert h using 1
  rw [show |toR x| * (2 : ℝ) ^ (-519 : ℤ) * (|toR x| * 2 ^ (-519 : ℤ)) = |toR x| * |toR x| * (2 ^ (-519 : ℤ) * 2 ^ (-519 : ℤ)) by ring, abs_mul_abs_self, z2, sq]
  norm_num

/-- `e` is an underflow unit suitable for the number `X`. -/
def Unit (e X : ℝ) : Prop := e = eta ∨ e = 0 ∧ (X = 0 ∨ (2 : ℝ) ^ (-1022 : ℤ) ≤ |X|)

theorem sq_small {x : Float} {e : ℝ} (hx : x.isFinite = true) (h1 : |toR x| < (2 : ℝ) ^ (-511 : ℤ)) (he : Unit e (toR x)) :
    Acc 1 ((x.abs * ssml) * (x.abs * ssml)) (toR x ^ 2 * 2 ^ (1036 : ℤ)) e := by
  have hr := mul_rounds x.abs ssml (abs_fin hx) toR_ssml.1
  rw [abs_toR, toR_ssml.2] at hr
  have h0 : 0 ≤ |toR x| * 2 ^ (518 : ℤ) := mul_nonneg (abs_nonneg _) (zp _).le
  have hu : |toR x| * 2 ^ (518 : ℤ) ≤ 2 ^ (7 : ℤ) := by
    refine (mul_le_mul_of_nonneg_right h1.le (zp _).le).trans (le_of_eq ?_)
    rw [z2]; norm_num
  have big : ∀ t : ℝ, t ≤ 2 ^ (14 : ℤ) → t < ovf := fun t ht => lt_ovf ht (by norm_num)
  obtain ⟨hf, hv⟩ := hr.exact (by rw [abs_of_nonneg h0]; exact big _ (hu.trans (z2le (by norm_num)))) (grid_scale (by rw [← abs_toR]; exact grid_toR _) 518)
  have hb : |toR x| * 2 ^ (518 : ℤ) * (|toR x| * 2 ^ (518 : ℤ)) < ovf :=
    big _ ((mul_le_mul hu hu h0 (zp _).le).trans (by rw [z2]; exact z2le (by norm_num)))
  have hval : |toR x| * (2 : ℝ) ^ (518 : ℤ) * (|toR x| * 2 ^ (518 : ℤ)) = toR x ^ 2 * 2 ^ (1036 : ℤ) := by
    rw [show |toR x| * (2 : ℝ) ^ (518 : ℤ) * (|toR x| * 2 ^ (518 : ℤ)) = |toR x| * |toR x| * (2 ^ (518 : ℤ) * 2 ^ (518 : ℤ)) by ring, abs_mul_abs_self, z2, sq]
    norm_num
  rw [← hval]
  rcases he with rfl | ⟨rfl, h | h⟩
  · exact sq_general hf hv hb
  · have hfl := (sq_exact hf hv hb)
    rw [h] at hfl ⊢
    simp only [abs_zero, zero_mul] at hfl ⊢
    have := hfl.2.exact (by simpa using grid_nat (n := 0) (by norm_num))
    exact ⟨hfl.1, this.ge, by rw [this]; exact ⟨by simp, by simp, le_refl _⟩⟩
  · refine sq_normal hf hv hb ?_
    have hl := z2mul (b := 518) h
    refine le_trans ?_ (mul_le_mul hl hl (zp _).le h0)
    rw [z2]; exact z2le (by norm_num)

end Verif.F64
