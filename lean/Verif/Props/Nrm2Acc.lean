import Verif.Lib.F64Nrm2

/-!
# C65: accuracy of `dnrm2` on binary64
-/

namespace Verif
open Float.Model Float.Model.UnpackedFloat F64 Scalar Spec

namespace F64

theorem pow_small {k : Nat} (h : k ≤ 2 ^ 32) : (1 + ur) ^ k ≤ 101 / 100 := by
  have h1 := gamma_le k (h.trans (by norm_num))
  have h2 : (k : ℝ) ≤ 2 ^ 32 := by exact_mod_cast h
  have h3 : (k : ℝ) * ur ≤ 2 ^ 32 * ur := mul_le_mul_of_nonneg_right h2 ur_pos.le
  have h4 : (2 : ℝ) ^ 32 * ur ≤ 1 / 1000 := by unfold ur; norm_num
  linarith

variable {k : Nat} {f g : Float} {X U : ℝ}

theorem Acc.half (h : Acc k f X 0) (hk : k ≤ 2 ^ 32) : X / 2 ≤ toR f := by
  have h1 := (_root_.abs_le.1 h.appr.err).1
  have h2 := pow_small hk
  have h3 := h.x0
  nlinarith

theorem Acc.le' (h : Acc k f X U) (hk : k ≤ 2 ^ 32) : toR f ≤ 101 / 100 * (X + U) :=
  h.le.trans (mul_le_mul_of_nonneg_right (pow_small hk) (add_nonneg h.x0 h.appr.under))

/-- Scaling by a power of two when the result is not subnormal. -/
theorem Acc.powMul {c : Float} {e : ℤ} (h : Acc k f X 0) (hc : c.isFinite = true) (hce : toR c = 2 ^ e)
    (hb : toR f * 2 ^ e < ovf) (hl : (2 : ℝ) ^ (-1022 : ℤ) ≤ toR f * 2 ^ e) : Acc (k + 1) (c * f) (X * 2 ^ e) 0 := by
  have hr := mul_rounds c f hc h.fin
  rw [hce, mul_comm] at hr
  have h0 : 0 ≤ toR f * 2 ^ e := mul_nonneg h.nonneg (zp _).le
  have hfin := hr.finite (by rwa [abs_of_nonneg h0])
  refine ⟨hfin, (hr.fl hfin).nonneg h0, ?_⟩
  have h1 := h.appr.mulA (Appr.exact ((2 : ℝ) ^ e))
  simp only [abs_of_pos (zp e), mul_zero, zero_mul, add_zero] at h1
  exact h1.rel ((hr.fl hfin).normal (by rwa [abs_of_nonneg h0]))

/-- The general case. -/
theorem Acc.powMul' {c : Float} {e : ℤ} (h : Acc k f X U) (hc : c.isFinite = true) (hce : toR c = 2 ^ e)
    (hb : toR f * 2 ^ e < ovf) : Acc (k + 1) (c * f) (X * 2 ^ e) (U * 2 ^ e + eta) := by
  have hr := mul_rounds c f hc h.fin
  rw [hce, mul_comm] at hr
  have h0 : 0 ≤ toR f * 2 ^ e := mul_nonneg h.nonneg (zp _).le
  have hfin := hr.finite (by rwa [abs_of_nonneg h0])
  refine ⟨hfin, (hr.fl hfin).nonneg h0, ?_⟩
  have := h.appr.mulL ((hr.fl hfin).general)
  rwa [abs_of_pos (zp e)] at this

theorem inv_pow {c : Float} {e : ℤ} (hc : c.isFinite = true) (hce : toR c = 2 ^ e) (h1 : -1074 ≤ -e) (h2 : -e ≤ 1022) :
    (1 / c).isFinite = true ∧ toR (1 / c) = 2 ^ (-e) := by
  have hr := div_rounds 1 c toR_one.1 hc (by rw [hce]; exact (zp e).ne')
  rw [toR_one.2, hce, one_div, ← zpow_neg] at hr
  exact hr.exact (by rw [abs_of_pos (zp _)]; exact lt_ovf (le_refl _) h2) (grid_pow _ h1)

/-- `1 * f` is `f`. -/
theorem Acc.oneMul (h : Acc k f X U) : Acc k (1 * f) X U := by
  have hr := mul_rounds 1 f toR_one.1 h.fin
  rw [toR_one.2, one_mul] at hr
  obtain ⟨h1, h2⟩ := hr.exact (abs_toR_lt f) (grid_toR f)
  exact ⟨h1, by rw [h2]; exact h.nonneg, by rw [h2]; exact h.appr⟩

theorem medBad_iff {m : Float} (h : m.isFinite = true) : medBad m = true ↔ 0 < toR m := by
  have h1 : Float.lt 0 m = true ↔ 0 < toR m := by
    have := lt_iff (x := 0) (y := m) toR_zero.1 h
    rwa [show toR 0 = 0 from toR_zero.2] at this
  unfold medBad
  rw [← h1]
  have h2 : Float.beq m m = true := by rw [beq_toXR, toXR_fin h]; simp [XR.beq]
  rw [h2]
  constructor
  · intro hh
    rcases Bool.or_eq_true _ _ ▸ hh with hh | hh
    · rcases Bool.or_eq_true _ _ ▸ hh with hh | hh
      · exact hh
      · have h3 : (Scalar.maxValue : Float).isFinite = true := by decide +kernel
        have h4 := (lt_iff h3 h).1 hh
        have h5 : (0 : ℝ) ≤ toR (Scalar.maxValue : Float) := by
          have h6 : (0 : Float) ≤ Scalar.maxValue := by decide +kernel
          have := (le_iff toR_zero.1 h3).1 h6
          rwa [show toR Scalar.zero = 0 from toR_zero.2] at this
        rw [h1]; linarith
    · simp at hh
  · intro hh; rw [hh]; rfl

theorem lt0_iff {m : Float} (h : m.isFinite = true) : Float.lt 0 m = true ↔ 0 < toR m := by
  have := lt_iff (x := 0) (y := m) toR_zero.1 h
  rwa [show toR 0 = 0 from toR_zero.2] at this

/-- With large elements. -/
theorem final_big {K : Nat} {a m : Float} {B M : ℝ} (ha : Acc K a (B * 2 ^ (-1038 : ℤ)) 0) (hm : Acc K m M 0)
    (hK : K ≤ 2 ^ 31 + 1) (hB : (2 : ℝ) ^ (1010 : ℤ) ≤ B) (hM : M ≤ 2 ^ (1022 : ℤ)) (hN : Real.sqrt (B + M) ≤ 2 ^ (1022 : ℤ)) :
    Acc (K + 6) ((1 / sbig) * Float.sqrt (if medBad m then a + (m * sbig) * sbig else a)) (Real.sqrt (B + M)) 0 := by
  have hM0 := hm.x0
  have hB0 : 0 ≤ B := (zp _).le.trans hB
  have hc := inv_pow toR_sbig.1 toR_sbig.2 (by norm_num) (by norm_num)
  have hXl : (2 : ℝ) ^ (-28 : ℤ) ≤ (B + M) * 2 ^ (-1038 : ℤ) := by
    rw [show (-28 : ℤ) = 1010 + -1038 by norm_num, ← z2]
    exact mul_le_mul_of_nonneg_right (by linarith) (zp _).le
  have key : ∀ q : Float, Acc (K + 4) q ((B + M) * 2 ^ (-1038 : ℤ)) 0 → Acc (K + 6) ((1 / sbig) * Float.sqrt q) (Real.sqrt (B + M)) 0 := by
    intro q hq
    have h1 := hq.sqrt
    rw [Real.sqrt_zero] at h1
    have hs : Real.sqrt ((B + M) * 2 ^ (-1038 : ℤ)) = Real.sqrt (B + M) * 2 ^ (-519 : ℤ) := by
      rw [Real.sqrt_mul (add_nonneg hB0 hM0), show (-1038 : ℤ) = -519 + -519 by norm_num, z2sqrt]
    have hl : (2 : ℝ) ^ (-14 : ℤ) ≤ Real.sqrt ((B + M) * 2 ^ (-1038 : ℤ)) := by
      rw [← z2sqrt]; exact Real.sqrt_le_sqrt (hXl.trans' (le_of_eq (by norm_num)))
    have hh := h1.half (by omega)
    have hu := h1.le' (by omega)
    have h2 := h1.powMul hc.1 hc.2 ?_ ?_
    · rwa [hs, mul_assoc, z2, show (-519 + - -519 : ℤ) = 0 by norm_num, zpow_zero, mul_one] at h2
    · rw [hs] at hu
      have h3 := mul_le_mul_of_nonneg_right hu (zp (- -519)).le
      rw [add_zero, ← mul_assoc, mul_assoc, z2, show (-519 + - -519 : ℤ) = 0 by norm_num, zpow_zero, mul_one] at h3
      have h4 := ovf_ge
      generalize (2 : ℝ) ^ (1022 : ℤ) = w at hN h4
      have h5 := (Real.sqrt_nonneg (B + M)).trans hN
      exact lt_of_le_of_lt h3 (by linarith only [hN, h4, h5])
    · have h3 : (2 : ℝ) ^ (-15 : ℤ) ≤ toR (Float.sqrt q) := by
        have : (2 : ℝ) ^ (-14 : ℤ) = 2 * 2 ^ (-15 : ℤ) := by norm_num
        linarith
      refine le_trans ?_ (mul_le_mul_of_nonneg_right h3 (zp _).le)
      rw [z2]; exact z2le (by norm_num)
  refine key _ ?_
  by_cases hb : medBad m = true
  · rw [if_pos hb]
    have tiny : (2 : ℝ) ^ (-519 : ℤ) ≤ 1 := by rw [show (1 : ℝ) = 2 ^ (0 : ℤ) by norm_num]; exact z2le (by norm_num)
    have e0 := eta_pos
    have e1 : eta ≤ 1 := by unfold eta; exact div_le_self (by norm_num) (one_le_pow₀ (by norm_num))
    have hM1 : 0 ≤ M * 2 ^ (-519 : ℤ) := mul_nonneg hM0 (zp _).le
    have b1 : M * 2 ^ (-519 : ℤ) ≤ 2 ^ (503 : ℤ) := by
      refine (mul_le_mul_of_nonneg_right hM (zp _).le).trans (le_of_eq ?_)
      rw [z2]; norm_num
    have fit : ∀ k ≤ 2 ^ 32, ∀ t : ℝ, 0 ≤ t → t ≤ 2 ^ (1010 : ℤ) → (1 + ur) ^ k * t < ovf := by
      intro k hk t h0 ht
      have h1 := mul_le_mul_of_nonneg_right (pow_small hk) h0
      have h2 := ovf_ge
      have h3 := ht.trans (z2le (show (1010 : ℤ) ≤ 1022 by norm_num))
      generalize (2 : ℝ) ^ (1022 : ℤ) = w at h2 h3
      linarith
    have h1 := hm.mulPow toR_sbig.1 toR_sbig.2 (by
      rw [mul_assoc, add_zero]
      exact fit _ (by omega) _ hM1 (b1.trans (z2le (by norm_num))))
    rw [zero_mul, zero_add] at h1
    have b2 : (M * 2 ^ (-519 : ℤ) + eta) * 2 ^ (-519 : ℤ) ≤ 2 ^ (504 : ℤ) := by
      refine (mul_le_of_le_one_right (by linarith) tiny).trans ?_
      have : (1 : ℝ) ≤ 2 ^ (503 : ℤ) := by
        rw [show (1 : ℝ) = 2 ^ (0 : ℤ) by norm_num]; exact z2le (by norm_num)
      rw [show (504 : ℤ) = 1 + 503 by norm_num, ← z2]
      generalize (2 : ℝ) ^ (503 : ℤ) = w at *
      rw [zpow_one]
      linarith
    have h2 := h1.mulPow toR_sbig.1 toR_sbig.2 (by
      rw [mul_assoc]
      exact fit _ (by omega) _ (mul_nonneg (by linarith) (zp _).le) (b2.trans (z2le (by norm_num))))
    rw [mul_assoc, z2, show (-519 + -519 : ℤ) = -1038 by norm_num] at h2
    have hU : eta * 2 ^ (-519 : ℤ) + eta ≤ 2 * eta := by
      have := mul_le_of_le_one_right e0.le tiny
      linarith
    have hBu : B * 2 ^ (-1038 : ℤ) ≤ 2 ^ (1006 : ℤ) := by
      have h3 : B ≤ (2 : ℝ) ^ (1022 + 1022 : ℤ) := by
        have h4 : Real.sqrt B ≤ 2 ^ (1022 : ℤ) := (Real.sqrt_le_sqrt (by linarith)).trans hN
        rw [← z2sq]
        rwa [Real.sqrt_le_left (zp _).le] at h4
      refine (mul_le_mul_of_nonneg_right h3 (zp _).le).trans (le_of_eq ?_)
      rw [z2]; norm_num
    have hMs : M * 2 ^ (-1038 : ℤ) ≤ 2 ^ (504 : ℤ) := by
      refine (mul_le_mul_of_nonneg_right hM (zp _).le).trans ?_
      rw [z2]; exact z2le (by norm_num)
    have h3 := (ha.mono (show K ≤ K + 2 by omega) (le_refl _)).add (h2.mono (le_refl _) hU) (by
      refine fit _ (by omega) _ ?_ ?_
      · have := ha.x0
        have := h2.x0
        linarith
      · have i1 : (2 : ℝ) ≤ 2 ^ (504 : ℤ) := by
          rw [show (2 : ℝ) ^ (504 : ℤ) = 2 ^ (1 : ℤ) * 2 ^ (503 : ℤ) by rw [z2]; norm_num, zpow_one]
          have : (1 : ℝ) ≤ 2 ^ (503 : ℤ) := by
            rw [show (1 : ℝ) = 2 ^ (0 : ℤ) by norm_num]; exact z2le (by norm_num)
          generalize (2 : ℝ) ^ (503 : ℤ) = w at *
          linarith
        have i2 : (2 : ℝ) ^ (504 : ℤ) ≤ 2 ^ (1006 : ℤ) := z2le (by norm_num)
        have i3 : (2 : ℝ) ^ (1010 : ℤ) = 16 * 2 ^ (1006 : ℤ) := by
          rw [show (16 : ℝ) = 2 ^ (4 : ℤ) by norm_num, z2]; norm_num
        rw [i3]
        generalize (2 : ℝ) ^ (1006 : ℤ) = w at *
        generalize (2 : ℝ) ^ (504 : ℤ) = w' at *
        linarith only [hBu, hMs, i1, i2, e1])
    rw [zero_add, ← add_mul] at h3
    refine h3.absorb ?_
    refine le_trans ?_ (mul_le_mul_of_nonneg_left hXl ur_pos.le)
    rw [ur_z, eta_z, z2, show (2 : ℝ) * 2 ^ (-1075 : ℤ) = 2 ^ (1 : ℤ) * 2 ^ (-1075 : ℤ) by norm_num, z2]
    exact z2le (by norm_num)
  · rw [if_neg hb, medBad_iff hm.fin] at *
    have hz : toR m = 0 := le_antisymm (not_lt.1 hb) hm.nonneg
    have h1 := hm.half (by omega)
    have hMz : M = 0 := by linarith
    rw [hMz, add_zero]
    exact ha.mono (by omega) (le_refl _)

/-- The combination of the two parts. -/
theorem hyp_comb {y1 y2 : Float} (f1 : y1.isFinite = true) (f2 : y2.isFinite = true) (h0 : 0 ≤ toR y1) (h12 : toR y1 ≤ toR y2)
    (hl : (2 : ℝ) ^ (-511 : ℤ) ≤ toR y2) (hu : toR y2 ≤ 101 / 100 * 2 ^ (511 : ℤ)) :
    Acc 8 (1 * Float.sqrt ((y2 * y2) * (1 + (y1 / y2) * (y1 / y2)))) (Real.sqrt (toR y1 ^ 2 + toR y2 ^ 2)) 0 := by
  have p2 : 0 < toR y2 := (zp _).trans_le hl
  have e0 := eta_pos
  have e1 : eta ≤ 1 / 8 := by rw [eta_z, show (1 / 8 : ℝ) = 2 ^ (-3 : ℤ) by norm_num]; exact z2le (by norm_num)
  set q := toR y1 / toR y2 with hq
  have q0 : 0 ≤ q := div_nonneg h0 p2.le
  have q1 : q ≤ 1 := (div_le_one p2).2 h12
  have lit : ∀ t : ℝ, t ≤ 4 → t < ovf := fun t ht => lt_ovf (a := 2) (ht.trans (by norm_num)) (by norm_num)
  -- the quotient
  have hz := div_rounds y1 y2 f1 f2 p2.ne'
  rw [← hq] at hz
  have fz := hz.finite (by rw [abs_of_nonneg q0]; exact lit _ (by linarith))
  have lz := hz.fl fz
  have z0 := lz.nonneg q0
  have z1 : toR (y1 / y2) ≤ 1 := lz.upper 1 grid_one q1
  have az : Appr 1 (toR (y1 / y2)) q q eta := by
    have := lz.general
    rw [abs_of_nonneg q0] at this
    refine ⟨?_, by rw [abs_of_nonneg q0], e0.le⟩
    rw [pow_one, add_sub_cancel_left]
    have h4 : eta ≤ (1 + ur) * eta := le_mul_of_one_le_left e0.le (by linarith [ur_pos])
    linarith
  -- its square
  have hw := mul_rounds (y1 / y2) (y1 / y2) fz fz
  have zz0 : 0 ≤ toR (y1 / y2) * toR (y1 / y2) := mul_self_nonneg _
  have zz1 : toR (y1 / y2) * toR (y1 / y2) ≤ 1 := by nlinarith
  have fw := hw.finite (by rw [abs_of_nonneg zz0]; exact lit _ (by linarith))
  have lw := hw.fl fw
  have w0 := lw.nonneg zz0
  have w1 := lw.upper 1 grid_one zz1
  set z := y1 / y2
  have aw : Appr 3 (toR (z * z)) (q * q) (q * q) (4 * eta) := by
    have h1 := az.mulA az
    have h2 := h1.mulL (y := 1) (f := toR (z * z)) (by rw [mul_one]; exact lw.general)
    simp only [abs_one, mul_one] at h2
    refine h2.mono (le_refl _) ?_
    nlinarith
  -- one plus
  have h1w := add_rounds 1 (z * z) toR_one.1 fw
  rw [toR_one.2] at h1w
  have fv := h1w.finite (by rw [abs_of_nonneg (by linarith)]; exact lit _ (by linarith))
  have lv := h1w.fl fv
  have v1 : 1 ≤ toR (1 + z * z) := lv.lower 1 grid_one (by linarith)
  have v2 : toR (1 + z * z) ≤ 2 := lv.upper 2 grid_two (by linarith)
  have av : Appr 5 (toR (1 + z * z)) (1 + q * q) (1 + q * q) 0 := by
    have h1 := (Appr.exact (1 : ℝ)).mono (show 0 ≤ 3 by omega) (le_refl _)
    rw [abs_one] at h1
    have h2 := h1.add aw (f := toR (1 + z * z)) (by
      have := add_err toR_one.1 fw fv
      rwa [toR_one.2] at this)
    refine h2.absorb ?_
    have h3 : 4 * eta ≤ ur := by
      rw [ur_z, eta_z, show (4 : ℝ) = 2 ^ (2 : ℤ) by norm_num, z2]; exact z2le (by norm_num)
    have := ur_pos
    nlinarith
  -- the square of the larger one
  have sqb : toR y2 * toR y2 ≤ 11 / 10 * 2 ^ (1022 : ℤ) := by
    refine (mul_le_mul hu hu p2.le ((p2.le.trans hu))).trans ?_
    rw [show (1022 : ℤ) = 511 + 511 by norm_num, ← z2]
    have i1 := mul_pos (zp 511) (zp 511)
    generalize (2 : ℝ) ^ (511 : ℤ) = w at *
    linarith only [i1]
  have sql : (2 : ℝ) ^ (-1022 : ℤ) ≤ toR y2 * toR y2 := by
    rw [show (-1022 : ℤ) = -511 + -511 by norm_num, ← z2]
    exact mul_le_mul hl hl (zp _).le p2.le
  have sqo : toR y2 * toR y2 < ovf := by
    refine sqb.trans_lt (lt_trans ?_ ovf_ge)
    exact mul_lt_mul_of_pos_right (by norm_num) (zp _)
  have ag := sq_normal f2 rfl sqo sql
  have gl : (2 : ℝ) ^ (-1022 : ℤ) ≤ toR (y2 * y2) := (sq_exact f2 rfl sqo).2.lower _ (grid_pow _ (by norm_num)) sql
  -- the product
  have gu := ag.le' (by norm_num)
  have hh := mul_rounds (y2 * y2) (1 + z * z) ag.fin fv
  have gv : toR (y2 * y2) ≤ toR (y2 * y2) * toR (1 + z * z) := le_mul_of_one_le_right ag.nonneg v1
  have gv0 : 0 ≤ toR (y2 * y2) * toR (1 + z * z) := ag.nonneg.trans gv
  have fh := hh.finite (by
    rw [abs_of_nonneg gv0]
    have i1 : toR (y2 * y2) * toR (1 + z * z) ≤ toR (y2 * y2) * 2 := mul_le_mul_of_nonneg_left v2 ag.nonneg
    have i2 := ovf_ge
    have i3 := zp 1022
    rw [add_zero] at gu
    generalize (2 : ℝ) ^ (1022 : ℤ) = w at sqb i2 i3
    linarith only [i1, i2, i3, gu, sqb])
  have lh := hh.fl fh
  have ah : Acc 7 ((y2 * y2) * (1 + z * z)) (toR y1 ^ 2 + toR y2 ^ 2) 0 := by
    refine ⟨fh, lh.nonneg gv0, ?_⟩
    have h1 := (ag.appr.mulA av).rel (lh.normal (by rw [abs_of_nonneg gv0]; exact gl.trans gv))
    have h2 : toR y2 * toR y2 * (1 + q * q) = toR y1 ^ 2 + toR y2 ^ 2 := by
      rw [hq]; field_simp; ring
    simp only [h2, mul_zero, zero_mul, add_zero] at h1
    exact h1
  have := ah.sqrt.oneMul
  rwa [Real.sqrt_zero] at this

/-- Without large elements. -/
theorem final_small {K N : Nat} {s m : Float} {S M e : ℝ} (hs : Acc K s (S * 2 ^ (1036 : ℤ)) (N * e)) (hm : Acc K m M 0)
    (hK : K ≤ 2 ^ 31 + 1) (hN : N ≤ 2 ^ 31) (hS : S ≤ 2 ^ (-991 : ℤ)) (hM : M ≤ 2 ^ (1022 : ℤ)) (hml : M = 0 ∨ (2 : ℝ) ^ (-1022 : ℤ) ≤ toR m)
    (hSl : e = eta ∨ e = 0 ∧ (S = 0 ∨ (2 : ℝ) ^ (-1022 + -1022 : ℤ) ≤ S)) :
    Acc (K + 11) (if Float.lt 0 s then
      if medBad m then
        let y := if Float.lt (Float.sqrt m) (Float.sqrt s / ssml) then
          (Float.sqrt m, Float.sqrt s / ssml) else (Float.sqrt s / ssml, Float.sqrt m)
        1 * Float.sqrt ((y.2 * y.2) * (1 + (y.1 / y.2) * (y.1 / y.2)))
      else (1 / ssml) * Float.sqrt s
    else 1 * Float.sqrt m) (Real.sqrt (S + M)) (2 * Real.sqrt (N * e) * 2 ^ (-518 : ℤ) + e) := by
  have hM0 := hm.x0
  have hS0 : 0 ≤ S := by
    by_contra hc
    push Not at hc
    exact absurd hs.x0 (not_le.2 (mul_neg_of_neg_of_pos hc (zp _)))
  have e0 := eta_pos
  have he : 0 ≤ e := by
    rcases hSl with h | h
    · rw [h]; exact e0.le
    · rw [h.1]
  have he' : e ≤ eta := by
    rcases hSl with h | h
    · rw [h]
    · rw [h.1]; exact e0.le
  have hNe : 0 ≤ N * e := by positivity
  have sN := Real.sqrt_nonneg (N * e)
  have hroot : Real.sqrt (S * 2 ^ (1036 : ℤ)) = Real.sqrt S * 2 ^ (518 : ℤ) := by
    rw [Real.sqrt_mul hS0, show (1036 : ℤ) = 518 + 518 by norm_num, z2sqrt]
  have back : Real.sqrt S * 2 ^ (518 : ℤ) * 2 ^ (-518 : ℤ) = Real.sqrt S := by
    rw [mul_assoc, z2]; norm_num
  have am := hm.sqrt
  rw [Real.sqrt_zero] at am
  by_cases h1 : Float.lt 0 s = true
  · rw [if_pos h1]
    rw [lt0_iff hs.fin] at h1
    have as := hs.sqrt
    rw [hroot] at as
    have sS : Real.sqrt S ≤ 2 ^ (-495 : ℤ) := by
      rw [← z2sqrt]; exact Real.sqrt_le_sqrt (hS.trans (z2le (by norm_num)))
    have sNe : Real.sqrt (N * e) ≤ 1 := by
      rw [Real.sqrt_le_left (by norm_num), one_pow]
      have i1 : (N : ℝ) * e ≤ 2 ^ 31 * eta := mul_le_mul (by exact_mod_cast hN) he' he (by norm_num)
      refine i1.trans ?_
      rw [eta_z, show (2 : ℝ) ^ 31 = 2 ^ (31 : ℤ) by norm_num, z2, show (1 : ℝ) = 2 ^ (0 : ℤ) by norm_num]
      exact z2le (by norm_num)
    have t518 : (2 : ℝ) ^ (-518 : ℤ) ≤ 2 ^ (-495 : ℤ) := z2le (by norm_num)
    have bs : (101 / 100 : ℝ) * (Real.sqrt S * 2 ^ (518 : ℤ) + Real.sqrt (N * e)) * 2 ^ (-518 : ℤ) ≤ 2 ^ (-493 : ℤ) := by
      rw [mul_assoc, add_mul, back]
      have i1 : Real.sqrt (N * e) * 2 ^ (-518 : ℤ) ≤ 2 ^ (-518 : ℤ) := mul_le_of_le_one_left (zp _).le sNe
      have i2 : (2 : ℝ) ^ (-493 : ℤ) = 4 * 2 ^ (-495 : ℤ) := by
        rw [show (4 : ℝ) = 2 ^ (2 : ℤ) by norm_num, z2]; norm_num
      rw [i2]
      have i3 := zp (-495)
      generalize (2 : ℝ) ^ (-495 : ℤ) = w at *
      generalize (2 : ℝ) ^ (-518 : ℤ) = w' at *
      linarith only [i1, i3, sS, t518]
    -- the underflow of the last scaling is negligible when no element is subnormal
    have fin : ∀ r : Float, Acc (K + 10) r (Real.sqrt (S + M)) (Real.sqrt (N * e) * 2 ^ (-518 : ℤ) + eta) →
        Acc (K + 11) r (Real.sqrt (S + M)) (2 * Real.sqrt (N * e) * 2 ^ (-518 : ℤ) + e) := by
      intro r hr
      have i1 : 0 ≤ Real.sqrt (N * e) * 2 ^ (-518 : ℤ) := mul_nonneg sN (zp _).le
      rcases hSl with heq | ⟨hz, hS1⟩
      rotate_left
      · subst hz
        have hS2 : (2 : ℝ) ^ (-1022 + -1022 : ℤ) ≤ S := by
          rcases hS1 with h | h
          · have := hs.le
            rw [h, zero_mul, mul_zero, add_zero, mul_zero] at this
            linarith only [this, h1]
          · exact h
        rw [mul_zero, Real.sqrt_zero, zero_mul, zero_add] at hr
        rw [mul_zero, Real.sqrt_zero, mul_zero, zero_mul, zero_add]
        refine hr.absorb ?_
        have i2 : (2 : ℝ) ^ (-1022 : ℤ) ≤ Real.sqrt (S + M) := by
          rw [← z2sqrt]; exact Real.sqrt_le_sqrt (hS2.trans (le_add_of_nonneg_right hM0))
        refine le_trans ?_ (mul_le_mul_of_nonneg_left i2 ur_pos.le)
        rw [ur_z, eta_z, z2]; exact z2le (by norm_num)
      · refine hr.mono (by omega) ?_
        rw [heq] at i1 ⊢
        rw [mul_assoc]
        linarith only [i1]
    by_cases h2 : medBad m = true
    · rw [if_pos h2]
      rw [medBad_iff hm.fin] at h2
      have hm1 : (2 : ℝ) ^ (-1022 : ℤ) ≤ toR m := by
        rcases hml with h | h
        · have := hm.le
          rw [h, add_zero, mul_zero] at this
          linarith only [this, h2]
        · exact h
      have al : (2 : ℝ) ^ (-511 : ℤ) ≤ toR (Float.sqrt m) := by
        refine ((sqrt_rounds m hm.fin hm.nonneg).fl am.fin).lower _ (grid_pow _ (by norm_num)) ?_
        rw [← z2sqrt]; exact Real.sqrt_le_sqrt (hm1.trans' (le_of_eq (by norm_num)))
      have au : toR (Float.sqrt m) ≤ 101 / 100 * 2 ^ (511 : ℤ) := by
        refine (am.le' (by omega)).trans (mul_le_mul_of_nonneg_left ?_ (by norm_num))
        rw [add_zero, ← z2sqrt]
        exact Real.sqrt_le_sqrt (hM.trans (le_of_eq (by norm_num)))
      have hb := as.divPow toR_ssml.1 toR_ssml.2 (by
        refine lt_ovf (le_trans ?_ bs) (by norm_num)
        exact mul_le_mul_of_nonneg_right (mul_le_mul_of_nonneg_right (pow_small (by omega)) (add_nonneg (mul_nonneg (Real.sqrt_nonneg _) (zp _).le) sN)) (zp _).le)
      rw [back] at hb
      have one511 : (3 : ℝ) ≤ 2 ^ (511 : ℤ) := by
        refine le_trans ?_ (z2le (show (2 : ℤ) ≤ 511 by norm_num)); norm_num
      have small1 : (2 : ℝ) ^ (-495 : ℤ) ≤ 1 := by rw [show (1 : ℝ) = 2 ^ (0 : ℤ) by norm_num]; exact z2le (by norm_num)
      have eta1 : eta ≤ 1 := by rw [eta_z, show (1 : ℝ) = 2 ^ (0 : ℤ) by norm_num]; exact z2le (by norm_num)
      have bu : toR (Float.sqrt s / ssml) ≤ 101 / 100 * 2 ^ (511 : ℤ) := by
        refine (hb.le' (by omega)).trans (mul_le_mul_of_nonneg_left ?_ (by norm_num))
        have i1 : Real.sqrt (N * e) * 2 ^ (-518 : ℤ) ≤ 1 := (mul_le_of_le_one_left (zp _).le sNe).trans (t518.trans small1)
        have i2 := sS.trans small1
        refine le_trans ?_ one511
        generalize Real.sqrt (N * e) * 2 ^ (-518 : ℤ) = w at *
        linarith only [i1, i2, eta1]
      have hyp := (am.appr.mono (show K + 1 ≤ K + 1 + 1 by omega) (le_refl _)).hypot hb.appr am.nonneg hb.nonneg
      rw [Real.sq_sqrt hM0, Real.sq_sqrt hS0, add_comm M] at hyp
      refine fin _ ?_
      by_cases hlt : Float.lt (Float.sqrt m) (Float.sqrt s / ssml) = true
      · rw [if_pos hlt]
        have hlt' : toR (Float.sqrt m) < toR (Float.sqrt s / ssml) := (lt_iff am.fin hb.fin).1 hlt
        have hc := hyp_comb am.fin hb.fin am.nonneg hlt'.le (al.trans hlt'.le) bu
        exact ⟨hc.fin, hc.nonneg, (hc.appr.comp hyp).mono (by omega) (le_refl _)⟩
      · rw [if_neg hlt]
        have hlt' : toR (Float.sqrt s / ssml) ≤ toR (Float.sqrt m) := not_lt.1 (fun h => hlt ((lt_iff am.fin hb.fin).2 h))
        have hc := hyp_comb hb.fin am.fin hb.nonneg hlt' al au
        rw [add_comm] at hc
        exact ⟨hc.fin, hc.nonneg, (hc.appr.comp hyp).mono (by omega) (le_refl _)⟩
    · rw [if_neg h2]
      rw [medBad_iff hm.fin] at h2
      have hz : toR m = 0 := le_antisymm (not_lt.1 h2) hm.nonneg
      have hMz : M = 0 := by have := hm.half (by omega); linarith only [this, hz, hM0]
      have hc := inv_pow toR_ssml.1 toR_ssml.2 (by norm_num) (by norm_num)
      have h3 := as.powMul' hc.1 hc.2 (by
        refine lt_ovf ((mul_le_mul_of_nonneg_right (as.le' (by omega)) (zp _).le).trans bs) (by norm_num))
      rw [back] at h3
      refine fin _ ?_
      rw [hMz, add_zero]
      exact h3.mono (by omega) (le_refl _)
  · rw [if_neg h1]
    rw [lt0_iff hs.fin] at h1
    have hz : toR s = 0 := le_antisymm (not_lt.1 h1) hs.nonneg
    have i1 := hs.appr.err
    rw [hz, zero_sub, abs_neg, abs_of_nonneg hs.x0] at i1
    have i2 := pow_small (k := K) (by omega)
    have i3 : S * 2 ^ (1036 : ℤ) ≤ 4 * (N * e) := by
      have i4 := hs.x0
      generalize S * 2 ^ (1036 : ℤ) = w at *
      have i5 := mul_le_mul_of_nonneg_right i2 i4
      have i6 := mul_le_mul_of_nonneg_right i2 hNe
      linarith only [i1, i5, i6, i4, hNe]
    have i4 : Real.sqrt S ≤ 2 * Real.sqrt (N * e) * 2 ^ (-518 : ℤ) := by
      have i5 := Real.sqrt_le_sqrt i3
      rw [hroot, Real.sqrt_mul (by norm_num), show Real.sqrt 4 = 2 by rw [show (4 : ℝ) = 2 ^ 2 by norm_num, Real.sqrt_sq (by norm_num)]] at i5
      have i6 := mul_le_mul_of_nonneg_right i5 (zp (-518)).le
      rwa [back] at i6
    have i5 := am.oneMul
    have i6 : Real.sqrt M ≤ Real.sqrt (S + M) := Real.sqrt_le_sqrt (le_add_of_nonneg_left hS0)
    have i7 := i5.appr.plus i6 (V := 2 * Real.sqrt (N * e) * 2 ^ (-518 : ℤ)) (by
      have := sqrt_le_of hS0 hM0
      linarith only [this, i4])
    refine ⟨i5.fin, i5.nonneg, i7.mono (by omega) ?_⟩
    linarith only [he]

/-! ### The loop -/

open Classical in
/-- The sum of the squares of the elements that satisfy `P`. -/
noncomputable def fsum (P : ℝ → Prop) (l : List Float) : ℝ := (l.map fun x => if P (toR x) then toR x ^ 2 else 0).sum

theorem fsum_nil (P : ℝ → Prop) : fsum P [] = 0 := rfl
theorem fsum_snoc_pos {P : ℝ → Prop} (l : List Float) {x : Float} (h : P (toR x)) : fsum P (l ++ [x]) = fsum P l + toR x ^ 2 := by
  simp [fsum, h]
theorem fsum_snoc_neg {P : ℝ → Prop} (l : List Float) {x : Float} (h : ¬ P (toR x)) : fsum P (l ++ [x]) = fsum P l := by
  simp [fsum, h]
theorem fsum_nonneg (P : ℝ → Prop) (l : List Float) : 0 ≤ fsum P l := by
  refine List.sum_nonneg fun y hy => ?_
  obtain ⟨x, -, rfl⟩ := List.mem_map.1 hy
  split <;> positivity
theorem fsum_prefix (P : ℝ → Prop) (l : List Float) (x : Float) : fsum P l ≤ fsum P (l ++ [x]) := by
  by_cases h : P (toR x)
  · rw [fsum_snoc_pos l h]; linarith [sq_nonneg (toR x)]
  · rw [fsum_snoc_neg l h]
theorem fsum_ge (P : ℝ → Prop) {l : List Float} {x : Float} (hx : x ∈ l) (h : P (toR x)) : toR x ^ 2 ≤ fsum P l := by
  refine List.single_le_sum (l := l.map _) (fun y hy => ?_) _ (List.mem_map.2 ⟨x, hx, by simp [h]⟩)
  obtain ⟨x, -, rfl⟩ := List.mem_map.1 hy
  split <;> positivity
theorem fsum_zero (P : ℝ → Prop) {l : List Float} (h : ∀ x ∈ l, P (toR x) → toR x = 0) : fsum P l = 0 := by
  refine List.sum_eq_zero fun y hy => ?_
  obtain ⟨x, hx, rfl⟩ := List.mem_map.1 hy
  split
  · rename_i hp; rw [h x hx hp]; norm_num
  · rfl
theorem fsum_le (P : ℝ → Prop) {l : List Float} {b : ℝ} (hb : 0 ≤ b) (h : ∀ x ∈ l, P (toR x) → toR x ^ 2 ≤ b) : fsum P l ≤ l.length * b := by
  have := List.sum_le_card_nsmul (l.map fun x => by classical exact if P (toR x) then toR x ^ 2 else 0) b (by
    intro y hy
    obtain ⟨x, hx, rfl⟩ := List.mem_map.1 hy
    split
    · rename_i hp; exact h x hx hp
    · exact hb)
  rw [List.length_map, nsmul_eq_mul] at this
  exact this

/-- Large, small and other elements, as told apart by `dnrm2`. -/
def pB (t : ℝ) : Prop := (2 : ℝ) ^ (505 : ℤ) < |t|
def pS (t : ℝ) : Prop := |t| < (2 : ℝ) ^ (-511 : ℤ)
def pM (t : ℝ) : Prop := ¬ pB t ∧ ¬ pS t

theorem not_pS_of_pB {t : ℝ} (h : pB t) : ¬ pS t := fun h' => absurd (h.trans (h'.trans (z2lt (show (-511 : ℤ) < 505 by norm_num)))) (lt_irrefl _)

theorem fsum_total (l : List Float) : fsum pB l + (fsum pS l + fsum pM l) = fsum (fun _ => True) l := by
  induction l using List.reverseRecOn with
  | nil => simp [fsum_nil]
  | append_singleton l x ih =>
    rw [fsum_snoc_pos (P := fun _ => True) l trivial, ← ih]
    by_cases hB : pB (toR x)
    · rw [fsum_snoc_pos l hB, fsum_snoc_neg l (not_pS_of_pB hB), fsum_snoc_neg l (fun h : pM (toR x) => h.1 hB)]; ring
    · by_cases hS : pS (toR x)
      · rw [fsum_snoc_neg l hB, fsum_snoc_pos l hS, fsum_snoc_neg l (fun h : pM (toR x) => h.2 hS)]; ring
      · rw [fsum_snoc_neg l hB, fsum_snoc_neg l hS, fsum_snoc_pos l (show pM (toR x) from ⟨hB, hS⟩)]; ring

/-- The accumulators after the elements `l`. -/
structure St (e : ℝ) (l : List Float) (s : Nrm2 Float) : Prop where
  notbig : s.notbig = true ↔ ∀ x ∈ l, ¬ pB (toR x)
  big : Acc (l.length + 1) s.abig (fsum pB l * 2 ^ (-1038 : ℤ)) 0
  med : Acc (l.length + 1) s.amed (fsum pM l) 0
  medl : fsum pM l = 0 ∨ (2 : ℝ) ^ (-1022 : ℤ) ≤ toR s.amed
  sml : s.notbig = true → Acc (l.length + 1) s.asml (fsum pS l * 2 ^ (1036 : ℤ)) (l.length * e)

theorem fsum_small {l : List Float} (hl : l.length ≤ 2 ^ 31) : fsum pS l ≤ 2 ^ (-991 : ℤ) := by
  refine (fsum_le pS (b := 2 ^ (-1022 : ℤ)) (zp _).le fun x _ h => ?_).trans ?_
  · rw [← sq_abs, show (-1022 : ℤ) = -511 + -511 by norm_num, ← z2sq]
    exact pow_le_pow_left₀ (abs_nonneg _) (le_of_lt h) 2
  · have : (l.length : ℝ) ≤ 2 ^ (31 : ℤ) := by exact_mod_cast hl
    refine (mul_le_mul_of_nonneg_right this (zp _).le).trans (le_of_eq ?_)
    rw [z2]; norm_num

theorem scaled_ovf {k : Nat} (hk : k ≤ 2 ^ 32) {t : ℝ} (h0 : 0 ≤ t) (h : t ≤ 2 ^ (1022 : ℤ)) : (1 + ur) ^ k * t < ovf := by
  have h1 := mul_le_mul_of_nonneg_right (pow_small hk) h0
  have h2 := ovf_ge
  have h3 := zp 1022
  generalize (2 : ℝ) ^ (1022 : ℤ) = w at *
  linarith

theorem loop_St {e : ℝ} : ∀ (l : List Float), l.length < 2 ^ 31 → (∀ x ∈ l, x.isFinite = true) → (∀ x ∈ l, Unit e (toR x)) →
    fsum pB l ≤ 2 ^ (2044 : ℤ) → fsum pM l ≤ 2 ^ (1022 : ℤ) → 0 ≤ e → e ≤ eta → St e l (l.foldl nrm2Acc ⟨true, 0, 0, 0⟩) := by
  intro l
  induction l using List.reverseRecOn with
  | nil =>
    intro _ _ _ _ _ _ _
    refine ⟨by simp, ?_, ?_, Or.inl rfl, fun _ => ?_⟩
    · rw [fsum_nil, zero_mul]; exact Acc.zero _
    · rw [fsum_nil]; exact Acc.zero _
    · rw [fsum_nil, zero_mul, List.length_nil, Nat.cast_zero, zero_mul]; exact Acc.zero _
  | append_singleton l x ih =>
    intro hlen hfin hunit hB hM he he'
    rw [List.length_append, List.length_singleton] at hlen
    have I := ih (by omega) (fun y hy => hfin y (by simp [hy])) (fun y hy => hunit y (by simp [hy])) ((fsum_prefix _ _ _).trans hB)
      ((fsum_prefix _ _ _).trans hM) he he'
    have hx := hfin x (by simp)
    have hu := hunit x (by simp)
    rw [List.foldl_append, List.foldl_cons, List.foldl_nil]
    generalize l.foldl nrm2Acc ⟨true, 0, 0, 0⟩ = s at I
    rw [nrm2Acc_def]
    have t1 : Float.lt tbig x.abs = true ↔ pB (toR x) := by
      have := lt_iff (x := tbig) (y := x.abs) toR_tbig.1 (abs_fin hx)
      rwa [toR_tbig.2, abs_toR] at this
    have t2 : Float.lt x.abs tsml = true ↔ pS (toR x) := by
      have := lt_iff (x := x.abs) (y := tsml) (abs_fin hx) toR_tsml.1
      rwa [toR_tsml.2, abs_toR] at this
    have lenS : (l ++ [x]).length + 1 = l.length + 1 + 1 := by simp
    have lenR : ((l ++ [x]).length : ℝ) * e = l.length * e + e := by
      rw [List.length_append, List.length_singleton]; push_cast; ring
    by_cases hb : pB (toR x)
    · rw [if_pos (t1.2 hb)]
      have hns := not_pS_of_pB hb
      have hnm : ¬ pM (toR x) := fun h => h.1 hb
      refine ⟨by simp [hb], ?_, ?_, ?_, fun h => by cases h⟩
      · rw [lenS, fsum_snoc_pos l hb, add_mul]
        have := I.big.add ((sq_big hx hb).mono (show 1 ≤ l.length + 1 by omega) (le_refl _)) ?_
        · rwa [add_zero] at this
        · refine scaled_ovf (by omega) ?_ ?_
          · have := I.big.x0
            have := (sq_big hx hb).x0
            simp only [add_zero]
            exact add_nonneg ‹_› ‹_›
          · rw [add_zero, add_zero, ← add_mul, ← fsum_snoc_pos l hb]
            refine (mul_le_mul_of_nonneg_right hB (zp _).le).trans ?_
            rw [z2]; exact z2le (by norm_num)
      · rw [lenS, fsum_snoc_neg l hnm]; exact I.med.mono (by omega) (le_refl _)
      · rw [fsum_snoc_neg l hnm]; exact I.medl
    · rw [if_neg (fun h => hb (t1.1 h))]
      have nb : (∀ y ∈ l ++ [x], ¬ pB (toR y)) ↔ ∀ y ∈ l, ¬ pB (toR y) := by
        constructor
        · exact fun h y hy => h y (by simp [hy])
        · intro h y hy
          rcases List.mem_append.1 hy with h' | h'
          · exact h y h'
          · rw [List.mem_singleton.1 h']; exact hb
      by_cases hs : pS (toR x)
      · rw [if_pos (t2.2 hs)]
        have hnm : ¬ pM (toR x) := fun h => h.2 hs
        by_cases hnb : s.notbig = true
        · rw [if_pos hnb]
          refine ⟨by rw [nb]; exact I.notbig, ?_, ?_, ?_, fun _ => ?_⟩
          · rw [lenS, fsum_snoc_neg l hb]; exact I.big.mono (by omega) (le_refl _)
          · rw [lenS, fsum_snoc_neg l hnm]; exact I.med.mono (by omega) (le_refl _)
          · rw [fsum_snoc_neg l hnm]; exact I.medl
          · have hsq := (sq_small hx hs hu)
            have hI := I.sml hnb
            rw [lenS, lenR]
            have := hI.add (hsq.mono (show 1 ≤ l.length + 1 by omega) (le_refl _)) ?_
            · rwa [← add_mul, ← fsum_snoc_pos l hs] at this
            · have len0 : (0 : ℝ) ≤ l.length * e := by positivity
              refine scaled_ovf (by omega) ?_ ?_
              · exact add_nonneg (add_nonneg hI.x0 len0) (add_nonneg hsq.x0 he)
              · have i1 : fsum pS (l ++ [x]) * 2 ^ (1036 : ℤ) ≤ 2 ^ (45 : ℤ) := by
                  refine (mul_le_mul_of_nonneg_right (fsum_small (by simp; omega)) (zp _).le).trans (le_of_eq ?_)
                  rw [z2]; norm_num
                rw [fsum_snoc_pos l hs, add_mul] at i1
                have i2 : (l.length : ℝ) * e ≤ 2 ^ 31 * 1 := by
                  refine mul_le_mul ?_ (he'.trans ?_) he (by norm_num)
                  · exact_mod_cast (by omega : l.length ≤ 2 ^ 31)
                  · rw [eta_z, show (1 : ℝ) = 2 ^ (0 : ℤ) by norm_num]; exact z2le (by norm_num)
                have i3 : e ≤ 1 := he'.trans (by rw [eta_z, show (1 : ℝ) = 2 ^ (0 : ℤ) by norm_num]; exact z2le (by norm_num))
                refine le_trans ?_ (z2le (show (46 : ℤ) ≤ 1022 by norm_num))
                generalize fsum pS l * 2 ^ (1036 : ℤ) = w at *
                generalize toR x ^ 2 * 2 ^ (1036 : ℤ) = w' at *
                norm_num at i1 i2 ⊢
                linarith only [i1, i2, i3]
        · rw [if_neg hnb]
          refine ⟨by rw [nb]; exact I.notbig, ?_, ?_, ?_, fun h => absurd h hnb⟩
          · rw [lenS, fsum_snoc_neg l hb]; exact I.big.mono (by omega) (le_refl _)
          · rw [lenS, fsum_snoc_neg l hnm]; exact I.med.mono (by omega) (le_refl _)
          · rw [fsum_snoc_neg l hnm]; exact I.medl
      · rw [if_neg (fun h => hs (t2.1 h))]
        have hm : pM (toR x) := ⟨hb, hs⟩
        have hsq := sq_med hx (not_lt.1 hs) (not_lt.1 hb)
        have hA := I.med.add (hsq.1.mono (show 1 ≤ l.length + 1 by omega) (le_refl _)) (by
          refine scaled_ovf (by omega) (by simpa using add_nonneg I.med.x0 hsq.1.x0) ?_
          rw [add_zero, add_zero, ← fsum_snoc_pos l hm]; exact hM)
        rw [add_zero, ← fsum_snoc_pos l hm] at hA
        refine ⟨by rw [nb]; exact I.notbig, ?_, ?_, Or.inr ?_, fun h => ?_⟩
        · rw [lenS, fsum_snoc_neg l hb]; exact I.big.mono (by omega) (le_refl _)
        · rw [lenS]; exact hA
        · refine ((add_rounds _ _ I.med.fin hsq.1.fin).fl hA.fin).lower _ (grid_pow _ (by norm_num)) ?_
          exact hsq.2.trans (le_add_of_nonneg_left I.med.nonneg)
        · rw [lenS, lenR, fsum_snoc_neg l hs]; exact (I.sml h).mono (by omega) (by linarith)

/-- The value computed by `dnrm2` from the elements `l`. -/
theorem nrm2_acc {e : ℝ} {l : List Float} (hl : l.length < 2 ^ 31) (hfin : ∀ x ∈ l, x.isFinite = true) (hu : ∀ x ∈ l, Unit e (toR x))
    (hM : fsum pM l ≤ 2 ^ (1022 : ℤ)) (hN : Real.sqrt (fsum (fun _ => True) l) ≤ 2 ^ (1022 : ℤ)) (hee : e = eta ∨ e = 0) :
    Acc (l.length + 12) (nrm2Final (l.foldl nrm2Acc ⟨true, 0, 0, 0⟩)) (Real.sqrt (fsum (fun _ => True) l))
      (2 * Real.sqrt (l.length * e) * 2 ^ (-518 : ℤ) + e) := by
  have e0 := eta_pos
  have he : 0 ≤ e := by rcases hee with h | h <;> rw [h]; exact e0.le
  have he' : e ≤ eta := by rcases hee with h | h <;> rw [h]; exact e0.le
  have hU : 0 ≤ 2 * Real.sqrt (l.length * e) * 2 ^ (-518 : ℤ) + e := add_nonneg (mul_nonneg (by positivity) (zp _).le) he
  have hB0 := fsum_nonneg pB l
  have hS0 := fsum_nonneg pS l
  have hM0 := fsum_nonneg pM l
  rw [← fsum_total] at hN ⊢
  have hB : fsum pB l ≤ 2 ^ (2044 : ℤ) := by
    have h4 : Real.sqrt (fsum pB l) ≤ 2 ^ (1022 : ℤ) := (Real.sqrt_le_sqrt (by linarith only [hS0, hM0])).trans hN
    rw [Real.sqrt_le_left (zp _).le, z2sq] at h4
    exact h4.trans (le_of_eq (by norm_num))
  have I := loop_St l hl hfin hu hB hM he he'
  generalize l.foldl nrm2Acc ⟨true, 0, 0, 0⟩ = s at I
  rw [nrm2Final_def]
  by_cases hb : ∃ x ∈ l, pB (toR x)
  · obtain ⟨x, hx, hp⟩ := hb
    have hBl : (2 : ℝ) ^ (1010 : ℤ) ≤ fsum pB l := by
      refine le_trans ?_ (fsum_ge pB hx hp)
      rw [← sq_abs, show (1010 : ℤ) = 505 + 505 by norm_num, ← z2sq]
      exact pow_le_pow_left₀ (zp _).le (le_of_lt hp) 2
    have pos : 0 < toR s.abig := by
      have := I.big.half (by omega)
      have h1 : 0 < fsum pB l * 2 ^ (-1038 : ℤ) := mul_pos ((zp _).trans_le hBl) (zp _)
      exact lt_of_lt_of_le (by linarith only [h1]) this
    rw [if_pos ((lt0_iff I.big.fin).2 pos)]
    have h1 := final_big I.big I.med (by omega) hBl hM ((Real.sqrt_le_sqrt (by linarith only [hS0])).trans hN)
    have hle : fsum pB l + fsum pM l ≤ fsum pB l + (fsum pS l + fsum pM l) := by linarith only [hS0]
    have h2 := h1.shift (Real.sqrt_le_sqrt hle) ?_
    · exact h2.mono (by omega) hU
    · -- the small elements are negligible
      have hSu := fsum_small (l := l) (by omega)
      generalize fsum pB l = B at *
      generalize fsum pS l = S at *
      generalize fsum pM l = M at *
      have u0 := ur_pos
      have u1 : ur ≤ 1 := by unfold ur; norm_num
      have k1 : S ≤ ur * (B + (S + M)) := by
        refine hSu.trans (le_trans ?_ (mul_le_mul_of_nonneg_left (hBl.trans (by linarith only [hS0, hM0])) u0.le))
        rw [ur_z, z2]; exact z2le (by norm_num)
      have k2 : (1 - ur) * Real.sqrt (B + (S + M)) ≤ Real.sqrt (B + M) := by
        refine Real.le_sqrt_of_sq_le ?_
        rw [mul_pow, Real.sq_sqrt (by linarith only [hB0, hS0, hM0])]
        have k3 : (1 - ur) ^ 2 ≤ 1 - ur := by nlinarith only [u0, u1]
        have := mul_le_mul_of_nonneg_right k3 (show 0 ≤ B + (S + M) by linarith only [hB0, hS0, hM0])
        linarith only [this, k1]
      linarith only [k2]
  · push Not at hb
    have hBz : fsum pB l = 0 := fsum_zero pB fun x hx h => absurd h (hb x hx)
    have neg : ¬ Float.lt 0 s.abig = true := by
      rw [lt0_iff I.big.fin]
      have := I.big.le
      rw [hBz, zero_mul, add_zero, mul_zero] at this
      exact not_lt.2 this
    rw [if_neg neg, hBz, zero_add]
    refine (final_small (I.sml (I.notbig.2 hb)) I.med (by omega) (by omega) (fsum_small (by omega)) hM I.medl ?_).mono (by omega) (le_refl _)
    rcases hee with h | h
    · exact Or.inl h
    · refine Or.inr ⟨h, ?_⟩
      by_cases hz : ∀ x ∈ l, pS (toR x) → toR x = 0
      · exact Or.inl (fsum_zero pS hz)
      · push Not at hz
        obtain ⟨x, hx, hp, hn⟩ := hz
        refine Or.inr (le_trans ?_ (fsum_ge pS hx hp))
        rcases hu x hx with h' | ⟨-, h' | h'⟩
        · rw [h] at h'; exact absurd h' e0.ne
        · exact absurd h' hn
        · rw [← sq_abs, ← z2sq]
          exact pow_le_pow_left₀ (zp _).le h' 2

end F64

/-- The Euclidean norm of the real numbers represented by the floats of `l`. -/
noncomputable def norm2 (l : List Float) : ℝ := Real.sqrt ((l.map fun e => toR e ^ 2).sum)

open Classical in
/-- The sum of the squares of the elements of magnitude at most `2^505`. -/
noncomputable def mediumSq (l : List Float) : ℝ := ((l.filter fun e => decide (|toR e| ≤ 2 ^ (505 : ℤ))).map fun e => toR e ^ 2).sum

theorem norm2_eq (l : List Float) : norm2 l = Real.sqrt (fsum (fun _ => True) l) := by
  unfold norm2 fsum; simp

theorem fsum_med_le (l : List Float) : fsum pM l ≤ mediumSq l := by
  unfold fsum mediumSq
  induction l with
  | nil => simp
  | cons a l ih =>
    rw [List.map_cons, List.sum_cons]
    by_cases h : |toR a| ≤ 2 ^ (505 : ℤ)
    · rw [List.filter_cons_of_pos (by simpa using h), List.map_cons, List.sum_cons]
      refine add_le_add ?_ ih
      split
      · exact le_refl _
      · positivity
    · rw [List.filter_cons_of_neg (by simpa using h), if_neg (fun h' : pM (toR a) => h'.1 (not_le.1 h)), zero_add]
      exact ih

/-- Up to `2^12` elements, or elements of magnitude at most `2^495`, never make the medium sum too large. -/
theorem mediumSq_le {l : List Float} (hl : l.length < 2 ^ 31) (h : l.length ≤ 2 ^ 12 ∨ ∀ e ∈ l, |toR e| ≤ 2 ^ (495 : ℤ)) :
    mediumSq l ≤ 2 ^ (1022 : ℤ) := by
  have gen : ∀ b : ℤ, (∀ e ∈ l, |toR e| ≤ 2 ^ (505 : ℤ) → |toR e| ≤ 2 ^ b) → mediumSq l ≤ l.length * 2 ^ (b + b) := by
    intro b hb
    unfold mediumSq
    have h1 := List.sum_le_card_nsmul ((l.filter fun e => by classical exact decide (|toR e| ≤ 2 ^ (505 : ℤ))).map fun e => toR e ^ 2) (2 ^ (b + b)) (by
      intro y hy
      obtain ⟨e, he, rfl⟩ := List.mem_map.1 hy
      obtain ⟨he1, he2⟩ := List.mem_filter.1 he
      rw [← sq_abs, ← z2sq]
      exact pow_le_pow_left₀ (abs_nonneg _) (hb e he1 (by simpa using he2)) 2)
    rw [List.length_map, nsmul_eq_mul] at h1
    refine h1.trans (mul_le_mul_of_nonneg_right ?_ (zp _).le)
    exact_mod_cast List.length_filter_le _ _
  rcases h with h | h
  · refine (gen 505 fun e _ he => he).trans ?_
    have : (l.length : ℝ) ≤ 2 ^ (12 : ℤ) := by exact_mod_cast h
    refine (mul_le_mul_of_nonneg_right this (zp _).le).trans ?_
    rw [z2]; exact z2le (by norm_num)
  · refine (gen 495 fun e he _ => h e he).trans ?_
    have : (l.length : ℝ) ≤ 2 ^ (31 : ℤ) := by exact_mod_cast hl.le
    refine (mul_le_mul_of_nonneg_right this (zp _).le).trans ?_
    rw [z2]; exact z2le (by norm_num)

/-- What `dnrm2` promises: `r` is the norm up to `n + 12` roundings, and an absolute error far below the smallest normal number
that only occurs when subnormal numbers are present. -/
structure NormAccurate (n : Nat) (l : List Float) (r : Float) : Prop where
  finite : r.isFinite = true
  nonneg : 0 ≤ toR r
  err : |toR r - norm2 l| ≤ ((1 + ur) ^ (n + 12) - 1) * norm2 l + Real.sqrt n * 2 ^ (-1053 : ℤ)
  rel : (∀ e ∈ l, toR e = 0 ∨ (2 : ℝ) ^ (-1022 : ℤ) ≤ |toR e|) → |toR r - norm2 l| ≤ ((1 + ur) ^ (n + 12) - 1) * norm2 l

theorem normAccurate {l : List Float} (h0 : 0 < l.length) (hl : l.length < 2 ^ 31) (hfin : ∀ x ∈ l, x.isFinite = true)
    (hM : mediumSq l ≤ 2 ^ (1022 : ℤ)) (hN : norm2 l ≤ 2 ^ (1022 : ℤ)) :
    NormAccurate l.length l (nrm2Final (l.foldl nrm2Acc ⟨true, 0, 0, 0⟩)) := by
  rw [norm2_eq] at hN
  have hM' := (fsum_med_le l).trans hM
  have h1 := nrm2_acc (e := eta) hl hfin (fun _ _ => Or.inl rfl) hM' hN (Or.inl rfl)
  refine ⟨h1.fin, h1.nonneg, ?_, fun hn => ?_⟩
  · rw [norm2_eq]
    refine h1.appr.err.trans (add_le_add (le_refl _) ?_)
    have p := pow_small (k := l.length + 12) (by omega)
    have s1 : 1 ≤ Real.sqrt l.length := by
      rw [Real.one_le_sqrt]; exact_mod_cast h0
    have s2 : Real.sqrt (l.length * eta) ≤ Real.sqrt l.length * 2 ^ (-537 : ℤ) := by
      rw [Real.sqrt_mul (by positivity)]
      refine mul_le_mul_of_nonneg_left ?_ (by positivity)
      rw [← z2sqrt, eta_z]; exact Real.sqrt_le_sqrt (z2le (by norm_num))
    have s3 : 2 * Real.sqrt (l.length * eta) * 2 ^ (-518 : ℤ) ≤ Real.sqrt l.length * 2 ^ (-1054 : ℤ) := by
      rw [mul_assoc]
      refine (mul_le_mul_of_nonneg_left (mul_le_mul_of_nonneg_right s2 (zp _).le) (by norm_num)).trans (le_of_eq ?_)
      rw [mul_assoc, z2, ← mul_assoc, mul_comm 2, mul_assoc, show (2 : ℝ) * 2 ^ (-537 + -518 : ℤ) = 2 ^ (1 : ℤ) * 2 ^ (-537 + -518 : ℤ) by rw [zpow_one], z2]
      norm_num
    have s4 : eta ≤ Real.sqrt l.length * 2 ^ (-1055 : ℤ) := by
      refine le_trans ?_ (le_mul_of_one_le_left (zp _).le s1)
      rw [eta_z]; exact z2le (by norm_num)
    have i1 : (2 : ℝ) ^ (-1054 : ℤ) = 2 * 2 ^ (-1055 : ℤ) := by
      rw [show (2 : ℝ) * 2 ^ (-1055 : ℤ) = 2 ^ (1 : ℤ) * 2 ^ (-1055 : ℤ) by rw [zpow_one], z2]; norm_num
    have i2 : (2 : ℝ) ^ (-1053 : ℤ) = 4 * 2 ^ (-1055 : ℤ) := by
      rw [show (4 : ℝ) = 2 ^ (2 : ℤ) by norm_num, z2]; norm_num
    have i3 : 0 ≤ Real.sqrt l.length * 2 ^ (-1055 : ℤ) := mul_nonneg (by linarith only [s1]) (zp _).le
    rw [i1] at s3
    rw [i2]
    refine (mul_le_mul p (add_le_add s3 s4) h1.appr.under (by norm_num)).trans ?_
    generalize (2 : ℝ) ^ (-1055 : ℤ) = w at *
    linarith only [i3]
  · have h2 := nrm2_acc (e := 0) hl hfin (fun x hx => Or.inr ⟨rfl, hn x hx⟩) hM' hN (Or.inr rfl)
    have h3 := h2.appr.err
    rw [mul_zero, Real.sqrt_zero, mul_zero, zero_mul, add_zero, mul_zero, add_zero] at h3
    rw [norm2_eq]
    exact h3

/-- **C65.** On binary64, `dnrm2` of `n` finite elements is finite and accurate to a relative error of about `(n + 12)·2^-53`,
provided that the norm is at most `2^1022` and the elements of magnitude at most `2^505` do not overflow their common sum of squares
(by C18 this condition cannot be dropped). -/
theorem C65_dnrm2_f64 (n : Nat) (x : List Float) (incx : Int) (hn : 0 < n) (hn' : n < 2 ^ 31) (h : StrideOK n incx) (hl : x.length < 2 ^ 62)
    (hfin : ∀ e ∈ strided n incx x, e.isFinite = true) (hM : mediumSq (strided n incx x) ≤ 2 ^ (1022 : ℤ))
    (hN : norm2 (strided n incx x) ≤ 2 ^ (1022 : ℤ)) :
    ∃ r, dnrm2 (F := Float) (n : Int) x incx = pure r ∧ NormAccurate n (strided n incx x) r := by
  unfold dnrm2
  rw [dnrm2FA_fold hn h _ hl]
  have hlen : (strided n incx x).length = n := by simp [strided]
  have := normAccurate (l := strided n incx x) (by omega) (by omega) hfin hM hN
  rw [hlen] at this
  exact ⟨_, rfl, this⟩

/-- **C65.** For at most 4096 elements, or elements of magnitude at most `2^495`, only the norm has to be in range. -/
theorem C65_dnrm2_f64_simple (n : Nat) (x : List Float) (incx : Int) (hn : 0 < n) (hn' : n < 2 ^ 31) (h : StrideOK n incx) (hl : x.length < 2 ^ 62)
    (hfin : ∀ e ∈ strided n incx x, e.isFinite = true) (hs : n ≤ 2 ^ 12 ∨ ∀ e ∈ strided n incx x, |toR e| ≤ 2 ^ (495 : ℤ))
    (hN : norm2 (strided n incx x) ≤ 2 ^ (1022 : ℤ)) :
    ∃ r, dnrm2 (F := Float) (n : Int) x incx = pure r ∧ NormAccurate n (strided n incx x) r := by
  have hlen : (strided n incx x).length = n := by simp [strided]
  exact C65_dnrm2_f64 n x incx hn hn' h hl hfin (mediumSq_le (by omega) (by rwa [hlen])) hN

/-- `n + 12` roundings amount to a relative error below `2(n + 12)·2^-53`. -/
theorem NormAccurate.rel_simple {n : Nat} {l : List Float} {r : Float} (h : NormAccurate n l r) (hn : n < 2 ^ 31)
    (hl : ∀ e ∈ l, toR e = 0 ∨ (2 : ℝ) ^ (-1022 : ℤ) ≤ |toR e|) : |toR r - norm2 l| ≤ 2 * (n + 12) / 2 ^ 53 * norm2 l := by
  refine (h.rel hl).trans (mul_le_mul_of_nonneg_right ?_ (Real.sqrt_nonneg _))
  have := gamma_le (n + 12) (by omega)
  unfold ur at this ⊢
  push_cast at this
  refine this.trans (le_of_eq ?_)
  ring

/-- A case that meets the hypotheses: a subnormal, a large and two medium elements. -/
theorem C65_example_of (a b c d : Float) (ha : a.isFinite = true) (hb : b.isFinite = true) (hc : c.isFinite = true) (hd : d.isFinite = true)
    (h1 : |toR a| ≤ 2 ^ (600 : ℤ)) (h2 : |toR b| ≤ 2 ^ (600 : ℤ)) (h3 : |toR c| ≤ 2 ^ (600 : ℤ)) (h4 : |toR d| ≤ 2 ^ (600 : ℤ)) :
    ∃ r, dnrm2 (F := Float) 4 [a, b, c, d] 1 = pure r ∧ NormAccurate 4 [a, b, c, d] r := by
  have hs : strided 4 1 [a, b, c, d] = [a, b, c, d] := rfl
  have := C65_dnrm2_f64_simple 4 [a, b, c, d] 1 (by norm_num) (by norm_num) (by norm_num [StrideOK]) (by simp) (by rw [hs]; simp [ha, hb, hc, hd])
    (Or.inl (by norm_num)) (by
      rw [hs]
      unfold norm2
      rw [Real.sqrt_le_left (zp _).le, z2sq]
      simp only [List.map_cons, List.map_nil, List.sum_cons, List.sum_nil]
      have sqs : ∀ t : ℝ, |t| ≤ 2 ^ (600 : ℤ) → t ^ 2 ≤ 2 ^ (1200 : ℤ) := fun t ht => by
        rw [← sq_abs, show (1200 : ℤ) = 600 + 600 by norm_num, ← z2sq]; exact pow_le_pow_left₀ (abs_nonneg _) ht 2
      have i1 := sqs _ h1
      have i2 := sqs _ h2
      have i3 := sqs _ h3
      have i4 := sqs _ h4
      refine le_trans ?_ (z2le (show (2 + 1200 : ℤ) ≤ 1022 + 1022 by norm_num))
      rw [← z2]
      generalize (2 : ℝ) ^ (1200 : ℤ) = w at *
      norm_num
      linarith only [i1, i2, i3, i4])
  rw [hs] at this
  exact this

/-- Non-vacuity of C65: elements `2^505`, `2^-519`, `2^518` and `2^-511` (medium, small, large, medium). -/
theorem C65_example : ∃ r, dnrm2 (F := Float) 4 [(tbig : Float), sbig, ssml, tsml] 1 = pure r ∧ NormAccurate 4 [(tbig : Float), sbig, ssml, tsml] r := by
  refine C65_example_of _ _ _ _ toR_tbig.1 toR_sbig.1 toR_ssml.1 toR_tsml.1 ?_ ?_ ?_ ?_
  · rw [toR_tbig.2, abs_of_pos (zp _)]; exact z2le (by norm_num)
  · rw [toR_sbig.2, abs_of_pos (zp _)]; exact z2le (by norm_num)
  · rw [toR_ssml.2, abs_of_pos (zp _)]; exact z2le (by norm_num)
  · rw [toR_tsml.2, abs_of_pos (zp _)]; exact z2le (by norm_num)

end Verif
