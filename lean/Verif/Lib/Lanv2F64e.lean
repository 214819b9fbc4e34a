import Verif.Lib.Lanv2F64d

/-!
# `dlanv2` on binary64: distinct real eigenvalues
-/

namespace Verif
open F64 Scalar Spec

namespace F64

theorem fmaxF {x y : Float} (hx : x.isFinite = true) (hy : y.isFinite = true) :
    (fmax x y).isFinite = true ∧ toR (fmax x y) = max (toR x) (toR y) := by
  apply fin_toXR
  rw [fmax_toXR, toXR_fin hx, toXR_fin hy]
  simp only [XR.fmax, XR.isNaN, XR.lt, Bool.false_eq_true, if_false, decide_eq_true_eq]
  by_cases h : toR x < toR y
  · rw [if_pos h, max_eq_right h.le]
  · rw [if_neg h, max_eq_left (not_lt.1 h)]

theorem eta_norm {x : ℝ} (h : x ≤ (2 : ℝ) ^ (-1022 : ℤ) * (8 * big)) : eta * x ≤ eta := by
  have h1 : (2 : ℝ) ^ (-1022 : ℤ) * (8 * big) ≤ 1 := by
    have e : big = (2 : ℝ) ^ (1000 : ℤ) := by unfold big; exact (zpn 1000).symm
    rw [e, show (8 : ℝ) = 2 ^ (3 : ℤ) by norm_num, z2, z2, show (-1022 + (3 + 1000) : ℤ) = -19 by norm_num]
    norm_num
  have h2 := mul_le_mul_of_nonneg_left (h.trans h1) eta_pos.le
  linarith

/-- `(W / S) * v`. -/
theorem ratioF {w s v : Float} (fw : w.isFinite = true) (fs : s.isFinite = true) (fv : v.isFinite = true) (hs : toR s ≠ 0)
    (hv : |toR v| ≤ |toR w|) (hS : |toR s| ≤ 8 * big) (hw : |toR w / toR s| ≤ 1024 * big) (hx : |toR w * toR v / toR s| ≤ 500 * big) :
    ((w / s) * v).isFinite = true ∧
      |toR ((w / s) * v) - toR w * toR v / toR s| ≤ 3 * ur * |toR w * toR v / toR s| + 3 * eta := by
  have u0 := ur_pos
  have us := ur_small
  have e0 := eta_pos
  have B1 := one_le_big
  have e1 : eta ≤ 1 := eta_ur.trans (by linarith)
  obtain ⟨fq, lq⟩ := divF fw fs hs hw
  set X := toR w * toR v / toR s with hX
  have key : |toR (w / s) * toR v - X| ≤ ur * |X| + eta := by
    have ex : toR (w / s) * toR v - X = (toR (w / s) - toR w / toR s) * toR v := by rw [hX]; ring
    have eX : |X| = |toR w / toR s| * |toR v| := by rw [hX, ← abs_mul]; congr 1; ring
    rw [ex, abs_mul, eX]
    by_cases hn : (2 : ℝ) ^ (-1022 : ℤ) ≤ |toR w / toR s|
    · have := mul_le_mul_of_nonneg_right (lq.normal hn) (abs_nonneg (toR v))
      linarith
    · have h1 := mul_le_mul_of_nonneg_right lq.general (abs_nonneg (toR v))
      have h2 : eta * |toR v| ≤ eta := by
        refine eta_norm ?_
        have h3 : |toR w| ≤ (2 : ℝ) ^ (-1022 : ℤ) * |toR s| := by
          rw [not_le, abs_div, div_lt_iff₀ (abs_pos.2 hs)] at hn; exact hn.le
        have h4 := mul_le_mul_of_nonneg_left hS (zp (-1022)).le
        linarith
      linarith
  have kq : |toR (w / s) * toR v| ≤ 1001 / 1000 * |X| + eta := by
    have h1 : |toR (w / s) * toR v| ≤ |X| + |toR (w / s) * toR v - X| := by
      calc |toR (w / s) * toR v| = |X + (toR (w / s) * toR v - X)| := by ring_nf
        _ ≤ _ := abs_add_le _ _
    have := mul_le_mul_of_nonneg_right us (abs_nonneg X)
    linarith [abs_nonneg X]
  obtain ⟨fr, lr⟩ := mulF fq fv (by linarith)
  refine ⟨fr, ?_⟩
  have h1 := lr.abs1 kq
  have h2 := abs_sub_le (toR (w / s * v)) (toR (w / s) * toR v) X
  have h3 : ur * eta ≤ 1 * eta := mul_le_mul_of_nonneg_right (by linarith) e0.le
  have h4 : 0 ≤ ur * |X| := by positivity
  linarith

end F64

set_option maxHeartbeats 1000000 in
/-- The quantity whose sign decides between real and complex eigenvalues. -/
theorem disc_ok {p m q s : Float} (fp : p.isFinite = true) (fm : m.isFinite = true) (fq : q.isFinite = true) (fs : s.isFinite = true)
    (hm : tiny ≤ toR m) (hq : |toR q| ≤ toR m) (hs : toR s = max |toR p| (toR m)) (hB : toR s ≤ 2 * big)
    (f0 : ((p / s) * p + (m / s) * q).isFinite = true → 1 / 2 ^ 52 ≤ toR ((p / s) * p + (m / s) * q)) :
    ((p / s) * p + (m / s) * q).isFinite = true ∧
    |toR s * toR ((p / s) * p + (m / s) * q) - (toR p ^ 2 + toR m * toR q)| ≤ 6 * ur * (toR p ^ 2 + |toR m * toR q|) ∧
    toR s ≤ 2 ^ 53 * (toR p ^ 2 + |toR m * toR q|) := by
  have u0 := ur_pos
  have us := ur_small
  have e0 := eta_pos
  have t0 := tiny_pos
  have B1 := one_le_big
  have m0 := t0.trans_le hm
  have hms : toR m ≤ toR s := hs ▸ le_max_right _ _
  have hps : |toR p| ≤ toR s := hs ▸ le_max_left _ _
  have s0 : 0 < toR s := m0.trans_le hms
  have sa : |toR s| = toR s := abs_of_pos s0
  have q1 : ∀ {W v : ℝ}, |W| ≤ toR s → |v| ≤ toR s → |W / toR s| ≤ 1 ∧ |W * v / toR s| ≤ 2 * big := by
    intro W v h1 h2
    have h3 : |W / toR s| ≤ 1 := by rw [abs_div, sa, div_le_one s0]; exact h1
    refine ⟨h3, ?_⟩
    rw [show W * v / toR s = W / toR s * v by ring, abs_mul]
    have := mul_le_mul h3 h2 (abs_nonneg _) zero_le_one
    linarith
  have ma : |toR m| = toR m := abs_of_pos m0
  obtain ⟨a1, a2⟩ := q1 hps hps
  obtain ⟨b1, b2⟩ := q1 (ma.le.trans hms) (hq.trans hms)
  obtain ⟨f1, e1⟩ := ratioF fp fs fp s0.ne' le_rfl (by rw [sa]; linarith) (by linarith) (by linarith)
  obtain ⟨f2, e2⟩ := ratioF fm fs fq s0.ne' (by rw [ma]; exact hq) (by rw [sa]; linarith) (by linarith) (by linarith)
  set X := toR p * toR p / toR s with hX
  set Y := toR m * toR q / toR s with hY
  set N := toR p ^ 2 + |toR m * toR q| with hN
  have N0 : 0 ≤ N := by positivity
  have hXY : |X| + |Y| = N / toR s := by
    rw [hX, hY, abs_div, abs_div, sa, abs_mul_self, ← add_div, hN, sq]
  have NS : |X| + |Y| ≤ 4 * big := by linarith
  set x := toR (p / s * p) with hx
  set y := toR (m / s * q) with hy
  have eX : |x - X| ≤ 3 * ur * |X| + 3 * eta := e1
  have eY : |y - Y| ≤ 3 * ur * |Y| + 3 * eta := e2
  set n := |X| + |Y| with hn
  have n0 : 0 ≤ n := by positivity
  have eXY : |x + y - (X + Y)| ≤ 3 * ur * n + 6 * eta := by
    have : x + y - (X + Y) = (x - X) + (y - Y) := by ring
    rw [this]
    refine (abs_add_le _ _).trans ?_
    rw [hn]; linarith
  have hXYn : |X + Y| ≤ n := abs_add_le _ _
  have un : ur * n ≤ 1 / 1000000 * n := mul_le_mul_of_nonneg_right (by linarith) n0
  have aXY : |x + y| ≤ 101 / 100 * n + 6 * eta := by
    have h1 : |x + y| ≤ |X + Y| + |x + y - (X + Y)| := by
      calc |x + y| = |(X + Y) + (x + y - (X + Y))| := by ring_nf
        _ ≤ _ := abs_add_le _ _
    linarith
  have eu := eta_ur
  have e1' : eta ≤ 1 := eu.trans (by linarith)
  obtain ⟨fz, rz⟩ := addF f1 f2 (by show |x + y| ≤ _; linarith)
  have hz0 := f0 fz
  set z := toR (p / s * p + m / s * q) with hz
  have ez : |z - (x + y)| ≤ 1 * ur * |x + y| := rz.err
  have ez' : |z - (x + y)| ≤ ur * (101 / 100 * n + 6 * eta) := by
    refine ez.trans ?_
    rw [one_mul]; exact mul_le_mul_of_nonneg_left aXY u0.le
  have ue : ur * eta ≤ 1 / 1000 * eta := mul_le_mul_of_nonneg_right (by linarith) e0.le
  have ezn : |z - (X + Y)| ≤ 5 * ur * n + 7 * eta := by
    have := abs_sub_le z (x + y) (X + Y)
    have : 0 ≤ ur * n := by positivity
    linarith
  have nlow : 1 / 2 ^ 53 ≤ n := by
    have h1 := abs_le.1 ezn
    have h2 := (abs_le.1 hXYn).2
    have h3 : eta ≤ 1 / 1000000000000000 * (1 / 1000000000000000) := eu.trans (mul_le_mul us le_rfl (by norm_num) (by norm_num)) |>.trans (by linarith)
    have h4 : (1 : ℝ) / 2 ^ 52 = 2 * (1 / 2 ^ 53) := by norm_num
    have h5 : (1 : ℝ) / 1000000000000000 * (1 / 1000000000000000) ≤ 1 / 100 * (1 / 2 ^ 53) := by norm_num
    rw [h4] at hz0
    have h6 := h3.trans h5
    have h7 : (0 : ℝ) < 1 / 2 ^ 53 := by positivity
    generalize (1 : ℝ) / 2 ^ 53 = w at *
    linarith only [hz0, h1.2, h2, h6, un, h7, n0]
  have eun : eta ≤ ur * n * (1 / 20) := by
    have h1 : ur * (1 / 2 ^ 53) ≤ ur * n := mul_le_mul_of_nonneg_left nlow u0.le
    have h2 : eta ≤ ur * ur * tiny := eta_tiny
    have h3 : ur * ur * tiny ≤ ur * (1 / 2 ^ 53) * (1 / 20) := by
      have h4 : tiny ≤ 1 / 20 := by
        unfold tiny
        exact one_div_le_one_div_of_le (by norm_num) ((show (20 : ℝ) ≤ 2 ^ 5 by norm_num).trans (pow_le_pow_right₀ (by norm_num) (by norm_num)))
      have h5 : ur * ur * tiny ≤ ur * ur * (1 / 20) := mul_le_mul_of_nonneg_left h4 (by positivity)
      have h6 : ur * ur = ur * (1 / 2 ^ 53) := rfl
      rw [← h6]; exact h5
    have h4 := mul_le_mul_of_nonneg_right h1 (show (0 : ℝ) ≤ 1 / 20 by norm_num)
    linarith
  have ns : toR s * n = N := by rw [hXY]; field_simp
  have fin1 : |toR s * z - (toR p ^ 2 + toR m * toR q)| ≤ 6 * ur * N := by
    have e : toR s * z - (toR p ^ 2 + toR m * toR q) = toR s * (z - (X + Y)) := by
      rw [hX, hY]; field_simp
    rw [e, abs_mul, sa, ← ns]
    have h1 : |z - (X + Y)| ≤ 6 * ur * n := by linarith
    have := mul_le_mul_of_nonneg_left h1 s0.le
    linarith
  refine ⟨fz, fin1, ?_⟩
  rw [← ns]
  have := mul_le_mul_of_nonneg_left nlow s0.le
  have h2 : toR s * (1 / 2 ^ 53) * 2 ^ 53 = toR s := by field_simp
  nlinarith

end Verif
