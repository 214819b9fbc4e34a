import Verif.Lib.Lanv2F64b

/-!
# `dlanv2` on binary64: complex or nearly equal eigenvalues
-/

namespace Verif
open F64 Scalar Spec

namespace F64

theorem lapy2F {x y : Float} (fx : x.isFinite = true) (fy : y.isFinite = true) (hx : |toR x| ≤ 8 * big) (hy : |toR y| ≤ 8 * big)
    (hl : tiny / 2 ≤ |toR x| ∨ tiny / 2 ≤ |toR y|) :
    (dlapy2 x y).isFinite = true ∧ Rl 7 (toR (dlapy2 x y)) (Real.sqrt (toR x ^ 2 + toR y ^ 2)) ∧
      tiny / 2 ≤ Real.sqrt (toR x ^ 2 + toR y ^ 2) ∧ Real.sqrt (toR x ^ 2 + toR y ^ 2) ≤ 12 * big := by
  have B0 := big_pos
  have u0 := ur_pos
  have us := ur_small
  set N := Real.sqrt (toR x ^ 2 + toR y ^ 2) with hN
  have hge : ∀ z : ℝ, z ^ 2 ≤ toR x ^ 2 + toR y ^ 2 → |z| ≤ N := by
    intro z hz
    rw [← Real.sqrt_sq_eq_abs]; exact Real.sqrt_le_sqrt hz
  have N1 : tiny / 2 ≤ N := by
    rcases hl with h | h
    · exact h.trans (hge _ (by linarith [sq_nonneg (toR y)]))
    · exact h.trans (hge _ (by linarith [sq_nonneg (toR x)]))
  have t0 := tiny_pos
  have N0 : 0 < N := by linarith
  have N2 : N ≤ 12 * big := by
    have h1 : toR x ^ 2 ≤ (8 * big) ^ 2 := by rw [← sq_abs]; exact pow_le_pow_left₀ (abs_nonneg _) hx 2
    have h2 : toR y ^ 2 ≤ (8 * big) ^ 2 := by rw [← sq_abs]; exact pow_le_pow_left₀ (abs_nonneg _) hy 2
    rw [hN, show 12 * big = Real.sqrt ((12 * big) ^ 2) by rw [Real.sqrt_sq (by positivity)]]
    refine Real.sqrt_le_sqrt ?_
    nlinarith
  have hf : (dlapy2 x y).isFinite = true := by
    rcases lapy2_fin fx fy with ⟨-, h⟩ | ⟨H, h1, h2, h3⟩
    · rw [h]; exact (fmax_fin fx fy).1
    · refine h3.finite ?_
      have e : (4 : ℝ) / 2 ^ 53 = 4 * ur := by unfold ur; ring
      rw [e] at h2
      have h4 := abs_le.1 h2
      have h5 : 4 * ur * N ≤ 1 / 100 * N := mul_le_mul_of_nonneg_right (by linarith) N0.le
      have H0 : 0 ≤ H := (le_max_of_le_left (abs_nonneg _)).trans h1
      rw [abs_of_nonneg H0]
      have := ovf_big
      linarith
  refine ⟨hf, Rl.of_err' ?_ (by norm_num), N1, N2⟩
  have h1 := C47_dlapy2_accuracy x y fx fy hf
  rw [← hN] at h1
  rw [abs_of_pos N0]
  have e : (6 : ℝ) / 2 ^ 53 = 6 * ur := by unfold ur; ring
  rw [e] at h1
  have h2 : (1 : ℝ) / 2 ^ 1075 ≤ 1 / 1000000000000000 * (ur * tiny) := eta_M le_rfl
  have h3 : ur * (tiny / 2) ≤ ur * N := mul_le_mul_of_nonneg_left N1 u0.le
  generalize (1 : ℝ) / 2 ^ 1075 = w at *
  have : 0 ≤ ur * N := by positivity
  linarith

end F64

theorem safmx2_f64 : toXR (safmx2 : Float) = .pinf := by
  have h : (safmx2 : Float) = Float.ofBits 0x7FF0000000000000 := by decide +kernel
  have h2 : up (Float.ofBits 0x7FF0000000000000) = .infinity .positive := rfl
  unfold toXR
  rw [h, h2]
  rfl

theorem safmn2_f64 : (safmn2 : Float) = 0 := by decide +kernel

theorem scale_f64 {s t : Float} (fs : s.isFinite = true) (ft : t.isFinite = true) (h : toR s ≠ 0 ∨ toR t ≠ 0) (k n : Nat) :
    lanv2Scale k n s t = (s, t) := by
  cases k with
  | zero => rfl
  | succ k =>
    unfold lanv2Scale
    obtain ⟨f1, v1⟩ := fmax_fin ft fs
    have h1 : (safmx2 ≤ᶠ (Scalar.fmax (Scalar.abs t) (Scalar.abs s))) = false := by
      show Float.le safmx2 (F64.fmax t.abs s.abs) = false
      rw [le_toXR, safmx2_f64, toXR_fin f1]
      rfl
    have f0 : (safmn2 : Float).isFinite = true ∧ toR (safmn2 : Float) = 0 := by
      rw [safmn2_f64]; exact toR_zero
    have h2 : ((Scalar.fmax (Scalar.abs t) (Scalar.abs s)) ≤ᶠ safmn2) = false := by
      show ((F64.fmax t.abs s.abs) ≤ᶠ safmn2) = false
      rw [leF f1 f0.1, v1, f0.2]
      simp only [decide_eq_false_iff_not, not_le]
      rcases h with h | h
      · exact lt_max_of_lt_right (abs_pos.2 h)
      · exact lt_max_of_lt_left (abs_pos.2 h)
    simp only [h1, h2, Bool.false_eq_true, if_false]

set_option maxHeartbeats 1000000 in
/-- The computed rotation that makes the diagonal equal. -/
theorem angle_ok {s t : Float} (fs : s.isFinite = true) (ft : t.isFinite = true) (hs : |toR s| ≤ 8 * big) (ht : |toR t| ≤ 8 * big)
    (hl : tiny / 2 ≤ |toR s| ∨ tiny / 2 ≤ |toR t|) :
    let cs := Float.sqrt ((Scalar.one + s.abs / dlapy2 s t) * Scalar.lit 1 1)
    let sn := -((Scalar.lit 1 1 * t) / (dlapy2 s t * cs)) * F64.signum s
    cs.isFinite = true ∧ sn.isFinite = true ∧ ∃ c0 s0 : ℝ, c0 ^ 2 + s0 ^ 2 = 1 ∧ toR t * (c0 ^ 2 - s0 ^ 2) + 2 * toR s * (s0 * c0) = 0 ∧
      |toR cs - c0| ≤ 40 * ur ∧ |toR sn - s0| ≤ 40 * ur := by
  intro cs sn
  have u0 := ur_pos
  have us := ur_small
  have B1 := one_le_big
  have B0 := big_pos
  have t0 := tiny_pos
  have eu := eta_ur
  obtain ⟨fτ, rτ, N1, N2⟩ := lapy2F fs ft hs ht hl
  obtain ⟨fo, vo⟩ := toR_one'
  obtain ⟨fh, vh⟩ := half_exact
  set N := Real.sqrt (toR s ^ 2 + toR t ^ 2) with hN
  set τ := dlapy2 s t with hτ
  have N0 : 0 < N := by linarith
  have hne : toR s + 0 ≠ 0 ∨ toR t - 0 ≠ 0 := by
    rcases hl with h | h
    · left; intro h'; rw [add_zero] at h'; rw [h', abs_zero] at h; linarith
    · right; intro h'; rw [sub_zero] at h'; rw [h', abs_zero] at h; linarith
  obtain ⟨-, c0p, hu, hd⟩ := equalise (A := toR t) (B := toR s) (C := 0) (D := 0) hne N _ _ (by rw [hN]; simp) rfl rfl
  simp only [add_zero, sub_zero] at hu hd c0p
  set c0 := Real.sqrt ((1 + |toR s| / N) * (1 / 2)) with hc0
  set s0 := -(1 / 2 * toR t / (N * c0)) * (if toR s < 0 then (-1 : ℝ) else 1) with hs0
  obtain ⟨c1, s1, -, -⟩ := unit_le hu
  -- the quotient
  have τne : toR τ ≠ 0 := by
    intro h; have := rτ.abs_ge (by norm_num); rw [h, abs_zero, abs_of_pos N0] at this; linarith
  have sN : |toR s| / N ≤ 1 := by
    rw [div_le_one N0, hN, ← Real.sqrt_sq_eq_abs]
    exact Real.sqrt_le_sqrt (by linarith [sq_nonneg (toR t)])
  have sN0 : 0 ≤ |toR s| / N := by positivity
  have rq := (Rl.refl |toR s|).div rτ (by norm_num) (by norm_num) (by norm_num) (by norm_num)
  have rqa := rq.abs_le (by norm_num)
  rw [abs_of_nonneg sN0] at rqa
  obtain ⟨fq, flq⟩ := divF (abs_fin fs) fτ τne (by rw [abs_toR]; linarith)
  rw [abs_toR] at flq
  have eq1 := flq.abs1 (show |(|toR s| / toR τ)| ≤ 11 / 10 by linarith)
  have eq2 := rq.err
  rw [abs_of_nonneg sN0] at eq2
  have eq3 : |toR (s.abs / τ) - |toR s| / N| ≤ 12 * ur := by
    have := abs_sub_le (toR (s.abs / τ)) (|toR s| / toR τ) (|toR s| / N)
    have : (0 + 7 + 2) * ur * (|toR s| / N) ≤ (0 + 7 + 2) * ur * 1 := mul_le_mul_of_nonneg_left sN (by positivity)
    linarith
  have eq3' := abs_le.1 eq3
  -- one plus
  have f1a : |toR (Scalar.one : Float) + toR (s.abs / τ)| ≤ 21 / 10 := by
    rw [vo, abs_le]; constructor <;> linarith
  obtain ⟨f1, r1⟩ := addF fo fq (by linarith)
  have e1 := r1.err
  have e1' : 1 * ur * |toR (Scalar.one : Float) + toR (s.abs / τ)| ≤ 1 * ur * (21 / 10) := mul_le_mul_of_nonneg_left f1a (by positivity)
  rw [vo] at e1 e1'
  have e1'' := abs_le.1 (e1.trans e1')
  -- half
  have f2a : |toR (Scalar.one + s.abs / τ) * toR (Scalar.lit 1 1 : Float)| ≤ 11 / 10 := by
    rw [vh, abs_le]; constructor <;> linarith
  obtain ⟨f2, fl2⟩ := mulF f1 fh (by linarith)
  have e2 := fl2.abs1 f2a
  rw [vh] at e2
  have e2' := abs_le.1 e2
  set v0 := (1 + |toR s| / N) * (1 / 2) with hv0
  have v0h : 1 / 2 ≤ v0 := by rw [hv0]; linarith
  have r2 : Rl 17 (toR ((Scalar.one + s.abs / τ) * Scalar.lit 1 1)) v0 := by
    refine Rl.of_err' ?_ (by norm_num)
    rw [abs_of_pos (show 0 < v0 by linarith)]
    have : 17 * ur * (1 / 2) ≤ 17 * ur * v0 := mul_le_mul_of_nonneg_left v0h (by positivity)
    refine le_trans ?_ this
    rw [abs_le]; constructor <;> linarith
  -- the square root
  obtain ⟨f3, n3, r3⟩ := sqrtF f2 (r2.nonneg (by norm_num) (by linarith))
  have r4 := r3.trans (r2.sqrt (by norm_num)) (by norm_num) (by norm_num) (by norm_num) (by norm_num)
  have c0h : 7 / 10 ≤ c0 := by
    rw [hc0]; refine Real.le_sqrt_of_sq_le ?_
    linarith
  have c0le : c0 ≤ 1 := (le_abs_self _).trans c1
  rw [← hc0] at r4
  have e4 := r4.err
  rw [abs_of_pos c0p] at e4
  have fcs : cs.isFinite = true := f3
  have ecs : |toR cs - c0| ≤ 40 * ur := by
    have : (1 + 17 + 1) * ur * c0 ≤ (1 + 17 + 1) * ur * 1 := mul_le_mul_of_nonneg_left c0le (by positivity)
    exact e4.trans (by linarith)
  -- the denominator
  have r5 := rτ.mul r4 (by norm_num) (by norm_num) (by norm_num) (by norm_num)
  have D0 : 0 < N * c0 := mul_pos N0 c0p
  have Dl : tiny / 4 ≤ N * c0 := by
    calc tiny / 4 ≤ tiny / 2 * (7 / 10) := by linarith
      _ ≤ _ := mul_le_mul N1 c0h (by norm_num) N0.le
  have Du : N * c0 ≤ 12 * big := by
    calc N * c0 ≤ 12 * big * 1 := mul_le_mul N2 c0le c0p.le (by positivity)
      _ = _ := by ring
  have a5 := r5.abs_le (by norm_num)
  have a5' := r5.abs_ge (by norm_num)
  rw [abs_of_pos D0] at a5 a5'
  have fx : (τ * cs).isFinite = true ∧ Fl (toR τ * toR cs) (toR (τ * cs)) := mulF fτ fcs (by
    show |toR τ * toR cs| ≤ _
    exact a5.trans (by linarith))
  have r6 : Rl 1 (toR (τ * cs)) (toR τ * toR cs) := fx.2.rl (by
    refine le_trans ?_ a5'
    have h7 : (2 : ℝ) ^ (-1022 : ℤ) ≤ 1 / 8 * tiny := by
      unfold tiny
      rw [show (2 : ℝ) ^ (-1022 : ℤ) = 1 / 2 ^ (1022 : ℕ) from by rw [zpow_neg, one_div]; norm_cast, show (1 : ℝ) / 8 = 1 / 2 ^ 3 by norm_num,
        one_div_mul_one_div, ← pow_add]
      exact one_div_le_one_div_of_le (by positivity) (pow_le_pow_right₀ (by norm_num) (by norm_num))
    generalize (2 : ℝ) ^ (-1022 : ℤ) = w at *
    linarith)
  have r7 := r6.trans r5 (by norm_num) (by norm_num) (by norm_num) (by norm_num)
  have a7 := r7.abs_ge (by norm_num)
  rw [abs_of_pos D0] at a7
  have xne : toR (τ * cs) ≠ 0 := by intro h; rw [h, abs_zero] at a7; linarith
  -- the numerator
  have pa : |toR (Scalar.lit 1 1 : Float) * toR t| = |toR t| / 2 := by rw [vh, abs_mul]; norm_num; ring
  obtain ⟨fp, flp⟩ := mulF fh ft (by rw [pa]; linarith)
  have ep := flp.general
  rw [pa] at ep
  rw [vh] at ep
  -- `sn0` without its sign
  set w0 := 1 / 2 * toR t / (N * c0) with hw0
  have w0le : |w0| ≤ 1 := by
    have : |s0| = |w0| := by
      rw [hs0, abs_mul, abs_neg]; by_cases h : toR s < 0 <;> simp [h]
    rw [← this]; exact s1
  have rw1 := (Rl.refl (1 / 2 * toR t)).div r7 (by norm_num) (by norm_num) (by norm_num) (by norm_num)
  have ew1 := rw1.err
  rw [← hw0] at ew1
  have ew1' : |1 / 2 * toR t / toR (τ * cs) - w0| ≤ 32 * ur := by
    refine ew1.trans ?_
    refine (mul_le_mul_of_nonneg_left w0le (by positivity)).trans ?_
    linarith
  have ew2 : |toR (Scalar.lit 1 1 * t) / toR (τ * cs) - 1 / 2 * toR t / toR (τ * cs)| ≤ 3 * ur := by
    rw [← sub_div, abs_div, div_le_iff₀ (abs_pos.2 xne)]
    refine ep.trans ?_
    have h1 : |toR t| / 2 ≤ N * c0 := by
      have : |w0| * (N * c0) = |toR t| / 2 := by
        rw [hw0, abs_div, abs_of_pos D0, div_mul_cancel₀ _ D0.ne', abs_mul]; norm_num; ring
      rw [← this]
      calc _ ≤ 1 * (N * c0) := mul_le_mul_of_nonneg_right w0le D0.le
        _ = _ := one_mul _
    have h2 : eta ≤ 1 / 1000000000000000 * (ur * tiny) := eta_M le_rfl
    have h3 : ur * (|toR t| / 2) ≤ ur * (N * c0) := mul_le_mul_of_nonneg_left h1 u0.le
    have h4 : ur * (tiny / 4) ≤ ur * (N * c0) := mul_le_mul_of_nonneg_left Dl u0.le
    have h5 : ur * (999 / 1000 * (N * c0)) ≤ ur * |toR (τ * cs)| := mul_le_mul_of_nonneg_left a7 u0.le
    have : 0 < ur * (N * c0) := by positivity
    linarith
  have ew3 : |toR (Scalar.lit 1 1 * t) / toR (τ * cs)| ≤ 11 / 10 := by
    have h1 := abs_le.1 ew1'
    have h2 := abs_le.1 ew2
    have h3 := abs_le.1 w0le
    rw [abs_le]; constructor <;> linarith
  obtain ⟨fw, flw⟩ := divF fp fx.1 xne (ew3.trans (by linarith))
  have ew4 := flw.abs1 ew3
  have ew5 : |toR (Scalar.lit 1 1 * t / (τ * cs)) - w0| ≤ 40 * ur := by
    have h1 := abs_le.1 ew1'
    have h2 := abs_le.1 ew2
    have h3 := abs_le.1 ew4
    rw [abs_le]; constructor <;> linarith
  -- the sign
  obtain ⟨σ, hσ, hσ1, fσ, vσ⟩ := signum_fin fs
  have fnw : (-(Scalar.lit 1 1 * t / (τ * cs))).isFinite = true := by rw [neg_finite]; exact fw
  obtain ⟨fsn, vsn⟩ := mul_sign hσ fσ vσ fnw
  by_cases hs00 : toR s = 0
  · -- with `sigma = 0` either sign will do
    refine ⟨fcs, fsn, c0, -(σ * w0), ?_, ?_, ecs, ?_⟩
    · have : (-(σ * w0)) ^ 2 = s0 ^ 2 := by
        rw [hs0, neg_sq, mul_pow, mul_pow, neg_sq]
        rcases hσ with rfl | rfl <;> by_cases h : toR s < 0 <;> simp [h]
      rw [this]; exact hu
    · have : (-(σ * w0)) ^ 2 = s0 ^ 2 := by
        rw [hs0, neg_sq, mul_pow, mul_pow, neg_sq]
        rcases hσ with rfl | rfl <;> by_cases h : toR s < 0 <;> simp [h]
      rw [this, hs00]
      rw [hs00] at hd
      linarith
    · rw [vsn, neg_toR]
      rw [show σ * -toR (Scalar.lit 1 1 * t / (τ * cs)) - -(σ * w0) = -(σ * (toR (Scalar.lit 1 1 * t / (τ * cs)) - w0)) by ring, abs_neg, abs_mul, sign_abs hσ, one_mul]
      exact ew5
  · refine ⟨fcs, fsn, c0, s0, hu, hd, ecs, ?_⟩
    have hσe : σ = if toR s < 0 then (-1 : ℝ) else 1 := by
      rcases lt_or_gt_of_ne hs00 with h | h
      · rw [if_pos h]
        rcases hσ with rfl | rfl
        · rw [abs_of_neg h] at hσ1; linarith
        · rfl
      · rw [if_neg (not_lt.2 h.le)]
        rcases hσ with rfl | rfl
        · rfl
        · rw [abs_of_pos h] at hσ1; linarith
    rw [vsn, neg_toR, hs0, ← hσe]
    rw [show σ * -toR (Scalar.lit 1 1 * t / (τ * cs)) - -w0 * σ = -(σ * (toR (Scalar.lit 1 1 * t / (τ * cs)) - w0)) by ring, abs_neg, abs_mul, sign_abs hσ, one_mul]
    exact ew5

end Verif
