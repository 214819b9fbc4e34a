import Verif.Lib.Lanv2F64e

/-!
# `dlanv2` on binary64: distinct real eigenvalues, the rotation
-/

namespace Verif
open F64 Scalar Spec

set_option maxHeartbeats 1000000 in
/-- The root added to `p`. -/
theorem root_ok {p s z0 : Float} {bc : ℝ} (fp : p.isFinite = true) (fs : s.isFinite = true) (fz : z0.isFinite = true)
    (hs : tiny ≤ toR s) (hB : toR s ≤ 2 * big) (hp : |toR p| ≤ 2 * big) (h0 : 1 / 2 ^ 52 ≤ toR z0)
    (hd : |toR s * toR z0 - (toR p ^ 2 + bc)| ≤ 6 * ur * (toR p ^ 2 + |bc|)) (hbc : |bc| ≤ big * big) (N0 : 0 < toR p ^ 2 + |bc|) :
    ∃ σ w t : ℝ, (σ = 1 ∨ σ = -1) ∧ σ * toR p = |toR p| ∧ 0 ≤ w ∧ |w ^ 2 - (toR p ^ 2 + bc)| ≤ 30 * ur * (toR p ^ 2 + |bc|) ∧
      |t - 1| ≤ ur ∧ (p + F64.copysign (Float.sqrt s * Float.sqrt z0) p).isFinite = true ∧
      toR (p + F64.copysign (Float.sqrt s * Float.sqrt z0) p) = (toR p + σ * w) * t := by
  have u0 := ur_pos
  have us := ur_small
  have t0 := tiny_pos
  have B1 := one_le_big
  have s0 := t0.trans_le hs
  have z00 : 0 < toR z0 := lt_of_lt_of_le (by positivity) h0
  obtain ⟨f1, n1, r1⟩ := sqrtF fs s0.le
  obtain ⟨f2, n2, r2⟩ := sqrtF fz z00.le
  set N := toR p ^ 2 + |bc| with hN
  have Ns : toR s * toR z0 ≤ 101 / 100 * N := by
    have h1 := (abs_le.1 hd).2
    have h2 : toR p ^ 2 + bc ≤ N := by rw [hN]; linarith [le_abs_self bc]
    have h3 : ur * N ≤ 1 / 1000000 * N := mul_le_mul_of_nonneg_right (by linarith) N0.le
    linarith
  have NB : N ≤ 5 * (big * big) := by
    have h1 : toR p ^ 2 ≤ (2 * big) ^ 2 := by rw [← sq_abs]; exact pow_le_pow_left₀ (abs_nonneg _) hp 2
    rw [hN]; nlinarith
  have sz : Real.sqrt (toR s) * Real.sqrt (toR z0) = Real.sqrt (toR s * toR z0) := (Real.sqrt_mul s0.le _).symm
  set R := Real.sqrt (toR s * toR z0) with hR
  have R2 : R ^ 2 = toR s * toR z0 := Real.sq_sqrt (by positivity)
  have R0 : 0 < R := Real.sqrt_pos.2 (by positivity)
  have RB : R ≤ 3 * big := by
    have : R ^ 2 ≤ (3 * big) ^ 2 := by rw [R2]; nlinarith
    exact (sq_le_sq₀ R0.le (by linarith)).1 this
  have rp := r1.mul r2 (by norm_num) (by norm_num) (by norm_num) (by norm_num)
  rw [sz] at rp
  have ap := rp.abs_le (by norm_num)
  have lp := rp.abs_ge (by norm_num)
  rw [abs_of_pos R0] at ap lp
  obtain ⟨fm, lm⟩ := mulF f1 f2 (by linarith)
  have Rl0 : (2 : ℝ) ^ (-1000 : ℤ) ≤ R := by
    have h1 : tiny = (2 : ℝ) ^ (-969 : ℤ) := by unfold tiny; exact (zpneg 969).symm
    have h2 : (1 : ℝ) / 2 ^ 52 = 2 ^ (-52 : ℤ) := (zpneg 52).symm
    rw [h1] at hs
    rw [h2] at h0
    rw [hR, ← z2sqrt]
    refine Real.sqrt_le_sqrt ?_
    have h3 := mul_le_mul hs h0 (zp _).le s0.le
    rw [z2] at h3
    exact (z2le (by norm_num)).trans h3
  have rm := lm.rl (by
    have h1 : (2 : ℝ) ^ (-1022 : ℤ) ≤ 999 / 1000 * 2 ^ (-1000 : ℤ) := by
      have e : (2 : ℝ) ^ (-1022 : ℤ) = 2 ^ (-22 : ℤ) * 2 ^ (-1000 : ℤ) := by rw [z2]; norm_num
      rw [e]
      refine mul_le_mul_of_nonneg_right ?_ (zp _).le
      norm_num
    have h2 := mul_le_mul_of_nonneg_left Rl0 (show (0 : ℝ) ≤ 999 / 1000 by norm_num)
    exact (h1.trans h2).trans lp)
  have rw' := (rm.trans rp (by norm_num) (by norm_num) (by norm_num) (by norm_num))
  set w := toR (s.sqrt * z0.sqrt) with hw
  have w0 : 0 ≤ w := rw'.nonneg (by norm_num) R0.le
  have wB : |w| ≤ 4 * big := by
    have := rw'.abs_le (by norm_num)
    rw [abs_of_pos R0] at this
    linarith
  obtain ⟨σ, hσ, hσp, fc, vc⟩ := copysign_fin fm fp
  rw [← hw, abs_of_nonneg w0] at vc
  obtain ⟨fz, t, ht, vz⟩ := addF fp fc (by
    rw [vc]
    refine (abs_add_le _ _).trans ?_
    rw [abs_mul, sign_abs hσ, one_mul]; linarith)
  refine ⟨σ, w, t, hσ, hσp, w0, ?_, by linarith, fz, by rw [vz, vc]⟩
  have r2w := (rw'.mul rw' (by norm_num) (by norm_num) (by norm_num) (by norm_num)).err
  rw [← sq, ← sq, R2, abs_of_nonneg (show 0 ≤ toR s * toR z0 by positivity)] at r2w
  have h1 := abs_sub_le (w ^ 2) (toR s * toR z0) (toR p ^ 2 + bc)
  have h2 := mul_le_mul_of_nonneg_left Ns u0.le
  have h3 : 0 ≤ ur * N := by positivity
  linarith

set_option maxHeartbeats 2000000 in
theorem real_ok {a b c d p m q s z0 : Float} {M : ℝ} (fa : a.isFinite = true) (fb : b.isFinite = true) (fc : c.isFinite = true)
    (fd : d.isFinite = true) (ha : |toR a| ≤ M) (hb : |toR b| ≤ M) (hc : |toR c| ≤ M) (hd : |toR d| ≤ M) (hM' : M ≤ big)
    (hb0 : toR b ≠ 0) (hc0 : tiny ≤ |toR c|)
    (fp : p.isFinite = true) (fm : m.isFinite = true) (fq : q.isFinite = true) (fs : s.isFinite = true) (fz : z0.isFinite = true)
    (hp : |2 * toR p - (toR a - toR d)| ≤ 5 * ur * M) (hm : toR m = max |toR b| |toR c|) (hq : |toR q| ≤ toR m)
    (hmq : toR m * toR q = toR b * toR c) (hs : toR s = max |toR p| (toR m)) (h0 : 1 / 2 ^ 52 ≤ toR z0)
    (hd0 : |toR s * toR z0 - (toR p ^ 2 + toR m * toR q)| ≤ 6 * ur * (toR p ^ 2 + |toR m * toR q|))
    (hN : toR s ≤ 2 ^ 53 * (toR p ^ 2 + |toR m * toR q|)) :
    Lanv2Ok 900 200 M (toR a) (toR b) (toR c) (toR d)
      (let z := p + F64.copysign (Float.sqrt s * Float.sqrt z0) p
       lanv2Out (d + z) (b - c) Scalar.zero (d - (m / z) * q) (z / dlapy2 c z) (c / dlapy2 c z)) := by
  have u0 := ur_pos
  have us := ur_small
  have t0 := tiny_pos
  have e0 := eta_pos
  have B1 := one_le_big
  have hM : tiny ≤ M := hc0.trans hc
  have M0 := t0.trans_le hM
  have uM : 0 < ur * M := by positivity
  have uM1 := ur_big hM' M0.le
  have eM := eta_M hM
  rw [hmq] at hd0 hN
  have pM : |toR p| ≤ 101 / 100 * M := by
    have h1 : |2 * toR p| ≤ |toR a - toR d| + |2 * toR p - (toR a - toR d)| := by
      calc |2 * toR p| = |(toR a - toR d) + (2 * toR p - (toR a - toR d))| := by ring_nf
        _ ≤ _ := abs_add_le _ _
    rw [abs_mul, abs_two] at h1
    have := abs_sub (toR a) (toR d)
    linarith
  have mM : toR m ≤ M := by rw [hm]; exact max_le hb hc
  have m0 : tiny ≤ toR m := by rw [hm]; exact hc0.trans (le_max_right _ _)
  have hms : toR m ≤ toR s := hs ▸ le_max_right _ _
  have sM : toR s ≤ 101 / 100 * M := by rw [hs]; exact max_le pM (by linarith)
  have bcM : |toR b * toR c| ≤ M * M := by rw [abs_mul]; exact mul_le_mul hb hc (abs_nonneg _) M0.le
  have bc0 : 0 < |toR b * toR c| := by rw [abs_mul]; exact mul_pos (abs_pos.2 hb0) (t0.trans_le hc0)
  have N0 : 0 < toR p ^ 2 + |toR b * toR c| := by
    have := sq_nonneg (toR p)
    linarith
  have MB : M * M ≤ big * big := mul_le_mul hM' hM' M0.le (by linarith)
  obtain ⟨σ, w, t, hσ, hσp, w0, hw2, ht, fz', vz⟩ := root_ok fp fs fz (m0.trans hms) (by linarith) (by linarith) h0 hd0 (by linarith) N0
  obtain ⟨hNz, hr, hzM, -⟩ := root_alg hσ hσp w0 rfl u0 us N0 hw2 vz ht (show 0 ≤ 101 / 100 * M by positivity) pM
    (bcM.trans (by rw [sq]; linarith [mul_pos M0 M0]))
  show Lanv2Ok 900 200 M _ _ _ _ (lanv2Out (d + (p + F64.copysign (Float.sqrt s * Float.sqrt z0) p)) (b - c) Scalar.zero
    (d - (m / (p + F64.copysign (Float.sqrt s * Float.sqrt z0) p)) * q)
    ((p + F64.copysign (Float.sqrt s * Float.sqrt z0) p) / dlapy2 c (p + F64.copysign (Float.sqrt s * Float.sqrt z0) p))
    (c / dlapy2 c (p + F64.copysign (Float.sqrt s * Float.sqrt z0) p)))
  generalize p + F64.copysign (Float.sqrt s * Float.sqrt z0) p = z at *
  set Z := toR z with hZ
  set b' := toR b with hb'
  set c' := toR c with hc'
  set P := toR p with hP
  set D := toR d with hD
  have Z2 : 0 < Z ^ 2 := by linarith
  have Z0 : Z ≠ 0 := by rintro h; rw [h] at Z2; norm_num at Z2
  have Za : 0 < |Z| := abs_pos.2 Z0
  have zM : |Z| ≤ 31 / 10 * M := by linarith
  -- the other root
  have bcz : |b' * c' / Z| ≤ 3 * |Z| := by
    rw [abs_div, div_le_iff₀ Za]
    have h1 := sq_nonneg P
    have h2 : 3 * |Z| * |Z| = 3 * Z ^ 2 := by rw [mul_assoc, ← sq, sq_abs]
    linarith
  have mz : |toR m / Z| ≤ 1024 * big := by
    have ma : |toR m| = toR m := abs_of_pos (t0.trans_le m0)
    rw [abs_div, ma, div_le_iff₀ Za]
    rcases le_total 1 |Z| with h | h
    · have : 1024 * big * 1 ≤ 1024 * big * |Z| := mul_le_mul_of_nonneg_left h (by linarith)
      linarith
    · have h1 : toR m ≤ 2 ^ 53 * (3 * Z ^ 2) := by
        have := mul_le_mul_of_nonneg_left hNz (show (0 : ℝ) ≤ 2 ^ 53 by positivity)
        linarith
      have h2 : Z ^ 2 ≤ 1 * |Z| := by rw [← sq_abs, sq]; exact mul_le_mul_of_nonneg_right h Za.le
      have h3 : (2 : ℝ) ^ 53 * 3 ≤ big := by
        unfold big
        calc (2 : ℝ) ^ 53 * 3 ≤ 2 ^ 53 * 2 ^ 2 := by norm_num
          _ = 2 ^ 55 := by rw [← pow_add]
          _ ≤ _ := pow_le_pow_right₀ (by norm_num) (by norm_num)
      have h4 := mul_le_mul_of_nonneg_right h3 Za.le
      have h5 : 0 ≤ big * |Z| := mul_nonneg (by linarith) Za.le
      have h6 : (2 : ℝ) ^ 53 * (3 * Z ^ 2) ≤ 2 ^ 53 * (3 * (1 * |Z|)) :=
        mul_le_mul_of_nonneg_left (mul_le_mul_of_nonneg_left h2 (by norm_num)) (by positivity)
      generalize (2 : ℝ) ^ 53 = k at *
      linarith
  obtain ⟨fk, ek⟩ := ratioF fm fz' fq Z0 (by rw [abs_of_pos (t0.trans_le m0)]; exact hq) (by linarith) mz (by rw [hmq]; linarith)
  rw [← hZ, hmq] at ek
  have ek' : |toR (m / z * q) - b' * c' / Z| ≤ 29 * ur * M := by
    have h1 : ur * |b' * c' / Z| ≤ ur * (93 / 10 * M) := mul_le_mul_of_nonneg_left (by linarith) u0.le
    linarith
  -- the norm
  obtain ⟨fτ, rτ, τ1, τ2⟩ := lapy2F fc fz' (by linarith) (by linarith) (Or.inl (by linarith))
  have hτsq : Real.sqrt (toR c ^ 2 + toR z ^ 2) ^ 2 = Z ^ 2 + c' ^ 2 := by
    rw [Real.sq_sqrt (by positivity), add_comm]
  set τ := Real.sqrt (toR c ^ 2 + toR z ^ 2) with hτ
  have τ0 : 0 < τ := by linarith
  have rot := real_rot (b := b') (c := c') (d := D) (P := P) Z0 τ0.ne' hτsq
  set r := Z ^ 2 - 2 * P * Z - b' * c' with hrr
  have t2 : 0 < τ ^ 2 := by positivity
  have zle : Z ^ 2 / τ ^ 2 ≤ 1 := by rw [div_le_one t2, hτsq]; linarith [sq_nonneg c']
  have rτ2 : |r| / τ ^ 2 ≤ 100 * ur := by
    have h1 : |r| / τ ^ 2 ≤ 100 * ur * Z ^ 2 / τ ^ 2 := div_le_div_of_nonneg_right hr t2.le
    have h2 : 100 * ur * Z ^ 2 / τ ^ 2 = 100 * ur * (Z ^ 2 / τ ^ 2) := by ring
    have h3 := mul_le_mul_of_nonneg_left zle (show 0 ≤ 100 * ur by positivity)
    linarith
  have small : ∀ {x B : ℝ}, |x| ≤ B → |x * r / τ ^ 2| ≤ B * (100 * ur) := by
    intro x B h
    rw [abs_div, abs_mul, abs_of_pos t2, mul_div_assoc]
    exact mul_le_mul h rτ2 (by positivity) ((abs_nonneg _).trans h)
  have s1 := small zM
  have s2 := small hc
  have s3 : |-(r / Z) + Z * r / τ ^ 2| ≤ 100 * ur * M := by
    have e : -(r / Z) + Z * r / τ ^ 2 = -(c' * (c' * (r / Z)) / τ ^ 2) := by
      field_simp
      rw [hτsq]; ring
    rw [e, abs_neg, abs_div, abs_of_pos t2, div_le_iff₀ t2, abs_mul, abs_mul, abs_div]
    have h1 : |r| / |Z| ≤ 100 * ur * |Z| := by
      rw [div_le_iff₀ Za, mul_assoc, ← sq, sq_abs]; exact hr
    have h2 : |c'| * (|r| / |Z|) ≤ |c'| * (100 * ur * |Z|) := mul_le_mul_of_nonneg_left h1 (abs_nonneg _)
    have h3 : |c'| * |Z| ≤ τ ^ 2 := by
      rw [hτsq, ← sq_abs Z, ← sq_abs c']
      nlinarith [sq_nonneg (|c'| - |Z|), sq_nonneg |c'|, sq_nonneg |Z|]
    have h4 : |c'| * (100 * ur * |Z|) ≤ 100 * ur * τ ^ 2 := by
      have := mul_le_mul_of_nonneg_left h3 (show 0 ≤ 100 * ur by positivity)
      linarith
    have h5 := mul_le_mul hc (h2.trans h4) (by positivity) M0.le
    linarith
  -- rounding of the results
  obtain ⟨fA, rA⟩ := addF fd fz' (show |D + Z| ≤ _ from (abs_add_le _ _).trans (by linarith))
  obtain ⟨fB, rB⟩ := subF fb fc (show |b' - c'| ≤ _ from (abs_sub _ _).trans (by linarith))
  have kM : |toR (m / z * q)| ≤ 10 * M := by
    have h1 : |toR (m / z * q)| ≤ |b' * c' / Z| + |toR (m / z * q) - b' * c' / Z| := by
      calc |toR (m / z * q)| = |b' * c' / Z + (toR (m / z * q) - b' * c' / Z)| := by ring_nf
        _ ≤ _ := abs_add_le _ _
    linarith
  obtain ⟨fD, rD⟩ := subF fd fk (show |D - toR (m / z * q)| ≤ _ from (abs_sub _ _).trans (by linarith))
  have aA : |D + Z| ≤ 5 * M := (abs_add_le _ _).trans (by linarith)
  have aB : |b' - c'| ≤ 2 * M := (abs_sub _ _).trans (by linarith)
  have aD : |D - toR (m / z * q)| ≤ 11 * M := (abs_sub _ _).trans (by linarith)
  have eA : |toR (d + z) - (D + Z)| ≤ 5 * ur * M := by
    have := rA.err
    have h := mul_le_mul_of_nonneg_left aA u0.le
    linarith
  have eB : |toR (b - c) - (b' - c')| ≤ 2 * ur * M := by
    have := rB.err
    have h := mul_le_mul_of_nonneg_left aB u0.le
    linarith
  have eD : |toR (d - m / z * q) - (D - toR (m / z * q))| ≤ 11 * ur * M := by
    have := rD.err
    have h := mul_le_mul_of_nonneg_left aD u0.le
    linarith
  have rq : ∀ {x : Float}, x.isFinite = true → |toR x| ≤ τ → (x / dlapy2 c z).isFinite = true ∧ |toR (x / dlapy2 c z) - toR x / τ| ≤ 40 * ur := by
    intro x fx hx
    have hT := rτ.abs_ge (by norm_num)
    rw [abs_of_pos τ0] at hT
    have T0 : toR (dlapy2 c z) ≠ 0 := by
      intro h; rw [h, abs_zero] at hT; linarith
    have r1 := (Rl.refl (toR x)).div rτ (by norm_num) (by norm_num) (by norm_num) (by norm_num)
    have q1 : |toR x / τ| ≤ 1 := by rw [abs_div, abs_of_pos τ0, div_le_one τ0]; exact hx
    have q2 := r1.abs_le (by norm_num)
    have q3 := r1.err
    obtain ⟨f, l⟩ := divF fx fτ T0 (by linarith)
    refine ⟨f, ?_⟩
    have q4 := l.abs1 (show |toR x / toR (dlapy2 c z)| ≤ 2 by linarith)
    have q5 := abs_sub_le (toR (x / dlapy2 c z)) (toR x / toR (dlapy2 c z)) (toR x / τ)
    have q6 := mul_le_mul_of_nonneg_left q1 u0.le
    have := eta_ur
    linarith
  have zτ : |Z| ≤ τ := abs_le_of_sq_le_sq (by rw [hτsq]; linarith [sq_nonneg c']) τ0.le
  have cτ : |c'| ≤ τ := abs_le_of_sq_le_sq (by rw [hτsq]; linarith [sq_nonneg Z]) τ0.le
  obtain ⟨fcs, ecs⟩ := rq fz' zτ
  obtain ⟨fsn, esn⟩ := rq fc cτ
  obtain ⟨fO, vO⟩ := toR_zero
  have bk0 : Bk ur 5 0 M (toR a) b' c' D (Z / τ) (c' / τ) (D + Z - Z * r / τ ^ 2) (b' - c' + c' * r / τ ^ 2) (c' * r / τ ^ 2)
      (D - b' * c' / Z - r / Z + Z * r / τ ^ 2) := by
    refine ⟨Z / τ, c' / τ, D + 2 * P - toR a, 0, 0, 0, by simp, by simp, ?_, ?_, ?_, ?_, ?_⟩
    · rw [show D + 2 * P - toR a = 2 * P - (toR a - D) by ring]; exact hp
    · rw [abs_zero]; positivity
    · rw [abs_zero]; positivity
    · rw [abs_zero]; positivity
    · rw [show toR a + (D + 2 * P - toR a) = D + 2 * P by ring, add_zero, add_zero, add_zero]; exact rot
  have bk : Bk ur (5 + 2 * 400) (0 + 40) M (toR a) b' c' D (toR (z / dlapy2 c z)) (toR (c / dlapy2 c z)) (toR (d + z)) (toR (b - c))
      (toR (Scalar.zero : Float)) (toR (d - m / z * q)) := by
    refine bk0.perturb ecs esn ?_ ?_ ?_ ?_
    · rw [show toR (d + z) - (D + Z - Z * r / τ ^ 2) = (toR (d + z) - (D + Z)) + Z * r / τ ^ 2 by ring]
      exact (abs_add_le _ _).trans (by linarith)
    · rw [show toR (b - c) - (b' - c' + c' * r / τ ^ 2) = (toR (b - c) - (b' - c')) - c' * r / τ ^ 2 by ring]
      exact (abs_sub _ _).trans (by linarith)
    · rw [vO, zero_sub, abs_neg]; linarith
    · rw [show toR (d - m / z * q) - (D - b' * c' / Z - r / Z + Z * r / τ ^ 2) =
        (toR (d - m / z * q) - (D - toR (m / z * q))) - (toR (m / z * q) - b' * c' / Z) - (-(r / Z) + Z * r / τ ^ 2) by ring]
      refine (abs_sub _ _).trans ?_
      have := abs_sub (toR (d - m / z * q) - (D - toR (m / z * q))) (toR (m / z * q) - b' * c' / Z)
      linarith
  exact lanv2Out_ok fA fB fO fD fcs fsn (Or.inl vO) (bk.mono u0.le M0.le (by norm_num) (by norm_num)) M0.le (fun h => absurd vO h)

end Verif
