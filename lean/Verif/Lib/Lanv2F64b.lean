import Verif.Lib.Lanv2F64

/-!
# `dlanv2` on binary64: the two branches
-/

namespace Verif
open F64 Scalar Spec

/-! ### After the diagonal has been made equal -/

theorem equal_rot {t b c s : ℝ} (hs : s = 1 ∨ s = -1) (hb : s * b = |b|) (hc : s * c = |c|) (hb0 : b ≠ 0) (h : ℝ)
    (hh : h = Real.sqrt |b + c|) :
    0 < h ∧ Real.sqrt |b| / h ≤ 1 ∧ Real.sqrt |c| / h ≤ 1 ∧
    Rotated t b c t (Real.sqrt |b| / h) (Real.sqrt |c| / h) (t + s * Real.sqrt |b| * Real.sqrt |c|) (b - c) 0
      (t - s * Real.sqrt |b| * Real.sqrt |c|) := by
  have hbc : |b + c| = |b| + |c| := by
    rw [← hb, ← hc, ← mul_add]
    have : |b + c| = |s * (b + c)| := by rw [abs_mul, sign_abs hs, one_mul]
    rw [this, abs_of_nonneg]
    rw [mul_add, hb, hc]; positivity
  have hpos : 0 < |b + c| := by rw [hbc]; have := abs_pos.2 hb0; have := abs_nonneg c; linarith
  have h0 : 0 < h := hh ▸ Real.sqrt_pos.2 hpos
  set β := Real.sqrt |b| with hβ
  set γ := Real.sqrt |c| with hγ
  have b2 : β ^ 2 = |b| := Real.sq_sqrt (abs_nonneg _)
  have c2 : γ ^ 2 = |c| := Real.sq_sqrt (abs_nonneg _)
  have s2 : h ^ 2 = β ^ 2 + γ ^ 2 := by rw [b2, c2, ← hbc, hh]; exact Real.sq_sqrt (abs_nonneg _)
  have hqb : b = s * β ^ 2 := by rw [b2, ← hb]; rcases hs with rfl | rfl <;> ring
  have hqc : c = s * γ ^ 2 := by rw [c2, ← hc]; rcases hs with rfl | rfl <;> ring
  have hu : (β / h) ^ 2 + (γ / h) ^ 2 = 1 := by rw [div_pow, div_pow, ← add_div, ← s2, div_self (pow_ne_zero 2 h0.ne')]
  obtain ⟨u1, u2, -, -⟩ := unit_le hu
  refine ⟨h0, (le_abs_self _).trans u1, (le_abs_self _).trans u2, ?_⟩
  rw [rotated_iff]
  have hn := h0.ne'
  have hi : h ^ 2 * (1 / h) ^ 2 = 1 := by field_simp
  have d1 : β / h = β * (1 / h) := by ring
  have d2 : γ / h = γ * (1 / h) := by ring
  refine ⟨hu, ?_, ?_, ?_, ?_⟩
  · rw [hqc, hqb]; linear_combination (-t) * hu
  · rw [hqc, hqb]; linear_combination (-(s * β ^ 2)) * hu
  · rw [hqc, hqb]; linear_combination (-(s * γ ^ 2)) * hu
  · rw [hqc, hqb]; linear_combination (-t) * hu

/-- Multiplying with a computed sign is exact. -/
theorem sign_mul {g x : Float} {s : ℝ} (hs : s = 1 ∨ s = -1) (fg : g.isFinite = true) (vg : toR g = s) (fx : x.isFinite = true) :
    (g * x).isFinite = true ∧ toR (g * x) = s * toR x := by
  have hr := mul_rounds g x fg fx
  rw [vg] at hr
  refine hr.exact ?_ ?_
  · rw [abs_mul, sign_abs hs, one_mul]; exact abs_toR_lt _
  · rcases hs with rfl | rfl
    · rw [one_mul]; exact grid_toR _
    · rw [neg_one_mul]; exact (grid_toR _).neg

theorem mul_sign {g x : Float} {s : ℝ} (hs : s = 1 ∨ s = -1) (fg : g.isFinite = true) (vg : toR g = s) (fx : x.isFinite = true) :
    (x * g).isFinite = true ∧ toR (x * g) = s * toR x := by
  have hr := mul_rounds x g fx fg
  rw [vg, mul_comm (toR x)] at hr
  refine hr.exact ?_ ?_
  · rw [abs_mul, sign_abs hs, one_mul]; exact abs_toR_lt _
  · rcases hs with rfl | rfl
    · rw [one_mul]; exact grid_toR _
    · rw [neg_one_mul]; exact (grid_toR _).neg

/-- Composing two computed rotations. -/
theorem compose_err {p q : Float} {P Q : ℝ} (fp : p.isFinite = true) (fq : q.isFinite = true) (hp : |toR p| ≤ 2) (hQ : |Q| ≤ 1)
    (hPQ : P = toR p * Q) (hq : |toR q - Q| ≤ 15 * ur) : (p * q).isFinite = true ∧ |toR (p * q) - P| ≤ 34 * ur ∧ |P| ≤ 2 := by
  have u0 := ur_pos
  have us := ur_small
  have e0 := eta_ur
  have hB := one_le_big
  have q1 : |toR q| ≤ 11 / 10 := by
    have : |toR q| ≤ |Q| + |toR q - Q| := by
      calc |toR q| = |Q + (toR q - Q)| := by ring_nf
        _ ≤ _ := abs_add_le _ _
    linarith
  have pq : |toR p * toR q| ≤ 3 := by
    rw [abs_mul]
    calc _ ≤ 2 * (11 / 10) := mul_le_mul hp q1 (abs_nonneg _) (by norm_num)
      _ ≤ _ := by norm_num
  obtain ⟨hf, hfl⟩ := mulF fp fq (by linarith)
  have e1 := hfl.abs1 pq
  refine ⟨hf, ?_, ?_⟩
  · have e2 : |toR p * toR q - P| ≤ 2 * (15 * ur) := by
      rw [hPQ, ← mul_sub, abs_mul]
      exact mul_le_mul hp hq (abs_nonneg _) (by norm_num)
    have := abs_sub_le (toR (p * q)) (toR p * toR q) P
    linarith
  · rw [hPQ, abs_mul]
    calc _ ≤ 2 * 1 := mul_le_mul hp hQ (abs_nonneg _) (by norm_num)
      _ ≤ _ := by norm_num

theorem lanv2Finish_ok {K L M A B C D : ℝ} {t b c cs sn : Float} (ft : t.isFinite = true) (fb : b.isFinite = true)
    (fc : c.isFinite = true) (fcs : cs.isFinite = true) (fsn : sn.isFinite = true)
    (back : Bk ur K L M A B C D (toR cs) (toR sn) (toR t) (toR b) (toR c) (toR t)) (hM : tiny ≤ M) (hM' : M ≤ big) (hL : 0 ≤ L)
    (ht : |toR t| ≤ 3 * M) (hb : |toR b| ≤ 3 * M) (hc : |toR c| ≤ 3 * M) (hcs : |toR cs| ≤ 2) (hsn : |toR sn| ≤ 2) :
    Lanv2Ok (K + 100) (2 * L + 100) M A B C D (lanv2Finish t b c cs sn) := by
  have M0 := tiny_pos.trans_le hM
  have u0 := ur_pos
  have us := ur_small
  have B1 := one_le_big
  obtain ⟨fz, vz⟩ := toR_zero
  have back' := back.mono (K' := K + 100) (L' := 2 * L + 100) u0.le M0.le (by linarith) (by linarith)
  unfold lanv2Finish
  rw [beqF fc fz, beqF fb fz, vz]
  by_cases hc0 : toR c = 0
  · simp only [hc0, decide_true, Bool.not_true, Bool.false_eq_true, if_false]
    exact lanv2Out_ok ft fb fc ft fcs fsn (Or.inl hc0) back' M0.le (fun h => absurd hc0 h)
  simp only [hc0, decide_false, Bool.not_false, if_true]
  by_cases hb0 : toR b = 0
  · simp only [hb0, decide_true, Bool.not_true, Bool.false_eq_true, if_false]
    have h1 : Rotated (toR t) (toR b) (toR c) (toR t) 0 1 (toR t) (-toR c) 0 (toR t) := by
      rw [rotated_iff, hb0]; refine ⟨by norm_num, ?_, ?_, ?_, ?_⟩ <;> ring
    have h2 := (back.rotate h1).mono (K' := K + 100) (L' := 2 * L + 100) u0.le M0.le (by linarith) (by linarith)
    simp only [mul_zero, mul_one, zero_sub, add_zero] at h2
    refine lanv2Out_ok ft (by rw [neg_finite]; exact fc) fz ft (by rw [neg_finite]; exact fsn) fcs (Or.inl vz) ?_ M0.le (fun h => absurd vz h)
    rw [neg_toR, neg_toR, vz]
    exact h2
  simp only [hb0, decide_false, Bool.not_false, if_true]
  obtain ⟨sb, hsb, hsb1, fsb, vsb⟩ := signum_fin fb
  obtain ⟨s, hs, hs1, fs, vs⟩ := signum_fin fc
  have hbe : (Scalar.signum b =ᶠ Scalar.signum c) = decide (sb = s) := by
    show ((F64.signum b) =ᶠ (F64.signum c)) = _
    rw [beqF fsb fs, vsb, vs]
  rw [hbe]
  by_cases hss : sb = s
  · subst hss
    simp only [decide_true, if_true]
    -- the square roots
    obtain ⟨f1, n1, r1⟩ := sqrtF (x := b.abs) (abs_fin fb) (by rw [abs_toR]; exact abs_nonneg _)
    obtain ⟨f2, n2, r2⟩ := sqrtF (x := c.abs) (abs_fin fc) (by rw [abs_toR]; exact abs_nonneg _)
    rw [abs_toR] at r1 r2
    obtain ⟨h0, hβ, hγ, hrot⟩ := equal_rot (t := toR t) hsb hsb1 hs1 hb0 _ rfl
    have bc6 : |toR b + toR c| ≤ 6 * M := (abs_add_le _ _).trans (by linarith)
    obtain ⟨f3, r3⟩ := addF fb fc (by linarith [big_pos])
    obtain ⟨f4, n4, r4⟩ := sqrtF (x := (b + c).abs) (abs_fin f3) (by rw [abs_toR]; exact abs_nonneg _)
    rw [abs_toR] at r4
    have r5 := r4.trans ((r3.abs (by norm_num)).sqrt (by norm_num)) (by norm_num) (by norm_num) (by norm_num) (by norm_num)
    set h := Real.sqrt |toR b + toR c| with hh
    set β := Real.sqrt |toR b| with hβd
    set γ := Real.sqrt |toR c| with hγd
    have β0 : 0 ≤ β := Real.sqrt_nonneg _
    have γ0 : 0 ≤ γ := Real.sqrt_nonneg _
    -- `tau`
    have gh : (2 : ℝ) ^ (-537 : ℤ) ≤ h := by
      have : β ≤ h := by rwa [div_le_one h0] at hβ
      exact (sqrt_ge_eta (abs_ge_min hb0)).trans this
    have h6 : h ≤ 3 * big := by
      have e : h * h ≤ 3 * big * (3 * big) := by
        rw [hh, Real.mul_self_sqrt (abs_nonneg _)]
        nlinarith [big_pos]
      exact abs_le_of_sq_le_sq' (by rw [sq, sq]; exact e) (by linarith) |>.2
    have r6 := (Rl.refl 1).div r5 (by norm_num) (by norm_num) (by norm_num) (by norm_num)
    have hge := r5.abs_ge (by norm_num)
    rw [abs_of_pos h0] at hge
    have f4ne : toR (b + c).abs.sqrt ≠ 0 := by
      intro h'; rw [h', abs_zero] at hge; linarith
    have inv1 : |1 / h| ≤ big := by
      rw [abs_of_pos (by positivity), div_le_iff₀ h0]
      calc (1 : ℝ) = 2 ^ (537 : ℤ) * 2 ^ (-537 : ℤ) := by rw [z2]; norm_num
        _ ≤ big * h := by
          refine mul_le_mul ?_ gh (zp _).le big_pos.le
          unfold big; rw [← zpow_natCast]; exact z2le (by norm_num)
    have inv2 := r6.abs_le (by norm_num)
    have oneF : toR (Scalar.one : Float) = 1 := toR_one'.2
    obtain ⟨f5, fl5⟩ := divF toR_one'.1 f4 f4ne (by rw [oneF]; linarith [big_pos])
    rw [oneF] at fl5
    have inv3 : (2 : ℝ) ^ (-1022 : ℤ) ≤ |1 / toR (b + c).abs.sqrt| := by
      have := r6.abs_ge (by norm_num)
      refine le_trans ?_ this
      have : (1 : ℝ) / (3 * big) ≤ |1 / h| := by
        rw [abs_of_pos (by positivity)]
        exact one_div_le_one_div_of_le h0 h6
      have h7 : (2 : ℝ) ^ (-1022 : ℤ) ≤ 1 / 4 * (1 / big) := by
        unfold big
        rw [show (2 : ℝ) ^ (-1022 : ℤ) = 1 / 2 ^ (1022 : ℕ) from by rw [zpow_neg, one_div]; norm_cast, show (1 : ℝ) / 4 = 1 / 2 ^ 2 by norm_num,
          one_div_mul_one_div, ← pow_add]
        exact one_div_le_one_div_of_le (by positivity) (pow_le_pow_right₀ (by norm_num) (by norm_num))
      have h8 : (1 : ℝ) / (3 * big) = 1 / 3 * (1 / big) := by rw [one_div_mul_one_div]
      have : 0 < 1 / big := by have := big_pos; positivity
      generalize (2 : ℝ) ^ (-1022 : ℤ) = w at *
      linarith
    have r7 := (fl5.rl inv3).trans r6 (by norm_num) (by norm_num) (by norm_num) (by norm_num)
    set τ := (Scalar.one : Float) / (b + c).abs.sqrt with hτ
    -- the second rotation
    have rot1 : ∀ {x : Float} {ξ : ℝ}, x.isFinite = true → Rl 1 (toR x) ξ → 0 ≤ ξ → ξ / h ≤ 1 →
        (x * τ).isFinite = true ∧ |toR (x * τ) - ξ / h| ≤ 15 * ur := by
      intro x ξ fx rx hx0 hx1
      have r8 := rx.mul r7 (by norm_num) (by norm_num) (by norm_num) (by norm_num)
      rw [mul_one_div] at r8
      have a8 : |ξ / h| ≤ 1 := by rwa [abs_of_nonneg (by positivity)]
      have a9 := r8.abs_le (by norm_num)
      obtain ⟨f8, fl8⟩ := mulF fx f5 (by linarith)
      have e8 := fl8.abs1 (show |toR x * toR τ| ≤ 11 / 10 by linarith)
      have e9 := r8.err
      have := abs_sub_le (toR (x * τ)) (toR x * toR τ) (ξ / h)
      have e10 : (1 + (1 + (0 + (1 + 1 + 1) + 2) + 1) + 1) * ur * |ξ / h| ≤ 10 * ur * 1 :=
        (mul_le_mul_of_nonneg_left a8 (by positivity)).trans (by linarith)
      have := eta_ur
      refine ⟨f8, by linarith⟩
    obtain ⟨fc1, ec1⟩ := rot1 f1 r1 β0 hβ
    obtain ⟨fs1, es1⟩ := rot1 f2 r2 γ0 hγ
    have aβ : |β / h| ≤ 1 := by rwa [abs_of_nonneg (by positivity)]
    have aγ : |γ / h| ≤ 1 := by rwa [abs_of_nonneg (by positivity)]
    obtain ⟨k1, k1', k1''⟩ := compose_err fcs fc1 hcs aβ rfl ec1
    obtain ⟨k2, k2', k2''⟩ := compose_err fsn fs1 hsn aγ rfl es1
    obtain ⟨k3, k3', k3''⟩ := compose_err fcs fs1 hcs aγ rfl es1
    obtain ⟨k4, k4', k4''⟩ := compose_err fsn fc1 hsn aβ rfl ec1
    have fin_add : ∀ {x y : Float} {X Y : ℝ}, x.isFinite = true → y.isFinite = true → |toR x - X| ≤ 34 * ur → |X| ≤ 2 →
        |toR y - Y| ≤ 34 * ur → |Y| ≤ 2 → (x + y).isFinite = true ∧ |toR (x + y) - (X + Y)| ≤ 80 * ur ∧
          (x - y).isFinite = true ∧ |toR (x - y) - (X - Y)| ≤ 80 * ur := by
      intro x y X Y fx fy ex hX ey hY
      have ax : |toR x + toR y - (X + Y)| ≤ 68 * ur := by
        rw [show toR x + toR y - (X + Y) = (toR x - X) + (toR y - Y) by ring]
        exact (abs_add_le _ _).trans (by linarith)
      have ay : |toR x - toR y - (X - Y)| ≤ 68 * ur := by
        rw [show toR x - toR y - (X - Y) = (toR x - X) - (toR y - Y) by ring]
        exact (abs_sub _ _).trans (by linarith)
      have bx : |toR x + toR y| ≤ 5 := by
        have : |toR x + toR y| ≤ |X + Y| + |toR x + toR y - (X + Y)| := by
          calc |toR x + toR y| = |X + Y + (toR x + toR y - (X + Y))| := by ring_nf
            _ ≤ _ := abs_add_le _ _
        have := abs_add_le X Y
        linarith
      have bly : |toR x - toR y| ≤ 5 := by
        have : |toR x - toR y| ≤ |X - Y| + |toR x - toR y - (X - Y)| := by
          calc |toR x - toR y| = |X - Y + (toR x - toR y - (X - Y))| := by ring_nf
            _ ≤ _ := abs_add_le _ _
        have := abs_sub X Y
        linarith
      obtain ⟨q1, q2⟩ := addF fx fy (by linarith)
      obtain ⟨q3, q4⟩ := subF fx fy (by linarith)
      have := abs_sub_le (toR (x + y)) (toR x + toR y) (X + Y)
      have := abs_sub_le (toR (x - y)) (toR x - toR y) (X - Y)
      have := q2.err
      have := q4.err
      have : 1 * ur * |toR x + toR y| ≤ 1 * ur * 5 := mul_le_mul_of_nonneg_left bx (by positivity)
      have : 1 * ur * |toR x - toR y| ≤ 1 * ur * 5 := mul_le_mul_of_nonneg_left bly (by positivity)
      exact ⟨q1, by linarith, q3, by linarith⟩
    obtain ⟨-, -, g1, g1'⟩ := fin_add k1 k2 k1' k1'' k2' k2''
    obtain ⟨g2, g2', -, -⟩ := fin_add k3 k4 k3' k3'' k4' k4''
    -- the eigenvalues
    obtain ⟨fp1, vp1⟩ := sign_mul hsb fs vs f1
    have rp := r1.mul r2 (by norm_num) (by norm_num) (by norm_num) (by norm_num)
    have βγ : β * γ ≤ 3 * M := by
      rw [hβd, hγd, ← Real.sqrt_mul (abs_nonneg _)]
      rw [show 3 * M = Real.sqrt ((3 * M) * (3 * M)) by rw [Real.sqrt_mul_self (by positivity)]]
      exact Real.sqrt_le_sqrt (mul_le_mul hb hc (abs_nonneg _) (by positivity))
    have rpa := rp.abs_le (by norm_num)
    rw [abs_of_nonneg (mul_nonneg β0 γ0)] at rpa
    have ap : |toR (F64.signum c * b.abs.sqrt) * toR c.abs.sqrt| ≤ 301 / 100 * M := by
      rw [vp1, mul_assoc, abs_mul, sign_abs hsb, one_mul]; linarith
    obtain ⟨fp2, flp2⟩ := mulF fp1 f2 (by linarith [big_pos])
    have ep1 := flp2.abs1 ap
    have ep2 := rp.err
    rw [abs_of_nonneg (mul_nonneg β0 γ0)] at ep2
    have uM : 0 < ur * M := by positivity
    have eM := eta_M hM
    have epp : |toR (F64.signum c * b.abs.sqrt * c.abs.sqrt) - sb * β * γ| ≤ 13 * ur * M := by
      have h1 := abs_sub_le (toR (F64.signum c * b.abs.sqrt * c.abs.sqrt)) (toR (F64.signum c * b.abs.sqrt) * toR c.abs.sqrt) (sb * β * γ)
      have h2 : |toR (F64.signum c * b.abs.sqrt) * toR c.abs.sqrt - sb * β * γ| = |toR b.abs.sqrt * toR c.abs.sqrt - β * γ| := by
        rw [vp1, mul_assoc, mul_assoc, ← mul_sub, abs_mul, sign_abs hsb, one_mul]
      have h3 : (1 + 1 + 1) * ur * (β * γ) ≤ (1 + 1 + 1) * ur * (3 * M) := mul_le_mul_of_nonneg_left βγ (by positivity)
      linarith
    have sbγ : |sb * β * γ| ≤ 3 * M := by
      rw [mul_assoc, abs_mul, sign_abs hsb, one_mul, abs_of_nonneg (mul_nonneg β0 γ0)]; exact βγ
    have e0 : |toR t - toR t| ≤ 13 * ur * M := by rw [sub_self, abs_zero]; positivity
    obtain ⟨fa', ea'⟩ := sumF (ν := 6) ft fp2 e0 epp ((abs_add_le _ _).trans (by linarith)) (by norm_num) (by norm_num) (by norm_num) (by norm_num) hM hM'
    have epn : |toR (-(F64.signum c * b.abs.sqrt * c.abs.sqrt)) - -(sb * β * γ)| ≤ 13 * ur * M := by
      rw [neg_toR, show ∀ x y : ℝ, -x - -y = -(x - y) by intros; ring, abs_neg]; exact epp
    obtain ⟨fd', rd'⟩ := subF ft fp2 (by
      have : |toR (F64.signum c * b.abs.sqrt * c.abs.sqrt)| ≤ 4 * M := by
        have : |toR (F64.signum c * b.abs.sqrt * c.abs.sqrt)| ≤ |sb * β * γ| + |toR (F64.signum c * b.abs.sqrt * c.abs.sqrt) - sb * β * γ| := by
          calc |toR (F64.signum c * b.abs.sqrt * c.abs.sqrt)| = |sb * β * γ + (toR (F64.signum c * b.abs.sqrt * c.abs.sqrt) - sb * β * γ)| := by ring_nf
            _ ≤ _ := abs_add_le _ _
        have := ur_big hM' M0.le
        linarith
      exact (abs_sub _ _).trans (by linarith [big_pos]))
    have ed' : |toR (t - F64.signum c * b.abs.sqrt * c.abs.sqrt) - (toR t - sb * β * γ)| ≤ 35 * ur * M := by
      have h1 := rd'.err
      have h2 : |toR t - toR (F64.signum c * b.abs.sqrt * c.abs.sqrt) - (toR t - sb * β * γ)| ≤ 13 * ur * M := by
        rw [show ∀ x y z : ℝ, x - y - (x - z) = -(y - z) by intros; ring, abs_neg]; exact epp
      have h3 : |toR t - toR (F64.signum c * b.abs.sqrt * c.abs.sqrt)| ≤ 7 * M := by
        have : |toR t - toR (F64.signum c * b.abs.sqrt * c.abs.sqrt)| ≤ |toR t - sb * β * γ| + |toR t - toR (F64.signum c * b.abs.sqrt * c.abs.sqrt) - (toR t - sb * β * γ)| := by
          calc |toR t - toR (F64.signum c * b.abs.sqrt * c.abs.sqrt)| = |toR t - sb * β * γ + (toR t - toR (F64.signum c * b.abs.sqrt * c.abs.sqrt) - (toR t - sb * β * γ))| := by ring_nf
            _ ≤ _ := abs_add_le _ _
        have := abs_sub (toR t) (sb * β * γ)
        have := ur_big hM' M0.le
        linarith
      have h4 : 1 * ur * |toR t - toR (F64.signum c * b.abs.sqrt * c.abs.sqrt)| ≤ 1 * ur * (7 * M) := mul_le_mul_of_nonneg_left h3 (by positivity)
      have := abs_sub_le (toR (t - F64.signum c * b.abs.sqrt * c.abs.sqrt)) (toR t - toR (F64.signum c * b.abs.sqrt * c.abs.sqrt)) (toR t - sb * β * γ)
      linarith
    have bc6' : |toR b - toR c| ≤ 6 * M := (abs_sub _ _).trans (by linarith)
    obtain ⟨fb', rb'⟩ := subF fb fc (by linarith [big_pos])
    have eb' : |toR (b - c) - (toR b - toR c)| ≤ 35 * ur * M := by
      have h1 := rb'.err
      have : 1 * ur * |toR b - toR c| ≤ 1 * ur * (6 * M) := mul_le_mul_of_nonneg_left bc6' (by positivity)
      linarith
    have ec' : |toR (Scalar.zero : Float) - 0| ≤ 35 * ur * M := by rw [vz, sub_zero, abs_zero]; positivity
    have ea'' : |toR (t + F64.signum c * b.abs.sqrt * c.abs.sqrt) - (toR t + sb * β * γ)| ≤ 35 * ur * M := by linarith
    have bk := (back.rotate hrot).perturb g1' g2' ea'' eb' ec' ed'
    have bk' := bk.mono (K' := K + 100) (L' := 2 * L + 100) u0.le M0.le (by linarith) (by linarith)
    exact lanv2Out_ok fa' fb' fz fd' g1 g2 (Or.inl vz) bk' M0.le (fun h => absurd vz h)
  · simp only [hss, decide_false, Bool.false_eq_true, if_false]
    refine lanv2Out_ok ft fb fc ft fcs fsn (Or.inr ⟨rfl, ?_⟩) back' M0.le (fun _ => ⟨hM, hM', hb, hc⟩)
    have hsn : s = -sb := by
      rcases hs with rfl | rfl <;> rcases hsb with rfl | rfl <;> first | rfl | exact absurd rfl hss | norm_num
    have h1 : sb * sb = 1 := sign_sq hsb
    have h2 : toR b * toR c = -(|toR b| * |toR c|) := by
      rw [← hsb1, ← hs1, hsn]
      linear_combination (-(toR b * toR c)) * h1
    rw [h2]
    have := mul_pos (abs_pos.2 hb0) (abs_pos.2 hc0)
    linarith

end Verif
