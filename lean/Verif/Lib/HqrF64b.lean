import Verif.Lib.HqrF64a

/-!
# `dlarfg` on two or three elements on binary64
-/

namespace Verif
open F64 Scalar Spec Matrix

theorem sq_big {w : ℝ} (hw : |w| ≤ big) : w ^ 2 ≤ 2 ^ (2000 : ℤ) := by
  have : big = (2 : ℝ) ^ (1000 : ℤ) := by unfold big; rw [← zpow_natCast]; norm_num
  rw [this] at hw
  rw [← sq_abs, show (2000 : ℤ) = 1000 + 1000 by norm_num, ← z2sq]
  exact pow_le_pow_left₀ (abs_nonneg _) hw 2

theorem sqrt_big {s : ℝ} (hs : s ≤ 3 * 2 ^ (2000 : ℤ)) : Real.sqrt s ≤ 2 ^ (1020 : ℤ) := by
  refine Real.sqrt_le_iff.2 ⟨(zp _).le, hs.trans ?_⟩
  rw [z2sq, show (1020 : ℤ) + 1020 = 40 + 2000 by norm_num, ← z2]
  have := zp 2000
  have h : (3 : ℝ) ≤ 2 ^ (40 : ℤ) := by norm_num
  exact mul_le_mul_of_nonneg_right h this.le

/-- The accurate case. -/
theorem headF_of_maps {a b c : ℝ} {beta : Float} {β V2 V3 T : ℝ} (h : Maps a b c β V2 V3 T) (fb : beta.isFinite = true)
    (eb : |toR beta - β| ≤ 66 * ur * |β| + eta) : HeadF a b c beta β V2 V3 T := by
  have hn := h.norm
  refine ⟨h.refl, h.t0, fb, ?_, h.e1, by rw [h.e2, abs_zero]; exact mu_pos.le, by rw [h.e3, abs_zero]; exact mu_pos.le, ?_, ?_, Or.inr ⟨?_, ?_, ?_⟩⟩
  · have : 0 ≤ ur * |β| := mul_nonneg ur_pos.le (abs_nonneg _)
    linarith
  · rw [← abs_mul, h.b, abs_neg]
  · rw [← abs_mul, h.c, abs_neg]
  · exact sq_le_sq.1 (by rw [hn]; nlinarith [sq_nonneg b, sq_nonneg c])
  · exact sq_le_sq.1 (by rw [hn]; nlinarith [sq_nonneg a, sq_nonneg c])
  · exact sq_le_sq.1 (by rw [hn]; nlinarith [sq_nonneg b, sq_nonneg a])

/-- The case in which nothing is done. -/
theorem headF_triv {a : Float} {b c : ℝ} (fa : a.isFinite = true) (hb : |b| ≤ mu) (hc : |c| ≤ mu) : HeadF (toR a) b c a (toR a) 0 0 0 := by
  refine ⟨by simp [Refl], le_refl _, fa, ?_, by simp, by simpa, by simpa, by simp, by simp, Or.inl rfl⟩
  rw [sub_self, abs_zero]
  have : 0 ≤ ur * |toR a| := mul_nonneg ur_pos.le (abs_nonneg _)
  linarith [eta_pos]

theorem nearV_small {v : Float} (fv : v.isFinite = true) (hv : |toR v| ≤ mu) : NearV v 0 := by
  refine ⟨fv, ?_, by rw [abs_zero]; norm_num⟩
  rw [sub_zero]
  refine hv.trans ?_
  have : mu ≤ ur := by
    unfold mu ur
    exact one_div_le_one_div_of_le (by positivity) (pow_le_pow_right₀ (by norm_num) (by norm_num))
  linarith [ur_pos]

theorem toR_zero0 : (0 : Float).isFinite = true ∧ toR 0 = 0 := toR_zero

theorem nearT_zero {v : Float} (fv : v.isFinite = true) : NearT (0 * v) (0 * 0) := by
  obtain ⟨h1, h2⟩ := mul_zeroF toR_zero0.1 fv (Or.inl toR_zero0.2)
  exact ⟨h1, by rw [h2]; simp; exact ur_pos.le, by simp⟩

theorem nearT_zero' : NearT 0 0 := ⟨toR_zero0.1, by rw [toR_zero0.2]; simp; exact ur_pos.le, by simp⟩

theorem small_of_sqrt {b s : ℝ} {m : Nat} (hm : m ≤ 2) (hb : b ^ 2 ≤ s) (h : Real.sqrt s ≤ Real.sqrt m / 2 ^ 1052) : |b| ≤ mu := by
  have h5 : |b| ≤ Real.sqrt s := by
    rw [← Real.sqrt_sq_eq_abs]; exact Real.sqrt_le_sqrt hb
  have h6 : Real.sqrt (m : ℝ) / 2 ^ 1052 ≤ mu := by
    unfold mu
    have : Real.sqrt (m : ℝ) ≤ 2 := by
      rw [Real.sqrt_le_left (by norm_num)]
      have : (m : ℝ) ≤ 2 := by exact_mod_cast hm
      linarith
    rw [div_le_div_iff₀ (by positivity) (by positivity), show (2 : ℝ) ^ 1052 = 2 * 2 ^ 1051 by rw [← pow_succ']]
    have z : (0 : ℝ) < 2 ^ 1051 := by positivity
    rw [one_mul]
    exact mul_le_mul_of_nonneg_right this z.le
  exact h5.trans (h.trans h6)

theorem larfg_near {i k : ℤ} (hki : k + 1 ≤ i) {a b c : Float} (fa : a.isFinite = true) (fb : b.isFinite = true)
    (fc : k + 2 ≤ i → c.isFinite = true) (ba : |toR a| ≤ big) (bb : |toR b| ≤ big) (bc : k + 2 ≤ i → |toR c| ≤ big) :
    ∃ beta v2 v3 t β V2 V3 T, dlarfg (min 3 (i - k + 1)) a [b, c] 1 = pure (beta, [v2, v3], t) ∧ NearR i k v2 v3 t V2 V3 T ∧
      HeadF (toR a) (toR b) (if k + 2 ≤ i then toR c else 0) beta β V2 V3 T := by
  have e66 : (3 : ℝ) * ((2 : Nat) + 20) / 2 ^ 53 = 66 * ur := by unfold ur; norm_num
  have e63 : (3 : ℝ) * ((1 : Nat) + 20) / 2 ^ 53 = 63 * ur := by unfold ur; norm_num
  have eeta : (1 : ℝ) / 2 ^ 1075 = eta := rfl
  by_cases hk : k + 2 ≤ i
  · rw [show min 3 (i - k + 1) = 3 by omega, if_pos hk]
    have e0 : ∀ y z : Float, fel 2 1 [y, z] 0 = y := fun _ _ => rfl
    have e1 : ∀ y z : Float, fel 2 1 [y, z] 1 = z := fun _ _ => rfl
    obtain ⟨beta, tau, x', e, ho, hcase⟩ := C66_dlarfg_f64_simple 2 (by norm_num) a [b, c] 1 (le_refl _) (fun k hk => by
        have : k = 0 ∨ k = 1 := by omega
        rcases this with rfl | rfl
        · exact (by decide : strideIx 2 1 0 < 2)
        · exact (by decide : strideIx 2 1 1 < 2)) (by simp) (by norm_num) fa
      (fun k hk' => by
        have : k = 0 ∨ k = 1 := by omega
        rcases this with rfl | rfl
        · rw [e0]; exact fb
        · rw [e1]; exact fc hk) (Or.inl (by norm_num)) (by
        rw [Finset.sum_range_succ, Finset.sum_range_one, e0, e1]
        have q1 := sq_big ba
        have q2 := sq_big bb
        have q3 := sq_big (bc hk)
        apply sqrt_big
        generalize (2 : ℝ) ^ (2000 : ℤ) = w at *
        linarith only [q1, q2, q3])
    obtain ⟨v2, v3, rfl⟩ : ∃ b' c', x' = [b', c'] := by
      match x', ho.length with
      | [p, q], _ => exact ⟨p, q, rfl⟩
    rcases hcase with ⟨rfl, h2, rfl, h4⟩ | h
    · simp only [List.cons.injEq, and_true] at h2
      obtain ⟨rfl, rfl⟩ := h2
      rw [Finset.sum_range_succ, Finset.sum_range_one, e0, e1] at h4
      have s2 : |toR v2| ≤ mu := small_of_sqrt (le_refl 2) (by nlinarith [sq_nonneg (toR v3)]) h4
      have s3 : |toR v3| ≤ mu := small_of_sqrt (le_refl 2) (by nlinarith [sq_nonneg (toR v2)]) h4
      exact ⟨_, _, _, _, toR beta, 0, 0, 0, e, ⟨nearV_small fb s2, fun _ => nearV_small (fc hk) s3, fun h => absurd hk h, nearT_zero',
        nearT_zero fb, fun _ => nearT_zero (fc hk)⟩, headF_triv fa s2 s3⟩
    · obtain ⟨B, T, V, hR, f1, h1, f2, t1, t2, h2, h3⟩ := h
      obtain ⟨ro, r1, r2, rn, -⟩ := hR
      have g0 := h3 0 (by norm_num)
      have g1 := h3 1 (by norm_num)
      have q0 := r2 0 (by norm_num)
      have q1 := r2 1 (by norm_num)
      simp only [Finset.sum_range_succ, Finset.sum_range_zero, zero_add, e0, e1, e66, eeta] at ro r1 q0 q1 h1 h2 g0 g1
      have ro' : T * (1 + V 0 ^ 2 + V 1 ^ 2) = 2 := by linarith
      obtain ⟨T0, n2, n3, m1, m2, m3⟩ := near_factors (n := True) ro' f2 t1 h2 g0 (fun _ => g1)
      refine ⟨beta, v2, v3, tau, B, V 0, V 1, T, e, ⟨n2, fun _ => n3 trivial, fun h => absurd hk h, m1, m2, fun _ => m3 trivial⟩, ?_⟩
      refine headF_of_maps ⟨?_, ?_, ?_, ?_, T0, ?_⟩ f1 h1
      · unfold Refl; rw [ro']; ring
      · rw [← r1]; ring
      · rw [← q0]; ring
      · rw [← q1]; ring
      · have := m1.le; rwa [abs_of_nonneg T0] at this
  · rw [show min 3 (i - k + 1) = 2 by omega, if_neg hk]
    have e0 : ∀ y z : Float, fel 1 1 [y, z] 0 = y := fun _ _ => rfl
    obtain ⟨beta, tau, x', e, ho, hcase⟩ := C66_dlarfg_f64_simple 1 (by norm_num) a [b, c] 1 (le_refl _) (fun k hk => by
        have : k = 0 := by omega
        rcases this with rfl
        exact (by decide : strideIx 1 1 0 < 2)) (by simp) (by norm_num) fa
      (fun k hk' => by
        have : k = 0 := by omega
        rcases this with rfl
        rw [e0]; exact fb) (Or.inl (by norm_num)) (by
        rw [Finset.sum_range_one, e0]
        have q1 := sq_big ba
        have q2 := sq_big bb
        have q3 := zp 2000
        apply sqrt_big
        generalize (2 : ℝ) ^ (2000 : ℤ) = w at *
        linarith only [q1, q2, q3])
    obtain ⟨v2, v3, rfl⟩ : ∃ b' c', x' = [b', c'] := by
      match x', ho.length with
      | [p, q], _ => exact ⟨p, q, rfl⟩
    rcases hcase with ⟨rfl, h2, rfl, h4⟩ | h
    · simp only [List.cons.injEq, and_true] at h2
      obtain ⟨rfl, rfl⟩ := h2
      rw [Finset.sum_range_one, e0] at h4
      have s2 : |toR v2| ≤ mu := small_of_sqrt (by norm_num) (le_refl _) h4
      exact ⟨_, _, _, _, toR beta, 0, 0, 0, e, ⟨nearV_small fb s2, fun h => absurd h hk, fun h => rfl, nearT_zero',
        nearT_zero fb, fun h => absurd h hk⟩, headF_triv fa s2 (by rw [abs_zero]; exact mu_pos.le)⟩
    · obtain ⟨B, T, V, hR, f1, h1, f2, t1, t2, h2, h3⟩ := h
      obtain ⟨ro, r1, r2, rn, -⟩ := hR
      have g0 := h3 0 (by norm_num)
      have q0 := r2 0 (by norm_num)
      simp only [Finset.sum_range_one, e0, e63, eeta] at ro r1 q0 h1 h2 g0
      have lift : ∀ x : ℝ, 0 ≤ x → 63 * ur * x ≤ 66 * ur * x := fun x hx => by
        have := mul_nonneg ur_pos.le hx; nlinarith
      have ro' : T * (1 + V 0 ^ 2 + 0 ^ 2) = 2 := by linarith
      obtain ⟨T0, n2, -, m1, m2, -⟩ := near_factors (n := False) (v3 := v3) (V3 := 0) ro' f2 t1 (h2.trans (lift _ (abs_nonneg _)))
        ⟨g0.1, g0.2.trans (by linarith [lift _ (abs_nonneg (V 0))])⟩ (fun h => h.elim)
      refine ⟨beta, v2, v3, tau, B, V 0, 0, T, e, ⟨n2, fun h => absurd h hk, fun _ => rfl, m1, m2, fun h => absurd h hk⟩, ?_⟩
      refine headF_of_maps ⟨?_, ?_, ?_, ?_, T0, ?_⟩ f1 (h1.trans (by linarith [lift _ (abs_nonneg B)]))
      · unfold Refl; rw [ro']; ring
      · rw [← r1]; ring
      · linear_combination q0
      · ring
      · have := m1.le; rwa [abs_of_nonneg T0] at this

end Verif
