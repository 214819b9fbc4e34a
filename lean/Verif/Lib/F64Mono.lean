import Verif.Lib.F64Even

/-!
# Rounding to nearest even is monotone
-/

namespace Verif
namespace F64
open Float.Model Float.Model.UnpackedFloat

theorem rne_floor (x : ℝ) : ⌊x⌋ ≤ rne x ∧ rne x ≤ ⌊x⌋ + 1 := by
  unfold rne
  split_ifs <;> omega

theorem rne_mono {x y : ℝ} (h : x ≤ y) : rne x ≤ rne y := by
  have hf := Int.floor_mono h
  rcases hf.lt_or_eq with hlt | heq
  · have := rne_floor x
    have := rne_floor y
    omega
  · unfold rne
    rw [heq]
    generalize ⌊y⌋ = m
    split_ifs <;> first | omega | (exfalso; linarith)

theorem expo_mono {X Y : ℝ} (hX : 0 < X) (h : X ≤ Y) : expo X ≤ expo Y := by
  unfold expo
  have := Int.log_mono_right (b := 2) hX h
  omega

theorem rne_zpow (k : ℤ) (hk : 0 ≤ k) : ((rne ((2 : ℝ) ^ k) : ℤ) : ℝ) = 2 ^ k := by
  obtain ⟨n, rfl⟩ := Int.eq_ofNat_of_zero_le hk
  have : ((2 : ℝ) ^ ((n : ℕ) : ℤ)) = ((2 ^ n : ℕ) : ℝ) := by rw [zpow_natCast]; push_cast; ring
  show ((rne ((2 : ℝ) ^ ((n : ℕ) : ℤ)) : ℤ) : ℝ) = 2 ^ ((n : ℕ) : ℤ)
  rw [this, rne_nat]
  norm_cast

theorem flp_mono {X Y : ℝ} (hX : 0 < X) (h : X ≤ Y) : flp X ≤ flp Y := by
  have hY : 0 < Y := lt_of_lt_of_le hX h
  rcases (expo_mono hX h).lt_or_eq with hlt | heq
  · have e2 : expo Y = Int.log 2 Y - 52 := by
      have h1 : -1074 ≤ expo X := le_max_right _ _
      unfold expo at hlt h1 ⊢
      omega
    have hlog : Int.log 2 X < Int.log 2 Y := by
      have h1 : Int.log 2 X - 52 ≤ expo X := le_max_left _ _
      omega
    have hx : X ≤ 2 ^ Int.log 2 Y := by
      have h1 := Int.lt_zpow_succ_log_self (b := 2) (by norm_num) X
      push_cast at h1
      exact h1.le.trans (zpow_le_zpow_right₀ (by norm_num) (by omega))
    have hy : (2 : ℝ) ^ Int.log 2 Y ≤ Y := by
      have h1 := Int.zpow_log_le_self (b := 2) (by norm_num) hY
      push_cast at h1
      exact h1
    have a : flp X ≤ 2 ^ Int.log 2 Y := by
      unfold flp
      have h1 : X / 2 ^ expo X ≤ 2 ^ (Int.log 2 Y - expo X) := by
        rw [zpow_sub₀ (by norm_num)]
        exact div_le_div_of_nonneg_right hx (zp _).le
      have h2 := rne_mono h1
      have h3 : ((rne (X / 2 ^ expo X) : ℤ) : ℝ) ≤ 2 ^ (Int.log 2 Y - expo X) := by
        rw [← rne_zpow (Int.log 2 Y - expo X) (by omega)]
        exact Int.cast_le.2 h2
      calc _ ≤ (2 : ℝ) ^ (Int.log 2 Y - expo X) * 2 ^ expo X := mul_le_mul_of_nonneg_right h3 (zp _).le
        _ = _ := by rw [← zpow_add₀ (by norm_num)]; congr 1; omega
    have b : (2 : ℝ) ^ Int.log 2 Y ≤ flp Y := by
      unfold flp
      have h1 : (2 : ℝ) ^ (Int.log 2 Y - expo Y) ≤ Y / 2 ^ expo Y := by
        rw [zpow_sub₀ (by norm_num)]
        exact div_le_div_of_nonneg_right hy (zp _).le
      have h2 := rne_mono h1
      have h3 : (2 : ℝ) ^ (Int.log 2 Y - expo Y) ≤ ((rne (Y / 2 ^ expo Y) : ℤ) : ℝ) := by
        rw [← rne_zpow (Int.log 2 Y - expo Y) (by omega)]
        exact Int.cast_le.2 h2
      calc _ = (2 : ℝ) ^ (Int.log 2 Y - expo Y) * 2 ^ expo Y := by rw [← zpow_add₀ (by norm_num)]; congr 1; omega
        _ ≤ _ := mul_le_mul_of_nonneg_right h3 (zp _).le
    exact a.trans b
  · unfold flp
    rw [heq]
    refine mul_le_mul_of_nonneg_right ?_ (zp _).le
    exact_mod_cast rne_mono (div_le_div_of_nonneg_right h (zp _).le)

theorem flp_nonneg {X : ℝ} (hX : 0 < X) : 0 ≤ flp X := by
  unfold flp
  refine mul_nonneg ?_ (zp _).le
  have h : (0 : ℝ) ≤ X / 2 ^ expo X := div_nonneg hX.le (zp _).le
  have h2 := rne_mono h
  have h3 : rne 0 = 0 := by simpa using rne_nat 0
  rw [h3] at h2
  exact_mod_cast h2

/-- Rounding to nearest even is monotone. -/
theorem fl_mono {X Y : ℝ} (h : X ≤ Y) : fl X ≤ fl Y := by
  unfold fl
  split_ifs with h1 h2 h3 h4 h5 h6 h7 h8
  all_goals first
    | exact le_rfl
    | exact flp_nonneg ‹_›
    | exact flp_mono ‹_› h
    | (exfalso; linarith)
    | skip
  · exfalso
    have : Y < 0 := lt_of_le_of_ne (not_lt.1 h3) h2
    linarith
  all_goals have hx : 0 < -X := neg_pos.2 (lt_of_le_of_ne (not_lt.1 h4) h1)
  · have := flp_nonneg hx
    linarith
  · have := flp_nonneg hx
    have := flp_nonneg h8
    linarith
  · have hy : 0 < -Y := by
      have : Y < 0 := lt_of_le_of_ne (not_lt.1 h8) h7
      linarith
    have := flp_mono hy (neg_le_neg h)
    linarith

theorem fl_ovf : (2 : ℝ) ^ (1024 : ℤ) ≤ fl ovf := by
  have ho : ovf = (2 ^ 53 - 1 / 2) * (2 : ℝ) ^ (971 : ℤ) := by
    rw [ovf, show (2 : ℝ) ^ (971 : Int) = 2 ^ 971 from zpn 971]
  have hp : (0 : ℝ) < (2 : ℝ) ^ (971 : ℤ) := zp 971
  have h0 : 0 < ovf := by rw [ho]; exact mul_pos (by norm_num) hp
  have hlog : Int.log 2 ovf = 1023 := by
    apply le_antisymm
    · rw [← Int.lt_add_one_iff, ← Int.lt_zpow_iff_log_lt (by norm_num) h0, ho]
      have e : ((2 : ℕ) : ℝ) ^ (1023 + 1 : ℤ) = 2 ^ (53 : ℤ) * 2 ^ (971 : ℤ) := by rw [← zpow_add₀ (by norm_num)]; norm_num
      rw [e]
      exact mul_lt_mul_of_pos_right (by norm_num) hp
    · rw [← Int.zpow_le_iff_le_log (by norm_num) h0, ho]
      have e : ((2 : ℕ) : ℝ) ^ (1023 : ℤ) = 2 ^ (52 : ℤ) * 2 ^ (971 : ℤ) := by rw [← zpow_add₀ (by norm_num)]; norm_num
      rw [e]
      exact mul_le_mul_of_nonneg_right (by norm_num) hp.le
  have he : expo ovf = 971 := by unfold expo; rw [hlog]; norm_num
  have hd : ovf / 2 ^ (971 : ℤ) = 2 ^ 53 - 1 / 2 := by
    rw [ho]
    exact mul_div_cancel_right₀ _ hp.ne'
  have hr : rne (2 ^ 53 - 1 / 2 : ℝ) = 2 ^ 53 := by
    have := (rne_of (x := (2 ^ 53 - 1 / 2 : ℝ)) (m := 2 ^ 53 - 1) (by norm_num) (by norm_num)).2.2 (by norm_num)
    rw [this]
    norm_num
  unfold fl
  rw [if_neg h0.ne', if_pos h0]
  unfold flp
  rw [he, hd, hr, show (1024 : ℤ) = 53 + 971 by norm_num, zpow_add₀ (by norm_num)]
  refine mul_le_mul_of_nonneg_right ?_ hp.le
  norm_num

theorem ovf_lt_1024 : ovf < (2 : ℝ) ^ (1024 : ℤ) := by
  rw [ovf, show (1024 : ℤ) = 53 + 971 by norm_num, zpow_add₀ (by norm_num), show (2 : ℝ) ^ (971 : Int) = 2 ^ 971 from zpn 971]
  exact mul_lt_mul_of_pos_right (by norm_num) (by positivity)

/-- A finite result was not rounded down from beyond the overflow threshold. -/
theorem lt_ovf_of_fl {X : ℝ} {f : Float} (h : toR f = fl X) : X < ovf := by
  by_contra hc
  have h1 := fl_mono (not_lt.1 hc)
  have h2 := (abs_lt.1 (abs_toR_lt f)).2
  rw [h] at h2
  have h3 := fl_ovf
  have h4 := ovf_lt_1024
  generalize (2 : ℝ) ^ (1024 : ℤ) = w at *
  linarith only [h1, h2, h3, h4]

end F64
end Verif
