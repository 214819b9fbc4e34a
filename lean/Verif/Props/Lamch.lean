import Verif.Props.Ieeeck

/-!
# C31: the machine parameters of binary64
-/

namespace Verif
open Float.Model Float.Model.UnpackedFloat F64

namespace Spec

/-- The parameters of binary64 by their LAPACK letter. -/
noncomputable def machine (c : Char) : ℝ :=
  if c = 'E' then 1 / 2 ^ 53                      -- relative rounding error
  else if c = 'S' then 1 / 2 ^ 1022               -- safe minimum
  else if c = 'B' then 2                          -- base
  else if c = 'P' then 1 / 2 ^ 52                 -- eps * base
  else if c = 'N' then 53                         -- mantissa digits
  else if c = 'R' then 1                          -- rounding
  else if c = 'M' then -1021                      -- minimum exponent
  else if c = 'U' then 1 / 2 ^ 1022               -- underflow threshold
  else if c = 'L' then 1024                       -- maximum exponent
  else if c = 'O' then (2 - 1 / 2 ^ 52) * 2 ^ 1023 -- overflow threshold
  else 0

end Spec

namespace F64

theorem toR_of {x : Float} {s : Sign} {m : Nat} {e : Int} {h} (hx : up x = .finite s m e h) :
    x.isFinite = true ∧ toR x = sgnR s * (m * (2 : ℝ) ^ e) := by
  rw [isFinite_up, toR, hx]; exact ⟨rfl, rfl⟩

theorem machine_E : Spec.machine 'E' = 1 / 2 ^ 53 := by
  unfold Spec.machine
  rw [if_pos rfl]
theorem machine_S : Spec.machine 'S' = 1 / 2 ^ 1022 := by
  unfold Spec.machine
  rw [if_neg (by decide), if_pos rfl]
theorem machine_B : Spec.machine 'B' = 2 := by
  unfold Spec.machine
  rw [if_neg (by decide), if_neg (by decide), if_pos rfl]
theorem machine_P : Spec.machine 'P' = 1 / 2 ^ 52 := by
  unfold Spec.machine
  rw [if_neg (by decide), if_neg (by decide), if_neg (by decide), if_pos rfl]
theorem machine_N : Spec.machine 'N' = 53 := by
  unfold Spec.machine
  rw [if_neg (by decide), if_neg (by decide), if_neg (by decide), if_neg (by decide), if_pos rfl]
theorem machine_R : Spec.machine 'R' = 1 := by
  unfold Spec.machine
  rw [if_neg (by decide), if_neg (by decide), if_neg (by decide), if_neg (by decide), if_neg (by decide), if_pos rfl]
theorem machine_M : Spec.machine 'M' = -1021 := by
  unfold Spec.machine
  rw [if_neg (by decide), if_neg (by decide), if_neg (by decide), if_neg (by decide), if_neg (by decide), if_neg (by decide), if_pos rfl]
theorem machine_U : Spec.machine 'U' = 1 / 2 ^ 1022 := by
  unfold Spec.machine
  rw [if_neg (by decide), if_neg (by decide), if_neg (by decide), if_neg (by decide), if_neg (by decide), if_neg (by decide), if_neg (by decide), if_pos rfl]
theorem machine_L : Spec.machine 'L' = 1024 := by
  unfold Spec.machine
  rw [if_neg (by decide), if_neg (by decide), if_neg (by decide), if_neg (by decide), if_neg (by decide), if_neg (by decide), if_neg (by decide), if_neg (by decide), if_pos rfl]
theorem machine_O : Spec.machine 'O' = (2 - 1 / 2 ^ 52) * 2 ^ 1023 := by
  unfold Spec.machine
  rw [if_neg (by decide), if_neg (by decide), if_neg (by decide), if_neg (by decide), if_neg (by decide), if_neg (by decide), if_neg (by decide), if_neg (by decide), if_neg (by decide), if_pos rfl]

theorem zpneg (n : Nat) : (2 : ℝ) ^ (-(n : Int)) = 1 / 2 ^ n := by rw [zpow_neg, zpn, one_div]

theorem toR_one : (1 : Float).isFinite = true ∧ toR 1 = 1 := by
  obtain ⟨h1, h2⟩ := toR_of (x := 1) (show up (1 : Float) = .finite .positive (2 ^ 52) (-52) (by norm_num) from rfl)
  refine ⟨h1, ?_⟩
  rw [h2, show (-52 : Int) = -((52 : Nat) : Int) from rfl, zpneg]; norm_num [sgnR]

theorem pow1074 : (2 : ℝ) ^ 1074 = 2 ^ 52 * 2 ^ 1022 := (pow_add 2 52 1022)

/-- The value of `dlamch c` for each letter, as real number. -/
theorem dlamch_val (c : Char) : (dlamch c : Float).isFinite = true ∧ toR (dlamch c) = Spec.machine c := by
  by_cases hE : c = 'E'
  · subst hE
    obtain ⟨h1, h2⟩ := toR_of (show up (dlamch 'E' : Float) = .finite .positive (2 ^ 52) (-105) (by norm_num) from rfl)
    refine ⟨h1, ?_⟩
    rw [h2, machine_E, show (-105 : Int) = -((105 : Nat) : Int) from rfl, zpneg]; norm_num [sgnR]
  by_cases hS : c = 'S'
  · subst hS
    obtain ⟨h1, h2⟩ := toR_of (show up (dlamch 'S' : Float) = .finite .positive (2 ^ 52) (-1074) (by norm_num) from rfl)
    refine ⟨h1, ?_⟩
    rw [h2, show (-1074 : Int) = -((1074 : Nat) : Int) from rfl, zpneg, pow1074]
    have : (2 : ℝ) ^ 1022 ≠ 0 := pow_ne_zero _ (by norm_num)
    rw [machine_S]
    simp only [sgnR]; push_cast; field_simp; norm_num
  by_cases hB : c = 'B'
  · subst hB
    obtain ⟨h1, h2⟩ := toR_of (show up (dlamch 'B' : Float) = .finite .positive (2 ^ 52) (-51) (by norm_num) from rfl)
    refine ⟨h1, ?_⟩
    rw [h2, machine_B, show (-51 : Int) = -((51 : Nat) : Int) from rfl, zpneg]; norm_num [sgnR]
  by_cases hP : c = 'P'
  · subst hP
    obtain ⟨h1, h2⟩ := toR_of (show up (dlamch 'P' : Float) = .finite .positive (2 ^ 52) (-104) (by norm_num) from rfl)
    refine ⟨h1, ?_⟩
    rw [h2, machine_P, show (-104 : Int) = -((104 : Nat) : Int) from rfl, zpneg]; norm_num [sgnR]
  by_cases hN : c = 'N'
  · subst hN
    obtain ⟨h1, h2⟩ := toR_of (show up (dlamch 'N' : Float) = .finite .positive (53 * 2 ^ 47) (-47) (by norm_num) from rfl)
    refine ⟨h1, ?_⟩
    rw [h2, machine_N, show (-47 : Int) = -((47 : Nat) : Int) from rfl, zpneg]; norm_num [sgnR]
  by_cases hR : c = 'R'
  · subst hR
    obtain ⟨h1, h2⟩ := toR_of (show up (dlamch 'R' : Float) = .finite .positive (2 ^ 52) (-52) (by norm_num) from rfl)
    refine ⟨h1, ?_⟩
    rw [h2, machine_R, show (-52 : Int) = -((52 : Nat) : Int) from rfl, zpneg]; norm_num [sgnR]
  by_cases hM : c = 'M'
  · subst hM
    obtain ⟨h1, h2⟩ := toR_of (show up (dlamch 'M' : Float) = .finite .negative (1021 * 2 ^ 43) (-43) (by norm_num) from rfl)
    refine ⟨h1, ?_⟩
    rw [h2, machine_M, show (-43 : Int) = -((43 : Nat) : Int) from rfl, zpneg]; norm_num [sgnR]
  by_cases hU : c = 'U'
  · subst hU
    obtain ⟨h1, h2⟩ := toR_of (show up (dlamch 'U' : Float) = .finite .positive (2 ^ 52) (-1074) (by norm_num) from rfl)
    refine ⟨h1, ?_⟩
    rw [h2, show (-1074 : Int) = -((1074 : Nat) : Int) from rfl, zpneg, pow1074]
    have : (2 : ℝ) ^ 1022 ≠ 0 := pow_ne_zero _ (by norm_num)
    rw [machine_U]
    simp only [sgnR]; push_cast; field_simp; norm_num
  by_cases hL : c = 'L'
  · subst hL
    obtain ⟨h1, h2⟩ := toR_of (show up (dlamch 'L' : Float) = .finite .positive (2 ^ 52) (-42) (by norm_num) from rfl)
    refine ⟨h1, ?_⟩
    rw [h2, machine_L, show (-42 : Int) = -((42 : Nat) : Int) from rfl, zpneg]; norm_num [sgnR]
  by_cases hO : c = 'O'
  · subst hO
    obtain ⟨h1, h2⟩ := toR_of (show up (dlamch 'O' : Float) = .finite .positive (2 ^ 53 - 1) 971 (by norm_num) from rfl)
    refine ⟨h1, ?_⟩
    rw [h2, show (971 : Int) = ((971 : Nat) : Int) from rfl, zpn, machine_O,
      show (2 : ℝ) ^ 1023 = 2 ^ 52 * 2 ^ 971 from pow_add 2 52 971, ← mul_assoc]
    have : sgnR .positive = 1 := rfl
    rw [this, one_mul]
    have h9 : (((2 ^ 53 - 1 : Nat)) : ℝ) = (2 - 1 / 2 ^ 52) * 2 ^ 52 := by norm_num
    rw [h9, mul_assoc]
  · have h0 : (dlamch c : Float) = 0 := by
      unfold dlamch
      split <;> first | (exfalso; simp_all; done) | rfl
    rw [h0]
    refine ⟨rfl, ?_⟩
    have : toR 0 = 0 := rfl
    rw [this]
    simp [Spec.machine, hE, hS, hB, hP, hN, hR, hM, hU, hL, hO]

theorem grid_gt_one {G : ℝ} (h : Grid G) (h1 : 1 < G) : 1 + 1 / 2 ^ 52 ≤ G := by
  obtain ⟨m, e, hm, he, hv⟩ := h
  rw [abs_of_pos (by linarith)] at hv
  by_cases hc : -52 ≤ e
  · have e1 : G * 2 ^ 52 = ((m * 2 ^ (e + 52).toNat : Nat) : ℝ) := by
      rw [hv]; push_cast
      rw [← zpn (e + 52).toNat, mul_assoc, show (2 : ℝ) ^ 52 = 2 ^ (52 : Int) from (zpn 52).symm,
        ← zpow_add₀ (by norm_num)]
      congr 2; omega
    have h2 : ((2 ^ 52 : Nat) : ℝ) < ((m * 2 ^ (e + 52).toNat : Nat) : ℝ) := by
      rw [← e1]; push_cast; nlinarith
    have h3 : 2 ^ 52 + 1 ≤ m * 2 ^ (e + 52).toNat := by exact_mod_cast h2
    have h4 : ((2 ^ 52 + 1 : Nat) : ℝ) ≤ G * 2 ^ 52 := by rw [e1]; exact_mod_cast h3
    push_cast at h4
    have : (1 + 1 / 2 ^ 52 : ℝ) * 2 ^ 52 ≤ G * 2 ^ 52 := by norm_num at h4 ⊢; linarith
    exact le_of_mul_le_mul_right this (by norm_num)
  · exfalso
    have : G < 1 := by
      rw [hv]
      have hm' : (m : ℝ) < 2 ^ 53 := by exact_mod_cast hm
      calc (m : ℝ) * 2 ^ e < 2 ^ 53 * 2 ^ e := mul_lt_mul_of_pos_right hm' (zp _)
        _ ≤ 2 ^ 53 * 2 ^ (-53 : Int) := mul_le_mul_of_nonneg_left (zpow_le_zpow_right₀ (by norm_num) (by omega)) (by norm_num)
        _ = 1 := by rw [show (-53 : Int) = -((53 : Nat) : Int) from rfl, zpneg]; norm_num
    linarith

end F64

/-- **C31 (values).** For every character, `dlamch` returns the parameter of binary64 of that letter, and `0` for
every other character. -/
theorem C31_dlamch_values (c : Char) :
    (dlamch c : Float).isFinite = true ∧ toR (dlamch c) = Spec.machine c := dlamch_val c

/-- **C31 (precision).** `1 + dlamch(P)` is the successor of `1`: it is larger, and no float lies in between;
`1 + dlamch(E)` is `1`. -/
theorem C31_dlamch_precision :
    (1 : Float) < 1 + dlamch 'P' ∧ (∀ y : Float, 1 < y → 1 + dlamch 'P' ≤ y) ∧
    (1 : Float) + dlamch 'E' = 1 := by
  have hP : toR (1 + dlamch 'P' : Float) = 1 + 1 / 2 ^ 52 ∧ (1 + dlamch 'P' : Float).isFinite = true := by
    obtain ⟨h1, h2⟩ := toR_of (x := 1 + dlamch 'P')
      (show up (1 + dlamch 'P' : Float) = .finite .positive (2 ^ 52 + 1) (-52) (by norm_num) by
        rw [show (1 + dlamch 'P' : Float) = Float.ofBits 0x3FF0000000000001 by decide +kernel]; rfl)
    refine ⟨?_, h1⟩
    rw [h2, show (-52 : Int) = -((52 : Nat) : Int) from rfl, zpneg]; norm_num [sgnR]
  refine ⟨?_, fun y hy => ?_, by decide +kernel⟩
  · rw [lt_iff toR_one.1 hP.2, hP.1, toR_one.2]; norm_num
  · by_cases hf : y.isFinite = true
    · rw [lt_iff toR_one.1 hf, toR_one.2] at hy
      rw [le_iff hP.2 hf, hP.1]
      exact grid_gt_one (grid_toR y) hy
    · have hy' : Float.lt 1 y = true := hy
      show Float.le _ y = true
      rw [le_toXR, toXR_fin hP.2]
      rw [lt_toXR, toXR_fin toR_one.1] at hy'
      cases hx : toXR y with
      | fin r => exact absurd (fin_toXR hx).1 hf
      | pinf => simp [XR.le, XR.lt]
      | ninf => rw [hx] at hy'; simp [XR.lt] at hy'
      | nan => rw [hx] at hy'; simp [XR.lt] at hy'

/-- **C31 (range).** No finite float exceeds `dlamch(O)`, `dlamch(O)` is finite, and the reciprocal of the safe
minimum does not overflow. -/
theorem C31_dlamch_range : (∀ x : Float, x.isFinite = true → x ≤ dlamch 'O' ∧ -dlamch 'O' ≤ x) ∧
    (1 / dlamch 'S' : Float).isFinite = true := by
  refine ⟨fun x hx => ?_, rfl⟩
  obtain ⟨h1, h2⟩ := dlamch_val 'O'
  have hle : |toR x| ≤ Spec.machine 'O' := by
    have h3 : Spec.machine 'O' = ((2 ^ 53 - 1 : Nat) : ℝ) * 2 ^ 971 := by
      rw [machine_O, show (2 : ℝ) ^ 1023 = 2 ^ 52 * 2 ^ 971 from pow_add 2 52 971, ← mul_assoc]
      congr 1
      norm_num
    rw [h3]
    unfold toR
    have hc := up_canon x
    cases hu : up x with
    | finite s m e h =>
      rw [hu] at hc
      have hm := canon_lt h hc.1
      have h5 : (m : ℝ) * 2 ^ e ≤ ((2 ^ 53 - 1 : Nat) : ℝ) * 2 ^ 971 := by
        rw [show (2 : ℝ) ^ 971 = 2 ^ (971 : Int) from (zpn 971).symm]
        have : m ≤ 2 ^ 53 - 1 := by omega
        exact mul_le_mul (by exact_mod_cast this) (zpow_le_zpow_right₀ (by norm_num) hc.2) (zp _).le (Nat.cast_nonneg _)
      have := mag_pos e h
      cases s
      · simp only [val, sgnR]
        rw [abs_of_nonpos (by linarith)]; linarith
      · simp only [val, sgnR]
        rw [abs_of_nonneg (by linarith)]; linarith
    | _ =>
      simp only [val, abs_zero]
      positivity
  rw [abs_le] at hle
  constructor
  · rw [le_iff hx h1, h2]; exact hle.2
  · rw [le_iff (by rw [neg_finite]; exact h1) hx, neg_toR, h2]; exact hle.1

end Verif
