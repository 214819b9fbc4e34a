import Verif.Lib.F64Alg
import Verif.Lib.F64Sum
import Verif.Lib.F64Sign
import Mathlib.Data.Int.Log

/-!
# Rounding of binary64 operations as a function

`Lib/F64Round` bounds the error of an operation. Here the result is pinned down: it is `fl X`, the exact result `X` rounded to the nearest multiple of the unit in
the last place of `X`, to the even one if there are two. So operations follow a scaling by a power of two as long as nothing underflows or overflows.
-/

namespace Verif.F64
open Float.Model Float.Model.UnpackedFloat

/-- The nearest integer, the even one of two. -/
noncomputable def rne (x : ℝ) : ℤ :=
  if x - ⌊x⌋ < 1 / 2 then ⌊x⌋ else if 1 / 2 < x - ⌊x⌋ then ⌊x⌋ + 1 else if ⌊x⌋ % 2 = 0 then ⌊x⌋ else ⌊x⌋ + 1

/-- The exponent of the unit in the last place of `X > 0`. -/
noncomputable def expo (X : ℝ) : ℤ := max (Int.log 2 X - 52) (-1074)

/-- `X > 0` rounded to nearest even. -/
noncomputable def flp (X : ℝ) : ℝ := rne (X / 2 ^ expo X) * (2 : ℝ) ^ expo X

/-- `X` rounded to nearest even, without a limit for large numbers. -/
noncomputable def fl (X : ℝ) : ℝ := if X = 0 then 0 else if 0 < X then flp X else -flp (-X)

theorem rne_of {x : ℝ} {m : Nat} (h1 : (m : ℝ) ≤ x) (h2 : x < m + 1) :
    (x < m + 1 / 2 → rne x = m) ∧ (m + 1 / 2 < x → rne x = m + 1) ∧ (x = m + 1 / 2 → rne x = if m % 2 = 0 then (m : ℤ) else m + 1) := by
  have hf : ⌊x⌋ = (m : ℤ) := by
    rw [Int.floor_eq_iff]
    exact ⟨by exact_mod_cast h1, by exact_mod_cast h2⟩
  have hc : ((⌊x⌋ : ℤ) : ℝ) = m := by rw [hf]; norm_cast
  unfold rne
  rw [hc, hf]
  refine ⟨fun h => if_pos (by linarith), fun h => ?_, fun h => ?_⟩
  · rw [if_neg (by linarith), if_pos (by linarith)]
  · rw [if_neg (by linarith), if_neg (by linarith)]
    by_cases h3 : m % 2 = 0
    · rw [if_pos h3, if_pos (by omega)]
    · rw [if_neg h3, if_neg (by omega)]

theorem rep_rne {em : ExtendedMantissa} {x : ℝ} (h : Rep em x) : (em.roundedMantissa : ℤ) = rne x := by
  obtain ⟨-, -, -, h4, h5, -⟩ := h.rounded
  obtain ⟨a1, a2, a3⟩ := rne_of h4 h5
  obtain ⟨m, r, st⟩ := em
  cases r <;> cases st <;> simp only [Rep] at h a1 a2 a3
  · rw [a1 (by linarith)]; rfl
  · rw [a1 h.2]; rfl
  · rw [a3 h]
    rcases Nat.mod_two_eq_zero_or_one m with h2 | h2 <;>
    simp [ExtendedMantissa.roundedMantissa, ExtendedMantissa.accuracy, Accuracy.roundToNearestEven, h2]
  · rw [a2 h.1]; rfl

theorem target_expo {M : Nat} {E : Int} {x : ℝ} (h1 : (M : ℝ) ≤ x) (h2 : x < M + 1) (hx : 0 < x) (hE : E ≤ target M E) :
    expo (x * (2 : ℝ) ^ E) = target M E := by
  have hp := zp E
  have hX : 0 < x * (2 : ℝ) ^ E := mul_pos hx hp
  by_cases hM : M = 0
  · subst hM
    have hl : (Nat.log2 0 : Int) = 0 := by decide
    have hT : target 0 E = -1074 := by
      unfold target at hE ⊢
      rw [hl] at hE ⊢
      omega
    rw [hT]
    have : Int.log 2 (x * (2 : ℝ) ^ E) < E := by
      rw [← Int.lt_zpow_iff_log_lt (by norm_num) hX]
      push_cast at h2 ⊢
      nlinarith
    unfold expo
    unfold target at hE hT
    rw [hl] at hE hT
    omega
  · have hg : Int.log 2 (x * (2 : ℝ) ^ E) = M.log2 + E := by
      apply le_antisymm
      · rw [← Int.lt_add_one_iff, ← Int.lt_zpow_iff_log_lt (by norm_num) hX]
        have : x < 2 ^ (M.log2 + 1) := by
          have h3 : M + 1 ≤ 2 ^ (M.log2 + 1) := Nat.lt_log2_self
          have h4 : ((M + 1 : Nat) : ℝ) ≤ ((2 ^ (M.log2 + 1) : Nat) : ℝ) := by exact_mod_cast h3
          push_cast at h4
          linarith
        push_cast
        rw [show (M.log2 : Int) + E + 1 = ((M.log2 + 1 : Nat) : Int) + E by push_cast; ring, zpow_add₀ (by norm_num), zpow_natCast]
        exact mul_lt_mul_of_pos_right this hp
      · rw [← Int.zpow_le_iff_le_log (by norm_num) hX]
        have : (2 : ℝ) ^ M.log2 ≤ x := by
          have h3 : 2 ^ M.log2 ≤ M := Nat.log2_self_le hM
          have h4 : ((2 ^ M.log2 : Nat) : ℝ) ≤ M := by exact_mod_cast h3
          push_cast at h4
          linarith
        push_cast
        rw [zpow_add₀ (by norm_num), zpow_natCast]
        exact mul_le_mul_of_nonneg_right this hp.le
    unfold expo target
    rw [hg]
    congr 1
    ring

/-- **Rounding.** `round_spec` with the rounded mantissa. -/
theorem round_even (s : Sign) (M : Nat) (E : Int) (acc : Accuracy) (x : ℝ)
    (hrep : Rep (ExtendedMantissa.ofMantissaAndAccuracy M acc) x) (hE : E ≤ target M E) :
    ∃ r : Nat, roundWithAccuracy Format.binary64 s M E acc = mk s r (target M E) ∧ (r : ℤ) = rne (x / 2 ^ (target M E - E).toNat) ∧
      r ≤ 2 ^ 53 ∧ (target M E = -1074 ∨ 2 ^ 52 ≤ r) := by
  have hs := hrep.shift (target M E - E).toNat
  have hev := rep_rne hs
  obtain ⟨h1, h2, h3, h4, h4', h5⟩ := hs.rounded
  have hq := shift_mantissa (ExtendedMantissa.ofMantissaAndAccuracy M acc) (target M E - E).toNat
  rw [ofMA_mantissa] at hq
  set em := ExtendedMantissa.ofMantissaAndAccuracy M acc >>> (target M E - E).toNat with hem
  set q := em.mantissa with hqdef
  set r := em.roundedMantissa with hr
  have hTE : (target M E - E).toNat + E = target M E := by omega
  have hT1 : (M.log2 : Int) + 1 + E - 53 ≤ target M E := le_max_left _ _
  have hT2 : -1074 ≤ target M E := le_max_right _ _
  have hMlt : M < 2 ^ (M.log2 + 1) := Nat.lt_log2_self
  have hq53 : q < 2 ^ 53 := by
    rw [hq, Nat.div_lt_iff_lt_mul (by positivity), ← pow_add]
    exact lt_of_lt_of_le hMlt (Nat.pow_le_pow_right (by norm_num) (by omega))
  have hq52 : target M E = -1074 ∨ 2 ^ 52 ≤ q := by
    rcases max_choice ((M.log2 : Int) + 1 + E - 53) (-1074) with hmax | hmax
    · right
      have hT : target M E = (M.log2 : Int) + 1 + E - 53 := hmax
      have hM0 : M ≠ 0 := by
        rintro rfl
        have : (Nat.log2 0 : Int) = 0 := by decide
        omega
      have hMge : 2 ^ M.log2 ≤ M := Nat.log2_self_le hM0
      rw [hq, Nat.le_div_iff_mul_le (by positivity), ← pow_add]
      refine le_trans (Nat.pow_le_pow_right (by norm_num) (by omega)) hMge
    · exact Or.inl hmax
  refine ⟨r, ?_, hev, by omega, by omega⟩
  unfold roundWithAccuracy
  rw [shiftToTarget_eq M E acc hE]
  simp only
  rw [← hem, ← hr]
  have hlog : r < 2 ^ 53 → 2 ^ 52 ≤ q → r.log2 = 52 := fun h h' => by
    rw [Nat.log2_eq_iff (by omega)]; omega
  by_cases hr0 : r = 2 ^ 53
  · have hT3 : target r (target M E) = target M E + 1 := by
      have : r.log2 = 53 := by rw [hr0]; exact Nat.log2_two_pow
      unfold target at hT2 ⊢
      rw [this]; omega
    rw [shiftToTarget_eq _ _ _ (by omega)]
    simp only [shift_mantissa, ofMA_mantissa, hT3]
    have e1 : (target M E + 1 - target M E).toNat = 1 := by omega
    have e2 : r / 2 ^ (target M E + 1 - target M E).toNat = 2 ^ 52 := by
      rw [e1, hr0]; norm_num
    rw [dif_neg (by rw [e2]; norm_num)]
    unfold mk
    rw [dif_neg (by rw [hr0]; norm_num), if_pos hr0]
    simp only [e2]
  · have hr53 : r < 2 ^ 53 := by omega
    have hT3 : target r (target M E) = target M E := by
      rcases hq52 with h | h
      · rw [h]
        have : r.log2 ≤ 52 := by
          by_cases hr00 : r = 0
          · rw [hr00]; decide
          · have := (log2_lt (Nat.pos_of_ne_zero hr00)).2 hr53
            omega
        unfold target
        omega
      · have := hlog hr53 h
        unfold target at hT2 ⊢
        rw [this]; omega
    rw [shiftToTarget_eq _ _ _ (by omega)]
    simp only [shift_mantissa, ofMA_mantissa, hT3]
    simp only [sub_self, Int.toNat_zero, pow_zero, Nat.div_one]
    unfold mk
    by_cases h0 : r = 0
    · rw [dif_pos h0, dif_pos h0]
    · rw [dif_neg h0, dif_neg h0, if_neg hr0]

/-- If finite, `w` is `X > 0` with the sign `s`, rounded to nearest even. -/
def EvenP (s : Sign) (X : ℝ) (w : UnpackedFloat) : Prop := w.isFinite = true → val w = sgnR s * flp X

theorem round_evenP (s : Sign) (M : Nat) (E : Int) (acc : Accuracy) (x : ℝ) (hx : 0 < x)
    (hrep : Rep (ExtendedMantissa.ofMantissaAndAccuracy M acc) x) (hE : E ≤ target M E) :
    EvenP s (x * (2 : ℝ) ^ E) (fix (roundWithAccuracy Format.binary64 s M E acc)) := by
  obtain ⟨-, -, -, h4, h5, -⟩ := hrep.rounded
  rw [ofMA_mantissa] at h4 h5
  have ht := target_expo h4 h5 hx hE
  obtain ⟨r, e0, hr, b1, b2⟩ := round_even s M E acc x hrep hE
  rw [e0]
  have hT2 : -1074 ≤ target M E := le_max_right _ _
  intro hf
  rcases fix_mk s r (target M E) b1 hT2 b2 with ⟨f1, -, -, -, -⟩ | ⟨f1, -⟩
  · rw [f1, val_mk]
    unfold flp
    rw [ht]
    have hX : x * (2 : ℝ) ^ E / 2 ^ target M E = x / 2 ^ (target M E - E).toNat := by
      have : (2 : ℝ) ^ target M E = (2 : ℝ) ^ E * 2 ^ (target M E - E).toNat := by
        rw [← zpow_natCast, ← zpow_add₀ (by norm_num)]
        congr 1; omega
      rw [this, mul_comm x, mul_div_mul_left _ _ (zp E).ne']
    rw [hX, ← hr]
    push_cast
    rfl
  · rw [f1] at hf
    cases hf

theorem round_nat_evenP (s : Sign) (M : Nat) (E : Int) (hM : 0 < M) :
    EvenP s ((M : ℝ) * 2 ^ E) (fix (UnpackedFloat.round Format.binary64 s M E)) := by
  unfold UnpackedFloat.round decreaseExponent
  simp only [targetExponent_eq, Nat.shiftLeft_eq]
  set k := (E - target M E).toNat with hk
  have ht : target (M * 2 ^ k) (E - k) = target M E := by
    unfold target
    rw [log2_mul_two_pow hM]; push_cast; congr 1; omega
  have := round_evenP s (M * 2 ^ k) (E - k) .exact _ (by exact_mod_cast Nat.mul_pos hM (by positivity)) (rep_exact _) (by rw [ht]; omega)
  have e1 : ((M * 2 ^ k : Nat) : ℝ) * (2 : ℝ) ^ (E - k) = M * 2 ^ E := by
    push_cast
    rw [mul_assoc, ← zpow_natCast, ← zpow_add₀ (by norm_num)]
    congr 2; omega
  rw [e1] at this
  exact this

/-- If finite, `w` is `X` rounded to nearest even. -/
def EvenU (X : ℝ) (w : UnpackedFloat) : Prop := w.isFinite = true → val w = fl X

theorem EvenP.evenU {s : Sign} {X : ℝ} {w : UnpackedFloat} (hX : 0 < X) (h : EvenP s X w) : EvenU (sgnR s * X) w := by
  intro hf
  rw [h hf]
  unfold fl
  cases s with
  | positive => simp only [sgnR, one_mul]; rw [if_neg hX.ne', if_pos hX]
  | negative =>
    have e : sgnR .negative * X = -X := by simp [sgnR]
    rw [e, if_neg (by linarith), if_neg (by linarith), neg_neg]; simp [sgnR]

theorem fl_zero : fl 0 = 0 := if_pos rfl

theorem rne_nat (n : Nat) : rne (n : ℝ) = n := by
  unfold rne
  rw [Int.floor_natCast, if_pos (by norm_num)]

theorem canon_expo {m : Nat} {e : Int} (hm : 0 < m) (c : Canon m e) : expo ((m : ℝ) * 2 ^ e) = e := by
  have ht : target m e = e := by
    unfold target
    rcases c with c | c
    · rw [c.1]; push_cast; omega
    · omega
  have := target_expo (M := m) (E := e) (x := m) le_rfl (by linarith) (by exact_mod_cast hm) (by omega)
  rw [this, ht]

theorem evenU_up (x : Float) : EvenU (toR x) (up x) := by
  intro hf
  show toR x = _
  unfold toR
  cases hu : up x with
  | notANumber => rw [hu] at hf; cases hf
  | infinity s => rw [hu] at hf; cases hf
  | zero s => exact fl_zero.symm
  | finite s m e h =>
    obtain ⟨c, -⟩ := up_finite hu
    have hp : 0 < (m : ℝ) * 2 ^ e := mag_pos e h
    have hfl : flp ((m : ℝ) * 2 ^ e) = m * 2 ^ e := by
      unfold flp
      rw [canon_expo h c, mul_div_assoc, div_self (zp e).ne', mul_one, rne_nat]
      norm_cast
    have : EvenP s ((m : ℝ) * 2 ^ e) (.finite s m e h) := fun _ => by rw [hfl]; rfl
    exact this.evenU hp rfl

theorem normalize_evenU (M : Int) (E : Int) (zs : Sign) :
    EvenU ((M : ℝ) * 2 ^ E) (fix (UnpackedFloat.normalize Format.binary64 M E zs)) := by
  unfold UnpackedFloat.normalize
  rcases lt_trichotomy M 0 with h | h | h
  · rw [show compare M 0 = .lt from compare_lt_iff_lt.2 h]
    have hM : ((-M).toNat : ℝ) = -(M : ℝ) := by
      have : ((-M).toNat : Int) = -M := by omega
      exact_mod_cast congrArg (Int.cast : Int → ℝ) this
    have := round_nat_evenP .negative (-M).toNat E (by omega)
    have h' := this.evenU (mag_pos E (by omega))
    rw [hM] at h'
    simpa [sgnR] using h'
  · subst h
    rw [show compare (0 : Int) 0 = .eq from compare_eq_iff_eq.2 rfl]
    simp only [fix_zero]
    intro _
    simp [val, fl_zero]
  · rw [show compare M 0 = .gt from compare_gt_iff_gt.2 h]
    have hM : ((M).toNat : ℝ) = (M : ℝ) := by
      have : ((M).toNat : Int) = M := by omega
      exact_mod_cast congrArg (Int.cast : Int → ℝ) this
    have := round_nat_evenP .positive (M).toNat E (by omega)
    have h' := this.evenU (mag_pos E (by omega))
    rw [hM] at h'
    simpa [sgnR] using h'

/-- A finite sum is the exact sum rounded to nearest even. -/
theorem add_fl {x y : Float} (h : (x + y).isFinite = true) : toR (x + y) = fl (toR x + toR y) := by
  obtain ⟨hx, hy⟩ := finite_of_add h
  have hxr := evenU_up x
  have hyr := evenU_up y
  rw [isFinite_up] at h hx hy
  unfold toR at *
  suffices hh : EvenU (val (up x) + val (up y)) (up (x + y)) from hh h
  rw [up_add]
  have hfx := fix_up x
  have hfy := fix_up y
  cases hux : up x with
  | notANumber => rw [hux] at hx; cases hx
  | infinity s => rw [hux] at hx; cases hx
  | zero s =>
    cases huy : up y with
    | notANumber => rw [huy] at hy; cases hy
    | infinity s => rw [huy] at hy; cases hy
    | zero t =>
      simp only [UnpackedFloat.add]
      split <;> rw [fix_zero] <;> intro _ <;> simp [val, fl_zero]
    | finite t m e h =>
      rw [huy] at hfy hyr
      simp only [UnpackedFloat.add, hfy]
      simpa [val] using hyr
  | finite s m e h =>
    cases huy : up y with
    | notANumber => rw [huy] at hy; cases hy
    | infinity s => rw [huy] at hy; cases hy
    | zero t =>
      rw [hux] at hfx hxr
      simp only [UnpackedFloat.add, hfx]
      simpa [val] using hxr
    | finite t m' e' h' =>
      simp only [UnpackedFloat.add, decreaseExponent]
      have := normalize_evenU (s.apply ((m <<< (e - min e e').toNat : Nat) : Int) +
        t.apply ((m' <<< (e' - min e e').toNat : Nat) : Int)) (min e e') .positive
      have e1 : val (.finite s m e h) + val (.finite t m' e' h') =
          ((s.apply ((m <<< (e - min e e').toNat : Nat) : Int) +
        t.apply ((m' <<< (e' - min e e').toNat : Nat) : Int) : Int) : ℝ) * 2 ^ (min e e') := by
        simp only [val]
        rw [← shift_val m e (min e e') (min_le_left _ _), ← shift_val m' e' (min e e') (min_le_right _ _)]
        rw [Int.cast_add, apply_cast, apply_cast]
        rw [Int.cast_natCast, Int.cast_natCast]; ring
      rw [e1]
      exact this

theorem sub_eq_add_neg' (x y : Float) : x - y = x + -y := up_inj (by
  rw [up_sub, up_add, up_neg', usub_eq])

/-- A finite difference is the exact difference rounded to nearest even. -/
theorem sub_fl {x y : Float} (h : (x - y).isFinite = true) : toR (x - y) = fl (toR x - toR y) := by
  rw [sub_eq_add_neg'] at h ⊢
  rw [add_fl h, neg_toR, sub_eq_add_neg]

/-- A finite product is the exact product rounded to nearest even. -/
theorem mul_fl {x y : Float} (h : (x * y).isFinite = true) : toR (x * y) = fl (toR x * toR y) := by
  obtain ⟨hx, hy⟩ := finite_of_mul h
  rw [isFinite_up] at h hx hy
  unfold toR at *
  suffices hh : EvenU (val (up x) * val (up y)) (up (x * y)) from hh h
  rw [up_mul]
  cases hux : up x with
  | notANumber => rw [hux] at hx; cases hx
  | infinity s => rw [hux] at hx; cases hx
  | zero s =>
    cases huy : up y with
    | notANumber => rw [huy] at hy; cases hy
    | infinity s => rw [huy] at hy; cases hy
    | zero t =>
      simp only [UnpackedFloat.mul]
      rw [fix_zero]; intro _; simp [val, fl_zero]
    | finite t m e h =>
      simp only [UnpackedFloat.mul]
      rw [fix_zero]; intro _; simp [val, fl_zero]
  | finite s m e h =>
    cases huy : up y with
    | notANumber => rw [huy] at hy; cases hy
    | infinity s => rw [huy] at hy; cases hy
    | zero t =>
      simp only [UnpackedFloat.mul]
      rw [fix_zero]; intro _; simp [val, fl_zero]
    | finite t m' e' h' =>
      obtain ⟨c1, -⟩ := up_finite hux
      obtain ⟨c2, -⟩ := up_finite huy
      have hr := round_evenP (s * t) (m * m') (e + e') .exact _ (by exact_mod_cast Nat.mul_pos h h') (rep_exact _) (target_mul h h' c1 c2)
      have h3 := hr.evenU (mag_pos _ (Nat.mul_pos h h'))
      have e1 : val (.finite s m e h) * val (.finite t m' e' h') =
          sgnR (s * t) * (((m * m' : Nat) : ℝ) * (2 : ℝ) ^ (e + e')) := by
        simp only [val, sgnR_mul]
        rw [zpow_add₀ (by norm_num)]
        push_cast; ring
      rw [e1]
      exact h3

theorem divCore_evenP (s : Sign) {m₁ m₂ : Nat} (e₁ e₂ : Int) (h1 : 0 < m₁) (h2 : 0 < m₂) :
    EvenP s ((m₁ * (2 : ℝ) ^ e₁) / (m₂ * (2 : ℝ) ^ e₂))
      (fix (roundWithAccuracy Format.binary64 s (divCore Format.binary64 m₁ e₁ m₂ e₂).1
        (divCore Format.binary64 m₁ e₁ m₂ e₂).2.1 (divCore Format.binary64 m₁ e₁ m₂ e₂).2.2)) := by
  unfold divCore
  simp only [Nat.shiftLeft_eq]
  have hA : Format.binary64.targetExponent (totalExponent m₁ e₁ - totalExponent m₂ e₂) =
      max ((m₁.log2 : Int) + 1 + e₁ - (m₂.log2 + 1 + e₂) - 53) (-1074) := rfl
  rw [hA]
  set A := (m₁.log2 : Int) + 1 + e₁ - (m₂.log2 + 1 + e₂) - 53 with hAd
  set tE := min (e₁ - e₂) (max A (-1074)) with htE
  set sh := (e₁ - e₂ - tE).toNat with hsh
  have hle : tE ≤ e₁ - e₂ := min_le_left _ _
  have hq : tE ≤ target (m₁ * 2 ^ sh / m₂) tE := by
    unfold target
    by_cases hc : tE ≤ -1074
    · exact le_max_of_le_right hc
    · apply le_max_of_le_left
      have hA2 : tE ≤ A := by
        have : tE ≤ max A (-1074) := min_le_right _ _
        rcases le_max_iff.1 this with h | h
        · exact h
        · exact absurd h hc
      have hb : 2 ^ 52 ≤ m₁ * 2 ^ sh / m₂ := by
        rw [Nat.le_div_iff_mul_le h2]
        have l2 : m₂ < 2 ^ (m₂.log2 + 1) := Nat.lt_log2_self
        have l1 : 2 ^ m₁.log2 ≤ m₁ := Nat.log2_self_le h1.ne'
        calc 2 ^ 52 * m₂ ≤ 2 ^ 52 * 2 ^ (m₂.log2 + 1) := Nat.mul_le_mul_left _ l2.le
          _ = 2 ^ (52 + (m₂.log2 + 1)) := (pow_add ..).symm
          _ ≤ 2 ^ (m₁.log2 + sh) := Nat.pow_le_pow_right (by norm_num) (by omega)
          _ = 2 ^ m₁.log2 * 2 ^ sh := pow_add ..
          _ ≤ m₁ * 2 ^ sh := Nat.mul_le_mul_right _ l1
      have : 52 ≤ (m₁ * 2 ^ sh / m₂).log2 := (Nat.le_log2 (by omega)).2 hb
      omega
  have hm1 : (0 : ℝ) < ((m₁ * 2 ^ sh : Nat) : ℝ) := by exact_mod_cast Nat.mul_pos h1 (by positivity)
  have hm2 : (0 : ℝ) < m₂ := by exact_mod_cast h2
  have := round_evenP s (m₁ * 2 ^ sh / m₂) tE _ _ (div_pos hm1 hm2) (rep_fraction (m₁ * 2 ^ sh) m₂ h2) hq
  have e1 : ((m₁ * 2 ^ sh : Nat) : ℝ) / m₂ * 2 ^ tE = (m₁ * (2 : ℝ) ^ e₁) / (m₂ * (2 : ℝ) ^ e₂) := by
    have e2 : (2 : ℝ) ^ e₁ = 2 ^ sh * 2 ^ tE * 2 ^ e₂ := by
      rw [← zpow_natCast, ← zpow_add₀ (by norm_num), ← zpow_add₀ (by norm_num)]
      congr 1; omega
    have h2' : (m₂ : ℝ) ≠ 0 := by exact_mod_cast h2.ne'
    have := (zp e₂).ne'
    rw [e2]; push_cast; field_simp
  rw [e1] at this
  exact this

/-- A finite quotient of finite numbers is the exact quotient rounded to nearest even. -/
theorem div_fl {x y : Float} (hx : x.isFinite = true) (hy : y.isFinite = true) (hy0 : toR y ≠ 0) (h : (x / y).isFinite = true) :
    toR (x / y) = fl (toR x / toR y) := by
  rw [isFinite_up] at h hx hy
  unfold toR at *
  suffices hh : EvenU (val (up x) / val (up y)) (up (x / y)) from hh h
  rw [up_div]
  cases huy : up y with
  | notANumber => rw [huy] at hy; cases hy
  | infinity s => rw [huy] at hy; cases hy
  | zero t => rw [huy] at hy0; exact absurd rfl hy0
  | finite t m' e' h' =>
    cases hux : up x with
    | notANumber => rw [hux] at hx; cases hx
    | infinity s => rw [hux] at hx; cases hx
    | zero s =>
      simp only [UnpackedFloat.div]
      rw [fix_zero]; intro _; simp [val, fl_zero]
    | finite s m e h =>
      have hr := (divCore_evenP (s / t) e e' h h').evenU (div_pos (mag_pos e h) (mag_pos e' h'))
      have e1 : val (.finite s m e h) / val (.finite t m' e' h') =
          sgnR (s / t) * ((m * (2 : ℝ) ^ e) / (m' * (2 : ℝ) ^ e')) := by
        simp only [val, sgnR_div]
        rw [mul_div_mul_comm]
      rw [e1]; exact hr

theorem sqrtCore_evenP {m : Nat} (e : Int) (h1 : 0 < m) :
    EvenP .positive (Real.sqrt (m * (2 : ℝ) ^ e))
      (fix (roundWithAccuracy Format.binary64 .positive (sqrtCore Format.binary64 m e).1
        (sqrtCore Format.binary64 m e).2.1 (sqrtCore Format.binary64 m e).2.2)) := by
  unfold sqrtCore
  simp only [Nat.shiftLeft_eq]
  have hA : Format.binary64.targetExponent ((totalExponent m e + 1).ediv 2) =
      max (((m.log2 : Int) + 1 + e + 1) / 2 - 53) (-1074) := rfl
  have hB : Int.ediv e 2 = e / 2 := rfl
  rw [hA, hB]
  set A := ((m.log2 : Int) + 1 + e + 1) / 2 - 53 with hAd
  set tE := min (e / 2) (max A (-1074)) with htE
  set sh := (e - 2 * tE).toNat with hsh
  have hle : tE ≤ e / 2 := min_le_left _ _
  have hq : tE ≤ target (Nat.sqrt (m * 2 ^ sh)) tE := by
    unfold target
    by_cases hc : tE ≤ -1074
    · exact le_max_of_le_right hc
    · apply le_max_of_le_left
      have hA2 : tE ≤ A := by
        have : tE ≤ max A (-1074) := min_le_right _ _
        rcases le_max_iff.1 this with h | h
        · exact h
        · exact absurd h hc
      have l1 : 2 ^ m.log2 ≤ m := Nat.log2_self_le h1.ne'
      have hb : 2 ^ 104 ≤ m * 2 ^ sh := by
        calc 2 ^ 104 ≤ 2 ^ (m.log2 + sh) := Nat.pow_le_pow_right (by norm_num) (by omega)
          _ = 2 ^ m.log2 * 2 ^ sh := pow_add ..
          _ ≤ m * 2 ^ sh := Nat.mul_le_mul_right _ l1
      have hb2 : 2 ^ 52 ≤ Nat.sqrt (m * 2 ^ sh) := by
        by_contra hcon
        have h3 := Nat.lt_succ_sqrt (m * 2 ^ sh)
        have h4 : Nat.succ (Nat.sqrt (m * 2 ^ sh)) ≤ 2 ^ 52 := by omega
        have h5 := Nat.mul_le_mul h4 h4
        have h6 : (2 : Nat) ^ 104 = 2 ^ 52 * 2 ^ 52 := by norm_num
        omega
      have : 52 ≤ (Nat.sqrt (m * 2 ^ sh)).log2 := (Nat.le_log2 (by omega)).2 hb2
      omega
  have hm1 : (0 : ℝ) < ((m * 2 ^ sh : Nat) : ℝ) := by exact_mod_cast Nat.mul_pos h1 (by positivity)
  have := round_evenP .positive (Nat.sqrt (m * 2 ^ sh)) tE _ _ (Real.sqrt_pos.2 hm1) (rep_sqrt (m * 2 ^ sh)) hq
  have e1 : Real.sqrt ((m * 2 ^ sh : Nat) : ℝ) * 2 ^ tE = Real.sqrt (m * (2 : ℝ) ^ e) := by
    have e2 : (m * (2 : ℝ) ^ e) = ((m * 2 ^ sh : Nat) : ℝ) * ((2 : ℝ) ^ tE * 2 ^ tE) := by
      push_cast
      rw [mul_assoc, ← zpow_natCast, ← zpow_add₀ (by norm_num), ← zpow_add₀ (by norm_num)]
      congr 2; omega
    rw [e2, Real.sqrt_mul (Nat.cast_nonneg _), Real.sqrt_mul_self (zp _).le]
  rw [e1] at this
  exact this

/-- The square root is the exact root rounded to nearest even. -/
theorem sqrt_fl {x : Float} (hx : x.isFinite = true) (h0 : 0 ≤ toR x) (h : (Float.sqrt x).isFinite = true) :
    toR (Float.sqrt x) = fl (Real.sqrt (toR x)) := by
  rw [isFinite_up] at h hx
  unfold toR at *
  suffices hh : EvenU (Real.sqrt (val (up x))) (up (Float.sqrt x)) from hh h
  rw [up_sqrt]
  cases hux : up x with
  | notANumber => rw [hux] at hx; cases hx
  | infinity s => rw [hux] at hx; cases hx
  | zero s =>
    simp only [UnpackedFloat.sqrt]
    rw [fix_zero]; intro _; simp [val, fl_zero]
  | finite s m e h =>
    cases s with
    | negative =>
      rw [hux] at h0
      have : (0 : ℝ) < m * (2 : ℝ) ^ e := mul_pos (by exact_mod_cast h) (zp _)
      simp only [val, sgnR] at h0
      linarith
    | positive =>
      have hr := (sqrtCore_evenP e h).evenU (Real.sqrt_pos.2 (mag_pos e h))
      have e1 : val (.finite .positive m e h) = m * (2 : ℝ) ^ e := by simp [val, sgnR]
      rw [e1, ← one_mul (Real.sqrt _)]
      exact hr

/-! ### Scaling by a power of two -/

theorem log_scale {X : ℝ} (hX : 0 < X) (k : ℤ) : Int.log 2 (X * 2 ^ k) = Int.log 2 X + k := by
  have hp := zp k
  have hY : 0 < X * (2 : ℝ) ^ k := mul_pos hX hp
  apply le_antisymm
  · rw [← Int.lt_add_one_iff, ← Int.lt_zpow_iff_log_lt (by norm_num) hY]
    have h := (Int.lt_zpow_iff_log_lt (b := 2) (by norm_num) hX).2 (Int.lt_add_one_iff.2 le_rfl)
    push_cast at h ⊢
    rw [show Int.log 2 X + k + 1 = (Int.log 2 X + 1) + k by ring, zpow_add₀ (by norm_num)]
    exact mul_lt_mul_of_pos_right h hp
  · rw [← Int.zpow_le_iff_le_log (by norm_num) hY]
    have h := (Int.zpow_le_iff_le_log (b := 2) (by norm_num) hX).2 le_rfl
    push_cast at h ⊢
    rw [zpow_add₀ (by norm_num)]
    exact mul_le_mul_of_nonneg_right h hp.le

/-- `X` is zero or at least the smallest normal number `2^-1022`. -/
def NoUnderflow (X : ℝ) : Prop := X = 0 ∨ 1 / 2 ^ 1022 ≤ |X|

theorem log_normal {X : ℝ} (hX : 0 < X) (h : 1 / 2 ^ 1022 ≤ X) : -1022 ≤ Int.log 2 X := by
  rw [← Int.zpow_le_iff_le_log (by norm_num) hX]
  refine le_trans (le_of_eq ?_) h
  rw [zpow_neg]
  norm_cast
  rw [one_div]

theorem flp_scale {X : ℝ} (hX : 0 < X) (k : ℤ) (h1 : 1 / 2 ^ 1022 ≤ X) (h2 : 1 / 2 ^ 1022 ≤ X * 2 ^ k) : flp (X * 2 ^ k) = flp X * 2 ^ k := by
  have l1 := log_normal hX h1
  have l2 := log_normal (mul_pos hX (zp k)) h2
  have hl := log_scale hX k
  have e : expo (X * 2 ^ k) = expo X + k := by unfold expo; omega
  unfold flp
  rw [e, zpow_add₀ (by norm_num), mul_div_mul_right _ _ (zp k).ne', mul_assoc]

/-- Rounding follows a scaling by a power of two if nothing underflows. -/
theorem fl_scale {X : ℝ} (k : ℤ) (h1 : NoUnderflow X) (h2 : NoUnderflow (X * 2 ^ k)) : fl (X * 2 ^ k) = fl X * 2 ^ k := by
  have hp := zp k
  rcases lt_trichotomy X 0 with h | h | h
  · have g1 := h1.resolve_left h.ne
    have hY : X * 2 ^ k < 0 := mul_neg_of_neg_of_pos h hp
    have g2 := h2.resolve_left hY.ne
    rw [abs_of_neg h] at g1
    rw [abs_of_neg hY, ← neg_mul] at g2
    unfold fl
    rw [if_neg hY.ne, if_neg hY.not_gt, if_neg h.ne, if_neg h.not_gt, ← neg_mul, flp_scale (by linarith) k g1 g2, neg_mul]
  · subst h; simp [fl_zero]
  · have g1 := h1.resolve_left h.ne'
    have hY : 0 < X * 2 ^ k := mul_pos h hp
    have g2 := h2.resolve_left hY.ne'
    rw [abs_of_pos h] at g1
    rw [abs_of_pos hY] at g2
    unfold fl
    rw [if_neg hY.ne', if_pos hY, if_neg h.ne', if_pos h, flp_scale h k g1 g2]

theorem flp_repr {X : ℝ} (hX : 0 < X) (h : Repr53 X) : flp X = X := by
  obtain ⟨m, e, hm, he, rfl⟩ := h
  have hm0 : 0 < m := by
    rcases Nat.eq_zero_or_pos m with h0 | h0
    · rw [h0] at hX; simp at hX
    · exact h0
  have hle : expo ((m : ℝ) * 2 ^ e) ≤ e := by
    unfold expo
    rw [log_scale (by exact_mod_cast hm0)]
    have : Int.log 2 (m : ℝ) < 53 := by
      rw [← Int.lt_zpow_iff_log_lt (by norm_num) (by exact_mod_cast hm0)]
      norm_cast
    omega
  have e1 : (m : ℝ) * 2 ^ e / 2 ^ expo ((m : ℝ) * 2 ^ e) = ((m * 2 ^ (e - expo ((m : ℝ) * 2 ^ e)).toNat : Nat) : ℝ) := by
    rw [mul_div_assoc, ← zpow_sub₀ (by norm_num)]
    push_cast
    rw [← zpow_natCast, Int.toNat_of_nonneg (by omega)]
  unfold flp
  rw [e1, rne_nat, Int.cast_natCast, ← e1, div_mul_cancel₀ _ (zp _).ne']

/-- A grid point is not changed by rounding. -/
theorem fl_grid {X : ℝ} (h : Grid X) : fl X = X := by
  unfold Grid at h
  unfold fl
  rcases lt_trichotomy X 0 with h0 | h0 | h0
  · rw [abs_of_neg h0] at h
    rw [if_neg h0.ne, if_neg h0.not_gt, flp_repr (by linarith) h, neg_neg]
  · rw [if_pos h0, h0]
  · rw [abs_of_pos h0] at h
    rw [if_neg h0.ne', if_pos h0, flp_repr h0 h]

theorem grid_mul_pow {X : ℝ} (h : Grid X) (k : Nat) : Grid (X * 2 ^ (k : ℤ)) := by
  unfold Grid at *
  obtain ⟨m, e, hm, he, h⟩ := h
  refine ⟨m, e + k, hm, by omega, ?_⟩
  rw [abs_mul, h, abs_of_pos (zp _), mul_assoc, ← zpow_add₀ (by norm_num)]

/-- A multiple of `2^-1074` below `2^-1022` is a grid point. -/
theorem grid_small {X : ℝ} (j : ℤ) (h : X = j * (2 : ℝ) ^ (-1074 : ℤ)) (hX : |X| < 1 / 2 ^ 1022) : Grid X := by
  have hp := zp (-1074)
  refine ⟨j.natAbs, -1074, ?_, le_rfl, ?_⟩
  · by_contra hc
    have h1 : (2 : ℝ) ^ 53 ≤ (j.natAbs : ℝ) := by exact_mod_cast Nat.le_of_not_lt hc
    rw [h, abs_mul, abs_of_pos hp, ← Int.cast_abs, Int.abs_eq_natAbs, Int.cast_natCast] at hX
    have h2 : (2 : ℝ) ^ 53 * 2 ^ (-1074 : ℤ) ≤ (j.natAbs : ℝ) * 2 ^ (-1074 : ℤ) := mul_le_mul_of_nonneg_right h1 hp.le
    have h3 : (1 : ℝ) / 2 ^ 1022 ≤ 2 ^ 53 * 2 ^ (-1074 : ℤ) := by
      have e : (2 : ℝ) ^ (-1074 : ℤ) * 2 ^ 53 = 2 ^ (-1021 : ℤ) := by
        rw [← zpow_natCast, ← zpow_add₀ (by norm_num)]; norm_num
      have e2 : (1 : ℝ) / 2 ^ 1022 = 2 ^ (-1022 : ℤ) := by rw [zpow_neg, one_div, ← zpow_natCast]; norm_num
      rw [mul_comm, e, e2]
      exact zpow_le_zpow_right₀ (by norm_num) (by norm_num)
    linarith
  · rw [h, abs_mul, abs_of_pos hp, ← Int.cast_abs, Int.abs_eq_natAbs, Int.cast_natCast]

/-- `y` is the finite number `x` times `2^k`. -/
structure Sc (k : ℤ) (x y : Float) : Prop where
  fx : x.isFinite = true
  fy : y.isFinite = true
  eq : toR y = toR x * 2 ^ k

theorem Sc.symm {k : ℤ} {x y : Float} (h : Sc k x y) : Sc (-k) y x :=
  ⟨h.fy, h.fx, by rw [h.eq, mul_assoc, ← zpow_add₀ (by norm_num)]; simp⟩

theorem Sc.refl {x : Float} (h : x.isFinite = true) : Sc 0 x x := ⟨h, h, by simp⟩

theorem Sc.neg {k : ℤ} {x y : Float} (h : Sc k x y) : Sc k (-x) (-y) :=
  ⟨by rw [neg_finite]; exact h.fx, by rw [neg_finite]; exact h.fy, by rw [neg_toR, neg_toR, h.eq, neg_mul]⟩

theorem Sc.abs {k : ℤ} {x y : Float} (h : Sc k x y) : Sc k x.abs y.abs :=
  ⟨by rw [abs_finite]; exact h.fx, by rw [abs_finite]; exact h.fy, by rw [abs_toR, abs_toR, h.eq, abs_mul, abs_of_pos (zp k)]⟩

theorem fl_add_scale {x y : Float} (k : Nat) : fl ((toR x + toR y) * 2 ^ (k : ℤ)) = fl (toR x + toR y) * 2 ^ (k : ℤ) := by
  by_cases h : |toR x + toR y| < 1 / 2 ^ 1022
  · obtain ⟨a, ha⟩ := grid_int (x := x)
    obtain ⟨b, hb⟩ := grid_int (x := y)
    have hG := grid_small (a + b) (by rw [ha, hb]; push_cast; ring) h
    rw [fl_grid hG, fl_grid (grid_mul_pow hG k)]
  · rw [not_lt] at h
    apply fl_scale _ (Or.inr h) (Or.inr _)
    rw [abs_mul, abs_of_pos (zp k), zpow_natCast]
    have : (1 : ℝ) ≤ 2 ^ k := one_le_pow₀ (by norm_num)
    nlinarith [abs_nonneg (toR x + toR y)]

/-- Sums follow a scaling, without any condition on small numbers. -/
theorem Sc.add {k : ℤ} {x x' y y' : Float} (h : Sc k x x') (h' : Sc k y y') (f : (x + y).isFinite = true) (f' : (x' + y').isFinite = true) :
    Sc k (x + y) (x' + y') := by
  refine ⟨f, f', ?_⟩
  rw [add_fl f, add_fl f']
  rcases Int.eq_nat_or_neg k with ⟨n, rfl | rfl⟩
  · rw [h.eq, h'.eq, ← add_mul, fl_add_scale]
  · have g := h.symm
    have g' := h'.symm
    rw [neg_neg] at g g'
    rw [g.eq, g'.eq, ← add_mul, fl_add_scale, mul_assoc, ← zpow_add₀ (by norm_num)]
    simp

theorem Sc.sub {k : ℤ} {x x' y y' : Float} (h : Sc k x x') (h' : Sc k y y') (f : (x - y).isFinite = true) (f' : (x' - y').isFinite = true) :
    Sc k (x - y) (x' - y') := by
  rw [sub_eq_add_neg'] at *
  rw [sub_eq_add_neg'] at *
  exact h.add h'.neg f f'

theorem Sc.mul {k j : ℤ} {x x' y y' : Float} (h : Sc k x x') (h' : Sc j y y') (u : NoUnderflow (toR x * toR y)) (u' : NoUnderflow (toR x' * toR y'))
    (f : (x * y).isFinite = true) (f' : (x' * y').isFinite = true) : Sc (k + j) (x * y) (x' * y') := by
  have e : toR x' * toR y' = toR x * toR y * 2 ^ (k + j) := by rw [h.eq, h'.eq, zpow_add₀ (by norm_num)]; ring
  refine ⟨f, f', ?_⟩
  rw [e] at u'
  rw [mul_fl f, mul_fl f', e, fl_scale _ u u']

theorem Sc.div {k j : ℤ} {x x' y y' : Float} (h : Sc k x x') (h' : Sc j y y') (h0 : toR y ≠ 0) (u : NoUnderflow (toR x / toR y)) (u' : NoUnderflow (toR x' / toR y'))
    (f : (x / y).isFinite = true) (f' : (x' / y').isFinite = true) : Sc (k - j) (x / y) (x' / y') := by
  have h0' : toR y' ≠ 0 := by rw [h'.eq]; exact mul_ne_zero h0 (zp j).ne'
  have e : toR x' / toR y' = toR x / toR y * 2 ^ (k - j) := by rw [h.eq, h'.eq, zpow_sub₀ (by norm_num)]; rw [mul_div_mul_comm]
  refine ⟨f, f', ?_⟩
  rw [e] at u'
  rw [div_fl h.fx h'.fx h0 f, div_fl h.fy h'.fy h0' f', e, fl_scale _ u u']

theorem NoUnderflow.mono {X : ℝ} (h : NoUnderflow X) (k : Nat) : NoUnderflow (X * 2 ^ (k : ℤ)) := by
  rcases h with h | h
  · left; rw [h, zero_mul]
  · right
    rw [abs_mul, abs_of_pos (zp k), zpow_natCast]
    have : (1 : ℝ) ≤ 2 ^ k := one_le_pow₀ (by norm_num)
    nlinarith [abs_nonneg X]

/-- The product with a power of two is exact, if it is finite and does not underflow. -/
theorem mul_pow_two {x d : Float} {k : ℤ} (hx : x.isFinite = true) (hd : toR d = 2 ^ k) (u : 0 ≤ k ∨ NoUnderflow (toR x * 2 ^ k)) (f : (x * d).isFinite = true) :
    Sc k x (x * d) := by
  refine ⟨hx, f, ?_⟩
  rw [mul_fl f, hd]
  rcases Int.eq_nat_or_neg k with ⟨n, rfl | rfl⟩
  · exact fl_grid (grid_mul_pow (grid_toR x) n)
  · rcases u with u | u
    · have : n = 0 := by omega
      subst this
      simpa using fl_grid (grid_toR x)
    · have u' := u.mono n
      have e : toR x * 2 ^ (-(n : ℤ)) * 2 ^ (n : ℤ) = toR x := by rw [mul_assoc, ← zpow_add₀ (by norm_num)]; simp
      rw [e] at u'
      rw [fl_scale _ u' u, fl_grid (grid_toR x)]

/-- Multiplying by a power of two and then by its inverse changes nothing, not even the sign of a zero. -/
theorem mul_pow_two_back {x d d' : Float} {k : ℤ} (hx : x.isFinite = true) (hd : toR d = 2 ^ k) (hd' : toR d' = 2 ^ (-k))
    (fd : d.isFinite = true) (fd' : d'.isFinite = true) (u : 0 ≤ k ∨ NoUnderflow (toR x * 2 ^ k)) (f : (x * d).isFinite = true) : x * d * d' = x := by
  have s := mul_pow_two hx hd u f
  have e : toR (x * d) * toR d' = toR x := by rw [s.eq, hd', mul_assoc, ← zpow_add₀ (by norm_num)]; simp
  have r := mul_rounds (x * d) d' f fd'
  rw [e] at r
  have r' := r.exact (abs_toR_lt x) (grid_toR x)
  by_cases h0 : toR x = 0
  · obtain ⟨sx, hux⟩ := toR_eq_zero hx h0
    have hp : ∀ {d : Float} {k : ℤ}, d.isFinite = true → toR d = 2 ^ k → ∃ m e h, up d = .finite .positive m e h := by
      intro d k fd hd
      rw [isFinite_up] at fd
      unfold toR at hd
      have hk := zp k
      cases hu : up d with
      | notANumber => rw [hu] at fd; cases fd
      | infinity s => rw [hu] at fd; cases fd
      | zero s => rw [hu] at hd; simp only [val] at hd; linarith
      | finite s m e h =>
        cases s with
        | positive => exact ⟨m, e, h, rfl⟩
        | negative =>
          rw [hu] at hd
          have := mag_pos e h
          simp only [val, sgnR] at hd
          linarith
    obtain ⟨m, ee, hm, hud⟩ := hp fd hd
    obtain ⟨m', ee', hm', hud'⟩ := hp fd' hd'
    have ms : sx * Sign.positive = sx := by cases sx <;> rfl
    apply up_inj
    rw [up_mul, up_mul, hux, hud, hud']
    simp only [UnpackedFloat.mul, fix_zero, ms]
  · exact toR_inj r'.2 r'.1 hx (by rw [r'.2]; exact h0)

/-- A square root never underflows, so it follows a scaling. -/
theorem Sc.sqrt {k : ℤ} {x y : Float} (h : Sc (k + k) x y) (h0 : 0 ≤ toR x) : Sc k (Float.sqrt x) (Float.sqrt y) := by
  have h0' : 0 ≤ toR y := by rw [h.eq]; exact mul_nonneg h0 (zp _).le
  have hs : ∀ z : Float, 0 ≤ toR z → NoUnderflow (Real.sqrt (toR z)) ∧ Real.sqrt (toR z) < ovf := by
    intro z hz
    constructor
    · by_cases hz0 : toR z = 0
      · left; rw [hz0, Real.sqrt_zero]
      · right
        obtain ⟨j, hj⟩ := grid_int (x := z)
        have hp := zp (-1074)
        have hj1 : 1 ≤ j := by
          by_contra hc
          have : (j : ℝ) ≤ 0 := by exact_mod_cast (by omega : j ≤ 0)
          have : toR z ≤ 0 := by rw [hj]; exact mul_nonpos_of_nonpos_of_nonneg this hp.le
          exact hz0 (le_antisymm this hz)
        have hj1' : (1 : ℝ) ≤ j := by exact_mod_cast hj1
        have hb : (2 : ℝ) ^ (-1074 : ℤ) ≤ toR z := by rw [hj]; nlinarith
        rw [abs_of_nonneg (Real.sqrt_nonneg _)]
        apply Real.le_sqrt_of_sq_le
        refine le_trans ?_ hb
        have e2 : (1 : ℝ) / 2 ^ 1022 = 2 ^ (-1022 : ℤ) := by rw [zpow_neg, one_div, ← zpow_natCast]; norm_num
        rw [e2, sq, ← zpow_add₀ (by norm_num)]
        exact zpow_le_zpow_right₀ (by norm_num) (by norm_num)
    · have hlt := abs_toR_lt z
      rw [abs_of_nonneg hz] at hlt
      have ho : (1 : ℝ) ≤ ovf := by
        have := (int_grid (n := 1) (by norm_num)).2
        simp at this
        exact this.le
      rw [Real.sqrt_lt' (by linarith)]
      nlinarith
  have r1 := (sqrt_rounds x h.fx h0).finite (by rw [abs_of_nonneg (Real.sqrt_nonneg _)]; exact (hs x h0).2)
  have r2 := (sqrt_rounds y h.fy h0').finite (by rw [abs_of_nonneg (Real.sqrt_nonneg _)]; exact (hs y h0').2)
  have e : Real.sqrt (toR y) = Real.sqrt (toR x) * 2 ^ k := by
    rw [h.eq, zpow_add₀ (by norm_num), Real.sqrt_mul h0, Real.sqrt_mul_self (zp k).le]
  have u' := (hs y h0').1
  rw [e] at u'
  refine ⟨r1, r2, ?_⟩
  rw [sqrt_fl h.fx h0 r1, sqrt_fl h.fy h0' r2, e, fl_scale _ (hs x h0).1 u']

end Verif.F64
