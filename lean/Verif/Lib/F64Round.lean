import Verif.Lib.F64
import Mathlib.Data.Real.Basic
import Mathlib.Algebra.Order.Field.Basic
import Mathlib.Algebra.Order.Archimedean.Basic
import Mathlib.Tactic.FieldSimp
import Mathlib.Tactic.Positivity

/-!
# Correct rounding of binary64 operations
-/

namespace Verif.F64
open Float.Model Float.Model.UnpackedFloat

/-- The extended mantissa `em` stands for the real number `x` (in units of the last place). -/
def Rep (em : ExtendedMantissa) (x : ℝ) : Prop :=
  match em.roundBit, em.stickyBit with
  | false, false => x = em.mantissa
  | false, true => (em.mantissa : ℝ) < x ∧ x < em.mantissa + 1 / 2
  | true, false => x = em.mantissa + 1 / 2
  | true, true => (em.mantissa : ℝ) + 1 / 2 < x ∧ x < em.mantissa + 1

theorem Rep.shiftRightOne {em : ExtendedMantissa} {x : ℝ} (h : Rep em x) :
    Rep em.shiftRightOne (x / 2) := by
  obtain ⟨m, r, st⟩ := em
  have hm : ((m / 2 : Nat) : ℝ) = (m - (m % 2 : Nat)) / 2 := by
    have h1 : m = 2 * (m / 2) + m % 2 := by omega
    have h2 : (m : ℝ) = 2 * (m / 2 : Nat) + (m % 2 : Nat) := by exact_mod_cast h1
    linarith
  rcases Nat.mod_two_eq_zero_or_one m with h2 | h2 <;>
  rw [h2] at hm <;>
  cases r <;> cases st <;>
  simp only [Rep, ExtendedMantissa.shiftRightOne, h2, hm, Bool.or_self, Bool.or_true, Bool.true_or, Bool.or_false, Bool.false_or] at h ⊢ <;>
  simp <;> norm_num at h ⊢ <;>
  first
    | (constructor <;> linarith [h.1, h.2])
    | linarith
    | (constructor <;> linarith)

theorem Rep.shift {em : ExtendedMantissa} {x : ℝ} (h : Rep em x) (n : Nat) :
    Rep (em >>> n) (x / 2 ^ n) := by
  show Rep (n.repeat ExtendedMantissa.shiftRightOne em) _
  induction n with
  | zero => simpa [Nat.repeat] using h
  | succ k ih =>
    have := ih.shiftRightOne
    rw [pow_succ, ← div_div]
    exact this

theorem shift_mantissa (em : ExtendedMantissa) (n : Nat) : (em >>> n).mantissa = em.mantissa / 2 ^ n := by
  show (n.repeat ExtendedMantissa.shiftRightOne em).mantissa = _
  induction n with
  | zero => simp [Nat.repeat]
  | succ k ih =>
    show (ExtendedMantissa.shiftRightOne _).mantissa = _
    simp only [ExtendedMantissa.shiftRightOne, ih]
    rw [pow_succ, Nat.div_div_eq_div_mul]

/-- Properties of the rounded mantissa. -/
theorem Rep.rounded {em : ExtendedMantissa} {x : ℝ} (h : Rep em x) :
    |(em.roundedMantissa : ℝ) - x| ≤ 1 / 2 ∧ em.mantissa ≤ em.roundedMantissa ∧
    em.roundedMantissa ≤ em.mantissa + 1 ∧ (em.mantissa : ℝ) ≤ x ∧ x < em.mantissa + 1 ∧
    (x = em.mantissa → em.roundedMantissa = em.mantissa) := by
  obtain ⟨m, r, st⟩ := em
  rcases Nat.mod_two_eq_zero_or_one m with h2 | h2 <;>
  cases r <;> cases st <;>
  simp only [Rep, ExtendedMantissa.roundedMantissa, ExtendedMantissa.accuracy,
    Accuracy.roundToNearestEven, h2] at h ⊢ <;>
  refine ⟨?_, by omega, by omega, ?_, ?_, ?_⟩ <;>
  first
    | (intro _; rfl)
    | (rw [h]; simp; done)
    | (rw [abs_le]; push_cast; constructor <;> linarith)
    | (rw [abs_le]; push_cast; constructor <;> linarith [h.1, h.2])
    | linarith
    | linarith [h.1, h.2]
    | (intro h'; omega)
    | (intro h'; exfalso; linarith)
    | (intro h'; exfalso; linarith [h.1, h.2])

/-- The exponent the format wants for mantissa `M` and exponent `E`. -/
def target (M : Nat) (E : Int) : Int := max ((M.log2 : Int) + 1 + E - 53) (-1074)

theorem targetExponent_eq (M : Nat) (E : Int) :
    Format.binary64.targetExponent (totalExponent M E) = target M E := by
  unfold Format.targetExponent totalExponent target
  have h1 : (Format.binary64.mantissaBits : Int) = 53 := by decide
  have h2 : Format.binary64.minExponent = -1074 := by decide
  rw [h1, h2]

/-- The view with (possibly zero or just overflowing) mantissa `r` and exponent `T`. -/
def mk (s : Sign) (r : Nat) (T : Int) : UnpackedFloat :=
  if h : r = 0 then .zero s
  else if r = 2 ^ 53 then .finite s (2 ^ 52) (T + 1) (by norm_num)
  else .finite s r T (Nat.pos_of_ne_zero h)

theorem shiftToTarget_eq (M : Nat) (E : Int) (acc : Accuracy) (h : E ≤ target M E) :
    shiftToTargetExponent Format.binary64 M E acc =
      (ExtendedMantissa.ofMantissaAndAccuracy M acc >>> (target M E - E).toNat, target M E) := by
  unfold shiftToTargetExponent shiftToExponent
  simp only [targetExponent_eq]
  congr 1
  omega

theorem ofMA_mantissa (M : Nat) (acc : Accuracy) :
    (ExtendedMantissa.ofMantissaAndAccuracy M acc).mantissa = M := by
  cases acc with
  | exact => rfl
  | inexact o => cases o <;> rfl

/-- **Rounding.** If `(M, acc)` stands for the real number `x`, rounding `x * 2^E` gives the mantissa
`r` nearest to `x / 2^(T-E)` at the exponent `T` the format prescribes. -/
theorem round_spec (s : Sign) (M : Nat) (E : Int) (acc : Accuracy) (x : ℝ)
    (hrep : Rep (ExtendedMantissa.ofMantissaAndAccuracy M acc) x) (hE : E ≤ target M E) :
    ∃ r q : Nat, roundWithAccuracy Format.binary64 s M E acc = mk s r (target M E) ∧
      |(r : ℝ) - x / 2 ^ (target M E - E).toNat| ≤ 1 / 2 ∧
      q ≤ r ∧ r ≤ q + 1 ∧ q < 2 ^ 53 ∧ (q : ℝ) ≤ x / 2 ^ (target M E - E).toNat ∧
      x / 2 ^ (target M E - E).toNat < q + 1 ∧ (x / 2 ^ (target M E - E).toNat = q → r = q) ∧
      (target M E = -1074 ∨ 2 ^ 52 ≤ q) := by
  have hs := hrep.shift (target M E - E).toNat
  obtain ⟨h1, h2, h3, h4, h4', h5⟩ := hs.rounded
  have hq := shift_mantissa (ExtendedMantissa.ofMantissaAndAccuracy M acc) (target M E - E).toNat
  rw [ofMA_mantissa] at hq
  set em := ExtendedMantissa.ofMantissaAndAccuracy M acc >>> (target M E - E).toNat with hem
  set q := em.mantissa with hqdef
  set r := em.roundedMantissa with hr
  have hTE : (target M E - E).toNat + E = target M E := by omega
  have hT1 : (M.log2 : Int) + 1 + E - 53 ≤ target M E := le_max_left _ _
  have hT2 : -1074 ≤ target M E := le_max_right _ _
  have hMlt : M < 2 ^ (M.log2 + 1) := Nat.lt_log2_self
  have hq53 : q < 2 ^ 53 := by
    rw [hq, Nat.div_lt_iff_lt_mul (by positivity), ← pow_add]
    exact lt_of_lt_of_le hMlt (Nat.pow_le_pow_right (by norm_num) (by omega))
  have hq52 : target M E = -1074 ∨ 2 ^ 52 ≤ q := by
    rcases max_choice ((M.log2 : Int) + 1 + E - 53) (-1074) with hmax | hmax
    · right
      have hT : target M E = (M.log2 : Int) + 1 + E - 53 := hmax
      have hM0 : M ≠ 0 := by
        rintro rfl
        have : (Nat.log2 0 : Int) = 0 := by decide
        omega
      have hMge : 2 ^ M.log2 ≤ M := Nat.log2_self_le hM0
      rw [hq, Nat.le_div_iff_mul_le (by positivity), ← pow_add]
      refine le_trans (Nat.pow_le_pow_right (by norm_num) (by omega)) hMge
    · exact Or.inl hmax
  refine ⟨r, q, ?_, h1, h2, h3, hq53, h4, h4', h5, hq52⟩
  unfold roundWithAccuracy
  rw [shiftToTarget_eq M E acc hE]
  simp only
  rw [← hem, ← hr]
  have hlog : r < 2 ^ 53 → 2 ^ 52 ≤ q → r.log2 = 52 := fun h h' => by
    rw [Nat.log2_eq_iff (by omega)]; omega
  by_cases hr0 : r = 2 ^ 53
  · have hT3 : target r (target M E) = target M E + 1 := by
      have : r.log2 = 53 := by rw [hr0]; exact Nat.log2_two_pow
      unfold target at hT2 ⊢
      rw [this]; omega
    rw [shiftToTarget_eq _ _ _ (by omega)]
    simp only [shift_mantissa, ofMA_mantissa, hT3]
    have e1 : (target M E + 1 - target M E).toNat = 1 := by omega
    have e2 : r / 2 ^ (target M E + 1 - target M E).toNat = 2 ^ 52 := by
      rw [e1, hr0]; norm_num
    rw [dif_neg (by rw [e2]; norm_num)]
    unfold mk
    rw [dif_neg (by rw [hr0]; norm_num), if_pos hr0]
    simp only [e2]
  · have hr53 : r < 2 ^ 53 := by omega
    have hT3 : target r (target M E) = target M E := by
      rcases hq52 with h | h
      · rw [h]
        have : r.log2 ≤ 52 := by
          by_cases hr00 : r = 0
          · rw [hr00]; decide
          · have := (log2_lt (Nat.pos_of_ne_zero hr00)).2 hr53
            omega
        unfold target
        omega
      · have := hlog hr53 h
        unfold target at hT2 ⊢
        rw [this]; omega
    rw [shiftToTarget_eq _ _ _ (by omega)]
    simp only [shift_mantissa, ofMA_mantissa, hT3]
    simp only [sub_self, Int.toNat_zero, pow_zero, Nat.div_one]
    unfold mk
    by_cases h0 : r = 0
    · rw [dif_pos h0, dif_pos h0]
    · rw [dif_neg h0, dif_neg h0, if_neg hr0]

/-! ### Values -/

theorem zp (T : Int) : (0 : ℝ) < (2 : ℝ) ^ T := zpow_pos (by norm_num) T
theorem zpn (n : Nat) : (2 : ℝ) ^ (n : Int) = 2 ^ n := zpow_natCast 2 n

/-- `±1`. -/
def sgnR : Sign → ℝ
  | .negative => -1
  | .positive => 1

/-- The real number a view stands for (`0` for infinities and `NaN`). -/
noncomputable def val : UnpackedFloat → ℝ
  | .finite s m e _ => sgnR s * (m * (2 : ℝ) ^ e)
  | _ => 0

/-- The real number a finite float stands for. -/
noncomputable def toR (x : Float) : ℝ := val (up x)

/-- Magnitudes with a 53-bit mantissa, ignoring the upper limit of the exponent. -/
def Repr53 (G : ℝ) : Prop := ∃ (m : Nat) (e : Int), m < 2 ^ 53 ∧ -1074 ≤ e ∧ G = m * (2 : ℝ) ^ e

/-- `Y` is the nonnegative real `X` rounded to nearest. -/
structure Near (X Y : ℝ) : Prop where
  nonneg : 0 ≤ Y
  err : |Y - X| ≤ max (X / 2 ^ 53) (1 / 2 ^ 1075)
  lower : ∀ G, Repr53 G → G ≤ X → G ≤ Y
  upper : ∀ G, Repr53 G → X ≤ G → Y ≤ G

/-- Reals at least this large round to infinity. -/
noncomputable def ovf : ℝ := (2 ^ 53 - 1 / 2) * 2 ^ 971

/-- `w` is `X ≥ 0` with sign `s`, rounded. -/
def IsRnd (s : Sign) (X : ℝ) (w : UnpackedFloat) : Prop :=
  (w = .infinity s ∧ ovf ≤ X) ∨
  (∃ Y, Near X Y ∧ Y < ovf ∧ val w = sgnR s * Y ∧ w.isFinite = true ∧ CanonU w ∧ (Y = 0 → w = .zero s))

theorem val_mk (s : Sign) (r : Nat) (T : Int) : val (mk s r T) = sgnR s * (r * (2 : ℝ) ^ T) := by
  unfold mk
  by_cases h : r = 0
  · rw [dif_pos h, h]; simp [val]
  · rw [dif_neg h]
    by_cases h2 : r = 2 ^ 53
    · rw [if_pos h2, h2]
      simp only [val]
      rw [zpow_add₀ (by norm_num)]
      push_cast
      ring
    · rw [if_neg h2]; rfl

theorem near_of {x : ℝ} {r q : Nat} {T E : Int} (hTE : E ≤ T) (hT : -1074 ≤ T)
    (h1 : |(r : ℝ) - x / 2 ^ (T - E).toNat| ≤ 1 / 2)
    (h2 : q ≤ r) (h3 : r ≤ q + 1) (h4 : (q : ℝ) ≤ x / 2 ^ (T - E).toNat)
    (h4' : x / 2 ^ (T - E).toNat < q + 1)
    (h5 : x / 2 ^ (T - E).toNat = q → r = q) (h6 : T = -1074 ∨ 2 ^ 52 ≤ q) :
    Near (x * (2 : ℝ) ^ E) (r * (2 : ℝ) ^ T) := by
  have hX : x * (2 : ℝ) ^ E = x / 2 ^ (T - E).toNat * (2 : ℝ) ^ T := by
    have : (2 : ℝ) ^ T = (2 : ℝ) ^ E * 2 ^ (T - E).toNat := by
      rw [← zpow_natCast, ← zpow_add₀ (by norm_num)]
      congr 1; omega
    rw [this]; field_simp
  rw [hX]
  set y := x / 2 ^ (T - E).toNat
  have hp : (0 : ℝ) < 2 ^ T := zp T
  refine ⟨mul_nonneg (Nat.cast_nonneg r) hp.le, ?_, ?_, ?_⟩
  · rw [← sub_mul, abs_mul, abs_of_pos hp]
    rcases h6 with h | h
    · apply le_max_of_le_right
      have e1 : (2 : ℝ) ^ T = 1 / 2 ^ 1074 := by
        rw [h, zpow_neg, one_div]; norm_cast
      rw [e1]
      calc |(r : ℝ) - y| * (1 / 2 ^ 1074) ≤ 1 / 2 * (1 / 2 ^ 1074) := by
            apply mul_le_mul_of_nonneg_right h1 (by positivity)
        _ = 1 / 2 ^ 1075 := by
            rw [show (2 : ℝ) ^ 1075 = 2 ^ 1074 * 2 from pow_succ 2 1074, one_div_mul_one_div, mul_comm]
    · apply le_max_of_le_left
      have h' : (4503599627370496 : ℝ) ≤ q := by norm_num at h; exact_mod_cast h
      have h7 : 1 / 2 ≤ y / 2 ^ 53 := by
        rw [le_div_iff₀ (by positivity)]
        norm_num
        linarith
      calc |(r : ℝ) - y| * 2 ^ T ≤ 1 / 2 * 2 ^ T := mul_le_mul_of_nonneg_right h1 hp.le
        _ ≤ (y / 2 ^ 53) * 2 ^ T := mul_le_mul_of_nonneg_right h7 hp.le
        _ = _ := by ring
  · rintro G ⟨m, e, hm, he, rfl⟩ hG
    by_cases hcase : T ≤ e
    · have e1 : (2 : ℝ) ^ e = 2 ^ (e - T).toNat * (2 : ℝ) ^ T := by
        rw [← zpow_natCast, ← zpow_add₀ (by norm_num)]
        congr 1; omega
      rw [e1, ← mul_assoc] at hG ⊢
      have hk := le_of_mul_le_mul_right hG hp
      have hk2 : ((m * 2 ^ (e - T).toNat : Nat) : ℝ) < ((q + 1 : Nat) : ℝ) := by
        push_cast; linarith
      have hk3 : m * 2 ^ (e - T).toNat < q + 1 := by exact_mod_cast hk2
      have hk4 : m * 2 ^ (e - T).toNat ≤ r := by omega
      apply mul_le_mul_of_nonneg_right _ hp.le
      exact_mod_cast hk4
    · have hq : 2 ^ 52 ≤ q := by rcases h6 with h | h <;> omega
      have hr : (2 : ℝ) ^ 52 ≤ r := by exact_mod_cast hq.trans h2
      have hm' : (m : ℝ) ≤ 2 ^ 53 := by exact_mod_cast hm.le
      calc (m : ℝ) * 2 ^ e ≤ 2 ^ 53 * 2 ^ (T - 1) := by
            apply mul_le_mul hm' (zpow_le_zpow_right₀ (by norm_num) (by omega)) (zp _).le (by norm_num)
        _ = 2 ^ 52 * 2 ^ T := by rw [zpow_sub₀ (by norm_num)]; norm_num; ring
        _ ≤ r * 2 ^ T := mul_le_mul_of_nonneg_right hr hp.le
  · rintro G ⟨m, e, hm, he, rfl⟩ hG
    by_cases hcase : T ≤ e
    · have e1 : (2 : ℝ) ^ e = 2 ^ (e - T).toNat * (2 : ℝ) ^ T := by
        rw [← zpow_natCast, ← zpow_add₀ (by norm_num)]
        congr 1; omega
      rw [e1, ← mul_assoc] at hG ⊢
      have hk := le_of_mul_le_mul_right hG hp
      have hk2 : (q : ℝ) ≤ ((m * 2 ^ (e - T).toNat : Nat) : ℝ) := by
        push_cast; linarith
      have hk3 : q ≤ m * 2 ^ (e - T).toNat := by exact_mod_cast hk2
      have hk4 : r ≤ m * 2 ^ (e - T).toNat := by
        rcases Nat.lt_or_ge q (m * 2 ^ (e - T).toNat) with h | h
        · omega
        · have hqe : q = m * 2 ^ (e - T).toNat := by omega
          have : y = q := by
            apply le_antisymm _ h4
            rw [hqe]; push_cast; exact hk
          rw [h5 this, hqe]
      apply mul_le_mul_of_nonneg_right _ hp.le
      exact_mod_cast hk4
    · exfalso
      have hq : 2 ^ 52 ≤ q := by rcases h6 with h | h <;> omega
      have hy : (2 : ℝ) ^ 52 ≤ y := by
        have : (2 : ℝ) ^ 52 ≤ q := by exact_mod_cast hq
        linarith
      have hm' : (m : ℝ) < 2 ^ 53 := by exact_mod_cast hm
      have : (m : ℝ) * 2 ^ e < y * 2 ^ T := by
        calc (m : ℝ) * 2 ^ e < 2 ^ 53 * 2 ^ e := mul_lt_mul_of_pos_right hm' (zp _)
          _ ≤ 2 ^ 53 * 2 ^ (T - 1) := by
              apply mul_le_mul_of_nonneg_left (zpow_le_zpow_right₀ (by norm_num) (by omega)) (by positivity)
          _ = 2 ^ 52 * 2 ^ T := by rw [zpow_sub₀ (by norm_num)]; norm_num; ring
          _ ≤ y * 2 ^ T := mul_le_mul_of_nonneg_right hy hp.le
      linarith

theorem fix_mk (s : Sign) (r : Nat) (T : Int) (hr : r ≤ 2 ^ 53) (hT : -1074 ≤ T)
    (h6 : T = -1074 ∨ 2 ^ 52 ≤ r) :
    (fix (mk s r T) = mk s r T ∧ (mk s r T).isFinite = true ∧ CanonU (mk s r T) ∧
      (r : ℝ) * 2 ^ T < ovf ∧ (r = 0 → mk s r T = .zero s)) ∨
    (fix (mk s r T) = .infinity s ∧ ((r = 2 ^ 53 ∧ T = 971) ∨ (972 ≤ T))) := by
  unfold mk
  by_cases h : r = 0
  · left
    rw [dif_pos h]
    refine ⟨fix_zero s, rfl, trivial, ?_, fun _ => rfl⟩
    rw [h, ovf]; norm_num
  · rw [dif_neg h]
    by_cases h2 : r = 2 ^ 53
    · rw [if_pos h2]
      have hc : Canon (2 ^ 52) (T + 1) := Or.inl ⟨Nat.log2_two_pow, by omega⟩
      rw [fix_finite _ _ _ _ hc]
      by_cases hT9 : 972 ≤ T + 1
      · right; rw [if_pos hT9]; exact ⟨rfl, by omega⟩
      · left; rw [if_neg hT9]
        refine ⟨rfl, rfl, hc, ?_, fun h' => absurd h' h⟩
        rw [h2, ovf, show ((2 ^ 53 : Nat) : ℝ) = 2 ^ 53 by norm_num]
        calc (2 : ℝ) ^ 53 * 2 ^ T ≤ 2 ^ 53 * 2 ^ (970 : Int) := by
              apply mul_le_mul_of_nonneg_left (zpow_le_zpow_right₀ (by norm_num) (by omega)) (by positivity)
          _ = 2 ^ 52 * 2 ^ 971 := by rw [show (2 : ℝ) ^ (970 : Int) = 2 ^ 970 from zpn 970, show (2 : ℝ) ^ 971 = 2 ^ 970 * 2 from pow_succ 2 970]; ring
          _ < _ := by
              apply mul_lt_mul_of_pos_right _ (by positivity)
              norm_num
    · rw [if_neg h2]
      have hc : Canon r T := by
        rcases Nat.lt_or_ge r (2 ^ 52) with h' | h'
        · exact Or.inr ⟨(log2_lt (by omega)).2 h', by omega⟩
        · refine Or.inl ⟨?_, hT⟩
          rw [Nat.log2_eq_iff (by omega)]; omega
      rw [fix_finite _ _ _ _ hc]
      by_cases hT9 : 972 ≤ T
      · right; rw [if_pos hT9]; exact ⟨rfl, Or.inr hT9⟩
      · left; rw [if_neg hT9]
        refine ⟨rfl, rfl, hc, ?_, fun h' => absurd h' h⟩
        have hr' : (r : ℝ) ≤ 2 ^ 53 - 1 := by
          have : r + 1 ≤ 2 ^ 53 := by omega
          have : ((r + 1 : Nat) : ℝ) ≤ ((2 ^ 53 : Nat) : ℝ) := by exact_mod_cast this
          push_cast at this
          linarith
        rw [ovf]
        calc (r : ℝ) * 2 ^ T ≤ (2 ^ 53 - 1) * 2 ^ (971 : Int) := by
              apply mul_le_mul hr' (zpow_le_zpow_right₀ (by norm_num) (by omega)) (zp _).le (by norm_num)
          _ = (2 ^ 53 - 1) * 2 ^ 971 := by rw [show (2 : ℝ) ^ (971 : Int) = 2 ^ 971 from zpn 971]
          _ < _ := by
              apply mul_lt_mul_of_pos_right _ (by positivity)
              norm_num

/-- Rounding yields the rounded value. -/
theorem round_isRnd (s : Sign) (M : Nat) (E : Int) (acc : Accuracy) (x : ℝ)
    (hrep : Rep (ExtendedMantissa.ofMantissaAndAccuracy M acc) x) (hE : E ≤ target M E) :
    IsRnd s (x * (2 : ℝ) ^ E) (fix (roundWithAccuracy Format.binary64 s M E acc)) := by
  obtain ⟨r, q, e0, h1, h2, h3, h53, h4, h4', h5, h6⟩ := round_spec s M E acc x hrep hE
  have hT2 : -1074 ≤ target M E := le_max_right _ _
  set T := target M E
  have hn := near_of hE hT2 h1 h2 h3 h4 h4' h5 h6
  rw [e0]
  rcases fix_mk s r T (by omega) hT2 (by omega) with ⟨f1, f2, f3, f4, f5⟩ | ⟨f1, f2⟩
  · right
    refine ⟨_, hn, f4, ?_, ?_, ?_, ?_⟩
    · rw [f1, val_mk]
    · rw [f1, f2]
    · rw [f1]; exact f3
    · intro h
      rw [f1]; apply f5
      have hp : (0 : ℝ) < 2 ^ T := zp T
      rcases mul_eq_zero.1 h with h | h
      · exact_mod_cast h
      · exact absurd h hp.ne'
  · left
    refine ⟨f1, ?_⟩
    have hX : x * (2 : ℝ) ^ E = x / 2 ^ (T - E).toNat * (2 : ℝ) ^ T := by
      have : (2 : ℝ) ^ T = (2 : ℝ) ^ E * 2 ^ (T - E).toNat := by
        rw [← zpow_natCast, ← zpow_add₀ (by norm_num)]
        congr 1; omega
      rw [this]; field_simp
    rw [hX, ovf]
    rcases f2 with ⟨g1, g2⟩ | g2
    · have : (2 : ℝ) ^ 53 - 1 / 2 ≤ x / 2 ^ (T - E).toNat := by
        have h7 := (abs_le.1 h1).2
        rw [g1] at h7
        push_cast at h7
        linarith
      rw [g2] at this ⊢
      rw [show (2 : ℝ) ^ (971 : Int) = 2 ^ 971 from zpn 971]
      exact mul_le_mul_of_nonneg_right this (by positivity)
    · have hq : 2 ^ 52 ≤ q := by omega
      have hy : (2 : ℝ) ^ 52 ≤ x / 2 ^ (T - E).toNat := by
        have : (2 : ℝ) ^ 52 ≤ q := by exact_mod_cast hq
        linarith
      calc ((2 : ℝ) ^ 53 - 1 / 2) * 2 ^ 971 ≤ 2 ^ 53 * 2 ^ 971 := by
            apply mul_le_mul_of_nonneg_right _ (by positivity); norm_num
        _ = 2 ^ 52 * 2 ^ (972 : Int) := by
            rw [show (2 : ℝ) ^ (972 : Int) = 2 ^ 972 from zpn 972, show (2 : ℝ) ^ 972 = 2 ^ 971 * 2 from pow_succ 2 971]; ring
        _ ≤ _ := by
            apply mul_le_mul hy (zpow_le_zpow_right₀ (by norm_num) g2) (zp _).le
            exact le_trans (by positivity) hy

end Verif.F64
