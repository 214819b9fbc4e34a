import Verif.Lib.F64Round
import Mathlib.Analysis.SpecialFunctions.Sqrt

/-!
# Every binary64 operation returns the correctly rounded exact result
-/

namespace Verif.F64
open Float.Model Float.Model.UnpackedFloat

theorem fix_up (x : Float) : fix (up x) = up x := by
  show UnpackedFloat.unpack Format.binary64 (UnpackedFloat.pack Format.binary64
    (UnpackedFloat.unpack Format.binary64 x.toModel.toBits.toBitVec)) = _
  rw [pack_unpack _ x.toModel.valid]; rfl

theorem canon_lt {m : Nat} {e : Int} (hm : 0 < m) (h : Canon m e) : m < 2 ^ 53 := by
  rw [← log2_lt hm]; rcases h with h | h <;> omega

theorem canon_ge {m : Nat} {e : Int} (h : Canon m e) : -1074 ≤ e := by
  rcases h with h | h <;> omega

theorem up_finite {x : Float} {s m e h} (hx : up x = .finite s m e h) : Canon m e ∧ e ≤ 971 := by
  have := up_canon x
  rw [hx] at this
  exact this

/-- `f` is the real number `X`, correctly rounded (to nearest; overflow gives an infinity). -/
def Rounds (X : ℝ) (f : Float) : Prop :=
  (0 ≤ X ∧ IsRnd .positive X (up f)) ∨ (X ≤ 0 ∧ IsRnd .negative (-X) (up f))

theorem Rounds.of_sign {X : ℝ} {s : Sign} {f : Float} (hX : 0 ≤ X) (h : IsRnd s X (up f)) :
    Rounds (sgnR s * X) f := by
  cases s with
  | positive => left; simpa [sgnR] using ⟨hX, h⟩
  | negative => right; simpa [sgnR] using ⟨hX, h⟩

theorem val_lt_ovf {m : Nat} {e : Int} (hm : m < 2 ^ 53) (he : e ≤ 971) : (m : ℝ) * 2 ^ e < ovf := by
  have hr' : (m : ℝ) ≤ 2 ^ 53 - 1 := by
    have : m + 1 ≤ 2 ^ 53 := by omega
    have : ((m + 1 : Nat) : ℝ) ≤ ((2 ^ 53 : Nat) : ℝ) := by exact_mod_cast this
    push_cast at this
    linarith
  rw [ovf]
  calc (m : ℝ) * 2 ^ e ≤ (2 ^ 53 - 1) * 2 ^ (971 : Int) := by
        apply mul_le_mul hr' (zpow_le_zpow_right₀ (by norm_num) (by omega)) (zp _).le (by norm_num)
    _ = (2 ^ 53 - 1) * 2 ^ 971 := by rw [show (2 : ℝ) ^ (971 : Int) = 2 ^ 971 from zpn 971]
    _ < _ := by
        apply mul_lt_mul_of_pos_right _ (by positivity)
        norm_num

theorem near_self {X : ℝ} (hX : 0 ≤ X) : Near X X :=
  ⟨hX, by rw [sub_self, abs_zero]; exact le_max_of_le_right (by positivity), fun _ _ h => h, fun _ _ h => h⟩

theorem isRnd_zero (s : Sign) : IsRnd s 0 (.zero s) :=
  Or.inr ⟨0, near_self le_rfl, by rw [ovf]; norm_num, by simp [val], rfl, trivial, fun _ => rfl⟩

theorem isRnd_self {s : Sign} {m : Nat} {e : Int} {h : 0 < m} (hc : Canon m e) (he : e ≤ 971) :
    IsRnd s ((m : ℝ) * 2 ^ e) (.finite s m e h) := by
  refine Or.inr ⟨_, near_self (mul_nonneg (Nat.cast_nonneg _) (zp _).le), val_lt_ovf (canon_lt h hc) he, rfl, rfl, hc, ?_⟩
  intro h'
  exfalso
  have : (0 : ℝ) < (m : ℝ) * 2 ^ e := mul_pos (by exact_mod_cast h) (zp _)
  linarith

theorem rounds_self (x : Float) (hx : x.isFinite = true) : Rounds (toR x) x := by
  rw [isFinite_up] at hx
  unfold toR
  cases hu : up x with
  | notANumber => rw [hu] at hx; cases hx
  | infinity s => rw [hu] at hx; cases hx
  | zero s =>
    have := Rounds.of_sign (f := x) le_rfl (hu ▸ isRnd_zero s)
    simpa [val] using this
  | finite s m e h =>
    obtain ⟨hc, he⟩ := up_finite hu
    exact Rounds.of_sign (f := x) (mul_nonneg (Nat.cast_nonneg _) (zp _).le) (hu ▸ isRnd_self hc he)

/-! ### Multiplication -/

theorem sgnR_mul (s t : Sign) : sgnR (s * t) = sgnR s * sgnR t := by
  cases s <;> cases t
  · show (1 : ℝ) = -1 * -1; norm_num
  · show (-1 : ℝ) = -1 * 1; norm_num
  · show (-1 : ℝ) = 1 * -1; norm_num
  · show (1 : ℝ) = 1 * 1; norm_num

theorem rep_exact (M : Nat) : Rep (ExtendedMantissa.ofMantissaAndAccuracy M .exact) (M : ℝ) := rfl

theorem log2_mul_ge {a b : Nat} (ha : a ≠ 0) (hb : b ≠ 0) : a.log2 + b.log2 ≤ (a * b).log2 := by
  rw [Nat.le_log2 (Nat.mul_ne_zero ha hb), pow_add]
  exact Nat.mul_le_mul (Nat.log2_self_le ha) (Nat.log2_self_le hb)

theorem target_mul {m₁ m₂ : Nat} {e₁ e₂ : Int} (h1 : 0 < m₁) (h2 : 0 < m₂) (c1 : Canon m₁ e₁) (c2 : Canon m₂ e₂) :
    e₁ + e₂ ≤ target (m₁ * m₂) (e₁ + e₂) := by
  have := log2_mul_ge h1.ne' h2.ne'
  unfold target
  rcases c1 with c1 | c1 <;> rcases c2 with c2 | c2 <;> omega

theorem mul_rounds (x y : Float) (hx : x.isFinite = true) (hy : y.isFinite = true) :
    Rounds (toR x * toR y) (x * y) := by
  rw [isFinite_up] at hx hy
  unfold toR
  have hm := up_mul x y
  cases hux : up x with
  | notANumber => rw [hux] at hx; cases hx
  | infinity s => rw [hux] at hx; cases hx
  | zero s =>
    cases huy : up y with
    | notANumber => rw [huy] at hy; cases hy
    | infinity s => rw [huy] at hy; cases hy
    | zero t =>
      rw [hux, huy] at hm
      have := Rounds.of_sign (f := x * y) le_rfl (hm ▸ (fix_zero (s * t)).symm ▸ isRnd_zero (s * t))
      simpa [val] using this
    | finite t m e h =>
      rw [hux, huy] at hm
      have := Rounds.of_sign (f := x * y) le_rfl (hm ▸ (fix_zero (s * t)).symm ▸ isRnd_zero (s * t))
      simpa [val] using this
  | finite s m e h =>
    cases huy : up y with
    | notANumber => rw [huy] at hy; cases hy
    | infinity s => rw [huy] at hy; cases hy
    | zero t =>
      rw [hux, huy] at hm
      have := Rounds.of_sign (f := x * y) le_rfl (hm ▸ (fix_zero (s * t)).symm ▸ isRnd_zero (s * t))
      simpa [val] using this
    | finite t m' e' h' =>
      rw [hux, huy] at hm
      obtain ⟨c1, g1⟩ := up_finite hux
      obtain ⟨c2, g2⟩ := up_finite huy
      have hr := round_isRnd (s * t) (m * m') (e + e') .exact _ (rep_exact _) (target_mul h h' c1 c2)
      have := Rounds.of_sign (f := x * y) (mul_nonneg (Nat.cast_nonneg _) (zp _).le) (hm ▸ hr)
      have e1 : val (.finite s m e h) * val (.finite t m' e' h') =
          sgnR (s * t) * (((m * m' : Nat) : ℝ) * (2 : ℝ) ^ (e + e')) := by
        simp only [val, sgnR_mul]
        rw [zpow_add₀ (by norm_num)]
        push_cast; ring
      rw [e1]; exact this

/-! ### Addition and subtraction -/

/-- `Rounds` on views. -/
def RoundsU (X : ℝ) (w : UnpackedFloat) : Prop :=
  (0 ≤ X ∧ IsRnd .positive X w) ∨ (X ≤ 0 ∧ IsRnd .negative (-X) w)

theorem log2_mul_two_pow {M : Nat} (hM : 0 < M) (k : Nat) : (M * 2 ^ k).log2 = M.log2 + k := by
  have h1 := Nat.log2_self_le hM.ne'
  have h2 : M < 2 ^ (M.log2 + 1) := Nat.lt_log2_self
  rw [Nat.log2_eq_iff (Nat.mul_pos hM (by positivity)).ne']
  constructor
  · rw [pow_add]; exact Nat.mul_le_mul_right _ h1
  · rw [show M.log2 + k + 1 = (M.log2 + 1) + k by omega, pow_add]
    exact Nat.mul_lt_mul_of_pos_right h2 (by positivity)

theorem round_nat_isRnd (s : Sign) (M : Nat) (E : Int) (hM : 0 < M) :
    IsRnd s ((M : ℝ) * 2 ^ E) (fix (UnpackedFloat.round Format.binary64 s M E)) := by
  unfold UnpackedFloat.round decreaseExponent
  simp only [targetExponent_eq, Nat.shiftLeft_eq]
  set k := (E - target M E).toNat with hk
  have ht : target (M * 2 ^ k) (E - k) = target M E := by
    unfold target
    rw [log2_mul_two_pow hM]; push_cast; congr 1; omega
  have := round_isRnd s (M * 2 ^ k) (E - k) .exact _ (rep_exact _) (by rw [ht]; omega)
  have e1 : ((M * 2 ^ k : Nat) : ℝ) * (2 : ℝ) ^ (E - k) = M * 2 ^ E := by
    push_cast
    rw [mul_assoc, ← zpow_natCast, ← zpow_add₀ (by norm_num)]
    congr 2; omega
  rw [e1] at this
  exact this

theorem normalize_rounds (M : Int) (E : Int) (zs : Sign) :
    RoundsU ((M : ℝ) * 2 ^ E) (fix (normalize Format.binary64 M E zs)) := by
  unfold normalize
  rcases lt_trichotomy M 0 with h | h | h
  · rw [show compare M 0 = .lt from compare_lt_iff_lt.2 h]
    right
    have hM : ((-M).toNat : ℝ) = -(M : ℝ) := by
      have : ((-M).toNat : Int) = -M := by omega
      exact_mod_cast congrArg (Int.cast : Int → ℝ) this
    have := round_nat_isRnd .negative (-M).toNat E (by omega)
    rw [hM] at this
    refine ⟨?_, by simpa [neg_mul] using this⟩
    have h' : (M : ℝ) ≤ 0 := by exact_mod_cast h.le
    exact mul_nonpos_of_nonpos_of_nonneg h' (zp _).le
  · subst h
    rw [show compare (0 : Int) 0 = .eq from compare_eq_iff_eq.2 rfl]
    simp only [fix_zero]
    cases zs with
    | positive => left; simpa using isRnd_zero .positive
    | negative => right; simpa using isRnd_zero .negative
  · rw [show compare M 0 = .gt from compare_gt_iff_gt.2 h]
    left
    have hM : ((M).toNat : ℝ) = (M : ℝ) := by
      have : ((M).toNat : Int) = M := by omega
      exact_mod_cast congrArg (Int.cast : Int → ℝ) this
    have := round_nat_isRnd .positive (M).toNat E (by omega)
    rw [hM] at this
    refine ⟨?_, this⟩
    have h' : (0 : ℝ) ≤ M := by exact_mod_cast h.le
    exact mul_nonneg h' (zp _).le

theorem apply_cast (s : Sign) (n : Int) : ((s.apply n : Int) : ℝ) = sgnR s * n := by
  cases s <;> simp [Sign.apply, sgnR]

theorem shift_val (m : Nat) (e k : Int) (h : k ≤ e) :
    ((m <<< (e - k).toNat : Nat) : ℝ) * 2 ^ k = m * (2 : ℝ) ^ e := by
  rw [Nat.shiftLeft_eq]
  push_cast
  rw [mul_assoc, ← zpow_natCast, ← zpow_add₀ (by norm_num)]
  congr 2; omega

theorem sgnR_neg (s : Sign) : sgnR (-s) = -sgnR s := by
  cases s
  · show (1 : ℝ) = - -1; norm_num
  · rfl

theorem isRnd_up {x : Float} (hx : x.isFinite = true) : RoundsU (toR x) (up x) := rounds_self x hx

theorem zero_rounds {X : ℝ} (s : Sign) (hX : X = 0) : RoundsU X (.zero s) := by
  subst hX
  cases s with
  | positive => left; simpa using isRnd_zero .positive
  | negative => right; simpa using isRnd_zero .negative

theorem add_rounds (x y : Float) (hx : x.isFinite = true) (hy : y.isFinite = true) :
    Rounds (toR x + toR y) (x + y) := by
  have hxr := isRnd_up hx
  have hyr := isRnd_up hy
  show RoundsU _ (up (x + y))
  rw [isFinite_up] at hx hy
  rw [up_add]
  unfold toR at *
  have hfx := fix_up x
  have hfy := fix_up y
  cases hux : up x with
  | notANumber => rw [hux] at hx; cases hx
  | infinity s => rw [hux] at hx; cases hx
  | zero s =>
    cases huy : up y with
    | notANumber => rw [huy] at hy; cases hy
    | infinity s => rw [huy] at hy; cases hy
    | zero t =>
      simp only [UnpackedFloat.add]
      split
      · rw [fix_zero]; exact zero_rounds _ (by simp [val])
      · rw [fix_zero]; exact zero_rounds _ (by simp [val])
    | finite t m e h =>
      rw [huy] at hfy hyr
      simp only [UnpackedFloat.add, hfy]
      simpa [val] using hyr
  | finite s m e h =>
    cases huy : up y with
    | notANumber => rw [huy] at hy; cases hy
    | infinity s => rw [huy] at hy; cases hy
    | zero t =>
      rw [hux] at hfx hxr
      simp only [UnpackedFloat.add, hfx]
      simpa [val] using hxr
    | finite t m' e' h' =>
      simp only [UnpackedFloat.add, decreaseExponent]
      have := normalize_rounds (s.apply ((m <<< (e - min e e').toNat : Nat) : Int) +
        t.apply ((m' <<< (e' - min e e').toNat : Nat) : Int)) (min e e') .positive
      have e1 : val (.finite s m e h) + val (.finite t m' e' h') =
          ((s.apply ((m <<< (e - min e e').toNat : Nat) : Int) +
        t.apply ((m' <<< (e' - min e e').toNat : Nat) : Int) : Int) : ℝ) * 2 ^ (min e e') := by
        simp only [val]
        rw [← shift_val m e (min e e') (min_le_left _ _), ← shift_val m' e' (min e e') (min_le_right _ _)]
        rw [Int.cast_add, apply_cast, apply_cast]
        rw [Int.cast_natCast, Int.cast_natCast]; ring
      rw [e1]
      exact this

theorem sub_rounds (x y : Float) (hx : x.isFinite = true) (hy : y.isFinite = true) :
    Rounds (toR x - toR y) (x - y) := by
  have hxr := isRnd_up hx
  have hyr := isRnd_up hy
  show RoundsU _ (up (x - y))
  rw [isFinite_up] at hx hy
  rw [up_sub]
  unfold toR at *
  have hfx := fix_up x
  have hfy := fix_up y
  cases hux : up x with
  | notANumber => rw [hux] at hx; cases hx
  | infinity s => rw [hux] at hx; cases hx
  | zero s =>
    cases huy : up y with
    | notANumber => rw [huy] at hy; cases hy
    | infinity s => rw [huy] at hy; cases hy
    | zero t =>
      simp only [UnpackedFloat.sub]
      split
      · rw [fix_zero]; exact zero_rounds _ (by simp [val])
      · rw [fix_zero]; exact zero_rounds _ (by simp [val])
    | finite t m e h =>
      obtain ⟨hc, he⟩ := up_finite huy
      simp only [UnpackedFloat.sub]
      rw [fix_finite _ _ _ _ hc, if_neg (by omega)]
      have e1 : val (.zero s) - val (.finite t m e h) = sgnR (-t) * ((m : ℝ) * 2 ^ e) := by
        simp only [val, sgnR_neg]; ring
      rw [e1]
      have hr : IsRnd (-t) ((m : ℝ) * 2 ^ e) (.finite (-t) m e h) := isRnd_self hc he
      have hX : 0 ≤ (m : ℝ) * 2 ^ e := mul_nonneg (Nat.cast_nonneg _) (zp _).le
      generalize -t = t' at *
      cases t' with
      | positive => left; simpa [sgnR] using ⟨hX, hr⟩
      | negative => right; simpa [sgnR] using ⟨hX, hr⟩
  | finite s m e h =>
    cases huy : up y with
    | notANumber => rw [huy] at hy; cases hy
    | infinity s => rw [huy] at hy; cases hy
    | zero t =>
      rw [hux] at hfx hxr
      simp only [UnpackedFloat.sub, hfx]
      simpa [val] using hxr
    | finite t m' e' h' =>
      simp only [UnpackedFloat.sub, decreaseExponent]
      have := normalize_rounds (s.apply ((m <<< (e - min e e').toNat : Nat) : Int) -
        t.apply ((m' <<< (e' - min e e').toNat : Nat) : Int)) (min e e') .positive
      have e1 : val (.finite s m e h) - val (.finite t m' e' h') =
          ((s.apply ((m <<< (e - min e e').toNat : Nat) : Int) -
        t.apply ((m' <<< (e' - min e e').toNat : Nat) : Int) : Int) : ℝ) * 2 ^ (min e e') := by
        simp only [val]
        rw [← shift_val m e (min e e') (min_le_left _ _), ← shift_val m' e' (min e e') (min_le_right _ _)]
        rw [Int.cast_sub, apply_cast, apply_cast]
        rw [Int.cast_natCast, Int.cast_natCast]; ring
      rw [e1]
      exact this

/-! ### Division -/

theorem rep_fraction (n d : Nat) (hd : 0 < d) :
    Rep (ExtendedMantissa.ofMantissaAndAccuracy (n / d) (accuracyOfFraction (n % d) d)) ((n : ℝ) / d) := by
  have hd' : (0 : ℝ) < d := by exact_mod_cast hd
  have hx : (n : ℝ) / d = (n / d : Nat) + ((n % d : Nat) : ℝ) / d := by
    have h1 : d * (n / d) + n % d = n := Nat.div_add_mod n d
    have h2 : (d : ℝ) * (n / d : Nat) + (n % d : Nat) = n := by exact_mod_cast h1
    rw [← h2]; field_simp
  rw [hx]
  have hlt : n % d < d := Nat.mod_lt _ hd
  have hlt' : ((n % d : Nat) : ℝ) < d := by exact_mod_cast hlt
  generalize n % d = r at *
  generalize n / d = q at *
  unfold accuracyOfFraction
  by_cases h0 : r = 0
  · rw [if_pos h0, h0]; show _ = _; simp [ofMA_mantissa]
  · rw [if_neg h0]
    have hpos : (0 : ℝ) < r := by exact_mod_cast Nat.pos_of_ne_zero h0
    have hp : 0 < (r : ℝ) / d := div_pos hpos hd'
    rcases lt_trichotomy (2 * r) d with h | h | h
    · rw [compare_lt_iff_lt.2 h]
      have : (r : ℝ) / d < 1 / 2 := by
        rw [div_lt_div_iff₀ hd' (by norm_num)]
        have : (2 : ℝ) * r < d := by exact_mod_cast h
        linarith
      exact ⟨by simpa [ofMA_mantissa] using hp, by simpa [ofMA_mantissa] using this⟩
    · rw [compare_eq_iff_eq.2 h]
      have : (r : ℝ) / d = 1 / 2 := by
        rw [div_eq_div_iff hd'.ne' (by norm_num)]
        have : (2 : ℝ) * r = d := by exact_mod_cast h
        linarith
      show _ = _
      rw [this]; simp [ofMA_mantissa]
    · rw [compare_gt_iff_gt.2 h]
      have : 1 / 2 < (r : ℝ) / d := by
        rw [div_lt_div_iff₀ (by norm_num) hd']
        have : (d : ℝ) < 2 * r := by exact_mod_cast h
        linarith
      have h1 : (r : ℝ) / d < 1 := by rw [div_lt_one hd']; exact hlt'
      exact ⟨by simpa [ofMA_mantissa] using this, by simpa [ofMA_mantissa] using h1⟩

theorem divCore_isRnd (s : Sign) {m₁ m₂ : Nat} (e₁ e₂ : Int) (h1 : 0 < m₁) (h2 : 0 < m₂) :
    IsRnd s ((m₁ * (2 : ℝ) ^ e₁) / (m₂ * (2 : ℝ) ^ e₂))
      (fix (roundWithAccuracy Format.binary64 s (divCore Format.binary64 m₁ e₁ m₂ e₂).1
        (divCore Format.binary64 m₁ e₁ m₂ e₂).2.1 (divCore Format.binary64 m₁ e₁ m₂ e₂).2.2)) := by
  unfold divCore
  simp only [Nat.shiftLeft_eq]
  have hA : Format.binary64.targetExponent (totalExponent m₁ e₁ - totalExponent m₂ e₂) =
      max ((m₁.log2 : Int) + 1 + e₁ - (m₂.log2 + 1 + e₂) - 53) (-1074) := rfl
  rw [hA]
  set A := (m₁.log2 : Int) + 1 + e₁ - (m₂.log2 + 1 + e₂) - 53 with hAd
  set tE := min (e₁ - e₂) (max A (-1074)) with htE
  set sh := (e₁ - e₂ - tE).toNat with hsh
  have hle : tE ≤ e₁ - e₂ := min_le_left _ _
  have hq : tE ≤ target (m₁ * 2 ^ sh / m₂) tE := by
    unfold target
    by_cases hc : tE ≤ -1074
    · exact le_max_of_le_right hc
    · apply le_max_of_le_left
      have hA2 : tE ≤ A := by
        have : tE ≤ max A (-1074) := min_le_right _ _
        rcases le_max_iff.1 this with h | h
        · exact h
        · exact absurd h hc
      have hb : 2 ^ 52 ≤ m₁ * 2 ^ sh / m₂ := by
        rw [Nat.le_div_iff_mul_le h2]
        have l2 : m₂ < 2 ^ (m₂.log2 + 1) := Nat.lt_log2_self
        have l1 : 2 ^ m₁.log2 ≤ m₁ := Nat.log2_self_le h1.ne'
        calc 2 ^ 52 * m₂ ≤ 2 ^ 52 * 2 ^ (m₂.log2 + 1) := Nat.mul_le_mul_left _ l2.le
          _ = 2 ^ (52 + (m₂.log2 + 1)) := (pow_add ..).symm
          _ ≤ 2 ^ (m₁.log2 + sh) := Nat.pow_le_pow_right (by norm_num) (by omega)
          _ = 2 ^ m₁.log2 * 2 ^ sh := pow_add ..
          _ ≤ m₁ * 2 ^ sh := Nat.mul_le_mul_right _ l1
      have : 52 ≤ (m₁ * 2 ^ sh / m₂).log2 := (Nat.le_log2 (by omega)).2 hb
      omega
  have := round_isRnd s (m₁ * 2 ^ sh / m₂) tE _ _ (rep_fraction (m₁ * 2 ^ sh) m₂ h2) hq
  have e1 : ((m₁ * 2 ^ sh : Nat) : ℝ) / m₂ * 2 ^ tE = (m₁ * (2 : ℝ) ^ e₁) / (m₂ * (2 : ℝ) ^ e₂) := by
    have e2 : (2 : ℝ) ^ e₁ = 2 ^ sh * 2 ^ tE * 2 ^ e₂ := by
      rw [← zpow_natCast, ← zpow_add₀ (by norm_num), ← zpow_add₀ (by norm_num)]
      congr 1; omega
    have h2' : (m₂ : ℝ) ≠ 0 := by exact_mod_cast h2.ne'
    have := (zp e₂).ne'
    rw [e2]; push_cast; field_simp
  rw [e1] at this
  exact this

theorem sgnR_div (s t : Sign) : sgnR (s / t) = sgnR s / sgnR t := by
  cases s <;> cases t
  · show (1 : ℝ) = -1 / -1; norm_num
  · show (-1 : ℝ) = -1 / 1; norm_num
  · show (-1 : ℝ) = 1 / -1; norm_num
  · show (1 : ℝ) = 1 / 1; norm_num

theorem div_rounds (x y : Float) (hx : x.isFinite = true) (hy : y.isFinite = true) (hy0 : toR y ≠ 0) :
    Rounds (toR x / toR y) (x / y) := by
  rw [isFinite_up] at hx hy
  unfold toR at *
  have hm := up_div x y
  cases huy : up y with
  | notANumber => rw [huy] at hy; cases hy
  | infinity s => rw [huy] at hy; cases hy
  | zero t => rw [huy] at hy0; exact absurd rfl hy0
  | finite t m' e' h' =>
    cases hux : up x with
    | notANumber => rw [hux] at hx; cases hx
    | infinity s => rw [hux] at hx; cases hx
    | zero s =>
      rw [hux, huy] at hm
      have := Rounds.of_sign (f := x / y) le_rfl (hm ▸ (fix_zero (s / t)).symm ▸ isRnd_zero (s / t))
      simpa [val] using this
    | finite s m e h =>
      rw [hux, huy] at hm
      have hr := divCore_isRnd (s / t) e e' h h'
      have := Rounds.of_sign (f := x / y) (div_nonneg (mul_nonneg (Nat.cast_nonneg _) (zp _).le)
        (mul_nonneg (Nat.cast_nonneg _) (zp _).le)) (hm ▸ hr)
      have e1 : val (.finite s m e h) / val (.finite t m' e' h') =
          sgnR (s / t) * ((m * (2 : ℝ) ^ e) / (m' * (2 : ℝ) ^ e')) := by
        simp only [val, sgnR_div]
        rw [mul_div_mul_comm]
      rw [e1]; exact this

/-! ### Square root -/

theorem rep_sqrt (n : Nat) :
    Rep (ExtendedMantissa.ofMantissaAndAccuracy (Nat.sqrt n)
      (if n - Nat.sqrt n * Nat.sqrt n = 0 then .exact
        else .inexact (if n - Nat.sqrt n * Nat.sqrt n ≤ Nat.sqrt n then .lt else .gt))) (Real.sqrt n) := by
  have h1 := Nat.sqrt_le n
  have h2 := Nat.lt_succ_sqrt n
  generalize Nat.sqrt n = r at *
  have h1' : (r : ℝ) * r ≤ n := by exact_mod_cast h1
  have h2' : (n : ℝ) < (r + 1) * (r + 1) := by exact_mod_cast h2
  have hr : (0 : ℝ) ≤ r := Nat.cast_nonneg _
  by_cases h0 : n - r * r = 0
  · rw [if_pos h0]
    show _ = _
    have : n = r * r := by omega
    rw [this]
    simp [ofMA_mantissa, Real.sqrt_mul_self hr]
  · rw [if_neg h0]
    have hlt : (r : ℝ) * r < n := by
      have : r * r < n := by omega
      exact_mod_cast this
    have hgt : (r : ℝ) < Real.sqrt n := Real.lt_sqrt_of_sq_lt (by nlinarith)
    by_cases hc : n - r * r ≤ r
    · rw [if_pos hc]
      have hc' : (n : ℝ) ≤ r * r + r := by
        have : n ≤ r * r + r := by omega
        exact_mod_cast this
      refine ⟨by simpa [ofMA_mantissa] using hgt, ?_⟩
      rw [ofMA_mantissa, Real.sqrt_lt' (by positivity)]
      nlinarith
    · rw [if_neg hc]
      have hc' : (r : ℝ) * r + r + 1 ≤ n := by
        have : r * r + r + 1 ≤ n := by omega
        exact_mod_cast this
      refine ⟨?_, ?_⟩
      · rw [ofMA_mantissa]
        apply Real.lt_sqrt_of_sq_lt; nlinarith
      · rw [ofMA_mantissa, Real.sqrt_lt' (by positivity)]
        nlinarith

theorem sqrtCore_isRnd {m : Nat} (e : Int) (h1 : 0 < m) :
    IsRnd .positive (Real.sqrt (m * (2 : ℝ) ^ e))
      (fix (roundWithAccuracy Format.binary64 .positive (sqrtCore Format.binary64 m e).1
        (sqrtCore Format.binary64 m e).2.1 (sqrtCore Format.binary64 m e).2.2)) := by
  unfold sqrtCore
  simp only [Nat.shiftLeft_eq]
  have hA : Format.binary64.targetExponent ((totalExponent m e + 1).ediv 2) =
      max (((m.log2 : Int) + 1 + e + 1) / 2 - 53) (-1074) := rfl
  have hB : Int.ediv e 2 = e / 2 := rfl
  rw [hA, hB]
  set A := ((m.log2 : Int) + 1 + e + 1) / 2 - 53 with hAd
  set tE := min (e / 2) (max A (-1074)) with htE
  set sh := (e - 2 * tE).toNat with hsh
  have hle : tE ≤ e / 2 := min_le_left _ _
  have hq : tE ≤ target (Nat.sqrt (m * 2 ^ sh)) tE := by
    unfold target
    by_cases hc : tE ≤ -1074
    · exact le_max_of_le_right hc
    · apply le_max_of_le_left
      have hA2 : tE ≤ A := by
        have : tE ≤ max A (-1074) := min_le_right _ _
        rcases le_max_iff.1 this with h | h
        · exact h
        · exact absurd h hc
      have l1 : 2 ^ m.log2 ≤ m := Nat.log2_self_le h1.ne'
      have hb : 2 ^ 104 ≤ m * 2 ^ sh := by
        calc 2 ^ 104 ≤ 2 ^ (m.log2 + sh) := Nat.pow_le_pow_right (by norm_num) (by omega)
          _ = 2 ^ m.log2 * 2 ^ sh := pow_add ..
          _ ≤ m * 2 ^ sh := Nat.mul_le_mul_right _ l1
      have hb2 : 2 ^ 52 ≤ Nat.sqrt (m * 2 ^ sh) := by
        by_contra hcon
        have h3 := Nat.lt_succ_sqrt (m * 2 ^ sh)
        have h4 : Nat.succ (Nat.sqrt (m * 2 ^ sh)) ≤ 2 ^ 52 := by omega
        have h5 := Nat.mul_le_mul h4 h4
        have h6 : (2 : Nat) ^ 104 = 2 ^ 52 * 2 ^ 52 := by norm_num
        omega
      have : 52 ≤ (Nat.sqrt (m * 2 ^ sh)).log2 := (Nat.le_log2 (by omega)).2 hb2
      omega
  have := round_isRnd .positive (Nat.sqrt (m * 2 ^ sh)) tE _ _ (rep_sqrt (m * 2 ^ sh)) hq
  have e1 : Real.sqrt ((m * 2 ^ sh : Nat) : ℝ) * 2 ^ tE = Real.sqrt (m * (2 : ℝ) ^ e) := by
    have e2 : (m * (2 : ℝ) ^ e) = ((m * 2 ^ sh : Nat) : ℝ) * ((2 : ℝ) ^ tE * 2 ^ tE) := by
      push_cast
      rw [mul_assoc, ← zpow_natCast, ← zpow_add₀ (by norm_num), ← zpow_add₀ (by norm_num)]
      congr 2; omega
    rw [e2, Real.sqrt_mul (Nat.cast_nonneg _), Real.sqrt_mul_self (zp _).le]
  rw [e1] at this
  exact this

theorem sqrt_rounds (x : Float) (hx : x.isFinite = true) (h0 : 0 ≤ toR x) :
    Rounds (Real.sqrt (toR x)) (Float.sqrt x) := by
  rw [isFinite_up] at hx
  unfold toR at *
  have hm := up_sqrt x
  cases hux : up x with
  | notANumber => rw [hux] at hx; cases hx
  | infinity s => rw [hux] at hx; cases hx
  | zero s =>
    rw [hux] at hm
    have := Rounds.of_sign (f := Float.sqrt x) le_rfl (hm ▸ (fix_zero s).symm ▸ isRnd_zero s)
    simpa [val] using this
  | finite s m e h =>
    cases s with
    | negative =>
      rw [hux] at h0
      have : (0 : ℝ) < m * (2 : ℝ) ^ e := mul_pos (by exact_mod_cast h) (zp _)
      simp only [val, sgnR] at h0
      linarith
    | positive =>
      rw [hux] at hm
      have hr := sqrtCore_isRnd e h
      have := Rounds.of_sign (s := .positive) (f := Float.sqrt x) (Real.sqrt_nonneg _) (hm ▸ hr)
      simpa [val, sgnR] using this

end Verif.F64
