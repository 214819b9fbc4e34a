import Verif.Lib.F64Nrm2
import Verif.Props.Env

/-!
# C40: `ilaenv` with `ispec = 6`, block sizes of particular routines
-/

namespace Verif
open Float.Model Float.Model.UnpackedFloat F64

namespace F64

theorem shiftRight_mantissa (n : Nat) (em : ExtendedMantissa) : (em >>> n).mantissa = em.mantissa / 2 ^ n := by
  show (n.repeat ExtendedMantissa.shiftRightOne em).mantissa = _
  induction n with
  | zero => simp [Nat.repeat]
  | succ n ih =>
    show (n.repeat ExtendedMantissa.shiftRightOne em).mantissa / 2 = _
    rw [ih, Nat.div_div_eq_div_mul, pow_succ]

theorem roundToInt_pos (m : Nat) (e : Int) : roundToInt .positive m e = ⌊(m : ℝ) * 2 ^ e⌋ := by
  have h0 : roundToInt .positive m e = (((m <<< (e - 0).toNat) / 2 ^ (0 - (e - (e - 0).toNat)).toNat : Nat) : Int) := by
    show (((ExtendedMantissa.ofMantissaAndAccuracy (m <<< (e - 0).toNat) .exact >>> (0 - (e - (e - 0).toNat)).toNat).mantissa : Nat) : Int) = _
    rw [shiftRight_mantissa]; rfl
  rw [h0, Nat.shiftLeft_eq]
  rcases le_total 0 e with h | h
  · obtain ⟨d, rfl⟩ := Int.eq_ofNat_of_zero_le h
    rw [show ((d : Int) - 0).toNat = d by omega, show (0 - ((d : Int) - d)).toNat = 0 by omega, pow_zero, Nat.div_one, zpow_natCast]
    rw [show (m : ℝ) * 2 ^ d = ((m * 2 ^ d : Nat) : ℝ) by push_cast; rfl, Int.floor_natCast]
  · obtain ⟨d, rfl⟩ : ∃ d : Nat, e = -(d : Int) := ⟨e.natAbs, by omega⟩
    rw [show (-(d : Int) - 0).toNat = 0 by omega, show (0 - (-(d : Int) - (0 : Nat))).toNat = d by omega, pow_zero, mul_one, zpow_neg, zpow_natCast]
    symm
    rw [Int.floor_eq_iff]
    have hp : (0 : ℝ) < 2 ^ d := by positivity
    have h1 : m / 2 ^ d * 2 ^ d ≤ m := Nat.div_mul_le_self _ _
    have h2 : m < (m / 2 ^ d + 1) * 2 ^ d := by
      have := Nat.lt_div_mul_add (a := m) (b := 2 ^ d) (by positivity)
      linarith
    constructor
    · rw [← div_eq_mul_inv, le_div_iff₀ hp]; exact_mod_cast h1
    · rw [← div_eq_mul_inv, div_lt_iff₀ hp]; exact_mod_cast h2

/-- Truncation of non-negative floats. -/
theorem toUInt64_floor {x : Float} (hx : x.isFinite = true) (h0 : 0 ≤ toR x) (h1 : toR x < 2 ^ 53) : (x.toUInt64.toNat : Int) = ⌊toR x⌋ := by
  have key : (up x).toInt 0 (UInt64.size - 1) = ⌊toR x⌋ := by
    rw [isFinite_up] at hx
    unfold toR at *
    cases hu : up x with
    | notANumber => rw [hu] at hx; cases hx
    | infinity s => rw [hu] at hx; cases hx
    | zero s => simp [UnpackedFloat.toInt, val]
    | finite s m e hm =>
      rw [hu] at h0
      cases s with
      | positive =>
        show roundToInt .positive m e = _
        rw [roundToInt_pos]
        simp [val, sgnR]
      | negative =>
        have : val (.finite .negative m e hm) < 0 := by
          simp only [val, sgnR]
          have : (0 : ℝ) < m * 2 ^ e := mul_pos (by exact_mod_cast hm) (zp e)
          linarith
        linarith
  have e1 : x.toUInt64 = UInt64.ofNatClamp ((up x).toInt 0 (UInt64.size - 1)).toNat := rfl
  have hb : ⌊toR x⌋ < 2 ^ 53 := by
    rw [Int.floor_lt]; push_cast; norm_num at h1 ⊢; exact h1
  have hb0 : 0 ≤ ⌊toR x⌋ := Int.floor_nonneg.2 h0
  rw [e1, key, UInt64.ofNatClamp]
  rw [dif_pos (by show (⌊toR x⌋).toNat < 2 ^ 64; omega)]
  show ((⌊toR x⌋.toNat : Nat) : Int) = _
  omega

theorem toR_half : (0.5 : Float).isFinite = true ∧ toR 0.5 = 1 / 2 := by
  obtain ⟨h1, h2⟩ := toR_of (x := 0.5) (show up (0.5 : Float) = .finite .positive (2 ^ 52) (-53) (by norm_num) from rfl)
  exact ⟨h1, by rw [h2]; norm_num [sgnR]⟩
theorem toR_16 : (1.6 : Float).isFinite = true ∧ toR 1.6 = 7205759403792794 / 2 ^ 52 := by
  obtain ⟨h1, h2⟩ := toR_of (x := 1.6) (show up (1.6 : Float) = .finite .positive 7205759403792794 (-52) (by norm_num) from rfl)
  exact ⟨h1, by rw [h2]; norm_num [sgnR]⟩

/-- `x.round() as i32` when the distance to the nearest integer `N` is clear. -/
theorem roundI32_near {x : Float} (hx : x.isFinite = true) (N : Nat) (hN : N < 2 ^ 40) (h : |(|toR x|) - N| ≤ 9 / 20) :
    F64.roundI32 x = max (-2147483648) (min 2147483647 (if toR x < 0 then -(N : Int) else N)) := by
  have hx' := abs_fin hx
  have hNr : (N : ℝ) ≤ 2 ^ 40 := by exact_mod_cast hN.le
  have hh := _root_.abs_le.1 h
  have ha := abs_nonneg (toR x)
  have hlt : |toR x| < 2 ^ 53 := by linarith [hh.2, show (2 : ℝ) ^ 40 + 1 < 2 ^ 53 by norm_num]
  have hf := toUInt64_floor hx' (by rw [abs_toR]; exact ha) (by rw [abs_toR]; exact hlt)
  rw [abs_toR] at hf
  have htl : (x.abs.toUInt64.toNat) < 2 ^ 53 := by
    have : ⌊|toR x|⌋ < 2 ^ 53 := by rw [Int.floor_lt]; push_cast; norm_num at hlt ⊢; exact hlt
    omega
  have ht := toFloat_exact x.abs.toUInt64 htl
  have hr := sub_rounds x.abs x.abs.toUInt64.toFloat hx' ht.1
  rw [abs_toR, ht.2] at hr
  have hfr0 : 0 ≤ |toR x| - (x.abs.toUInt64.toNat : ℝ) := by
    have := Int.floor_le |toR x|
    rw [← hf] at this
    push_cast at this; linarith
  have hfr1 : |toR x| - (x.abs.toUInt64.toNat : ℝ) < 1 := by
    have := Int.lt_floor_add_one |toR x|
    rw [← hf] at this
    push_cast at this; linarith
  have hfin := hr.finite (by rw [abs_of_nonneg hfr0]; linarith [one_lt_ovf])
  have herr := (hr.fl hfin).err_le (B := 1) (by rw [abs_of_nonneg hfr0]; exact hfr1.le) (le_refl _)
  have herr' := _root_.abs_le.1 (herr.trans (show (1 : ℝ) / 2 ^ 53 ≤ 1 / 100 by norm_num))
  have hr' : (if x.abs - x.abs.toUInt64.toFloat < 0.5 then (x.abs.toUInt64.toNat : Int) else x.abs.toUInt64.toNat + 1) = N := by
    have hc : x.abs - x.abs.toUInt64.toFloat < 0.5 ↔ toR (x.abs - x.abs.toUInt64.toFloat) < 1 / 2 := by
      rw [lt_iff hfin toR_half.1, toR_half.2]
    by_cases hcase : (N : ℝ) ≤ |toR x|
    · have hfl : ⌊|toR x|⌋ = N := by
        rw [Int.floor_eq_iff]; push_cast; constructor <;> linarith
      have : x.abs.toUInt64.toNat = N := by omega
      rw [if_pos]
      · omega
      · rw [hc]
        rw [this] at herr' hfr0
        linarith
    · push Not at hcase
      have hN1 : 1 ≤ N := by
        rcases Nat.eq_zero_or_pos N with h0 | h0
        · rw [h0] at hcase; push_cast at hcase; linarith
        · exact h0
      have hfl : ⌊|toR x|⌋ = (N : Int) - 1 := by
        rw [Int.floor_eq_iff]; push_cast; constructor <;> linarith
      have hT : x.abs.toUInt64.toNat = N - 1 := by omega
      rw [if_neg]
      · omega
      · rw [hc]
        rw [hT] at herr' hfr0
        push_cast [hN1] at herr'
        linarith
  unfold F64.roundI32
  simp only [hr']
  congr 2
  have : x < 0 ↔ toR x < 0 := by
    have h0 := lt_iff (x := x) (y := 0) hx toR_zero.1
    rwa [show toR 0 = 0 from toR_zero.2] at h0
  by_cases hneg : toR x < 0
  · rw [if_pos hneg, if_pos (this.2 hneg)]
  · rw [if_neg hneg, if_neg (fun h => hneg (this.1 h))]

end F64

/-- **C40.** `ilaenv` with `ispec = 6` (crossover to a QR factorization before the SVD) is `1.6·min(n1, n2)` rounded to the nearest
integer, and saturates at the largest `i32`. -/
theorem C40_ilaenv_svd (name : List Char) (n1 n2 n3 n4 : Int) (h1 : FitsI32 n1) (h2 : FitsI32 n2) :
    ilaenv 6 name n1 n2 n3 n4 = pure (max (-2147483648) (min 2147483647 ⌊(8 / 5 : ℝ) * (min n1 n2 : Int) + 1 / 2⌋)) := by
  show pure (ilaenvSvd (min n1 n2)) = _
  congr 1
  have hfit : -2147483648 ≤ min n1 n2 ∧ min n1 n2 ≤ 2147483647 := by
    unfold FitsI32 at h1 h2; omega
  generalize min n1 n2 = n at *
  unfold ilaenvSvd
  have hi := ofInt_exact n (by omega)
  have hr := mul_rounds _ _ hi.1 toR_16.1
  rw [hi.2, toR_16.2] at hr
  have hnr : |(n : ℝ)| ≤ 2 ^ 31 := by
    rw [_root_.abs_le]; constructor
    · exact_mod_cast (by omega : -(2 ^ 31 : Int) ≤ n)
    · exact_mod_cast (by omega : n ≤ (2 ^ 31 : Int))
  have hX : |(n : ℝ) * (7205759403792794 / 2 ^ 52)| ≤ 2 ^ 32 := by
    rw [abs_mul, abs_of_pos (show (0 : ℝ) < 7205759403792794 / 2 ^ 52 by norm_num)]
    calc |(n : ℝ)| * (7205759403792794 / 2 ^ 52) ≤ 2 ^ 31 * 2 := mul_le_mul hnr (by norm_num) (by norm_num) (by norm_num)
      _ = _ := by norm_num
  have hfin := hr.finite (lt_ovf (a := 32) (hX.trans (by norm_num)) (by norm_num))
  have herr := (hr.fl hfin).err_le hX (by norm_num)
  have hd : |toR (Float.ofInt n * 1.6) - (8 / 5 : ℝ) * n| ≤ 1 / 1000 := by
    have e1 : |(n : ℝ) * (7205759403792794 / 2 ^ 52) - (8 / 5 : ℝ) * n| ≤ 1 / 2000 := by
      rw [show (n : ℝ) * (7205759403792794 / 2 ^ 52) - (8 / 5 : ℝ) * n = n * (7205759403792794 / 2 ^ 52 - 8 / 5) by ring, abs_mul]
      calc |(n : ℝ)| * |(7205759403792794 / 2 ^ 52 - 8 / 5 : ℝ)| ≤ 2 ^ 31 * (1 / 2 ^ 50) := mul_le_mul hnr (by norm_num [abs_of_pos]) (abs_nonneg _) (by norm_num)
        _ ≤ _ := by norm_num
    have e2 := (abs_sub_le (toR (Float.ofInt n * 1.6)) ((n : ℝ) * (7205759403792794 / 2 ^ 52)) ((8 / 5 : ℝ) * n))
    have e3 : (2 : ℝ) ^ 32 / 2 ^ 53 ≤ 1 / 2000 := by norm_num
    linarith
  generalize Float.ofInt n * 1.6 = y at *
  have hd' := _root_.abs_le.1 hd
  have habs : |(|toR y|) - (8 / 5 : ℝ) * (|(n : ℝ)|)| ≤ 1 / 1000 := by
    refine le_trans ?_ hd
    have := abs_abs_sub_abs_le_abs_sub (toR y) ((8 / 5 : ℝ) * n)
    rwa [abs_mul (8 / 5 : ℝ), abs_of_pos (show (0 : ℝ) < 8 / 5 by norm_num)] at this
  have habs' := _root_.abs_le.1 habs
  obtain ⟨N, hN⟩ : ∃ N : Nat, N = (16 * n.natAbs + 5) / 10 := ⟨_, rfl⟩
  have hNlt : N < 2 ^ 40 := by omega
  have k1 : 5 * N ≤ 8 * n.natAbs + 2 := by omega
  have k2 : 8 * n.natAbs ≤ 5 * N + 2 := by omega
  have hna : |(n : ℝ)| = n.natAbs := by rw [Nat.cast_natAbs, Int.cast_abs]
  have k1' : 5 * (N : ℝ) ≤ 8 * |(n : ℝ)| + 2 := by rw [hna]; exact_mod_cast k1
  have k2' : 8 * |(n : ℝ)| ≤ 5 * (N : ℝ) + 2 := by rw [hna]; exact_mod_cast k2
  rw [roundI32_near hfin N hNlt (by rw [_root_.abs_le]; constructor <;> linarith)]
  congr 2
  symm
  rcases lt_trichotomy n 0 with h | h | h
  · have hnr' : (n : ℝ) ≤ -1 := by exact_mod_cast (by omega : n ≤ -1)
    rw [if_pos (by linarith [hd'.2]), Int.floor_eq_iff]
    rw [abs_of_neg (by linarith)] at k1' k2'
    push_cast
    constructor <;> linarith
  · subst h
    have : N = 0 := by simpa using hN
    subst this
    norm_num
  · have hnr' : (1 : ℝ) ≤ n := by exact_mod_cast (by omega : 1 ≤ n)
    rw [if_neg (by linarith [hd'.1]), Int.floor_eq_iff]
    rw [abs_of_pos (by linarith)] at k1' k2'
    push_cast
    constructor <;> linarith

/-- **C40.** `ispec = 12..17` is answered by `iparmq` with `ilo = n2`, `ihi = n3`. -/
theorem C40_ilaenv_iparmq (ispec : Int) (name : List Char) (n1 n2 n3 n4 : Int) (h : 12 ≤ ispec ∧ ispec ≤ 17) :
    ilaenv ispec name n1 n2 n3 n4 = iparmq ispec name n2 n3 := by
  unfold ilaenv ilaenvWith
  rw [if_neg (by omega), if_neg (by omega), if_neg (by omega), if_neg (by omega), if_neg (by omega),
    if_neg (by omega), if_neg (by omega), if_neg (by omega), if_neg (by omega), if_pos h]

/-- **C40.** The block sizes of particular routines, whatever the other arguments. -/
theorem C40_ilaenv_block (n1 n2 n3 n4 : Int) :
    ilaenv 1 "DGEQRF".toList n1 n2 n3 n4 = pure 32 ∧ ilaenv 1 "DGEHRD".toList n1 n2 n3 n4 = pure 32 ∧
    ilaenv 1 "DORGQR".toList n1 n2 n3 n4 = pure 32 ∧ ilaenv 1 "DSYTRF".toList n1 n2 n3 n4 = pure 64 ∧
    ilaenv 1 "DTRTRI".toList n1 n2 n3 n4 = pure 64 ∧ ilaenv 1 "DLAUUM".toList n1 n2 n3 n4 = pure 64 ∧
    ilaenv 1 "DGBTRF".toList n1 n2 n3 n4 = pure (if 64 < n2 ∨ 64 < n4 then 32 else 1) ∧
    ilaenv 1 "DPBTRF".toList n1 n2 n3 n4 = pure (if 64 < n2 ∨ 64 < n4 then 32 else 1) ∧
    ilaenv 1 "DGETRF".toList n1 n2 n3 n4 = pure 1 ∧ ilaenv 1 "DPOTRF".toList n1 n2 n3 n4 = pure 1 := by
  refine ⟨rfl, rfl, rfl, rfl, rfl, rfl, ?_, ?_, rfl, rfl⟩
  · show (if (decide (n4 > 64) || decide (n2 > 64)) = true then pure 32 else pure 1 : R Int) = _
    by_cases h1 : n4 > 64 <;> by_cases h2 : n2 > 64 <;> simp [h1, h2] <;> (repeat' rw [if_neg (by omega)])
  · show (if (decide (n4 > 64) || decide (n2 > 64)) = true then pure 32 else pure 1 : R Int) = _
    by_cases h1 : n4 > 64 <;> by_cases h2 : n2 > 64 <;> simp [h1, h2] <;> (repeat' rw [if_neg (by omega)])

/-- **C40.** The minimum block sizes and crossover points of particular routines. -/
theorem C40_ilaenv_crossover (n1 n2 n3 n4 : Int) :
    ilaenv 2 "DGEQRF".toList n1 n2 n3 n4 = pure 2 ∧ ilaenv 2 "DSYTRF".toList n1 n2 n3 n4 = pure 8 ∧
    ilaenv 2 "DORMQR".toList n1 n2 n3 n4 = pure 2 ∧ ilaenv 2 "DORCSD".toList n1 n2 n3 n4 = pure 1 ∧
    ilaenv 3 "DGEQRF".toList n1 n2 n3 n4 = pure 128 ∧ ilaenv 3 "DGEHRD".toList n1 n2 n3 n4 = pure 128 ∧
    ilaenv 3 "DSYTRD".toList n1 n2 n3 n4 = pure 32 ∧ ilaenv 3 "DGGHD3".toList n1 n2 n3 n4 = pure 128 ∧
    ilaenv 3 "DORGQR".toList n1 n2 n3 n4 = pure 128 ∧ ilaenv 3 "DORMQR".toList n1 n2 n3 n4 = pure 0 ∧
    ilaenv 3 "DGETRF".toList n1 n2 n3 n4 = pure 0 :=
  ⟨rfl, rfl, rfl, rfl, rfl, rfl, rfl, rfl, rfl, rfl, rfl⟩

/-- **C40.** The block size of the Sylvester solvers grows with the order. -/
theorem C40_ilaenv_trsyl (n1 n2 n3 n4 : Int) (h1 : 0 ≤ n1) (h2 : 0 ≤ n2) (h : FitsI32 (min n1 n2 * 16)) :
    ilaenv 1 "DTRSYL".toList n1 n2 n3 n4 = pure (min (max 48 (min n1 n2 * 16 / 100)) 240) ∧
    ilaenv 1 "ZTRSYL".toList n1 n2 n3 n4 = pure (min (max 24 (min n1 n2 * 8 / 100)) 80) := by
  constructor
  · show (do let x ← imul (min n1 n2) 16; pure (min (max 48 (x.tdiv 100)) 240) : R Int) = _
    rw [imul_ok h, pure_bind, Int.tdiv_eq_ediv_of_nonneg (by omega)]
  · show (do let x ← imul (min n1 n2) 8; pure (min (max 24 (x.tdiv 100)) 80) : R Int) = _
    rw [imul_ok (by unfold FitsI32 at *; omega), pure_bind, Int.tdiv_eq_ediv_of_nonneg (by omega)]

/-- The rounding of `ispec = 6` on a 10-by-7 matrix: `1.6·7 = 11.2`. -/
example (name : List Char) : ilaenv 6 name 10 7 0 0 = pure 11 := by
  rw [C40_ilaenv_svd _ _ _ _ _ (by norm_num [FitsI32]) (by norm_num [FitsI32])]
  congr 1
  have : ⌊(8 / 5 : ℝ) * ((min 10 7 : Int) : ℝ) + 1 / 2⌋ = 11 := by
    rw [Int.floor_eq_iff]; norm_num
  rw [this]; rfl

end Verif
