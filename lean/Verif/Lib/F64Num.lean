import Verif.Props.LarfgF64
import Verif.Props.GemmF64

/-!
# Finite floats with an error bound

`Num n f X S U`: the float `f` is finite and approximates `X`, a sum of terms of total size `S`, after
at most `n` roundings each, with underflow errors of at most `U`.
-/

namespace Verif.F64

/-- A finite float with its error bound. -/
structure Num (n : Nat) (f : Float) (X S U : ℝ) : Prop where
  fin : f.isFinite = true
  appr : Appr n (toR f) X S U

variable {n m : Nat} {f g : Float} {X S U Y T V : ℝ}

theorem pow_ur_two {n : Nat} (h : n ≤ 20) : (1 + ur) ^ n ≤ 2 := by
  have h1 := gamma_le n (h.trans (by norm_num))
  have h2 : (n : ℝ) ≤ 20 := by exact_mod_cast h
  have h3 : 2 * (n : ℝ) * ur ≤ 1 := by
    have h4 : ur ≤ 1 / 40 := by unfold ur; norm_num
    have := ur_pos
    nlinarith
  linarith

/-- A bound well below the overflow threshold, `2^1000`. -/
noncomputable def big : ℝ := 2 ^ 1000

theorem big_pos : 0 < big := by unfold big; positivity

theorem ovf_big : 1048576 * big < ovf := by
  have h := ovf_ge
  have h1 : (2 : ℝ) ^ (1022 : ℤ) = 2 ^ (1022 : ℕ) := zpow_natCast 2 1022
  rw [h1] at h
  have h2 : (1048576 : ℝ) * big ≤ 2 ^ (1022 : ℕ) := by
    unfold big
    rw [show (1048576 : ℝ) = 2 ^ 20 by norm_num, ← pow_add]
    exact pow_le_pow_right₀ (by norm_num) (by norm_num)
  have h3 : (0 : ℝ) < 2 ^ (1022 : ℕ) := pow_pos (by norm_num) _
  clear h1
  generalize (2 : ℝ) ^ (1022 : ℕ) = w at *
  linarith

theorem eta_big : eta * big ≤ 1 := by
  unfold eta big
  rw [one_div, inv_mul_le_iff₀ (by positivity), mul_one]
  exact pow_le_pow_right₀ (by norm_num) (by norm_num)

theorem one_le_big : 1 ≤ big := by unfold big; exact one_le_pow₀ (by norm_num)

theorem Num.abs_lt (h : Num n f X S U) (hn : n ≤ 20) : |toR f| ≤ 2 * (S + U) :=
  h.appr.abs_le.trans (mul_le_mul_of_nonneg_right (pow_ur_two hn) (add_nonneg h.appr.s0 h.appr.under))

theorem Num.float (f : Float) (h : f.isFinite = true) : Num 0 f (toR f) |toR f| 0 := ⟨h, Appr.exact _⟩

theorem Num.mono {n' : Nat} {U' : ℝ} (h : Num n f X S U) (hn : n ≤ n') (hU : U ≤ U') : Num n' f X S U' :=
  ⟨h.fin, h.appr.mono hn hU⟩

/-- A larger size. -/
theorem Num.size {S' : ℝ} (h : Num n f X S U) (hS : S ≤ S') : Num n f X S' U := by
  refine ⟨h.fin, h.appr.err.trans (add_le_add_left (mul_le_mul_of_nonneg_left hS ?_) _), h.appr.size.trans hS, h.appr.under⟩
  linarith [one_le_pow n]

theorem Appr.neg {n : Nat} {x X S U : ℝ} (h : Appr n x X S U) : Appr n (-x) (-X) S U :=
  ⟨by rw [show -x - -X = -(x - X) by ring, abs_neg]; exact h.err, by rw [abs_neg]; exact h.size, h.under⟩

theorem Num.add (h : Num n f X S U) (h' : Num m g Y T V) (k : Nat) (hn : n ≤ k) (hm : m ≤ k) (hk : k ≤ 20)
    (hB : S + U + (T + V) ≤ 1024 * big) : Num (k + 1) (f + g) (X + Y) (S + T) (U + V) := by
  have b1 := (h.abs_lt (hn.trans hk))
  have b2 := (h'.abs_lt (hm.trans hk))
  have hfin : (f + g).isFinite = true := (add_rounds f g h.fin h'.fin).finite (by
    refine lt_of_le_of_lt ((abs_add_le _ _).trans (add_le_add b1 b2)) (lt_of_le_of_lt ?_ ovf_big)
    linarith [big_pos])
  exact ⟨hfin, (h.appr.mono hn le_rfl).add (h'.appr.mono hm le_rfl) (add_err h.fin h'.fin hfin)⟩

theorem Num.sub (h : Num n f X S U) (h' : Num m g Y T V) (k : Nat) (hn : n ≤ k) (hm : m ≤ k) (hk : k ≤ 20)
    (hB : S + U + (T + V) ≤ 1024 * big) : Num (k + 1) (f - g) (X - Y) (S + T) (U + V) := by
  have b1 := (h.abs_lt (hn.trans hk))
  have b2 := (h'.abs_lt (hm.trans hk))
  have hfin : (f - g).isFinite = true := (sub_rounds f g h.fin h'.fin).finite (by
    refine lt_of_le_of_lt ((abs_sub _ _).trans (add_le_add b1 b2)) (lt_of_le_of_lt ?_ ovf_big)
    linarith [big_pos])
  have e := sub_err h.fin h'.fin hfin
  rw [sub_eq_add_neg (toR f) (toR g)] at e
  rw [sub_eq_add_neg X Y]
  exact ⟨hfin, (h.appr.mono hn le_rfl).add (h'.appr.mono hm le_rfl).neg e⟩

/-- The difference of two given floats: one rounding, relative to the difference itself. -/
theorem Num.diff {x y : Float} (hx : x.isFinite = true) (hy : y.isFinite = true) (hB : |toR x - toR y| ≤ 1024 * big) :
    Num 1 (x - y) (toR x - toR y) |toR x - toR y| 0 := by
  have hfin : (x - y).isFinite = true := (sub_rounds x y hx hy).finite (by
    refine lt_of_le_of_lt hB (lt_trans ?_ ovf_big)
    linarith [big_pos])
  refine ⟨hfin, ?_, le_rfl, le_rfl⟩
  have := sub_err hx hy hfin
  simpa using this

theorem Num.mul (h : Num n f X S U) (h' : Num m g Y T V) (hn : n ≤ 20) (hm : m ≤ 20)
    (hB : (S + U) * (T + V) ≤ 1024 * big) :
    Num (n + m + 1) (f * g) (X * Y) (S * T) (S * V + U * T + U * V + eta) := by
  have b1 := h.abs_lt hn
  have b2 := h'.abs_lt hm
  have hfin : (f * g).isFinite = true := (mul_rounds f g h.fin h'.fin).finite (by
    rw [abs_mul]
    refine lt_of_le_of_lt (mul_le_mul b1 b2 (abs_nonneg _) ((abs_nonneg _).trans b1)) (lt_of_le_of_lt ?_ ovf_big)
    linarith [big_pos, show 2 * (S + U) * (2 * (T + V)) = 4 * ((S + U) * (T + V)) by ring])
  have e := mul_err h.fin h'.fin hfin
  have a := (h.appr.mulA h'.appr).mulL (y := 1) (f := toR (f * g)) (by rw [mul_one]; exact e)
  rw [mul_one, abs_one, mul_one, mul_one] at a
  exact ⟨hfin, a⟩

/-- Division by a given float. -/
theorem Num.div (h : Num n f X S U) (hg : g.isFinite = true) (hg0 : 0 < toR g) (hn : n ≤ 20)
    (hB : S + U ≤ 1024 * big * toR g) : Num (n + 1) (f / g) (X / toR g) (S / toR g) (U / toR g + eta) := by
  have b1 := h.abs_lt hn
  have hr := div_rounds f g h.fin hg hg0.ne'
  have hfin : (f / g).isFinite = true := hr.finite (by
    rw [abs_div, abs_of_pos hg0, div_lt_iff₀ hg0]
    have h1 : 2 * (1024 * big) < ovf := lt_trans (by linarith [big_pos]) ovf_big
    have h2 := mul_lt_mul_of_pos_right h1 hg0
    linarith)
  have e := (hr.fl hfin).general
  have a := h.appr.mulL (y := (toR g)⁻¹) (f := toR (f / g)) (by rw [← div_eq_mul_inv]; exact e)
  rw [abs_of_pos (inv_pos.2 hg0), ← div_eq_mul_inv, ← div_eq_mul_inv, ← div_eq_mul_inv] at a
  exact ⟨hfin, a⟩

end Verif.F64
