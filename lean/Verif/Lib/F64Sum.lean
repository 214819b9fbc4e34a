import Verif.Props.Nrm2F64

/-!
# Rounding errors of sums of products on binary64
-/

namespace Verif.F64
open Float.Model Float.Model.UnpackedFloat

/-- Half the distance from 1 to the next float. -/
noncomputable def ur : ℝ := 1 / 2 ^ 53
/-- Half the smallest positive float. -/
noncomputable def eta : ℝ := 1 / 2 ^ 1075

theorem ur_pos : 0 < ur := by unfold ur; positivity
theorem eta_pos : 0 < eta := by unfold eta; positivity

theorem finite_of_add {x y : Float} (h : (x + y).isFinite = true) : x.isFinite = true ∧ y.isFinite = true := by
  simp only [isFinite_up, up_add] at *
  cases hx : up x <;> cases hy : up y <;> rw [hx, hy] at h <;> simp_all [UnpackedFloat.add, fix_nan, fix_inf, UnpackedFloat.isFinite]
  all_goals (rename_i s t; cases s <;> cases t <;> revert h <;> simp [UnpackedFloat.add, fix_nan, fix_inf, UnpackedFloat.isFinite, show (Sign.negative == Sign.negative) = true from rfl, show (Sign.positive == Sign.positive) = true from rfl, show (Sign.negative == Sign.positive) = false from rfl, show (Sign.positive == Sign.negative) = false from rfl])

theorem finite_of_mul {x y : Float} (h : (x * y).isFinite = true) : x.isFinite = true ∧ y.isFinite = true := by
  simp only [isFinite_up, up_mul] at *
  cases hx : up x <;> cases hy : up y <;> rw [hx, hy] at h <;> simp_all [UnpackedFloat.mul, fix_nan, fix_inf, UnpackedFloat.isFinite]

theorem grid_int {x : Float} : ∃ k : ℤ, toR x = k * (2 : ℝ) ^ (-1074 : ℤ) := by
  obtain ⟨m, e, hm, he, h⟩ := grid_toR x
  obtain ⟨d, rfl⟩ : ∃ d : Nat, e = -1074 + d := ⟨(e + 1074).toNat, by omega⟩
  rw [zpow_add₀ (by norm_num), zpow_natCast] at h
  rcases abs_cases (toR x) with ⟨h1, -⟩ | ⟨h1, -⟩
  · exact ⟨m * 2 ^ d, by rw [← h1, h]; push_cast; ring⟩
  · refine ⟨-(m * 2 ^ d), ?_⟩
    have : toR x = - |toR x| := by rw [h1]; ring
    rw [this, h]; push_cast; ring

/-- The sum of two floats has no underflow error. -/
theorem add_err {x y : Float} (hx : x.isFinite = true) (hy : y.isFinite = true) (h : (x + y).isFinite = true) :
    |toR (x + y) - (toR x + toR y)| ≤ ur * |toR x + toR y| := by
  have hf := (add_rounds x y hx hy).fl h
  obtain ⟨a, ha⟩ := grid_int (x := x)
  obtain ⟨b, hb⟩ := grid_int (x := y)
  have hab : toR x + toR y = ((a + b : ℤ) : ℝ) * (2 : ℝ) ^ (-1074 : ℤ) := by rw [ha, hb]; push_cast; ring
  by_cases hc : (a + b).natAbs < 2 ^ 53
  · have : Grid (toR x + toR y) := by
      refine ⟨(a + b).natAbs, -1074, hc, le_refl _, ?_⟩
      rw [hab, abs_mul, abs_of_pos (zp _)]
      congr 1
      rw [Nat.cast_natAbs, Int.cast_abs]
    rw [hf.exact this, sub_self, abs_zero]
    exact mul_nonneg ur_pos.le (abs_nonneg _)
  · refine hf.err.trans (max_le (le_of_eq ?_) ?_)
    · unfold ur; ring
    · have h1 : (2 : ℝ) ^ 53 * 2 ^ (-1074 : ℤ) ≤ |toR x + toR y| := by
        rw [hab, abs_mul, abs_of_pos (zp (-1074))]
        refine mul_le_mul_of_nonneg_right ?_ (zp _).le
        rw [← Int.cast_abs, ← Nat.cast_natAbs]
        exact_mod_cast (by omega : 2 ^ 53 ≤ (a + b).natAbs)
      calc (1 : ℝ) / 2 ^ 1075 ≤ ur * (2 ^ 53 * 2 ^ (-1074 : ℤ)) := by
            unfold ur
            rw [← mul_assoc, div_mul_cancel₀ _ (by positivity), one_mul, show (1 : ℝ) / 2 ^ 1075 = 2 ^ (-1075 : ℤ) by rw [zpow_neg, one_div]; rfl]
            exact zpow_le_zpow_right₀ (by norm_num) (by norm_num)
        _ ≤ _ := mul_le_mul_of_nonneg_left h1 ur_pos.le

theorem mul_err {x y : Float} (hx : x.isFinite = true) (hy : y.isFinite = true) (h : (x * y).isFinite = true) :
    |toR (x * y) - toR x * toR y| ≤ ur * |toR x * toR y| + eta := by
  refine ((mul_rounds x y hx hy).fl h).err.trans (max_le ?_ ?_)
  · have := eta_pos
    unfold ur
    linarith [show |toR x * toR y| / 2 ^ 53 = 1 / 2 ^ 53 * |toR x * toR y| by ring]
  · have : 0 ≤ ur * |toR x * toR y| := mul_nonneg ur_pos.le (abs_nonneg _)
    unfold eta
    linarith

/-- `x` approximates `X`, a sum of terms of total size `S`, after at most `n` roundings each; `U` bounds the underflow errors. -/
structure Appr (n : Nat) (x X S U : ℝ) : Prop where
  err : |x - X| ≤ ((1 + ur) ^ n - 1) * S + (1 + ur) ^ n * U
  size : |X| ≤ S
  under : 0 ≤ U

theorem one_le_pow (n : Nat) : 1 ≤ (1 + ur) ^ n := one_le_pow₀ (by linarith [ur_pos])

theorem Appr.s0 {n : Nat} {x X S U : ℝ} (h : Appr n x X S U) : 0 ≤ S := (abs_nonneg _).trans h.size

theorem Appr.exact (x : ℝ) : Appr 0 x x |x| 0 := ⟨by simp, le_refl _, le_refl _⟩

theorem Appr.mono {n n' : Nat} {x X S U U' : ℝ} (h : Appr n x X S U) (hn : n ≤ n') (hU : U ≤ U') : Appr n' x X S U' := by
  have h1 : (1 + ur) ^ n ≤ (1 + ur) ^ n' := pow_le_pow_right₀ (by linarith [ur_pos]) hn
  have h2 := one_le_pow n
  refine ⟨h.err.trans (add_le_add (mul_le_mul_of_nonneg_right (by linarith) h.s0) (mul_le_mul h1 hU h.under (by linarith))), h.size, h.under.trans hU⟩

theorem Appr.abs_le {n : Nat} {x X S U : ℝ} (h : Appr n x X S U) : |x| ≤ (1 + ur) ^ n * (S + U) := by
  have h1 : |x| ≤ |x - X| + |X| := by
    calc |x| = |x - X + X| := by ring_nf
      _ ≤ _ := abs_add_le _ _
  have := h.err
  have := h.size
  nlinarith

theorem Appr.mulL {n : Nat} {x X S U y f : ℝ} (h : Appr n x X S U) (hf : |f - x * y| ≤ ur * |x * y| + eta) : Appr (n + 1) f (X * y) (S * |y|) (U * |y| + eta) := by
  have hu := ur_pos
  have he := eta_pos
  have hy := abs_nonneg y
  have h1 := h.abs_le
  have h2 := h.err
  refine ⟨?_, by rw [abs_mul]; exact mul_le_mul_of_nonneg_right h.size hy, by have := mul_nonneg h.under hy; linarith⟩
  have h3 : |f - X * y| ≤ |f - x * y| + |x - X| * |y| := by
    rw [← abs_mul]
    calc |f - X * y| = |f - x * y + (x - X) * y| := by ring_nf
      _ ≤ _ := abs_add_le _ _
  rw [abs_mul] at hf
  have h4 : |x| * |y| ≤ (1 + ur) ^ n * (S + U) * |y| := mul_le_mul_of_nonneg_right h1 hy
  have h5 : |x - X| * |y| ≤ (((1 + ur) ^ n - 1) * S + (1 + ur) ^ n * U) * |y| := mul_le_mul_of_nonneg_right h2 hy
  have h6 : ur * (|x| * |y|) ≤ ur * ((1 + ur) ^ n * (S + U) * |y|) := mul_le_mul_of_nonneg_left h4 hu.le
  have h7 := one_le_pow (n + 1)
  have h8 : eta ≤ (1 + ur) ^ (n + 1) * eta := le_mul_of_one_le_left he.le h7
  rw [pow_succ] at h8 ⊢
  nlinarith

theorem Appr.add {n : Nat} {x X S U y Y S' U' f : ℝ} (h : Appr n x X S U) (h' : Appr n y Y S' U') (hf : |f - (x + y)| ≤ ur * |x + y|) :
    Appr (n + 1) f (X + Y) (S + S') (U + U') := by
  have hu := ur_pos
  have h1 := h.abs_le
  have h2 := h.err
  have h1' := h'.abs_le
  have h2' := h'.err
  refine ⟨?_, (abs_add_le _ _).trans (add_le_add h.size h'.size), add_nonneg h.under h'.under⟩
  have h3 : |f - (X + Y)| ≤ |f - (x + y)| + (|x - X| + |y - Y|) := by
    calc |f - (X + Y)| = |f - (x + y) + ((x - X) + (y - Y))| := by ring_nf
      _ ≤ |f - (x + y)| + |(x - X) + (y - Y)| := abs_add_le _ _
      _ ≤ _ := by gcongr; exact abs_add_le _ _
  have h4 : ur * |x + y| ≤ ur * ((1 + ur) ^ n * (S + U) + (1 + ur) ^ n * (S' + U')) :=
    mul_le_mul_of_nonneg_left ((abs_add_le _ _).trans (add_le_add h1 h1')) hu.le
  rw [pow_succ]
  nlinarith

/-- The float `f` is computed from finite values, without overflow if `P` holds; when it is finite it approximates `X`. -/
structure Val (P : Prop) (n : Nat) (f : Float) (X S U : ℝ) : Prop where
  size : |X| ≤ S
  under : 0 ≤ U
  appr : f.isFinite = true → Appr n (toR f) X S U
  fin : P → f.isFinite = true

variable {P : Prop} {n : Nat} {f g : Float} {X S U Y S' U' : ℝ}

theorem Val.s0 (h : Val P n f X S U) : 0 ≤ S := (abs_nonneg _).trans h.size

theorem Val.float (f : Float) (h : P → f.isFinite = true) : Val P 0 f (toR f) |toR f| 0 :=
  ⟨le_refl _, le_refl _, fun _ => Appr.exact _, h⟩

theorem Val.mono {n' : Nat} {U' : ℝ} (h : Val P n f X S U) (hn : n ≤ n') (hU : U ≤ U') : Val P n' f X S U' :=
  ⟨h.size, h.under.trans hU, fun hf => (h.appr hf).mono hn hU, h.fin⟩

theorem Val.mul (h : Val P n f X S U) (hg : P → g.isFinite = true) (hB : P → (1 + ur) ^ n * (S + U) * |toR g| < ovf) :
    Val P (n + 1) (f * g) (X * toR g) (S * |toR g|) (U * |toR g| + eta) := by
  have hy := abs_nonneg (toR g)
  refine ⟨by rw [abs_mul]; exact mul_le_mul_of_nonneg_right h.size hy, by have := mul_nonneg h.under hy; linarith [eta_pos], ?_, ?_⟩
  · intro hfin
    obtain ⟨h1, h2⟩ := finite_of_mul hfin
    exact (h.appr h1).mulL (mul_err h1 h2 hfin)
  · intro hP
    refine (mul_rounds f g (h.fin hP) (hg hP)).finite (lt_of_le_of_lt ?_ (hB hP))
    rw [abs_mul]
    exact mul_le_mul_of_nonneg_right (h.appr (h.fin hP)).abs_le hy

theorem Val.mul' (h : Val P n f X S U) (hg : P → g.isFinite = true) (hB : P → (1 + ur) ^ n * (S + U) * |toR g| < ovf) :
    Val P (n + 1) (g * f) (toR g * X) (|toR g| * S) (|toR g| * U + eta) := by
  have hy := abs_nonneg (toR g)
  refine ⟨by rw [abs_mul]; exact mul_le_mul_of_nonneg_left h.size hy, by have := mul_nonneg h.under hy; nlinarith [eta_pos], ?_, ?_⟩
  · intro hfin
    obtain ⟨h1, h2⟩ := finite_of_mul hfin
    have := (h.appr h2).mulL (y := toR g) (f := toR (g * f)) (by rw [mul_comm (toR f)]; exact mul_err h1 h2 hfin)
    rwa [mul_comm X, mul_comm S, mul_comm U] at this
  · intro hP
    refine (mul_rounds g f (hg hP) (h.fin hP)).finite (lt_of_le_of_lt ?_ (hB hP))
    rw [abs_mul, mul_comm]
    exact mul_le_mul_of_nonneg_right (h.appr (h.fin hP)).abs_le hy

theorem Val.add (h : Val P n f X S U) (h' : Val P n g Y S' U') (hB : P → (1 + ur) ^ n * (S + U + (S' + U')) < ovf) :
    Val P (n + 1) (f + g) (X + Y) (S + S') (U + U') := by
  refine ⟨(abs_add_le _ _).trans (add_le_add h.size h'.size), add_nonneg h.under h'.under, ?_, ?_⟩
  · intro hfin
    obtain ⟨h1, h2⟩ := finite_of_add hfin
    exact (h.appr h1).add (h'.appr h2) (add_err h1 h2 hfin)
  · intro hP
    refine (add_rounds f g (h.fin hP) (h'.fin hP)).finite (lt_of_le_of_lt ?_ (hB hP))
    refine (abs_add_le _ _).trans ?_
    rw [mul_add]
    exact add_le_add (h.appr (h.fin hP)).abs_le (h'.appr (h'.fin hP)).abs_le

open Finset in
/-- A sum of approximated terms, added one after the other. -/
theorem Val.fold {p : Nat → Float} {Xs Ss Us : Nat → ℝ} (k : Nat) (h : Val P n f X S U) (hp : ∀ l < k, Val P n (p l) (Xs l) (Ss l) (Us l))
    (hB : P → (1 + ur) ^ (n + k) * (S + U + ∑ l ∈ range k, (Ss l + Us l)) < ovf) :
    Val P (n + k) ((List.range k).foldl (fun acc l => acc + p l) f) (X + ∑ l ∈ range k, Xs l) (S + ∑ l ∈ range k, Ss l)
      (U + ∑ l ∈ range k, Us l) := by
  induction k with
  | zero => simpa using h
  | succ k ih =>
    have hk := hp k (by omega)
    have hs : 0 ≤ Ss k + Us k := add_nonneg hk.s0 hk.under
    have hsum : 0 ≤ ∑ l ∈ range k, (Ss l + Us l) := sum_nonneg fun l hl => by
      have := hp l (by have := mem_range.1 hl; omega)
      exact add_nonneg this.s0 this.under
    have h1 : (1 + ur) ^ (n + k) ≤ (1 + ur) ^ (n + (k + 1)) := pow_le_pow_right₀ (by linarith [ur_pos]) (by omega)
    have h2 := one_le_pow (n + k)
    have h0 := add_nonneg h.s0 h.under
    have hih := ih (fun l hl => hp l (by omega)) (fun hP => lt_of_le_of_lt (mul_le_mul h1 (by rw [sum_range_succ]; linarith) (by linarith) (by linarith)) (hB hP))
    rw [List.range_succ, List.foldl_append]
    have := hih.add (hk.mono (n' := n + k) (by omega) (le_refl _)) (fun hP => lt_of_le_of_lt
      (mul_le_mul h1 (by rw [sum_range_succ, sum_add_distrib]; linarith) (by have := hih.s0; have := hih.under; linarith) (by linarith)) (hB hP))
    simpa only [List.foldl_cons, List.foldl_nil, sum_range_succ, add_assoc] using this

theorem eq_toR {x y : Float} (hy : y.isFinite = true) (h : Float.beq x y = true) : x.isFinite = true ∧ toR x = toR y := by
  rw [beq_toXR, toXR_fin hy] at h
  cases hx : toXR x <;> rw [hx] at h <;> simp [XR.beq] at h
  obtain ⟨h1, h2⟩ := fin_toXR hx
  exact ⟨h1, h2.trans h⟩

end Verif.F64
