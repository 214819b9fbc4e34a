import Verif.Lib.F64Ops
import Verif.Inst.Float
import Verif.Inst.XR

/-!
# Working with correctly rounded binary64 results

`toXR` reads a float as a real number or a special value; comparisons, sign changes, maxima and
minima commute with it exactly.  `Rounds.cases` says what a rounded result can be.
-/

namespace Verif.F64
open Float.Model Float.Model.UnpackedFloat

/-- A view as an extended real. -/
noncomputable def xr : UnpackedFloat → XR
  | .notANumber => .nan
  | .infinity .positive => .pinf
  | .infinity .negative => .ninf
  | .zero _ => .fin 0
  | .finite s m e h => .fin (val (.finite s m e h))

/-- A float as an extended real: `NaN`, an infinity, or the real number it stands for. -/
noncomputable def toXR (x : Float) : XR := xr (up x)

theorem mag_lt {m₁ m₂ : Nat} {e₁ e₂ : Int} (h1 : 0 < m₁) (c1 : Canon m₁ e₁)
    (c2 : Canon m₂ e₂) (h : e₁ < e₂) : (m₁ : ℝ) * 2 ^ e₁ < m₂ * 2 ^ e₂ := by
  have hm1 : (m₁ : ℝ) < 2 ^ 53 := by exact_mod_cast canon_lt h1 c1
  have g1 := canon_ge c1
  have hm2 : (2 : ℝ) ^ 52 ≤ m₂ := by
    rcases c2 with c | c
    · have h0 : m₂ ≠ 0 := by
        rintro rfl
        have : Nat.log2 0 = 0 := by decide
        omega
      have := Nat.log2_self_le h0
      rw [c.1] at this
      exact_mod_cast this
    · omega
  calc (m₁ : ℝ) * 2 ^ e₁ < 2 ^ 53 * 2 ^ e₁ := mul_lt_mul_of_pos_right hm1 (zp _)
    _ ≤ 2 ^ 53 * 2 ^ (e₂ - 1) :=
        mul_le_mul_of_nonneg_left (zpow_le_zpow_right₀ (by norm_num) (by omega)) (by positivity)
    _ = 2 ^ 52 * 2 ^ e₂ := by rw [zpow_sub₀ (by norm_num)]; norm_num; ring
    _ ≤ m₂ * 2 ^ e₂ := mul_le_mul_of_nonneg_right hm2 (zp _).le

/-- The comparison of magnitudes of the implementation is the comparison of the real numbers. -/
theorem mag_compare {m₁ m₂ : Nat} {e₁ e₂ : Int} (h1 : 0 < m₁) (h2 : 0 < m₂) (c1 : Canon m₁ e₁)
    (c2 : Canon m₂ e₂) :
    (((compare e₁ e₂).then (compare m₁ m₂) = .lt) ↔ (m₁ : ℝ) * 2 ^ e₁ < m₂ * 2 ^ e₂) ∧
    (((compare e₁ e₂).then (compare m₁ m₂) = .eq) ↔ (m₁ : ℝ) * 2 ^ e₁ = m₂ * 2 ^ e₂) ∧
    (((compare e₁ e₂).then (compare m₁ m₂) = .gt) ↔ (m₂ : ℝ) * 2 ^ e₂ < m₁ * 2 ^ e₁) := by
  rcases lt_trichotomy e₁ e₂ with h | h | h
  · have := mag_lt h1 c1 c2 h
    rw [compare_lt_iff_lt.2 h]
    simp [Ordering.then, this, this.ne, this.le]
  · subst h
    rw [compare_eq_iff_eq.2 rfl]
    simp only [Ordering.then, mul_lt_mul_iff_left₀ (zp e₁), mul_left_inj' (zp e₁).ne', Nat.cast_lt,
      Nat.cast_inj]
    rw [compare_lt_iff_lt, compare_eq_iff_eq, compare_gt_iff_gt]
    simp
  · have := mag_lt h2 c2 c1 h
    rw [compare_gt_iff_gt.2 h]
    simp [Ordering.then, this, this.ne', this.le]

/-- A canonical view (what `up` returns). -/
def Good (u : UnpackedFloat) : Prop := match u with
  | .finite _ m e _ => Canon m e ∧ e ≤ 971
  | _ => True

theorem good_up (x : Float) : Good (up x) := up_canon x

theorem mag_pos {m : Nat} (e : Int) (h : 0 < m) : (0 : ℝ) < m * 2 ^ e :=
  mul_pos (by exact_mod_cast h) (zp _)

theorem compare_xr {u v : UnpackedFloat} (hu : Good u) (hv : Good v) :
    (UnpackedFloat.lt u v = XR.lt (xr u) (xr v)) ∧ (UnpackedFloat.beq u v = XR.beq (xr u) (xr v)) ∧
    (UnpackedFloat.le u v = XR.le (xr u) (xr v)) := by
  cases u with
  | notANumber =>
    refine ⟨?_, ?_, ?_⟩ <;>
      simp [UnpackedFloat.lt, UnpackedFloat.beq, UnpackedFloat.le, UnpackedFloat.compare, xr, XR.lt, XR.beq, XR.le]
  | infinity s =>
    cases v with
    | infinity t =>
      cases s <;> cases t <;> refine ⟨?_, ?_, ?_⟩ <;>
      simp [UnpackedFloat.lt, UnpackedFloat.beq, UnpackedFloat.le, UnpackedFloat.compare, xr, XR.lt, XR.beq, XR.le] <;> decide
    | _ =>
      cases s <;> refine ⟨?_, ?_, ?_⟩ <;>
      simp [UnpackedFloat.lt, UnpackedFloat.beq, UnpackedFloat.le, UnpackedFloat.compare, xr, XR.lt, XR.beq, XR.le]
  | zero s =>
    cases v with
    | finite t m e h =>
      have := mag_pos e h
      cases t <;> refine ⟨?_, ?_, ?_⟩ <;>
      simp [UnpackedFloat.lt, UnpackedFloat.beq, UnpackedFloat.le, UnpackedFloat.compare, xr, XR.lt, XR.beq, XR.le, val, sgnR, this, this.ne, this.ne', this.le, this.not_gt, h, h.ne']
    | infinity t =>
      cases t <;> refine ⟨?_, ?_, ?_⟩ <;>
      simp [UnpackedFloat.lt, UnpackedFloat.beq, UnpackedFloat.le, UnpackedFloat.compare, xr, XR.lt, XR.beq, XR.le]
    | _ =>
      refine ⟨?_, ?_, ?_⟩ <;>
      simp [UnpackedFloat.lt, UnpackedFloat.beq, UnpackedFloat.le, UnpackedFloat.compare, xr, XR.lt, XR.beq, XR.le]
  | finite s m e h =>
    cases v with
    | notANumber =>
      refine ⟨?_, ?_, ?_⟩ <;> cases s <;>
      simp [UnpackedFloat.lt, UnpackedFloat.beq, UnpackedFloat.le, UnpackedFloat.compare, xr, XR.lt, XR.beq, XR.le]
    | infinity t =>
      cases t <;> refine ⟨?_, ?_, ?_⟩ <;> cases s <;>
      simp [UnpackedFloat.lt, UnpackedFloat.beq, UnpackedFloat.le, UnpackedFloat.compare, xr, XR.lt, XR.beq, XR.le]
    | zero t =>
      have := mag_pos e h
      cases s <;> refine ⟨?_, ?_, ?_⟩ <;>
      simp [UnpackedFloat.lt, UnpackedFloat.beq, UnpackedFloat.le, UnpackedFloat.compare, xr, XR.lt, XR.beq, XR.le, val, sgnR, this, this.ne, this.ne', this.le, this.not_gt, h, h.ne']
    | finite t m' e' h' =>
      have p1 := mag_pos e h
      have p2 := mag_pos e' h'
      obtain ⟨q1, q2, q3⟩ := mag_compare h h' hu.1 hv.1
      generalize hX : (m : ℝ) * 2 ^ e = X at *
      generalize hY : (m' : ℝ) * 2 ^ e' = Y at *
      cases s <;> cases t
      · simp only [UnpackedFloat.lt, UnpackedFloat.beq, UnpackedFloat.le, UnpackedFloat.compare, xr, XR.lt, XR.beq, XR.le, val, sgnR, hX, hY]
        cases hc : (compare e e').then (compare m m')
        · have := q1.1 hc
          simp [this, this.ne, this.ne', this.not_gt]
        · have := q2.1 hc
          simp [this]
        · have := q3.1 hc
          simp [this, this.ne, this.ne']
      · have a1 : -X < Y := by linarith
        simp only [UnpackedFloat.lt, UnpackedFloat.beq, UnpackedFloat.le, UnpackedFloat.compare, xr, XR.lt, XR.beq, XR.le, val, sgnR, hX, hY]
        simp [a1, a1.ne]
      · have a1 : -Y < X := by linarith
        simp only [UnpackedFloat.lt, UnpackedFloat.beq, UnpackedFloat.le, UnpackedFloat.compare, xr, XR.lt, XR.beq, XR.le, val, sgnR, hX, hY]
        simp [a1.ne', a1.not_gt]
      · simp only [UnpackedFloat.lt, UnpackedFloat.beq, UnpackedFloat.le, UnpackedFloat.compare, xr, XR.lt, XR.beq, XR.le, val, sgnR, hX, hY]
        cases hc : (compare e e').then (compare m m')
        · have := q1.1 hc
          simp [this, this.ne]
        · have := q2.1 hc
          simp [this]
        · have := q3.1 hc
          simp [this.ne', this.not_gt]

theorem lt_toXR (x y : Float) : Float.lt x y = XR.lt (toXR x) (toXR y) := by
  rw [lt_up]; exact (compare_xr (good_up x) (good_up y)).1
theorem beq_toXR (x y : Float) : Float.beq x y = XR.beq (toXR x) (toXR y) := by
  rw [beq_up]; exact (compare_xr (good_up x) (good_up y)).2.1
theorem le_toXR (x y : Float) : Float.le x y = XR.le (toXR x) (toXR y) := by
  rw [le_up]; exact (compare_xr (good_up x) (good_up y)).2.2
theorem isNaN_toXR (x : Float) : x.isNaN = (toXR x).isNaN := by
  rw [isNaN_up]; unfold toXR
  cases up x with
  | infinity s => cases s <;> rfl
  | _ => rfl

theorem fix_good {u : UnpackedFloat} (h : Good u) : fix u = u := by
  cases u with
  | notANumber => exact fix_nan
  | infinity s => exact fix_inf s
  | zero s => exact fix_zero s
  | finite s m e h' => rw [fix_finite _ _ _ _ h.1, if_neg (by have := h.2; omega)]

theorem good_neg {u : UnpackedFloat} (h : Good u) : Good u.neg := by
  cases u <;> first | trivial | exact h
theorem good_abs {u : UnpackedFloat} (h : Good u) : Good u.abs := by
  cases u <;> first | trivial | exact h

theorem up_neg' (x : Float) : up (-x) = (up x).neg := by rw [up_neg, fix_good (good_neg (good_up x))]
theorem up_abs' (x : Float) : up x.abs = (up x).abs := by rw [up_abs, fix_good (good_abs (good_up x))]

theorem neg_toXR (x : Float) : toXR (-x) = (toXR x).neg := by
  unfold toXR; rw [up_neg']
  cases up x with
  | notANumber => rfl
  | infinity s => cases s <;> rfl
  | zero s => simp [UnpackedFloat.neg, xr, XR.neg]
  | finite s m e h => simp [UnpackedFloat.neg, xr, XR.neg, val, sgnR_neg]

theorem abs_toXR (x : Float) : toXR x.abs = (toXR x).abs := by
  unfold toXR; rw [up_abs']
  cases up x with
  | notANumber => rfl
  | infinity s => cases s <;> rfl
  | zero s => simp [UnpackedFloat.abs, xr, XR.abs]
  | finite s m e h =>
    have := mag_pos e h
    cases s <;> simp [UnpackedFloat.abs, xr, XR.abs, val, sgnR]

theorem fmax_toXR (x y : Float) : toXR (fmax x y) = XR.fmax (toXR x) (toXR y) := by
  unfold fmax XR.fmax
  rw [isNaN_toXR, isNaN_toXR, ← lt_toXR]
  by_cases h1 : (toXR x).isNaN = true
  · rw [if_pos h1, if_pos h1]
  · rw [if_neg h1, if_neg h1]
    by_cases h2 : (toXR y).isNaN = true
    · rw [if_pos h2, if_pos h2]
    · rw [if_neg h2, if_neg h2]
      by_cases h3 : Float.lt x y = true
      · rw [if_pos h3, if_pos (show x < y from h3)]
      · rw [if_neg h3, if_neg (show ¬ (x < y) from h3)]

theorem fmin_toXR (x y : Float) : toXR (fmin x y) = XR.fmin (toXR x) (toXR y) := by
  unfold fmin XR.fmin
  rw [isNaN_toXR, isNaN_toXR, ← lt_toXR]
  by_cases h1 : (toXR x).isNaN = true
  · rw [if_pos h1, if_pos h1]
  · rw [if_neg h1, if_neg h1]
    by_cases h2 : (toXR y).isNaN = true
    · rw [if_pos h2, if_pos h2]
    · rw [if_neg h2, if_neg h2]
      by_cases h3 : Float.lt y x = true
      · rw [if_pos h3, if_pos (show y < x from h3)]
      · rw [if_neg h3, if_neg (show ¬ (y < x) from h3)]

/-! ### Finite floats -/

theorem toXR_fin {x : Float} (h : x.isFinite = true) : toXR x = .fin (toR x) := by
  rw [isFinite_up] at h
  unfold toXR toR
  cases hu : up x with
  | notANumber => rw [hu] at h; cases h
  | infinity s => rw [hu] at h; cases h
  | zero s => rfl
  | finite s m e h => rfl

theorem fin_toXR {x : Float} {r : ℝ} (h : toXR x = .fin r) : x.isFinite = true ∧ toR x = r := by
  rw [isFinite_up]
  unfold toXR at h; unfold toR
  cases hu : up x with
  | notANumber => rw [hu] at h; cases h
  | infinity s => rw [hu] at h; cases s <;> cases h
  | zero s => rw [hu] at h; cases h; exact ⟨rfl, rfl⟩
  | finite s m e h' => rw [hu] at h; cases h; exact ⟨rfl, rfl⟩

theorem finite_iff (x : Float) : x.isFinite = true ↔ ∃ r, toXR x = .fin r :=
  ⟨fun h => ⟨_, toXR_fin h⟩, fun ⟨_, h⟩ => (fin_toXR h).1⟩

theorem lt_iff {x y : Float} (hx : x.isFinite = true) (hy : y.isFinite = true) : x < y ↔ toR x < toR y := by
  show Float.lt x y = true ↔ _
  rw [lt_toXR, toXR_fin hx, toXR_fin hy]; simp [XR.lt]
theorem le_iff {x y : Float} (hx : x.isFinite = true) (hy : y.isFinite = true) : x ≤ y ↔ toR x ≤ toR y := by
  show Float.le x y = true ↔ _
  rw [le_toXR, toXR_fin hx, toXR_fin hy]; simp [XR.le, XR.lt, XR.beq, le_iff_lt_or_eq]

theorem neg_toR (x : Float) : toR (-x) = -toR x := by
  unfold toR; rw [up_neg']
  cases up x <;> simp [UnpackedFloat.neg, val, sgnR_neg]
theorem abs_toR (x : Float) : toR x.abs = |toR x| := by
  unfold toR; rw [up_abs']
  cases up x with
  | finite s m e h =>
    cases s <;> simp [UnpackedFloat.abs, val, sgnR]
  | _ => simp [UnpackedFloat.abs, val]
theorem neg_finite (x : Float) : (-x).isFinite = x.isFinite := by
  rw [isFinite_up, isFinite_up, up_neg']
  cases up x <;> rfl
theorem abs_finite (x : Float) : x.abs.isFinite = x.isFinite := by
  rw [isFinite_up, isFinite_up, up_abs']
  cases up x <;> rfl

/-! ### The floating point grid -/

/-- A real number with a 53-bit mantissa (no upper limit on the exponent). -/
def Grid (G : ℝ) : Prop := Repr53 |G|

theorem Grid.neg {G : ℝ} (h : Grid G) : Grid (-G) := by unfold Grid; rw [abs_neg]; exact h

theorem grid_toR (x : Float) : Grid (toR x) := by
  unfold Grid toR
  have := up_canon x
  cases hu : up x with
  | finite s m e h =>
    rw [hu] at this
    refine ⟨m, e, canon_lt h this.1, canon_ge this.1, ?_⟩
    have := mag_pos e h
    cases s <;> simp [val, sgnR]
  | _ => exact ⟨0, 0, by norm_num, by norm_num, by simp [val]⟩

theorem grid_mul_two {G : ℝ} (h : Grid G) : Grid (2 * G) := by
  obtain ⟨m, e, h1, h2, h3⟩ := h
  refine ⟨m, e + 1, h1, by omega, ?_⟩
  rw [abs_mul, h3, zpow_add₀ (by norm_num)]; norm_num; ring

theorem grid_nat {n : Nat} (h : n < 2 ^ 53) : Grid (n : ℝ) :=
  ⟨n, 0, h, by norm_num, by simp⟩
theorem grid_pow (e : Int) (h : -1074 ≤ e) : Grid ((2 : ℝ) ^ e) :=
  ⟨1, e, by norm_num, h, by rw [abs_of_pos (zp e)]; simp⟩

/-- Magnitudes of finite floats. -/
theorem abs_toR_lt (x : Float) : |toR x| < ovf := by
  unfold toR
  have := up_canon x
  have ho : (0 : ℝ) < ovf := by rw [ovf]; norm_num
  cases hu : up x with
  | finite s m e h =>
    rw [hu] at this
    have h2 := val_lt_ovf (canon_lt h this.1) this.2
    have := mag_pos e h
    cases s <;> simpa [val, sgnR] using h2
  | _ => simpa [val] using ho

/-- `Y` is the real number `X` rounded to the grid: the error bound, and monotonicity with respect to
grid points. -/
structure Fl (X Y : ℝ) : Prop where
  err : |Y - X| ≤ max (|X| / 2 ^ 53) (1 / 2 ^ 1075)
  lower : ∀ G, Grid G → G ≤ X → G ≤ Y
  upper : ∀ G, Grid G → X ≤ G → Y ≤ G

theorem Fl.neg {X Y : ℝ} (h : Fl X Y) : Fl (-X) (-Y) := by
  refine ⟨?_, fun G hG h' => ?_, fun G hG h' => ?_⟩
  · rw [show -Y - -X = -(Y - X) by ring, abs_neg, abs_neg]; exact h.err
  · have := h.upper (-G) hG.neg (by linarith)
    linarith
  · have := h.lower (-G) hG.neg (by linarith)
    linarith

theorem Near.fl {X Y : ℝ} (hX : 0 ≤ X) (h : Near X Y) : Fl X Y := by
  refine ⟨by rw [abs_of_nonneg hX]; exact h.err, fun G hG h' => ?_, fun G hG h' => ?_⟩
  · rcases le_total 0 G with h0 | h0
    · exact h.lower G (by rw [Grid, abs_of_nonneg h0] at hG; exact hG) h'
    · exact h0.trans h.nonneg
  · exact h.upper G (by rw [Grid, abs_of_nonneg (hX.trans h')] at hG; exact hG) h'

/-- A grid point rounds to itself. -/
theorem Fl.exact {X Y : ℝ} (h : Fl X Y) (hG : Grid X) : Y = X :=
  le_antisymm (h.upper X hG le_rfl) (h.lower X hG le_rfl)

theorem Fl.nonneg {X Y : ℝ} (h : Fl X Y) (hX : 0 ≤ X) : 0 ≤ Y :=
  h.lower 0 (by simpa using grid_nat (n := 0) (by norm_num)) hX
theorem Fl.nonpos {X Y : ℝ} (h : Fl X Y) (hX : X ≤ 0) : Y ≤ 0 :=
  h.upper 0 (by simpa using grid_nat (n := 0) (by norm_num)) hX

/-- The error bound as a relative error `δ` plus an underflow error `η`. -/
theorem Fl.rel {X Y : ℝ} (h : Fl X Y) : ∃ δ η : ℝ, |δ| ≤ 1 / 2 ^ 53 ∧ |η| ≤ 1 / 2 ^ 1075 ∧
    Y = X * (1 + δ) + η ∧ δ * η = 0 := by
  rcases le_max_iff.1 h.err with h1 | h1
  · by_cases hX : X = 0
    · have : Y = 0 := by
        rw [hX] at h1; simp at h1; exact h1
      exact ⟨0, 0, by simp, by simp, by rw [hX, this]; simp, by simp⟩
    · refine ⟨(Y - X) / X, 0, ?_, by simp, by field_simp; ring, by simp⟩
      rw [abs_div, div_le_iff₀ (abs_pos.2 hX)]
      calc _ ≤ _ := h1
        _ = _ := by ring
  · exact ⟨0, Y - X, by simp, h1, by ring, by simp⟩

/-- What a correctly rounded result can be. -/
theorem Rounds.cases {X : ℝ} {f : Float} (h : Rounds X f) :
    (f.isFinite = true ∧ Fl X (toR f)) ∨ (up f = .infinity .positive ∧ ovf ≤ X) ∨
    (up f = .infinity .negative ∧ X ≤ -ovf) := by
  rcases h with ⟨h0, h⟩ | ⟨h0, h⟩
  · rcases h with h | ⟨Y, hN, _, hv, hf, _⟩
    · exact Or.inr (Or.inl h)
    · left
      refine ⟨by rw [isFinite_up]; exact hf, ?_⟩
      have : toR f = Y := by unfold toR; rw [hv]; simp [sgnR]
      rw [this]; exact hN.fl h0
  · rcases h with h | ⟨Y, hN, _, hv, hf, _⟩
    · exact Or.inr (Or.inr ⟨h.1, by linarith [h.2]⟩)
    · left
      refine ⟨by rw [isFinite_up]; exact hf, ?_⟩
      have : toR f = -Y := by unfold toR; rw [hv]; simp [sgnR]
      rw [this]
      have := (hN.fl (by linarith)).neg
      rwa [neg_neg] at this

theorem Rounds.not_nan {X : ℝ} {f : Float} (h : Rounds X f) : f.isNaN = false := by
  rw [isNaN_up]
  rcases h.cases with h | h | h
  · have := h.1
    rw [isFinite_up] at this
    cases hu : up f <;> rw [hu] at this <;> first | rfl | cases this
  · rw [h.1]; rfl
  · rw [h.1]; rfl

theorem Rounds.fl {X : ℝ} {f : Float} (h : Rounds X f) (hf : f.isFinite = true) : Fl X (toR f) := by
  rw [isFinite_up] at hf
  rcases h.cases with h | h | h
  · exact h.2
  · rw [h.1] at hf; cases hf
  · rw [h.1] at hf; cases hf

theorem Rounds.finite {X : ℝ} {f : Float} (h : Rounds X f) (hX : |X| < ovf) : f.isFinite = true := by
  have hX' := abs_lt.1 hX
  rcases h.cases with h | h | h
  · exact h.1
  · linarith [h.2]
  · linarith [h.2]

/-- A grid point in range is computed exactly. -/
theorem Rounds.exact {X : ℝ} {f : Float} (h : Rounds X f) (hX : |X| < ovf) (hG : Grid X) :
    f.isFinite = true ∧ toR f = X :=
  ⟨h.finite hX, (h.fl (h.finite hX)).exact hG⟩

/-- Nonzero finite floats with the same value are equal. -/
theorem toR_inj {x y : Float} (h : toR x = toR y) (hx : x.isFinite = true) (hy : y.isFinite = true)
    (h0 : toR x ≠ 0) : x = y := by
  apply up_inj
  rw [isFinite_up] at hx hy
  have cx := up_canon x
  have cy := up_canon y
  unfold toR at *
  cases hux : up x with
  | notANumber => rw [hux] at hx; cases hx
  | infinity s => rw [hux] at hx; cases hx
  | zero s => rw [hux] at h0; exact absurd rfl h0
  | finite s m e hm =>
    cases huy : up y with
    | notANumber => rw [huy] at hy; cases hy
    | infinity s => rw [huy] at hy; cases hy
    | zero s => rw [h, huy] at h0; exact absurd rfl h0
    | finite t m' e' hm' =>
      rw [hux, huy] at h
      rw [hux] at cx
      rw [huy] at cy
      have p1 := mag_pos e hm
      have p2 := mag_pos e' hm'
      have hs : s = t := by
        cases s <;> cases t <;> simp only [val, sgnR] at h <;> first | rfl | (exfalso; linarith)
      subst hs
      have hv : (m : ℝ) * 2 ^ e = m' * 2 ^ e' := by
        cases s <;> simp only [val, sgnR] at h <;> linarith
      have he : e = e' := by
        rcases lt_trichotomy e e' with hh | hh | hh
        · exact absurd hv (mag_lt hm cx.1 cy.1 hh).ne
        · exact hh
        · exact absurd hv (mag_lt hm' cy.1 cx.1 hh).ne'
      subst he
      have hmm : m = m' := by
        have := mul_right_cancel₀ (zp e).ne' hv
        exact_mod_cast this
      subst hmm
      rfl

/-- Zero is `0` or `-0`. -/
theorem toR_eq_zero {x : Float} (hx : x.isFinite = true) (h : toR x = 0) : ∃ s, up x = .zero s := by
  rw [isFinite_up] at hx
  unfold toR at h
  cases hux : up x with
  | notANumber => rw [hux] at hx; cases hx
  | infinity s => rw [hux] at hx; cases hx
  | zero s => exact ⟨s, rfl⟩
  | finite s m e hm =>
    rw [hux] at h
    have p1 := mag_pos e hm
    cases s <;> simp only [val, sgnR] at h <;> linarith

end Verif.F64
