import Verif.Lib.F64Err

/-!
# C39: verdicts of `ieeeck` on binary64
-/

namespace Verif
open Float.Model Float.Model.UnpackedFloat F64

namespace F64

theorem up_zero : up (0 : Float) = .zero .positive := rfl

theorem eq_zero_iff (z : Float) : z = 0 ↔ up z = .zero .positive :=
  ⟨fun h => by rw [h]; rfl, fun h => up_inj (by rw [h]; rfl)⟩

theorem pos_iff (o : Float) : (0 < o ∧ o.isFinite = true) ↔ ∃ m e h, up o = .finite .positive m e h := by
  have h0 : (0 : Float) < o ↔ UnpackedFloat.lt (.zero .positive) (up o) = true := by
    show Float.lt 0 o = true ↔ _
    rw [lt_up]; rfl
  rw [h0, isFinite_up]
  cases up o with
  | notANumber => simp [UnpackedFloat.isFinite]
  | infinity s => simp [UnpackedFloat.isFinite]
  | zero s => simp [UnpackedFloat.lt, UnpackedFloat.compare]
  | finite s m e h => cases s <;> simp [UnpackedFloat.lt, UnpackedFloat.compare, UnpackedFloat.isFinite, h]

/-- Doubling a nonzero finite number never returns it. -/
theorem add_self_ne {z : Float} {s m e h} (hz : up z = .finite s m e h) :
    Float.beq (z + z) z = false := by
  have hf : z.isFinite = true := by rw [isFinite_up, hz]; rfl
  have hr := add_rounds z z hf hf
  rw [beq_toXR, toXR_fin hf]
  have hne : toR z ≠ 0 := by
    unfold toR; rw [hz]
    have := mag_pos e h
    cases s <;> simp only [val, sgnR] <;> intro h' <;> linarith
  rcases hr.cases with hc | hc | hc
  · rw [toXR_fin hc.1]
    have := hc.2.exact (by rw [← two_mul]; exact grid_mul_two (grid_toR z))
    rw [this]
    simp [XR.beq, hne]
  · unfold toXR; rw [hc.1]; rfl
  · unfold toXR; rw [hc.1]; rfl

/-- If the reciprocal of the negative infinity is not (equal to) `zero`, the answer is `0`; likewise if it is
but adding `zero` to it changes it. -/
theorem ieeeck_neg (ispec : Int) (zero one : Float)
    (h : Float.beq (one / (-one / zero + one)) zero = true →
      Float.beq (one / (-one / zero + one) + zero) zero = false) : ieeeck ispec zero one = 0 := by
  have hb : ∀ a b : Float, Scalar.beq a b = Float.beq a b := fun _ _ => rfl
  unfold ieeeck
  simp only [hb]
  by_cases h1 : Float.beq (one / (-one / zero + one)) zero = true
  · rw [h1, h h1]
    simp
  · rw [Bool.not_eq_true] at h1
    rw [h1]
    simp

theorem ieeeck_first (ispec : Int) (zero one : Float) (h : Float.le (one / zero) one = true) :
    ieeeck ispec zero one = 0 := by
  have hb : ∀ a b : Float, Scalar.le a b = Float.le a b := fun _ _ => rfl
  unfold ieeeck
  simp only [hb, h]
  simp

theorem ieeeck_second (ispec : Int) (zero one : Float) (h : Float.le zero (-one / zero) = true) :
    ieeeck ispec zero one = 0 := by
  have hb : ∀ a b : Float, Scalar.le a b = Float.le a b := fun _ _ => rfl
  unfold ieeeck
  simp only [hb, h]
  simp

theorem ieeeck_sixth (ispec : Int) (zero one : Float)
    (h : Float.le (one / (one / (-one / zero + one) + zero)) one = true) :
    ieeeck ispec zero one = 0 := by
  have hb : ∀ a b : Float, Scalar.le a b = Float.le a b := fun _ _ => rfl
  unfold ieeeck
  simp only [hb, h]
  simp

theorem one_lt_ovf : (1 : ℝ) < ovf := by
  have := val_lt_ovf (m := 1) (e := 0) (by norm_num) (by norm_num)
  simpa using this

theorem beq_nan {x y : Float} (h : up x = .notANumber) : Float.beq x y = false := by
  rw [beq_up, h]; rfl

theorem ieeeck_nan (ispec : Int) (zero one : Float) (h : up (one / (-one / zero + one)) = .notANumber) :
    ieeeck ispec zero one = 0 := by
  apply ieeeck_neg
  intro h1
  rw [beq_nan h] at h1; cases h1

theorem up_div_of {x y : Float} {u v w : UnpackedFloat} (hx : up x = u) (hy : up y = v)
    (h : UnpackedFloat.div Format.binary64 u v = w) (hw : Good w) : up (x / y) = w := by
  rw [up_div, hx, hy, h, fix_good hw]
theorem up_add_of {x y : Float} {u v w : UnpackedFloat} (hx : up x = u) (hy : up y = v)
    (h : UnpackedFloat.add Format.binary64 u v = w) (hw : Good w) : up (x + y) = w := by
  rw [up_add, hx, hy, h, fix_good hw]
theorem up_mul_of {x y : Float} {u v w : UnpackedFloat} (hx : up x = u) (hy : up y = v)
    (h : UnpackedFloat.mul Format.binary64 u v = w) (hw : Good w) : up (x * y) = w := by
  rw [up_mul, hx, hy, h, fix_good hw]
theorem up_neg_of {x : Float} {u : UnpackedFloat} (hx : up x = u) : up (-x) = u.neg := by
  rw [up_neg', hx]

theorem beq_fin_inf {x y : Float} {s} (hx : x.isFinite = true) (hy : up y = .infinity s) :
    Float.beq x y = false := by
  rw [beq_toXR, toXR_fin hx, toXR, hy]
  cases s <;> rfl

end F64

/-- `zero = +0`, `one` positive and finite. -/
theorem ieeeck_good (ispec : Int) {zero one : Float} {m e h} (hz : up zero = .zero .positive)
    (ho : up one = .finite .positive m e h) : ieeeck ispec zero one = if ispec = 0 then 1 else 0 := by
  have hno := up_neg_of ho
  have p1 : up (one / zero) = .infinity .positive := up_div_of ho hz rfl trivial
  have n1 : up (-one / zero) = .infinity .negative := up_div_of hno hz rfl trivial
  have s1 : up (-one / zero + one) = .infinity .negative := up_add_of n1 ho rfl trivial
  have nz : up (one / (-one / zero + one)) = .zero .negative := up_div_of ho s1 rfl trivial
  have n2 : up (one / (one / (-one / zero + one))) = .infinity .negative := up_div_of ho nz rfl trivial
  have wz : up (one / (-one / zero + one) + zero) = .zero .positive := up_add_of nz hz rfl trivial
  have p2 : up (one / (one / (-one / zero + one) + zero)) = .infinity .positive := up_div_of ho wz rfl trivial
  have n3 : up (one / (one / (-one / zero + one)) * (one / (one / (-one / zero + one) + zero))) = .infinity .negative :=
    up_mul_of n2 p2 rfl trivial
  have p3 : up (one / (one / (-one / zero + one) + zero) * (one / (one / (-one / zero + one) + zero))) = .infinity .positive :=
    up_mul_of p2 p2 rfl trivial
  have nan1 : up (one / (one / (-one / zero + one) + zero) * (one / (one / (-one / zero + one) + zero)) +
      one / (one / (-one / zero + one)) * (one / (one / (-one / zero + one) + zero))) = .notANumber :=
    up_add_of p3 n3 rfl trivial
  have hb : ∀ a b : Float, Scalar.beq a b = (up a).beq (up b) := fun a b => beq_up a b
  have hl : ∀ a b : Float, Scalar.le a b = (up a).le (up b) := fun a b => le_up a b
  have hn : ∀ a : Float, Scalar.isNaN a = (up a).isNaN := fun a => rfl
  unfold ieeeck
  simp only [hb, hl, p1, n1, nz, n2, wz, p2, n3, p3, hz, ho, hn, nan1]
  simp [UnpackedFloat.le, UnpackedFloat.beq, UnpackedFloat.compare, UnpackedFloat.isNaN]

/-- All other arguments. -/
theorem ieeeck_bad (ispec : Int) {zero one : Float}
    (hh : ¬ (up zero = .zero .positive ∧ ∃ m e h, up one = .finite .positive m e h)) :
    ieeeck ispec zero one = 0 := by
  have hno := up_neg' one
  cases hz : up zero with
  | notANumber =>
    apply ieeeck_neg
    intro h1
    rw [beq_up, hz] at h1
    cases hq : up (one / (-one / zero + one)) <;> rw [hq] at h1 <;> cases h1
  | finite s m e h =>
    apply ieeeck_neg
    intro h1
    have hf : zero.isFinite = true := by rw [isFinite_up, hz]; rfl
    have hne : toR zero ≠ 0 := by
      unfold toR; rw [hz]
      have := mag_pos e h
      cases s <;> simp only [val, sgnR] <;> intro h' <;> linarith
    generalize one / (-one / zero + one) = q at h1
    rw [beq_toXR, toXR_fin hf] at h1
    have hq : toXR q = .fin (toR zero) := by
      cases hx : toXR q with
      | fin r => rw [hx] at h1; simp [XR.beq] at h1; rw [h1]
      | _ => rw [hx] at h1; cases h1
    obtain ⟨q1, q2⟩ := fin_toXR hq
    have : q = zero := toR_inj q2 q1 hf (by rw [q2]; exact hne)
    rw [this]
    exact add_self_ne hz
  | infinity t =>
    cases ho : up one with
    | notANumber =>
      rw [ho] at hno
      exact ieeeck_nan _ _ _ (up_div_of ho rfl rfl trivial)
    | infinity s =>
      rw [ho] at hno
      have n1 : up (-one / zero) = .notANumber := up_div_of hno hz rfl trivial
      have s1 : up (-one / zero + one) = .notANumber := up_add_of n1 ho rfl trivial
      exact ieeeck_nan _ _ _ (up_div_of ho s1 rfl trivial)
    | zero s =>
      rw [ho] at hno
      have n1 : up (-one / zero) = .zero (-s / t) := up_div_of hno hz rfl trivial
      have s1 : ∃ r, up (-one / zero + one) = .zero r := by
        generalize -s / t = r at n1
        cases r <;> cases s
        · exact ⟨.negative, up_add_of n1 ho rfl trivial⟩
        · exact ⟨.positive, up_add_of n1 ho rfl trivial⟩
        · exact ⟨.positive, up_add_of n1 ho rfl trivial⟩
        · exact ⟨.positive, up_add_of n1 ho rfl trivial⟩
      obtain ⟨r, s1⟩ := s1
      exact ieeeck_nan _ _ _ (up_div_of ho s1 rfl trivial)
    | finite s m e h =>
      rw [ho] at hno
      have n1 : up (-one / zero) = .zero (-s / t) := up_div_of hno hz rfl trivial
      have s1 : up (-one / zero + one) = .finite s m e h := up_add_of n1 ho rfl (up_finite ho)
      have s2 : -one / zero + one = one := up_inj (by rw [s1, ho])
      apply ieeeck_neg
      intro h1
      have hf : one.isFinite = true := by rw [isFinite_up, ho]; rfl
      have hne : toR one ≠ 0 := by
        unfold toR; rw [ho]
        have := mag_pos e h
        cases s <;> simp only [val, sgnR] <;> intro h' <;> linarith
      have hr := div_rounds one one hf hf hne
      rw [div_self hne] at hr
      have hfin := hr.finite (by rw [abs_one]; exact one_lt_ovf)
      rw [s2, beq_fin_inf hfin hz] at h1
      cases h1
  | zero t =>
    cases ho : up one with
    | notANumber =>
      rw [ho] at hno
      exact ieeeck_nan _ _ _ (up_div_of ho rfl rfl trivial)
    | zero s =>
      rw [ho] at hno
      have n1 : up (-one / zero) = .notANumber := up_div_of hno hz rfl trivial
      have s1 : up (-one / zero + one) = .notANumber := up_add_of n1 ho rfl trivial
      exact ieeeck_nan _ _ _ (up_div_of ho s1 rfl trivial)
    | infinity s =>
      have p1 : up (one / zero) = .infinity (s / t) := up_div_of ho hz rfl trivial
      rw [ho] at hno
      have n1 : up (-one / zero) = .infinity (-s / t) := up_div_of hno hz rfl trivial
      cases s <;> cases t
      · -- -∞ / -0 = +∞
        have s1 : up (-one / zero + one) = .infinity .negative := up_add_of n1 ho rfl trivial
        exact ieeeck_nan _ _ _ (up_div_of ho s1 rfl trivial)
      · exact ieeeck_first _ _ _ (by rw [le_up, p1, ho]; rfl)
      · exact ieeeck_first _ _ _ (by rw [le_up, p1, ho]; rfl)
      · exact ieeeck_first _ _ _ (by rw [le_up, p1, ho]; rfl)
    | finite s m e h =>
      have p1 : up (one / zero) = .infinity (s / t) := up_div_of ho hz rfl trivial
      rw [ho] at hno
      have n1 : up (-one / zero) = .infinity (-s / t) := up_div_of hno hz rfl trivial
      cases s <;> cases t
      · have s1 : up (-one / zero + one) = .infinity .negative := up_add_of n1 ho rfl trivial
        have nz : up (one / (-one / zero + one)) = .zero .positive := up_div_of ho s1 rfl trivial
        have wz : up (one / (-one / zero + one) + zero) = .zero .positive := up_add_of nz hz rfl trivial
        have p2 : up (one / (one / (-one / zero + one) + zero)) = .infinity .negative := up_div_of ho wz rfl trivial
        exact ieeeck_sixth _ _ _ (by rw [le_up, p2, ho]; rfl)
      · exact ieeeck_first _ _ _ (by rw [le_up, p1, ho]; rfl)
      · exact ieeeck_first _ _ _ (by rw [le_up, p1, ho]; rfl)
      · exact absurd ⟨hz, m, e, h, ho⟩ hh

/-- **C39.** On binary64 `ieeeck` answers `1` exactly if `ispec = 0`, `zero` is `+0` and `one` is a positive
finite number, and `0` otherwise.  (In particular it is never `1` for `ispec ≠ 0`.) -/
theorem C39_ieeeck_f64 (ispec : Int) (zero one : Float) :
    ieeeck ispec zero one = if ispec = 0 ∧ zero = 0 ∧ 0 < one ∧ one.isFinite = true then 1 else 0 := by
  have e1 : (zero = 0 ∧ 0 < one ∧ one.isFinite = true) ↔
      (up zero = .zero .positive ∧ ∃ m e h, up one = .finite .positive m e h) := by
    rw [eq_zero_iff, pos_iff]
  by_cases h : up zero = .zero .positive ∧ ∃ m e h, up one = .finite .positive m e h
  · have h' := e1.2 h
    obtain ⟨hz, m, e, hm, ho⟩ := h
    rw [ieeeck_good ispec hz ho]
    by_cases hi : ispec = 0
    · rw [if_pos hi, if_pos ⟨hi, h'⟩]
    · rw [if_neg hi, if_neg (fun hc => hi hc.1)]
  · rw [ieeeck_bad ispec h, if_neg (fun hc => h (e1.1 hc.2))]

/-- The hypothesis for the answer `1` is met, e.g. by `one = 1`; and by the smallest subnormal. -/
example : ieeeck 0 (0 : Float) 1 = 1 ∧ ieeeck 0 (0 : Float) (Float.ofBits 1) = 1 ∧
    ieeeck 1 (0 : Float) 1 = 0 := by
  refine ⟨?_, ?_, ?_⟩
  · rw [C39_ieeeck_f64, if_pos (by decide)]
  · rw [C39_ieeeck_f64, if_pos (by decide)]
  · rw [C39_ieeeck_f64, if_neg (by decide)]

end Verif
