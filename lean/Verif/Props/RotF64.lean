import Verif.Lib.F64Num
import Verif.Props.Blas1

/-!
# C74: rounding errors of `drot` and `dscal` on binary64
-/

namespace Verif.F64
open Float.Model Float.Model.UnpackedFloat

theorem finite_of_sub {x y : Float} (h : (x - y).isFinite = true) : x.isFinite = true ∧ y.isFinite = true := by
  simp only [isFinite_up, up_sub] at *
  cases hx : up x <;> cases hy : up y <;> rw [hx, hy] at h <;> simp_all [UnpackedFloat.sub, UnpackedFloat.neg, UnpackedFloat.add, fix_nan, fix_inf, UnpackedFloat.isFinite]
  all_goals (rename_i s t; cases s <;> cases t <;> revert h <;> simp [UnpackedFloat.add, fix_nan, fix_inf, UnpackedFloat.isFinite, show (Sign.negative == -Sign.negative) = false from rfl, show (Sign.positive == -Sign.positive) = false from rfl, show (Sign.negative == -Sign.positive) = true from rfl, show (Sign.positive == -Sign.negative) = true from rfl])

/-- One product: what `mul_err` says, without assuming that the operands are finite. -/
theorem mul_appr {x y : Float} (h : (x * y).isFinite = true) : Appr 1 (toR (x * y)) (toR x * toR y) (|toR x| * |toR y|) eta := by
  obtain ⟨h1, h2⟩ := finite_of_mul h
  have := (Appr.exact (toR x)).mulL (mul_err h1 h2 h)
  simpa using this

end Verif.F64

namespace Verif
open F64 Scalar

/-- What is claimed about a rotated pair: if the results are finite, each differs from the exact value
by at most `(1+2^-53)^2 - 1` times the sum of the magnitudes of the two products, plus underflow
errors; and they are finite if `|c|`, `|s|` are at most 2 and the old values at most `2^1000`. -/
structure RotAccurate (c s x y x' y' : Float) : Prop where
  errorX : x'.isFinite = true → |toR x' - (toR c * toR x + toR s * toR y)| ≤
    ((1 + 1 / 2 ^ 53) ^ 2 - 1) * (|toR c| * |toR x| + |toR s| * |toR y|) + (1 + 1 / 2 ^ 53) ^ 2 * (2 * (1 / 2 ^ 1075))
  errorY : y'.isFinite = true → |toR y' - (toR c * toR y - toR s * toR x)| ≤
    ((1 + 1 / 2 ^ 53) ^ 2 - 1) * (|toR c| * |toR y| + |toR s| * |toR x|) + (1 + 1 / 2 ^ 53) ^ 2 * (2 * (1 / 2 ^ 1075))
  finite : c.isFinite = true → s.isFinite = true → x.isFinite = true → y.isFinite = true → |toR c| ≤ 2 → |toR s| ≤ 2 →
    |toR x| ≤ 2 ^ 1000 → |toR y| ≤ 2 ^ 1000 → x'.isFinite = true ∧ y'.isFinite = true

theorem rot_accurate (c s x y : Float) : RotAccurate c s x y (c * x + s * y) (c * y - s * x) where
  errorX h := by
    obtain ⟨h1, h2⟩ := finite_of_add h
    have := ((mul_appr h1).add (mul_appr h2) (add_err h1 h2 h)).err
    rw [← two_mul eta] at this
    exact this
  errorY h := by
    obtain ⟨h1, h2⟩ := finite_of_sub h
    have e := sub_err h1 h2 h
    rw [sub_eq_add_neg (toR _) (toR _)] at e
    have := ((mul_appr h1).add (mul_appr h2).neg e).err
    rw [← two_mul eta] at this
    exact this
  finite hc hs hx hy bc bs bx yb := by
    change _ ≤ big at bx
    change _ ≤ big at yb
    have hB := big_pos
    have he : eta ≤ big := by
      have := eta_big
      have := mul_le_mul_of_nonneg_left one_le_big eta_pos.le
      linarith [one_le_big]
    have p : ∀ {a b : Float}, a.isFinite = true → b.isFinite = true → |toR a| ≤ 2 → |toR b| ≤ big →
        Num 1 (a * b) (toR a * toR b) (|toR a| * |toR b|) eta ∧ |toR a| * |toR b| ≤ 2 * big := by
      intro a b ha hb h1 h2
      have h3 : |toR a| * |toR b| ≤ 2 * big := mul_le_mul h1 h2 (abs_nonneg _) (by norm_num)
      have := (Num.float a ha).mul (Num.float b hb) (by norm_num) (by norm_num) (by rw [add_zero, add_zero]; linarith)
      simp only [mul_zero, zero_mul, zero_add] at this
      exact ⟨this, h3⟩
    have p1 := p hc hx bc bx
    have p2 := p hs hy bs yb
    have p3 := p hc hy bc yb
    have p4 := p hs hx bs bx
    exact ⟨(p1.1.add p2.1 1 le_rfl le_rfl (by norm_num) (by linarith [p1.2, p2.2])).fin,
      (p3.1.sub p4.1 1 le_rfl le_rfl (by norm_num) (by linarith [p3.2, p4.2])).fin⟩

/-- **C74.** On binary64 `drot` computes every one of the `n` strided pairs with a small componentwise
error, without overflow for data up to `2^1000`, and changes nothing else. -/
theorem C74_drot_f64 (n : Nat) (x y : List Float) (incx incy : Int) (c s : Float) (hx0 : incx ≠ 0)
    (hy0 : incy ≠ 0) (hx : StrideFits n incx x.length) (hy : StrideFits n incy y.length)
    (hox : n * incx.natAbs + 1 < 2 ^ 31) (hoy : n * incy.natAbs + 1 < 2 ^ 31) :
    ∃ x' y' : List Float, drot (n : Int) x incx y incy c s = pure (x', y') ∧
      x'.length = x.length ∧ y'.length = y.length ∧
      (∀ k (hk : k < n), ∃ u w, x'[strideIx n incx k]? = some u ∧ y'[strideIx n incy k]? = some w ∧
        RotAccurate c s (x[strideIx n incx k]'(hx k hk)) (y[strideIx n incy k]'(hy k hk)) u w) ∧
      (∀ p, (∀ k < n, strideIx n incx k ≠ p) → x'[p]? = x[p]?) ∧
      (∀ p, (∀ k < n, strideIx n incy k ≠ p) → y'[p]? = y[p]?) := by
  obtain ⟨x', y', e, l1, l2, h, f1, f2⟩ := C14_drot n x y incx incy c s hx0 hy0 hx hy hox hoy
  exact ⟨x', y', e, l1, l2, fun k hk => ⟨_, _, (h k hk).1, (h k hk).2, rot_accurate _ _ _ _⟩, f1, f2⟩

/-- What is claimed about a scaled element: it is the exact product rounded once, and it overflows only
if the exact product reaches the overflow threshold `(2^53 - 1/2) 2^971`. -/
structure ScalAccurate (a x x' : Float) : Prop where
  error : x'.isFinite = true → |toR x' - toR a * toR x| ≤ max (|toR a * toR x| / 2 ^ 53) (1 / 2 ^ 1075)
  finite : a.isFinite = true → x.isFinite = true → |toR a * toR x| < (2 ^ 53 - 1 / 2) * 2 ^ 971 → x'.isFinite = true

theorem scal_accurate (a x : Float) : ScalAccurate a x (x * a) where
  error h := by
    obtain ⟨h1, h2⟩ := finite_of_mul h
    rw [mul_comm (toR a)]
    exact ((mul_rounds x a h1 h2).fl h).err
  finite ha hx hB := by
    rw [mul_comm (toR a)] at hB
    exact (mul_rounds x a hx ha).finite hB

theorem scal_one {a : Float} (h : (a =ᶠ (one : Float)) = true) (x : Float) : ScalAccurate a x x := by
  have := (eq_toR toR_one'.1 h).2.trans toR_one'.2
  refine ⟨fun _ => ?_, fun _ hx _ => hx⟩
  rw [this, one_mul, sub_self, abs_zero]
  exact (by positivity : (0 : ℝ) ≤ 1 / 2 ^ 1075).trans (le_max_right _ _)

/-- **C74.** On binary64 `dscal` rounds each of the `n` strided products once and overflows only when
it must, and changes nothing else; for `a = 1` too, where it does nothing. -/
theorem C74_dscal_f64 (n : Nat) (a : Float) (x : List Float) (incx : Int)
    (hinc : 1 ≤ incx) (hx : StrideFits n incx x.length) (hox : n * incx.natAbs + 1 < 2 ^ 31) :
    ∃ x' : List Float, dscal (n : Int) a x incx = pure x' ∧ x'.length = x.length ∧
      (∀ k (hk : k < n), ∃ u, x'[strideIx n incx k]? = some u ∧ ScalAccurate a (x[strideIx n incx k]'(hx k hk)) u) ∧
      (∀ p, (∀ k < n, strideIx n incx k ≠ p) → x'[p]? = x[p]?) := by
  cases ha : (a =ᶠ (one : Float))
  · obtain ⟨x', e, l, h, f⟩ := C12_dscal n a ha x incx hinc hx hox
    refine ⟨x', e, l, fun k hk => ⟨_, ?_, scal_accurate _ _⟩, f⟩
    rw [h k hk, List.getElem?_eq_getElem (hx k hk)]; rfl
  · exact ⟨x, C13_dscal_noop _ _ _ _ (Or.inr (Or.inr ha)), rfl,
      fun k hk => ⟨_, List.getElem?_eq_getElem (hx k hk), scal_one ha _⟩, fun _ _ => rfl⟩

/-- Small integers meet the bounds: `2`, `3` rotated with `c = 1`, `s = -1`. -/
example : (RotAccurate 1 (-1) 2 3 (1 * 2 + -1 * 3) (1 * 3 - -1 * 2)) ∧ |toR (Float.ofInt 2)| ≤ 2 ^ 1000 := by
  refine ⟨rot_accurate _ _ _ _, ?_⟩
  rw [(ofInt_exact 2 (by norm_num)).2]
  push_cast
  rw [abs_of_pos (by norm_num)]
  calc (2 : ℝ) = 2 ^ 1 := by norm_num
    _ ≤ _ := pow_le_pow_right₀ (by norm_num) (by norm_num)

end Verif
