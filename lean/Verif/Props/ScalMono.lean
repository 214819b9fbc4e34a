import Verif.Props.LarfgBound

/-!
# C113: how `dscal` on binary64 changes magnitudes and order
-/

namespace Verif
open Float.Model F64 Scalar Spec

namespace F64

theorem neg_ovf_lt_of_fl {X : ℝ} {f : Float} (h : toR f = fl X) : -ovf < X := by
  have := lt_ovf_of_fl (X := -X) (f := -f) (by rw [neg_toR, fl_symm, h])
  linarith

/-- `w` is the real number `X` rounded, possibly to an infinity. -/
structure RoundedTo (X : ℝ) (w : Float) : Prop where
  rounds : Rounds X w
  value : w.isFinite = true → toR w = fl X

theorem toXR_pinf {x : Float} (h : up x = .infinity .positive) : toXR x = .pinf := by unfold toXR; rw [h]; rfl
theorem toXR_ninf {x : Float} (h : up x = .infinity .negative) : toXR x = .ninf := by unfold toXR; rw [h]; rfl

theorem RoundedTo.le {X Y : ℝ} {f g : Float} (hXY : X ≤ Y) (r : RoundedTo X f) (s : RoundedTo Y g) : f ≤ g := by
  show Float.le f g = true
  have o := one_lt_ovf
  rcases r.rounds.cases with ⟨a, -⟩ | ⟨a, b⟩ | ⟨a, b⟩ <;> rcases s.rounds.cases with ⟨c, -⟩ | ⟨c, d⟩ | ⟨c, d⟩
  · refine (le_iff a c).2 ?_
    rw [r.value a, s.value c]
    exact fl_mono hXY
  · rw [le_toXR, toXR_fin a, toXR_pinf c]; simp [XR.le, XR.lt]
  · have := neg_ovf_lt_of_fl (r.value a); linarith
  · have := lt_ovf_of_fl (s.value c); linarith
  · rw [le_toXR, toXR_pinf a, toXR_pinf c]; simp [XR.le, XR.lt, XR.beq]
  · linarith
  · rw [le_toXR, toXR_ninf a, toXR_fin c]; simp [XR.le, XR.lt]
  · rw [le_toXR, toXR_ninf a, toXR_pinf c]; simp [XR.le, XR.lt]
  · rw [le_toXR, toXR_ninf a, toXR_ninf c]; simp [XR.le, XR.lt, XR.beq]

theorem roundedTo_self {x : Float} (f : x.isFinite = true) : RoundedTo (toR x) x := by
  have h : x * 1 = x := by rw [F64.mul_comm']; exact one_mul' x
  refine ⟨?_, fun _ => ?_⟩
  · have := mul_rounds x 1 f toR_one.1
    rwa [h, toR_one.2, mul_one] at this
  · have := mul_fl (x := x) (y := 1) (by rw [h]; exact f)
    rwa [h, toR_one.2, mul_one] at this

theorem grid_abs (x : Float) : Grid |toR x| := by rw [← abs_toR]; exact grid_toR _

theorem RoundedTo.shrink {X : ℝ} {w x : Float} (h : RoundedTo X w) (f : x.isFinite = true) (hX : |X| ≤ |toR x|) : w.abs ≤ x.abs := by
  have o := abs_toR_lt x
  have ha := abs_le.1 hX
  rcases h.rounds.cases with ⟨a, b⟩ | ⟨a, b⟩ | ⟨a, b⟩
  · rw [le_iff (by rw [abs_finite]; exact a) (by rw [abs_finite]; exact f), abs_toR, abs_toR]
    exact b.abs_le (grid_abs x) hX
  · linarith
  · linarith

theorem RoundedTo.grow {X : ℝ} {w x : Float} (h : RoundedTo X w) (f : x.isFinite = true) (hX : |toR x| ≤ |X|) : x.abs ≤ w.abs := by
  have fa : x.abs.isFinite = true := by rw [abs_finite]; exact f
  rcases h.rounds.cases with ⟨a, b⟩ | ⟨a, b⟩ | ⟨a, b⟩
  · rw [le_iff fa (by rw [abs_finite]; exact a), abs_toR, abs_toR]
    exact b.abs_ge (grid_abs x) hX
  · show Float.le _ _ = true
    rw [le_toXR, toXR_fin fa, abs_toXR, toXR_pinf a]; simp [XR.le, XR.lt, XR.abs]
  · show Float.le _ _ = true
    rw [le_toXR, toXR_fin fa, abs_toXR, toXR_ninf a]; simp [XR.le, XR.lt, XR.abs]

end F64

/-- Every visited element is multiplied and rounded once. -/
theorem dscal_rounds (n : Nat) (d : Float) (fd : d.isFinite = true) (x : List Float) (incx : Int) (hinc : 1 ≤ incx) (hox : n * incx.natAbs + 1 < 2 ^ 31)
    (hx : StrideFits n incx x.length) (h : ∀ l (hl : l < n), (x[strideIx n incx l]'(hx l hl)).isFinite = true) :
    ∃ x' : List Float, dscal (n : Int) d x incx = pure x' ∧ x'.length = x.length ∧
      ∀ l (hl : l < n), ∃ w, x'[strideIx n incx l]? = some w ∧ RoundedTo (toR (x[strideIx n incx l]'(hx l hl)) * toR d) w := by
  cases ha : (d =ᶠ (one : Float))
  · obtain ⟨x', e, l, h', -⟩ := C12_dscal_any_length n d ha x incx hinc hox
    refine ⟨x', e, l, fun l hl => ⟨_, ?_, mul_rounds _ _ (h l hl) fd, mul_fl⟩⟩
    rw [h' l hl, List.getElem?_eq_getElem (hx l hl)]
    rfl
  · refine ⟨x, C13_dscal_noop _ _ _ _ (Or.inr (Or.inr ha)), rfl, fun l hl => ⟨_, List.getElem?_eq_getElem (hx l hl), ?_⟩⟩
    have := (eq_toR (y := one) toR_one'.1 ha).2
    rw [this, toR_one'.2, mul_one]
    exact roundedTo_self (h l hl)

/-- **C113.** `dscal` on binary64 keeps the order of the visited elements if the factor is nonnegative and inverts it if it is at most zero (equal values may become equal), so a sorted
vector stays sorted; a factor of magnitude at most one increases no magnitude and one of magnitude at least one decreases none.  All this holds exactly, overflow and underflow included. -/
theorem C113_dscal (n : Nat) (d : Float) (fd : d.isFinite = true) (x : List Float) (incx : Int) (hinc : 1 ≤ incx) (hox : n * incx.natAbs + 1 < 2 ^ 31)
    (hx : StrideFits n incx x.length) (h : ∀ l (hl : l < n), (x[strideIx n incx l]'(hx l hl)).isFinite = true) :
    ∃ y : List Float, dscal (n : Int) d x incx = (pure y : R (List Float)) ∧ ∃ hy : StrideFits n incx y.length,
      (∀ l (hl : l < n) k (hk : k < n), (x[strideIx n incx l]'(hx l hl)) ≤ (x[strideIx n incx k]'(hx k hk)) →
        ((0 : Float) ≤ d → (y[strideIx n incx l]'(hy l hl)) ≤ (y[strideIx n incx k]'(hy k hk))) ∧
        (d ≤ 0 → (y[strideIx n incx k]'(hy k hk)) ≤ (y[strideIx n incx l]'(hy l hl)))) ∧
      ∀ l (hl : l < n),
        (d.abs ≤ 1 → (y[strideIx n incx l]'(hy l hl)).abs ≤ (x[strideIx n incx l]'(hx l hl)).abs) ∧
        (1 ≤ d.abs → (x[strideIx n incx l]'(hx l hl)).abs ≤ (y[strideIx n incx l]'(hy l hl)).abs) := by
  obtain ⟨y, e, ly, H⟩ := dscal_rounds n d fd x incx hinc hox hx h
  have hy : StrideFits n incx y.length := by rw [ly]; exact hx
  have fa : d.abs.isFinite = true := by rw [abs_finite]; exact fd
  have H' : ∀ l (hl : l < n), RoundedTo (toR (x[strideIx n incx l]'(hx l hl)) * toR d) (y[strideIx n incx l]'(hy l hl)) := by
    intro l hl
    obtain ⟨w, h1, h2⟩ := H l hl
    rw [List.getElem?_eq_getElem (hy l hl)] at h1
    rw [Option.some.inj h1]
    exact h2
  refine ⟨y, e, hy, fun l hl k hk hle => ⟨fun hd => ?_, fun hd => ?_⟩, fun l hl => ⟨fun hd => ?_, fun hd => ?_⟩⟩
  · have hle := (le_iff (h l hl) (h k hk)).1 hle
    have hd := (le_iff toR_zero.1 fd).1 hd
    rw [toR_zero.2] at hd
    exact RoundedTo.le (mul_le_mul_of_nonneg_right hle hd) (H' l hl) (H' k hk)
  · have hle := (le_iff (h l hl) (h k hk)).1 hle
    have hd := (le_iff fd toR_zero.1).1 hd
    rw [toR_zero.2] at hd
    exact RoundedTo.le (mul_le_mul_of_nonpos_right hle hd) (H' k hk) (H' l hl)
  · rw [le_iff fa toR_one.1, abs_toR, toR_one.2] at hd
    refine (H' l hl).shrink (h l hl) ?_
    rw [abs_mul]
    exact mul_le_of_le_one_right (abs_nonneg _) hd
  · rw [le_iff toR_one.1 fa, abs_toR, toR_one.2] at hd
    refine (H' l hl).grow (h l hl) ?_
    rw [abs_mul]
    exact le_mul_of_one_le_right (abs_nonneg _) hd

/-- A case: `(-1, 0.1, 1e308)` times `0.7` and times `-7`, with overflow. -/
theorem C113_example (pr : Profile) :
    ((dscal (F := Float) 3 0.7 ([-1, 0.1, 1e308] : List Float) 1 pr).val?.map fun y => (decide (y.getD 0 0 < y.getD 1 0), decide (y.getD 1 0 < y.getD 2 0))) = some (true, true) ∧
    ((dscal (F := Float) 3 (-7) ([-1, 0.1, 1e308] : List Float) 1 pr).val?.map fun y => (decide (y.getD 1 0 < y.getD 0 0), decide (y.getD 2 0 < y.getD 1 0), (y.getD 2 0).isInf)) =
      some (true, true, true) := by
  cases pr <;> decide +kernel

end Verif
