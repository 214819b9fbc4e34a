import Verif.Props.Lapy2Mono

/-!
# C110: `dlapy2` on binary64 of equal magnitudes, and the upper bound this gives
-/

namespace Verif
open Float.Model F64 Scalar Spec

/-- **C110.** For two finite arguments of the same magnitude `dlapy2` is that magnitude times the square root of two, rounded twice. -/
theorem C110_dlapy2_equal (x y : Float) (hx : x.isFinite = true) (h : x.abs = y.abs) : dlapy2 x y = x.abs * Float.sqrt 2 := by
  have hxa : x.abs.isFinite = true := by rw [abs_finite]; exact hx
  have hy : y.isFinite = true := by rw [← abs_finite, ← h]; exact hxa
  have ev : |toR x| = |toR y| := by rw [← abs_toR, ← abs_toR, h]
  rw [dlapy2_def, if_neg (by rw [finite_not_nan hx]; simp), if_neg (by rw [finite_not_nan hy]; simp), F64.le_max (fmax_fin hx hy).1, Bool.or_false]
  obtain ⟨a1, a2⟩ := fmax_fin hx hy
  obtain ⟨c1, c2⟩ := fmin_fin hx hy
  rw [← ev, max_self] at a2
  rw [← ev, min_self] at c2
  have h0 : Float.beq (F64.fmin x.abs y.abs) 0 = decide (|toR x| = 0) := by
    rw [beq_toXR, toXR_fin c1, c2, toXR_fin (x := 0) rfl]
    rfl
  rw [h0]
  simp only [decide_eq_true_eq]
  by_cases hz : |toR x| = 0
  · rw [if_pos hz, ← h]
    have z : up x.abs = .zero .positive := by
      rw [up_abs']
      obtain ⟨s, e⟩ := toR_eq_zero hx (abs_eq_zero.1 hz)
      rw [e]; rfl
    have z' : x.abs = 0 := up_inj z
    rw [z']
    decide +kernel
  · rw [if_neg hz]
    have m1 : F64.fmax x.abs y.abs = x.abs := toR_inj (by rw [a2, abs_toR]) a1 hxa (by rw [a2]; exact hz)
    have m2 : F64.fmin x.abs y.abs = x.abs := toR_inj (by rw [c2, abs_toR]) c1 hxa (by rw [c2]; exact hz)
    have hn : toR x.abs ≠ 0 := by rw [abs_toR]; exact hz
    have q : x.abs / x.abs = 1 := by
      have r := div_rounds x.abs x.abs hxa hxa hn
      rw [div_self hn] at r
      obtain ⟨f, v⟩ := r.exact (by rw [abs_one]; exact one_lt_ovf) grid_one
      exact toR_inj (by rw [v, toR_one.2]) f toR_one.1 (by rw [v]; norm_num)
    have t : (1 + 1 * 1 : Float) = 2 := by decide +kernel
    rw [m1, m2, q, t]

/-- **C110.** `dlapy2` is at most the larger magnitude times the square root of two, computed in the same arithmetic, with no allowance for rounding. -/
theorem C110_dlapy2_upper (x y : Float) (hx : x.isFinite = true) (hy : y.isFinite = true) (h : y.abs ≤ x.abs) :
    dlapy2 x y ≤ x.abs * Float.sqrt 2 ∧ dlapy2 y x ≤ x.abs * Float.sqrt 2 := by
  have hr : x.abs ≤ x.abs := (le_iff (by rw [abs_finite]; exact hx) (by rw [abs_finite]; exact hx)).2 le_rfl
  have := C110_dlapy2_smaller x y x hx hy hx h hr
  rw [C110_dlapy2_equal x x hx rfl] at this
  exact this

/-- Cases: `dlapy2 (0.1, -0.1)`, and `dlapy2 (3, -2.9)` below its bound. -/
theorem C110_upper_example : dlapy2 (0.1 : Float) (-0.1) = 0.14142135623730953 ∧ (0.1 : Float).abs = (-0.1 : Float).abs ∧
    dlapy2 (3 : Float) (-2.9) < (3 : Float).abs * Float.sqrt 2 ∧ (-2.9 : Float).abs ≤ (3 : Float).abs := by
  decide +kernel

end Verif
