import Verif.Props.Monotone
import Verif.Props.Lapy2F64

/-!
# C110: how `dlapy2` on binary64 follows an increase of one argument
-/

namespace Verif
open Float.Model F64 Scalar Spec

namespace F64

theorem mo_fin {x y : Float} (h : Mo x y) (f : y.isFinite = true) : x.isFinite = true ∧ 0 ≤ toR x ∧ toR x ≤ toR y := by
  rcases h with ⟨h1, h | ⟨g, -, h⟩⟩
  · rw [isFinite_up, h] at f; cases f
  · exact ⟨g, h1.val g, h⟩

/-- The ratio of the smaller argument to the larger one, in `dlapy2`. -/
theorem ratio_fin {w z : Float} (hw : w.isFinite = true) (hz : z.isFinite = true) (h0 : 0 ≤ toR z) (hW : 0 < toR w) (hle : toR z ≤ toR w) :
    (z / w).isFinite = true ∧ 0 ≤ toR (z / w) ∧ toR (z / w) ≤ 1 := by
  have r := div_rounds z w hz hw hW.ne'
  have hQ0 : 0 ≤ toR z / toR w := div_nonneg h0 hW.le
  have hQ1 : toR z / toR w ≤ 1 := by rw [div_le_one hW]; exact hle
  have f := r.finite (by rw [abs_of_nonneg hQ0]; exact hQ1.trans_lt one_lt_ovf)
  exact ⟨f, (r.fl f).nonneg hQ0, (r.fl f).upper 1 grid_one hQ1⟩

theorem hyp_fin {q : Float} (f : q.isFinite = true) (h0 : 0 ≤ toR q) (h1 : toR q ≤ 1) :
    (q * q).isFinite = true ∧ (1 + q * q).isFinite = true ∧ (Float.sqrt (1 + q * q)).isFinite = true := by
  have one1 : toR (1 : Float) = 1 ∧ (1 : Float).isFinite = true := ⟨toR_one.2, toR_one.1⟩
  have r := mul_rounds q q f f
  have p0 : 0 ≤ toR q * toR q := mul_self_nonneg _
  have p1 : toR q * toR q ≤ 1 := by nlinarith
  have f2 := r.finite (by rw [abs_of_nonneg p0]; exact p1.trans_lt one_lt_ovf)
  have u0 := (r.fl f2).nonneg p0
  have u1 := (r.fl f2).upper 1 grid_one p1
  have r3 := add_rounds 1 (q * q) one1.2 f2
  rw [one1.1] at r3
  have f3 := r3.finite (by rw [abs_of_nonneg (by linarith)]; linarith [two_lt_ovf])
  have v0 := (r3.fl f3).nonneg (by linarith)
  have v1 := (r3.fl f3).upper 2 grid_two (by linarith)
  have r4 := sqrt_rounds _ f3 v0
  refine ⟨f2, f3, r4.finite ?_⟩
  rw [abs_of_nonneg (Real.sqrt_nonneg _)]
  have : Real.sqrt (toR (1 + q * q)) ≤ 2 := by
    rw [Real.sqrt_le_iff]
    exact ⟨by norm_num, by linarith⟩
  linarith [two_lt_ovf]

theorem lapy2_mono_core {w w' z z' : Float} (fw : w.isFinite = true) (fw' : w'.isFinite = true) (fz : z.isFinite = true) (fz' : z'.isFinite = true)
    (hw : toR w = toR w') (hW : 0 < toR w) (h0 : 0 ≤ toR z) (h : toR z ≤ toR z') (hle : toR z' ≤ toR w) :
    Mo (w * Float.sqrt (1 + (z / w) * (z / w))) (w' * Float.sqrt (1 + (z' / w') * (z' / w'))) := by
  obtain ⟨a1, a2, a3⟩ := ratio_fin fw fz h0 hW (h.trans hle)
  obtain ⟨b1, b2, b3⟩ := ratio_fin fw' fz' (h0.trans h) (hw ▸ hW) (hw ▸ hle)
  have m1 : Mo (z / w) (z' / w') := mo_of (div_nonneg h0 hW.le) (by rw [← hw]; exact div_le_div_of_nonneg_right h hW.le) (div_rounds z w fz fw hW.ne')
    (div_rounds z' w' fz' fw' (hw ▸ hW.ne')) (div_fl fz fw hW.ne') (div_fl fz' fw' (hw ▸ hW.ne'))
  have l := (mo_fin m1 b1).2.2
  have m2 := Mo.mul a1 b1 a1 b1 a2 l a2 l
  have one1 : Mo (1 : Float) 1 := ⟨Or.inl ⟨toR_one.1, by rw [toR_one.2]; norm_num⟩, Or.inr ⟨toR_one.1, toR_one.1, le_rfl⟩⟩
  have m4 := (one1.add m2).sqrt
  obtain ⟨-, -, c⟩ := hyp_fin a1 a2 a3
  obtain ⟨-, -, d⟩ := hyp_fin b1 b2 b3
  obtain ⟨-, e0, e1⟩ := mo_fin m4 d
  exact Mo.mul fw fw' c d hW.le hw.le e0 e1

end F64

/-- **C110.** On binary64 `dlapy2` does not decrease when its smaller argument grows in magnitude, up to that of the larger one; also if it overflows. -/
theorem C110_dlapy2_smaller (x y y' : Float) (hx : x.isFinite = true) (hy : y.isFinite = true) (hy' : y'.isFinite = true)
    (h : y.abs ≤ y'.abs) (h' : y'.abs ≤ x.abs) : dlapy2 x y ≤ dlapy2 x y' ∧ dlapy2 y x ≤ dlapy2 y' x := by
  have ab : ∀ {z : Float}, z.isFinite = true → z.abs.isFinite = true := fun f => by rw [abs_finite]; exact f
  rw [C33_dlapy2_comm y x, C33_dlapy2_comm y' x, and_self]
  have l := (le_iff (ab hy) (ab hy')).1 h
  have l' := (le_iff (ab hy') (ab hx)).1 h'
  rw [abs_toR, abs_toR] at l l'
  have e : ∀ {z : Float}, z.isFinite = true → |toR z| ≤ |toR x| → dlapy2 x z =
      if |toR z| = 0 then F64.fmax x.abs z.abs else F64.fmax x.abs z.abs * Float.sqrt (1 + (F64.fmin x.abs z.abs / F64.fmax x.abs z.abs) * (F64.fmin x.abs z.abs / F64.fmax x.abs z.abs)) := by
    intro z hz hzx
    rw [dlapy2_def, if_neg (by rw [finite_not_nan hx]; simp), if_neg (by rw [finite_not_nan hz]; simp), F64.le_max (fmax_fin hx hz).1, Bool.or_false]
    have h0 : Float.beq (F64.fmin x.abs z.abs) 0 = decide (|toR z| = 0) := by
      rw [beq_toXR, toXR_fin (fmin_fin hx hz).1, (fmin_fin hx hz).2, min_eq_right hzx, toXR_fin (x := 0) rfl]
      rfl
    rw [h0]
    simp only [decide_eq_true_eq]
  by_cases h0 : |toR y| = 0
  · have : dlapy2 x y = F64.fmax x.abs y.abs := by rw [e hy (l.trans l'), if_pos h0]
    have hf := fmax_fin hx hy
    have ge := (C47_dlapy2_ge x y' (finite_not_nan hx) (finite_not_nan hy')).1
    rw [this]
    have ew : Float.le (F64.fmax x.abs y.abs) (dlapy2 x y') = Float.le x.abs (dlapy2 x y') := by
      rw [le_toXR, le_toXR, toXR_fin hf.1, toXR_fin (ab hx), hf.2, abs_toR, max_eq_left (l.trans l')]
    show Float.le _ _ = true
    rw [ew]
    exact ge
  · have p := lt_of_le_of_ne (abs_nonneg (toR y)) (Ne.symm h0)
    have p' := p.trans_le l
    rw [e hy (l.trans l'), e hy' l', if_neg h0, if_neg p'.ne']
    obtain ⟨a1, a2⟩ := fmax_fin hx hy
    obtain ⟨b1, b2⟩ := fmax_fin hx hy'
    obtain ⟨c1, c2⟩ := fmin_fin hx hy
    obtain ⟨d1, d2⟩ := fmin_fin hx hy'
    rw [max_eq_left (l.trans l')] at a2
    rw [max_eq_left l'] at b2
    rw [min_eq_right (l.trans l')] at c2
    rw [min_eq_right l'] at d2
    exact (lapy2_mono_core a1 b1 c1 d1 (a2.trans b2.symm) (by rw [a2]; linarith) (by rw [c2]; exact p.le) (by rw [c2, d2]; exact l)
      (by rw [d2, a2]; exact l')).le

/-- A case: `0.25 ≤ |-0.5| ≤ |-3|`, all results finite. -/
theorem C110_example : dlapy2 (-3 : Float) 0.25 < dlapy2 (-3 : Float) (-0.5) ∧ (dlapy2 (-3 : Float) (-0.5)).isFinite = true := by
  decide +kernel

/-- **C110.** But it can decrease when its larger argument grows: `1.406250000000004` is less than `1.4062500000000042`, but `dlapy2` with `1` is larger. -/
theorem C110_dlapy2_larger : (1.406250000000004 : Float) < 1.4062500000000042 ∧ dlapy2 (1.4062500000000042 : Float) 1 < dlapy2 (1.406250000000004 : Float) 1 := by
  decide +kernel

end Verif
