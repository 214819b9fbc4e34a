import Verif.Lib.HqrF64f
import Verif.Lib.HqrSafe
import Verif.Lib.Lanv2F64

/-!
# The shifts and the start vector of a sweep of `dlahqr` on binary64
-/

namespace Verif
open F64 Scalar Spec Matrix XR

/-- A finite number of size at most `M`. -/
def Bn (x : Float) (M : ℝ) : Prop := x.isFinite = true ∧ |toR x| ≤ M

section bn
variable {x y : Float} {a b c : ℝ}

theorem Bn.mono (h : Bn x a) (hab : a ≤ b) : Bn x b := ⟨h.1, h.2.trans hab⟩
theorem Bn.nonneg (h : Bn x a) : 0 ≤ a := (abs_nonneg _).trans h.2
theorem Bn.abs (h : Bn x a) : Bn (Scalar.abs x) a :=
  ⟨abs_fin h.1, by show |toR x.abs| ≤ a; rw [abs_toR, abs_abs]; exact h.2⟩
theorem Bn.neg (h : Bn x a) : Bn (-x) a := ⟨by rw [neg_finite]; exact h.1, by rw [neg_toR, abs_neg]; exact h.2⟩

theorem Bn.add (hx : Bn x a) (hy : Bn y b) (hB : a + b ≤ 1024 * big) : Bn (x + y) (1001 / 1000 * (a + b)) := by
  have h : |toR x + toR y| ≤ a + b := (abs_add_le _ _).trans (add_le_add hx.2 hy.2)
  obtain ⟨f, r⟩ := addF hx.1 hy.1 (h.trans hB)
  exact ⟨f, (r.abs_le (by norm_num)).trans (by linarith)⟩

theorem Bn.sub (hx : Bn x a) (hy : Bn y b) (hB : a + b ≤ 1024 * big) : Bn (x - y) (1001 / 1000 * (a + b)) := by
  have h : |toR x - toR y| ≤ a + b := (abs_sub _ _).trans (add_le_add hx.2 hy.2)
  obtain ⟨f, r⟩ := subF hx.1 hy.1 (h.trans hB)
  exact ⟨f, (r.abs_le (by norm_num)).trans (by linarith)⟩

theorem fl_le {X Y : ℝ} (h : Fl X Y) : |Y| ≤ 1001 / 1000 * |X| + 1 / 1000 := by
  have h1 := h.general
  have us := ur_small
  have eu := eta_le_ur
  have h2 : |Y| ≤ |X| + |Y - X| := by
    have := abs_add_le X (Y - X)
    rwa [show X + (Y - X) = Y by ring] at this
  have := mul_le_mul_of_nonneg_right us (abs_nonneg X)
  linarith [abs_nonneg X]

theorem fl_ge {X Y : ℝ} (h : Fl X Y) : 999 / 1000 * |X| - 1 / 1000 ≤ |Y| := by
  have h1 := h.general
  have us := ur_small
  have eu := eta_le_ur
  have h2 : |X| ≤ |Y| + |Y - X| := by
    have := abs_sub Y (Y - X)
    rwa [show Y - (Y - X) = X by ring] at this
  have := mul_le_mul_of_nonneg_right us (abs_nonneg X)
  linarith [abs_nonneg X]

theorem Bn.mul (hx : Bn x a) (hy : Bn y b) (hB : a * b ≤ 1024 * big) : Bn (x * y) (1001 / 1000 * (a * b) + 1 / 1000) := by
  have h : |toR x * toR y| ≤ a * b := by rw [abs_mul]; exact mul_le_mul hx.2 hy.2 (abs_nonneg _) hx.nonneg
  obtain ⟨f, r⟩ := mulF hx.1 hy.1 (h.trans hB)
  exact ⟨f, (fl_le r).trans (by linarith)⟩

theorem Bn.div (fx : x.isFinite = true) (fy : y.isFinite = true) (hy0 : toR y ≠ 0) (hc : |toR x| ≤ c * |toR y|) (hB : c ≤ 1024 * big) :
    Bn (x / y) (1001 / 1000 * c + 1 / 1000) := by
  have h : |toR x / toR y| ≤ c := by rw [abs_div, div_le_iff₀ (abs_pos.2 hy0)]; exact hc
  obtain ⟨f, r⟩ := divF fx fy hy0 (h.trans hB)
  exact ⟨f, (fl_le r).trans (by linarith)⟩

theorem Bn.sqrt (hx : Bn x a) (h0 : 0 ≤ toR x) : Bn (Scalar.sqrt x) (1001 / 1000 * (a + 1)) := by
  obtain ⟨f, -, r⟩ := sqrtF hx.1 h0
  refine ⟨f, (r.abs_le (by norm_num)).trans ?_⟩
  have h1 : Real.sqrt (toR x) ≤ a + 1 := by
    refine Real.sqrt_le_iff.2 ⟨by linarith [hx.nonneg], ?_⟩
    have := (le_abs_self _).trans hx.2
    nlinarith [hx.nonneg]
  rw [abs_of_nonneg (Real.sqrt_nonneg _)]
  linarith

/-- Sums of absolute values. -/
theorem abs_sum (fx : x.isFinite = true) (fy : y.isFinite = true) (h0 : 0 ≤ toR x) (hB : toR x + |toR y| ≤ 1024 * big) :
    (x + Scalar.abs y).isFinite = true ∧ 999 / 1000 * (toR x + |toR y|) ≤ toR (x + Scalar.abs y) ∧
      toR (x + Scalar.abs y) ≤ 1001 / 1000 * (toR x + |toR y|) := by
  have ea : toR (Scalar.abs y : Float) = |toR y| := abs_toR y
  have h1 : 0 ≤ toR x + |toR y| := by have := abs_nonneg (toR y); linarith
  obtain ⟨f, r⟩ := addF fx (abs_fin fy) (y := Scalar.abs y) (by rw [ea, abs_of_nonneg h1]; exact hB)
  rw [ea] at r
  have n := r.nonneg (by norm_num) h1
  have h2 := r.abs_le (by norm_num)
  have h3 := r.abs_ge (by norm_num)
  rw [abs_of_nonneg h1, abs_of_nonneg n] at h2 h3
  exact ⟨f, h3, h2⟩

theorem lit_bn : Bn (Scalar.ofInt 3 / Scalar.ofInt 4 : Float) 1 ∧ Bn (Scalar.lit (-7) 4 : Float) 1 := by
  have h3 := ofInt_exact 3 (by norm_num)
  have h4 := ofInt_exact 4 (by norm_num)
  have h7 := ofInt_exact (-7) (by norm_num)
  have h16 := ofInt_exact (2 ^ 4) (by norm_num)
  have hb := one_le_big
  constructor
  · refine (Bn.div (c := 3 / 4) h3.1 h4.1 (by rw [h4.2]; norm_num) (by rw [h3.2, h4.2]; norm_num) (by linarith)).mono (by norm_num)
  · refine (Bn.div (c := 7 / 16) h7.1 h16.1 (by rw [h16.2]; norm_num) (by rw [h7.2, h16.2]; norm_num) (by linarith)).mono (by norm_num)

end bn

/-- The shifts are finite and not much larger than the matrix. -/
theorem shifts_bn {D : ℝ} (hD : 1 ≤ D) (hDb : 2 ^ 19 * D ≤ big) {x11 x12 x21 x22 : Float} (h11 : Bn x11 (4 * D)) (h12 : Bn x12 (4 * D)) (h21 : Bn x21 (4 * D))
    (h22 : Bn x22 (4 * D)) : Bn (hqrShifts x11 x12 x21 x22).1 (200 * D) ∧ Bn (hqrShifts x11 x12 x21 x22).2.1 (200 * D) ∧
      Bn (hqrShifts x11 x12 x21 x22).2.2.1 (200 * D) ∧ Bn (hqrShifts x11 x12 x21 x22).2.2.2 (200 * D) := by
  have B1 := one_le_big
  have z : Bn (Scalar.zero : Float) (200 * D) := ⟨toR_zero.1, by rw [toR_zero.2, abs_zero]; linarith⟩
  have ea : toR (Scalar.abs x11 : Float) = |toR x11| := abs_toR x11
  have b11 := h11.2; have b12 := h12.2; have b21 := h21.2; have b22 := h22.2
  have n11 := abs_nonneg (toR x11); have n12 := abs_nonneg (toR x12); have n21 := abs_nonneg (toR x21); have n22 := abs_nonneg (toR x22)
  obtain ⟨f1, l1, u1⟩ := abs_sum (x := Scalar.abs x11) (y := x12) (abs_fin h11.1) h12.1 (by rw [ea]; exact n11) (by rw [ea]; linarith)
  rw [ea] at l1 u1
  obtain ⟨f2, l2, u2⟩ := abs_sum (y := x21) f1 h21.1 (by linarith) (by linarith)
  obtain ⟨f3, l3, u3⟩ := abs_sum (y := x22) f2 h22.1 (by linarith) (by linarith)
  unfold hqrShifts
  set s := Scalar.abs x11 + Scalar.abs x12 + Scalar.abs x21 + Scalar.abs x22 with hs
  have hs17 : toR s ≤ 17 * D := by linarith
  have s0 : 0 ≤ toR s := by linarith
  beta_reduce
  simp only
  rw [beqF f3 toR_zero.1, toR_zero.2]
  by_cases h0 : toR s = 0
  · simp only [h0, decide_true, if_true]
    exact ⟨z, z, z, z⟩
  · simp only [h0, decide_false, Bool.false_eq_true, if_false]
    have dv : ∀ {x : Float}, x.isFinite = true → |toR x| ≤ 1004 / 1000 * (toR s) → Bn (x / s) (101 / 100) := fun {x} fx hx =>
      (Bn.div (c := 1005 / 1000) fx f3 h0 (by rw [abs_of_nonneg s0]; linarith) (by linarith)).mono (by norm_num)
    have c11 := dv h11.1 (by linarith)
    have c21 := dv h21.1 (by linarith)
    have c12 := dv h12.1 (by linarith)
    have c22 := dv h22.1 (by linarith)
    have t2 := ofInt_exact 2 (by norm_num)
    have tr : Bn ((x11 / s + x22 / s) / (Scalar.ofInt 2 : Float)) (12 / 10) := by
      have h := Bn.add c11 c22 (by linarith)
      refine (Bn.div (c := 105 / 100) h.1 t2.1 (by rw [t2.2]; norm_num) (by rw [t2.2]; norm_num; linarith [h.2]) (by linarith)).mono (by norm_num)
    set t := (x11 / s + x22 / s) / (Scalar.ofInt 2 : Float) with ht
    have e1 := (Bn.sub c11 tr (by linarith)).mono (b := 3) (by norm_num)
    have e2 := (Bn.sub c22 tr (by linarith)).mono (b := 3) (by norm_num)
    have e3 := (Bn.mul e1 e2 (by linarith)).mono (b := 10) (by norm_num)
    have e4 := (Bn.mul c12 c21 (by linarith)).mono (b := 2) (by norm_num)
    have det := (Bn.sub e3 e4 (by linarith)).mono (b := 13) (by norm_num)
    set dt := (x11 / s - t) * (x22 / s - t) - x12 / s * (x21 / s) with hdt
    have rt : Bn (Scalar.sqrt (Scalar.abs dt)) 5 := by
      have h0' : 0 ≤ toR (Scalar.abs dt) := by show 0 ≤ toR dt.abs; rw [abs_toR]; exact abs_nonneg _
      obtain ⟨f, -, r⟩ := sqrtF det.abs.1 h0'
      refine ⟨f, (r.abs_le (by norm_num)).trans ?_⟩
      have h1 : Real.sqrt (toR (Scalar.abs dt)) ≤ 4 := by
        refine Real.sqrt_le_iff.2 ⟨by norm_num, ?_⟩
        have := (le_abs_self _).trans det.abs.2
        linarith
      rw [abs_of_nonneg (Real.sqrt_nonneg _)]
      linarith
    set q := Scalar.sqrt (Scalar.abs dt) with hq
    have hsb : Bn s (17 * D) := ⟨f3, by rw [abs_of_nonneg s0]; exact hs17⟩
    have g1 := (Bn.mul tr hsb (by linarith)).mono (b := 200 * D) (by linarith)
    have g2 := (Bn.mul rt hsb (by linarith)).mono (b := 200 * D) (by linarith)
    have g3 := (Bn.add tr rt (by linarith)).mono (b := 7) (by norm_num)
    have g4 := (Bn.sub tr rt (by linarith)).mono (b := 7) (by norm_num)
    have g5 := (Bn.mul g3 hsb (by linarith)).mono (b := 200 * D) (by linarith)
    have g6 := (Bn.mul g4 hsb (by linarith)).mono (b := 200 * D) (by linarith)
    split
    · exact ⟨g1, g2, g1, g2.neg⟩
    · split
      · exact ⟨g5, z, g5, z⟩
      · exact ⟨g6, z, g6, z⟩

/-! ### Not a number -/

section nan
variable {x y : Float}

theorem nan_of_up (h : up x = .notANumber) : x.isNaN = true := by rw [isNaN_up, h]; rfl
theorem up_of_nan (h : x.isNaN = true) : up x = .notANumber := by
  rw [isNaN_up] at h
  cases hx : up x <;> rw [hx] at h <;> first | rfl | exact Bool.noConfusion h

theorem nan_add_left (h : x.isNaN = true) (y : Float) : (x + y).isNaN = true := by
  apply nan_of_up
  rw [up_add, up_of_nan h]
  cases up y <;> exact fix_nan
theorem nan_add_right (x : Float) (h : y.isNaN = true) : (x + y).isNaN = true := by
  apply nan_of_up
  rw [up_add, up_of_nan h]
  cases up x <;> exact fix_nan
theorem nan_sub_left (h : x.isNaN = true) (y : Float) : (x - y).isNaN = true := by
  apply nan_of_up
  rw [up_sub, up_of_nan h]
  cases up y <;> exact fix_nan
theorem nan_sub_right (x : Float) (h : y.isNaN = true) : (x - y).isNaN = true := by
  apply nan_of_up
  rw [up_sub, up_of_nan h]
  cases up x <;> exact fix_nan
theorem nan_mul_left (h : x.isNaN = true) (y : Float) : (x * y).isNaN = true := by
  apply nan_of_up
  rw [up_mul, up_of_nan h]
  cases up y <;> exact fix_nan
theorem nan_mul_right (x : Float) (h : y.isNaN = true) : (x * y).isNaN = true := by
  apply nan_of_up
  rw [up_mul, up_of_nan h]
  cases up x <;> exact fix_nan
theorem nan_div_left (h : x.isNaN = true) (y : Float) : (x / y).isNaN = true := by
  apply nan_of_up
  rw [up_div, up_of_nan h]
  cases up y <;> exact fix_nan
theorem nan_div_right (x : Float) (h : y.isNaN = true) : (x / y).isNaN = true := by
  apply nan_of_up
  rw [up_div, up_of_nan h]
  cases up x <;> exact fix_nan
theorem nan_neg (h : x.isNaN = true) : (-x).isNaN = true := by
  apply nan_of_up
  rw [up_neg, up_of_nan h]
  exact fix_nan
theorem nan_abs (h : x.isNaN = true) : (Scalar.abs x : Float).isNaN = true := by
  apply nan_of_up
  show up x.abs = _
  rw [up_abs, up_of_nan h]
  exact fix_nan
theorem nan_sqrt (h : x.isNaN = true) : (Scalar.sqrt x : Float).isNaN = true := by
  apply nan_of_up
  show up x.sqrt = _
  rw [up_sqrt, up_of_nan h]
  exact fix_nan
theorem nan_le_left (h : x.isNaN = true) (y : Float) : (x ≤ᶠ y) = false := by
  show Float.le x y = false
  rw [le_toXR, show toXR x = .nan by unfold toXR; rw [up_of_nan h]; rfl]
  cases toXR y <;> rfl
theorem nan_le_right (x : Float) (h : y.isNaN = true) : (x ≤ᶠ y) = false := by
  show Float.le x y = false
  rw [le_toXR, show toXR y = .nan by unfold toXR; rw [up_of_nan h]; rfl]
  cases toXR x <;> rfl
theorem nan_lt_left (h : x.isNaN = true) (y : Float) : (x <ᶠ y) = false := by
  show Float.lt x y = false
  rw [lt_toXR, show toXR x = .nan by unfold toXR; rw [up_of_nan h]; rfl]
  cases toXR y <;> rfl
theorem nan_lt_right (x : Float) (h : y.isNaN = true) : (x <ᶠ y) = false := by
  show Float.lt x y = false
  rw [lt_toXR, show toXR y = .nan by unfold toXR; rw [up_of_nan h]; rfl]
  cases toXR x <;> rfl
theorem nan_beq_left (h : x.isNaN = true) (y : Float) : (x =ᶠ y) = false := by
  show Float.beq x y = false
  rw [beq_toXR, show toXR x = .nan by unfold toXR; rw [up_of_nan h]; rfl]
  cases toXR y <;> rfl

theorem zero_div_zero (fx : x.isFinite = true) (fy : y.isFinite = true) (hx : toR x = 0) (hy : toR y = 0) : (x / y).isNaN = true := by
  obtain ⟨s, e1⟩ := toR_eq_zero fx hx
  obtain ⟨t, e2⟩ := toR_eq_zero fy hy
  apply nan_of_up
  rw [up_div, e1, e2]
  exact fix_nan

end nan

/-! ### The start vector -/

section start
variable {p : HqrP Float} {r c rz cz : Nat} {l i : ℤ} {g : ℤ → ℤ → Float} {D : ℝ}

/-- The entries of the active block are finite and at most `D`. -/
def ActF (l i : ℤ) (g : ℤ → ℤ → Float) (D : ℝ) : Prop := ∀ a b, l ≤ a → a ≤ i → l ≤ b → b ≤ i → Bn (g a b) D

theorem getF (hd : Dim p r c rz cz) (hlo : p.ilo ≤ l) (hhi : i ≤ p.ihi) {h : FA Float} (hh : Is2 h r c (r * c) g) {a b : ℤ} (a1 : l ≤ a)
    (a2 : a ≤ i) (b1 : l ≤ b) (b2 : b ≤ i) : h.get2 a b = pure (g a b) :=
  get2_is2 hh (hd.cell (by omega) (by omega) (by omega) (by omega)) hd.size

theorem shiftMatF (hd : Dim p r c rz cz) (hlo : p.ilo ≤ l) (hhi : i ≤ p.ihi) (hli : l + 2 ≤ i) {h : FA Float} (hh : Is2 h r c (r * c) g)
    (ha : ActF l i g D) (hD : 1 ≤ D) (hDb : 2 ^ 19 * D ≤ big) (kdefl : Int) :
    ∃ x11 x12 x21 x22, hqrShiftMat h kdefl i l = pure (x11, x12, x21, x22) ∧ Bn x11 (4 * D) ∧ Bn x12 (4 * D) ∧ Bn x21 (4 * D) ∧ Bn x22 (4 * D) := by
  unfold hqrShiftMat
  have get : ∀ a b, l ≤ a → a ≤ i → l ≤ b → b ≤ i → h.get2 a b = pure (g a b) := fun a b => getF hd hlo hhi hh
  have main : ∀ {x y w : Float}, Bn x D → Bn y D → Bn w D → Bn ((Scalar.ofInt 3 / Scalar.ofInt 4 : Float) * (Scalar.abs x + Scalar.abs y) + w) (4 * D) ∧
      Bn ((Scalar.lit (-7) 4 : Float) * (Scalar.abs x + Scalar.abs y)) (4 * D) ∧ Bn (Scalar.abs x + Scalar.abs y) (4 * D) := by
    intro x y w hx hy hw
    have h1 := (Bn.add hx.abs hy.abs (by linarith)).mono (b := 21 / 10 * D) (by linarith)
    have h2 := (Bn.mul lit_bn.1 h1 (by linarith)).mono (b := 22 / 10 * D) (by linarith)
    have h3 := (Bn.mul lit_bn.2 h1 (by linarith)).mono (b := 4 * D) (by linarith)
    exact ⟨(Bn.add h2 hw (by linarith)).mono (by linarith), h3, h1.mono (by linarith)⟩
  by_cases h1 : kdefl.tmod 20 = 0
  · simp only [if_pos h1]
    rw [get _ _ (by omega) (by omega) (by omega) (by omega), get _ _ (by omega) (by omega) (by omega) (by omega),
      get _ _ (by omega) (by omega) (by omega) (by omega)]
    simp only [pure_bind]
    obtain ⟨k1, k2, k3⟩ := main (ha i (i - 1) (by omega) (by omega) (by omega) (by omega)) (ha (i - 1) (i - 2) (by omega) (by omega) (by omega) (by omega))
      (ha i i (by omega) (by omega) (by omega) (by omega))
    exact ⟨_, _, _, _, rfl, k1, k2, k3, k1⟩
  · simp only [if_neg h1]
    by_cases h2 : kdefl.tmod 10 = 0
    · simp only [if_pos h2]
      rw [get _ _ (by omega) (by omega) (by omega) (by omega), get _ _ (by omega) (by omega) (by omega) (by omega),
        get _ _ (by omega) (by omega) (by omega) (by omega)]
      simp only [pure_bind]
      obtain ⟨k1, k2, k3⟩ := main (ha (l + 1) l (by omega) (by omega) (by omega) (by omega)) (ha (l + 2) (l + 1) (by omega) (by omega) (by omega) (by omega))
        (ha l l (by omega) (by omega) (by omega) (by omega))
      exact ⟨_, _, _, _, rfl, k1, k2, k3, k1⟩
    · simp only [if_neg h2]
      rw [get _ _ (by omega) (by omega) (by omega) (by omega), get _ _ (by omega) (by omega) (by omega) (by omega),
        get _ _ (by omega) (by omega) (by omega) (by omega), get _ _ (by omega) (by omega) (by omega) (by omega)]
      simp only [pure_bind]
      refine ⟨_, _, _, _, rfl, (ha _ _ ?_ ?_ ?_ ?_).mono ?_, (ha _ _ ?_ ?_ ?_ ?_).mono ?_, (ha _ _ ?_ ?_ ?_ ?_).mono ?_, (ha _ _ ?_ ?_ ?_ ?_).mono ?_⟩ <;>
        first | omega | linarith

/-- The start vector is usable. -/
structure GoodV (x y w : Float) : Prop where
  fx : x.isFinite = true
  fy : y.isFinite = true
  fw : w.isFinite = true
  bx : |toR x| ≤ 2
  by' : |toR y| ≤ 2
  bw : |toR w| ≤ 2
  big : 1 / 4 ≤ |toR x| ∨ 1 / 4 ≤ |toR y| ∨ 1 / 4 ≤ |toR w|

/-- Scaling three numbers by the sum of their sizes. -/
theorem scale3 {X Y W : Float} {M : ℝ} (hX : Bn X M) (hY : Bn Y M) (hW : Bn W M) (hM : 4 * M ≤ big) :
    let s := Scalar.abs X + Scalar.abs Y + Scalar.abs W
    GoodV (X / s) (Y / s) (W / s) ∨ ((X / s).isNaN = true ∧ (Y / s).isNaN = true ∧ (W / s).isNaN = true) := by
  intro s
  have B1 := one_le_big
  have M0 := hX.nonneg
  have ea : toR (Scalar.abs X : Float) = |toR X| := abs_toR X
  have n1 := abs_nonneg (toR X); have n2 := abs_nonneg (toR Y); have n3 := abs_nonneg (toR W)
  have b1 := hX.2; have b2 := hY.2; have b3 := hW.2
  obtain ⟨f1, l1, u1⟩ := abs_sum (x := Scalar.abs X) (y := Y) (abs_fin hX.1) hY.1 (by rw [ea]; exact n1) (by rw [ea]; linarith)
  rw [ea] at l1 u1
  obtain ⟨f2, l2, u2⟩ := abs_sum (y := W) f1 hW.1 (by linarith) (by linarith)
  have s0 : 0 ≤ toR s := by show 0 ≤ toR (_ + _); linarith
  have es : toR s = toR (Scalar.abs X + Scalar.abs Y + Scalar.abs W) := rfl
  by_cases h0 : toR s = 0
  · right
    have z1 : toR X = 0 := abs_eq_zero.1 (by rw [← es, h0] at l2; linarith)
    have z2 : toR Y = 0 := abs_eq_zero.1 (by rw [← es, h0] at l2; linarith)
    have z3 : toR W = 0 := abs_eq_zero.1 (by rw [← es, h0] at l2; linarith)
    exact ⟨zero_div_zero hX.1 f2 z1 h0, zero_div_zero hY.1 f2 z2 h0, zero_div_zero hW.1 f2 z3 h0⟩
  · left
    have sp : 0 < toR s := lt_of_le_of_ne s0 (Ne.symm h0)
    rw [← es] at l2 u2
    have dv : ∀ {x : Float}, x.isFinite = true → |toR x| ≤ 1003 / 1000 * toR s → Bn (x / s) 2 := fun {x} fx hx =>
      (Bn.div (c := 1003 / 1000) fx f2 h0 (by rw [abs_of_nonneg s0]; linarith) (by linarith)).mono (by norm_num)
    have dg : ∀ {x : Float}, x.isFinite = true → |toR x| ≤ 1003 / 1000 * toR s → 3 / 10 * toR s ≤ |toR x| → 1 / 4 ≤ |toR (x / s)| := by
      intro x fx hx hx'
      have h : |toR x / toR s| ≤ 1003 / 1000 := by rw [abs_div, abs_of_pos sp, div_le_iff₀ sp]; exact hx
      have h' : 3 / 10 ≤ |toR x / toR s| := by rw [abs_div, abs_of_pos sp, le_div_iff₀ sp]; exact hx'
      obtain ⟨f, r⟩ := divF fx f2 h0 (h.trans (by linarith))
      have := fl_ge r
      have : (1 : ℝ) / 4 ≤ |toR (x / s)| := by
        show (1 : ℝ) / 4 ≤ |toR (x / (Scalar.abs X + Scalar.abs Y + Scalar.abs W))|
        have e : toR x / toR s = toR x / toR (Scalar.abs X + Scalar.abs Y + Scalar.abs W) := rfl
        rw [e] at h'
        linarith
      exact this
    have k1 : |toR X| ≤ 1003 / 1000 * toR s := by linarith
    have k2 : |toR Y| ≤ 1003 / 1000 * toR s := by linarith
    have k3 : |toR W| ≤ 1003 / 1000 * toR s := by linarith
    refine ⟨(dv hX.1 k1).1, (dv hY.1 k2).1, (dv hW.1 k3).1, (dv hX.1 k1).2, (dv hY.1 k2).2, (dv hW.1 k3).2, ?_⟩
    by_cases c1 : 3 / 10 * toR s ≤ |toR X|
    · exact Or.inl (dg hX.1 k1 c1)
    · by_cases c2 : 3 / 10 * toR s ≤ |toR Y|
      · exact Or.inr (Or.inl (dg hY.1 k2 c2))
      · refine Or.inr (Or.inr (dg hW.1 k3 ?_))
        push Not at c1 c2
        nlinarith

theorem startVecF (hd : Dim p r c rz cz) (hlo : p.ilo ≤ l) (hhi : i ≤ p.ihi) {h : FA Float} (hh : Is2 h r c (r * c) g)
    (ha : ActF l i g D) (hD : 1 ≤ D) (hDb : 2 ^ 19 * D ≤ big) {q1 q2 q3 q4 : Float} (k1 : Bn q1 (200 * D)) (k2 : Bn q2 (200 * D))
    (k3 : Bn q3 (200 * D)) (k4 : Bn q4 (200 * D)) {m : ℤ} (hlm : l ≤ m) (hmi : m + 2 ≤ i) (hne : toR (g (m + 1) m) ≠ 0) {v : FA Float} {x0 y0 w0 : Float}
    (hv : WorkG v x0 y0 w0) :
    ∃ v', hqrStartVec h q1 q2 q3 q4 m v = pure v' ∧
      ∃ x y w, WorkG v' x y w ∧ (GoodV x y w ∨ (x.isNaN = true ∧ y.isNaN = true ∧ w.isNaN = true)) := by
  have get : ∀ a b, l ≤ a → a ≤ i → l ≤ b → b ≤ i → h.get2 a b = pure (g a b) := fun a b => getF hd hlo hhi hh
  unfold hqrStartVec
  rw [get _ _ (by omega) (by omega) (by omega) (by omega), get _ _ (by omega) (by omega) (by omega) (by omega),
    get _ _ (by omega) (by omega) (by omega) (by omega), get _ _ (by omega) (by omega) (by omega) (by omega),
    get _ _ (by omega) (by omega) (by omega) (by omega)]
  simp only [pure_bind]
  have b21 := ha (m + 1) m (by omega) (by omega) (by omega) (by omega)
  have bmm := ha m m (by omega) (by omega) (by omega) (by omega)
  have b12 := ha m (m + 1) (by omega) (by omega) (by omega) (by omega)
  have b22 := ha (m + 1) (m + 1) (by omega) (by omega) (by omega) (by omega)
  have b32 := ha (m + 2) (m + 1) (by omega) (by omega) (by omega) (by omega)
  generalize g (m + 1) m = h21 at *
  generalize g m m = hmm at *
  generalize g m (m + 1) = h12 at *
  generalize g (m + 1) (m + 1) = h22 at *
  generalize g (m + 2) (m + 1) = h32 at *
  -- the first scaling
  have c1 := (Bn.sub bmm k3 (by linarith)).mono (b := 202 * D) (by linarith)
  have c1' := (Bn.sub bmm k1 (by linarith)).mono (b := 202 * D) (by linarith)
  have ea : toR (Scalar.abs (hmm - q3) : Float) = |toR (hmm - q3)| := abs_toR _
  have n1 := abs_nonneg (toR (hmm - q3)); have n2 := abs_nonneg (toR q4); have n3 := abs_nonneg (toR h21)
  have d1 := c1.2; have d2 := k4.2; have d3 := b21.2
  obtain ⟨f1, l1, u1⟩ := abs_sum (x := Scalar.abs (hmm - q3)) (y := q4) (abs_fin c1.1) k4.1 (by rw [ea]; exact n1) (by rw [ea]; linarith)
  rw [ea] at l1 u1
  obtain ⟨f2, l2, u2⟩ := abs_sum (y := h21) f1 b21.1 (by linarith) (by linarith)
  set s := Scalar.abs (hmm - q3) + Scalar.abs q4 + Scalar.abs h21 with hs
  have sp : 0 < toR s := by have := abs_pos.2 hne; linarith
  have dv : ∀ {x : Float}, x.isFinite = true → |toR x| ≤ 1003 / 1000 * toR s → Bn (x / s) (101 / 100) := fun {x} fx hx =>
    (Bn.div (c := 1003 / 1000) fx f2 sp.ne' (by rw [abs_of_pos sp]; linarith) (by linarith)).mono (by norm_num)
  have e21 := dv b21.1 (by linarith)
  have em := dv c1.1 (by linarith)
  have e4 := dv k4.1 (by linarith)
  have t1 := (Bn.mul e21 b12 (by linarith)).mono (b := 2 * D) (by linarith)
  have t2 := (Bn.mul c1' em (by linarith)).mono (b := 210 * D) (by linarith)
  have t3 := (Bn.mul k2 e4 (by linarith)).mono (b := 210 * D) (by linarith)
  have t4 := (Bn.add t1 t2 (by linarith)).mono (b := 220 * D) (by linarith)
  have t5 := (Bn.sub t4 t3 (by linarith)).mono (b := 1000 * D) (by linarith)
  have t6 := (Bn.add bmm b22 (by linarith)).mono (b := 3 * D) (by linarith)
  have t7 := (Bn.sub t6 k1 (by linarith)).mono (b := 210 * D) (by linarith)
  have t8 := (Bn.sub t7 k3 (by linarith)).mono (b := 420 * D) (by linarith)
  have t9 := (Bn.mul e21 t8 (by linarith)).mono (b := 1000 * D) (by linarith)
  have t10 := (Bn.mul e21 b32 (by linarith)).mono (b := 1000 * D) (by linarith)
  generalize h21 / s * h12 + (hmm - q1) * ((hmm - q3) / s) - q2 * (q4 / s) = X at *
  generalize h21 / s * (hmm + h22 - q1 - q3) = Y at *
  generalize h21 / s * h32 = W at *
  have v1 := (hv.set X).1
  have v2 := (v1.set Y).2.1
  have v3 := (v2.set W).2.2
  rw [v3.get1.1, v3.get1.2.1, v3.get1.2.2]
  have v4 := (v3.set (X / (Scalar.abs X + Scalar.abs Y + Scalar.abs W))).1
  rw [v4.get1.2.1]
  have v5 := (v4.set (Y / (Scalar.abs X + Scalar.abs Y + Scalar.abs W))).2.1
  rw [v5.get1.2.2]
  have v6 := (v5.set (W / (Scalar.abs X + Scalar.abs Y + Scalar.abs W))).2.2
  exact ⟨_, rfl, _, _, _, v6, scale3 t5 t9 t10 (by linarith)⟩

/-- The test for two small subdiagonal elements, passed. -/
theorem test_near {P x y w a b c u : Float} {B : ℝ} (hu : u.isFinite = true) (hu' : toR u = 2 * ur) (hB : 0 ≤ B) (hBb : 1024 * B ≤ big) (hv : GoodV x y w)
    (hP : Bn P B) (ha : Bn a B) (hb : Bn b B) (hc : Bn c B)
    (ht : (Scalar.abs P * (Scalar.abs y + Scalar.abs w) ≤ᶠ u * Scalar.abs x * (Scalar.abs a + Scalar.abs b + Scalar.abs c)) = true) :
    |toR P| * (|toR y| + |toR w|) ≤ 7 * (ur * B) * |toR x| + (ur * B + 4 * eta) := by
  have B1 := one_le_big
  have u0 := ur_pos
  have us := ur_small
  have e0 := eta_pos
  have eu : 1000000 * eta ≤ ur := by
    have h1 := eta_tiny
    have h2 := tiny_le_one
    have h3 : ur * ur * tiny ≤ ur * ur * 1 := mul_le_mul_of_nonneg_left h2 (mul_nonneg u0.le u0.le)
    have h4 : ur * ur ≤ ur * (1 / 1000000000000000) := mul_le_mul_of_nonneg_left us u0.le
    linarith
  have eP : toR (Scalar.abs P : Float) = |toR P| := abs_toR P
  have ex : toR (Scalar.abs x : Float) = |toR x| := abs_toR x
  have ey : toR (Scalar.abs y : Float) = |toR y| := abs_toR y
  have ea : toR (Scalar.abs a : Float) = |toR a| := abs_toR a
  have nP := abs_nonneg (toR P); have nx := abs_nonneg (toR x); have ny := abs_nonneg (toR y); have nw := abs_nonneg (toR w)
  have na := abs_nonneg (toR a); have nb := abs_nonneg (toR b); have nc := abs_nonneg (toR c)
  have bx := hv.bx; have by' := hv.by'; have bw := hv.bw
  have bP := hP.2; have ba := ha.2; have bb := hb.2; have bc := hc.2
  obtain ⟨f1, l1, r1⟩ := abs_sum (x := Scalar.abs y) (y := w) (abs_fin hv.fy) hv.fw (by rw [ey]; exact ny) (by rw [ey]; linarith)
  rw [ey] at l1 r1
  obtain ⟨f2, l2, r2⟩ := abs_sum (x := Scalar.abs a) (y := b) (abs_fin ha.1) hb.1 (by rw [ea]; exact na) (by rw [ea]; linarith)
  rw [ea] at l2 r2
  obtain ⟨f3, l3, r3⟩ := abs_sum (y := c) f2 hc.1 (by linarith) (by linarith)
  generalize Scalar.abs y + Scalar.abs w = S at *
  generalize Scalar.abs a + Scalar.abs b + Scalar.abs c = Z at *
  have hS5 : toR S ≤ 5 := by linarith
  have S0 : 0 ≤ toR S := by linarith
  have Z0 : 0 ≤ toR Z := by linarith
  have hZ : toR Z ≤ 302 / 100 * B := by linarith
  -- the left side
  have hPS : |toR P| * toR S ≤ B * 5 := mul_le_mul bP hS5 S0 hB
  obtain ⟨g1, q1⟩ := mulF (abs_fin hP.1) f1 (x := Scalar.abs P) (by rw [eP, abs_of_nonneg (mul_nonneg nP S0)]; linarith)
  have q1 := q1.general
  rw [eP, abs_of_nonneg (mul_nonneg nP S0)] at q1
  -- the right side
  have ux : 0 ≤ 2 * ur * |toR x| := mul_nonneg (by linarith) nx
  have ux2 : ur * |toR x| ≤ ur * 2 := mul_le_mul_of_nonneg_left bx u0.le
  obtain ⟨g2, q2⟩ := mulF hu (abs_fin hv.fx) (y := Scalar.abs x) (by rw [ex, hu', abs_of_nonneg ux]; linarith)
  have q2 := q2.general
  rw [ex, hu', abs_of_nonneg ux] at q2
  generalize u * Scalar.abs x = ux' at *
  have hux' : |toR ux'| ≤ 201 / 100 * (ur * |toR x|) + eta := by
    have h := abs_add_le (2 * ur * |toR x|) (toR ux' - 2 * ur * |toR x|)
    rw [show 2 * ur * |toR x| + (toR ux' - 2 * ur * |toR x|) = toR ux' by ring, abs_of_nonneg ux] at h
    have h2 : ur * (2 * ur * |toR x|) ≤ 1 / 1000 * (2 * ur * |toR x|) := mul_le_mul_of_nonneg_right (by linarith) ux
    linarith
  have hprod : |toR ux' * toR Z| ≤ (201 / 100 * (ur * |toR x|) + eta) * (302 / 100 * B) := by
    rw [abs_mul, abs_of_nonneg Z0]
    exact mul_le_mul hux' hZ Z0 ((abs_nonneg _).trans hux')
  have hsmall : (201 / 100 * (ur * |toR x|) + eta) * (302 / 100 * B) ≤ 1 * (302 / 100 * B) := mul_le_mul_of_nonneg_right (by linarith) (by linarith)
  obtain ⟨g3, q3⟩ := mulF g2 f3 (hprod.trans (by linarith))
  have q3 := q3.general
  rw [leF g1 g3, decide_eq_true_eq] at ht
  have h1 := abs_le.1 q1
  have h3 := abs_le.1 q3
  have h4 := (le_abs_self _).trans hprod
  have uB0 := mul_nonneg u0.le hB
  have hx0 : 0 ≤ ur * B * |toR x| := mul_nonneg uB0 nx
  have heB : 1000000 * (eta * B) ≤ ur * B := by
    have := mul_le_mul_of_nonneg_right eu hB
    linarith
  have h5 : ur * |toR ux' * toR Z| ≤ 1 / 1000 * |toR ux' * toR Z| := mul_le_mul_of_nonneg_right (by linarith) (abs_nonneg _)
  have h6 : ur * (|toR P| * toR S) ≤ 1 / 1000 * (|toR P| * toR S) := mul_le_mul_of_nonneg_right (by linarith) (mul_nonneg nP S0)
  have h7 : |toR P| * (999 / 1000 * (|toR y| + |toR w|)) ≤ |toR P| * toR S := mul_le_mul_of_nonneg_left l1 nP
  have h8 : (201 / 100 * (ur * |toR x|) + eta) * (302 / 100 * B) = 60702 / 10000 * (ur * B * |toR x|) + 302 / 100 * (eta * B) := by ring
  rw [h8] at hprod h4
  have n7 := mul_nonneg nP (add_nonneg ny nw)
  have h9 : |toR P| * (999 / 1000 * (|toR y| + |toR w|)) = 999 / 1000 * (|toR P| * (|toR y| + |toR w|)) := by ring
  rw [h9] at h7
  have h10 : 7 * (ur * B) * |toR x| = 7 * (ur * B * |toR x|) := by ring
  rw [h10]
  linarith [h1.1, h3.2]

/-- The row the sweep starts at and its start vector. -/
theorem startF (hd : Dim p r c rz cz) (hu : p.ulp.isFinite = true) (hu' : toR p.ulp = 2 * ur) (hlo : p.ilo ≤ l) (hhi : i ≤ p.ihi) {h : FA Float}
    (hh : Is2 h r c (r * c) g) {T : ℤ → ℤ → ℝ} {B : ℝ} (hB : 0 ≤ B) (hBb : 2 ^ 20 * B ≤ big)
    (ha : Active l i (xg g) T) (hTB : ∀ a b, l ≤ a → a ≤ i → l ≤ b → b ≤ i → |T a b| ≤ B) (hT : ∀ j, l < j → j ≤ i → T j (j - 1) ≠ 0)
    {q1 q2 q3 q4 : Float} (k1 : Bn q1 (200 * (B + 1))) (k2 : Bn q2 (200 * (B + 1)))
    (k3 : Bn q3 (200 * (B + 1))) (k4 : Bn q4 (200 * (B + 1))) {cm : ℤ} (hlm : l ≤ cm) (hmi : cm + 2 ≤ i)
    {v : FA Float} {x0 y0 w0 : Float} (hv : WorkG v x0 y0 w0) (m0 : ℤ) :
    ∃ m v', hqrStart p h q1 q2 q3 q4 l (irange l cm).reverse v m0 = pure (m, v') ∧ l ≤ m ∧ m ≤ cm ∧
      ∃ x y w, WorkG v' x y w ∧ (StartF l m T B x y w ∨ (m = l ∧ x.isNaN = true ∧ y.isNaN = true ∧ w.isNaN = true)) := by
  obtain ⟨n, hn⟩ : ∃ n : Nat, l + n = cm := ⟨(cm - l).toNat, by omega⟩
  have val : ∀ a b, l ≤ a → a ≤ i → l ≤ b → b ≤ i → Bn (g a b) B ∧ toR (g a b) = T a b := fun a b a1 a2 b1 b2 => by
    obtain ⟨f, e⟩ := fin_toXR (ha a b a1 a2 b1 b2)
    exact ⟨⟨f, by rw [e]; exact hTB a b a1 a2 b1 b2⟩, e⟩
  have D1 : (2 : ℝ) ^ 19 * (B + 1) ≤ big := by
    have : (2 : ℝ) ^ 20 ≤ big := by unfold big; exact pow_le_pow_right₀ (by norm_num) (by norm_num)
    linarith
  have hA : ActF l i g (B + 1) := fun a b a1 a2 b1 b2 => (val a b a1 a2 b1 b2).1.mono (by linarith)
  have hsv := fun {m : ℤ} (h1 : l ≤ m) (h2 : m + 2 ≤ i) {v : FA Float} {x0 y0 w0 : Float} (hv : WorkG v x0 y0 w0) =>
    startVecF hd hlo hhi hh hA (by linarith) D1 k1 k2 k3 k4 h1 h2 (by
      rw [(val (m + 1) m (by omega) (by omega) (by omega) (by omega)).2]
      have := hT (m + 1) (by omega) (by omega)
      rwa [show m + 1 - 1 = m by ring] at this) hv
  have get : ∀ a b, l ≤ a → a ≤ i → l ≤ b → b ≤ i → h.get2 a b = pure (g a b) := fun a b => getF hd hlo hhi hh
  induction n generalizing cm v x0 y0 w0 m0 with
  | zero =>
    have : cm = l := by omega
    subst this
    rw [irange_snoc (le_refl _), irange_empty (by omega)]
    obtain ⟨v', e, x, y, w, h1, h2⟩ := hsv hlm hmi hv
    refine ⟨cm, v', ?_, le_refl _, le_refl _, x, y, w, h1, ?_⟩
    · simp only [List.nil_append, List.reverse_cons, List.reverse_nil, hqrStart]
      rw [e, pure_bind, if_pos True.intro]
    · rcases h2 with h2 | h2
      · exact Or.inl ⟨h2.fx, h2.fy, h2.fw, h2.bx, h2.by', h2.bw, h2.big, fun h => absurd h (lt_irrefl _)⟩
      · exact Or.inr ⟨rfl, h2⟩
  | succ n ih =>
    rw [irange_snoc hlm, List.reverse_append]
    obtain ⟨v', e, x, y, w, h1, h2⟩ := hsv hlm hmi hv
    simp only [List.reverse_cons, List.reverse_nil, List.nil_append, List.cons_append, hqrStart]
    rw [e, pure_bind, if_neg (by omega), get _ _ (by omega) (by omega) (by omega) (by omega)]
    simp only [pure_bind]
    rw [get _ _ (by omega) (by omega) (by omega) (by omega), pure_bind, get _ _ (by omega) (by omega) (by omega) (by omega), pure_bind,
      get _ _ (by omega) (by omega) (by omega) (by omega), pure_bind]
    rw [h1.get1.1, h1.get1.2.1, h1.get1.2.2]
    split
    · rename_i hle
      refine ⟨cm, v', rfl, hlm, le_refl _, x, y, w, h1, ?_⟩
      rcases h2 with h2 | h2
      · refine Or.inl ⟨h2.fx, h2.fy, h2.fw, h2.bx, h2.by', h2.bw, h2.big, fun _ => ?_⟩
        have := test_near hu hu' hB (by linarith) h2 (val cm (cm - 1) (by omega) (by omega) (by omega) (by omega)).1
          (val (cm - 1) (cm - 1) (by omega) (by omega) (by omega) (by omega)).1 (val cm cm (by omega) (by omega) (by omega) (by omega)).1
          (val (cm + 1) (cm + 1) (by omega) (by omega) (by omega) (by omega)).1 hle
        rwa [(val cm (cm - 1) (by omega) (by omega) (by omega) (by omega)).2] at this
      · rw [nan_le_left (nan_mul_right _ (nan_add_left (nan_abs h2.2.1) _))] at hle
        exact absurd hle (by decide)
    · obtain ⟨m, v'', e', k1, k2, k3⟩ := ih (cm := cm - 1) (by omega) (by omega) h1 cm (by omega)
      exact ⟨m, v'', e', k1, by omega, k3⟩

end start

end Verif
