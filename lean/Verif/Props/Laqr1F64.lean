import Verif.Lib.F64Num
import Verif.Props.Laqr1

/-!
# C75: rounding errors of `dlaqr1` on binary64
-/

namespace Verif
open F64 Scalar Spec

/-- Specification: the sum of the magnitudes of the terms whose sum is entry `i` of the first column of
`(H - s1 I)(H - s2 I)`. -/
noncomputable def Spec.shiftSize (n : Nat) (h : Nat → Nat → ℝ) (s1 s2 : ℂ) (i : Nat) : ℝ :=
  if i = 0 then |h 0 0 - s1.re| * |h 0 0 - s2.re| + |s1.im| * |s2.im| + ∑ k ∈ Finset.Ico 1 n, |h 0 k| * |h k 0|
  else |h i 0| * (|h 0 0| + |h i i| + |s1.re| + |s2.re|) + ∑ k ∈ Finset.Ico 1 n, if k = i then 0 else |h i k| * |h k 0|

/-- Specification: the underflow errors, each weighted with what it is multiplied by afterwards. -/
noncomputable def Spec.shiftUnder (n : Nat) (h : Nat → Nat → ℝ) (s1 s2 : ℂ) (i : Nat) : ℝ :=
  if i = 0 then 4 + |h 0 0 - s1.re| + |s1.im| + ∑ k ∈ Finset.Ico 1 n, |h 0 k|
  else 2 + (|h 0 0| + |h i i| + |s1.re| + |s2.re|) + ∑ k ∈ Finset.Ico 1 n, if k = i then 0 else |h i k|

namespace F64

theorem Num.abs {n : Nat} {f : Float} {X S U : ℝ} (h : Num n f X S U) : Num n f.abs |X| S U := by
  refine ⟨abs_fin h.fin, ?_, by rw [abs_abs]; exact h.appr.size, h.appr.under⟩
  rw [abs_toR]
  exact (abs_abs_sub_abs_le _ _).trans h.appr.err

theorem add_ge {x y : Float} (hx : x.isFinite = true) (hy : y.isFinite = true) (h : (x + y).isFinite = true)
    (x0 : 0 ≤ toR x) (y0 : 0 ≤ toR y) : toR x ≤ toR (x + y) ∧ toR y ≤ toR (x + y) := by
  have := (add_rounds x y hx hy).fl h
  exact ⟨this.lower _ (grid_toR x) (by linarith), this.lower _ (grid_toR y) (by linarith)⟩

/-- The scaled value, multiplied out. -/
theorem Num.finish {k : Nat} {w : Float} {X S U σ C Z W : ℝ} (h : Num k w X S U) (hk : k ≤ 7) (h0 : 0 < σ)
    (hX : σ * X = C) (hS : σ * S = Z) (hU : U ≤ eta * W) :
    |σ * toR w - C| ≤ ((1 + ur) ^ 7 - 1) * Z + (1 + ur) ^ 7 * (eta * σ * W) := by
  have h1 := (h.appr.mono hk hU).err
  rw [← hX, ← hS, ← mul_sub, abs_mul, abs_of_pos h0]
  refine (mul_le_mul_of_nonneg_left h1 h0.le).trans (le_of_eq ?_)
  ring

end F64

/-- What is claimed about one component: finite, and `σ` times it is close to the component `i` of the column. -/
structure Laqr1Accurate (n : Nat) (h : Nat → Nat → ℝ) (s1 s2 : ℂ) (σ : ℝ) (i : Nat) (w : Float) : Prop where
  finite : w.isFinite = true
  error : |σ * toR w - (shiftCol n h s1 s2 i).re| ≤ ((1 + 1 / 2 ^ 53) ^ 7 - 1) * shiftSize n h s1 s2 i +
    (1 + 1 / 2 ^ 53) ^ 7 * (1 / 2 ^ 1075 * σ * shiftUnder n h s1 s2 i)

set_option maxHeartbeats 1600000 in
theorem laqr1_val_f64 (n : Nat) (hn : n = 2 ∨ n = 3) (h : Nat → Nat → Float) (sr1 si1 sr2 si2 : Float)
    (hf : ∀ i < n, ∀ j < n, (h i j).isFinite = true ∧ |toR (h i j)| ≤ big)
    (f1 : sr1.isFinite = true ∧ |toR sr1| ≤ big) (f2 : si1.isFinite = true ∧ |toR si1| ≤ big)
    (f3 : sr2.isFinite = true ∧ |toR sr2| ≤ big) (f4 : si2.isFinite = true ∧ |toR si2| ≤ big) :
    ∃ σ : ℝ, 0 ≤ σ ∧
      |σ - shiftScale n (fun i j => toR (h i j)) ⟨toR sr2, toR si2⟩| ≤
        ((1 + 1 / 2 ^ 53) ^ 4 - 1) * shiftScale n (fun i j => toR (h i j)) ⟨toR sr2, toR si2⟩ ∧
      ∀ i < n, Laqr1Accurate n (fun i j => toR (h i j)) ⟨toR sr1, toR si1⟩ ⟨toR sr2, toR si2⟩ σ i
        (laqr1Val n h sr1 si1 sr2 si2 i) := by
  have hB := big_pos
  have hB1 := one_le_big
  have he0 := eta_pos
  have he : eta * big ≤ 1 := eta_big
  have he1 : eta ≤ 1 := by
    have := mul_le_mul_of_nonneg_left hB1 he0.le
    linarith
  -- differences
  have dd : ∀ {x y : Float}, x.isFinite = true ∧ |toR x| ≤ big → y.isFinite = true ∧ |toR y| ≤ big →
      Num 1 (x - y) (toR x - toR y) |toR x - toR y| 0 ∧ |toR x - toR y| ≤ 2 * big := by
    intro x y hx hy
    have : |toR x - toR y| ≤ 2 * big := (abs_sub _ _).trans (by linarith [hx.2, hy.2])
    exact ⟨Num.diff hx.1 hy.1 (by linarith), this⟩
  have N := fun (x : Float) (hx : x.isFinite = true ∧ |toR x| ≤ big) => Num.float x hx.1
  have h2 : ∀ {x y : Float}, x.isFinite = true ∧ |toR x| ≤ big → y.isFinite = true ∧ |toR y| ≤ big →
      |toR x - toR y| ≤ 2 * |toR (x - y)| := by
    intro x y hx hy
    have e := (dd hx hy).1.appr.err
    have e2 : |toR x - toR y| ≤ |toR (x - y)| + |toR (x - y) - (toR x - toR y)| := by
      rw [abs_sub_comm (toR (x - y))]
      calc |toR x - toR y| = |toR (x - y) + (toR x - toR y - toR (x - y))| := by ring_nf
        _ ≤ _ := abs_add_le _ _
    have e3 : ((1 + ur) ^ 1 - 1) * |toR x - toR y| ≤ 1 / 2 * |toR x - toR y| := by
      refine mul_le_mul_of_nonneg_right ?_ (abs_nonneg _)
      unfold ur; norm_num
    rw [mul_zero, add_zero] at e
    linarith
  have a00 := hf 0 (by omega) 0 (by omega)
  have a10 := hf 1 (by omega) 0 (by omega)
  have a01 := hf 0 (by omega) 1 (by omega)
  have a11 := hf 1 (by omega) 1 (by omega)
  have d1 := dd a00 f1
  have d2 := dd a00 f3
  have g2 := h2 a00 f3
  have t2 := d2.1.abs.add (N _ f4).abs 1 le_rfl (by norm_num) (by norm_num) (by linarith [d2.2, f4.2])
  have b2 := add_ge (abs_fin d2.1.fin) (abs_fin f4.1) t2.fin (by rw [abs_toR]; positivity) (by rw [abs_toR]; positivity)
  have t3 := t2.add (N _ a10).abs 2 le_rfl (by norm_num) (by norm_num) (by linarith [d2.2, f4.2, a10.2])
  have t20 : 0 ≤ toR ((h 0 0 - sr2).abs + si2.abs) := le_trans (by rw [abs_toR]; positivity) b2.1
  have b3 := add_ge t2.fin (abs_fin a10.1) t3.fin t20 (by rw [abs_toR]; positivity)
  rw [abs_toR, abs_toR] at b2
  rw [abs_toR (h 1 0)] at b3
  -- a quotient and its bound
  have qq : ∀ {σ : Float} {x : Float} {m : Nat} {X : ℝ}, σ.isFinite = true → 0 < toR σ → Num m x X |X| 0 → |X| ≤ 2 * toR σ →
      m ≤ 1 → Num (m + 1) (x / σ) (X / toR σ) (|X| / toR σ) eta ∧ |X| / toR σ ≤ 2 := by
    intro σ x m X hσ h0 hx hX hm
    have := hx.div hσ h0 (by omega) (by nlinarith)
    rw [zero_div, zero_add] at this
    exact ⟨this, by rw [div_le_iff₀ h0]; exact hX⟩
  -- the product of a number and a quotient
  have pq : ∀ {m k : Nat} {x q : Float} {X S Q T : ℝ}, Num m x X S 0 → S ≤ 4 * big → Num k q Q T eta → T ≤ 2 → m ≤ 3 → k ≤ 3 →
      Num (m + k + 1) (x * q) (X * Q) (S * T) (eta * (S + 1)) ∧ S * T ≤ 8 * big ∧ eta * (S + 1) ≤ 5 := by
    intro m k x q X S Q T hx hS hq hT hm hk
    have S0 := hx.appr.s0
    have T0 := hq.appr.s0
    have e1 : S * T ≤ 4 * big * 2 := mul_le_mul hS hT T0 (by linarith)
    have e2 : eta * S ≤ 4 := by
      have := mul_le_mul_of_nonneg_left hS he0.le
      linarith
    have := hx.mul hq (by omega) (by omega) (by rw [add_zero, mul_add]; linarith [mul_comm S eta])
    refine ⟨this.mono le_rfl (le_of_eq (by ring)), by linarith, by linarith⟩
  have qp : ∀ {m k : Nat} {x q : Float} {X S Q T : ℝ}, Num m x X S 0 → S ≤ 4 * big → Num k q Q T eta → T ≤ 2 → m ≤ 3 → k ≤ 3 →
      Num (m + k + 1) (q * x) (Q * X) (T * S) (eta * (S + 1)) ∧ T * S ≤ 8 * big ∧ eta * (S + 1) ≤ 5 := by
    intro m k x q X S Q T hx hS hq hT hm hk
    have S0 := hx.appr.s0
    have T0 := hq.appr.s0
    have e1 : S * T ≤ 4 * big * 2 := mul_le_mul hS hT T0 (by linarith)
    have e2 : eta * S ≤ 4 := by
      have := mul_le_mul_of_nonneg_left hS he0.le
      linarith
    have := hq.mul hx (by omega) (by omega) (by rw [add_zero, add_mul]; linarith [mul_comm S eta, mul_comm S T])
    rw [add_comm k m] at this
    refine ⟨this.mono le_rfl (le_of_eq (by ring)), by linarith [mul_comm S T], by linarith⟩
  -- the sum of two diagonal entries and the shifts
  have tr : ∀ {x : Float}, x.isFinite = true ∧ |toR x| ≤ big →
      Num 3 (h 0 0 + x - sr1 - sr2) (toR (h 0 0) + toR x - toR sr1 - toR sr2) (|toR (h 0 0)| + |toR x| + |toR sr1| + |toR sr2|) 0 ∧
      |toR (h 0 0)| + |toR x| + |toR sr1| + |toR sr2| ≤ 4 * big := by
    intro x hx
    have u1 := (N _ a00).add (N _ hx) 0 le_rfl le_rfl (by norm_num) (by linarith [a00.2, hx.2])
    have u2 := u1.sub (N _ f1) 1 le_rfl (by norm_num) (by norm_num) (by linarith [a00.2, hx.2, f1.2])
    have u3 := u2.sub (N _ f3) 2 le_rfl (by norm_num) (by norm_num) (by linarith [a00.2, hx.2, f1.2, f3.2])
    refine ⟨?_, by linarith [a00.2, hx.2, f1.2, f3.2]⟩
    simpa only [add_zero] using u3
  rcases hn with rfl | rfl
  · have hS : shiftScale 2 (fun i j => toR (h i j)) ⟨toR sr2, toR si2⟩ = |toR (h 0 0) - toR sr2| + |toR si2| + |toR (h 1 0)| := by
      simp [shiftScale]
    have hL : laqr1S 2 h sr2 si2 = (h 0 0 - sr2).abs + si2.abs + (h 1 0).abs := rfl
    have hacc := t3.appr.mono (n' := 4) (by norm_num) le_rfl
    rw [← hL] at hacc b3 t3
    have ha := hacc.err
    rw [← hS] at ha
    simp only [add_zero, mul_zero] at ha
    refine ⟨toR (laqr1S 2 h sr2 si2), t20.trans b3.1, ha, ?_⟩
    intro i hi
    unfold laqr1Val
    simp only [if_true]
    by_cases h0 : (laqr1S 2 h sr2 si2 =ᶠ (zero : Float)) = true
    · rw [if_pos h0]
      have z := (eq_toR toR_zero.1 h0).2.trans toR_zero.2
      rw [z] at b3 ⊢
      have y1 : |toR (h 0 0 - sr2)| ≤ 0 := b2.1.trans b3.1
      have y2 : |toR si2| ≤ 0 := b2.2.trans b3.1
      have z1 : toR (h 0 0) = toR sr2 := by
        have : |toR (h 0 0) - toR sr2| ≤ 0 := by linarith
        linarith [abs_nonpos_iff.1 this]
      have z2 := abs_nonpos_iff.1 y2
      have z3 := abs_nonpos_iff.1 b3.2
      refine ⟨toR_zero.1, ?_⟩
      have : (shiftCol 2 (fun i j => toR (h i j)) ⟨toR sr1, toR si1⟩ ⟨toR sr2, toR si2⟩ i).re = 0 := by
        have : i = 0 ∨ i = 1 := by omega
        rcases this with rfl | rfl <;> simp [shiftCol, Finset.sum_range_succ, z1, z2, z3]
      rw [this, toR_zero.2]
      have s0 : 0 ≤ shiftSize 2 (fun i j => toR (h i j)) ⟨toR sr1, toR si1⟩ ⟨toR sr2, toR si2⟩ i := by
        unfold shiftSize; split <;> simp <;> positivity
      have g0 : (0 : ℝ) ≤ (1 + 1 / 2 ^ 53) ^ 7 - 1 := by linarith [one_le_pow 7, show (1 + 1 / 2 ^ 53 : ℝ) ^ 7 = (1 + ur) ^ 7 from rfl]
      simpa using mul_nonneg g0 s0
    · rw [if_neg h0]
      have hσ : 0 < toR (laqr1S 2 h sr2 si2) := by
        refine lt_of_le_of_ne (t20.trans b3.1) fun hz => h0 ?_
        show Float.beq _ _ = true
        rw [beq_toXR, toXR_fin t3.fin, toXR_fin toR_zero.1, toR_zero.2, ← hz]
        simp [XR.beq]
      set s := laqr1S 2 h sr2 si2 with hs
      have q2 := qq t3.fin hσ d2.1 (by linarith [b2.1, b3.1]) (by norm_num)
      have qi := qq t3.fin hσ (N _ f4) (by linarith [b2.2, b3.1]) (by norm_num)
      have q10 := qq t3.fin hσ (N _ a10) (by linarith [b3.2]) (by norm_num)
      have : i = 0 ∨ i = 1 := by omega
      rcases this with rfl | rfl
      · rw [if_pos rfl]
        have p1 := qp (N _ a01) (by linarith [a01.2]) q10.1 q10.2 (by norm_num) (by norm_num)
        have p2 := pq d1.1 (by linarith [d1.2]) q2.1 q2.2 (by norm_num) (by norm_num)
        have p3 := pq (N _ f2) (by linarith [f2.2]) qi.1 qi.2 (by norm_num) (by norm_num)
        have s1 := p1.1.add p2.1 4 (by norm_num) (by norm_num) (by norm_num) (by linarith [p1.2.1, p2.2.1, p1.2.2, p2.2.2])
        have s2 := s1.sub p3.1 5 (by norm_num) (by norm_num) (by norm_num) (by linarith [p1.2.1, p2.2.1, p1.2.2, p2.2.2, p3.2.1, p3.2.2])
        refine ⟨s2.fin, s2.finish (by norm_num) hσ ?_ ?_ ?_⟩
        · simp [shiftCol, Finset.sum_range_succ]; field_simp; ring
        · simp [shiftSize]; field_simp; ring
        · simp [shiftUnder]; nlinarith
      · rw [if_neg (by norm_num)]
        have p1 := qp (tr a11).1 (tr a11).2 q10.1 q10.2 (by norm_num) (by norm_num)
        refine ⟨p1.1.fin, p1.1.finish (by norm_num) hσ ?_ ?_ ?_⟩
        · simp [shiftCol, Finset.sum_range_succ]; field_simp; ring
        · simp [shiftSize]; field_simp
        · simp [shiftUnder]; nlinarith
  · have a20 := hf 2 (by omega) 0 (by omega)
    have a21 := hf 2 (by omega) 1 (by omega)
    have a02 := hf 0 (by omega) 2 (by omega)
    have a12 := hf 1 (by omega) 2 (by omega)
    have a22 := hf 2 (by omega) 2 (by omega)
    have ico : ∀ f : Nat → ℝ, ∑ k ∈ Finset.Ico 1 3, f k = f 1 + f 2 := by
      intro f
      rw [show Finset.Ico 1 3 = {1, 2} by rfl]
      simp
    have hS : shiftScale 3 (fun i j => toR (h i j)) ⟨toR sr2, toR si2⟩ =
        |toR (h 0 0) - toR sr2| + |toR si2| + |toR (h 1 0)| + |toR (h 2 0)| := by
      unfold shiftScale
      rw [ico]; ring
    have hL : laqr1S 3 h sr2 si2 = (h 0 0 - sr2).abs + si2.abs + (h 1 0).abs + (h 2 0).abs := rfl
    have t4 := t3.add (N _ a20).abs 3 le_rfl (by norm_num) (by norm_num) (by linarith [d2.2, f4.2, a10.2, a20.2])
    have b4 := add_ge t3.fin (abs_fin a20.1) t4.fin (t20.trans b3.1) (by rw [abs_toR]; positivity)
    rw [abs_toR (h 2 0)] at b4
    have hacc := t4.appr
    rw [← hL] at hacc b4 t4
    have ha := hacc.err
    rw [← hS] at ha
    simp only [add_zero, mul_zero] at ha
    have hσ0 : 0 ≤ toR (laqr1S 3 h sr2 si2) := (t20.trans b3.1).trans b4.1
    refine ⟨toR (laqr1S 3 h sr2 si2), hσ0, ha, ?_⟩
    intro i hi
    unfold laqr1Val
    simp only [if_neg (show ¬ (3 = 2) by norm_num)]
    by_cases h0 : (laqr1S 3 h sr2 si2 =ᶠ (zero : Float)) = true
    · rw [if_pos h0]
      have z := (eq_toR toR_zero.1 h0).2.trans toR_zero.2
      rw [z] at b4 ⊢
      have y1 : |toR (h 0 0 - sr2)| ≤ 0 := by linarith [b2.1, b3.1, b4.1]
      have y2 : |toR si2| ≤ 0 := by linarith [b2.2, b3.1, b4.1]
      have y3 : |toR (h 1 0)| ≤ 0 := by linarith [b3.2, b4.1]
      have z1 : toR (h 0 0) = toR sr2 := by
        have : |toR (h 0 0) - toR sr2| ≤ 0 := by linarith
        linarith [abs_nonpos_iff.1 this]
      have z2 := abs_nonpos_iff.1 y2
      have z3 := abs_nonpos_iff.1 y3
      have z4 := abs_nonpos_iff.1 b4.2
      refine ⟨toR_zero.1, ?_⟩
      have : (shiftCol 3 (fun i j => toR (h i j)) ⟨toR sr1, toR si1⟩ ⟨toR sr2, toR si2⟩ i).re = 0 := by
        have : i = 0 ∨ i = 1 ∨ i = 2 := by omega
        rcases this with rfl | rfl | rfl <;> simp [shiftCol, Finset.sum_range_succ, z1, z2, z3, z4]
      rw [this, toR_zero.2]
      have s0 : 0 ≤ shiftSize 3 (fun i j => toR (h i j)) ⟨toR sr1, toR si1⟩ ⟨toR sr2, toR si2⟩ i := by
        unfold shiftSize
        split
        · rw [ico]; positivity
        · rw [ico]
          have : ∀ (P : Prop) [Decidable P] (x y : ℝ), 0 ≤ (if P then (0 : ℝ) else |x| * |y|) := by
            intro P _ x y; split <;> positivity
          exact add_nonneg (by positivity) (add_nonneg (this _ _ _) (this _ _ _))
      have g0 : (0 : ℝ) ≤ (1 + 1 / 2 ^ 53) ^ 7 - 1 := by linarith [one_le_pow 7, show (1 + 1 / 2 ^ 53 : ℝ) ^ 7 = (1 + ur) ^ 7 from rfl]
      simpa using mul_nonneg g0 s0
    · rw [if_neg h0]
      have hσ : 0 < toR (laqr1S 3 h sr2 si2) := by
        refine lt_of_le_of_ne hσ0 fun hz => h0 ?_
        show Float.beq _ _ = true
        rw [beq_toXR, toXR_fin t4.fin, toXR_fin toR_zero.1, toR_zero.2, ← hz]
        simp [XR.beq]
      set s := laqr1S 3 h sr2 si2 with hs
      have q2 := qq t4.fin hσ d2.1 (by linarith [b2.1, b3.1, b4.1]) (by norm_num)
      have qi := qq t4.fin hσ (N _ f4) (by linarith [b2.2, b3.1, b4.1]) (by norm_num)
      have q10 := qq t4.fin hσ (N _ a10) (by linarith [b3.2, b4.1]) (by norm_num)
      have q20 := qq t4.fin hσ (N _ a20) (by linarith [b4.2]) (by norm_num)
      have : i = 0 ∨ i = 1 ∨ i = 2 := by omega
      rcases this with rfl | rfl | rfl
      · rw [if_pos rfl]
        have p1 := pq (N _ a01) (by linarith [a01.2]) q10.1 q10.2 (by norm_num) (by norm_num)
        have p4 := pq (N _ a02) (by linarith [a02.2]) q20.1 q20.2 (by norm_num) (by norm_num)
        have p2 := pq d1.1 (by linarith [d1.2]) q2.1 q2.2 (by norm_num) (by norm_num)
        have p3 := pq (N _ f2) (by linarith [f2.2]) qi.1 qi.2 (by norm_num) (by norm_num)
        have s1 := p2.1.sub p3.1 4 (by norm_num) (by norm_num) (by norm_num) (by linarith [p3.2.1, p2.2.1, p3.2.2, p2.2.2])
        have s2 := s1.add p1.1 5 (by norm_num) (by norm_num) (by norm_num) (by linarith [p1.2.1, p2.2.1, p1.2.2, p2.2.2, p3.2.1, p3.2.2])
        have s3 := s2.add p4.1 6 (by norm_num) (by norm_num) (by norm_num)
          (by linarith [p1.2.1, p2.2.1, p1.2.2, p2.2.2, p3.2.1, p3.2.2, p4.2.1, p4.2.2])
        refine ⟨s3.fin, s3.finish (by norm_num) hσ ?_ ?_ ?_⟩
        · simp [shiftCol, Finset.sum_range_succ]; field_simp
        · simp [shiftSize, ico]; field_simp; ring
        · simp [shiftUnder, ico]; nlinarith
      · rw [if_neg (by norm_num), if_pos rfl]
        have p1 := qp (tr a11).1 (tr a11).2 q10.1 q10.2 (by norm_num) (by norm_num)
        have p2 := pq (N _ a12) (by linarith [a12.2]) q20.1 q20.2 (by norm_num) (by norm_num)
        have s1 := p1.1.add p2.1 5 (by norm_num) (by norm_num) (by norm_num) (by linarith [p1.2.1, p2.2.1, p1.2.2, p2.2.2])
        refine ⟨s1.fin, s1.finish (by norm_num) hσ ?_ ?_ ?_⟩
        · simp [shiftCol, Finset.sum_range_succ]; field_simp; ring
        · simp [shiftSize, ico]; field_simp
        · simp [shiftUnder, ico]; nlinarith
      · rw [if_neg (by norm_num), if_neg (by norm_num)]
        have p1 := qp (tr a22).1 (tr a22).2 q20.1 q20.2 (by norm_num) (by norm_num)
        have p2 := qp (N _ a21) (by linarith [a21.2]) q10.1 q10.2 (by norm_num) (by norm_num)
        have s1 := p1.1.add p2.1 5 (by norm_num) (by norm_num) (by norm_num) (by linarith [p1.2.1, p2.2.1, p1.2.2, p2.2.2])
        refine ⟨s1.fin, s1.finish (by norm_num) hσ ?_ ?_ ?_⟩
        · simp [shiftCol, Finset.sum_range_succ]; field_simp; ring
        · simp [shiftSize, ico]; field_simp
        · simp [shiftUnder, ico]; nlinarith

/-- **C75.** On binary64, for `n = 2` or `3`, finite entries and shifts of magnitude at most `2^1000`,
and shifts that are both real or complex conjugate, `dlaqr1` returns `v` with finite components such
that, for one scale `σ` close to `|h11 - Re s2| + |Im s2| + |h21| (+ |h31|)`, `σ v` is componentwise
close to the first column of `(H - s1 I)(H - s2 I)`: seven roundings, relative to the sum of the
magnitudes of the terms, and underflow errors.  Nothing else of `v` changes. -/
theorem C75_dlaqr1_f64 (n : Nat) (hn : n = 2 ∨ n = 3) (h : List Float) (ldh : Nat) (sh : Stored h ldh n n)
    (sr1 si1 sr2 si2 : Float) (v : List Float) (hv : n ≤ v.length)
    (hf : ∀ i < n, ∀ j < n, (entry h ldh i j).isFinite = true ∧ |toR (entry h ldh i j)| ≤ 2 ^ 1000)
    (f1 : sr1.isFinite = true ∧ |toR sr1| ≤ 2 ^ 1000) (f2 : si1.isFinite = true ∧ |toR si1| ≤ 2 ^ 1000)
    (f3 : sr2.isFinite = true ∧ |toR sr2| ≤ 2 ^ 1000) (f4 : si2.isFinite = true ∧ |toR si2| ≤ 2 ^ 1000)
    (hsh : (toR si1 = 0 ∧ toR si2 = 0) ∨ (toR sr1 = toR sr2 ∧ toR si1 = -toR si2)) :
    ∃ (v' : List Float) (σ : ℝ), dlaqr1 (n : Int) h ldh sr1 si1 sr2 si2 v = pure v' ∧
      v'.length = v.length ∧ (∀ p, n ≤ p → v'[p]? = v[p]?) ∧
      0 ≤ σ ∧
      |σ - shiftScale n (fun i j => toR (entry h ldh i j)) ⟨toR sr2, toR si2⟩| ≤
        ((1 + 1 / 2 ^ 53) ^ 4 - 1) * shiftScale n (fun i j => toR (entry h ldh i j)) ⟨toR sr2, toR si2⟩ ∧
      (∀ i < n, (shiftCol n (fun i j => toR (entry h ldh i j)) ⟨toR sr1, toR si1⟩ ⟨toR sr2, toR si2⟩ i).im = 0) ∧
      ∀ i < n, ∃ w, v'[i]? = some w ∧
        Laqr1Accurate n (fun i j => toR (entry h ldh i j)) ⟨toR sr1, toR si1⟩ ⟨toR sr2, toR si2⟩ σ i w := by
  obtain ⟨v', e, l, hval, hfr⟩ := dlaqr1_ok n hn h ldh sh sr1 si1 sr2 si2 v
  obtain ⟨σ, h0, h1, h2⟩ := laqr1_val_f64 n hn (entry h ldh) sr1 si1 sr2 si2 hf f1 f2 f3 f4
  refine ⟨v', σ, e, l, hfr, h0, h1, ?_, fun i hi => ⟨_, hval i hi (by omega), h2 i hi⟩⟩
  intro i hi
  rcases hn with rfl | rfl
  · have : i = 0 ∨ i = 1 := by omega
    rcases this with rfl | rfl <;> simp [shiftCol, Finset.sum_range_succ] <;> rcases hsh with ⟨a, b⟩ | ⟨a, b⟩ <;> simp only [a, b] <;> ring
  · have : i = 0 ∨ i = 1 ∨ i = 2 := by omega
    rcases this with rfl | rfl | rfl <;> simp [shiftCol, Finset.sum_range_succ] <;> rcases hsh with ⟨a, b⟩ | ⟨a, b⟩ <;> simp only [a, b] <;> ring

/-- A 2-by-2 matrix of small integers with a conjugate pair of shifts meets the hypotheses. -/
example : (∀ z : Int, z.natAbs < 2 ^ 53 → (Float.ofInt z).isFinite = true ∧ |toR (Float.ofInt z)| ≤ 2 ^ 1000) ∧
    Stored [Float.ofInt 1, Float.ofInt 2, Float.ofInt 3, Float.ofInt 4] 2 2 2 ∧
    toR (Float.ofInt 5) = -toR (Float.ofInt (-5)) := by
  refine ⟨fun z hz => ?_, ⟨by norm_num, by norm_num, by norm_num, by simp, ?_⟩, ?_⟩
  · obtain ⟨h1, h2⟩ := moderate_int hz
    exact ⟨h1, h2.trans (pow_le_pow_right₀ (by norm_num) (by norm_num))⟩
  · intro i hi j hj
    simp; omega
  · rw [(ofInt_exact 5 (by norm_num)).2, (ofInt_exact (-5) (by norm_num)).2]
    push_cast; ring

end Verif
