import Verif.Lib.HqrCode
import Verif.Lib.F64Rel
import Verif.Props.LarfgF64

/-!
# The reflectors of `dlahqr` on binary64
-/

namespace Verif
open F64 Scalar Spec Matrix

/-! ### Sums and products of approximate values -/

theorem add_near {x y : Float} {X Y e1 e2 S : ℝ} (fx : x.isFinite = true) (fy : y.isFinite = true) (hx : |toR x - X| ≤ e1)
    (hy : |toR y - Y| ≤ e2) (hS : |X + Y| + e1 + e2 ≤ S) (hb : S ≤ 1024 * big) :
    (x + y).isFinite = true ∧ |toR (x + y) - (X + Y)| ≤ e1 + e2 + ur * S := by
  have h1 : |toR x + toR y| ≤ S := by
    have : toR x + toR y = (X + Y) + (toR x - X) + (toR y - Y) := by ring
    rw [this]
    refine (abs_add_le _ _).trans ?_
    linarith [abs_add_le (X + Y) (toR x - X)]
  obtain ⟨f, r⟩ := addF fx fy (h1.trans hb)
  have h2 := r.err
  rw [one_mul] at h2
  have h3 := mul_le_mul_of_nonneg_left h1 ur_pos.le
  refine ⟨f, ?_⟩
  have : toR (x + y) - (X + Y) = (toR (x + y) - (toR x + toR y)) + (toR x - X) + (toR y - Y) := by ring
  rw [this]
  refine (abs_add_le _ _).trans ?_
  linarith [abs_add_le (toR (x + y) - (toR x + toR y)) (toR x - X)]

theorem sub_near {x y : Float} {X Y e1 e2 S : ℝ} (fx : x.isFinite = true) (fy : y.isFinite = true) (hx : |toR x - X| ≤ e1)
    (hy : |toR y - Y| ≤ e2) (hS : |X - Y| + e1 + e2 ≤ S) (hb : S ≤ 1024 * big) :
    (x - y).isFinite = true ∧ |toR (x - y) - (X - Y)| ≤ e1 + e2 + ur * S := by
  have h1 : |toR x - toR y| ≤ S := by
    have : toR x - toR y = (X - Y) + (toR x - X) - (toR y - Y) := by ring
    rw [this]
    refine (abs_sub _ _).trans ?_
    linarith [abs_add_le (X - Y) (toR x - X)]
  obtain ⟨f, r⟩ := subF fx fy (h1.trans hb)
  have h2 := r.err
  rw [one_mul] at h2
  have h3 := mul_le_mul_of_nonneg_left h1 ur_pos.le
  refine ⟨f, ?_⟩
  have : toR (x - y) - (X - Y) = (toR (x - y) - (toR x - toR y)) + (toR x - X) - (toR y - Y) := by ring
  rw [this]
  refine (abs_sub _ _).trans ?_
  linarith [abs_add_le (toR (x - y) - (toR x - toR y)) (toR x - X)]

theorem mul_near {x y : Float} {X Y e1 e2 a b : ℝ} (fx : x.isFinite = true) (fy : y.isFinite = true) (hx : |toR x - X| ≤ e1)
    (hy : |toR y - Y| ≤ e2) (ha : |X| ≤ a) (hb : |Y| ≤ b) (hB : (a + e1) * (b + e2) ≤ 1024 * big) :
    (x * y).isFinite = true ∧ |toR (x * y) - X * Y| ≤ e1 * (b + e2) + a * e2 + ur * ((a + e1) * (b + e2)) + eta := by
  have e10 := (abs_nonneg _).trans hx
  have e20 := (abs_nonneg _).trans hy
  have a0 := (abs_nonneg _).trans ha
  have b0 := (abs_nonneg _).trans hb
  have x1 : |toR x| ≤ a + e1 := by
    rw [show toR x = X + (toR x - X) by ring]; linarith [abs_add_le X (toR x - X)]
  have y1 : |toR y| ≤ b + e2 := by
    rw [show toR y = Y + (toR y - Y) by ring]; linarith [abs_add_le Y (toR y - Y)]
  have h1 : |toR x * toR y| ≤ (a + e1) * (b + e2) := by
    rw [abs_mul]; exact mul_le_mul x1 y1 (abs_nonneg _) (by linarith)
  obtain ⟨f, r⟩ := mulF fx fy (h1.trans hB)
  have h2 := r.general
  have h3 := mul_le_mul_of_nonneg_left h1 ur_pos.le
  refine ⟨f, ?_⟩
  have h4 : |(toR x - X) * toR y| ≤ e1 * (b + e2) := by rw [abs_mul]; exact mul_le_mul hx y1 (abs_nonneg _) e10
  have h5 : |X * (toR y - Y)| ≤ a * e2 := by rw [abs_mul]; exact mul_le_mul ha hy (abs_nonneg _) a0
  have : toR (x * y) - X * Y = (toR (x * y) - toR x * toR y) + (toR x - X) * toR y + X * (toR y - Y) := by ring
  rw [this]
  refine (abs_add_le _ _).trans ?_
  linarith [abs_add_le (toR (x * y) - toR x * toR y) ((toR x - X) * toR y)]

/-- A product with a zero factor is zero. -/
theorem mul_zeroF {x y : Float} (fx : x.isFinite = true) (fy : y.isFinite = true) (h : toR x = 0 ∨ toR y = 0) :
    (x * y).isFinite = true ∧ toR (x * y) = 0 := by
  have h0 : toR x * toR y = 0 := by rcases h with h | h <;> rw [h] <;> ring
  obtain ⟨f, r⟩ := mulF fx fy (by rw [h0, abs_zero]; linarith [big_pos])
  rw [h0] at r
  exact ⟨f, le_antisymm (r.nonpos (le_refl _)) (r.nonneg (le_refl _))⟩

theorem add_zeroF {x y : Float} (fx : x.isFinite = true) (fy : y.isFinite = true) (hx : toR x = 0) (hy : toR y = 0) :
    (x + y).isFinite = true ∧ toR (x + y) = 0 := by
  obtain ⟨f, r⟩ := addF fx fy (by rw [hx, hy, add_zero, abs_zero]; linarith [big_pos])
  have := r.err
  rw [hx, hy, add_zero, abs_zero, mul_zero, sub_zero] at this
  exact ⟨f, abs_eq_zero.1 (le_antisymm this (abs_nonneg _))⟩

theorem sub_zeroF {x y : Float} (fx : x.isFinite = true) (fy : y.isFinite = true) (hx : toR x = 0) (hy : toR y = 0) :
    (x - y).isFinite = true ∧ toR (x - y) = 0 := by
  obtain ⟨f, r⟩ := subF fx fy (by rw [hx, hy, sub_zero, abs_zero]; linarith [big_pos])
  have := r.err
  rw [hx, hy, sub_zero, abs_zero, mul_zero, sub_zero] at this
  exact ⟨f, abs_eq_zero.1 (le_antisymm this (abs_nonneg _))⟩

theorem eta_le_ur : eta ≤ ur := by
  unfold eta ur
  exact one_div_le_one_div_of_le (by positivity) (pow_le_pow_right₀ (by norm_num) (by norm_num))

/-! ### Approximate reflectors -/

/-- `v` is near an element `V` of a reflector's vector. -/
structure NearV (v : Float) (V : ℝ) : Prop where
  fin : v.isFinite = true
  err : |toR v - V| ≤ 70 * ur
  le : |V| ≤ 1001 / 1000

/-- `t` is near a factor `W` of a reflector. -/
structure NearT (t : Float) (W : ℝ) : Prop where
  fin : t.isFinite = true
  err : |toR t - W| ≤ 280 * ur
  le : |W| ≤ 2

section
variable {M : ℝ}

theorem sum2_near (M0 : 0 ≤ M) (hM : M ≤ big) {x1 x2 v2 : Float} {V2 : ℝ} (f1 : x1.isFinite = true) (f2 : x2.isFinite = true)
    (b1 : |toR x1| ≤ M) (b2 : |toR x2| ≤ M) (h2 : NearV v2 V2) :
    (x1 + v2 * x2).isFinite = true ∧ |toR (x1 + v2 * x2) - (toR x1 + V2 * toR x2)| ≤ 75 * (ur * M) + 2 * eta := by
  have u0 := ur_pos
  have us := ur_small
  have e0 := eta_pos
  have eu := eta_le_ur
  have B1 := one_le_big
  have uM0 : 0 ≤ ur * M := mul_nonneg u0.le M0
  have uM : ur * M ≤ M / 1000000000000000 := by
    have := mul_le_mul_of_nonneg_right us M0; linarith
  have uuM : ur * (ur * M) ≤ ur * M / 1000000000000000 := by
    have := mul_le_mul_of_nonneg_right us uM0; linarith
  have ue : ur * eta ≤ eta / 1000000000000000 := by
    have := mul_le_mul_of_nonneg_right us e0.le; linarith
  obtain ⟨fp, rp⟩ := mul_near (X := V2) (Y := toR x2) (e1 := 70 * ur) (e2 := 0) (a := 1001 / 1000) (b := M) h2.fin f2 h2.err (by simp) h2.le b2
    (by nlinarith)
  have hp : |toR (v2 * x2) - V2 * toR x2| ≤ 72 * (ur * M) + eta := by
    refine rp.trans ?_
    have : 70 * ur * (M + 0) + 1001 / 1000 * 0 + ur * ((1001 / 1000 + 70 * ur) * (M + 0)) = 71001 / 1000 * (ur * M) + 70 * (ur * (ur * M)) := by ring
    linarith
  have a2 : |toR x1 + V2 * toR x2| ≤ 2001 / 1000 * M := by
    refine (abs_add_le _ _).trans ?_
    rw [abs_mul]
    have := mul_le_mul h2.le b2 (abs_nonneg _) (by norm_num)
    linarith
  obtain ⟨f, r⟩ := add_near (X := toR x1) (e1 := 0) (S := 2001 / 1000 * M + (72 * (ur * M) + eta)) f1 fp (by simp) hp (by linarith) (by linarith)
  refine ⟨f, r.trans ?_⟩
  have : ur * (2001 / 1000 * M + (72 * (ur * M) + eta)) = 2001 / 1000 * (ur * M) + 72 * (ur * (ur * M)) + ur * eta := by ring
  linarith

theorem sum3_near (M0 : 0 ≤ M) (hM : M ≤ big) {x1 x2 x3 v2 v3 : Float} {V2 V3 : ℝ} (f1 : x1.isFinite = true) (f2 : x2.isFinite = true)
    (f3 : x3.isFinite = true) (b1 : |toR x1| ≤ M) (b2 : |toR x2| ≤ M) (b3 : |toR x3| ≤ M) (h2 : NearV v2 V2) (h3 : NearV v3 V3) :
    (x1 + v2 * x2 + v3 * x3).isFinite = true ∧
      |toR (x1 + v2 * x2 + v3 * x3) - (toR x1 + V2 * toR x2 + V3 * toR x3)| ≤ 151 * (ur * M) + 4 * eta := by
  have u0 := ur_pos
  have us := ur_small
  have e0 := eta_pos
  have eu := eta_le_ur
  have B1 := one_le_big
  have uM0 : 0 ≤ ur * M := mul_nonneg u0.le M0
  have uM : ur * M ≤ M / 1000000000000000 := by
    have := mul_le_mul_of_nonneg_right us M0; linarith
  have uuM : ur * (ur * M) ≤ ur * M / 1000000000000000 := by
    have := mul_le_mul_of_nonneg_right us uM0; linarith
  have ue : ur * eta ≤ eta / 1000000000000000 := by
    have := mul_le_mul_of_nonneg_right us e0.le; linarith
  obtain ⟨fs, rs⟩ := sum2_near M0 hM f1 f2 b1 b2 h2
  obtain ⟨fp, rp⟩ := mul_near (X := V3) (Y := toR x3) (e1 := 70 * ur) (e2 := 0) (a := 1001 / 1000) (b := M) h3.fin f3 h3.err (by simp) h3.le b3
    (by nlinarith)
  have hp : |toR (v3 * x3) - V3 * toR x3| ≤ 72 * (ur * M) + eta := by
    refine rp.trans ?_
    have : 70 * ur * (M + 0) + 1001 / 1000 * 0 + ur * ((1001 / 1000 + 70 * ur) * (M + 0)) = 71001 / 1000 * (ur * M) + 70 * (ur * (ur * M)) := by ring
    linarith
  have a2 : |toR x1 + V2 * toR x2 + V3 * toR x3| ≤ 301 / 100 * M := by
    refine (abs_add_le _ _).trans ?_
    have := abs_add_le (toR x1) (V2 * toR x2)
    rw [abs_mul] at this ⊢
    have := mul_le_mul h2.le b2 (abs_nonneg _) (by norm_num)
    have := mul_le_mul h3.le b3 (abs_nonneg _) (by norm_num)
    linarith
  obtain ⟨f, r⟩ := add_near (S := 301 / 100 * M + (75 * (ur * M) + 2 * eta) + (72 * (ur * M) + eta)) fs fp rs hp (by linarith) (by linarith)
  refine ⟨f, r.trans ?_⟩
  have : ur * (301 / 100 * M + (75 * (ur * M) + 2 * eta) + (72 * (ur * M) + eta)) = 301 / 100 * (ur * M) + 147 * (ur * (ur * M)) + 3 * (ur * eta) := by ring
  linarith

theorem upd_near (M0 : 0 ≤ M) (hM : M ≤ big) {x s t : Float} {S W : ℝ} (fx : x.isFinite = true) (bx : |toR x| ≤ M) (fs : s.isFinite = true)
    (hs : |toR s - S| ≤ 151 * (ur * M) + 4 * eta) (hS : |S| ≤ 301 / 100 * M) (ht : NearT t W) :
    (x - s * t).isFinite = true ∧ |toR (x - s * t) - (toR x - S * W)| ≤ 1160 * (ur * M) + 12 * eta := by
  have u0 := ur_pos
  have us := ur_small
  have e0 := eta_pos
  have eu := eta_le_ur
  have B1 := one_le_big
  have uM0 : 0 ≤ ur * M := mul_nonneg u0.le M0
  have uM : ur * M ≤ M / 1000000000000000 := by
    have := mul_le_mul_of_nonneg_right us M0; linarith
  have uuM : ur * (ur * M) ≤ ur * M / 1000000000000000 := by
    have := mul_le_mul_of_nonneg_right us uM0; linarith
  have ue : ur * eta ≤ eta / 1000000000000000 := by
    have := mul_le_mul_of_nonneg_right us e0.le; linarith
  have ue0 : 0 ≤ ur * eta := mul_nonneg u0.le e0.le
  have uue : ur * (ur * eta) ≤ ur * eta / 1000000000000000 := by
    have := mul_le_mul_of_nonneg_right us ue0; linarith
  have uuM0 : 0 ≤ ur * (ur * M) := mul_nonneg u0.le uM0
  have uuuM : ur * (ur * (ur * M)) ≤ ur * (ur * M) / 1000000000000000 := by
    have := mul_le_mul_of_nonneg_right us uuM0; linarith
  have ex : (301 / 100 * M + (151 * (ur * M) + 4 * eta)) * (2 + 280 * ur) =
      602 / 100 * M + 11448 / 10 * (ur * M) + 8 * eta + 42280 * (ur * (ur * M)) + 1120 * (ur * eta) := by ring
  obtain ⟨fp, rp⟩ := mul_near fs ht.fin hs ht.err hS ht.le (by rw [ex]; linarith)
  have hp : |toR (s * t) - S * W| ≤ 1152 * (ur * M) + 10 * eta := by
    refine rp.trans ?_
    rw [ex]
    have e1 : (151 * (ur * M) + 4 * eta) * (2 + 280 * ur) = 302 * (ur * M) + 8 * eta + 42280 * (ur * (ur * M)) + 1120 * (ur * eta) := by ring
    have e2 : 301 / 100 * M * (280 * ur) = 8428 / 10 * (ur * M) := by ring
    have e3 : ur * (602 / 100 * M + 11448 / 10 * (ur * M) + 8 * eta + 42280 * (ur * (ur * M)) + 1120 * (ur * eta)) =
      602 / 100 * (ur * M) + 11448 / 10 * (ur * (ur * M)) + 8 * (ur * eta) + 42280 * (ur * (ur * (ur * M))) + 1120 * (ur * (ur * eta)) := by ring
    rw [e1, e2, e3]
    linarith
  have hSW : |toR x - S * W| ≤ 702 / 100 * M := by
    refine (abs_sub _ _).trans ?_
    rw [abs_mul]
    have := mul_le_mul hS ht.le (abs_nonneg _) (by linarith)
    linarith
  obtain ⟨f, r⟩ := sub_near (X := toR x) (e1 := 0) (S := 702 / 100 * M + (1152 * (ur * M) + 10 * eta)) fx fp (by simp) hp (by linarith) (by linarith)
  refine ⟨f, r.trans ?_⟩
  have : ur * (702 / 100 * M + (1152 * (ur * M) + 10 * eta)) = 702 / 100 * (ur * M) + 1152 * (ur * (ur * M)) + 10 * (ur * eta) := by ring
  linarith

end

/-- The computed reflector of step `k` is near the exact one. -/
structure NearR (i k : ℤ) (v2 v3 t : Float) (V2 V3 T : ℝ) : Prop where
  n2 : NearV v2 V2
  n3 : k + 2 ≤ i → NearV v3 V3
  z3 : ¬ k + 2 ≤ i → V3 = 0
  t1 : NearT t T
  t2 : NearT (t * v2) (T * V2)
  t3 : k + 2 ≤ i → NearT (t * v3) (T * V3)

section
variable {i k : ℤ} {v2 v3 t : Float} {V2 V3 T M : ℝ} {x : ℤ → Float}

theorem reflG_ne {j : ℤ} (h1 : j ≠ k) (h2 : j ≠ k + 1) (h3 : j ≠ k + 2 ∨ ¬ k + 2 ≤ i) : reflG i k v2 v3 t x j = x j := by
  unfold reflG
  split
  · exact refl3_ne _ h1 h2 (by tauto)
  · exact refl2_ne _ h1 h2

theorem reflG_near (h : NearR i k v2 v3 t V2 V3 T) (M0 : 0 ≤ M) (hM : M ≤ big) (hx : ∀ j, k ≤ j → j ≤ k + 2 → j ≤ i → (x j).isFinite = true ∧ |toR (x j)| ≤ M)
    (hki : k + 1 ≤ i) {j : ℤ} (j1 : k ≤ j) (j2 : j ≤ k + 2) (ji : j ≤ i) :
    (reflG i k v2 v3 t x j).isFinite = true ∧
      |toR (reflG i k v2 v3 t x j) - house k V2 V3 T (fun j => toR (x j)) j| ≤ 1160 * (ur * M) + 12 * eta := by
  obtain ⟨f1, b1⟩ := hx k (by omega) (by omega) (by omega)
  obtain ⟨f2, b2⟩ := hx (k + 1) (by omega) (by omega) (by omega)
  have uM0 : 0 ≤ ur * M := mul_nonneg ur_pos.le M0
  have m2 : |V2 * toR (x (k + 1))| ≤ 1001 / 1000 * M := by
    rw [abs_mul]; exact mul_le_mul h.n2.le b2 (abs_nonneg _) (by norm_num)
  unfold reflG
  by_cases hk : k + 2 ≤ i
  · obtain ⟨f3, b3⟩ := hx (k + 2) (by omega) (by omega) (by omega)
    have m3 : |V3 * toR (x (k + 2))| ≤ 1001 / 1000 * M := by
      rw [abs_mul]; exact mul_le_mul (h.n3 hk).le b3 (abs_nonneg _) (by norm_num)
    rw [if_pos hk]
    obtain ⟨fs, rs⟩ := sum3_near M0 hM f1 f2 f3 b1 b2 b3 h.n2 (h.n3 hk)
    have hS : |toR (x k) + V2 * toR (x (k + 1)) + V3 * toR (x (k + 2))| ≤ 301 / 100 * M := by
      refine (abs_add_le _ _).trans ?_
      linarith [abs_add_le (toR (x k)) (V2 * toR (x (k + 1)))]
    unfold refl3 house dirv
    dsimp only
    have : j = k ∨ j = k + 1 ∨ j = k + 2 := by omega
    rcases this with rfl | rfl | rfl
    · rw [if_neg (by omega), if_neg (by omega), if_pos rfl, if_pos rfl]
      convert upd_near M0 hM f1 b1 fs rs hS h.t1 using 4
      ring
    · rw [if_neg (by omega), if_pos rfl, if_neg (by omega), if_pos rfl]
      convert upd_near M0 hM f2 b2 fs rs hS h.t2 using 4
      ring
    · rw [if_pos rfl, if_neg (by omega), if_neg (by omega), if_pos rfl]
      convert upd_near M0 hM f3 b3 fs rs hS (h.t3 hk) using 4
      ring
  · rw [if_neg hk, h.z3 hk]
    obtain ⟨fs, rs⟩ := sum2_near M0 hM f1 f2 b1 b2 h.n2
    have rs' := rs.trans (show _ ≤ 151 * (ur * M) + 4 * eta by linarith [eta_pos])
    have hS : |toR (x k) + V2 * toR (x (k + 1))| ≤ 301 / 100 * M := by
      linarith [abs_add_le (toR (x k)) (V2 * toR (x (k + 1)))]
    unfold refl2 house dirv
    dsimp only
    have : j = k ∨ j = k + 1 := by omega
    rcases this with rfl | rfl
    · rw [if_neg (by omega), if_pos rfl, if_pos rfl]
      convert upd_near M0 hM f1 b1 fs rs' hS h.t1 using 4
      ring
    · rw [if_pos rfl, if_neg (by omega), if_pos rfl]
      convert upd_near M0 hM f2 b2 fs rs' hS h.t2 using 4
      ring

/-- Exact zeros stay zero. -/
theorem reflG_zero (h : NearR i k v2 v3 t V2 V3 T) (hx : ∀ j, k ≤ j → j ≤ k + 2 → j ≤ i → (x j).isFinite = true ∧ toR (x j) = 0)
    (hki : k + 2 ≤ i) {j : ℤ} (j1 : k ≤ j) (j2 : j ≤ k + 2) : (reflG i k v2 v3 t x j).isFinite = true ∧ toR (reflG i k v2 v3 t x j) = 0 := by
  obtain ⟨f1, b1⟩ := hx k (by omega) (by omega) (by omega)
  obtain ⟨f2, b2⟩ := hx (k + 1) (by omega) (by omega) (by omega)
  obtain ⟨f3, b3⟩ := hx (k + 2) (by omega) (by omega) (by omega)
  obtain ⟨p2, q2⟩ := mul_zeroF h.n2.fin f2 (Or.inr b2)
  obtain ⟨p3, q3⟩ := mul_zeroF (h.n3 hki).fin f3 (Or.inr b3)
  obtain ⟨s2, z2⟩ := add_zeroF f1 p2 b1 q2
  obtain ⟨s3, z3⟩ := add_zeroF s2 p3 z2 q3
  have key : ∀ {y w : Float}, y.isFinite = true → toR y = 0 → w.isFinite = true →
      (y - (x k + v2 * x (k + 1) + v3 * x (k + 2)) * w).isFinite = true ∧ toR (y - (x k + v2 * x (k + 1) + v3 * x (k + 2)) * w) = 0 := by
    intro y w hy y0 hw
    obtain ⟨a1, a2⟩ := mul_zeroF s3 hw (Or.inl z3)
    exact sub_zeroF hy a1 y0 a2
  unfold reflG
  rw [if_pos hki]
  unfold refl3
  dsimp only
  have : j = k ∨ j = k + 1 ∨ j = k + 2 := by omega
  rcases this with rfl | rfl | rfl
  · rw [if_neg (by omega), if_neg (by omega), if_pos rfl]
    exact key f1 b1 h.t1.fin
  · rw [if_neg (by omega), if_pos rfl]
    exact key f2 b2 h.t2.fin
  · rw [if_pos rfl]
    exact key f3 b3 (h.t3 hki).fin

end

/-! ### `dlarfg` on two or three elements -/

/-- `2^-1051`. -/
noncomputable def mu : ℝ := 1 / 2 ^ 1051

theorem mu_pos : 0 < mu := by unfold mu; positivity

/-- The exact reflector near the one `dlarfg` computes for `(a, b, c)`. -/
structure HeadF (a b c : ℝ) (beta : Float) (β V2 V3 T : ℝ) : Prop where
  refl : Refl V2 V3 T
  t0 : 0 ≤ T
  fin : beta.isFinite = true
  err : |toR beta - β| ≤ 70 * ur * |β| + eta
  e1 : a - T * (a + V2 * b + V3 * c) = β
  e2 : |b - T * V2 * (a + V2 * b + V3 * c)| ≤ mu
  e3 : |c - T * V3 * (a + V2 * b + V3 * c)| ≤ mu
  fill2 : |T * V2| * |β| ≤ |b|
  fill3 : |T * V3| * |β| ≤ |c|
  low : T = 0 ∨ (|a| ≤ |β| ∧ |b| ≤ |β| ∧ |c| ≤ |β|)

theorem near_factors {T V2 V3 : ℝ} {tau v2 v3 : Float} {n : Prop} (h : T * (1 + V2 ^ 2 + V3 ^ 2) = 2) (ft : tau.isFinite = true) (t1 : 1 ≤ toR tau)
    (ht : |toR tau - T| ≤ 66 * ur * |T|) (h2 : v2.isFinite = true ∧ |toR v2 - V2| ≤ 66 * ur * |V2| + eta)
    (h3 : n → v3.isFinite = true ∧ |toR v3 - V3| ≤ 66 * ur * |V3| + eta) :
    0 ≤ T ∧ NearV v2 V2 ∧ (n → NearV v3 V3) ∧ NearT tau T ∧ NearT (tau * v2) (T * V2) ∧ (n → NearT (tau * v3) (T * V3)) := by
  have u0 := ur_pos
  have us := ur_small
  have e0 := eta_pos
  have eu := eta_le_ur
  have B1 := one_le_big
  have T0 : 0 ≤ T := by
    by_contra hT
    push Not at hT
    rw [abs_of_neg hT] at ht
    have := (abs_le.1 ht).2
    nlinarith
  rw [abs_of_nonneg T0] at ht
  have T2 : T ≤ 2 := by nlinarith [mul_nonneg T0 (sq_nonneg V2), mul_nonneg T0 (sq_nonneg V3)]
  have hTt := abs_le.1 ht
  have Tlow : 999 / 1000 ≤ T := by nlinarith
  have Ve : ∀ V : ℝ, T * (1 + V ^ 2) ≤ 2 → |V| ≤ 1001 / 1000 := by
    intro V hV
    have : V ^ 2 ≤ 1002 / 1000 := by nlinarith [sq_nonneg V]
    exact abs_le_of_sq_le_sq' (by nlinarith) (by norm_num) |> abs_le.2
  have TV : ∀ V : ℝ, T * (1 + V ^ 2) ≤ 2 → |T * V| ≤ 2 := by
    intro V hV
    apply abs_le_of_sq_le_sq' _ (by norm_num) |> abs_le.2
    nlinarith [mul_nonneg T0 (sq_nonneg V)]
  have hv2 : T * (1 + V2 ^ 2) ≤ 2 := by nlinarith [mul_nonneg T0 (sq_nonneg V3)]
  have hv3 : T * (1 + V3 ^ 2) ≤ 2 := by nlinarith [mul_nonneg T0 (sq_nonneg V2)]
  have one : ∀ {V : ℝ} {v : Float}, T * (1 + V ^ 2) ≤ 2 → v.isFinite = true ∧ |toR v - V| ≤ 66 * ur * |V| + eta →
      NearV v V ∧ NearT (tau * v) (T * V) := by
    intro V v hV ⟨fv, ev⟩
    have a1 := Ve V hV
    have ev' : |toR v - V| ≤ 67 * ur + eta := by
      have : 66 * ur * |V| ≤ 66 * ur * (1001 / 1000) := mul_le_mul_of_nonneg_left a1 (by linarith)
      linarith
    refine ⟨⟨fv, by linarith, a1⟩, ?_⟩
    have ht' : |toR tau - T| ≤ 132 * ur := by nlinarith
    have uu : ur * ur ≤ ur / 1000000000000000 := by nlinarith
    have ue : ur * eta ≤ eta / 1000000000000000 := by nlinarith
    obtain ⟨f, r⟩ := mul_near ft fv ht' ev' (show |T| ≤ 2 by rwa [abs_of_nonneg T0]) a1 (by nlinarith)
    refine ⟨f, r.trans ?_, TV V hV⟩
    have u3 : ur * (ur * ur) ≤ ur / 1000000000000000 := by nlinarith [mul_nonneg u0.le u0.le]
    have u4 : ur * (ur * eta) ≤ eta / 1000000000000000 := by nlinarith [mul_nonneg u0.le e0.le]
    have u5 : eta ≤ ur / 2 := by
      have : eta ≤ ur * ur * F64.tiny := eta_tiny
      have t1 : F64.tiny ≤ 1 := by
        unfold F64.tiny
        rw [div_le_one (by positivity)]; exact one_le_pow₀ (by norm_num)
      nlinarith [mul_nonneg u0.le u0.le]
    have : 132 * ur * (1001 / 1000 + (67 * ur + eta)) + 2 * (67 * ur + eta) + ur * ((2 + 132 * ur) * (1001 / 1000 + (67 * ur + eta))) + eta =
      (132132 / 1000 + 134 + 2002 / 1000) * ur + 3 * eta + (132 * 67 + 134 + 132132 / 1000) * (ur * ur) + 134 * (ur * eta) + 132 * 67 * (ur * (ur * ur)) + 132 * (ur * (ur * eta)) := by ring
    linarith
  refine ⟨T0, (one hv2 h2).1, fun hn => (one hv3 (h3 hn)).1, ⟨ft, by nlinarith, by rwa [abs_of_nonneg T0]⟩, (one hv2 h2).2,
    fun hn => (one hv3 (h3 hn)).2⟩

end Verif
