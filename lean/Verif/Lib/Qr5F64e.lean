import Verif.Lib.Qr5F64d
import Verif.Props.Laqr1F64

/-!
# The first reflector of `dlaqr5` on binary64
-/

namespace Verif
open F64 Scalar Spec Matrix

/-- Component `i` of the first column of `(H - s1)(H - s2)` for a Hessenberg matrix and shifts that are real or conjugate. -/
noncomputable def startV (h : Nat → Nat → ℝ) (a1 b1 a2 b2 : ℝ) (i : Nat) : ℝ :=
  if i = 0 then (h 0 0 - a1) * (h 0 0 - a2) - b1 * b2 + h 0 1 * h 1 0
  else if i = 1 then h 1 0 * (h 0 0 + h 1 1 - a1 - a2) else h 1 0 * h 2 1

theorem pow7 : ((1 : ℝ) + 1 / 2 ^ 53) ^ 7 - 1 ≤ 701 / 100 * ur ∧ ((1 : ℝ) + 1 / 2 ^ 53) ^ 7 ≤ 101 / 100 ∧ ((1 : ℝ) + 1 / 2 ^ 53) ^ 4 - 1 ≤ 1 / 1000 ∧
    (0 : ℝ) ≤ (1 + 1 / 2 ^ 53) ^ 7 - 1 := by
  unfold ur
  refine ⟨?_, ?_, ?_, ?_⟩ <;> norm_num

/-- Size of a component, from its scaled value. -/
theorem comp_core {σ S X Z C U w : ℝ} (hS : 0 < S) (hσ : |σ - S| ≤ ((1 + 1 / 2 ^ 53) ^ 4 - 1) * S) (hZ : Z ≤ S * C) (hX : |X| ≤ Z) (U0 : 0 ≤ U)
    (hw : |σ * w - X| ≤ ((1 + 1 / 2 ^ 53) ^ 7 - 1) * Z + (1 + 1 / 2 ^ 53) ^ 7 * (1 / 2 ^ 1075 * σ * U)) :
    0 < σ ∧ σ ≤ 1001 / 1000 * S ∧ |w| ≤ 101 / 100 * C + 101 / 100 * (eta * U) ∧
      |σ * w - X| ≤ 701 / 100 * ur * Z + 101 / 100 * (eta * σ * U) ∧ |X| ≤ σ * (101 / 100 * |w| + 101 / 100 * (101 / 100 * (eta * U))) ∨ Z ≠ |X| ∧
    (0 < σ ∧ σ ≤ 1001 / 1000 * S ∧ |w| ≤ 101 / 100 * C + 101 / 100 * (eta * U) ∧ |σ * w - X| ≤ 701 / 100 * ur * Z + 101 / 100 * (eta * σ * U)) := by
  obtain ⟨p1, p2, p3, p4⟩ := pow7
  have us := ur_small
  have u0 := ur_pos
  have e0 := eta_pos
  have Z0 : 0 ≤ Z := (abs_nonneg _).trans hX
  have hσ' : |σ - S| ≤ 1 / 1000 * S := hσ.trans (mul_le_mul_of_nonneg_right p3 hS.le)
  obtain ⟨s1, s2⟩ := abs_le.1 hσ'
  have σ0 : 0 < σ := by linarith
  have hσ2 : σ ≤ 1001 / 1000 * S := by linarith
  have ge : (1 : ℝ) / 2 ^ 1075 = eta := rfl
  rw [ge] at hw
  have T0 : 0 ≤ eta * σ * U := mul_nonneg (mul_nonneg e0.le σ0.le) U0
  have hw1 : |σ * w - X| ≤ 701 / 100 * ur * Z + 101 / 100 * (eta * σ * U) :=
    hw.trans (add_le_add (mul_le_mul_of_nonneg_right p1 Z0) (mul_le_mul_of_nonneg_right p2 T0))
  have uz : ur * Z ≤ 1 / 1000000000000000 * Z := mul_le_mul_of_nonneg_right us Z0
  have C0 : 0 ≤ S * C := Z0.trans hZ
  have hsw : σ * |w| ≤ σ * (101 / 100 * C + 101 / 100 * (eta * U)) := by
    have h1 : |σ * w| ≤ |X| + |σ * w - X| := by
      calc |σ * w| = |X + (σ * w - X)| := by ring_nf
        _ ≤ _ := abs_add_le _ _
    rw [abs_mul, abs_of_pos σ0] at h1
    have hC : 0 ≤ C := by
      by_contra h
      have := mul_neg_of_pos_of_neg hS (not_le.1 h)
      linarith
    have h2 : S * C ≤ 1002 / 1000 * σ * C := mul_le_mul_of_nonneg_right (by linarith) hC
    have h3 : 0 ≤ σ * C := mul_nonneg σ0.le hC
    have : σ * (101 / 100 * C + 101 / 100 * (eta * U)) = 101 / 100 * (σ * C) + 101 / 100 * (eta * σ * U) := by ring
    rw [this]
    linarith
  have hwb := le_of_mul_le_mul_left hsw σ0
  by_cases hz : Z = |X|
  · refine Or.inl ⟨σ0, hσ2, hwb, hw1, ?_⟩
    have h1 : |X| ≤ |σ * w| + |σ * w - X| := by
      rw [abs_sub_comm]
      calc |X| = |σ * w + (X - σ * w)| := by ring_nf
        _ ≤ _ := abs_add_le _ _
    rw [abs_mul, abs_of_pos σ0] at h1
    rw [hz] at hw1 uz
    have : σ * (101 / 100 * |w| + 101 / 100 * (101 / 100 * (eta * U))) = 101 / 100 * (σ * |w|) + 101 / 100 * (101 / 100 * (eta * σ * U)) := by ring
    rw [this]
    have := abs_nonneg X
    linarith
  · exact Or.inr ⟨hz, σ0, hσ2, hwb, hw1⟩

/-- The start vector computed by `dlaqr1` for a Hessenberg matrix with nonzero `h21`. -/
theorem laqr1_near5 (n : Nat) (hn : n = 2 ∨ n = 3) (h : Nat → Nat → Float) (a1 b1 a2 b2 : Float) {N M : ℝ} (M0 : 0 ≤ M)
    (hf : ∀ i < n, ∀ j < n, (h i j).isFinite = true ∧ |toR (h i j)| ≤ N)
    (f1 : a1.isFinite = true) (f2 : b1.isFinite = true) (f3 : a2.isFinite = true) (f4 : b2.isFinite = true)
    (hM : |toR a1| + |toR b1| + |toR a2| + |toR b2| ≤ M) (hP : N + M ≤ big) (h10 : toR (h 1 0) ≠ 0) (h20 : n = 3 → toR (h 2 0) = 0) :
    ∃ σ : ℝ, 0 < σ ∧ σ ≤ 21 / 10 * (N + M) ∧ (∀ i < n, (laqr1Val n h a1 b1 a2 b2 i).isFinite = true ∧
      |toR (laqr1Val n h a1 b1 a2 b2 i)| ≤ 3 * (N + M) + mu ∧
      |σ * toR (laqr1Val n h a1 b1 a2 b2 i) - startV (fun i j => toR (h i j)) (toR a1) (toR b1) (toR a2) (toR b2) i| ≤
        29 * (ur * (N + M) ^ 2) + 9 * (eta * (N + M))) ∧
      (n = 3 → |toR (h 1 0)| * |toR (h 2 1)| ≤ 11 / 5 * (N + M) * (|toR (laqr1Val n h a1 b1 a2 b2 2)| + 101 / 100 * (eta * (4 + 4 * (N + M))))) := by
  have e0 := eta_pos
  have u0 := ur_pos
  have emu : 9 * eta ≤ mu := by
    unfold eta mu
    rw [show (9 : ℝ) * (1 / 2 ^ 1075) = 9 / 2 ^ 24 * (1 / 2 ^ 1051) by rw [show (1075 : ℕ) = 24 + 1051 by norm_num, pow_add]; ring]
    have : (0 : ℝ) < 1 / 2 ^ 1051 := by positivity
    generalize (1 : ℝ) / 2 ^ 1051 = q at *
    norm_num
    linarith
  have eu : eta ≤ 1 / 1000 * ur := by
    unfold eta ur
    rw [show (1 : ℝ) / 2 ^ 1075 = 1 / 2 ^ 1022 * (1 / 2 ^ 53) by rw [show (1075 : ℕ) = 1022 + 53 by norm_num, pow_add]; ring]
    refine mul_le_mul_of_nonneg_right ?_ (by positivity)
    exact one_div_le_one_div_of_le (by norm_num) (le_trans (by norm_num : (1000 : ℝ) ≤ 2 ^ 10) (pow_le_pow_right₀ (by norm_num) (by norm_num)))
  have n00 := hf 0 (by omega) 0 (by omega)
  have n10 := hf 1 (by omega) 0 (by omega)
  have n01 := hf 0 (by omega) 1 (by omega)
  have n11 := hf 1 (by omega) 1 (by omega)
  have N0 : 0 ≤ N := (abs_nonneg _).trans n00.2
  have A1 := abs_nonneg (toR a1); have A2 := abs_nonneg (toR b1); have A3 := abs_nonneg (toR a2); have A4 := abs_nonneg (toR b2)
  obtain ⟨σ, -, hσ, hacc⟩ := laqr1_val_f64 n hn h a1 b1 a2 b2 (fun i hi j hj => ⟨(hf i hi j hj).1, (hf i hi j hj).2.trans (by linarith)⟩)
    ⟨f1, by linarith⟩ ⟨f2, by linarith⟩ ⟨f3, by linarith⟩ ⟨f4, by linarith⟩
  have hpos := abs_pos.2 h10
  have d1 := abs_sub (toR (h 0 0)) (toR a1)
  have d2 := abs_sub (toR (h 0 0)) (toR a2)
  have D1 := abs_nonneg (toR (h 0 0) - toR a1)
  have D2 := abs_nonneg (toR (h 0 0) - toR a2)
  have H00 := abs_nonneg (toR (h 0 0)); have H01 := abs_nonneg (toR (h 0 1)); have H11 := abs_nonneg (toR (h 1 1))
  set P := N + M with hPd
  have P0 : 0 < P := by have := n10.2; linarith
  -- what is left to do once the sizes are known
  obtain ⟨S, hSe⟩ : ∃ S, shiftScale n (fun i j => toR (h i j)) ⟨toR a2, toR b2⟩ = S := ⟨_, rfl⟩
  rw [hSe] at hσ
  have hS : S = |toR (h 0 0) - toR a2| + |toR b2| + |toR (h 1 0)| := by
    rw [← hSe]
    rcases hn with rfl | rfl
    · simp [shiftScale]
    · rw [shiftScale, show Finset.Ico 1 3 = {1, 2} by rfl]
      simp [h20 rfl]
  have S0 : 0 < S := by rw [hS]; linarith
  have S2 : S ≤ 2 * P := by rw [hS, hPd]; linarith [n10.2, n00.2]
  have done : ∀ i < n, ∀ X Z C U, (shiftCol n (fun i j => toR (h i j)) ⟨toR a1, toR b1⟩ ⟨toR a2, toR b2⟩ i).re = X →
      shiftSize n (fun i j => toR (h i j)) ⟨toR a1, toR b1⟩ ⟨toR a2, toR b2⟩ i = Z →
      shiftUnder n (fun i j => toR (h i j)) ⟨toR a1, toR b1⟩ ⟨toR a2, toR b2⟩ i = U → |X| ≤ Z → Z ≤ S * C → C ≤ 2 * P → 0 ≤ C → 0 ≤ U → U ≤ 4 + 4 * P →
      0 < σ ∧ σ ≤ 21 / 10 * P ∧ |toR (laqr1Val n h a1 b1 a2 b2 i)| ≤ 3 * P + mu ∧ |σ * toR (laqr1Val n h a1 b1 a2 b2 i) - X| ≤
        29 * (ur * P ^ 2) + 9 * (eta * P) ∧ (Z = |X| → |X| ≤ 11 / 5 * P * (|toR (laqr1Val n h a1 b1 a2 b2 i)| + 101 / 100 * (eta * (4 + 4 * P)))) := by
    intro i hi X Z C U eX eZ eU h1 h2 h3 h4 h5 h6
    have ha := (hacc i hi).error
    rw [eX, eZ, eU] at ha
    have eP : 0 ≤ eta * P := mul_nonneg e0.le P0.le
    have uP2 : 0 ≤ ur * P ^ 2 := mul_nonneg u0.le (sq_nonneg _)
    have eUb : eta * U ≤ 4 * eta + 4 * (eta * P) := by
      have := mul_le_mul_of_nonneg_left h6 e0.le
      linarith
    have all : (0 < σ ∧ σ ≤ 1001 / 1000 * S ∧ |toR (laqr1Val n h a1 b1 a2 b2 i)| ≤ 101 / 100 * C + 101 / 100 * (eta * U) ∧
        |σ * toR (laqr1Val n h a1 b1 a2 b2 i) - X| ≤ 701 / 100 * ur * Z + 101 / 100 * (eta * σ * U)) ∧
        (Z = |X| → |X| ≤ σ * (101 / 100 * |toR (laqr1Val n h a1 b1 a2 b2 i)| + 101 / 100 * (101 / 100 * (eta * U)))) := by
      rcases comp_core S0 hσ h2 h1 h5 ha with ⟨q1, q2, q3, q4, q5⟩ | ⟨q0, q⟩
      · exact ⟨⟨q1, q2, q3, q4⟩, fun _ => q5⟩
      · exact ⟨q, fun h => absurd h q0⟩
    obtain ⟨⟨q1, q2, q3, q4⟩, q5⟩ := all
    have ePP : eta * P ≤ 1 / 1000 * P := mul_le_mul_of_nonneg_right (by have := ur_small; linarith) P0.le
    have σP : σ ≤ 21 / 10 * P := by linarith
    refine ⟨q1, σP, ?_, ?_, ?_⟩
    · linarith
    · have z2 : S * C ≤ 2 * P * (2 * P) := mul_le_mul S2 h3 h4 (by linarith)
      have z3 : ur * Z ≤ ur * (2 * P * (2 * P)) := mul_le_mul_of_nonneg_left (h2.trans z2) u0.le
      have z4 : eta * σ * U ≤ eta * (21 / 10 * P) * (4 + 4 * P) :=
        mul_le_mul (mul_le_mul_of_nonneg_left σP e0.le) h6 h5 (mul_nonneg e0.le (by linarith))
      have z5 : eta * P ^ 2 ≤ 1 / 1000 * ur * P ^ 2 := mul_le_mul_of_nonneg_right eu (sq_nonneg _)
      have z6 : ur * (2 * P * (2 * P)) = 4 * (ur * P ^ 2) := by ring
      have z7 : eta * (21 / 10 * P) * (4 + 4 * P) = 84 / 10 * (eta * P) + 84 / 10 * (eta * P ^ 2) := by ring
      rw [z6] at z3
      rw [z7] at z4
      linarith
    · intro hz
      refine (q5 hz).trans ?_
      have w0 := abs_nonneg (toR (laqr1Val n h a1 b1 a2 b2 i))
      have t0 : 0 ≤ eta * U := mul_nonneg e0.le h5
      have t1 : σ * (101 / 100 * |toR (laqr1Val n h a1 b1 a2 b2 i)| + 101 / 100 * (101 / 100 * (eta * U))) ≤
          21 / 10 * P * (101 / 100 * |toR (laqr1Val n h a1 b1 a2 b2 i)| + 101 / 100 * (101 / 100 * (4 * eta + 4 * (eta * P)))) :=
        mul_le_mul σP (by linarith) (by linarith) (by linarith)
      refine t1.trans ?_
      have t2 : 0 ≤ P * |toR (laqr1Val n h a1 b1 a2 b2 i)| := mul_nonneg P0.le w0
      have t3 : 0 ≤ P * eta := mul_nonneg P0.le e0.le
      have t4 : 0 ≤ P * (eta * P) := mul_nonneg P0.le eP
      have t5 : 21 / 10 * P * (101 / 100 * |toR (laqr1Val n h a1 b1 a2 b2 i)| + 101 / 100 * (101 / 100 * (4 * eta + 4 * (eta * P)))) =
        2121 / 1000 * (P * |toR (laqr1Val n h a1 b1 a2 b2 i)|) + 101 / 100 * (2121 / 1000 * (4 * (P * eta) + 4 * (P * (eta * P)))) := by ring
      have t6 : 11 / 5 * P * (|toR (laqr1Val n h a1 b1 a2 b2 i)| + 101 / 100 * (eta * (4 + 4 * P))) =
        11 / 5 * (P * |toR (laqr1Val n h a1 b1 a2 b2 i)|) + 101 / 100 * (11 / 5 * (4 * (P * eta) + 4 * (P * (eta * P)))) := by ring
      rw [t5, t6]
      linarith
  have ico : ∀ f : Nat → ℝ, ∑ k ∈ Finset.Ico 1 3, f k = f 1 + f 2 := by
    intro f
    rw [show Finset.Ico 1 3 = {1, 2} by rfl]
    simp
  have X0 : |startV (fun i j => toR (h i j)) (toR a1) (toR b1) (toR a2) (toR b2) 0| ≤
      |toR (h 0 0) - toR a1| * |toR (h 0 0) - toR a2| + |toR b1| * |toR b2| + |toR (h 0 1)| * |toR (h 1 0)| := by
    unfold startV
    rw [if_pos rfl, ← abs_mul, ← abs_mul, ← abs_mul]
    exact (abs_add_le _ _).trans (add_le_add_left (abs_sub _ _) _)
  have X1 : |startV (fun i j => toR (h i j)) (toR a1) (toR b1) (toR a2) (toR b2) 1| ≤
      |toR (h 1 0)| * (|toR (h 0 0)| + |toR (h 1 1)| + |toR a1| + |toR a2|) := by
    unfold startV
    rw [if_neg (by norm_num), if_pos rfl, abs_mul]
    refine mul_le_mul_of_nonneg_left ?_ (abs_nonneg _)
    have := abs_sub (toR (h 0 0) + toR (h 1 1) - toR a1) (toR a2)
    have := abs_sub (toR (h 0 0) + toR (h 1 1)) (toR a1)
    have := abs_add_le (toR (h 0 0)) (toR (h 1 1))
    linarith
  have Z0 : |toR (h 0 0) - toR a1| * |toR (h 0 0) - toR a2| + |toR b1| * |toR b2| + |toR (h 0 1)| * |toR (h 1 0)| ≤
      S * (|toR (h 0 0) - toR a1| + |toR b1| + |toR (h 0 1)|) := by
    rw [hS]
    have m1 := mul_nonneg D1 A4; have m2 := mul_nonneg D1 hpos.le; have m3 := mul_nonneg A2 D2; have m4 := mul_nonneg A2 hpos.le
    have m5 := mul_nonneg H01 D2; have m6 := mul_nonneg H01 A4
    nlinarith
  have Z1 : |toR (h 1 0)| * (|toR (h 0 0)| + |toR (h 1 1)| + |toR a1| + |toR a2|) ≤ S * (|toR (h 0 0)| + |toR (h 1 1)| + |toR a1| + |toR a2|) :=
    mul_le_mul_of_nonneg_right (by rw [hS]; linarith) (by linarith)
  have d0 := done 0 (by omega) (startV (fun i j => toR (h i j)) (toR a1) (toR b1) (toR a2) (toR b2) 0) _ _ _
    (by rcases hn with rfl | rfl
        · simp [shiftCol, startV, Finset.sum_range_succ]
        · simp [shiftCol, startV, Finset.sum_range_succ, h20 rfl])
    (show _ = |toR (h 0 0) - toR a1| * |toR (h 0 0) - toR a2| + |toR b1| * |toR b2| + |toR (h 0 1)| * |toR (h 1 0)| by
      rcases hn with rfl | rfl
      · simp [shiftSize]
      · simp [shiftSize, ico, h20 rfl]) rfl X0 Z0 (by rw [hPd]; linarith [n00.2, n01.2]) (by linarith)
    (by rcases hn with rfl | rfl
        · simp [shiftUnder]; linarith
        · have := abs_nonneg (toR (h 0 2))
          simp [shiftUnder, ico]; linarith)
    (by rcases hn with rfl | rfl
        · simp [shiftUnder]; linarith [n00.2, n01.2]
        · have := (hf 0 (by omega) 2 (by omega)).2
          simp [shiftUnder, ico]; linarith [n00.2, n01.2])
  have d1' := done 1 (by omega) (startV (fun i j => toR (h i j)) (toR a1) (toR b1) (toR a2) (toR b2) 1) _ _ _
    (by rcases hn with rfl | rfl
        · simp [shiftCol, startV, Finset.sum_range_succ]; ring
        · simp [shiftCol, startV, Finset.sum_range_succ, h20 rfl]; ring)
    (show _ = |toR (h 1 0)| * (|toR (h 0 0)| + |toR (h 1 1)| + |toR a1| + |toR a2|) by
      rcases hn with rfl | rfl
      · simp [shiftSize]
      · simp [shiftSize, ico, h20 rfl]) rfl X1 Z1 (by rw [hPd]; linarith [n00.2, n11.2]) (by linarith)
    (by rcases hn with rfl | rfl
        · simp [shiftUnder]; linarith
        · have := abs_nonneg (toR (h 1 2))
          simp [shiftUnder, ico]; linarith)
    (by rcases hn with rfl | rfl
        · simp [shiftUnder]; linarith [n00.2, n11.2]
        · have := (hf 1 (by omega) 2 (by omega)).2
          simp [shiftUnder, ico]; linarith [n00.2, n11.2])
  by_cases h3 : n = 3
  · subst h3
    have n21 := hf 2 (by omega) 1 (by omega)
    have n22 := hf 2 (by omega) 2 (by omega)
    have H21 := abs_nonneg (toR (h 2 1)); have H22 := abs_nonneg (toR (h 2 2))
    have eX : startV (fun i j => toR (h i j)) (toR a1) (toR b1) (toR a2) (toR b2) 2 = toR (h 1 0) * toR (h 2 1) := by
      unfold startV
      rw [if_neg (by norm_num), if_neg (by norm_num)]
    have d2' := done 2 (by omega) (toR (h 1 0) * toR (h 2 1)) (|toR (h 1 0)| * |toR (h 2 1)|) |toR (h 2 1)| _
      (by simp [shiftCol, Finset.sum_range_succ, h20 rfl]; ring) (by simp [shiftSize, ico, h20 rfl]; ring) rfl (by rw [abs_mul])
      (mul_le_mul_of_nonneg_right (by rw [hS]; linarith) H21) (by rw [hPd]; linarith [n21.2]) H21
      (by simp [shiftUnder, ico]; linarith) (by simp [shiftUnder, ico]; linarith [n00.2, n22.2, n21.2])
    refine ⟨σ, d0.1, d0.2.1, ?_, fun _ => ?_⟩
    · intro i hi
      refine ⟨(hacc i hi).finite, ?_⟩
      interval_cases i
      · exact ⟨d0.2.2.1, d0.2.2.2.1⟩
      · exact ⟨d1'.2.2.1, d1'.2.2.2.1⟩
      · rw [eX]; exact ⟨d2'.2.2.1, d2'.2.2.2.1⟩
    · have := d2'.2.2.2.2 (by rw [abs_mul])
      rwa [abs_mul] at this
  · have h2 : n = 2 := by omega
    subst h2
    refine ⟨σ, d0.1, d0.2.1, ?_, fun h => absurd h h3⟩
    intro i hi
    refine ⟨(hacc i hi).finite, ?_⟩
    interval_cases i
    · exact ⟨d0.2.2.1, d0.2.2.2.1⟩
    · exact ⟨d1'.2.2.1, d1'.2.2.2.1⟩

/-- The first column of the reflector is nearly a multiple of the vector it was built from. -/
theorem first_near {kt : ℤ} {x y w β V2 V3 θ : ℝ} {beta : Float} (h : HeadF x y w beta β V2 V3 θ) (a : ℤ) :
    |β * houseR kt V2 V3 θ idT a kt - (if a = kt then x else if a = kt + 1 then y else if a = kt + 2 then w else 0)| ≤ 2 * mu := by
  have mu0 := mu_pos
  have hr := h.refl
  unfold Refl at hr
  have h0 := h.t0
  have e1 := h.e1
  have h2 := h.e2
  have h3 := h.e3
  obtain ⟨d2, hd2⟩ : ∃ d, y - θ * V2 * (x + V2 * y + V3 * w) = d := ⟨_, rfl⟩
  obtain ⟨d3, hd3⟩ : ∃ d, w - θ * V3 * (x + V2 * y + V3 * w) = d := ⟨_, rfl⟩
  rw [hd2] at h2
  rw [hd3] at h3
  have hθ : θ * (1 + V2 ^ 2 + V3 ^ 2) ≤ 2 := by
    rcases mul_eq_zero.1 hr with z | z
    · rw [z]; norm_num
    · linarith
  have small : ∀ c2 c3 : ℝ, |c2| ≤ 1 → |c3| ≤ 1 → |c2 * d2 + c3 * d3| ≤ 2 * mu := by
    intro c2 c3 k2 k3
    refine (abs_add_le _ _).trans ?_
    rw [abs_mul, abs_mul]
    have := mul_le_mul k2 h2 (abs_nonneg _) zero_le_one
    have := mul_le_mul k3 h3 (abs_nonneg _) zero_le_one
    linarith
  have s2 := mul_nonneg h0 (sq_nonneg V2)
  have s3 := mul_nonneg h0 (sq_nonneg V3)
  have sp := mul_nonneg h0 (sq_nonneg (V2 - 1)); have sm := mul_nonneg h0 (sq_nonneg (V2 + 1))
  have tp := mul_nonneg h0 (sq_nonneg (V3 - 1)); have tm := mul_nonneg h0 (sq_nonneg (V3 + 1))
  have vp := mul_nonneg h0 (sq_nonneg (V2 - V3)); have vm := mul_nonneg h0 (sq_nonneg (V2 + V3))
  have b2 : |θ * V2| ≤ 1 := abs_le.2 ⟨by nlinarith, by nlinarith⟩
  have b3 : |θ * V3| ≤ 1 := abs_le.2 ⟨by nlinarith, by nlinarith⟩
  have b22 : |θ * V2 * V2 - 1| ≤ 1 := abs_le.2 ⟨by nlinarith, by nlinarith⟩
  have b33 : |θ * V3 * V3 - 1| ≤ 1 := abs_le.2 ⟨by nlinarith, by nlinarith⟩
  have b23 : |θ * V2 * V3| ≤ 1 := abs_le.2 ⟨by nlinarith, by nlinarith⟩
  set z := x + V2 * y + V3 * w with hz
  unfold houseR house dirv idT
  rw [if_pos rfl]
  by_cases c1 : a = kt
  · subst c1
    rw [if_pos rfl, if_pos rfl, if_neg (by omega), if_neg (by omega)]
    convert small (θ * V2) (θ * V3) b2 b3 using 2
    rw [← e1, ← hd2, ← hd3, hz]
    have : θ ^ 2 * (1 + V2 ^ 2 + V3 ^ 2) = 2 * θ := by linear_combination hr
    linear_combination (x + V2 * y + V3 * w) * this
  · rw [if_neg c1, if_neg c1]
    by_cases c2 : a = kt + 1
    · subst c2
      rw [if_pos rfl, if_pos rfl, if_neg (by omega)]
      convert small (θ * V2 * V2 - 1) (θ * V2 * V3) b22 b23 using 2
      rw [← e1, ← hd2, ← hd3, hz]
      linear_combination (x + V2 * y + V3 * w) * V2 * hr
    · rw [if_neg c2, if_neg c2]
      by_cases c3 : a = kt + 2
      · rw [if_pos c3, if_pos c3]
        convert small (θ * V2 * V3) (θ * V3 * V3 - 1) b23 b33 using 2
        rw [← e1, ← hd2, ← hd3, hz]
        linear_combination (x + V2 * y + V3 * w) * V3 * hr
      · rw [if_neg c3, if_neg c3]
        rw [show β * (0 - θ * 1 * (0 + V2 * 0 + V3 * 0)) - 0 = 0 by ring, abs_zero]
        linarith

end Verif
