import Verif.Props.Lanv2

/-!
# Perturbed rotations of 2-by-2 matrices

Real algebra used in the error analysis of `dlanv2` on binary64.
-/

namespace Verif
open Spec

/-- The rotated matrix. -/
theorem rotated_of {A B C D cs sn : ℝ} (h : cs ^ 2 + sn ^ 2 = 1) :
    Rotated A B C D cs sn (cs * (cs * A + sn * B) + sn * (cs * C + sn * D))
      (cs * (-sn * A + cs * B) + sn * (-sn * C + cs * D))
      (-sn * (cs * A + sn * B) + cs * (cs * C + sn * D))
      (-sn * (-sn * A + cs * B) + cs * (-sn * C + cs * D)) := by
  rw [rotated_iff]
  refine ⟨h, ?_, ?_, ?_, ?_⟩
  · linear_combination (-A * (cs ^ 2 + sn ^ 2 + 1)) * h
  · linear_combination (-B * (cs ^ 2 + sn ^ 2 + 1)) * h
  · linear_combination (-C * (cs ^ 2 + sn ^ 2 + 1)) * h
  · linear_combination (-D * (cs ^ 2 + sn ^ 2 + 1)) * h

theorem unit_le {cs sn : ℝ} (h : cs ^ 2 + sn ^ 2 = 1) : |cs| ≤ 1 ∧ |sn| ≤ 1 ∧ 2 * (|cs| * |sn|) ≤ 1 ∧
    |cs ^ 2 - sn ^ 2| ≤ 1 := by
  have h1 := sq_abs cs
  have h2 := sq_abs sn
  refine ⟨?_, ?_, ?_, ?_⟩
  · nlinarith [abs_nonneg cs, abs_nonneg sn]
  · nlinarith [abs_nonneg cs, abs_nonneg sn]
  · nlinarith [sq_nonneg (|cs| - |sn|)]
  · rw [abs_le]; constructor <;> nlinarith [sq_nonneg cs, sq_nonneg sn]

theorem four_terms {cs sn x y z w ε : ℝ} (h : cs ^ 2 + sn ^ 2 = 1) (hx : |x| ≤ ε) (hy : |y| ≤ ε) (hz : |z| ≤ ε) (hw : |w| ≤ ε) :
    |cs ^ 2 * x + cs * sn * y + cs * sn * z + sn ^ 2 * w| ≤ 2 * ε := by
  obtain ⟨-, -, h3, -⟩ := unit_le h
  have e0 : 0 ≤ ε := (abs_nonneg _).trans hx
  have h4 : |cs ^ 2 * x| ≤ cs ^ 2 * ε := by
    rw [abs_mul, abs_of_nonneg (sq_nonneg cs)]; exact mul_le_mul_of_nonneg_left hx (sq_nonneg _)
  have h5 : |sn ^ 2 * w| ≤ sn ^ 2 * ε := by
    rw [abs_mul, abs_of_nonneg (sq_nonneg sn)]; exact mul_le_mul_of_nonneg_left hw (sq_nonneg _)
  have h6 : |cs * sn * y| ≤ |cs| * |sn| * ε := by
    rw [abs_mul, abs_mul]; exact mul_le_mul_of_nonneg_left hy (by positivity)
  have h7 : |cs * sn * z| ≤ |cs| * |sn| * ε := by
    rw [abs_mul, abs_mul]; exact mul_le_mul_of_nonneg_left hz (by positivity)
  have h8 : 2 * (|cs| * |sn|) * ε ≤ 1 * ε := mul_le_mul_of_nonneg_right h3 e0
  have h9 : (cs ^ 2 + sn ^ 2) * ε = 1 * ε := by rw [h]
  have := abs_add_le (cs ^ 2 * x + cs * sn * y + cs * sn * z) (sn ^ 2 * w)
  have := abs_add_three (cs ^ 2 * x) (cs * sn * y) (cs * sn * z)
  nlinarith

/-- Errors of the rotated matrix are errors of the given matrix. -/
theorem Spec.Rotated.perturb {A B C D cs sn a b c d a' b' c' d' ε : ℝ} (h : Rotated A B C D cs sn a b c d)
    (ha : |a' - a| ≤ ε) (hb : |b' - b| ≤ ε) (hc : |c' - c| ≤ ε) (hd : |d' - d| ≤ ε) :
    ∃ e1 e2 e3 e4 : ℝ, |e1| ≤ 2 * ε ∧ |e2| ≤ 2 * ε ∧ |e3| ≤ 2 * ε ∧ |e4| ≤ 2 * ε ∧
      Rotated (A + e1) (B + e2) (C + e3) (D + e4) cs sn a' b' c' d' := by
  obtain ⟨hu, h1, h2, h3, h4⟩ := rotated_iff.1 h
  have neg : ∀ {x y : ℝ}, |x - y| ≤ ε → |-(x - y)| ≤ ε := fun h => by rwa [abs_neg]
  refine ⟨cs ^ 2 * (a' - a) + cs * sn * -(c' - c) + cs * sn * -(b' - b) + sn ^ 2 * (d' - d),
    cs ^ 2 * (b' - b) + cs * sn * (a' - a) + cs * sn * -(d' - d) + sn ^ 2 * -(c' - c),
    cs ^ 2 * (c' - c) + cs * sn * (a' - a) + cs * sn * -(d' - d) + sn ^ 2 * -(b' - b),
    cs ^ 2 * (d' - d) + cs * sn * (b' - b) + cs * sn * (c' - c) + sn ^ 2 * (a' - a),
    four_terms hu ha (neg hc) (neg hb) hd, four_terms hu hb ha (neg hd) (neg hc),
    four_terms hu hc ha (neg hd) (neg hb), four_terms hu hd hb hc ha, ?_⟩
  rw [rotated_iff]
  refine ⟨hu, ?_, ?_, ?_, ?_⟩
  · rw [h1]; ring
  · rw [h2]; ring
  · rw [h3]; ring
  · rw [h4]; ring

/-- `Bk K L M A B C D cs sn a b c d`: up to `L` units in the rotation and `K` units, relative to `M`, in
the entries of the given matrix, `[a b; c d]` is the given matrix rotated by `cs`, `sn`. -/
def Bk (u K L M A B C D cs sn a b c d : ℝ) : Prop :=
  ∃ cs0 sn0 e1 e2 e3 e4 : ℝ, |cs - cs0| ≤ L * u ∧ |sn - sn0| ≤ L * u ∧
    |e1| ≤ K * u * M ∧ |e2| ≤ K * u * M ∧ |e3| ≤ K * u * M ∧ |e4| ≤ K * u * M ∧
    Rotated (A + e1) (B + e2) (C + e3) (D + e4) cs0 sn0 a b c d

theorem Bk.mono {u K L K' L' M A B C D cs sn a b c d : ℝ} (h : Bk u K L M A B C D cs sn a b c d) (hu : 0 ≤ u) (hM : 0 ≤ M)
    (hK : K ≤ K') (hL : L ≤ L') : Bk u K' L' M A B C D cs sn a b c d := by
  obtain ⟨x, y, e1, e2, e3, e4, h1, h2, h3, h4, h5, h6, h7⟩ := h
  have hk : K * u * M ≤ K' * u * M := mul_le_mul_of_nonneg_right (mul_le_mul_of_nonneg_right hK hu) hM
  have hl : L * u ≤ L' * u := mul_le_mul_of_nonneg_right hL hu
  exact ⟨x, y, e1, e2, e3, e4, h1.trans hl, h2.trans hl, h3.trans hk, h4.trans hk, h5.trans hk, h6.trans hk, h7⟩

/-- Perturbing the rotated matrix and the rotation. -/
theorem Bk.perturb {u K L K' L' M A B C D cs sn a b c d cs' sn' a' b' c' d' : ℝ} (h : Bk u K L M A B C D cs sn a b c d)
    (hcs : |cs' - cs| ≤ L' * u) (hsn : |sn' - sn| ≤ L' * u)
    (ha : |a' - a| ≤ K' * u * M) (hb : |b' - b| ≤ K' * u * M) (hc : |c' - c| ≤ K' * u * M) (hd : |d' - d| ≤ K' * u * M) :
    Bk u (K + 2 * K') (L + L') M A B C D cs' sn' a' b' c' d' := by
  obtain ⟨x, y, e1, e2, e3, e4, h1, h2, h3, h4, h5, h6, h7⟩ := h
  obtain ⟨f1, f2, f3, f4, g1, g2, g3, g4, g5⟩ := h7.perturb ha hb hc hd
  have tr : ∀ {p q r : ℝ}, |p - q| ≤ L' * u → |q - r| ≤ L * u → |p - r| ≤ (L + L') * u := by
    intro p q r h h'
    have := abs_sub_le p q r
    linarith
  have ad : ∀ {p q : ℝ}, |p| ≤ K * u * M → |q| ≤ 2 * (K' * u * M) → |p + q| ≤ (K + 2 * K') * u * M := by
    intro p q h h'
    have := abs_add_le p q
    linarith
  refine ⟨x, y, e1 + f1, e2 + f2, e3 + f3, e4 + f4, tr hcs h1, tr hsn h2, ad h3 g1, ad h4 g2, ad h5 g3, ad h6 g4, ?_⟩
  simpa only [add_assoc] using g5

/-- A further exact rotation of the rotated matrix. -/
theorem Bk.rotate {u K L M A B C D cs sn a b c d cs1 sn1 a' b' c' d' : ℝ} (h : Bk u K L M A B C D cs sn a b c d)
    (h' : Rotated a b c d cs1 sn1 a' b' c' d') :
    Bk u K (2 * L) M A B C D (cs * cs1 - sn * sn1) (cs * sn1 + sn * cs1) a' b' c' d' := by
  obtain ⟨x, y, e1, e2, e3, e4, h1, h2, h3, h4, h5, h6, h7⟩ := h
  obtain ⟨u1, u2, -, -⟩ := unit_le h'.unit
  have p : ∀ {f g : ℝ}, |f| ≤ L * u → |g| ≤ 1 → |f * g| ≤ L * u := by
    intro f g h h'
    rw [abs_mul]
    calc _ ≤ L * u * 1 := mul_le_mul h h' (abs_nonneg _) ((abs_nonneg _).trans h)
      _ = _ := mul_one _
  refine ⟨x * cs1 - y * sn1, x * sn1 + y * cs1, e1, e2, e3, e4, ?_, ?_, h3, h4, h5, h6, h7.trans h'⟩
  · rw [show cs * cs1 - sn * sn1 - (x * cs1 - y * sn1) = (cs - x) * cs1 - (sn - y) * sn1 by ring]
    have := abs_sub ((cs - x) * cs1) ((sn - y) * sn1)
    linarith [p h1 u1, p h2 u2]
  · rw [show cs * sn1 + sn * cs1 - (x * sn1 + y * cs1) = (cs - x) * sn1 + (sn - y) * cs1 by ring]
    have := abs_add_le ((cs - x) * sn1) ((sn - y) * cs1)
    linarith [p h1 u2, p h2 u1]

/-! ### Real eigenvalues -/

/-- The computed root `z` of `z² - 2 P z - b c`. -/
theorem root_alg {bc P w z t σ u N M : ℝ} (hσ : σ = 1 ∨ σ = -1) (hP : σ * P = |P|) (hw : 0 ≤ w) (hN : N = P ^ 2 + |bc|)
    (hu : 0 < u) (hu1 : u ≤ 1 / 1000000000000000) (hN0 : 0 < N) (hw2 : |w ^ 2 - (P ^ 2 + bc)| ≤ 30 * u * N) (hz : z = (P + σ * w) * t)
    (ht : |t - 1| ≤ u) (hM0 : 0 ≤ M) (hM : |P| ≤ M) (hM2 : |bc| ≤ M ^ 2) :
    N ≤ 3 * z ^ 2 ∧ |z ^ 2 - 2 * P * z - bc| ≤ 100 * u * z ^ 2 ∧ |z| ≤ 3 * M ∧ |P| ≤ 2 * |z| := by
  set y := P + σ * w with hy
  have hy2 : y ^ 2 = (|P| + w) ^ 2 := by
    have e : σ * y = |P| + w := by
      rw [hy, mul_add, hP]; rcases hσ with rfl | rfl <;> ring
    rw [← e]; rcases hσ with rfl | rfl <;> ring
  have hya : |y| = |P| + w := by
    rw [← Real.sqrt_sq_eq_abs, hy2, Real.sqrt_sq (by positivity)]
  have hP2 := sq_abs P
  have pw : 0 ≤ |P| * w := by positivity
  have ht' := abs_le.1 ht
  have hw' := abs_le.1 hw2
  have uN : 30 * u * N ≤ 1 / 100 * N := mul_le_mul_of_nonneg_right (by linarith) hN0.le
  have hNy : N ≤ 21 / 10 * y ^ 2 := by
    rcases le_total 0 bc with h | h
    · rw [abs_of_nonneg h] at hN; nlinarith
    · rw [abs_of_nonpos h] at hN; nlinarith [sq_nonneg w]
  have hzy : 99 / 100 * y ^ 2 ≤ z ^ 2 := by
    rw [hz]
    have : 99 / 100 ≤ t ^ 2 := by nlinarith
    nlinarith [sq_nonneg y]
  have hz3 : N ≤ 3 * z ^ 2 := by linarith
  have hzabs : |z| ≤ 101 / 100 * |y| := by
    rw [hz, abs_mul, mul_comm]
    refine mul_le_mul_of_nonneg_right ?_ (abs_nonneg _)
    rw [abs_le]; constructor <;> linarith
  have hzabs' : 99 / 100 * |y| ≤ |z| := by
    rw [hz, abs_mul, mul_comm]
    refine mul_le_mul_of_nonneg_left ?_ (abs_nonneg _)
    rw [abs_of_nonneg (by linarith)]; linarith
  refine ⟨hz3, ?_, ?_, ?_⟩
  · have e : z ^ 2 - 2 * P * z - bc = (w ^ 2 - (P ^ 2 + bc)) + y ^ 2 * ((t - 1) * (t + 1)) - 2 * (P * y) * (t - 1) := by
      rw [hz]
      have : y ^ 2 - 2 * P * y = w ^ 2 - P ^ 2 := by
        rw [hy]; rcases hσ with rfl | rfl <;> ring
      linear_combination this
    rw [e]
    have a1 : |y ^ 2 * ((t - 1) * (t + 1))| ≤ y ^ 2 * (3 * u) := by
      rw [abs_mul, abs_of_nonneg (sq_nonneg y), abs_mul]
      refine mul_le_mul_of_nonneg_left ?_ (sq_nonneg _)
      rw [mul_comm 3]
      refine mul_le_mul ht ?_ (abs_nonneg _) hu.le
      rw [abs_le]; constructor <;> linarith
    have a2 : |2 * (P * y) * (t - 1)| ≤ 2 * y ^ 2 * u := by
      rw [abs_mul, abs_mul, abs_mul, abs_two]
      refine mul_le_mul ?_ ht (abs_nonneg _) (by positivity)
      have : |P| * |y| ≤ |y| * |y| := mul_le_mul_of_nonneg_right (by linarith) (abs_nonneg _)
      have := sq_abs y
      nlinarith
    have := abs_sub (w ^ 2 - (P ^ 2 + bc) + y ^ 2 * ((t - 1) * (t + 1))) (2 * (P * y) * (t - 1))
    have := abs_add_le (w ^ 2 - (P ^ 2 + bc)) (y ^ 2 * ((t - 1) * (t + 1)))
    have uz : u * N ≤ u * (3 * z ^ 2) := mul_le_mul_of_nonneg_left hz3 hu.le
    have uy : u * (99 / 100 * y ^ 2) ≤ u * z ^ 2 := mul_le_mul_of_nonneg_left hzy hu.le
    linarith
  · have : N ≤ 2 * M ^ 2 := by
      rw [hN]
      have : P ^ 2 ≤ M ^ 2 := by rw [← hP2]; exact pow_le_pow_left₀ (abs_nonneg _) hM 2
      linarith
    have bcN : P ^ 2 + bc ≤ N := by rw [hN]; linarith [le_abs_self bc]
    have hwM : w ≤ 3 / 2 * M := by
      refine le_of_sq_le_sq ?_ (by positivity)
      nlinarith
    linarith
  · linarith [abs_nonneg P]
where le_of_sq_le_sq {a b : ℝ} (h : a ^ 2 ≤ b ^ 2) (hb : 0 ≤ b) : a ≤ b := abs_le_of_sq_le_sq' h hb |>.2

/-- The rotation by the computed root. -/
theorem real_rot {b c d P z τ : ℝ} (hz : z ≠ 0) (hτ : τ ≠ 0) (hτ2 : τ ^ 2 = z ^ 2 + c ^ 2) :
    Rotated (d + 2 * P) b c d (z / τ) (c / τ) (d + z - z * (z ^ 2 - 2 * P * z - b * c) / τ ^ 2)
      (b - c + c * (z ^ 2 - 2 * P * z - b * c) / τ ^ 2) (c * (z ^ 2 - 2 * P * z - b * c) / τ ^ 2)
      (d - b * c / z - (z ^ 2 - 2 * P * z - b * c) / z + z * (z ^ 2 - 2 * P * z - b * c) / τ ^ 2) := by
  have hu : (z / τ) ^ 2 + (c / τ) ^ 2 = 1 := by
    rw [div_pow, div_pow, ← add_div, ← hτ2, div_self (pow_ne_zero 2 hτ)]
  have h := rotated_of (A := d + 2 * P) (B := b) (C := c) (D := d) hu
  have hτ3 : c ^ 2 = τ ^ 2 - z ^ 2 := by linarith
  convert h using 1
  · field_simp
    linear_combination (d + z) * hτ2
  · field_simp
    linear_combination (b - c) * hτ2
  · field_simp
    ring
  · field_simp
    linear_combination (z * (d + 2 * P) - z ^ 2) * hτ2

end Verif
