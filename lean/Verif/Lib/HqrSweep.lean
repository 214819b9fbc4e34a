import Verif.Lib.HqrStep
import Mathlib.Tactic.Positivity

/-!
# One sweep of `dlahqr` in exact arithmetic
-/

namespace Verif
open Scalar Spec XR

section sweep
variable {p : HqrP XR} {r c rz cz : Nat} {l i : ℤ} {g : ℤ → ℤ → XR} {T : ℤ → ℤ → ℝ} {u : ℝ}

/-- The entries of the active block are those of `T`. -/
def Active (l i : ℤ) (g : ℤ → ℤ → XR) (T : ℤ → ℤ → ℝ) : Prop :=
  ∀ a b, l ≤ a → a ≤ i → l ≤ b → b ≤ i → g a b = fin (T a b)

theorem Active.get (hd : Dim p r c rz cz) (hlo : p.ilo ≤ l) (hhi : i ≤ p.ihi) {h : FA XR} (hh : Is2 h r c (r * c) g)
    (ha : Active l i g T) {a b : ℤ} (a1 : l ≤ a) (a2 : a ≤ i) (b1 : l ≤ b) (b2 : b ≤ i) : h.get2 a b = pure (fin (T a b)) := by
  rw [get2_is2 hh (hd.cell (by omega) (by omega) (by omega) (by omega)) hd.size, ha a b a1 a2 b1 b2]

theorem shiftMat_ok (hd : Dim p r c rz cz) (hlo : p.ilo ≤ l) (hhi : i ≤ p.ihi) (hli : l + 2 ≤ i) {h : FA XR} (hh : Is2 h r c (r * c) g)
    (ha : Active l i g T) (kdefl : Int) : ∃ x11 x12 x21 x22 : ℝ, hqrShiftMat h kdefl i l = pure (fin x11, fin x12, fin x21, fin x22) := by
  unfold hqrShiftMat
  have get : ∀ a b, l ≤ a → a ≤ i → l ≤ b → b ≤ i → h.get2 a b = pure (fin (T a b)) := fun a b => ha.get hd hlo hhi hh
  by_cases h1 : kdefl.tmod 20 = 0
  · simp only [if_pos h1]
    rw [get _ _ (by omega) (by omega) (by omega) (by omega), get _ _ (by omega) (by omega) (by omega) (by omega),
      get _ _ (by omega) (by omega) (by omega) (by omega)]
    simp only [pure_bind, fin_abs, fin_add, ofInt_eq, lit_eq]
    rw [fin_div _ _ (by norm_num)]
    exact ⟨_, _, _, _, rfl⟩
  · simp only [if_neg h1]
    by_cases h2 : kdefl.tmod 10 = 0
    · simp only [if_pos h2]
      rw [get _ _ (by omega) (by omega) (by omega) (by omega), get _ _ (by omega) (by omega) (by omega) (by omega),
        get _ _ (by omega) (by omega) (by omega) (by omega)]
      simp only [pure_bind, fin_abs, fin_add, ofInt_eq, lit_eq]
      rw [fin_div _ _ (by norm_num)]
      exact ⟨_, _, _, _, rfl⟩
    · simp only [if_neg h2]
      rw [get _ _ (by omega) (by omega) (by omega) (by omega), get _ _ (by omega) (by omega) (by omega) (by omega),
        get _ _ (by omega) (by omega) (by omega) (by omega), get _ _ (by omega) (by omega) (by omega) (by omega)]
      simp only [pure_bind]
      exact ⟨_, _, _, _, rfl⟩

theorem shifts_ok (x11 x12 x21 x22 : ℝ) :
    ∃ a b c d : ℝ, hqrShifts (fin x11) (fin x12) (fin x21) (fin x22) = (fin a, fin b, fin c, fin d) := by
  unfold hqrShifts
  simp only [fin_abs, fin_add, ofInt_eq, fin_beq, Int.cast_zero]
  by_cases h : |x11| + |x12| + |x21| + |x22| = 0
  · simp only [h, decide_true, if_true]
    exact ⟨_, _, _, _, rfl⟩
  · simp only [h, decide_false, Bool.false_eq_true, if_false]
    simp only [fin_div _ _ h, fin_add, fin_sub, fin_mul, fin_neg, fin_abs]
    simp only [fin_div _ ((2 : Int) : ℝ) (by norm_num), fin_add, fin_sub, fin_mul, fin_neg, fin_abs, fin_sqrt _ (abs_nonneg _),
      fin_le]
    split
    · exact ⟨_, _, _, _, rfl⟩
    · split
      · exact ⟨_, _, _, _, rfl⟩
      · exact ⟨_, _, _, _, rfl⟩

/-- The shifts are the eigenvalues of the 2-by-2 matrix: both if they are not real or equal, otherwise twice the one nearer to the last
diagonal element. -/
theorem shifts_exact (x11 x12 x21 x22 : ℝ) :
    ∃ a b c d : ℝ, hqrShifts (fin x11) (fin x12) (fin x21) (fin x22) = (fin a, fin b, fin c, fin d) ∧
      ((x11 - x22) ^ 2 + 4 * (x12 * x21) ≤ 0 → a + c = x11 + x22 ∧ a * c - b * d = x11 * x22 - x12 * x21 ∧ c = a ∧ d = -b) ∧
      (0 < (x11 - x22) ^ 2 + 4 * (x12 * x21) → b = 0 ∧ d = 0 ∧ c = a ∧ (x11 - a) * (x22 - a) = x12 * x21 ∧ |a - x22| ≤ |x11 + x22 - a - x22|) := by
  unfold hqrShifts
  simp only [fin_abs, fin_add, ofInt_eq, fin_beq, Int.cast_zero]
  by_cases h : |x11| + |x12| + |x21| + |x22| = 0
  · simp only [h, decide_true, if_true]
    have n1 := abs_nonneg x11; have n2 := abs_nonneg x12; have n3 := abs_nonneg x21; have n4 := abs_nonneg x22
    have z1 : x11 = 0 := abs_eq_zero.1 (by linarith)
    have z2 : x12 = 0 := abs_eq_zero.1 (by linarith)
    have z3 : x21 = 0 := abs_eq_zero.1 (by linarith)
    have z4 : x22 = 0 := abs_eq_zero.1 (by linarith)
    subst z1 z2 z3 z4
    exact ⟨_, _, _, _, rfl, fun _ => by norm_num, fun h => absurd h (by norm_num)⟩
  · have hs : 0 < |x11| + |x12| + |x21| + |x22| := lt_of_le_of_ne (by positivity) (Ne.symm h)
    simp only [h, decide_false, Bool.false_eq_true, if_false]
    simp only [fin_div _ _ h, fin_add, fin_sub, fin_mul, fin_neg, fin_abs]
    simp only [fin_div _ ((2 : Int) : ℝ) (by norm_num), fin_add, fin_sub, fin_mul, fin_neg, fin_abs, fin_sqrt _ (abs_nonneg _),
      fin_le]
    generalize |x11| + |x12| + |x21| + |x22| = s at *
    simp only [Int.cast_ofNat, decide_eq_true_eq]
    have hdet : (x11 / s - (x11 / s + x22 / s) / 2) * (x22 / s - (x11 / s + x22 / s) / 2) - x12 / s * (x21 / s) =
        -(((x11 - x22) ^ 2 + 4 * (x12 * x21)) / (4 * s ^ 2)) := by field_simp; ring
    rw [hdet]
    have hD : ∀ D : ℝ, 0 ≤ D / (4 * s ^ 2) ↔ 0 ≤ D := fun D => by
      rw [le_div_iff₀ (by positivity), zero_mul]
    split
    · rename_i h0
      have h0' : (x11 - x22) ^ 2 + 4 * (x12 * x21) ≤ 0 := by
        have := (hD (-((x11 - x22) ^ 2 + 4 * (x12 * x21)))).1 (by rw [neg_div]; exact h0)
        linarith
      refine ⟨_, _, _, _, rfl, fun _ => ⟨?_, ?_, rfl, rfl⟩, fun h => absurd h (by linarith)⟩
      · field_simp; ring
      · have hq := Real.sq_sqrt (abs_nonneg (-(((x11 - x22) ^ 2 + 4 * (x12 * x21)) / (4 * s ^ 2))))
        generalize Real.sqrt |-(((x11 - x22) ^ 2 + 4 * (x12 * x21)) / (4 * s ^ 2))| = q at *
        rw [abs_of_nonneg h0] at hq
        have hq' : (q * s) ^ 2 = -((x11 - x22) ^ 2 + 4 * (x12 * x21)) / 4 := by
          rw [mul_pow, hq]; field_simp
        have ha : (x11 / s + x22 / s) / 2 * s = (x11 + x22) / 2 := by field_simp
        rw [ha]
        linear_combination hq'
    · rename_i h0
      have h0' : 0 < (x11 - x22) ^ 2 + 4 * (x12 * x21) := by
        by_contra hc
        apply h0
        have := (hD (-((x11 - x22) ^ 2 + 4 * (x12 * x21)))).2 (by linarith)
        rwa [neg_div] at this
      have hq := Real.sq_sqrt (abs_nonneg (-(((x11 - x22) ^ 2 + 4 * (x12 * x21)) / (4 * s ^ 2))))
      generalize Real.sqrt |-(((x11 - x22) ^ 2 + 4 * (x12 * x21)) / (4 * s ^ 2))| = q at *
      rw [abs_neg, abs_of_nonneg (by positivity)] at hq
      have hq' : (q * s) ^ 2 = ((x11 - x22) ^ 2 + 4 * (x12 * x21)) / 4 := by
        rw [mul_pow, hq]; field_simp
      have e1 : ((x11 / s + x22 / s) / 2 + q) * s = (x11 + x22) / 2 + q * s := by field_simp
      have e2 : ((x11 / s + x22 / s) / 2 - q) * s = (x11 + x22) / 2 - q * s := by field_simp
      have c1 : |(x11 / s + x22 / s) / 2 + q - x22 / s| * s = |(x11 + x22) / 2 + q * s - x22| := by
        rw [← abs_of_pos hs, ← abs_mul, abs_of_pos hs]; congr 1; field_simp
      have c2 : |(x11 / s + x22 / s) / 2 - q - x22 / s| * s = |(x11 + x22) / 2 - q * s - x22| := by
        rw [← abs_of_pos hs, ← abs_mul, abs_of_pos hs]; congr 1; field_simp
      split
      · rename_i hle
        refine ⟨_, _, _, _, rfl, fun h => absurd h (by linarith), fun _ => ⟨rfl, rfl, rfl, ?_, ?_⟩⟩
        · rw [e1]; linear_combination hq'
        · rw [e1, ← c1, show x11 + x22 - ((x11 + x22) / 2 + q * s) - x22 = (x11 + x22) / 2 - q * s - x22 by ring, ← c2]
          exact mul_le_mul_of_nonneg_right hle hs.le
      · rename_i hle
        refine ⟨_, _, _, _, rfl, fun h => absurd h (by linarith), fun _ => ⟨rfl, rfl, rfl, ?_, ?_⟩⟩
        · rw [e2]; linear_combination hq'
        · rw [e2, ← c2, show x11 + x22 - ((x11 + x22) / 2 - q * s) - x22 = (x11 + x22) / 2 + q * s - x22 by ring, ← c1]
          exact mul_le_mul_of_nonneg_right (le_of_lt (not_le.1 hle)) hs.le

theorem Work.set1 {v : FA XR} {a b c : ℝ} (h : Work v a b c) (x : ℝ) :
    Work (v.set1 1 (fin x)) x b c ∧ Work (v.set1 2 (fin x)) a x c ∧ Work (v.set1 3 (fin x)) a b x := by
  have sh := fun i => set1_shape v i (fin x)
  refine ⟨⟨?_, ?_, ?_⟩, ⟨?_, ?_, ?_⟩, ⟨?_, ?_, ?_⟩⟩
  · unfold FA.set1 FA.modify1; rw [h.data]; rfl
  · rw [← (sh 1).1]; exact h.rows
  · rw [← (sh 1).2.1]; exact h.cols
  · unfold FA.set1 FA.modify1; rw [h.data]; rfl
  · rw [← (sh 2).1]; exact h.rows
  · rw [← (sh 2).2.1]; exact h.cols
  · unfold FA.set1 FA.modify1; rw [h.data]; rfl
  · rw [← (sh 3).1]; exact h.rows
  · rw [← (sh 3).2.1]; exact h.cols

theorem Work.g1 {v : FA XR} {a b c : ℝ} (h : Work v a b c) : v.get1 1 = fin a := h.get1.1
theorem Work.g2 {v : FA XR} {a b c : ℝ} (h : Work v a b c) : v.get1 2 = fin b := h.get1.2.1
theorem Work.g3 {v : FA XR} {a b c : ℝ} (h : Work v a b c) : v.get1 3 = fin c := h.get1.2.2

/-- `(x, y, w)` is a positive multiple of the first three elements of `(T - s1) (T - s2) e_m`, where `s1 = a + b i` and `s2 = c + d i`,
`b d` being real. -/
def StartVec (T : ℤ → ℤ → ℝ) (a b c d : ℝ) (m : ℤ) (x y w : ℝ) : Prop :=
  ∃ κ : ℝ, 0 < κ ∧ x = κ * (T (m + 1) m * T m (m + 1) + (T m m - a) * (T m m - c) - b * d) ∧
    y = κ * (T (m + 1) m * (T m m + T (m + 1) (m + 1) - a - c)) ∧ w = κ * (T (m + 1) m * T (m + 2) (m + 1))

theorem startVec_ok (hd : Dim p r c rz cz) (hlo : p.ilo ≤ l) (hhi : i ≤ p.ihi) {h : FA XR} (hh : Is2 h r c (r * c) g)
    (ha : Active l i g T) (hT : ∀ j, l < j → j ≤ i → T j (j - 1) ≠ 0) (a b c' d : ℝ) {m : ℤ} (hlm : l ≤ m) (hmi : m + 2 ≤ i)
    {v : FA XR} {x0 y0 w0 : ℝ} (hv : Work v x0 y0 w0) :
    ∃ v', hqrStartVec h (fin a) (fin b) (fin c') (fin d) m v = pure v' ∧
      ∃ x y w, Work v' x y w ∧ |x| ≤ 1 ∧ |y| ≤ 1 ∧ |w| ≤ 1 ∧ w ≠ 0 ∧ StartVec T a b c' d m x y w := by
  have get : ∀ a b, l ≤ a → a ≤ i → l ≤ b → b ≤ i → h.get2 a b = pure (fin (T a b)) := fun a b => ha.get hd hlo hhi hh
  unfold hqrStartVec
  rw [get _ _ (by omega) (by omega) (by omega) (by omega), get _ _ (by omega) (by omega) (by omega) (by omega),
    get _ _ (by omega) (by omega) (by omega) (by omega), get _ _ (by omega) (by omega) (by omega) (by omega),
    get _ _ (by omega) (by omega) (by omega) (by omega)]
  simp only [pure_bind]
  have t1 : T (m + 1) m ≠ 0 := by have := hT (m + 1) (by omega) (by omega); rwa [show m + 1 - 1 = m by ring] at this
  have t2 : T (m + 2) (m + 1) ≠ 0 := by have := hT (m + 2) (by omega) (by omega); rwa [show m + 2 - 1 = m + 1 by ring] at this
  have hs : |T m m - c'| + |d| + |T (m + 1) m| ≠ 0 := by
    have := abs_pos.2 t1
    positivity
  simp only [fin_sub, fin_abs, fin_add, fin_div _ _ hs, fin_mul]
  obtain ⟨X, hX⟩ : ∃ X, T (m + 1) m / (|T m m - c'| + |d| + |T (m + 1) m|) * T m (m + 1) +
      (T m m - a) * ((T m m - c') / (|T m m - c'| + |d| + |T (m + 1) m|)) - b * (d / (|T m m - c'| + |d| + |T (m + 1) m|)) = X := ⟨_, rfl⟩
  obtain ⟨Y, hY⟩ : ∃ Y, T (m + 1) m / (|T m m - c'| + |d| + |T (m + 1) m|) * (T m m + T (m + 1) (m + 1) - a - c') = Y := ⟨_, rfl⟩
  obtain ⟨W, hW⟩ : ∃ W, T (m + 1) m / (|T m m - c'| + |d| + |T (m + 1) m|) * T (m + 2) (m + 1) = W := ⟨_, rfl⟩
  rw [hX, hY, hW]
  have hW0 : W ≠ 0 := by rw [← hW]; exact mul_ne_zero (div_ne_zero t1 hs) t2
  have v1 := (hv.set1 X).1
  have v2 := (v1.set1 Y).2.1
  have v3 := (v2.set1 W).2.2
  rw [v3.g1, v3.g2, v3.g3]
  simp only [fin_abs, fin_add]
  have hs2 : 0 < |X| + |Y| + |W| := by have := abs_pos.2 hW0; positivity
  rw [fin_div _ _ hs2.ne']
  have v4 := (v3.set1 (X / (|X| + |Y| + |W|))).1
  rw [v4.g2, fin_div _ _ hs2.ne']
  have v5 := (v4.set1 (Y / (|X| + |Y| + |W|))).2.1
  rw [v5.g3, fin_div _ _ hs2.ne']
  have v6 := (v5.set1 (W / (|X| + |Y| + |W|))).2.2
  have hle : ∀ q, |q| ≤ |X| + |Y| + |W| → |q / (|X| + |Y| + |W|)| ≤ 1 := by
    intro q hq
    rw [abs_div, abs_of_pos hs2, div_le_one hs2]
    exact hq
  have p1 := abs_nonneg X; have p2 := abs_nonneg Y; have p3 := abs_nonneg W
  have hs1 : 0 < |T m m - c'| + |d| + |T (m + 1) m| := by have := abs_pos.2 t1; positivity
  refine ⟨_, rfl, _, _, _, v6, hle _ (by linarith), hle _ (by linarith), hle _ (by linarith), div_ne_zero hW0 hs2.ne',
    1 / ((|T m m - c'| + |d| + |T (m + 1) m|) * (|X| + |Y| + |W|)), by positivity, ?_, ?_, ?_⟩
  · generalize |X| + |Y| + |W| = q at *
    rw [← hX]
    generalize |T m m - c'| + |d| + |T (m + 1) m| = q' at *
    field_simp
  · generalize |X| + |Y| + |W| = q at *
    rw [← hY]
    generalize |T m m - c'| + |d| + |T (m + 1) m| = q' at *
    field_simp
  · generalize |X| + |Y| + |W| = q at *
    rw [← hW]
    generalize |T m m - c'| + |d| + |T (m + 1) m| = q' at *
    field_simp

/-- The row the sweep starts at and its start vector. -/
theorem start_ok (hd : Dim p r c rz cz) (hu : p.ulp = fin u) (hlo : p.ilo ≤ l) (hhi : i ≤ p.ihi) {h : FA XR} (hh : Is2 h r c (r * c) g)
    (ha : Active l i g T) (hT : ∀ j, l < j → j ≤ i → T j (j - 1) ≠ 0) (a b c' d : ℝ) {cm : ℤ} (hlm : l ≤ cm) (hmi : cm + 2 ≤ i)
    {v : FA XR} {x0 y0 w0 : ℝ} (hv : Work v x0 y0 w0) (m0 : ℤ) :
    ∃ m v', hqrStart p h (fin a) (fin b) (fin c') (fin d) l (irange l cm).reverse v m0 = pure (m, v') ∧ l ≤ m ∧ m ≤ cm ∧
      ∃ x y w, Work v' x y w ∧ |x| ≤ 1 ∧ |y| ≤ 1 ∧ |w| ≤ 1 ∧ w ≠ 0 ∧ StartVec T a b c' d m x y w ∧
        (l < m → |T m (m - 1)| * (|y| + |w|) ≤ u * |x| * (|T (m - 1) (m - 1)| + |T m m| + |T (m + 1) (m + 1)|)) := by
  obtain ⟨n, hn⟩ : ∃ n : Nat, l + n = cm := ⟨(cm - l).toNat, by omega⟩
  have get : ∀ a b, l ≤ a → a ≤ i → l ≤ b → b ≤ i → h.get2 a b = pure (fin (T a b)) := fun a b => ha.get hd hlo hhi hh
  induction n generalizing cm v x0 y0 w0 m0 with
  | zero =>
    have : cm = l := by omega
    subst this
    rw [irange_snoc (le_refl _), irange_empty (by omega)]
    obtain ⟨v', e, x, y, w, h1, h2, h3, h4, h5, h6⟩ := startVec_ok hd hlo hhi hh ha hT a b c' d hlm hmi hv
    refine ⟨cm, v', ?_, le_refl _, le_refl _, x, y, w, h1, h2, h3, h4, h5, h6, fun h => absurd h (lt_irrefl _)⟩
    simp only [List.nil_append, List.reverse_cons, List.reverse_nil, hqrStart]
    rw [e, pure_bind, if_pos True.intro]
  | succ n ih =>
    rw [irange_snoc hlm, List.reverse_append]
    obtain ⟨v', e, x, y, w, h1, h2, h3, h4, h5, h6⟩ := startVec_ok hd hlo hhi hh ha hT a b c' d hlm hmi hv
    simp only [List.reverse_cons, List.reverse_nil, List.nil_append, List.cons_append, hqrStart]
    rw [e, pure_bind, if_neg (by omega), get _ _ (by omega) (by omega) (by omega) (by omega)]
    simp only [pure_bind]
    rw [get _ _ (by omega) (by omega) (by omega) (by omega), pure_bind, get _ _ (by omega) (by omega) (by omega) (by omega), pure_bind,
      get _ _ (by omega) (by omega) (by omega) (by omega), pure_bind]
    rw [h1.g1, h1.g2, h1.g3, hu]
    simp only [fin_abs, fin_add, fin_mul, fin_le, decide_eq_true_eq]
    split
    · rename_i hle
      exact ⟨cm, v', rfl, hlm, le_refl _, x, y, w, h1, h2, h3, h4, h5, h6, fun _ => hle⟩
    · obtain ⟨m, v'', e', k1, k2, k3⟩ := ih (cm := cm - 1) (by omega) (by omega) h1 cm (by omega)
      exact ⟨m, v'', e', k1, by omega, k3⟩

/-! ### Between sweeps -/

/-- The array `g` stands for `T`: on and below the diagonal always, above the diagonal wherever no subdiagonal element in between is zero. -/
structure Rel (lo hi : ℤ) (g : ℤ → ℤ → XR) (T : ℤ → ℤ → ℝ) : Prop where
  low : ∀ a b, lo ≤ b → b ≤ a → a ≤ hi → g a b = fin (T a b)
  up : ∀ a b, lo ≤ a → a < b → b ≤ hi → (∀ d, a < d → d ≤ b → T d (d - 1) ≠ 0) → g a b = fin (T a b)
  hess : ∀ a b, lo ≤ b → b + 1 < a → a ≤ hi → T a b = 0

theorem Rel.active {lo hi : ℤ} (h : Rel lo hi g T) (hlo : lo ≤ l) (hhi : i ≤ hi) (hT : ∀ j, l < j → j ≤ i → T j (j - 1) ≠ 0) :
    Active l i g T := by
  intro a b a1 a2 b1 b2
  by_cases hab : b ≤ a
  · exact h.low a b (by omega) hab (by omega)
  · exact h.up a b (by omega) (by omega) (by omega) fun d d1 d2 => hT d (by omega) (by omega)

/-- Back from the window to the whole block. -/
theorem rel_of_win {lo hi : ℤ} {g' : ℤ → ℤ → XR} {T' : ℤ → ℤ → ℝ} (h : Rel lo hi g T) (hlo : lo ≤ l) (hli : l ≤ i) (hhi : i ≤ hi)
    (win : ∀ a b, l ≤ a → a ≤ i → l ≤ b → b ≤ i → g' a b = fin (T' a b))
    (outg : ∀ a b, ¬ (l ≤ a ∧ a ≤ i ∧ l ≤ b ∧ b ≤ i) → (b ≤ i ∨ i < a) → g' a b = g a b)
    (outT : ∀ a b, ¬ (l ≤ a ∧ a ≤ i) → ¬ (l ≤ b ∧ b ≤ i) → T' a b = T a b)
    (dec1 : ∀ a b, l ≤ a → a ≤ hi → lo ≤ b → b < l → T' a b = 0)
    (dec2 : ∀ a b, i < a → a ≤ hi → lo ≤ b → b ≤ i → T' a b = 0)
    (hess : ∀ a b, l ≤ b → b + 1 < a → a ≤ i → T' a b = 0)
    (d1 : ∀ a b, l ≤ a → a ≤ hi → lo ≤ b → b < l → T a b = 0)
    (d2 : ∀ a b, i < a → a ≤ hi → lo ≤ b → b ≤ i → T a b = 0) : Rel lo hi g' T' := by
  refine ⟨?_, ?_, ?_⟩
  · intro a b b1 hba a2
    by_cases hw : l ≤ a ∧ a ≤ i ∧ l ≤ b ∧ b ≤ i
    · exact win a b hw.1 hw.2.1 hw.2.2.1 hw.2.2.2
    · rw [outg a b hw (by omega), h.low a b b1 hba a2]
      by_cases c1 : i < a ∧ b ≤ i
      · rw [dec2 a b c1.1 a2 b1 c1.2, d2 a b c1.1 a2 b1 c1.2]
      · by_cases c2 : l ≤ a ∧ b < l
        · rw [dec1 a b c2.1 a2 b1 c2.2, d1 a b c2.1 a2 b1 c2.2]
        · rw [outT a b (by omega) (by omega)]
  · intro a b a1 hab b2 hnz
    have n1 : ¬ (a < l ∧ l ≤ b) := fun ⟨c1, c2⟩ => hnz l c1 c2 (dec1 l (l - 1) (le_refl _) (by omega) (by omega) (by omega))
    have n2 : ¬ (a ≤ i ∧ i < b) := fun ⟨c1, c2⟩ => hnz (i + 1) (by omega) (by omega) (by
      rw [show i + 1 - 1 = i by ring]; exact dec2 (i + 1) i (by omega) (by omega) (by omega) (le_refl _))
    by_cases hw : l ≤ a ∧ a ≤ i ∧ l ≤ b ∧ b ≤ i
    · exact win a b hw.1 hw.2.1 hw.2.2.1 hw.2.2.2
    · rw [outg a b hw (by omega), outT a b (by omega) (by omega)]
      refine h.up a b a1 hab b2 fun d c1 c2 => ?_
      rw [← outT d (d - 1) (by omega) (by omega)]
      exact hnz d c1 c2
  · intro a b b1 hba a2
    by_cases c1 : i < a ∧ b ≤ i
    · exact dec2 a b c1.1 a2 b1 c1.2
    · by_cases c2 : l ≤ a ∧ b < l
      · exact dec1 a b c2.1 a2 b1 c2.2
      · by_cases hw : l ≤ a ∧ a ≤ i ∧ l ≤ b ∧ b ≤ i
        · exact hess a b hw.2.2.1 hba hw.2.1
        · rw [outT a b (by omega) (by omega)]
          exact h.hess a b b1 hba a2

/-- What is known inside `'loop_140` for the active end `i`; `T0` is the matrix at the start of the loop. -/
structure Inn (p : HqrP XR) (r c rz cz : Nat) (A : Matrix (Blk p.ilo p.ihi) (Blk p.ilo p.ihi) ℝ) (Z0 : ℤ → ℤ → ℝ) (zg0 : ℤ → ℤ → XR)
    (B δ : ℝ) (i : ℤ) (T0 : ℤ → ℤ → ℝ) (h z v : FA XR) (l : ℤ) (T : ℤ → ℤ → ℝ) : Prop where
  ex : ∃ g, Is2 h r c (r * c) g ∧ Rel p.ilo p.ihi g T
  good : ∃ Zq, Track p.ilo p.ihi A Z0 B δ T Zq ∧ ZOK p rz cz zg0 z Zq
  work : ∃ x y w, Work v x y w
  lo : p.ilo ≤ l
  top : p.ilo < l → T l (l - 1) = 0
  bot : i < p.ihi → T (i + 1) i = 0
  same : ∀ a b, i < a → i < b → T a b = T0 a b

/-- The entries of a Hessenberg matrix across a zero subdiagonal element. -/
theorem Rel.cross {lo hi : ℤ} (h : Rel lo hi g T) {d : ℤ} (hz : lo < d → T d (d - 1) = 0) {a b : ℤ} (hd : d ≤ a) (ha : a ≤ hi)
    (hb : lo ≤ b) (hbd : b < d) : T a b = 0 := by
  by_cases hab : b + 1 < a
  · exact h.hess a b hb hab ha
  · have e1 : a = d := by omega
    have e2 : b = d - 1 := by omega
    rw [e1, e2]
    exact hz (by omega)

/-- A sweep. -/
theorem sweep_ok (hd : Dim p r c rz cz) {A : Matrix (Blk p.ilo p.ihi) (Blk p.ilo p.ihi) ℝ} {Z0 : ℤ → ℤ → ℝ} {zg0 : ℤ → ℤ → XR}
    {B δ : ℝ} (hB0 : 0 ≤ B) (hB : B ≤ 2 ^ 500) (hu : p.ulp = fin u) (hu0 : 0 ≤ u) {T0 : ℤ → ℤ → ℝ} {s : HqrS XR} (hli : s.l + 2 ≤ i) (hhi : i ≤ p.ihi)
    (hs : Inn p r c rz cz A Z0 zg0 B δ i T0 s.h s.z s.v s.l T) (hT : ∀ j, s.l < j → j ≤ i → T j (j - 1) ≠ 0) :
    Tot (hqrSweep p i s) fun s' => s'.l = s.l ∧ s'.k = s.k ∧
      ∃ T', Inn p r c rz cz A Z0 zg0 B (δ + 3 * u * B) i T0 s'.h s'.z s'.v s'.l T' := by
  obtain ⟨⟨g, hh, hR⟩, ⟨Zq, hG, hZ⟩, ⟨x0, y0, w0, hv⟩, hlo, htop, hbot, hsame⟩ := hs
  have ha : Active s.l i g T := hR.active hlo hhi hT
  unfold hqrSweep
  obtain ⟨x11, x12, x21, x22, e1⟩ := shiftMat_ok hd hlo hhi hli hh ha (s.kdefl + 1)
  obtain ⟨q1, q2, q3, q4, e2⟩ := shifts_ok x11 x12 x21 x22
  obtain ⟨m, v', e3, m1, m2, x, y, w, hw, x1, y1, w1, w0', -, hst⟩ := start_ok hd hu hlo hhi hh ha hT q1 q2 q3 q4 (cm := i - 2) (by omega)
    (by omega) hv s.m
  simp only [hd.wantt, if_true]
  rw [e1, pure_bind]
  simp only
  rw [e2]
  simp only
  rw [e3, pure_bind]
  simp only
  have one_le : (1 : ℝ) ≤ 2 ^ 500 := one_le_pow₀ (by norm_num)
  have d1 : ∀ a b, s.l ≤ a → a ≤ p.ihi → p.ilo ≤ b → b < s.l → T a b = 0 := fun a b a1 a2 b1 b2 => hR.cross htop a1 a2 b1 b2
  have d2 : ∀ a b, i < a → a ≤ p.ihi → p.ilo ≤ b → b ≤ i → T a b = 0 := fun a b a1 a2 b1 b2 =>
    hR.cross (d := i + 1) (fun _ => by rw [show i + 1 - 1 = i by ring]; exact hbot (by omega)) (by omega) a2 b1 (by omega)
  have hε : 0 ≤ 3 * u * B := by positivity
  have start : Chase p r c rz cz A Z0 zg0 B δ (3 * u * B) s.l i m g T (fun a b => if a = b then 1 else 0) x y w m (s.h, s.z, v') := by
    refine ⟨⟨g, T, Zq, x, y, w, hh, ⟨ha, fun _ _ _ => rfl, fun _ _ _ _ => rfl, d1, d2, ?_⟩, ?_, hZ, hw, fun _ => ?_, _, ?_, fun _ => ⟨rfl, rfl, rfl, rfl⟩, fun h => absurd h (lt_irrefl _)⟩⟩
    · exact fun a b b1 hba ai _ _ => hR.hess a b (by omega) hba (by omega)
    · rw [if_neg (lt_irrefl _)]; exact hG
    · refine ⟨x1.trans one_le, y1.trans one_le, w1.trans one_le, fun hlm => ⟨w0', (hst hlm).trans ?_⟩⟩
      have b1 := hG.entry (a := m - 1) (b := m - 1) ⟨by omega, by omega⟩ ⟨by omega, by omega⟩
      have b2 := hG.entry (a := m) (b := m) ⟨by omega, by omega⟩ ⟨by omega, by omega⟩
      have b3 := hG.entry (a := m + 1) (b := m + 1) ⟨by omega, by omega⟩ ⟨by omega, by omega⟩
      have hux : 0 ≤ u * |x| := by positivity
      calc u * |x| * (|T (m - 1) (m - 1)| + |T m m| + |T (m + 1) (m + 1)|) ≤ u * |x| * (B + B + B) :=
            mul_le_mul_of_nonneg_left (add_le_add (add_le_add b1 b2) b3) hux
        _ = 3 * u * B * |x| := by ring
    · rw [if_neg (lt_irrefl _)]
      exact ⟨⟨1, 0, backward_start T, by rw [Matrix.mul_one]⟩, hG.nrm⟩
  refine Tot.bind (chase_all hd hB hε hlo hhi m1 (by omega) start) ?_
  rintro ⟨h', z', v''⟩ ⟨⟨g', T', Zq', x', y', w', hh', hW, hG', hZ', hv', -⟩⟩
  refine Tot.pure ⟨rfl, rfl, T', ?_⟩
  rw [if_pos (by omega)] at hG'
  refine ⟨⟨g', hh', ?_⟩, ⟨Zq', hG', hZ'⟩, ⟨x', y', w', hv'⟩, hlo, ?_, ?_, ?_⟩
  · exact rel_of_win hR hlo (by omega) hhi hW.win (fun a b hab _ => hW.outg a b hab) hW.outT hW.dec1 hW.dec2
      (fun a b b1 hba ai => hW.hess a b b1 hba ai (by omega) (by omega)) d1 d2
  · intro hl
    have hl' : p.ilo < s.l := hl
    exact hW.dec1 s.l (s.l - 1) (le_refl _) (by omega) (by omega) (by omega)
  · exact fun hl => hW.dec2 _ _ (by omega) (by omega) (by omega) (by omega)
  · intro a b a1 b1
    rw [hW.outT a b (by omega) (by omega)]
    exact hsame a b a1 b1

/-! ### Deflation -/

/-- The search for a negligible subdiagonal element. -/
theorem search_ok (hd : Dim p r c rz cz) {B sm : ℝ} (hB0 : 0 ≤ B) (hu : p.ulp = fin u) (hu0 : 0 ≤ u) (hsm : p.smlnum = fin sm) (hsm0 : 0 ≤ sm)
    (hlo : p.ilo ≤ l) (hhi : i ≤ p.ihi) {h : FA XR} (hh : Is2 h r c (r * c) g) (hR : Rel p.ilo p.ihi g T)
    (hT : ∀ a b, p.ilo ≤ a → a ≤ p.ihi → p.ilo ≤ b → b ≤ p.ihi → |T a b| ≤ B) {e : ℤ} (hle : l < e) (hei : e ≤ i)
    (hnz : ∀ j, e < j → j ≤ i → T j (j - 1) ≠ 0) (k0 : ℤ) :
    Tot (hqrSearch p h (irange (l + 1) e).reverse k0) fun k => l ≤ k ∧ k ≤ e ∧ (∀ j, k < j → j ≤ i → T j (j - 1) ≠ 0) ∧
      (l < k → |T k (k - 1)| ≤ 2 * u * B + sm) := by
  have low : ∀ a b, p.ilo ≤ b → b ≤ a → a ≤ p.ihi → h.get2 a b = pure (fin (T a b)) := by
    intro a b b1 hba a2
    rw [get2_is2 hh (hd.cell (by omega) (by omega) (by omega) (by omega)) hd.size, hR.low a b b1 hba a2]
  -- what the search does after looking at `e`
  have next : ∀ e, l < e → e ≤ i → (∀ j, e < j → j ≤ i → T j (j - 1) ≠ 0) → ∀ k0, ∀ rest : List ℤ, (T e (e - 1) ≠ 0 → Tot (hqrSearch p h rest (e - 1)) fun k => l ≤ k ∧ k ≤ e ∧
        (∀ j, k < j → j ≤ i → T j (j - 1) ≠ 0) ∧ (l < k → |T k (k - 1)| ≤ 2 * u * B + sm)) →
      Tot (hqrSearch p h (e :: rest) k0) fun k => l ≤ k ∧ k ≤ e ∧ (∀ j, k < j → j ≤ i → T j (j - 1) ≠ 0) ∧
        (l < k → |T k (k - 1)| ≤ 2 * u * B + sm) := by
    intro e hle hei hnz k0 rest hrest
    have h2 : 0 ≤ 2 * u * B := by positivity
    simp only [hqrSearch]
    rw [low e (e - 1) (by omega) (by omega) (by omega), pure_bind, hsm]
    simp only [fin_abs, fin_le, decide_eq_true_eq]
    refine Tot.ite (fun hs => Tot.pure ⟨by omega, le_refl _, hnz, fun _ => by linarith⟩) fun hs => ?_
    have hne : T e (e - 1) ≠ 0 := by
      intro h0
      rw [h0, abs_zero] at hs
      exact hs hsm0
    rw [low (e - 1) (e - 1) (by omega) (by omega) (by omega), pure_bind, low e e (by omega) (by omega) (by omega), pure_bind]
    simp only [fin_abs, fin_add, ofInt_eq, fin_beq, decide_eq_true_eq, Int.cast_zero]
    have b1 := hT (e - 1) (e - 1) (by omega) (by omega) (by omega) (by omega)
    have b2 := hT e e (by omega) (by omega) (by omega) (by omega)
    have last : ∀ t : ℝ, t ≤ 2 * B → Tot (if (fin |T e (e - 1)| ≤ᶠ p.ulp * fin t) = true then do
          let hk1k ← h.get2 (e - 1) e
          if hqrCrit p (fin (T e (e - 1))) hk1k (fin (T e e)) (fin (T (e - 1) (e - 1))) = true then pure e
            else hqrSearch p h rest (e - 1)
        else hqrSearch p h rest (e - 1)) fun k => l ≤ k ∧ k ≤ e ∧ (∀ (j : ℤ), k < j → j ≤ i → T j (j - 1) ≠ 0) ∧
          (l < k → |T k (k - 1)| ≤ 2 * u * B + sm) := by
      intro t ht
      rw [hu]
      simp only [fin_mul, fin_le, decide_eq_true_eq]
      refine Tot.ite (fun h1 => ?_) fun h1 => hrest hne
      rw [get2_is2 hh (hd.cell (a := e - 1) (b := e) (by omega) (by omega) (by omega) (by omega)) hd.size, pure_bind]
      refine Tot.ite (fun _ => Tot.pure ⟨by omega, le_refl _, hnz, fun _ => ?_⟩) fun _ => hrest hne
      have : u * t ≤ u * (2 * B) := mul_le_mul_of_nonneg_left ht hu0
      linarith
    split
    · rename_i h0
      split
      · rename_i h1
        rw [low (e - 1) (e - 2) (by omega) (by omega) (by omega)]
        have b3 := hT (e - 1) (e - 2) (by omega) (by omega) (by omega) (by omega)
        simp only [pure_bind, fin_abs, fin_add]
        split
        · rename_i h2
          rw [low (e + 1) e (by omega) (by omega) (by omega)]
          have b4 := hT (e + 1) e (by omega) (by omega) (by omega) (by omega)
          simp only [pure_bind, fin_abs, fin_add]
          exact last _ (by linarith)
        · exact last _ (by linarith)
      · simp only [pure_bind]
        split
        · rename_i h2
          rw [low (e + 1) e (by omega) (by omega) (by omega)]
          have b4 := hT (e + 1) e (by omega) (by omega) (by omega) (by omega)
          simp only [pure_bind, fin_abs, fin_add]
          exact last _ (by linarith)
        · exact last _ (by linarith)
    · simp only [pure_bind]
      exact last _ (by linarith)
  obtain ⟨n, hn⟩ : ∃ n : Nat, l + 1 + n = e := ⟨(e - l - 1).toNat, by omega⟩
  induction n generalizing e k0 with
  | zero =>
    have : e = l + 1 := by omega
    subst this
    rw [irange_snoc (le_refl _), irange_empty (by omega)]
    simp only [List.nil_append, List.reverse_cons, List.reverse_nil]
    refine next _ hle hei hnz k0 [] fun hne => ?_
    simp only [hqrSearch]
    refine Tot.pure ⟨by omega, by omega, fun j h1 h2 => ?_, fun h => absurd h (by omega)⟩
    by_cases hj : j = l + 1
    · rw [hj]; exact hne
    · exact hnz j (by omega) h2
  | succ n ih =>
    rw [irange_snoc (by omega), List.reverse_append]
    simp only [List.reverse_cons, List.reverse_nil, List.nil_append, List.cons_append]
    refine next _ hle hei hnz k0 _ fun hne => ?_
    refine (ih (e := e - 1) (by omega) (by omega) (fun j h1 h2 => ?_) (e - 1) (by omega)).mono fun k hk =>
      ⟨hk.1, by omega, hk.2.2.1, hk.2.2.2⟩
    by_cases hj : j = e
    · rw [hj]; exact hne
    · exact hnz j (by omega) h2

/-- Deflation. -/
theorem deflate_ok (hd : Dim p r c rz cz) {A : Matrix (Blk p.ilo p.ihi) (Blk p.ilo p.ihi) ℝ} {Z0 : ℤ → ℤ → ℝ} {zg0 : ℤ → ℤ → XR}
    {B δ sm : ℝ} (hB0 : 0 ≤ B) (hu : p.ulp = fin u) (hu0 : 0 ≤ u) (hsm : p.smlnum = fin sm) (hsm0 : 0 ≤ sm)
    {T0 : ℤ → ℤ → ℝ} {s : HqrS XR} (hli : s.l < i) (hhi : i ≤ p.ihi)
    (hs : Inn p r c rz cz A Z0 zg0 B δ i T0 s.h s.z s.v s.l T) :
    Tot (hqrDeflate p i s) fun s' => s'.k = s'.l ∧ s'.l ≤ i ∧
      ∃ T', Inn p r c rz cz A Z0 zg0 B (δ + (2 * u * B + sm)) i T0 s'.h s'.z s'.v s'.l T' ∧ (∀ j, s'.l < j → j ≤ i → T' j (j - 1) ≠ 0) ∧
        s.l ≤ s'.l ∧ s'.z = s.z ∧ s'.kdefl = s.kdefl ∧ (s.l < s'.l → |T s'.l (s'.l - 1)| ≤ 2 * u * B + sm) ∧
        ∀ a b, T' a b = if p.ilo < s'.l ∧ a = s'.l ∧ b = s'.l - 1 then 0 else T a b := by
  obtain ⟨⟨g, hh, hR⟩, ⟨Zq, hG, hZ⟩, hwork, hlo, htop, hbot, hsame⟩ := hs
  have hεd : 0 ≤ 2 * u * B + sm := by positivity
  unfold hqrDeflate
  refine Tot.bind (search_ok hd hB0 hu hu0 hsm hsm0 hlo hhi hh hR (fun a b a1 a2 b1 b2 => hG.entry ⟨a1, a2⟩ ⟨b1, b2⟩) hli (le_refl i)
    (fun j h1 h2 => by omega) s.k) fun k hk => ?_
  obtain ⟨k1, k2, knz, kb⟩ := hk
  by_cases hkl : k > p.ilo
  · rw [if_pos hkl]
    obtain ⟨h', e', hh'⟩ := set2_is2 hh (hd.cell (a := k) (b := k - 1) (by omega) (by omega) (by omega) (by omega)) hd.size Scalar.zero
    rw [e', pure_bind]
    have hcut : |T k (k - 1)| ≤ 2 * u * B + sm := by
      by_cases h : s.l < k
      · exact kb h
      · have e : k = s.l := by omega
        rw [e, htop (by omega), abs_zero]
        exact hεd
    refine Tot.pure ⟨rfl, k2, fun a b => if a = k ∧ b = k - 1 then 0 else T a b,
      ⟨⟨_, hh', ⟨?_, ?_, ?_⟩⟩, ⟨Zq, hG.cut k (k - 1) (by omega) hεd hcut, hZ⟩, hwork, by simp only; omega, ?_, ?_, ?_⟩, ?_, k1, rfl, rfl, kb,
      fun a b => ?_⟩
    · intro a b b1 hba a2
      simp only [upd2]
      split
      · rw [zero_eq]
      · exact hR.low a b b1 hba a2
    · intro a b a1 hab b2 hnz
      simp only [upd2]
      rw [if_neg (by omega), if_neg (by omega)]
      refine hR.up a b a1 hab b2 fun d d1 d2 => ?_
      have := hnz d d1 d2
      intro h0
      apply this
      beta_reduce
      split
      · rfl
      · exact h0
    · intro a b b1 hba a2
      beta_reduce
      split
      · rfl
      · exact hR.hess a b b1 hba a2
    · intro _; simp
    · intro h
      beta_reduce
      split
      · rfl
      · exact hbot h
    · intro a b a1 b1
      beta_reduce
      rw [if_neg (by omega)]
      exact hsame a b a1 b1
    · intro j j1 j2
      simp only at j1 ⊢
      rw [if_neg (by omega)]
      exact knz j j1 j2
    · simp only [show p.ilo < k from hkl, true_and]
  · rw [if_neg hkl, pure_bind]
    refine Tot.pure ⟨rfl, k2, T, ⟨⟨g, hh, hR⟩, ⟨Zq, hG.mono (by linarith), hZ⟩, hwork, by simp only; omega, fun h => absurd h hkl, hbot, hsame⟩, knz, k1, rfl, rfl, kb,
      fun a b => by rw [if_neg (fun h => hkl h.1)]⟩

/-- `'loop_140`. -/
theorem inner_ok (hd : Dim p r c rz cz) {A : Matrix (Blk p.ilo p.ihi) (Blk p.ilo p.ihi) ℝ} {Z0 : ℤ → ℤ → ℝ} {zg0 : ℤ → ℤ → XR}
    {B sm : ℝ} (hB0 : 0 ≤ B) (hB : B ≤ 2 ^ 500) (hu : p.ulp = fin u) (hu0 : 0 ≤ u) (hsm : p.smlnum = fin sm) (hsm0 : 0 ≤ sm)
    {T0 : ℤ → ℤ → ℝ} (hhi : i ≤ p.ihi) (rounds its : Nat) (δ : ℝ) (s : HqrS XR) (hli : s.l < i) (T : ℤ → ℤ → ℝ)
    (hs : Inn p r c rz cz A Z0 zg0 B δ i T0 s.h s.z s.v s.l T) :
    Tot (hqrInner p i rounds its s) fun q => q.1.k = q.1.l ∧ q.1.l ≤ i ∧ its ≤ q.2 ∧ q.2 ≤ its + rounds ∧
      ∃ T', Inn p r c rz cz A Z0 zg0 B (δ + (rounds + 1) * (5 * u * B + sm)) i T0 q.1.h q.1.z q.1.v q.1.l T' ∧
        (q.2 < its + rounds → i - 1 ≤ q.1.l ∧ (∀ j, q.1.l < j → j ≤ i → T' j (j - 1) ≠ 0)) := by
  have hε : 0 ≤ 5 * u * B + sm := by positivity
  have hε2 : 0 ≤ 3 * u * B := by positivity
  have mono : ∀ {δ δ' : ℝ} {i : ℤ} {h z v : FA XR} {l : ℤ} {T : ℤ → ℤ → ℝ}, δ ≤ δ' → Inn p r c rz cz A Z0 zg0 B δ i T0 h z v l T →
      Inn p r c rz cz A Z0 zg0 B δ' i T0 h z v l T := by
    intro δ δ' i h z v l T hd hI
    obtain ⟨Zq, hG, hZ⟩ := hI.good
    exact ⟨hI.ex, ⟨Zq, hG.mono hd, hZ⟩, hI.work, hI.lo, hI.top, hI.bot, hI.same⟩
  induction rounds generalizing its δ s T with
  | zero =>
    unfold hqrInner
    refine Tot.bind (deflate_ok hd hB0 hu hu0 hsm hsm0 hli hhi hs) fun s1 h1 => ?_
    obtain ⟨e1, l1, T1, I1, nz1, -⟩ := h1
    refine Tot.ite (fun hl => Tot.pure ⟨e1, l1, le_refl _, le_refl _, T1, mono ?_ I1, fun h => absurd h (by simp)⟩) fun hl => ?_
    · push_cast; linarith
    · refine Tot.bind (sweep_ok hd hB0 hB hu hu0 (by omega) hhi I1 nz1) fun s2 h2 => ?_
      obtain ⟨l2, k2, T2, I2⟩ := h2
      refine Tot.pure ⟨by simp only; omega, by simp only; omega, le_refl _, le_refl _, T2, mono ?_ I2, fun h => absurd h (by simp)⟩
      push_cast; linarith
  | succ n ih =>
    unfold hqrInner
    refine Tot.bind (deflate_ok hd hB0 hu hu0 hsm hsm0 hli hhi hs) fun s1 h1 => ?_
    obtain ⟨e1, l1, T1, I1, nz1, -⟩ := h1
    have hn : 0 ≤ (n : ℝ) * (5 * u * B + sm) := by positivity
    refine Tot.ite (fun hl => Tot.pure ⟨e1, l1, le_refl _, by simp only; omega, T1, mono ?_ I1, fun h => ⟨by simp only; omega, nz1⟩⟩) fun hl => ?_
    · push_cast; nlinarith
    · refine Tot.bind (sweep_ok hd hB0 hB hu hu0 (by omega) hhi I1 nz1) fun s2 h2 => ?_
      obtain ⟨l2, k2, T2, I2⟩ := h2
      refine (ih (its + 1) _ s2 (by omega) T2 I2).mono fun q hq => ?_
      obtain ⟨a1, a2, a3, a4, T3, I3, a5⟩ := hq
      refine ⟨a1, a2, by omega, by omega, T3, mono ?_ I3, fun h => a5 (by omega)⟩
      push_cast; linarith

end sweep

end Verif
