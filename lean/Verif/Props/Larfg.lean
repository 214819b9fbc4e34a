import Verif.Props.Lapy2
import Verif.Props.Nrm2
import Mathlib.Tactic.LinearCombination

/-!
# `dlarfg` (C34, C35)
-/

namespace Verif
open Scalar Spec XR

/-! ### Scaling a strided vector -/

open Classical in
/-- The vector with its `n` strided elements multiplied by `a`. -/
noncomputable def scaleStride (n : Nat) (inc : Int) (a : ℝ) (x : List ℝ) : List ℝ :=
  (List.range x.length).map fun p =>
    if ∃ k < n, strideIx n inc k = p then x.getD p 0 * a else x.getD p 0

theorem scaleStride_length (n : Nat) (inc : Int) (a : ℝ) (x : List ℝ) :
    (scaleStride n inc a x).length = x.length := by simp [scaleStride]

open Classical in
theorem scaleStride_getD (n : Nat) (inc : Int) (a : ℝ) (x : List ℝ) (p : Nat) :
    (scaleStride n inc a x).getD p 0 =
      if ∃ k < n, strideIx n inc k = p then x.getD p 0 * a else x.getD p 0 := by
  unfold scaleStride
  rw [List.getD_eq_getElem?_getD]
  by_cases hp : p < x.length
  · simp [hp]
  · simp [hp, List.getD_eq_getElem?_getD]

theorem scaleStride_at {n : Nat} {inc : Int} {a : ℝ} {x : List ℝ} {k : Nat} (hk : k < n) :
    (scaleStride n inc a x).getD (strideIx n inc k) 0 = x.getD (strideIx n inc k) 0 * a := by
  rw [scaleStride_getD, if_pos ⟨k, hk, rfl⟩]

theorem scaleStride_frame {n : Nat} {inc : Int} {a : ℝ} {x : List ℝ} {p : Nat}
    (h : ∀ k < n, strideIx n inc k ≠ p) : (scaleStride n inc a x)[p]? = x[p]? := by
  classical
  unfold scaleStride
  by_cases hp : p < x.length
  · rw [List.getElem?_map, List.getElem?_range hp, Option.map_some, if_neg]
    · simp [hp]
    · rintro ⟨k, hk, e⟩; exact h k hk e
  · simp [hp]

theorem list_ext_getD {a b : List ℝ} (hl : a.length = b.length) (h : ∀ p, a.getD p 0 = b.getD p 0) :
    a = b := by
  apply List.ext_getElem hl
  intro p h1 h2
  have := h p
  simpa [List.getD_eq_getElem?_getD, h1, h2] using this

theorem scaleStride_one (n : Nat) (inc : Int) (x : List ℝ) : scaleStride n inc 1 x = x := by
  apply list_ext_getD (scaleStride_length _ _ _ _)
  intro p
  rw [scaleStride_getD]
  simp

theorem scaleStride_mul (n : Nat) (inc : Int) (a b : ℝ) (x : List ℝ) :
    scaleStride n inc b (scaleStride n inc a x) = scaleStride n inc (a * b) x := by
  apply list_ext_getD (by simp [scaleStride_length])
  intro p
  rw [scaleStride_getD, scaleStride_getD, scaleStride_getD]
  split <;> ring

/-- `dscal` on finite values. -/
theorem dscal_real (n : Nat) (a : ℝ) (x : List ℝ) (incx : Int) (hinc : 1 ≤ incx)
    (hx : StrideFits n incx x.length) (hox : n * incx.natAbs + 1 < 2 ^ 31) :
    dscal (n : Int) (fin a) (x.map fin) incx = pure ((scaleStride n incx a x).map fin) := by
  by_cases ha : a = 1
  · subst ha
    rw [C13_dscal_noop _ _ _ _ (Or.inr (Or.inr (by simp))), scaleStride_one]
  · obtain ⟨x', e, l, h, f⟩ := C12_dscal (F := XR) n (fin a) (by simpa using ha) (x.map fin) incx hinc
      (by simpa using hx) hox
    rw [e]
    congr 1
    rw [List.length_map] at l
    apply List.ext_getElem?
    intro p
    by_cases hk : ∃ k, k < n ∧ strideIx n incx k = p
    · obtain ⟨k, hk, rfl⟩ := hk
      have hp := hx k hk
      have hp' : strideIx n incx k < (scaleStride n incx a x).length := by
        rw [scaleStride_length]; exact hp
      have := scaleStride_at (inc := incx) (a := a) (x := x) hk
      rw [h k hk, List.getElem?_map, List.getElem?_map]
      simp only [List.getD_eq_getElem?_getD, List.getElem?_eq_getElem hp,
        List.getElem?_eq_getElem hp', Option.getD_some] at this
      rw [List.getElem?_eq_getElem hp, List.getElem?_eq_getElem hp', this]
      simp
    · push Not at hk
      rw [f p hk, List.getElem?_map, List.getElem?_map, scaleStride_frame hk]

/-! ### The rescaling loop in exact arithmetic -/

theorem safmin_eq : (dlamch 'S' / dlamch 'E' : XR) = fin (1 / 2 ^ 969) := by
  rw [dlamch_S, dlamch_E, fin_div _ _ (by positivity)]
  congr 1
  rw [div_div_eq_mul_div, div_one, ← pow_sub_mul_pow (2 : ℝ) (show 53 ≤ 1022 by norm_num)]
  field_simp

theorem rescale_real {n : Nat} {incx : Int} (hn : n < 2 ^ 31 - 1) (hinc : 1 ≤ incx) (sm : ℝ)
    (hsm0 : 0 < sm) (k : Nat) :
    ∀ (x : List ℝ) (_ : StrideFits n incx x.length) (_ : n * incx.natAbs + 1 < 2 ^ 31)
      (beta alpha : ℝ) (_ : |beta| ≤ sm) (knt : Nat) (_ : knt + k = 21),
    ∃ j, dlarfgRescale ((n : Int) + 1) incx (fin sm) (fin (1 / sm)) k (x.map fin) (fin beta) (fin alpha) knt =
      pure ((scaleStride n incx ((1 / sm) ^ j) x).map fin, fin (beta * (1 / sm) ^ j),
        fin (alpha * (1 / sm) ^ j), knt + j) ∧ (0 < k → |beta * (1 / sm) ^ j| ≤ 1) := by
  induction k with
  | zero =>
    intro x _ _ beta alpha _ knt _
    exact ⟨0, by simp [dlarfgRescale, scaleStride_one], fun h => absurd h (by norm_num)⟩
  | succ k ih =>
    intro x hx hox beta alpha hb knt hk
    unfold dlarfgRescale
    rw [isub_ok (by unfold FitsI32; omega), pure_bind]
    rw [show (n : Int) + 1 - 1 = n by ring, dscal_real n _ x incx hinc hx hox, pure_bind]
    have hb1 : |beta * (1 / sm)| ≤ 1 := by
      rw [abs_mul, abs_of_pos (by positivity : (0 : ℝ) < 1 / sm), mul_one_div, div_le_one hsm0]
      exact hb
    simp only
    by_cases hc : ((Scalar.abs (fin beta * fin (1 / sm)) >ᶠ fin sm) || decide (knt + 1 > 20)) = true
    · rw [if_pos hc]
      simp only [fin_mul]
      exact ⟨1, by simp, fun _ => by simpa using hb1⟩
    · rw [if_neg hc]
      simp only [fin_mul, fin_abs, fin_lt, Bool.or_eq_true, decide_eq_true_eq, not_or, not_lt] at hc ⊢
      obtain ⟨j, e, h⟩ := ih (scaleStride n incx (1 / sm) x) (by rw [scaleStride_length]; exact hx) hox
        (beta * (1 / sm)) (alpha * (1 / sm)) hc.1 (knt + 1) (by omega)
      have hk0 : 0 < k := by omega
      refine ⟨j + 1, ?_, fun _ => ?_⟩
      · rw [e, scaleStride_mul]
        rw [show beta * (1 / sm) * (1 / sm) ^ j = beta * (1 / sm) ^ (j + 1) by ring,
          show alpha * (1 / sm) * (1 / sm) ^ j = alpha * (1 / sm) ^ (j + 1) by ring,
          show (1 / sm) * (1 / sm) ^ j = (1 / sm) ^ (j + 1) by ring]
        congr 4; omega
      · have := h hk0
        rwa [show beta * (1 / sm) * (1 / sm) ^ j = beta * (1 / sm) ^ (j + 1) by ring] at this

theorem mulPow_real (sm : ℝ) (k : Nat) (b : ℝ) : mulPow (fin sm) k (fin b) = fin (b * sm ^ k) := by
  induction k generalizing b with
  | zero => simp [mulPow]
  | succ k ih => rw [mulPow, fin_mul, ih]; congr 1; ring

/-! ### The value in exact arithmetic -/

/-- Element `k` of the strided vector. -/
noncomputable abbrev Spec.elt (m : Nat) (inc : Int) (x : List ℝ) (k : Nat) : ℝ :=
  x.getD (strideIx m inc k) 0

/-- The vector does not mix elements above `2^505` with non-zero elements below `2^-511`, so that
`dnrm2` is exact on it (C16). -/
def Spec.Unmixed (m : Nat) (inc : Int) (x : List ℝ) : Prop :=
  ¬ ((∃ j < m, 2 ^ 505 < |elt m inc x j|) ∧ ∃ j < m, elt m inc x j ≠ 0 ∧ |elt m inc x j| < 1 / 2 ^ 511)

theorem finish_real {m : Nat} {incx : Int} (hm : m < 2 ^ 31 - 1) (hinc : 1 ≤ incx) (sm : ℝ)
    (alpha beta : ℝ) (x : List ℝ) (hx : StrideFits m incx x.length)
    (hox : m * incx.natAbs + 1 < 2 ^ 31) (knt : Nat) (hb : beta ≠ 0) (hab : alpha - beta ≠ 0) :
    dlarfgFinish ((m : Int) + 1) incx (fin sm) (fin alpha) (fin beta) (x.map fin) knt =
      pure (fin (beta * sm ^ knt), (scaleStride m incx (1 / (alpha - beta)) x).map fin,
        fin ((beta - alpha) / beta)) := by
  unfold dlarfgFinish
  rw [isub_ok (by unfold FitsI32; omega), pure_bind, show (m : Int) + 1 - 1 = m by ring]
  simp only [fin_sub, ofInt_eq, Int.cast_one]
  rw [fin_div _ _ hab, fin_div _ _ hb, dscal_real m _ x incx hinc hx hox, pure_bind, mulPow_real]

theorem sgn_mul_pos {a r : ℝ} (hr : 0 < r) :
    (if a * r < 0 then (-1 : ℝ) else 1) = if a < 0 then -1 else 1 := by
  have : a * r < 0 ↔ a < 0 := by
    constructor
    · intro h; by_contra h'; exact absurd h (not_lt.2 (mul_nonneg (not_lt.1 h') hr.le))
    · intro h; exact mul_neg_of_neg_of_pos h hr
    
  simp only [this]

theorem dlarfg_real (m : Nat) (hm1 : 1 ≤ m) (alpha : ℝ) (x : List ℝ) (incx : Int)
    (hinc : 1 ≤ incx) (hx : StrideFits m incx x.length) (hl : x.length < 2 ^ 60)
    (hox : m * incx.natAbs + 1 < 2 ^ 31) (hmix : Unmixed m incx x)
    (hne : ∃ k < m, elt m incx x k ≠ 0)
    (hmax : Real.sqrt (alpha ^ 2 + ∑ k ∈ Finset.range m, elt m incx x k ^ 2) ≤ fMax) :
    ∃ beta : ℝ, beta = -(if alpha < 0 then -1 else 1) *
        Real.sqrt (alpha ^ 2 + ∑ k ∈ Finset.range m, elt m incx x k ^ 2) ∧
      dlarfg ((m : Int) + 1) (fin alpha) (x.map fin) incx =
        pure (fin beta, (scaleStride m incx (1 / (alpha - beta)) x).map fin,
          fin ((beta - alpha) / beta)) := by
  set N := ∑ k ∈ Finset.range m, elt m incx x k ^ 2 with hN
  have hm : m < 2 ^ 31 - 1 := by
    have : m * 1 ≤ m * incx.natAbs := Nat.mul_le_mul_left _ (by omega)
    omega
  have hNpos : 0 < N := by
    obtain ⟨k, hk, h0⟩ := hne
    have : elt m incx x k ^ 2 ≤ N :=
      Finset.single_le_sum (f := fun k => elt m incx x k ^ 2) (fun _ _ => sq_nonneg _)
        (Finset.mem_range.2 hk)
    have h2 : 0 < elt m incx x k ^ 2 := by positivity
    linarith
  have hsN : 0 < Real.sqrt N := Real.sqrt_pos.2 hNpos
  have hS : 0 < Real.sqrt (alpha ^ 2 + N) := Real.sqrt_pos.2 (by positivity)
  have hale : |alpha| ≤ Real.sqrt (alpha ^ 2 + N) := by
    apply Real.le_sqrt_of_sq_le
    rw [sq_abs]; linarith
  have hNle : |Real.sqrt N| ≤ Real.sqrt (alpha ^ 2 + N) := by
    rw [abs_of_pos hsN]
    apply Real.sqrt_le_sqrt
    have : 0 ≤ alpha ^ 2 := sq_nonneg _
    linarith
  set sg : ℝ := if alpha < 0 then -1 else 1 with hsg
  set beta := -sg * Real.sqrt (alpha ^ 2 + N) with hbeta
  have hsg1 : |sg| = 1 := by rw [hsg]; split <;> simp
  have hbabs : |beta| = Real.sqrt (alpha ^ 2 + N) := by
    rw [hbeta, abs_mul, abs_neg, hsg1, one_mul, abs_of_pos hS]
  have hb0 : beta ≠ 0 := by
    intro h; rw [h, abs_zero] at hbabs; linarith
  have hab : alpha - beta ≠ 0 := by
    rw [hbeta, hsg]
    split
    · rename_i h
      intro h2
      nlinarith
    · rename_i h
      intro h2
      nlinarith [not_lt.1 h]
  refine ⟨beta, rfl, ?_⟩
  unfold dlarfg
  rw [if_neg (by omega), isub_ok (by unfold FitsI32; omega), pure_bind,
    show (m : Int) + 1 - 1 = m by ring, C16_dnrm2_euclid m x incx hx hl hox hmix, pure_bind]
  show (if (fin (Real.sqrt N) =ᶠ zero) = true then _ else _) = _
  rw [if_neg (by simpa using ne_of_gt hsN), safmin_eq]
  simp only [fin_signum, ← hsg]
  rw [C32_dlapy2 _ _ (hale.trans hmax) (hNle.trans hmax), Real.sq_sqrt hNpos.le, fin_neg, fin_mul,
    ← hbeta]
  set sm : ℝ := 1 / 2 ^ 969 with hsm
  have hsm0 : 0 < sm := by positivity
  by_cases hlt : |beta| < sm
  · have : (Scalar.abs (fin beta) <ᶠ fin sm) = true := by simpa using hlt
    rw [if_pos this]
    simp only [ofInt_eq, Int.cast_one]
    rw [fin_div _ _ (ne_of_gt hsm0)]
    obtain ⟨j, e, hj⟩ := rescale_real hm hinc sm hsm0 21 x hx hox beta alpha hlt.le 0 rfl
    have hr : 0 < (1 / sm) ^ j := by positivity
    rw [e, pure_bind]
    simp only
    set r := (1 / sm) ^ j with hrdef
    have hj' := hj (by norm_num)
    have hbr : Real.sqrt (alpha ^ 2 + N) * r ≤ 1 := by
      rw [abs_mul, abs_of_pos hr, hbabs] at hj'; exact hj'
    have helt : ∀ k < m, elt m incx (scaleStride m incx r x) k = elt m incx x k * r :=
      fun k hk => scaleStride_at hk
    have hsum : ∑ k ∈ Finset.range m, elt m incx (scaleStride m incx r x) k ^ 2 = N * r ^ 2 := by
      rw [hN, Finset.sum_mul]
      apply Finset.sum_congr rfl
      intro k hk
      rw [helt k (Finset.mem_range.1 hk)]; ring
    have hmix' : Unmixed m incx (scaleStride m incx r x) := by
      rintro ⟨⟨k, hk, h⟩, -⟩
      rw [helt k hk, abs_mul, abs_of_pos hr] at h
      have h1 : |elt m incx x k| ≤ Real.sqrt (alpha ^ 2 + N) := by
        apply Real.le_sqrt_of_sq_le
        rw [sq_abs]
        have : elt m incx x k ^ 2 ≤ N :=
          Finset.single_le_sum (f := fun k => elt m incx x k ^ 2) (fun _ _ => sq_nonneg _)
            (Finset.mem_range.2 hk)
        have : 0 ≤ alpha ^ 2 := sq_nonneg _
        linarith
      have h2 : |elt m incx x k| * r ≤ 1 := (mul_le_mul_of_nonneg_right h1 hr.le).trans hbr
      have h3 : (1 : ℝ) < 2 ^ 505 := one_lt_pow₀ (by norm_num) (by norm_num)
      exact absurd (h3.trans h) (not_lt.2 h2)
    have hx' : StrideFits m incx (scaleStride m incx r x).length := by
      rw [scaleStride_length]; exact hx
    rw [pure_bind,
      C16_dnrm2_euclid m _ incx hx' (by rw [scaleStride_length]; exact hl) hox hmix', pure_bind]
    have hsum' : Real.sqrt (∑ k ∈ Finset.range m,
        (scaleStride m incx r x).getD (strideIx m incx k) 0 ^ 2) = Real.sqrt N * r := by
      rw [show (∑ k ∈ Finset.range m, (scaleStride m incx r x).getD (strideIx m incx k) 0 ^ 2) =
        N * r ^ 2 from hsum, Real.sqrt_mul hNpos.le, Real.sqrt_sq hr.le]
    rw [hsum', fin_signum, sgn_mul_pos hr, ← hsg]
    have hf1 : (1 : ℝ) ≤ fMax := by
      have h1 : (1 : ℝ) ≤ 2 - 1 / 2 ^ 52 := by norm_num
      have h2 : (1 : ℝ) ≤ 2 ^ 1023 := one_le_pow₀ (by norm_num)
      calc (1 : ℝ) = 1 * 1 := by norm_num
        _ ≤ _ := mul_le_mul h1 h2 (by norm_num) (le_trans (by norm_num) h1)
    rw [C32_dlapy2]
    rotate_left
    · rw [abs_mul, abs_of_pos hr]
      exact ((mul_le_mul_of_nonneg_right hale hr.le).trans hbr).trans hf1
    · rw [abs_mul, abs_of_pos hr]
      exact ((mul_le_mul_of_nonneg_right hNle hr.le).trans hbr).trans hf1
    have h4 : Real.sqrt ((alpha * r) ^ 2 + (Real.sqrt N * r) ^ 2) = Real.sqrt (alpha ^ 2 + N) * r := by
      rw [mul_pow, mul_pow, Real.sq_sqrt hNpos.le, ← add_mul, Real.sqrt_mul (by positivity),
        Real.sqrt_sq hr.le]
    rw [h4, fin_neg, fin_mul, show -sg * (Real.sqrt (alpha ^ 2 + N) * r) = beta * r by rw [hbeta]; ring]
    rw [finish_real hm hinc sm (alpha * r) (beta * r) _ hx' hox _ (mul_ne_zero hb0 hr.ne')
      (by rw [← sub_mul]; exact mul_ne_zero hab hr.ne'), scaleStride_mul]
    have e1 : beta * r * sm ^ (0 + j) = beta := by
      rw [zero_add, hrdef, mul_assoc, ← mul_pow, one_div, inv_mul_cancel₀ hsm0.ne', one_pow, mul_one]
    have e2 : r * (1 / (alpha * r - beta * r)) = 1 / (alpha - beta) := by
      rw [← sub_mul]; field_simp
    have e3 : (beta * r - alpha * r) / (beta * r) = (beta - alpha) / beta := by
      rw [← sub_mul]; field_simp
    rw [e1, e2, e3]
  · have : ¬ (Scalar.abs (fin beta) <ᶠ fin sm) = true := by simpa using hlt
    rw [if_neg this, finish_real hm hinc sm alpha beta x hx hox 0 hb0 hab]
    simp

/-- The vectors before and after: `(alpha, x)` and `(1, x')`. -/
noncomputable def Spec.consStride (a : ℝ) (m : Nat) (inc : Int) (x : List ℝ) (i : Nat) : ℝ :=
  if i = 0 then a else elt m inc x (i - 1)

/-- **C34.** In exact arithmetic, for `n = m + 1 ≥ 2`, `incx ≥ 1` and `x` not all zero, `dlarfg` returns
`beta`, `v = (1, x')` and `tau` such that `H = I - tau * v * vᵀ` is orthogonal (it preserves the sum of
squares of every `w`) and maps `(alpha, x)` to `(beta, 0)`; `beta² = alpha² + |x|²`, `beta` and `alpha`
have opposite signs, `1 ≤ tau ≤ 2`; elements of `x` outside the strided vector are unchanged. -/
theorem C34_dlarfg (m : Nat) (hm1 : 1 ≤ m) (alpha : ℝ) (x : List ℝ) (incx : Int)
    (hinc : 1 ≤ incx) (hx : StrideFits m incx x.length) (hl : x.length < 2 ^ 60)
    (hox : m * incx.natAbs + 1 < 2 ^ 31) (hmix : Unmixed m incx x)
    (hne : ∃ k < m, elt m incx x k ≠ 0)
    (hmax : Real.sqrt (alpha ^ 2 + ∑ k ∈ Finset.range m, elt m incx x k ^ 2) ≤ fMax) :
    ∃ (beta tau : ℝ) (x' : List ℝ),
      dlarfg ((m : Int) + 1) (fin alpha) (x.map fin) incx = pure (fin beta, x'.map fin, fin tau) ∧
      x'.length = x.length ∧
      (∀ p, (∀ k < m, strideIx m incx k ≠ p) → x'[p]? = x[p]?) ∧
      beta ^ 2 = alpha ^ 2 + ∑ k ∈ Finset.range m, elt m incx x k ^ 2 ∧
      alpha * beta ≤ 0 ∧ 1 ≤ tau ∧ tau ≤ 2 ∧
      (let v := consStride 1 m incx x'
       let u := consStride alpha m incx x
       let H := fun (w : Nat → ℝ) i => w i - tau * v i * ∑ j ∈ Finset.range (m + 1), v j * w j
       (∀ i < m + 1, H u i = if i = 0 then beta else 0) ∧
       ∀ w : Nat → ℝ, ∑ i ∈ Finset.range (m + 1), H w i ^ 2 = ∑ i ∈ Finset.range (m + 1), w i ^ 2) := by
  obtain ⟨beta, hb, e⟩ := dlarfg_real m hm1 alpha x incx hinc hx hl hox hmix hne hmax
  set N := ∑ k ∈ Finset.range m, elt m incx x k ^ 2 with hN
  have hNpos : 0 < N := by
    obtain ⟨k, hk, h0⟩ := hne
    have : elt m incx x k ^ 2 ≤ N :=
      Finset.single_le_sum (f := fun k => elt m incx x k ^ 2) (fun _ _ => sq_nonneg _)
        (Finset.mem_range.2 hk)
    have h2 : 0 < elt m incx x k ^ 2 := by positivity
    linarith
  have hS : 0 < Real.sqrt (alpha ^ 2 + N) := Real.sqrt_pos.2 (by positivity)
  have hb2 : beta ^ 2 = alpha ^ 2 + N := by
    rw [hb, mul_pow, Real.sq_sqrt (by positivity), neg_sq]
    split <;> norm_num
  have hsgn : alpha * beta ≤ 0 := by
    rw [hb]
    split
    · rename_i h; nlinarith
    · rename_i h; nlinarith [not_lt.1 h]
  have hb0 : beta ≠ 0 := by
    intro h; rw [h] at hb2; nlinarith
  have hb2pos : 0 < beta ^ 2 := by positivity
  have hab : alpha - beta ≠ 0 := by
    intro h
    have : alpha = beta := by linarith
    rw [this] at hsgn; nlinarith
  refine ⟨beta, (beta - alpha) / beta, _, e, scaleStride_length _ _ _ _,
    fun p hp => scaleStride_frame hp, hb2, hsgn, ?_, ?_, ?_⟩
  · have : (beta - alpha) / beta = 1 + (-(alpha * beta)) / beta ^ 2 := by field_simp; ring
    rw [this]
    have : 0 ≤ (-(alpha * beta)) / beta ^ 2 := div_nonneg (by linarith) hb2pos.le
    linarith
  · have : (beta - alpha) / beta = 1 + (-(alpha * beta)) / beta ^ 2 := by field_simp; ring
    rw [this]
    have h1 : -(alpha * beta) ≤ beta ^ 2 := by
      have h3 : alpha ^ 2 ≤ beta ^ 2 := by linarith
      have h4 : |alpha| ≤ |beta| := sq_le_sq.1 h3
      calc -(alpha * beta) ≤ |alpha * beta| := neg_le_abs _
        _ = |alpha| * |beta| := abs_mul _ _
        _ ≤ |beta| * |beta| := mul_le_mul_of_nonneg_right h4 (abs_nonneg _)
        _ = beta ^ 2 := by rw [← sq, sq_abs]
    have : (-(alpha * beta)) / beta ^ 2 ≤ 1 := (div_le_one hb2pos).2 h1
    linarith
  · set c := 1 / (alpha - beta) with hc
    set v := consStride 1 m incx (scaleStride m incx c x) with hv
    set u := consStride alpha m incx x with hu
    have hv0 : v 0 = 1 := rfl
    have hvs : ∀ k < m, v (k + 1) = elt m incx x k * c := by
      intro k hk
      show elt m incx (scaleStride m incx c x) (k + 1 - 1) = _
      rw [Nat.add_sub_cancel]
      exact scaleStride_at hk
    have hus : ∀ k, u (k + 1) = elt m incx x k := by
      intro k
      show elt m incx x (k + 1 - 1) = _
      rw [Nat.add_sub_cancel]
    have hvv : ∑ j ∈ Finset.range (m + 1), v j * v j = 1 + N * c ^ 2 := by
      rw [Finset.sum_range_succ', hv0, hN, Finset.sum_mul, one_mul, add_comm]
      congr 1
      apply Finset.sum_congr rfl
      intro k hk
      rw [hvs k (Finset.mem_range.1 hk)]; ring
    have hvu : ∑ j ∈ Finset.range (m + 1), v j * u j = alpha + N * c := by
      rw [Finset.sum_range_succ', hv0, hN, Finset.sum_mul, one_mul, add_comm]
      congr 1
      apply Finset.sum_congr rfl
      intro k hk
      rw [hvs k (Finset.mem_range.1 hk), hus]; ring
    have hN' : N = beta ^ 2 - alpha ^ 2 := by linarith
    have hvu' : alpha + N * c = -beta := by
      rw [hN', hc]; field_simp; ring
    have hvv' : (beta - alpha) / beta * (1 + N * c ^ 2) = 2 := by
      rw [hN', hc]; field_simp; ring
    refine ⟨?_, ?_⟩
    · intro i hi
      beta_reduce
      rw [hvu, hvu']
      rcases i with _ | k
      · rw [hv0, if_pos rfl]
        show alpha - _ = _
        field_simp; ring
      · rw [if_neg (by omega), hvs k (by omega), hus, hc]
        field_simp; ring
    · intro w
      beta_reduce
      set tau := (beta - alpha) / beta with htau
      set S := ∑ j ∈ Finset.range (m + 1), v j * w j with hSdef
      have h1 : ∀ i ∈ Finset.range (m + 1), (w i - tau * v i * S) ^ 2 =
          w i ^ 2 - 2 * tau * S * (v i * w i) + tau ^ 2 * S ^ 2 * (v i * v i) := by
        intro i _; ring
      rw [Finset.sum_congr rfl h1, Finset.sum_add_distrib, Finset.sum_sub_distrib, ← Finset.mul_sum,
        ← Finset.mul_sum, ← hSdef, hvv]
      linear_combination (tau * S ^ 2) * hvv'

/-- `n = 3`, `incx = 2` meets the hypotheses. -/
example : StrideFits 2 2 [(3 : ℝ), 7, 4].length ∧ Unmixed 2 2 [(3 : ℝ), 7, 4] ∧
    (∃ k < 2, elt 2 2 [(3 : ℝ), 7, 4] k ≠ 0) ∧
    Real.sqrt (12 ^ 2 + ∑ k ∈ Finset.range 2, elt 2 2 [(3 : ℝ), 7, 4] k ^ 2) ≤ fMax := by
  have e0 : elt 2 2 [(3 : ℝ), 7, 4] 0 = 3 := by simp [elt, strideIx]
  have e1 : elt 2 2 [(3 : ℝ), 7, 4] 1 = 4 := by simp [elt, strideIx]
  have h2 : (13 : ℝ) < 2 ^ 505 :=
    lt_of_lt_of_le (by norm_num : (13 : ℝ) < 2 ^ 4) (pow_le_pow_right₀ (by norm_num) (by norm_num))
  refine ⟨by intro k hk; simp [strideIx]; omega, ?_, ⟨0, by norm_num, by rw [e0]; norm_num⟩, ?_⟩
  · rintro ⟨⟨j, hj, h⟩, -⟩
    have : |elt 2 2 [(3 : ℝ), 7, 4] j| ≤ 13 := by
      interval_cases j
      · rw [e0]; norm_num
      · rw [e1]; norm_num
    exact absurd (h2.trans h) (not_lt.2 this)
  · rw [Finset.sum_range_succ, Finset.sum_range_one, e0, e1,
      show (12 : ℝ) ^ 2 + (3 ^ 2 + 4 ^ 2) = 13 ^ 2 by norm_num, Real.sqrt_sq (by norm_num)]
    have h1 : (1 : ℝ) ≤ 2 - 1 / 2 ^ 52 := by norm_num
    have h3 : (13 : ℝ) ≤ 2 ^ 1023 := h2.le.trans (pow_le_pow_right₀ (by norm_num) (by norm_num))
    calc (13 : ℝ) = 1 * 13 := by norm_num
      _ ≤ _ := mul_le_mul h1 h3 (by norm_num) (le_trans (by norm_num) h1)

/-! ### C35 -/

section
variable {F : Type} [Scalar F]

/-- **C35.** `n ≤ 1`: nothing changes and `tau = 0`. -/
theorem C35_dlarfg_small {X : Type} [ToFA F X] [FromFA F X] (n : Int) (hn : n ≤ 1) (alpha : F) (x : X)
    (incx : Int) : dlarfg n alpha x incx = pure (alpha, x, zero) := by
  unfold dlarfg
  rw [if_pos hn]

/-- **C35.** A zero norm: nothing changes and `tau = 0`. -/
theorem C35_dlarfg_zero {X : Type} [ToFA F X] [FromFA F X] (n : Int) (h1 : 1 < n) (hn : n < 2 ^ 31)
    (alpha : F) (x : X) (incx : Int) (r : F) (h : dnrm2 (n - 1) x incx = pure r) (hr : (r =ᶠ zero) = true) :
    dlarfg n alpha x incx = pure (alpha, x, zero) := by
  unfold dlarfg
  rw [if_neg (by omega), isub_ok (by unfold FitsI32; omega), pure_bind, h, pure_bind, if_pos hr]

/-- `x'` differs from `x` at most at the `n` strided positions. -/
structure Spec.OnlyStride (n : Nat) (inc : Int) (x x' : List F) : Prop where
  length : x'.length = x.length
  frame : ∀ p, (∀ k < n, strideIx n inc k ≠ p) → x'[p]? = x[p]?

theorem dscal_only (n : Nat) (a : F) (x : List F) (incx : Int)
    (hx : StrideFits n incx x.length) (hox : n * incx.natAbs + 1 < 2 ^ 31) :
    ∃ x' : List F, dscal (n : Int) a x incx = pure x' ∧ OnlyStride n incx x x' := by
  by_cases h : (n : Int) ≤ 0 ∨ incx ≤ 0 ∨ (a =ᶠ one) = true
  · exact ⟨x, C13_dscal_noop _ _ _ _ h, rfl, fun _ _ => rfl⟩
  · push Not at h
    obtain ⟨x', e, l, _, f⟩ := C12_dscal n a (by simpa using h.2.2) x incx (by omega) hx hox
    exact ⟨x', e, l, f⟩

theorem rescale_only {n : Nat} {incx : Int} (hn : n < 2 ^ 31 - 1) (sm rs : F)
    (hox : n * incx.natAbs + 1 < 2 ^ 31) (k : Nat) :
    ∀ (x : List F) (_ : StrideFits n incx x.length) (beta alpha : F) (knt : Nat),
    ∃ x' b' a' knt', dlarfgRescale ((n : Int) + 1) incx sm rs k x beta alpha knt =
      pure (x', b', a', knt') ∧ OnlyStride n incx x x' := by
  induction k with
  | zero => exact fun x _ beta alpha knt => ⟨x, beta, alpha, knt, rfl, rfl, fun _ _ => rfl⟩
  | succ k ih =>
    intro x hx beta alpha knt
    obtain ⟨x1, e1, h1⟩ := dscal_only n rs x incx hx hox
    unfold dlarfgRescale
    rw [isub_ok (by unfold FitsI32; omega), pure_bind, show (n : Int) + 1 - 1 = n by ring, e1, pure_bind]
    simp only
    split
    · exact ⟨_, _, _, _, rfl, h1⟩
    · obtain ⟨x', b', a', knt', e2, h2⟩ := ih x1 (by rw [h1.length]; exact hx) (beta * rs) (alpha * rs) (knt + 1)
      exact ⟨x', b', a', knt', e2, h2.length.trans h1.length, fun p hp => (h2.frame p hp).trans (h1.frame p hp)⟩

theorem rescale_fuel {X : Type} [ToFA F X] [FromFA F X] (n incx : Int) (sm rs : F) (k d : Nat) :
    ∀ (x : X) (beta alpha : F) (knt : Nat), knt + (k + 1) = 21 →
    dlarfgRescale n incx sm rs (k + 1 + d) x beta alpha knt =
      dlarfgRescale n incx sm rs (k + 1) x beta alpha knt := by
  induction k with
  | zero =>
    intro x beta alpha knt h
    rw [show 0 + 1 + d = d + 1 by omega]
    unfold dlarfgRescale
    have : knt + 1 > 20 := by omega
    simp only [this, decide_true, Bool.or_true, if_true]
  | succ k ih =>
    intro x beta alpha knt h
    rw [show k + 1 + 1 + d = (k + 1 + d) + 1 by omega]
    unfold dlarfgRescale
    simp only
    congr 1
    funext n'
    congr 1
    funext x'
    split
    · rfl
    · exact ih _ _ _ _ (by omega)

/-- **C35.** The rescaling loop makes at most 21 rounds: more fuel does not change its result, for any
scalar arithmetic (the exit test `knt > 20` is reached). -/
theorem C35_rescale_bound {X : Type} [ToFA F X] [FromFA F X] (n incx : Int) (sm rs : F) (fuel : Nat)
    (hf : 21 ≤ fuel) (x : X) (beta alpha : F) :
    dlarfgRescale n incx sm rs fuel x beta alpha 0 = dlarfgRescale n incx sm rs 21 x beta alpha 0 := by
  obtain ⟨d, rfl⟩ := Nat.exists_eq_add_of_le hf
  exact rescale_fuel n incx sm rs 20 d x beta alpha 0 rfl

/-- **C35.** For every scalar type, every input, every increment: `dlarfg` returns normally (so its
rescaling loop ends), keeps the length of `x` and every element outside the `n - 1` strided ones. -/
theorem C35_dlarfg_returns (m : Nat) (alpha : F) (x : List F) (incx : Int)
    (hx : StrideFits m incx x.length) (hl : x.length < 2 ^ 60) (hm : m < 2 ^ 31 - 1)
    (hox : m * incx.natAbs + 1 < 2 ^ 31) :
    ∃ alpha' x' tau, dlarfg ((m : Int) + 1) alpha x incx = pure (alpha', x', tau) ∧
      OnlyStride m incx x x' := by
  by_cases hm0 : m = 0
  · subst hm0
    exact ⟨alpha, x, zero, C35_dlarfg_small _ (by simp) _ _ _, rfl, fun _ _ => rfl⟩
  have hnrm : ∀ y : List F, y.length = x.length → ∃ r : F, dnrm2 (m : Int) y incx = pure r := by
    intro y hy
    exact ⟨_, dnrm2FA_fold (by omega) hox _ (by show y.length < _; omega)⟩
  have hfin : ∀ (sm a b : F) (y : List F) (knt : Nat), OnlyStride m incx x y →
      ∃ alpha' x' tau, dlarfgFinish ((m : Int) + 1) incx sm a b y knt = pure (alpha', x', tau) ∧
        OnlyStride m incx x x' := by
    intro sm a b y knt hy
    obtain ⟨x1, e1, h1⟩ := dscal_only m (one / (a - b)) y incx (by rw [hy.length]; exact hx) hox
    unfold dlarfgFinish
    rw [isub_ok (by unfold FitsI32; omega), pure_bind, show (m : Int) + 1 - 1 = m by ring]
    rw [e1, pure_bind]
    exact ⟨_, _, _, rfl, h1.length.trans hy.length, fun p hp => (h1.frame p hp).trans (hy.frame p hp)⟩
  obtain ⟨r, hr⟩ := hnrm x rfl
  unfold dlarfg
  rw [if_neg (by omega), isub_ok (by unfold FitsI32; omega), pure_bind,
    show (m : Int) + 1 - 1 = m by ring, hr, pure_bind]
  split
  · exact ⟨_, _, _, rfl, rfl, fun _ _ => rfl⟩
  · simp only
    split
    · obtain ⟨x', b', a', knt', e2, h2⟩ := rescale_only hm (dlamch 'S' / dlamch 'E' : F)
        (one / (dlamch 'S' / dlamch 'E')) hox 21 x hx (-signum alpha * dlapy2 alpha r) alpha 0
      rw [e2, pure_bind]
      obtain ⟨r2, hr2⟩ := hnrm x' h2.length
      simp only
      rw [pure_bind, hr2, pure_bind]
      exact hfin _ _ _ _ _ h2
    · exact hfin _ _ _ _ _ ⟨rfl, fun _ _ => rfl⟩

end

end Verif
