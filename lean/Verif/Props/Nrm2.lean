import Verif.Lib.Exact
import Verif.Props.Blas1
import Mathlib.Tactic.FieldSimp
import Mathlib.Tactic.Positivity
import Mathlib.Tactic.IntervalCases
import Mathlib.Algebra.Order.BigOperators.Group.Finset

/-!
# `dnrm2`: traversal (any scalar type) and value in exact arithmetic (C16)
-/

namespace Verif
open Scalar Spec XR

section
variable {F : Type} [Scalar F]

/-- Specification: the `n` strided elements, in order (reading outside the vector gives
`MIN_POSITIVE`, property C01). -/
def Spec.strided (n : Nat) (inc : Int) (x : List F) : List F :=
  (List.range n).map fun k => x.getD (strideIx n inc k) minPositive

theorem strided_get1 {x : FA F} (hl : x.data.length < 2 ^ 62) {n : Nat} {inc : Int}
    (h : StrideOK n inc) {k : Nat} (hk : k < n) :
    x.get1 (pos n inc k) = x.data.getD (strideIx n inc k) minPositive := by
  have h1 : Is1 x x.data.length (ofList x.data) := (tab_ofList x.data).symm
  by_cases hin : strideIx n inc k < x.data.length
  · rw [get1_is1 h1 (pos_fits h hk).1 (by unfold pos; omega) (pos_fits h hk).2]
    unfold pos
    rw [ofList_succ _ hin]
    simp [hin]
  · rw [get1_is1_out h1 (by unfold pos; omega) (pos_fits h hk).2 hl]
    simp [List.getD_eq_getElem?_getD, hin]

/-- The loop of `dnrm2` visits exactly the `n` strided elements, in order. -/
theorem dnrm2FA_fold {n : Nat} {inc : Int} (hn : 0 < n) (h : StrideOK n inc) (x : FA F)
    (hl : x.data.length < 2 ^ 62) :
    dnrm2FA (n : Int) x inc =
      pure (nrm2Final ((strided n inc x.data).foldl nrm2Acc ⟨true, zero, zero, zero⟩)) := by
  unfold dnrm2FA
  rw [if_neg (by omega)]
  have hix : (if inc < 0 then (do isub 1 (← imul (← isub (n : Int) 1) inc)) else pure 1 : R Int) =
      pure (ixAt n inc 0) := by
    have hf := ixAt_fits hn h (Nat.zero_le n)
    have habs : (n : Int) * |inc| + 1 < 2147483648 := by
      have : ((n * inc.natAbs + 1 : Nat) : Int) < 2147483648 := by exact_mod_cast h
      push_cast at this; exact this
    have h1 : (1 : Int) ≤ n := by omega
    by_cases hneg : inc < 0
    · rw [if_pos hneg]
      have e0 : ixAt n inc 0 = 1 + ((n : Int) - 1) * (-inc) := by
        unfold ixAt; rw [if_pos hneg]; push_cast; ring
      rw [e0] at hf ⊢
      rw [abs_of_neg hneg] at habs
      have hb : (0 : Int) ≤ ((n : Int) - 1) * (-inc) := Int.mul_nonneg (by omega) (by omega)
      have hn2 : (n : Int) ≤ n * (-inc) := by nlinarith
      rw [isub_ok (by unfold FitsI32; omega)]
      simp only [pure_bind]
      have e1 : ((n : Int) - 1) * inc = -(((n : Int) - 1) * (-inc)) := by ring
      rw [imul_ok (by rw [e1]; unfold FitsI32 at hf ⊢; omega), e1]
      simp only [pure_bind]
      rw [isub_ok (by unfold FitsI32 at hf ⊢; omega)]
      congr 1; ring
    · rw [if_neg hneg]
      unfold ixAt
      rw [if_neg hneg]; simp
  obtain ⟨s', h1, h2⟩ := forUp_iter (P := fun k (s : Nrm2 F × Int) =>
      s.2 = ixAt n inc k ∧ s.1 = ((List.range k).map fun k =>
        x.data.getD (strideIx n inc k) minPositive).foldl nrm2Acc ⟨true, zero, zero, zero⟩)
    (f := nrm2Step x inc) n (s := (⟨true, zero, zero, zero⟩, ixAt n inc 0)) ⟨rfl, rfl⟩
    (by
      rintro k ⟨d, ix⟩ hk ⟨rfl, rfl⟩
      unfold nrm2Step
      simp only
      rw [iadd_ok (by rw [← ixAt_succ]; exact ixAt_fits hn h hk)]
      refine ⟨_, rfl, by rw [ixAt_succ], ?_⟩
      simp only
      rw [ixAt_eq_pos hk, strided_get1 hl h hk, List.range_succ, List.map_append,
        List.foldl_append]
      rfl)
  have e : ∀ (k : Int → R F), (if inc < 0 then (do let ix ← isub 1 (← imul (← isub (n : Int) 1) inc); k ix)
      else k 1 : R F) = (if inc < 0 then (do isub 1 (← imul (← isub (n : Int) 1) inc)) else pure 1 : R Int) >>= k := by
    intro k
    split <;> simp
  refine (e _).trans ?_
  rw [hix, pure_bind, h1, pure_bind, h2.2]
  rfl

end

/-! ### Exact arithmetic -/

theorem tsml_eq : (tsml : XR) = fin (1 / 2 ^ 511) := by
  unfold tsml
  simp only [ofInt_eq, lit_eq, fin_sub, fin_mul]
  rw [fin_powf _ _ (Or.inl (by norm_num))]
  congr 1
  rw [show ((((-1021 : Int) : ℝ) - ((1 : Int) : ℝ)) * (((1 : Int) : ℝ) / 2 ^ 1)) = -((511 : ℕ) : ℝ) by
    push_cast; norm_num]
  rw [Real.rpow_neg (by norm_num), Real.rpow_natCast]; push_cast; rw [one_div]

theorem tbig_eq : (tbig : XR) = fin (2 ^ 505) := by
  unfold tbig
  simp only [ofInt_eq, lit_eq, fin_sub, fin_add, fin_mul]
  rw [fin_powf _ _ (Or.inl (by norm_num))]
  congr 1
  rw [show ((((1024 : Int) : ℝ) - ((15 : Int) : ℝ) + ((1 : Int) : ℝ)) * (((1 : Int) : ℝ) / 2 ^ 1)) =
    ((505 : ℕ) : ℝ) by push_cast; norm_num]
  rw [Real.rpow_natCast]; push_cast; rfl

theorem ssml_eq : (ssml : XR) = fin (2 ^ 518) := by
  unfold ssml
  simp only [ofInt_eq, lit_eq, fin_sub, fin_neg, fin_mul]
  rw [fin_powf _ _ (Or.inl (by norm_num))]
  congr 1
  rw [show (-(((-1021 : Int) : ℝ) - ((15 : Int) : ℝ)) * (((1 : Int) : ℝ) / 2 ^ 1)) = ((518 : ℕ) : ℝ) by
    push_cast; norm_num]
  rw [Real.rpow_natCast]; push_cast; rfl

theorem sbig_eq : (sbig : XR) = fin (1 / 2 ^ 519) := by
  unfold sbig
  simp only [ofInt_eq, lit_eq, fin_sub, fin_add, fin_neg, fin_mul]
  rw [fin_powf _ _ (Or.inl (by norm_num))]
  congr 1
  rw [show (-(((1024 : Int) : ℝ) + ((15 : Int) : ℝ) - ((1 : Int) : ℝ)) * (((1 : Int) : ℝ) / 2 ^ 1)) =
    -((519 : ℕ) : ℝ) by push_cast; norm_num]
  rw [Real.rpow_neg (by norm_num), Real.rpow_natCast]; push_cast; rw [one_div]

/-- Sum of the squares of the elements satisfying `p`. -/
noncomputable def sumSq (p : ℝ → Prop) [DecidablePred p] : List ℝ → ℝ
  | [] => 0
  | x :: l => (if p x then x ^ 2 else 0) + sumSq p l

theorem sumSq_nonneg (p : ℝ → Prop) [DecidablePred p] (l : List ℝ) : 0 ≤ sumSq p l := by
  induction l with
  | nil => exact le_refl _
  | cons x l ih =>
    unfold sumSq
    split
    · positivity
    · simpa using ih

open Classical in
/-- The accumulators after a list of finite elements, with thresholds `ts < tb` and scale factors
`ss`, `sb`. -/
theorem nrm2_fold_fin (ts tb ss sb : ℝ) (hts : (tsml : XR) = fin ts) (htb : (tbig : XR) = fin tb)
    (hss : (ssml : XR) = fin ss) (hsb : (sbig : XR) = fin sb) (ss0 : 0 < ss) (sb0 : 0 < sb)
    (l : List ℝ) (nb : Bool) (s m b : ℝ) :
    ∃ s', (l.map fin).foldl nrm2Acc ⟨nb, fin s, fin m, fin b⟩ =
      ⟨nb && decide (∀ x ∈ l, |x| ≤ tb), fin s',
        fin (m + sumSq (fun x => ¬ tb < |x| ∧ ¬ |x| < ts) l),
        fin (b + sb ^ 2 * sumSq (fun x => tb < |x|) l)⟩ ∧
      (nb = true → (∀ x ∈ l, |x| ≤ tb) → s' = s + ss ^ 2 * sumSq (fun x => ¬ tb < |x| ∧ |x| < ts) l) := by
  induction l generalizing nb s m b with
  | nil => exact ⟨s, by simp [sumSq], fun _ _ => by simp [sumSq]⟩
  | cons x l ih =>
    rw [List.map_cons, List.foldl_cons]
    by_cases h1 : tb < |x|
    · have e : nrm2Acc ⟨nb, fin s, fin m, fin b⟩ (fin x) = ⟨false, fin s, fin m, fin (b + (|x| * sb) ^ 2)⟩ := by
        unfold nrm2Acc
        simp only [fin_abs, htb, fin_lt, h1, hsb, fin_mul, decide_true, if_true]
        rw [fin_powf_two _ (by positivity), fin_add]
      obtain ⟨s', h2, _⟩ := ih false s m (b + (|x| * sb) ^ 2)
      refine ⟨s', ?_, ?_⟩
      · rw [e, h2]
        have : ¬ ∀ y ∈ x :: l, |y| ≤ tb := fun h => absurd (h x (by simp)) (not_le.2 h1)
        simp only [Bool.false_and, this, decide_false, Bool.and_false, sumSq, h1, not_true_eq_false,
          false_and, if_false, if_true, zero_add]
        congr 2
        rw [mul_pow, sq_abs]; ring
      · intro _ h
        exact absurd (h x (by simp)) (not_le.2 h1)
    · have hb : (∀ y ∈ x :: l, |y| ≤ tb) ↔ ∀ y ∈ l, |y| ≤ tb := by simp [not_lt.1 h1]
      by_cases h2 : |x| < ts
      · by_cases hn : nb = true
        · have e : nrm2Acc ⟨nb, fin s, fin m, fin b⟩ (fin x) = ⟨nb, fin (s + (|x| * ss) ^ 2), fin m, fin b⟩ := by
            unfold nrm2Acc
            simp only [fin_abs, htb, fin_lt, h1, hss, hts, h2, fin_mul, decide_true, if_true,
              decide_false, Bool.false_eq_true, if_false, hn]
            rw [fin_powf_two _ (by positivity), fin_add]
          obtain ⟨s', h3, h4⟩ := ih nb (s + (|x| * ss) ^ 2) m b
          refine ⟨s', ?_, ?_⟩
          · rw [e, h3]
            simp only [hb, sumSq, h1, h2, not_true_eq_false, and_false, if_false, zero_add]
          · intro _ h
            rw [h4 hn (hb.1 h)]
            simp only [sumSq, h1, h2, not_false_eq_true, and_true, if_true]
            rw [mul_pow, sq_abs]; ring
        · have e : nrm2Acc ⟨nb, fin s, fin m, fin b⟩ (fin x) = ⟨nb, fin s, fin m, fin b⟩ := by
            unfold nrm2Acc
            simp only [fin_abs, htb, fin_lt, h1, hts, h2, decide_true, if_true,
              decide_false, Bool.false_eq_true, if_false, hn]
          obtain ⟨s', h3, _⟩ := ih nb s m b
          refine ⟨s', ?_, fun h => absurd h hn⟩
          rw [e, h3]
          simp only [hb, sumSq, h1, h2, not_true_eq_false, and_false, if_false, zero_add]
      · have e : nrm2Acc ⟨nb, fin s, fin m, fin b⟩ (fin x) = ⟨nb, fin s, fin (m + |x| ^ 2), fin b⟩ := by
          unfold nrm2Acc
          simp only [fin_abs, htb, fin_lt, h1, hts, h2,
            decide_false, Bool.false_eq_true, if_false]
          rw [fin_powf_two _ (by positivity), fin_add]
        obtain ⟨s', h3, h4⟩ := ih nb s (m + |x| ^ 2) b
        refine ⟨s', ?_, ?_⟩
        · rw [e, h3]
          simp only [hb, sumSq, h1, h2, not_false_eq_true, and_self, if_true, if_false, zero_add,
            sq_abs]
          congr 2; ring
        · intro hn h
          rw [h4 hn (hb.1 h)]
          simp only [sumSq, h1, h2, and_false, if_false, zero_add]

theorem ts_lt_tb : (1 / 2 ^ 511 : ℝ) < 2 ^ 505 := by
  have h1 : (1 / 2 ^ 511 : ℝ) ≤ 1 := by
    rw [div_le_one (by positivity)]; exact one_le_pow₀ (by norm_num)
  have h2 : (1 : ℝ) < 2 ^ 505 := one_lt_pow₀ (by norm_num) (by norm_num)
  exact h1.trans_lt h2

theorem nrm2Final_big (sb : ℝ) (hsb : (sbig : XR) = fin sb) (sb0 : 0 < sb) (nb : Bool) (s m b : ℝ)
    (hm : 0 ≤ m) (hb : 0 < b) :
    nrm2Final ⟨nb, fin s, fin m, fin (sb ^ 2 * b)⟩ = fin (Real.sqrt (b + m)) := by
  unfold nrm2Final
  have h0 : (0 : ℝ) < sb ^ 2 * b := by positivity
  simp only [hsb, ofInt_eq, fin_lt, Int.cast_zero, Int.cast_one, h0, decide_true, if_true, maxValue_eq,
    fin_beq, Bool.not_true, Bool.or_false]
  have key : (if (decide (0 < m) || decide ((2 - 1 / 2 ^ 52) * 2 ^ 1023 < m)) = true then
      fin (sb ^ 2 * b) + fin m * fin sb * fin sb else fin (sb ^ 2 * b)) = fin (sb ^ 2 * (b + m)) := by
    split
    · simp; ring
    · rename_i h
      simp only [Bool.or_eq_true, decide_eq_true_eq, not_or] at h
      have : m = 0 := le_antisymm (not_lt.1 h.1) hm
      rw [this, add_zero]
  rw [key, fin_div _ _ (ne_of_gt sb0), fin_sqrt _ (by positivity), fin_mul]
  congr 1
  rw [Real.sqrt_mul (by positivity), Real.sqrt_sq sb0.le]
  field_simp

theorem nrm2Final_small (ss : ℝ) (hss : (ssml : XR) = fin ss) (ss0 : 0 < ss) (nb : Bool) (s m : ℝ)
    (hm : 0 ≤ m) (hs : 0 ≤ s) :
    nrm2Final ⟨nb, fin (ss ^ 2 * s), fin m, fin 0⟩ = fin (Real.sqrt (s + m)) := by
  unfold nrm2Final
  simp only [hss, ofInt_eq, fin_lt, Int.cast_zero, Int.cast_one, lt_self_iff_false, decide_false,
    Bool.false_eq_true, if_false, maxValue_eq, fin_beq, decide_true, Bool.not_true, Bool.or_false]
  by_cases h0 : 0 < s
  · have h1 : 0 < ss ^ 2 * s := by positivity
    simp only [h1, decide_true, if_true]
    by_cases h2 : 0 < m
    · simp only [h2, decide_true, Bool.true_or, if_true]
      rw [fin_sqrt _ hm, fin_sqrt _ h1.le, fin_div _ _ (ne_of_gt ss0), fin_lt]
      have e1 : Real.sqrt (ss ^ 2 * s) / ss = Real.sqrt s := by
        rw [Real.sqrt_mul (by positivity), Real.sqrt_sq ss0.le]; field_simp
      rw [e1]
      have key : ∀ p q : ℝ, 0 < p → 0 < q → (fin 1 : XR) * Scalar.sqrt (Scalar.powf (fin (Real.sqrt p)) two *
          (fin 1 + Scalar.powf (fin (Real.sqrt q) / fin (Real.sqrt p)) two)) = fin (Real.sqrt (p + q)) := by
        intro p q hp hq
        have hp' : Real.sqrt p ≠ 0 := ne_of_gt (Real.sqrt_pos.2 hp)
        rw [fin_div _ _ hp', fin_powf_two _ (Real.sqrt_nonneg _), fin_powf_two _ (by positivity),
          fin_add, fin_mul, fin_sqrt _ (by positivity), fin_mul, one_mul]
        congr 2
        rw [div_pow, Real.sq_sqrt hp.le, Real.sq_sqrt hq.le]
        field_simp
      split
      · have := key s m h0 h2
        exact this
      · have := key m s h2 h0
        rw [add_comm]; exact this
    · have : m = 0 := le_antisymm (not_lt.1 h2) hm
      subst this
      have h3 : ¬ ((2 - 1 / 2 ^ 52) * 2 ^ 1023 : ℝ) < 0 := not_lt.2 (by norm_num)
      simp only [h3, h2, decide_false, Bool.or_self, Bool.false_eq_true, if_false]
      rw [fin_div _ _ (ne_of_gt ss0), fin_sqrt _ h1.le, fin_mul, add_zero]
      congr 1
      rw [Real.sqrt_mul (by positivity), Real.sqrt_sq ss0.le]; field_simp
  · have : s = 0 := le_antisymm (not_lt.1 h0) hs
    subst this
    simp only [mul_zero, lt_self_iff_false, decide_false, Bool.false_eq_true, if_false]
    rw [fin_sqrt _ hm, fin_mul, one_mul, zero_add]

theorem sumSq_pos {p : ℝ → Prop} [DecidablePred p] {l : List ℝ} {x : ℝ} (hx : x ∈ l) (hp : p x)
    (h0 : x ≠ 0) : 0 < sumSq p l := by
  induction l with
  | nil => simp at hx
  | cons y l ih =>
    unfold sumSq
    have h2 := sumSq_nonneg p l
    rcases List.mem_cons.1 hx with rfl | h
    · rw [if_pos hp]
      have : 0 < x ^ 2 := by positivity
      linarith
    · have := ih h
      split
      · have : 0 ≤ y ^ 2 := by positivity
        linarith
      · linarith

theorem sumSq_zero {p : ℝ → Prop} [DecidablePred p] {l : List ℝ} (h : ∀ x ∈ l, ¬ p x) :
    sumSq p l = 0 := by
  induction l with
  | nil => rfl
  | cons y l ih =>
    unfold sumSq
    rw [if_neg (h y (by simp)), ih (fun x hx => h x (by simp [hx])), add_zero]

theorem sumSq_or {p q r : ℝ → Prop} [DecidablePred p] [DecidablePred q] [DecidablePred r] {l : List ℝ}
    (h : ∀ x ∈ l, r x ↔ p x ∨ q x) (h' : ∀ x ∈ l, ¬ (p x ∧ q x)) : sumSq r l = sumSq p l + sumSq q l := by
  induction l with
  | nil => simp [sumSq]
  | cons y l ih =>
    unfold sumSq
    rw [ih (fun x hx => h x (by simp [hx])) (fun x hx => h' x (by simp [hx]))]
    have h1 := h y (by simp)
    have h2 := h' y (by simp)
    by_cases a : p y <;> by_cases b : q y
    · exact absurd ⟨a, b⟩ h2
    · simp [h1, a, b]; ring
    · simp [h1, a, b]; ring
    · simp [h1, a, b]

theorem sumSq_range (p : ℝ → Prop) [DecidablePred p] (f : Nat → ℝ) (n : Nat) :
    sumSq p ((List.range n).map f) = ∑ k ∈ (Finset.range n).filter (fun k => p (f k)), f k ^ 2 := by
  rw [Finset.sum_filter]
  induction n with
  | zero => rfl
  | succ n ih =>
    have happ : ∀ (l : List ℝ) (x : ℝ), sumSq p (l ++ [x]) = sumSq p l + if p x then x ^ 2 else 0 := by
      intro l x
      induction l with
      | nil => simp [sumSq]
      | cons y l ih => rw [List.cons_append, sumSq, ih, sumSq]; ring
    rw [List.range_succ, List.map_append, List.map_singleton, happ, ih, Finset.sum_range_succ]

open Classical in
/-- The value of the accumulation for a list of finite elements. -/
theorem nrm2_value (l : List ℝ) :
    nrm2Final ((l.map fin).foldl nrm2Acc ⟨true, zero, zero, zero⟩ : Nrm2 XR) =
      fin (Real.sqrt (sumSq (fun x => (∃ y ∈ l, 2 ^ 505 < |y|) → 1 / 2 ^ 511 ≤ |x|) l)) := by
  have hz : (zero : XR) = fin 0 := by simp
  rw [hz]
  have ss0 : (0 : ℝ) < 2 ^ 518 := by positivity
  have sb0 : (0 : ℝ) < 1 / 2 ^ 519 := by positivity
  have hts := ts_lt_tb
  obtain ⟨s', h1, h2⟩ := nrm2_fold_fin _ _ _ _ tsml_eq tbig_eq ssml_eq sbig_eq ss0 sb0 l true 0 0 0
  rw [h1]
  by_cases hb : ∃ y ∈ l, (2 ^ 505 : ℝ) < |y|
  · obtain ⟨y, hy, hy'⟩ := hb
    have hpos : 0 < sumSq (fun x => (2 ^ 505 : ℝ) < |x|) l := by
      apply sumSq_pos hy hy'
      rintro rfl
      rw [abs_zero] at hy'
      exact absurd hy' (not_lt.2 (by positivity))
    rw [zero_add, zero_add, nrm2Final_big _ sbig_eq sb0 _ _ _ _ (sumSq_nonneg _ _) hpos]
    congr 2
    symm
    apply sumSq_or
    · intro x hx
      constructor
      · intro h
        have := h ⟨y, hy, hy'⟩
        by_cases g : (2 ^ 505 : ℝ) < |x|
        · exact Or.inl g
        · exact Or.inr ⟨g, not_lt.2 this⟩
      · rintro (g | g) _
        · exact (hts.trans g).le
        · exact not_lt.1 g.2
    · rintro x _ ⟨g1, g2⟩
      exact g2.1 g1
  · have hb' : ∀ x ∈ l, |x| ≤ (2 ^ 505 : ℝ) := by
      intro x hx
      by_contra h
      exact hb ⟨x, hx, not_le.1 h⟩
    rw [h2 rfl hb']
    rw [sumSq_zero (p := fun x => (2 ^ 505 : ℝ) < |x|) (fun x hx => not_lt.2 (hb' x hx))]
    rw [zero_add, zero_add, zero_add, mul_zero,
      nrm2Final_small _ ssml_eq ss0 _ _ _ (sumSq_nonneg _ _) (sumSq_nonneg _ _)]
    congr 2
    symm
    apply sumSq_or
    · intro x hx
      have := not_lt.2 (hb' x hx)
      constructor
      · intro _
        by_cases g : |x| < (1 / 2 ^ 511 : ℝ)
        · exact Or.inl ⟨this, g⟩
        · exact Or.inr ⟨this, g⟩
      · intro _ h
        exact absurd h hb
    · rintro x _ ⟨g1, g2⟩
      exact g2.2 g1.2

theorem strided_map {n : Nat} {inc : Int} {x : List ℝ} (h : StrideFits n inc x.length) :
    strided n inc (x.map fin) = ((List.range n).map fun k => x.getD (strideIx n inc k) 0).map fin := by
  unfold strided
  rw [List.map_map]
  apply List.map_congr_left
  intro k hk
  have := h k (List.mem_range.1 hk)
  simp [List.getD_eq_getElem?_getD, this]

open Classical in
/-- **C16, all finite vectors.** In exact arithmetic `dnrm2` returns the square root of the sum of the
squares of the strided elements; if some element exceeds `2^505`, elements below `2^-511` are left out,
and nothing else is. -/
theorem C16_dnrm2 (n : Nat) (x : List ℝ) (incx : Int) (hx : StrideFits n incx x.length)
    (hl : x.length < 2 ^ 60) (hox : n * incx.natAbs + 1 < 2 ^ 31) :
    dnrm2 (n : Int) (x.map fin) incx = (pure (fin (Real.sqrt
      (∑ k ∈ (Finset.range n).filter (fun k =>
        (∃ j < n, 2 ^ 505 < |x.getD (strideIx n incx j) 0|) →
          1 / 2 ^ 511 ≤ |x.getD (strideIx n incx k) 0|),
        x.getD (strideIx n incx k) 0 ^ 2))) : R XR) := by
  by_cases hn : 0 < n
  · unfold dnrm2
    rw [dnrm2FA_fold hn hox _ (by show (x.map fin).length < _; rw [List.length_map]; omega)]
    show pure (nrm2Final ((strided n incx (x.map fin)).foldl _ _)) = _
    rw [strided_map hx, nrm2_value]
    congr 3
    have : (fun x_1 : ℝ => (∃ y ∈ List.map (fun k => x.getD (strideIx n incx k) 0) (List.range n),
        2 ^ 505 < |y|) → 1 / 2 ^ 511 ≤ |x_1|) =
        fun x_1 : ℝ => (∃ j < n, 2 ^ 505 < |x.getD (strideIx n incx j) 0|) → 1 / 2 ^ 511 ≤ |x_1| := by
      funext z
      simp only [List.mem_map, List.mem_range, exists_exists_and_eq_and]
    simp only [this]
    convert sumSq_range (fun z : ℝ => (∃ j < n, 2 ^ 505 < |x.getD (strideIx n incx j) 0|) → 1 / 2 ^ 511 ≤ |z|) _ n
  · have : n = 0 := by omega
    subst this
    unfold dnrm2 dnrm2FA
    simp

/-- **C16.** As long as the vector does not mix elements above `2^505` with non-zero elements below
`2^-511`, `dnrm2` is the Euclidean norm. -/
theorem C16_dnrm2_euclid (n : Nat) (x : List ℝ) (incx : Int) (hx : StrideFits n incx x.length)
    (hl : x.length < 2 ^ 60) (hox : n * incx.natAbs + 1 < 2 ^ 31)
    (hmix : ¬ ((∃ j < n, 2 ^ 505 < |x.getD (strideIx n incx j) 0|) ∧
      ∃ j < n, x.getD (strideIx n incx j) 0 ≠ 0 ∧ |x.getD (strideIx n incx j) 0| < 1 / 2 ^ 511)) :
    dnrm2 (n : Int) (x.map fin) incx =
      (pure (fin (Real.sqrt (∑ k ∈ Finset.range n, x.getD (strideIx n incx k) 0 ^ 2))) : R XR) := by
  classical
  rw [C16_dnrm2 n x incx hx hl hox]
  congr 3
  rw [Finset.sum_filter]
  apply Finset.sum_congr rfl
  intro k hk
  split
  · rfl
  · rename_i h
    push Not at h
    by_contra hne
    exact hmix ⟨h.1, k, Finset.mem_range.1 hk, fun h0 => hne (by rw [h0]; norm_num), h.2⟩

/-- **C16, size of the error for a mixed vector.** The square of the result is below the true sum of
squares by a factor of at most `1 + 2^-2001` (there are fewer than `2^31` elements). -/
theorem C16_dnrm2_mixed (n : Nat) (x : List ℝ) (incx : Int) (hx : StrideFits n incx x.length)
    (hl : x.length < 2 ^ 60) (hox : n * incx.natAbs + 1 < 2 ^ 31) (hn : n < 2 ^ 31) :
    ∃ r : ℝ, dnrm2 (n : Int) (x.map fin) incx = (pure (fin r) : R XR) ∧ 0 ≤ r ∧
      r ^ 2 ≤ ∑ k ∈ Finset.range n, x.getD (strideIx n incx k) 0 ^ 2 ∧
      ∑ k ∈ Finset.range n, x.getD (strideIx n incx k) 0 ^ 2 ≤ (1 + 1 / 2 ^ 2001) * r ^ 2 := by
  classical
  set f : Nat → ℝ := fun k => x.getD (strideIx n incx k) 0 with hf
  have hS : ∀ s : Finset Nat, 0 ≤ ∑ k ∈ s, f k ^ 2 := fun s => Finset.sum_nonneg fun k _ => sq_nonneg _
  refine ⟨_, C16_dnrm2 n x incx hx hl hox, Real.sqrt_nonneg _, ?_⟩
  rw [Real.sq_sqrt (hS _)]
  set P : Nat → Prop := fun k => (∃ j < n, 2 ^ 505 < |f j|) → 1 / 2 ^ 511 ≤ |f k| with hP
  have hsplit := Finset.sum_filter_add_sum_filter_not (Finset.range n) P (fun k => f k ^ 2)
  have h0 := hS ((Finset.range n).filter fun k => ¬ P k)
  refine ⟨by linarith, ?_⟩
  rw [← hsplit]
  by_cases hb : ∃ j < n, 2 ^ 505 < |f j|
  · obtain ⟨j, hj, hj'⟩ := hb
    have hts := ts_lt_tb
    have hbig : (2 ^ 505 : ℝ) ^ 2 ≤ ∑ k ∈ (Finset.range n).filter P, f k ^ 2 := by
      have h1 : f j ^ 2 ≤ ∑ k ∈ (Finset.range n).filter P, f k ^ 2 := by
        apply Finset.single_le_sum (f := fun k => f k ^ 2) (fun k _ => sq_nonneg _)
        rw [Finset.mem_filter]
        exact ⟨Finset.mem_range.2 hj, fun _ => (hts.trans hj').le⟩
      have h2 : (2 ^ 505 : ℝ) ^ 2 ≤ f j ^ 2 := by
        rw [← sq_abs (f j)]
        exact pow_le_pow_left₀ (by positivity) hj'.le 2
      linarith
    have hsm : ∑ k ∈ (Finset.range n).filter (fun k => ¬ P k), f k ^ 2 ≤ n * (1 / 2 ^ 511) ^ 2 := by
      calc ∑ k ∈ (Finset.range n).filter (fun k => ¬ P k), f k ^ 2
          ≤ ∑ k ∈ (Finset.range n).filter (fun k => ¬ P k), ((1 / 2 ^ 511 : ℝ)) ^ 2 := by
            apply Finset.sum_le_sum
            intro k hk
            have := (Finset.mem_filter.1 hk).2
            simp only [hP] at this
            push Not at this
            rw [← sq_abs (f k)]
            exact pow_le_pow_left₀ (abs_nonneg _) this.2.le 2
        _ = ((Finset.range n).filter (fun k => ¬ P k)).card * (1 / 2 ^ 511 : ℝ) ^ 2 := by
            rw [Finset.sum_const, nsmul_eq_mul]
        _ ≤ n * (1 / 2 ^ 511) ^ 2 := by
            apply mul_le_mul_of_nonneg_right _ (by positivity)
            exact_mod_cast (Finset.card_filter_le _ _).trans (by simp)
    have hn' : (n : ℝ) ≤ 2 ^ 31 := by exact_mod_cast hn.le
    have hfin : (n : ℝ) * (1 / 2 ^ 511) ^ 2 ≤ 1 / 2 ^ 2001 * (2 ^ 505) ^ 2 := by
      have : (n : ℝ) * (1 / 2 ^ 511) ^ 2 ≤ 2 ^ 31 * (1 / 2 ^ 511) ^ 2 :=
        mul_le_mul_of_nonneg_right hn' (by positivity)
      refine this.trans (le_of_eq ?_)
      rw [div_pow, one_pow, mul_one_div, div_mul_eq_mul_div, one_mul, div_eq_div_iff (by positivity)
        (by positivity), ← pow_mul, ← pow_mul, ← pow_add, ← pow_add]
    have hm : (1 / 2 ^ 2001 : ℝ) * (2 ^ 505) ^ 2 ≤
        1 / 2 ^ 2001 * ∑ k ∈ (Finset.range n).filter P, f k ^ 2 :=
      mul_le_mul_of_nonneg_left hbig (by positivity)
    linarith
  · have : (Finset.range n).filter (fun k => ¬ P k) = ∅ := by
      rw [Finset.filter_eq_empty_iff]
      intro k _ h
      exact h fun g => absurd g hb
    rw [this, Finset.sum_empty, add_zero]
    have := hS ((Finset.range n).filter P)
    have h3 : (0 : ℝ) ≤ 1 / 2 ^ 2001 * ∑ k ∈ (Finset.range n).filter P, f k ^ 2 := by positivity
    linarith

/-- A vector of three elements traversed backwards with stride 2 meets the hypotheses. -/
example : StrideFits 3 (-2) [(3 : ℝ), 0, 4, 0, 12].length ∧
    ¬ ((∃ j < 3, (2 : ℝ) ^ 505 < |[(3 : ℝ), 0, 4, 0, 12].getD (strideIx 3 (-2) j) 0|) ∧
      ∃ j < 3, [(3 : ℝ), 0, 4, 0, 12].getD (strideIx 3 (-2) j) 0 ≠ 0 ∧
        |[(3 : ℝ), 0, 4, 0, 12].getD (strideIx 3 (-2) j) 0| < 1 / 2 ^ 511) := by
  refine ⟨by intro k hk; simp [strideIx]; omega, ?_⟩
  rintro ⟨⟨j, hj, h⟩, -⟩
  have : |[(3 : ℝ), 0, 4, 0, 12].getD (strideIx 3 (-2) j) 0| ≤ 12 := by
    interval_cases j <;> simp [strideIx] <;> norm_num
  have h2 : (12 : ℝ) < 2 ^ 505 :=
    lt_of_lt_of_le (by norm_num : (12 : ℝ) < 2 ^ 4) (pow_le_pow_right₀ (by norm_num) (by norm_num))
  exact absurd (h2.trans h) (not_lt.2 this)

end Verif
