import Verif.Lib.Exact
import Verif.Props.Blas1
import Verif.Model.Lapack
import Mathlib.Data.Complex.Basic
import Mathlib.Tactic.FieldSimp
import Mathlib.Tactic.LinearCombination

/-!
# `dlaqr1` (C36)
-/

set_option linter.unusedSectionVars false

namespace Verif
open Scalar Spec XR

section
variable {F : Type} [Scalar F]

/-- **C36, other sizes.** For `n` other than 2 and 3, `dlaqr1` changes nothing. -/
theorem C36_dlaqr1_other (n : Int) (hn : n ≠ 2 ∧ n ≠ 3) (h : List F) (ldh : Nat) (h0 : 0 < ldh)
    (hs : ldh < 2 ^ 31) (hl : h.length < 2 ^ 31) (sr1 si1 sr2 si2 : F) (v : List F) :
    dlaqr1 n h ldh sr1 si1 sr2 si2 v = pure v := by
  obtain ⟨fh, eh, dh, ih⟩ := toFa2d_list (v := h) h0 hs hl
  unfold dlaqr1
  rw [eh, pure_bind, if_pos hn]

/-- Specification: the scaling factor. -/
def Spec.laqr1S (n : Nat) (h : Nat → Nat → F) (sr2 si2 : F) : F :=
  if n = 2 then Scalar.abs (h 0 0 - sr2) + Scalar.abs si2 + Scalar.abs (h 1 0)
  else Scalar.abs (h 0 0 - sr2) + Scalar.abs si2 + Scalar.abs (h 1 0) + Scalar.abs (h 2 0)

/-- The values of the first three elements (`n = 2` or `3`), any scalar type. -/
def laqr1Val (n : Nat) (h : Nat → Nat → F) (sr1 si1 sr2 si2 : F) (i : Nat) : F :=
  let s := laqr1S n h sr2 si2
  if (s =ᶠ zero) = true then zero
  else if n = 2 then
    if i = 0 then (h 1 0 / s) * h 0 1 + (h 0 0 - sr1) * ((h 0 0 - sr2) / s) - si1 * (si2 / s)
    else (h 1 0 / s) * (h 0 0 + h 1 1 - sr1 - sr2)
  else
    if i = 0 then (h 0 0 - sr1) * ((h 0 0 - sr2) / s) - si1 * (si2 / s) + h 0 1 * (h 1 0 / s)
      + h 0 2 * (h 2 0 / s)
    else if i = 1 then (h 1 0 / s) * (h 0 0 + h 1 1 - sr1 - sr2) + h 1 2 * (h 2 0 / s)
    else (h 2 0 / s) * (h 0 0 + h 2 2 - sr1 - sr2) + (h 1 0 / s) * h 2 1

theorem dlaqr1_ok (n : Nat) (hn : n = 2 ∨ n = 3) (h : List F) (ldh : Nat) (sh : Stored h ldh n n)
    (sr1 si1 sr2 si2 : F) (v : List F) :
    ∃ v' : List F, dlaqr1 (n : Int) h ldh sr1 si1 sr2 si2 v = pure v' ∧ v'.length = v.length ∧
      (∀ i < n, i < v.length → v'[i]? = some (laqr1Val n (entry h ldh) sr1 si1 sr2 si2 i)) ∧
      (∀ p, n ≤ p → v'[p]? = v[p]?) := by
  obtain ⟨fh, eh, dh, ih⟩ := toFa2d_list (v := h) sh.pos sh.ldSmall sh.small
  have hget : ∀ i < n, ∀ j < n, fh.get2 ((i : Int) + 1) ((j : Int) + 1) = pure (entry h ldh i j) := by
    intro i hi j hj
    rw [get2_is2 ih (sh.block _ _ (by omega) (by omega) (by omega) (by omega)) sh.small, entry_ofList2]
  have hv := is1_vec (F := F) v
  have fits : ∀ i : Int, 1 ≤ i → i ≤ 3 → FitsI32 i := by intro i _ _; unfold FitsI32; omega
  unfold dlaqr1
  rw [eh, pure_bind, if_neg (by omega)]
  unfold dlaqr1FA
  rcases hn with rfl | rfl
  · have g11 := hget 0 (by norm_num) 0 (by norm_num)
    have g21 := hget 1 (by norm_num) 0 (by norm_num)
    have g12 := hget 0 (by norm_num) 1 (by norm_num)
    have g22 := hget 1 (by norm_num) 1 (by norm_num)
    norm_num at g11 g21 g12 g22
    rw [if_pos (by norm_num), g11, g21, g12, g22]
    simp only [pure_bind]
    have main : ∀ a b : F, (∀ i < 2, laqr1Val 2 (entry h ldh) sr1 si1 sr2 si2 i = if i = 0 then a else b) →
        ∃ v' : List F, (pure (((ToFA.toFa (F := F) v).set1 1 a).set1 2 b) >>= FromFA.fromFa : R (List F)) = pure v' ∧
        v'.length = v.length ∧
        (∀ i < 2, i < v.length → v'[i]? = some (laqr1Val 2 (entry h ldh) sr1 si1 sr2 si2 i)) ∧
        (∀ p, 2 ≤ p → v'[p]? = v[p]?) := by
      intro a b hab
      have hi := set1_is1 (set1_is1 hv (by norm_num) (fits 1 (by norm_num) (by norm_num)) a)
        (by norm_num) (fits 2 (by norm_num) (by norm_num)) b
      refine ⟨_, rfl, ?_, ?_, ?_⟩
      · show ((((ToFA.toFa (F := F) v).set1 1 a).set1 2 b) : FA F).data.length = _
        rw [hi, length_tab]
      · intro i hi' hil
        show ((((ToFA.toFa (F := F) v).set1 1 a).set1 2 b) : FA F).data[i]? = _
        rw [hi, tab_at hil, hab i hi']
        unfold upd
        have : i = 0 ∨ i = 1 := by omega
        rcases this with rfl | rfl <;> norm_num
      · intro p hp
        show ((((ToFA.toFa (F := F) v).set1 1 a).set1 2 b) : FA F).data[p]? = _
        rw [hi, tab_getElem?]
        by_cases hpl : p < v.length
        · rw [if_pos hpl]
          unfold upd
          rw [if_neg (by omega), if_neg (by omega), ofList_succ _ hpl]
          simp [hpl]
        · rw [if_neg hpl]; simp [hpl]
    split
    · rename_i hc
      apply main
      intro i _
      unfold laqr1Val laqr1S
      simp only [if_true, hc]
      split <;> rfl
    · rename_i hc
      apply main
      intro i _
      unfold laqr1Val laqr1S
      simp only [if_true, hc, if_false, Bool.false_eq_true]
  · have g11 := hget 0 (by norm_num) 0 (by norm_num)
    have g21 := hget 1 (by norm_num) 0 (by norm_num)
    have g31 := hget 2 (by norm_num) 0 (by norm_num)
    have g12 := hget 0 (by norm_num) 1 (by norm_num)
    have g22 := hget 1 (by norm_num) 1 (by norm_num)
    have g32 := hget 2 (by norm_num) 1 (by norm_num)
    have g13 := hget 0 (by norm_num) 2 (by norm_num)
    have g23 := hget 1 (by norm_num) 2 (by norm_num)
    have g33 := hget 2 (by norm_num) 2 (by norm_num)
    norm_num at g11 g21 g31 g12 g22 g32 g13 g23 g33
    rw [if_neg (by norm_num), g11, g21, g31, g12, g22, g32, g13, g23, g33]
    simp only [pure_bind]
    have main : ∀ a b c : F, (∀ i < 3, laqr1Val 3 (entry h ldh) sr1 si1 sr2 si2 i =
          if i = 0 then a else if i = 1 then b else c) →
        ∃ v' : List F, (pure ((((ToFA.toFa (F := F) v).set1 1 a).set1 2 b).set1 3 c) >>= FromFA.fromFa : R (List F)) = pure v' ∧
        v'.length = v.length ∧
        (∀ i < 3, i < v.length → v'[i]? = some (laqr1Val 3 (entry h ldh) sr1 si1 sr2 si2 i)) ∧
        (∀ p, 3 ≤ p → v'[p]? = v[p]?) := by
      intro a b c hab
      have hi := set1_is1 (set1_is1 (set1_is1 hv (by norm_num) (fits 1 (by norm_num) (by norm_num)) a)
        (by norm_num) (fits 2 (by norm_num) (by norm_num)) b) (by norm_num)
        (fits 3 (by norm_num) (by norm_num)) c
      refine ⟨_, rfl, ?_, ?_, ?_⟩
      · show (((((ToFA.toFa (F := F) v).set1 1 a).set1 2 b).set1 3 c) : FA F).data.length = _
        rw [hi, length_tab]
      · intro i hi' hil
        show (((((ToFA.toFa (F := F) v).set1 1 a).set1 2 b).set1 3 c) : FA F).data[i]? = _
        rw [hi, tab_at hil, hab i hi']
        unfold upd
        have : i = 0 ∨ i = 1 ∨ i = 2 := by omega
        rcases this with rfl | rfl | rfl <;> norm_num
      · intro p hp
        show (((((ToFA.toFa (F := F) v).set1 1 a).set1 2 b).set1 3 c) : FA F).data[p]? = _
        rw [hi, tab_getElem?]
        by_cases hpl : p < v.length
        · rw [if_pos hpl]
          unfold upd
          rw [if_neg (by omega), if_neg (by omega), if_neg (by omega), ofList_succ _ hpl]
          simp [hpl]
        · rw [if_neg hpl]; simp [hpl]
    split
    · rename_i hc
      apply main
      intro i _
      unfold laqr1Val laqr1S
      rw [if_neg (show ¬ (3 = 2) by norm_num)]
      simp only [if_true, hc]
      split
      · rfl
      · split <;> rfl
    · rename_i hc
      apply main
      intro i _
      unfold laqr1Val laqr1S
      rw [if_neg (show ¬ (3 = 2) by norm_num)]
      simp only [if_neg (show ¬ (3 = 2) by norm_num)]
      rw [if_neg hc]

end

/-- Specification: entry `i` of the first column of `(H - s1 I)(H - s2 I)`. -/
noncomputable def Spec.shiftCol (n : Nat) (h : Nat → Nat → ℝ) (s1 s2 : ℂ) (i : Nat) : ℂ :=
  ∑ k ∈ Finset.range n, ((h i k : ℂ) - if i = k then s1 else 0) * ((h k 0 : ℂ) - if k = 0 then s2 else 0)

/-- Specification: the scaling factor over the reals. -/
noncomputable def Spec.shiftScale (n : Nat) (h : Nat → Nat → ℝ) (s2 : ℂ) : ℝ :=
  |h 0 0 - s2.re| + |s2.im| + ∑ k ∈ Finset.Ico 1 n, |h k 0|

theorem laqr1Val_fin (n : Nat) (hn : n = 2 ∨ n = 3) (hX : Nat → Nat → XR) (h : Nat → Nat → ℝ)
    (e : ∀ i < n, ∀ j < n, hX i j = fin (h i j))
    (s1 s2 : ℂ) (hsh : (s1.im = 0 ∧ s2.im = 0) ∨ (s1.re = s2.re ∧ s1.im = -s2.im)) (i : Nat) (hi : i < n) :
    ∃ w : ℝ, laqr1Val n hX (fin s1.re) (fin s1.im) (fin s2.re) (fin s2.im) i = fin w ∧
      ((shiftScale n h s2 * w : ℝ) : ℂ) = shiftCol n h s1 s2 i ∧
      (shiftScale n h s2 = 0 → w = 0) := by
  have key : ∀ w : ℝ, (((shiftScale n h s2 * w : ℝ) : ℂ) = shiftCol n h s1 s2 i) ↔
      shiftScale n h s2 * w = (shiftCol n h s1 s2 i).re ∧ (shiftCol n h s1 s2 i).im = 0 := by
    intro w
    rw [Complex.ext_iff, Complex.ofReal_re, Complex.ofReal_im]
    constructor
    · rintro ⟨a, b⟩; exact ⟨a, b.symm⟩
    · rintro ⟨a, b⟩; exact ⟨a, b.symm⟩
  simp only [key]
  obtain ⟨r1, i1⟩ := s1
  obtain ⟨r2, i2⟩ := s2
  simp only at hsh ⊢
  rcases hn with rfl | rfl
  · have hS : shiftScale 2 h ⟨r2, i2⟩ = |h 0 0 - r2| + |i2| + |h 1 0| := by
      simp [shiftScale]
    have hL : laqr1S 2 hX (fin r2) (fin i2) = fin (shiftScale 2 h ⟨r2, i2⟩) := by
      unfold laqr1S
      rw [hS, if_pos rfl, e 0 (by norm_num) 0 (by norm_num), e 1 (by norm_num) 0 (by norm_num)]
      simp
    unfold laqr1Val
    simp only [hL, if_true]
    rw [e 0 (by norm_num) 0 (by norm_num), e 1 (by norm_num) 0 (by norm_num),
      e 0 (by norm_num) 1 (by norm_num), e 1 (by norm_num) 1 (by norm_num)]
    by_cases h0 : shiftScale 2 h ⟨r2, i2⟩ = 0
    · rw [if_pos (by simpa using h0)]
      refine ⟨0, by simp, ?_, fun _ => rfl⟩
      rw [h0]
      rw [hS] at h0
      have a1 : h 0 0 - r2 = 0 := by
        have := abs_nonneg (h 0 0 - r2); have := abs_nonneg i2; have := abs_nonneg (h 1 0)
        exact abs_eq_zero.1 (by linarith)
      have a2 : i2 = 0 := by
        have := abs_nonneg (h 0 0 - r2); have := abs_nonneg i2; have := abs_nonneg (h 1 0)
        exact abs_eq_zero.1 (by linarith)
      have a3 : h 1 0 = 0 := by
        have := abs_nonneg (h 0 0 - r2); have := abs_nonneg i2; have := abs_nonneg (h 1 0)
        exact abs_eq_zero.1 (by linarith)
      have a4 : h 0 0 = r2 := by linarith
      simp [shiftCol, Finset.sum_range_succ, a2, a3, a4]
    · rw [if_neg (by simpa using h0)]
      set S := shiftScale 2 h ⟨r2, i2⟩ with hSd
      simp only [fin_div _ _ h0, fin_mul, fin_sub, fin_add]
      have : i = 0 ∨ i = 1 := by omega
      rcases this with rfl | rfl
      · refine ⟨_, rfl, ⟨?_, ?_⟩, fun hh => absurd hh h0⟩
        · simp [shiftCol, Finset.sum_range_succ]
          field_simp; ring
        · simp [shiftCol, Finset.sum_range_succ]
          rcases hsh with ⟨rfl, rfl⟩ | ⟨rfl, rfl⟩ <;> ring
      · refine ⟨_, rfl, ⟨?_, ?_⟩, fun hh => absurd hh h0⟩
        · simp [shiftCol, Finset.sum_range_succ]
          field_simp; ring
        · simp [shiftCol, Finset.sum_range_succ]
          rcases hsh with ⟨rfl, rfl⟩ | ⟨rfl, rfl⟩ <;> ring
  · have hS : shiftScale 3 h ⟨r2, i2⟩ = |h 0 0 - r2| + |i2| + |h 1 0| + |h 2 0| := by
      unfold shiftScale
      rw [show Finset.Ico 1 3 = {1, 2} by rfl]
      simp; ring
    have hL : laqr1S 3 hX (fin r2) (fin i2) = fin (shiftScale 3 h ⟨r2, i2⟩) := by
      unfold laqr1S
      rw [hS, if_neg (by norm_num), e 0 (by norm_num) 0 (by norm_num), e 1 (by norm_num) 0 (by norm_num),
        e 2 (by norm_num) 0 (by norm_num)]
      simp
    unfold laqr1Val
    simp only [hL, if_neg (show ¬ (3 = 2) by norm_num)]
    rw [e 0 (by norm_num) 0 (by norm_num), e 1 (by norm_num) 0 (by norm_num),
      e 2 (by norm_num) 0 (by norm_num), e 0 (by norm_num) 1 (by norm_num),
      e 1 (by norm_num) 1 (by norm_num), e 2 (by norm_num) 1 (by norm_num),
      e 0 (by norm_num) 2 (by norm_num), e 1 (by norm_num) 2 (by norm_num),
      e 2 (by norm_num) 2 (by norm_num)]
    by_cases h0 : shiftScale 3 h ⟨r2, i2⟩ = 0
    · rw [if_pos (by simpa using h0)]
      refine ⟨0, by simp, ?_, fun _ => rfl⟩
      rw [h0]
      rw [hS] at h0
      have n1 := abs_nonneg (h 0 0 - r2)
      have n2 := abs_nonneg i2
      have n3 := abs_nonneg (h 1 0)
      have n4 := abs_nonneg (h 2 0)
      have a1 : h 0 0 - r2 = 0 := abs_eq_zero.1 (by linarith)
      have a2 : i2 = 0 := abs_eq_zero.1 (by linarith)
      have a3 : h 1 0 = 0 := abs_eq_zero.1 (by linarith)
      have a5 : h 2 0 = 0 := abs_eq_zero.1 (by linarith)
      have a4 : h 0 0 = r2 := by linarith
      simp [shiftCol, Finset.sum_range_succ, a2, a3, a4, a5]
    · rw [if_neg (by simpa using h0)]
      set S := shiftScale 3 h ⟨r2, i2⟩ with hSd
      simp only [fin_div _ _ h0, fin_mul, fin_sub, fin_add]
      have : i = 0 ∨ i = 1 ∨ i = 2 := by omega
      rcases this with rfl | rfl | rfl
      · refine ⟨_, rfl, ⟨?_, ?_⟩, fun hh => absurd hh h0⟩
        · simp [shiftCol, Finset.sum_range_succ]
          field_simp
        · simp [shiftCol, Finset.sum_range_succ]
          rcases hsh with ⟨rfl, rfl⟩ | ⟨rfl, rfl⟩ <;> ring
      · refine ⟨_, rfl, ⟨?_, ?_⟩, fun hh => absurd hh h0⟩
        · simp [shiftCol, Finset.sum_range_succ]
          field_simp; ring
        · simp [shiftCol, Finset.sum_range_succ]
          rcases hsh with ⟨rfl, rfl⟩ | ⟨rfl, rfl⟩ <;> ring
      · refine ⟨_, rfl, ⟨?_, ?_⟩, fun hh => absurd hh h0⟩
        · simp [shiftCol, Finset.sum_range_succ]
          field_simp; ring
        · simp [shiftCol, Finset.sum_range_succ]
          rcases hsh with ⟨rfl, rfl⟩ | ⟨rfl, rfl⟩ <;> ring

/-- **C36.** In exact arithmetic, for `n = 2` or `3` and two shifts that are both real or a complex
conjugate pair, `dlaqr1` returns `v` with `s * v` the first column of `(H - s1 I)(H - s2 I)`, where
`s = |h11 - Re s2| + |Im s2| + |h21| (+ |h31|)`; if `s = 0` then `v = 0`.  Elements of `v` after the
first `n` are unchanged. -/
theorem C36_dlaqr1 (n : Nat) (hn : n = 2 ∨ n = 3) (h : List ℝ) (ldh : Nat) (sh : Stored h ldh n n)
    (s1 s2 : ℂ) (hsh : (s1.im = 0 ∧ s2.im = 0) ∨ (s1.re = s2.re ∧ s1.im = -s2.im))
    (v : List ℝ) (hv : n ≤ v.length) :
    ∃ v' : List ℝ, dlaqr1 (n : Int) (h.map fin) ldh (fin s1.re) (fin s1.im) (fin s2.re) (fin s2.im)
        (v.map fin) = pure (v'.map fin) ∧
      v'.length = v.length ∧ (∀ p, n ≤ p → v'[p]? = v[p]?) ∧
      (∀ i < n, ((shiftScale n (mat h ldh) s2 * v'.getD i 0 : ℝ) : ℂ) = shiftCol n (mat h ldh) s1 s2 i) ∧
      (shiftScale n (mat h ldh) s2 = 0 → ∀ i < n, v'.getD i 0 = 0) := by
  obtain ⟨r, e, l, hval, hfr⟩ := dlaqr1_ok (F := XR) n hn (h.map fin) ldh ⟨sh.pos, sh.rows, sh.ldSmall, by simpa using sh.small, by simpa using sh.fits⟩
    (fin s1.re) (fin s1.im) (fin s2.re) (fin s2.im) (v.map fin)
  rw [List.length_map] at l hval
  have hX : ∀ i < n, ∀ j < n, entry (h.map fin) ldh i j = fin (mat h ldh i j) :=
    fun i hi j hj => entry_map (sh.fits i hi j hj)
  have hw := fun i hi => laqr1Val_fin n hn (entry (h.map fin) ldh) (mat h ldh) hX s1 s2 hsh i hi
  have kr : (r.map XR.toReal).map fin = r := by
    apply map_fin_of_forall
    intro p hp
    by_cases hpn : p < n
    · obtain ⟨w, hw1, _⟩ := hw p hpn
      exact ⟨w, by rw [hval p hpn (by omega), hw1]⟩
    · rw [hfr p (by omega)]
      exact ⟨v[p]'(by omega), by simp [show p < v.length by omega]⟩
  have hg : ∀ i (hi : i < n), ∀ w, laqr1Val n (entry (h.map fin) ldh) (fin s1.re) (fin s1.im)
      (fin s2.re) (fin s2.im) i = fin w → (r.map XR.toReal).getD i 0 = w := by
    intro i hi w hw
    rw [List.getD_eq_getElem?_getD, List.getElem?_map, hval i hi (by omega), hw]; rfl
  refine ⟨r.map XR.toReal, by rw [kr]; exact e, by simp [l], ?_, ?_, ?_⟩
  · intro p hp
    rw [List.getElem?_map, hfr p hp, List.getElem?_map, Option.map_map]
    cases v[p]? <;> rfl
  · intro i hi
    obtain ⟨w, hw1, hw2, _⟩ := hw i hi
    rw [hg i hi w hw1]; exact hw2
  · intro h0 i hi
    obtain ⟨w, hw1, _, hw3⟩ := hw i hi
    rw [hg i hi w hw1]; exact hw3 h0

/-- A 3-by-3 matrix with a complex conjugate pair of shifts meets the hypotheses. -/
example : Stored [(1 : ℝ), 2, 3, 4, 5, 6, 7, 8, 9] 3 3 3 ∧
    ((⟨1, 2⟩ : ℂ).re = (⟨1, -2⟩ : ℂ).re ∧ (⟨1, 2⟩ : ℂ).im = -(⟨1, -2⟩ : ℂ).im) := by
  refine ⟨⟨by norm_num, by norm_num, by norm_num, by simp, ?_⟩, rfl, by simp⟩
  intro i hi j hj
  simp; omega

end Verif
