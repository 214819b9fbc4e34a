import Verif.Inst.XR
import Verif.Props.Gemm
import Mathlib.Algebra.BigOperators.Ring.Finset

/-!
# Passing from `XR` to real numbers
-/

namespace Verif
open Scalar Spec XR

/-- The real number of a finite value. -/
def XR.toReal : XR → ℝ
  | fin r => r
  | _ => 0

/-- Entry `(i, j)` of a real column-major matrix. -/
def Spec.mat (v : List ℝ) (ld i j : Nat) : ℝ := v.getD (i + j * ld) 0

/-- `op(X)` of a real matrix. -/
def Spec.opR (t : Char) (x : Nat → Nat → ℝ) (i j : Nat) : ℝ := if noTrans t then x i j else x j i

theorem entry_map {v : List ℝ} {ld i j : Nat} (h : i + j * ld < v.length) :
    entry (v.map fin) ld i j = fin (mat v ld i j) := by
  unfold entry mat
  rw [List.getD_eq_getElem?_getD, List.getD_eq_getElem?_getD, List.getElem?_map,
    List.getElem?_eq_getElem h]; rfl

theorem map_fin_of_forall {r : List XR} (h : ∀ p < r.length, ∃ x, r[p]? = some (fin x)) :
    (r.map XR.toReal).map fin = r := by
  apply List.ext_getElem?
  intro p
  by_cases hp : p < r.length
  · obtain ⟨x, hx⟩ := h p hp
    simp [hx, XR.toReal]
  · simp [hp]

/-- A block update with finite values, in terms of real lists. -/
theorem Updated.real {ld m n : Nat} {c : List ℝ} {r : List XR} {v : Nat → Nat → XR}
    {w : Nat → Nat → ℝ} (h : Updated ld m n (c.map fin) r v)
    (hv : ∀ i < m, ∀ j < n, v i j = fin (w i j)) :
    ∃ c' : List ℝ, r = c'.map fin ∧ c'.length = c.length ∧
      (∀ i < m, ∀ j < n, c'[i + j * ld]? = some (w i j)) ∧
      (∀ p, ¬ InBlock ld m n p → c'[p]? = c[p]?) := by
  have hl : r.length = c.length := by rw [h.length]; simp
  have key : (r.map XR.toReal).map fin = r := by
    apply map_fin_of_forall
    intro p hp
    by_cases hb : InBlock ld m n p
    · obtain ⟨i, hi, j, hj, rfl⟩ := hb
      exact ⟨_, by rw [h.block i hi j hj, hv i hi j hj]⟩
    · rw [h.frame p hb]
      exact ⟨c[p]'(by omega), by simp [show p < c.length by omega]⟩
  refine ⟨r.map XR.toReal, key.symm, by simp [hl], ?_, ?_⟩
  · intro i hi j hj
    rw [List.getElem?_map, h.block i hi j hj, hv i hi j hj]; rfl
  · intro p hp
    rw [List.getElem?_map, h.frame p hp, List.getElem?_map, Option.map_map]
    cases c[p]? <;> rfl

theorem stored_map {v : List ℝ} {ld r c : Nat} (h : Stored (v.map fin) ld r c) :
    ∀ i < r, ∀ j < c, i + j * ld < v.length := by
  intro i hi j hj
  simpa using h.fits i hi j hj

theorem foldl_fin_sum (f : Nat → ℝ) (k : Nat) (s : ℝ) :
    (List.range k).foldl (fun acc l => acc + fin (f l)) (fin s) =
      fin (s + ∑ l ∈ Finset.range k, f l) := by
  induction k with
  | zero => simp
  | succ k ih =>
    rw [List.range_succ, List.foldl_append, ih, Finset.sum_range_succ]
    simp [add_assoc]

theorem scaled_fin (beta c : ℝ) : scaled (fin beta) (fin c) = fin (beta * c) := by
  unfold scaled
  by_cases h0 : beta = 0
  · simp [h0]
  · by_cases h1 : beta = 1
    · simp [h1]
    · simp [h0, h1, mul_comm]

/-- In exact arithmetic the sequence of operations for one entry of `dgemm` gives the textbook
value. -/
theorem gemmEntry_fin (nota : Bool) (k : Nat) (alpha beta : ℝ) (x y : Nat → ℝ) (c : ℝ) :
    gemmEntry nota k (fin alpha) (fin beta) (fun l => fin (x l)) (fun l => fin (y l)) (fin c) =
      fin (alpha * ∑ l ∈ Finset.range k, x l * y l + beta * c) := by
  unfold gemmEntry
  rw [scaled_fin]
  by_cases h1 : ((fin alpha =ᶠ zero) = true ∨ k = 0) ∧ (fin beta =ᶠ one) = true
  · rw [if_pos h1]
    obtain ⟨h, hb⟩ := h1
    simp only [ofInt_eq, fin_beq, decide_eq_true_eq, Int.cast_zero, Int.cast_one] at h hb
    rcases h with h | h <;> simp [h, hb]
  · rw [if_neg h1]
    by_cases ha : (fin alpha =ᶠ zero) = true
    · rw [if_pos ha]
      simp only [ofInt_eq, fin_beq, decide_eq_true_eq, Int.cast_zero] at ha
      simp [ha]
    · rw [if_neg ha]
      cases nota
      · simp only [Bool.false_eq_true, if_false, fin_mul]
        rw [show (zero : XR) = fin 0 by simp, foldl_fin_sum]
        by_cases hb : beta = 0
        · simp [hb]
        · simp [hb]
      · simp only [if_true, fin_mul]
        rw [foldl_fin_sum, Finset.mul_sum]
        congr 1
        rw [add_comm]
        congr 1
        apply Finset.sum_congr rfl
        intro l _; ring

end Verif
