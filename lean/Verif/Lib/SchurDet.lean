import Verif.Spec.Backward
import Mathlib.LinearAlgebra.Matrix.Charpoly.Coeff
import Mathlib.LinearAlgebra.Matrix.SchurComplement
import Mathlib.Data.Complex.Basic
import Mathlib.Analysis.Complex.Basic
import Mathlib.Tactic.LinearCombination
import Mathlib.Tactic.Linarith
import Mathlib.Tactic.NormNum

/-!
# The characteristic polynomial of a quasi-triangular matrix
-/

namespace Verif
open Spec Polynomial

section
variable {K : Type} [CommRing K]

/-- The rows and columns `lo..hi` over any ring. -/
def blkM (lo hi : ℤ) (M : ℤ → ℤ → K) : Matrix (Blk lo hi) (Blk lo hi) K := Matrix.of fun a b => M a b

/-- Splitting the indices at `m`. -/
def splitAt (lo m hi : ℤ) (h1 : lo ≤ m + 1) (h2 : m ≤ hi) : Blk lo m ⊕ Blk (m + 1) hi ≃ Blk lo hi where
  toFun := Sum.elim (fun a => ⟨a, by have := Finset.mem_Icc.1 a.2; exact Finset.mem_Icc.2 ⟨this.1, by omega⟩⟩)
    (fun a => ⟨a, by have := Finset.mem_Icc.1 a.2; exact Finset.mem_Icc.2 ⟨by omega, this.2⟩⟩)
  invFun a := if h : (a : ℤ) ≤ m then Sum.inl ⟨a, by have := Finset.mem_Icc.1 a.2; exact Finset.mem_Icc.2 ⟨this.1, h⟩⟩
    else Sum.inr ⟨a, by have := Finset.mem_Icc.1 a.2; exact Finset.mem_Icc.2 ⟨by omega, this.2⟩⟩
  left_inv := by
    rintro (a | a)
    · have := Finset.mem_Icc.1 a.2
      simp [this.2]
    · have := Finset.mem_Icc.1 a.2
      have h : ¬ (a : ℤ) ≤ m := by omega
      simp [h]
  right_inv := by
    intro a
    by_cases h : (a : ℤ) ≤ m <;> simp [h]

theorem blkM_det {lo m hi : ℤ} (h1 : lo ≤ m + 1) (h2 : m ≤ hi) (M : ℤ → ℤ → K)
    (hz : ∀ a b, m < a → a ≤ hi → lo ≤ b → b ≤ m → M a b = 0) :
    (blkM lo hi M).det = (blkM lo m M).det * (blkM (m + 1) hi M).det := by
  rw [← Matrix.det_submatrix_equiv_self (splitAt lo m hi h1 h2) (blkM lo hi M)]
  have e : (blkM lo hi M).submatrix (splitAt lo m hi h1 h2) (splitAt lo m hi h1 h2) =
      Matrix.fromBlocks (blkM lo m M) (Matrix.of fun (a : Blk lo m) (b : Blk (m + 1) hi) => M a b) 0 (blkM (m + 1) hi M) := by
    ext a b
    rcases a with a | a <;> rcases b with b | b
    · rfl
    · rfl
    · have ha := Finset.mem_Icc.1 a.2
      have hb := Finset.mem_Icc.1 b.2
      exact hz a b (by omega) ha.2 hb.1 hb.2
    · rfl
  rw [e, Matrix.det_fromBlocks_zero₂₁]

theorem blkM_det_empty {lo hi : ℤ} (h : hi < lo) (M : ℤ → ℤ → K) : (blkM lo hi M).det = 1 := by
  haveI : IsEmpty (Blk lo hi) := ⟨fun a => by have := Finset.mem_Icc.1 a.2; omega⟩
  exact Matrix.det_isEmpty

theorem blkM_det_one (lo : ℤ) (M : ℤ → ℤ → K) : (blkM lo lo M).det = M lo lo := by
  letI : Unique (Blk lo lo) := ⟨⟨⟨lo, Finset.mem_Icc.2 ⟨le_refl _, le_refl _⟩⟩⟩, fun a => by
    have := Finset.mem_Icc.1 a.2
    apply Subtype.ext
    show (a : ℤ) = lo
    omega⟩
  rw [Matrix.det_unique]
  rfl

/-- The two indices `lo` and `lo + 1`. -/
def twoIx (lo : ℤ) : Fin 2 ≃ Blk lo (lo + 1) where
  toFun k := ⟨lo + (k : ℕ), by have := k.2; exact Finset.mem_Icc.2 ⟨by omega, by omega⟩⟩
  invFun a := ⟨((a : ℤ) - lo).toNat, by have := Finset.mem_Icc.1 a.2; omega⟩
  left_inv k := by ext; simp
  right_inv a := by
    have := Finset.mem_Icc.1 a.2
    ext
    show lo + (((a : ℤ) - lo).toNat : ℤ) = a
    omega

theorem blkM_det_two (lo : ℤ) (M : ℤ → ℤ → K) : (blkM lo (lo + 1) M).det = M lo lo * M (lo + 1) (lo + 1) - M lo (lo + 1) * M (lo + 1) lo := by
  rw [← Matrix.det_submatrix_equiv_self (twoIx lo), Matrix.det_fin_two]
  simp [blkM, twoIx]

end

/-- The rest of a quasi-triangular matrix after its first diagonal block. -/
theorem Spec.Schur.tail {lo hi m : ℤ} {T : ℤ → ℤ → ℝ} {wr wi : ℤ → ℝ} (h : Schur lo hi T wr wi) (hm : lo ≤ m)
    (hz : lo < m → m ≤ hi → T m (m - 1) = 0) : Schur m hi T wr wi := by
  refine ⟨fun j j1 j2 => h.quasi j (by omega) j2, fun j j1 j2 => h.re j (by omega) j2, fun j j1 j2 k1 k2 => ?_,
    fun j j1 j2 hne => h.pair j (by omega) j2 hne⟩
  refine h.real j (by omega) j2 (fun hl => ?_) k2
  by_cases hj : m < j
  · exact k1 hj
  · have : j = m := by omega
    rw [this]; exact hz (by omega) (by omega)

theorem prod_Icc_cons {K : Type} [CommMonoid K] {lo hi : ℤ} (h : lo ≤ hi) (f : ℤ → K) : ∏ j ∈ Finset.Icc lo hi, f j = f lo * ∏ j ∈ Finset.Icc (lo + 1) hi, f j := by
  rw [← Finset.prod_insert (s := Finset.Icc (lo + 1) hi) (a := lo) (by simp)]
  congr 1
  ext j
  simp only [Finset.mem_Icc, Finset.mem_insert]
  omega

theorem sum_Icc_cons {K : Type} [AddCommMonoid K] {lo hi : ℤ} (h : lo ≤ hi) (f : ℤ → K) : ∑ j ∈ Finset.Icc lo hi, f j = f lo + ∑ j ∈ Finset.Icc (lo + 1) hi, f j := by
  rw [← Finset.sum_insert (s := Finset.Icc (lo + 1) hi) (a := lo) (by simp)]
  congr 1
  ext j
  simp only [Finset.mem_Icc, Finset.mem_insert]
  omega

/-- Induction over the diagonal blocks. -/
theorem schur_induct {hi : ℤ} {T : ℤ → ℤ → ℝ} {wr wi : ℤ → ℝ} {P : ℤ → Prop} (hP : ∀ lo, hi < lo → P lo)
    (h1 : ∀ lo, lo ≤ hi → Schur lo hi T wr wi → (lo < hi → T (lo + 1) lo = 0) → P (lo + 1) → P lo)
    (h2 : ∀ lo, lo < hi → Schur lo hi T wr wi → T (lo + 1) lo ≠ 0 → (lo + 2 ≤ hi → T (lo + 2) (lo + 1) = 0) → P (lo + 2) → P lo)
    (lo : ℤ) (h : Schur lo hi T wr wi) : P lo := by
  obtain ⟨n, hn⟩ : ∃ n : Nat, (hi + 1 - lo).toNat ≤ n := ⟨_, le_refl _⟩
  induction n generalizing lo with
  | zero => exact hP lo (by omega)
  | succ n ih =>
    by_cases hl : hi < lo
    · exact hP lo hl
    · by_cases hz : lo < hi → T (lo + 1) lo = 0
      · exact h1 lo (by omega) h hz (ih (lo + 1) (h.tail (by omega) fun _ g => by rw [show lo + 1 - 1 = lo by ring]; exact hz (by omega)) (by omega))
      · push Not at hz
        have q : lo + 2 ≤ hi → T (lo + 2) (lo + 1) = 0 := fun g => (h.quasi lo (le_refl _) g).resolve_left hz.2
        exact h2 lo hz.1 h hz.2 q (ih (lo + 2) (h.tail (by omega) fun _ g => by rw [show lo + 2 - 1 = lo + 1 by ring]; exact q g) (by omega))

/-- The imaginary parts sum to zero. -/
theorem Spec.Schur.sum_im {lo hi : ℤ} {T : ℤ → ℤ → ℝ} {wr wi : ℤ → ℝ} (h : Schur lo hi T wr wi) :
    ∑ j ∈ Finset.Icc lo hi, wi j = 0 := by
  refine schur_induct (P := fun lo => ∑ j ∈ Finset.Icc lo hi, wi j = 0) ?_ ?_ ?_ lo h
  · intro lo hl; rw [Finset.Icc_eq_empty (by omega), Finset.sum_empty]
  · intro lo hl hS hz ih
    rw [sum_Icc_cons hl, ih, hS.real lo (le_refl _) hl (fun h => absurd h (lt_irrefl _)) hz, add_zero]
  · intro lo hl hS hne hz ih
    rw [sum_Icc_cons hl.le, sum_Icc_cons (by omega), show lo + 1 + 1 = lo + 2 by ring, ih, (hS.pair lo (le_refl _) hl hne).2.2.2.2]
    ring

/-- The characteristic polynomial of a quasi-triangular matrix whose 2-by-2 blocks have equal diagonal entries. -/
theorem schur_det {lo hi : ℤ} {T : ℤ → ℤ → ℝ} {wr wi : ℤ → ℝ} (h : Schur lo hi T wr wi)
    (hess : ∀ a b, lo ≤ b → b + 1 < a → a ≤ hi → T a b = 0) (heq : ∀ j, lo ≤ j → j < hi → T (j + 1) j ≠ 0 → T j j = T (j + 1) (j + 1)) :
    (blkM lo hi fun a b => (if a = b then (X : ℂ[X]) else 0) - C (T a b : ℂ)).det =
      ∏ j ∈ Finset.Icc lo hi, (X - C ((wr j : ℂ) + wi j * Complex.I)) := by
  refine schur_induct (P := fun lo' => lo ≤ lo' → (blkM lo' hi fun a b => (if a = b then (X : ℂ[X]) else 0) - C (T a b : ℂ)).det =
      ∏ j ∈ Finset.Icc lo' hi, (X - C ((wr j : ℂ) + wi j * Complex.I))) ?_ ?_ ?_ lo h (le_refl _)
  · intro lo' hl _; rw [blkM_det_empty hl, Finset.Icc_eq_empty (by omega), Finset.prod_empty]
  · intro lo' hl hS hz ih hlo
    rw [prod_Icc_cons hl, ← ih (by omega), blkM_det (m := lo') (by omega) hl, blkM_det_one]
    · congr 1
      rw [if_pos rfl, hS.re lo' (le_refl _) hl, hS.real lo' (le_refl _) hl (fun h => absurd h (lt_irrefl _)) hz]
      simp
    · intro a b a1 a2 b1 b2
      have hb : b = lo' := by omega
      have : T a b = 0 := by
        by_cases c : b + 1 < a
        · exact hess a b (by omega) c a2
        · rw [hb, show a = lo' + 1 by omega]; exact hz (by omega)
      rw [if_neg (by omega), this]; simp
  · intro lo' hl hS hne hz ih hlo
    rw [prod_Icc_cons hl.le, prod_Icc_cons (by omega), show lo' + 1 + 1 = lo' + 2 by ring, ← ih (by omega), blkM_det (m := lo' + 1) (by omega) (by omega),
      blkM_det_two, ← mul_assoc, show lo' + 1 + 1 = lo' + 2 by ring]
    · congr 1
      obtain ⟨-, -, -, hw, hi'⟩ := hS.pair lo' (le_refl _) hl hne
      rw [if_pos rfl, if_pos rfl, if_neg (by omega), if_neg (by omega), hi', hS.re lo' (le_refl _) hl.le, hS.re (lo' + 1) (by omega) (by omega)]
      have he := heq lo' hlo hl hne
      rw [← he]
      have hw' : (wi lo' : ℂ) ^ 2 = -((T lo' (lo' + 1) : ℂ) * T (lo' + 1) lo') := by exact_mod_cast hw
      have hI := Complex.I_sq
      have key : C ((wi lo' : ℂ)) ^ 2 = -(C (T lo' (lo' + 1) : ℂ) * C (T (lo' + 1) lo' : ℂ)) := by
        rw [← C_mul, ← C_neg, ← C_pow, hw']
      have hI2 : (C Complex.I : ℂ[X]) ^ 2 = -1 := by rw [← C_pow, hI]; simp
      simp only [Complex.ofReal_neg, C_add, C_mul, C_neg, neg_mul]
      linear_combination (-1 : ℂ[X]) * key + (C ((wi lo' : ℂ)) ^ 2) * hI2
    · intro a b a1 a2 b1 b2
      have : T a b = 0 := by
        by_cases c : b + 1 < a
        · exact hess a b (by omega) c a2
        · rw [show b = lo' + 1 by omega, show a = lo' + 2 by omega]; exact hz (by omega)
      rw [if_neg (by omega), this]; simp

end Verif
