import Verif.Lib.HqrFrancis
import Mathlib.LinearAlgebra.Matrix.NonsingularInverse

/-!
# Exact shifts: the algebra of one double-shift step
-/

namespace Verif
open Spec Matrix

section gen
variable {n : Type} [Fintype n] [DecidableEq n] {M T' Q : Matrix n n ℝ} {β : ℝ} {V : n → ℝ} {b0 : n}

theorem fr_col (hT : T' = Q.transpose * M * Q) (hV : ∀ a, β * Q a b0 = V a) (a : n) : β * T' a b0 = (Q.transpose *ᵥ (M *ᵥ V)) a := by
  have : V = β • (fun a => Q a b0) := by
    funext a; rw [Pi.smul_apply, smul_eq_mul, hV]
  rw [this, mulVec_smul, mulVec_smul, Pi.smul_apply, smul_eq_mul, mulVec_mulVec, hT]
  rfl

theorem fr_eig (hQ : Q.transpose * Q = 1) (hT : T' = Q.transpose * M * Q) (hV : ∀ a, β * Q a b0 = V a) (hβ : β ≠ 0) {lam : ℝ}
    (he : M *ᵥ V = lam • V) {a : n} (ha : a ≠ b0) : T' a b0 = 0 := by
  have h1 := fr_col hT hV a
  rw [he, mulVec_smul, Pi.smul_apply, smul_eq_mul] at h1
  have h2 : (Q.transpose *ᵥ V) a = β * (Q.transpose * Q) a b0 := by
    have : V = β • (fun a => Q a b0) := by
      funext a; rw [Pi.smul_apply, smul_eq_mul, hV]
    rw [this, mulVec_smul, Pi.smul_apply, smul_eq_mul]
    rfl
  rw [h2, hQ, one_apply_ne ha, mul_zero, mul_zero] at h1
  exact (mul_eq_zero.1 h1).resolve_left hβ

theorem fr_norm (hQ : Q.transpose * Q = 1) (hT : T' = Q.transpose * M * Q) (hV : ∀ a, β * Q a b0 = V a) :
    β ^ 2 * ∑ a, T' a b0 ^ 2 = (M *ᵥ V) ⬝ᵥ (M *ᵥ V) := by
  have hQ' : Q * Q.transpose = 1 := mul_eq_one_comm.1 hQ
  have : (M *ᵥ V) ⬝ᵥ (M *ᵥ V) = (Q.transpose *ᵥ (M *ᵥ V)) ⬝ᵥ (Q.transpose *ᵥ (M *ᵥ V)) := by
    generalize M *ᵥ V = m
    rw [dotProduct_mulVec, vecMul_transpose, mulVec_mulVec, hQ', one_mulVec]
  rw [this, Finset.mul_sum]
  refine Finset.sum_congr rfl fun a _ => ?_
  rw [← fr_col hT hV a]; ring

theorem fr_diag (hT : T' = Q.transpose * M * Q) (hV : ∀ a, β * Q a b0 = V a) : β ^ 2 * T' b0 b0 = V ⬝ᵥ (M *ᵥ V) := by
  have h := fr_col hT hV b0
  rw [pow_two, mul_assoc, h]
  show β * ∑ c, Q c b0 * (M *ᵥ V) c = ∑ c, V c * (M *ᵥ V) c
  rw [Finset.mul_sum]
  refine Finset.sum_congr rfl fun c _ => ?_
  rw [← hV c]; ring

theorem fr_left (hQ : Q.transpose * Q = 1) (hT : T' = Q.transpose * M * Q) (hV : ∀ a, β * Q a b0 = V a) {om : n → ℝ} {sig : ℝ}
    (ho : om ᵥ* M = sig • om) : ∃ u : n → ℝ, u ᵥ* T' = sig • u ∧ β * u b0 = om ⬝ᵥ V ∧ u ⬝ᵥ u = om ⬝ᵥ om := by
  have hQ' : Q * Q.transpose = 1 := mul_eq_one_comm.1 hQ
  refine ⟨om ᵥ* Q, ?_, ?_, ?_⟩
  · rw [hT, vecMul_vecMul, ← Matrix.mul_assoc, ← Matrix.mul_assoc, hQ', Matrix.one_mul, ← vecMul_vecMul, ho, smul_vecMul]
  · show β * ∑ c, om c * Q c b0 = ∑ c, om c * V c
    rw [Finset.mul_sum]
    refine Finset.sum_congr rfl fun c _ => ?_
    rw [← hV c]; ring
  · rw [← mulVec_transpose Q om, dotProduct_mulVec, vecMul_transpose, mulVec_mulVec, hQ', one_mulVec]

end gen

section three
variable {lo : ℤ} {T T' : ℤ → ℤ → ℝ} {x y w : ℝ}

theorem sum3 (f : ℤ → ℝ) : ∑ a : Blk lo (lo + 2), f a = f lo + f (lo + 1) + f (lo + 2) := by
  rw [Finset.sum_coe_sort (Finset.Icc lo (lo + 2)) f]
  have : Finset.Icc lo (lo + 2) = {lo, lo + 1, lo + 2} := by
    ext a; simp only [Finset.mem_Icc, Finset.mem_insert, Finset.mem_singleton]; omega
  rw [this, Finset.sum_insert (by simp), Finset.sum_insert (by simp), Finset.sum_singleton, add_assoc]

def vec3 (lo : ℤ) (x y w : ℝ) (a : ℤ) : ℝ := if a = lo then x else if a = lo + 1 then y else if a = lo + 2 then w else 0

theorem vec3_0 : vec3 lo x y w lo = x := by simp [vec3]
theorem vec3_1 : vec3 lo x y w (lo + 1) = y := by simp [vec3]
theorem vec3_2 : vec3 lo x y w (lo + 2) = w := by simp [vec3]

theorem mulVec3 (f : ℤ → ℝ) (a : Blk lo (lo + 2)) :
    (block lo (lo + 2) T *ᵥ fun b : Blk lo (lo + 2) => f b) a = T a lo * f lo + T a (lo + 1) * f (lo + 1) + T a (lo + 2) * f (lo + 2) :=
  sum3 (lo := lo) fun b => T a b * f b

theorem vecMul3 (f : ℤ → ℝ) (b : Blk lo (lo + 2)) :
    ((fun a : Blk lo (lo + 2) => f a) ᵥ* block lo (lo + 2) T) b = f lo * T lo b + f (lo + 1) * T (lo + 1) b + f (lo + 2) * T (lo + 2) b :=
  sum3 (lo := lo) fun a => f a * T a b

theorem blk_cases (a : Blk lo (lo + 2)) : (a : ℤ) = lo ∨ (a : ℤ) = lo + 1 ∨ (a : ℤ) = lo + 2 := by
  obtain ⟨a1, a2⟩ := Finset.mem_Icc.1 a.2
  omega

theorem francis_open (hF : Francis lo (lo + 2) lo T T' x y w) :
    ∃ Q : Matrix (Blk lo (lo + 2)) (Blk lo (lo + 2)) ℝ, Q.transpose * Q = 1 ∧ block lo (lo + 2) T' = Q.transpose * block lo (lo + 2) T * Q ∧
      ∃ β : ℝ, β ^ 2 = x ^ 2 + y ^ 2 + w ^ 2 ∧ ∀ a, β * Q a ⟨lo, Finset.mem_Icc.2 ⟨le_refl _, by omega⟩⟩ = vec3 lo x y w a := by
  obtain ⟨Q, h1, h2, β, h3, h4⟩ := hF
  refine ⟨Q, h1, h2, β, h3, fun a => ?_⟩
  rw [h4 a _ rfl]
  rcases blk_cases a with h | h | h <;> rw [h]
  · simp [vec3]
  · simp [vec3]
  · simp [vec3]

/-- Both shifts are eigenvalues of the matrix: the first column splits off. -/
theorem francis_split (hF : Francis lo (lo + 2) lo T T' x y w) (hw : w ≠ 0) {lam : ℝ}
    (e0 : T lo lo * x + T lo (lo + 1) * y + T lo (lo + 2) * w = lam * x)
    (e1 : T (lo + 1) lo * x + T (lo + 1) (lo + 1) * y + T (lo + 1) (lo + 2) * w = lam * y)
    (e2 : T (lo + 2) lo * x + T (lo + 2) (lo + 1) * y + T (lo + 2) (lo + 2) * w = lam * w) : T' (lo + 1) lo = 0 := by
  obtain ⟨Q, h1, h2, β, h3, h4⟩ := francis_open hF
  have hβ : β ≠ 0 := by
    rintro rfl
    have : 0 < w ^ 2 := by positivity
    nlinarith [sq_nonneg x, sq_nonneg y]
  refine fr_eig h1 h2 (V := fun a : Blk lo (lo + 2) => vec3 lo x y w a) h4 hβ (lam := lam) ?_ (a := ⟨lo + 1, Finset.mem_Icc.2 ⟨by omega, by omega⟩⟩) ?_
  · funext a
    rw [mulVec3, vec3_0, vec3_1, vec3_2, Pi.smul_apply, smul_eq_mul]
    rcases blk_cases a with h | h | h <;> rw [h]
    · rw [vec3_0]; exact e0
    · rw [vec3_1]; exact e1
    · rw [vec3_2]; exact e2
  · intro h
    have := congrArg Subtype.val h
    simp at this

/-- The first subdiagonal element of the result. -/
theorem francis_sub (hF : Francis lo (lo + 2) lo T T' x y w) (hess : T' (lo + 2) lo = 0) {m0 m1 m2 : ℝ}
    (e0 : m0 = T lo lo * x + T lo (lo + 1) * y + T lo (lo + 2) * w)
    (e1 : m1 = T (lo + 1) lo * x + T (lo + 1) (lo + 1) * y + T (lo + 1) (lo + 2) * w)
    (e2 : m2 = T (lo + 2) lo * x + T (lo + 2) (lo + 1) * y + T (lo + 2) (lo + 2) * w) :
    (x ^ 2 + y ^ 2 + w ^ 2) ^ 2 * T' (lo + 1) lo ^ 2 = (x ^ 2 + y ^ 2 + w ^ 2) * (m0 ^ 2 + m1 ^ 2 + m2 ^ 2) - (x * m0 + y * m1 + w * m2) ^ 2 := by
  obtain ⟨Q, h1, h2, β, h3, h4⟩ := francis_open hF
  have n1 := fr_norm h1 h2 (V := fun a : Blk lo (lo + 2) => vec3 lo x y w a) h4
  have n2 := fr_diag h2 (V := fun a : Blk lo (lo + 2) => vec3 lo x y w a) h4
  have hm : (block lo (lo + 2) T *ᵥ fun a : Blk lo (lo + 2) => vec3 lo x y w a) = fun a : Blk lo (lo + 2) => vec3 lo m0 m1 m2 a := by
    funext a
    rw [mulVec3, vec3_0, vec3_1, vec3_2]
    rcases blk_cases a with h | h | h <;> rw [h]
    · rw [vec3_0, e0]
    · rw [vec3_1, e1]
    · rw [vec3_2, e2]
  rw [hm] at n1 n2
  have s1 : ((fun a : Blk lo (lo + 2) => vec3 lo m0 m1 m2 a) ⬝ᵥ fun a : Blk lo (lo + 2) => vec3 lo m0 m1 m2 a) = m0 ^ 2 + m1 ^ 2 + m2 ^ 2 := by
    have := sum3 (lo := lo) fun a => vec3 lo m0 m1 m2 a * vec3 lo m0 m1 m2 a
    rw [vec3_0, vec3_1, vec3_2] at this
    refine Eq.trans this ?_
    ring
  have s2 : ((fun a : Blk lo (lo + 2) => vec3 lo x y w a) ⬝ᵥ fun a : Blk lo (lo + 2) => vec3 lo m0 m1 m2 a) = x * m0 + y * m1 + w * m2 := by
    have := sum3 (lo := lo) fun a => vec3 lo x y w a * vec3 lo m0 m1 m2 a
    rw [vec3_0, vec3_1, vec3_2, vec3_0, vec3_1, vec3_2] at this
    exact this
  have s3 : ∑ a : Blk lo (lo + 2), block lo (lo + 2) T' a ⟨lo, Finset.mem_Icc.2 ⟨le_refl _, by omega⟩⟩ ^ 2 = T' lo lo ^ 2 + T' (lo + 1) lo ^ 2 := by
    have := sum3 (lo := lo) fun a => T' a lo ^ 2
    rw [hess] at this
    refine Eq.trans this ?_
    ring
  rw [s1, s3] at n1
  rw [s2] at n2
  change β ^ 2 * T' lo lo = _ at n2
  rw [h3] at n1 n2
  rw [← n2, ← n1]; ring

/-- One real shift, used twice, is an eigenvalue of the matrix: it appears as the last diagonal element. -/
theorem francis_deflate (hF : Francis lo (lo + 2) lo T T' x y w) (hw : w ≠ 0) (hess : T' (lo + 2) lo = 0) (hsub : T' (lo + 1) lo ≠ 0) {o0 o1 o2 sig : ℝ}
    (ho : o0 ≠ 0)
    (e0 : o0 * T lo lo + o1 * T (lo + 1) lo + o2 * T (lo + 2) lo = sig * o0)
    (e1 : o0 * T lo (lo + 1) + o1 * T (lo + 1) (lo + 1) + o2 * T (lo + 2) (lo + 1) = sig * o1)
    (e2 : o0 * T lo (lo + 2) + o1 * T (lo + 1) (lo + 2) + o2 * T (lo + 2) (lo + 2) = sig * o2)
    (hv : o0 * x + o1 * y + o2 * w = 0) : T' (lo + 2) (lo + 1) = 0 ∧ T' (lo + 2) (lo + 2) = sig := by
  obtain ⟨Q, h1, h2, β, h3, h4⟩ := francis_open hF
  have hβ : β ≠ 0 := by
    rintro rfl
    have : 0 < w ^ 2 := by positivity
    nlinarith [sq_nonneg x, sq_nonneg y]
  obtain ⟨u, u1, u2, u3⟩ := fr_left h1 h2 (V := fun a : Blk lo (lo + 2) => vec3 lo x y w a) h4
    (om := fun a : Blk lo (lo + 2) => vec3 lo o0 o1 o2 a) (sig := sig) (by
      funext b
      rw [vecMul3, vec3_0, vec3_1, vec3_2, Pi.smul_apply, smul_eq_mul]
      rcases blk_cases b with h | h | h <;> rw [h]
      · rw [vec3_0]; exact e0
      · rw [vec3_1]; exact e1
      · rw [vec3_2]; exact e2)
  set b0 : Blk lo (lo + 2) := ⟨lo, Finset.mem_Icc.2 ⟨le_refl _, by omega⟩⟩ with hb0
  set b1 : Blk lo (lo + 2) := ⟨lo + 1, Finset.mem_Icc.2 ⟨by omega, by omega⟩⟩ with hb1
  set b2 : Blk lo (lo + 2) := ⟨lo + 2, Finset.mem_Icc.2 ⟨by omega, le_refl _⟩⟩ with hb2
  have hu : ∃ U : ℤ → ℝ, ∀ a : Blk lo (lo + 2), U a = u a := ⟨fun a => if h : a ∈ Finset.Icc lo (lo + 2) then u ⟨a, h⟩ else 0, fun a => by
    beta_reduce; rw [dif_pos a.2]⟩
  obtain ⟨U, hU⟩ := hu
  have hu' : u = fun a : Blk lo (lo + 2) => U a := by funext a; exact (hU a).symm
  subst hu'
  have z0 : U lo = 0 := by
    have s2 : ((fun a : Blk lo (lo + 2) => vec3 lo o0 o1 o2 a) ⬝ᵥ fun a : Blk lo (lo + 2) => vec3 lo x y w a) = o0 * x + o1 * y + o2 * w := by
      have := sum3 (lo := lo) fun a => vec3 lo o0 o1 o2 a * vec3 lo x y w a
      rw [vec3_0, vec3_1, vec3_2, vec3_0, vec3_1, vec3_2] at this
      exact this
    rw [s2, hv] at u2
    exact (mul_eq_zero.1 u2).resolve_left hβ
  have c0 := congrFun u1 b0
  have c1 := congrFun u1 b1
  have c2 := congrFun u1 b2
  rw [vecMul3, Pi.smul_apply, smul_eq_mul] at c0 c1 c2
  simp only [hb0, hb1, hb2, z0, hess] at c0 c1 c2
  have z1 : U (lo + 1) = 0 := by
    have : U (lo + 1) * T' (lo + 1) lo = 0 := by linarith
    exact (mul_eq_zero.1 this).resolve_right hsub
  have nz : U (lo + 2) ≠ 0 := by
    intro z2
    have s3 : ((fun a : Blk lo (lo + 2) => U a) ⬝ᵥ fun a : Blk lo (lo + 2) => U a) = 0 := by
      have := sum3 (lo := lo) fun a => U a * U a
      rw [z0, z1, z2] at this
      refine Eq.trans this ?_
      ring
    have s4 : ((fun a : Blk lo (lo + 2) => vec3 lo o0 o1 o2 a) ⬝ᵥ fun a : Blk lo (lo + 2) => vec3 lo o0 o1 o2 a) = o0 ^ 2 + o1 ^ 2 + o2 ^ 2 := by
      have := sum3 (lo := lo) fun a => vec3 lo o0 o1 o2 a * vec3 lo o0 o1 o2 a
      rw [vec3_0, vec3_1, vec3_2] at this
      refine Eq.trans this ?_
      ring
    rw [s3, s4] at u3
    have : 0 < o0 ^ 2 := by positivity
    nlinarith [sq_nonneg o1, sq_nonneg o2]
  rw [z1] at c1 c2
  refine ⟨?_, ?_⟩
  · have : U (lo + 2) * T' (lo + 2) (lo + 1) = 0 := by linarith
    exact (mul_eq_zero.1 this).resolve_left nz
  · have : U (lo + 2) * (T' (lo + 2) (lo + 2) - sig) = 0 := by linarith
    linarith [(mul_eq_zero.1 this).resolve_left nz]

end three

end Verif
