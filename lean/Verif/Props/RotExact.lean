import Verif.Lib.Exact
import Verif.Props.Blas1
import Mathlib.Tactic.LinearCombination

/-!
# `drot` in exact arithmetic (C15)
-/

namespace Verif
open Scalar Spec XR

/-- `drot` on real vectors. -/
theorem drot_real (n : Nat) (x y : List ℝ) (incx incy : Int) (c s : ℝ) (hx0 : incx ≠ 0)
    (hy0 : incy ≠ 0) (hx : StrideFits n incx x.length) (hy : StrideFits n incy y.length)
    (hox : n * incx.natAbs + 1 < 2 ^ 31) (hoy : n * incy.natAbs + 1 < 2 ^ 31) :
    ∃ x' y' : List ℝ,
      drot (n : Int) (x.map fin) incx (y.map fin) incy (fin c) (fin s) =
        pure (x'.map fin, y'.map fin) ∧
      x'.length = x.length ∧ y'.length = y.length ∧
      (∀ k (hk : k < n),
        x'[strideIx n incx k]? = some (c * x[strideIx n incx k]'(hx k hk) +
          s * y[strideIx n incy k]'(hy k hk)) ∧
        y'[strideIx n incy k]? = some (c * y[strideIx n incy k]'(hy k hk) -
          s * x[strideIx n incx k]'(hx k hk))) ∧
      (∀ p, (∀ k < n, strideIx n incx k ≠ p) → x'[p]? = x[p]?) ∧
      (∀ p, (∀ k < n, strideIx n incy k ≠ p) → y'[p]? = y[p]?) := by
  obtain ⟨x', y', e, l1, l2, h, f1, f2⟩ := C14_drot n (x.map fin) (y.map fin) incx incy (fin c) (fin s)
    hx0 hy0 (by simpa using hx) (by simpa using hy) hox hoy
  rw [List.length_map] at l1 l2
  have kx : (x'.map XR.toReal).map fin = x' := by
    apply map_fin_of_forall
    intro p hp
    by_cases hk : ∃ k, k < n ∧ strideIx n incx k = p
    · obtain ⟨k, hk, rfl⟩ := hk
      refine ⟨c * x[strideIx n incx k]'(hx k hk) + s * y[strideIx n incy k]'(hy k hk), ?_⟩
      rw [(h k hk).1]; simp
    · push Not at hk
      rw [f1 p hk]
      exact ⟨x[p]'(by omega), by simp [show p < x.length by omega]⟩
  have ky : (y'.map XR.toReal).map fin = y' := by
    apply map_fin_of_forall
    intro p hp
    by_cases hk : ∃ k, k < n ∧ strideIx n incy k = p
    · obtain ⟨k, hk, rfl⟩ := hk
      refine ⟨c * y[strideIx n incy k]'(hy k hk) - s * x[strideIx n incx k]'(hx k hk), ?_⟩
      rw [(h k hk).2]; simp
    · push Not at hk
      rw [f2 p hk]
      exact ⟨y[p]'(by omega), by simp [show p < y.length by omega]⟩
  refine ⟨x'.map XR.toReal, y'.map XR.toReal, by rw [kx, ky]; exact e, by simp [l1], by simp [l2],
    ?_, ?_, ?_⟩
  · intro k hk
    obtain ⟨h1, h2⟩ := h k hk
    rw [List.getElem?_map, List.getElem?_map, h1, h2]
    simp [XR.toReal]
  · intro p hp
    rw [List.getElem?_map, f1 p hp, List.getElem?_map, Option.map_map]
    cases x[p]? <;> rfl
  · intro p hp
    rw [List.getElem?_map, f2 p hp, List.getElem?_map, Option.map_map]
    cases y[p]? <;> rfl

/-- **C15.** In exact arithmetic, for `c² + s² = 1`, `drot` preserves `x_k² + y_k²` for every one of
the `n` pairs, keeps everything else, and a second `drot` with `(c, -s)` restores both vectors. -/
theorem C15_drot_isometry (n : Nat) (x y : List ℝ) (incx incy : Int) (c s : ℝ) (hcs : c ^ 2 + s ^ 2 = 1)
    (hx0 : incx ≠ 0) (hy0 : incy ≠ 0)
    (hx : StrideFits n incx x.length) (hy : StrideFits n incy y.length)
    (hox : n * incx.natAbs + 1 < 2 ^ 31) (hoy : n * incy.natAbs + 1 < 2 ^ 31) :
    ∃ x' y' : List ℝ,
      drot (n : Int) (x.map fin) incx (y.map fin) incy (fin c) (fin s) =
        pure (x'.map fin, y'.map fin) ∧
      x'.length = x.length ∧ y'.length = y.length ∧
      (∀ k < n, x'.getD (strideIx n incx k) 0 ^ 2 + y'.getD (strideIx n incy k) 0 ^ 2 =
        x.getD (strideIx n incx k) 0 ^ 2 + y.getD (strideIx n incy k) 0 ^ 2) ∧
      drot (n : Int) (x'.map fin) incx (y'.map fin) incy (fin c) (fin (-s)) =
        pure (x.map fin, y.map fin) := by
  obtain ⟨x', y', e, l1, l2, h, f1, f2⟩ := drot_real n x y incx incy c s hx0 hy0 hx hy hox hoy
  refine ⟨x', y', e, l1, l2, ?_, ?_⟩
  · intro k hk
    obtain ⟨h1, h2⟩ := h k hk
    simp only [List.getD_eq_getElem?_getD]
    rw [h1, h2, List.getElem?_eq_getElem (hx k hk), List.getElem?_eq_getElem (hy k hk)]
    simp only [Option.getD_some]
    generalize x[strideIx n incx k]'(hx k hk) = a
    generalize y[strideIx n incy k]'(hy k hk) = b
    linear_combination (a ^ 2 + b ^ 2) * hcs
  · obtain ⟨x2, y2, e2, l3, l4, h', g1, g2⟩ := drot_real n x' y' incx incy c (-s) hx0 hy0
      (by rwa [l1]) (by rwa [l2]) hox hoy
    rw [e2]
    have ex : x2 = x := by
      apply List.ext_getElem?
      intro p
      by_cases hk : ∃ k, k < n ∧ strideIx n incx k = p
      · obtain ⟨k, hk, rfl⟩ := hk
        obtain ⟨h1, h2⟩ := h k hk
        rw [(h' k hk).1, List.getElem?_eq_getElem (hx k hk)]
        rw [List.getElem?_eq_getElem (by rw [l1]; exact hx k hk), Option.some.injEq] at h1
        rw [List.getElem?_eq_getElem (by rw [l2]; exact hy k hk), Option.some.injEq] at h2
        rw [h1, h2, Option.some.injEq]
        generalize x[strideIx n incx k]'(hx k hk) = a
        generalize y[strideIx n incy k]'(hy k hk) = b
        linear_combination a * hcs
      · push Not at hk
        rw [g1 p hk, f1 p hk]
    have ey : y2 = y := by
      apply List.ext_getElem?
      intro p
      by_cases hk : ∃ k, k < n ∧ strideIx n incy k = p
      · obtain ⟨k, hk, rfl⟩ := hk
        obtain ⟨h1, h2⟩ := h k hk
        rw [(h' k hk).2, List.getElem?_eq_getElem (hy k hk)]
        rw [List.getElem?_eq_getElem (by rw [l1]; exact hx k hk), Option.some.injEq] at h1
        rw [List.getElem?_eq_getElem (by rw [l2]; exact hy k hk), Option.some.injEq] at h2
        rw [h1, h2, Option.some.injEq]
        generalize x[strideIx n incx k]'(hx k hk) = a
        generalize y[strideIx n incy k]'(hy k hk) = b
        linear_combination b * hcs
      · push Not at hk
        rw [g2 p hk, f2 p hk]
    rw [ex, ey]

/-- The rotation by the angle with cosine `3/5`, on two elements with strides `2` and `-1`. -/
example : ((3 : ℝ) / 5) ^ 2 + (4 / 5) ^ 2 = 1 ∧ StrideFits 2 2 [1, (2 : ℝ), 3].length ∧
    StrideFits 2 (-1) [(5 : ℝ), 6].length := by
  refine ⟨by norm_num, ?_, ?_⟩ <;> intro k hk <;> simp [strideIx] <;> omega

end Verif
