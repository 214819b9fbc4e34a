import Verif.Lib.Blas1

/-!
# Vector routines: `dcopy`, `dscal`, `drot`, `lsame` (C10–C14, C19)

Stated for `Vec<f64>` arguments (`List F`), for an arbitrary scalar type `F`, hence also for IEEE
`f64`.  `strideIx n inc k` (`Spec/Stride.lean`) is the position of element `k` of a strided vector.
-/

set_option linter.unusedSectionVars false

namespace Verif
open Scalar

variable {F : Type} [Scalar F]

theorem is1_vec (v : List F) : Is1 (ToFA.toFa (F := F) v : FA F) v.length (ofList v) :=
  (tab_ofList v).symm

theorem ofList_succ (v : List F) {p : Nat} (h : p < v.length) :
    ofList v ((p : Int) + 1) = v[p] := by
  unfold ofList
  have : ((p : Int) + 1 - 1).toNat = p := by omega
  rw [this, List.getD_eq_getElem?_getD, List.getElem?_eq_getElem h]; rfl

theorem tab_at {L : Nat} {g : Int → F} {p : Nat} (h : p < L) :
    (tab L g)[p]? = some (g ((p : Int) + 1)) := by rw [tab_getElem?, if_pos h]

/-! ### DCOPY -/

theorem dcopy_vec_core (n : Nat) (x y : List F) (incx incy : Int) (hn : 0 < n)
    (hox : StrideOK n incx) (hoy : StrideOK n incy) :
    ∃ y' : List F, dcopy (F := F) (n : Int) x incx y incy = pure y' ∧
      y' = tab y.length (copyFold (pos n incy)
        (fun k => (ToFA.toFa (F := F) x : FA F).get1 (pos n incx k)) (ofList y) n) := by
  unfold dcopy
  by_cases hu : incx = 1 ∧ incy = 1
  · obtain ⟨rfl, rfl⟩ := hu
    have hn31 : n < 2 ^ 31 := by unfold StrideOK at hox; simp at hox; omega
    obtain ⟨d', e, h⟩ := dcopy_unit hn31 (ToFA.toFa x) (ToFA.toFa y) (is1_vec y) hn
    refine ⟨d'.data, by rw [e]; rfl, ?_⟩
    rw [h]
    have : pos n 1 = fun (k : Nat) => (k : Int) + 1 := funext (pos_one n)
    rw [this]
  · obtain ⟨d', e, h⟩ := dcopy_plain hn hox hoy (ToFA.toFa x) (ToFA.toFa y) (is1_vec y)
    refine ⟨d'.1.data, ?_, h⟩
    unfold dcopyFA
    rw [if_neg (by omega), if_neg hu, startIx_ok hn hox, startIx_ok hn hoy]
    simp only [pure_bind]
    rw [e]; rfl

/-- **C10.** `dcopy` sets element `k` of the strided vector `y` to element `k` of the strided vector
`x`, for all `k < n`, and changes nothing else; it returns normally in both profiles.  (If `incy = 0`
all copies go to the same place and the last one wins; hence the condition on later `k'`.) -/
theorem C10_dcopy (n : Nat) (x y : List F) (incx incy : Int)
    (hx : StrideFits n incx x.length) (hy : StrideFits n incy y.length)
    (hox : n * incx.natAbs + 1 < 2 ^ 31) (hoy : n * incy.natAbs + 1 < 2 ^ 31) :
    ∃ y' : List F, dcopy (F := F) (n : Int) x incx y incy = pure y' ∧ y'.length = y.length ∧
      (∀ k < n, (∀ k', k < k' → k' < n → strideIx n incy k' ≠ strideIx n incy k) →
        y'[strideIx n incy k]? = x[strideIx n incx k]?) ∧
      (∀ p, (∀ k < n, strideIx n incy k ≠ p) → y'[p]? = y[p]?) := by
  by_cases hn : 0 < n
  · obtain ⟨y', e, rfl⟩ := dcopy_vec_core n x y incx incy hn hox hoy
    refine ⟨_, e, length_tab _ _, ?_, ?_⟩
    · intro k hk hlast
      rw [tab_at (hy k hk)]
      have : ((strideIx n incy k : Nat) : Int) + 1 = pos n incy k := rfl
      rw [this, copyFold_in _ _ _ n k hk]
      · rw [get1_is1 (is1_vec x) (pos_fits hox hk).1 _ (pos_fits hox hk).2]
        · unfold pos
          rw [ofList_succ x (hx k hk), List.getElem?_eq_getElem (hx k hk)]
        · have := hx k hk; unfold pos; omega
      · intro k' h1 h2 e'
        apply hlast k' h1 h2
        unfold pos at e'; omega
    · intro p hp
      by_cases hpl : p < y.length
      · rw [tab_at hpl, copyFold_out, ofList_succ y hpl, List.getElem?_eq_getElem hpl]
        intro k hk e'
        apply hp k hk
        unfold pos at e'; omega
      · rw [List.getElem?_eq_none (by simp; omega), List.getElem?_eq_none (by omega)]
  · have : n = 0 := by omega
    subst this
    refine ⟨y, ?_, rfl, fun k hk => by omega, fun p _ => rfl⟩
    unfold dcopy dcopyFA
    simp

/-- **C10 for `incy ≠ 0`**: plain form. -/
theorem C10_dcopy_nonzero (n : Nat) (x y : List F) (incx incy : Int) (h0 : incy ≠ 0)
    (hx : StrideFits n incx x.length) (hy : StrideFits n incy y.length)
    (hox : n * incx.natAbs + 1 < 2 ^ 31) (hoy : n * incy.natAbs + 1 < 2 ^ 31) :
    ∃ y' : List F, dcopy (F := F) (n : Int) x incx y incy = pure y' ∧ y'.length = y.length ∧
      (∀ k < n, y'[strideIx n incy k]? = x[strideIx n incx k]?) ∧
      (∀ p, (∀ k < n, strideIx n incy k ≠ p) → y'[p]? = y[p]?) := by
  obtain ⟨y', e, h1, h2, h3⟩ := C10_dcopy n x y incx incy hx hy hox hoy
  exact ⟨y', e, h1, fun k hk => h2 k hk (fun k' g1 g2 e' => by
    have := strideIx_inj h0 g2 hk e'; omega), h3⟩

/-- Non-vacuity: 3 elements, strides 2 and -1. -/
example (a b c d e : F) : StrideFits 3 2 [a, b, c, d, e].length ∧ StrideFits 3 (-1) [a, b, c].length := by
  constructor
  · intro k hk; simp [strideIx]; omega
  · intro k hk; simp [strideIx]; omega

/-- **C11.** `n ≤ 0`: nothing changes (and nothing is read). -/
theorem C11_dcopy_nonpos (n : Int) (hn : n ≤ 0) (x y : List F) (incx incy : Int) :
    dcopy (F := F) n x incx y incy = pure y := by
  unfold dcopy dcopyFA
  simp [hn]

/-- **C11.** Vectors shorter than `n` (unit increments): no panic; the elements of `y` that exist are
overwritten, with `MIN_POSITIVE` where `x` has no element; `y` does not grow. -/
theorem C11_dcopy_short (n : Nat) (hn : n < 2 ^ 31 - 1) (x y : List F) (hxl : x.length < 2 ^ 31) :
    ∃ y' : List F, dcopy (F := F) (n : Int) x 1 y 1 = pure y' ∧ y'.length = y.length ∧
      ∀ p < y.length, y'[p]? = if p < n then some (x.getD p minPositive) else y[p]? := by
  by_cases hn0 : 0 < n
  · have hok : StrideOK n 1 := by unfold StrideOK; simp; omega
    obtain ⟨y', e, rfl⟩ := dcopy_vec_core n x y 1 1 hn0 hok hok
    refine ⟨_, e, length_tab _ _, ?_⟩
    intro p hp
    rw [tab_at hp]
    by_cases hpn : p < n
    · rw [if_pos hpn]
      have := copyFold_in (pos n 1) (fun k => (ToFA.toFa (F := F) x : FA F).get1 (pos n 1 k))
        (ofList y) n p hpn (fun k' h1 h2 e' => by
          rw [pos_one, pos_one] at e'; omega)
      rw [pos_one] at this
      rw [this]
      congr 1
      by_cases hpx : p < x.length
      · rw [get1_is1 (is1_vec x) (by omega) (by omega) (by unfold FitsI32; omega), ofList_succ x hpx]
        simp [hpx]
      · rw [get1_is1_out (is1_vec x) (by omega) (by unfold FitsI32; omega)
          (lt_trans hxl (by norm_num))]
        simp [hpx]
    · rw [if_neg hpn, copyFold_out, ofList_succ y hp, List.getElem?_eq_getElem hp]
      intro k hk e'
      rw [pos_one] at e'; omega
  · have : n = 0 := by omega
    subst this
    exact ⟨y, C11_dcopy_nonpos _ (by simp) _ _ _ _, rfl, fun p hp => by simp⟩

/-! ### DSCAL -/

/-- **C12.** For `incx ≥ 1` and `a` not equal to 1, and a vector of any length, `dscal` multiplies
each of the `n` strided elements that exist by `a`, once, and changes nothing else; it returns normally
in both profiles. -/
theorem C12_dscal_any_length (n : Nat) (da : F) (hda : (da =ᶠ one) = false) (x : List F) (incx : Int)
    (hinc : 1 ≤ incx) (hox : n * incx.natAbs + 1 < 2 ^ 31) :
    ∃ x' : List F, dscal (n : Int) da x incx = pure x' ∧ x'.length = x.length ∧
      (∀ k < n, x'[strideIx n incx k]? = (x[strideIx n incx k]?).map (· * da)) ∧
      (∀ p, (∀ k < n, strideIx n incx k ≠ p) → x'[p]? = x[p]?) := by
  by_cases hn : 0 < n
  · have core : ∃ d', dscalFA (n : Int) da (ToFA.toFa (F := F) x) incx = pure (some d') ∧
        Is1 d' x.length (modFold (pos n incx) (· * da) (ofList x) n) := by
      by_cases h1 : incx = 1
      · subst h1
        have hn31 : n < 2 ^ 31 := by simp at hox; omega
        obtain ⟨d', e, h⟩ := dscal_unit hn31 hn da hda (ToFA.toFa x) (is1_vec x)
        have : pos n 1 = fun (k : Nat) => (k : Int) + 1 := funext (pos_one n)
        exact ⟨d', e, by rw [this]; exact h⟩
      · have hf : FitsI32 ((n : Int) * incx) := by
          have h2 := ixAt_fits hn hox (le_refl n)
          unfold ixAt at h2
          rw [if_neg (by omega)] at h2
          have : (0 : Int) ≤ n * incx := Int.mul_nonneg (by omega) (by omega)
          unfold FitsI32 at *; omega
        have hn31 : n ≤ 4294967296 := by
          have : n * 1 ≤ n * incx.natAbs := Nat.mul_le_mul_left _ (by omega)
          omega
        obtain ⟨d', e, h⟩ := dscalWhile_ok (n := n) (incx := incx) (by omega) hox da 4294967296 0
          (Nat.zero_le _) (by omega) (ToFA.toFa x) (is1_vec x)
        refine ⟨d', ?_, h⟩
        unfold dscalFA
        rw [if_neg (by simp [hda]; omega), if_neg h1, imul_ok hf]
        simp only [pure_bind]
        simp only [Nat.cast_zero, zero_mul, add_zero] at e
        rw [e]; rfl
    obtain ⟨d', e, h⟩ := core
    have hd : d'.data = tab x.length (modFold (pos n incx) (· * da) (ofList x) n) := h
    refine ⟨d'.data, ?_, by rw [hd, length_tab], ?_, ?_⟩
    · unfold dscal; rw [e]; rfl
    · intro k hk
      by_cases hx : strideIx n incx k < x.length
      swap
      · rw [List.getElem?_eq_none (by rw [hd]; simp; omega), List.getElem?_eq_none (by omega)]; rfl
      rw [hd, tab_at hx]
      have : ((strideIx n incx k : Nat) : Int) + 1 = pos n incx k := rfl
      rw [this, modFold_in _ _ _ n k hk (fun k k' h1 h2 e => pos_inj (by omega) k' k h2 h1 e)]
      rw [← this, ofList_succ x hx, List.getElem?_eq_getElem hx]; rfl
    · intro p hp
      by_cases hpl : p < x.length
      · rw [hd, tab_at hpl, modFold_out, ofList_succ x hpl, List.getElem?_eq_getElem hpl]
        intro k hk e'
        apply hp k hk
        unfold pos at e'; omega
      · rw [List.getElem?_eq_none (by rw [hd]; simp; omega), List.getElem?_eq_none (by omega)]
  · have : n = 0 := by omega
    subst this
    refine ⟨x, ?_, rfl, fun k hk => by omega, fun p _ => rfl⟩
    unfold dscal dscalFA
    simp

/-- **C12.** The case of a vector that has all `n` strided elements. -/
theorem C12_dscal (n : Nat) (da : F) (hda : (da =ᶠ one) = false) (x : List F) (incx : Int)
    (hinc : 1 ≤ incx) (_hx : StrideFits n incx x.length) (hox : n * incx.natAbs + 1 < 2 ^ 31) :
    ∃ x' : List F, dscal (n : Int) da x incx = pure x' ∧ x'.length = x.length ∧
      (∀ k < n, x'[strideIx n incx k]? = (x[strideIx n incx k]?).map (· * da)) ∧
      (∀ p, (∀ k < n, strideIx n incx k ≠ p) → x'[p]? = x[p]?) :=
  C12_dscal_any_length n da hda x incx hinc hox

/-- **C13.** The no-op cases of `dscal`. -/
theorem C13_dscal_noop (n : Int) (da : F) (x : List F) (incx : Int)
    (h : n ≤ 0 ∨ incx ≤ 0 ∨ (da =ᶠ one) = true) : dscal n da x incx = pure x := by
  unfold dscal dscalFA
  rw [if_pos h]; rfl

example (a b c d e : F) : StrideFits 3 2 [a, b, c, d, e].length := by
  intro k hk; simp [strideIx]; omega

/-- `dscal` overflows its `i32` counter for a stride of `i32::MAX` and two or more elements, although
all indices it would touch are `i32` values: in a debug build it panics. -/
theorem C12_dscal_overflow_debug (da : F) (hda : (da =ᶠ one) = false) (x : List F) :
    dscal 2 da x 2147483647 .debug = .panic .overflow := by
  unfold dscal dscalFA
  rw [if_neg (by simp [hda]), if_neg (by decide)]
  rfl

/-! ### DROT -/

/-- **C14.** `drot` replaces every one of the `n` strided pairs `(x_k, y_k)` by
`(c*x_k + s*y_k, c*y_k - s*x_k)`, computed from the old values, and changes nothing else; it returns
normally in both profiles. -/
theorem C14_drot (n : Nat) (x y : List F) (incx incy : Int) (c s : F) (hx0 : incx ≠ 0)
    (hy0 : incy ≠ 0) (hx : StrideFits n incx x.length) (hy : StrideFits n incy y.length)
    (hox : n * incx.natAbs + 1 < 2 ^ 31) (hoy : n * incy.natAbs + 1 < 2 ^ 31) :
    ∃ x' y' : List F, drot (n : Int) x incx y incy c s = pure (x', y') ∧
      x'.length = x.length ∧ y'.length = y.length ∧
      (∀ k (hk : k < n),
        x'[strideIx n incx k]? = some (c * x[strideIx n incx k]'(hx k hk) +
          s * y[strideIx n incy k]'(hy k hk)) ∧
        y'[strideIx n incy k]? = some (c * y[strideIx n incy k]'(hy k hk) -
          s * x[strideIx n incx k]'(hx k hk))) ∧
      (∀ p, (∀ k < n, strideIx n incx k ≠ p) → x'[p]? = x[p]?) ∧
      (∀ p, (∀ k < n, strideIx n incy k ≠ p) → y'[p]? = y[p]?) := by
  by_cases hn : 0 < n
  · obtain ⟨d', e, gx, gy, h1, h2, h3⟩ := drotFA_ok hn hox hoy hx0 hy0 c s (ToFA.toFa x)
      (ToFA.toFa y) (is1_vec x) (is1_vec y)
      (fun k hk => by have := hx k hk; unfold pos; omega)
      (fun k hk => by have := hy k hk; unfold pos; omega)
    have hd1 : d'.1.data = tab x.length gx := h1
    have hd2 : d'.2.data = tab y.length gy := h2
    refine ⟨d'.1.data, d'.2.data, ?_, by rw [hd1, length_tab], by rw [hd2, length_tab], ?_, ?_, ?_⟩
    · unfold drot; rw [e]; rfl
    · intro k hk
      have ex : ofList x (pos n incx k) = x[strideIx n incx k]'(hx k hk) := ofList_succ x (hx k hk)
      have ey : ofList y (pos n incy k) = y[strideIx n incy k]'(hy k hk) := ofList_succ y (hy k hk)
      constructor
      · rw [hd1, tab_at (hx k hk), ← ex, ← ey]
        exact congrArg some (h3.doneX k hk)
      · rw [hd2, tab_at (hy k hk), ← ex, ← ey]
        exact congrArg some (h3.doneY k hk)
    · intro p hp
      by_cases hpl : p < x.length
      · rw [hd1, tab_at hpl, h3.frameX, ofList_succ x hpl, List.getElem?_eq_getElem hpl]
        intro k hk e'
        apply hp k hk
        unfold pos at e'; omega
      · rw [List.getElem?_eq_none (by rw [hd1]; simp; omega), List.getElem?_eq_none (by omega)]
    · intro p hp
      by_cases hpl : p < y.length
      · rw [hd2, tab_at hpl, h3.frameY, ofList_succ y hpl, List.getElem?_eq_getElem hpl]
        intro k hk e'
        apply hp k hk
        unfold pos at e'; omega
      · rw [List.getElem?_eq_none (by rw [hd2]; simp; omega), List.getElem?_eq_none (by omega)]
  · have : n = 0 := by omega
    subst this
    refine ⟨x, y, ?_, rfl, rfl, fun k hk => by omega, fun p _ => rfl, fun p _ => rfl⟩
    unfold drot drotFA
    simp

/-- `drot` with `n ≤ 0` changes nothing. -/
theorem C14_drot_nonpos (n : Int) (hn : n ≤ 0) (x y : List F) (incx incy : Int) (c s : F) :
    drot n x incx y incy c s = pure (x, y) := by
  unfold drot drotFA
  simp [hn]

/-! ### LSAME -/

/-- Specification: ASCII upper-casing of a character. -/
def asciiUpper (c : Char) : Nat := if 97 ≤ c.toNat ∧ c.toNat ≤ 122 then c.toNat - 32 else c.toNat

/-- **C19.** On ASCII characters `lsame` is equality up to ASCII case. -/
theorem C19_lsame_ascii (a b : Char) (ha : a.toNat < 128) (hb : b.toNat < 128) :
    lsame a b = true ↔ asciiUpper a = asciiUpper b := by
  unfold lsame asciiUpper charU8 u8Alpha u8Lower
  rw [Nat.mod_eq_of_lt (by omega), Nat.mod_eq_of_lt (by omega)]
  generalize a.toNat = x at *
  generalize b.toNat = y at *
  simp only [Bool.or_eq_true, Bool.and_eq_true, beq_iff_eq, decide_eq_true_eq]
  split <;> split <;> split <;> split <;> omega

theorem lsame_iff (a b : Char) : lsame a b = true ↔
    charU8 a = charU8 b ∨ (u8Alpha (charU8 a) = true ∧ u8Alpha (charU8 b) = true ∧
      u8Lower (charU8 a) = u8Lower (charU8 b)) := by
  unfold lsame
  simp [and_assoc]

/-- **C19.** `lsame` is an equivalence relation on all characters. -/
theorem C19_lsame_equiv :
    (∀ a, lsame a a = true) ∧ (∀ a b, lsame a b = lsame b a) ∧
    (∀ a b c, lsame a b = true → lsame b c = true → lsame a c = true) := by
  refine ⟨fun a => ?_, fun a b => ?_, fun a b c => ?_⟩
  · rw [lsame_iff]; left; rfl
  · rw [Bool.eq_iff_iff, lsame_iff, lsame_iff]
    constructor <;> rintro (h | ⟨h1, h2, h3⟩) <;> first | (left; exact h.symm) | (right; exact ⟨h2, h1, h3.symm⟩)
  · rw [lsame_iff, lsame_iff, lsame_iff]
    generalize charU8 a = x
    generalize charU8 b = y
    generalize charU8 c = z
    rintro (rfl | ⟨h1, h2, h3⟩) (rfl | ⟨h4, h5, h6⟩)
    · left; rfl
    · right; exact ⟨h4, h5, h6⟩
    · right; exact ⟨h1, h2, h3⟩
    · right; exact ⟨h1, h5, h3.trans h6⟩

/-- **C19, non-ASCII.** Distinct characters can be "the same": only the low byte is compared. -/
theorem C19_lsame_aliasing : lsame 'Ŏ' 'N' = true := by decide

end Verif
