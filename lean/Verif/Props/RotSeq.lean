import Verif.Props.Blas1
import Verif.Inst.Float

/-!
# C11, C14: `dcopy` and `drot` for every increment and every length

`C11_dcopy` and `C14_drot` ask that the strided elements lie inside the vectors, and that the
increments are not zero.  Here there is no such condition: the routines are shown to be the sequence
of element operations of the BLAS definition, in order, with increment zero allowed (every step then
works on the same element), and with the rule of this library for elements past the end of a vector
(reads give the smallest positive normal number, writes are dropped).
-/

namespace Verif

open Scalar

variable {F : Type} [Scalar F]

/-- Specification: one plane rotation of element `i` of `x` and element `j` of `y`. -/
def Spec.rotAt (c s : F) (i j : Nat) (st : List F × List F) : List F × List F :=
  let a := st.1.getD i minPositive
  let b := st.2.getD j minPositive
  (st.1.set i (c * a + s * b), st.2.set j (c * b - s * a))

/-- Specification: element `j` of `y` becomes element `i` of `x`. -/
def Spec.copyAt (x : List F) (i j : Nat) (y : List F) : List F := y.set j (x.getD i minPositive)

theorem rs_get1_data {a : FA F} {x : List F} (h : a.data = x) {i : Nat} (hf : i + 1 < 2 ^ 31) :
    a.get1 ((i : Int) + 1) = x.getD i minPositive := by
  have hu : asUsize ((i : Int) + 1) = i + 1 := by
    rw [asUsize_nonneg (by omega) (by unfold FitsI32; omega)]; omega
  unfold FA.get1
  rw [if_neg (by omega), h, hu, Nat.add_sub_cancel, List.getD_eq_getElem?_getD]
  cases x[i]? <;> rfl

theorem rs_set1_data {a : FA F} {x : List F} (h : a.data = x) {i : Nat} (hf : i + 1 < 2 ^ 31) (v : F) :
    (a.set1 ((i : Int) + 1) v).data = x.set i v := by
  have hu : asUsize ((i : Int) + 1) = i + 1 := by
    rw [asUsize_nonneg (by omega) (by unfold FitsI32; omega)]; omega
  unfold FA.set1 FA.modify1
  rw [if_neg (by omega), h, hu, Nat.add_sub_cancel]
  cases e : x[i]? with
  | none =>
    have : x.length ≤ i := by simpa using e
    simp [h, List.set_eq_of_length_le this]
  | some w => simp

theorem pos_eq (n : Nat) (inc : Int) (k : Nat) : pos n inc k = (strideIx n inc k : Int) + 1 := by
  unfold pos; omega

theorem strideIx_lt {n : Nat} {inc : Int} (h : n * inc.natAbs + 1 < 2 ^ 31) {k : Nat} (hk : k < n) :
    strideIx n inc k + 1 < 2 ^ 31 := by
  have : strideIx n inc k ≤ n * inc.natAbs := by
    unfold strideIx
    split
    · exact Nat.mul_le_mul_right _ (by omega)
    · exact Nat.mul_le_mul_right _ (by omega)
  omega

/-- Specification: the first `m` rotations of `drot`, in order. -/
def Spec.rotSeq (n : Nat) (incx incy : Int) (c s : F) (x y : List F) (m : Nat) : List F × List F :=
  (List.range m).foldl
    (fun st k => Spec.rotAt c s (strideIx n incx k) (strideIx n incy k) st) (x, y)

theorem rotSeq_succ (n : Nat) (incx incy : Int) (c s : F) (x y : List F) (m : Nat) :
    Spec.rotSeq n incx incy c s x y (m + 1) =
      Spec.rotAt c s (strideIx n incx m) (strideIx n incy m) (Spec.rotSeq n incx incy c s x y m) := by
  unfold Spec.rotSeq
  rw [List.range_succ, List.foldl_append]; rfl

theorem drotPair_data {c s : F} {dx dy : FA F} {x y : List F} (hx : dx.data = x) (hy : dy.data = y)
    {i j : Nat} (hi : i + 1 < 2 ^ 31) (hj : j + 1 < 2 ^ 31) :
    (drotPair c s dx dy ((i : Int) + 1) ((j : Int) + 1)).1.data = (Spec.rotAt c s i j (x, y)).1 ∧
    (drotPair c s dx dy ((i : Int) + 1) ((j : Int) + 1)).2.data = (Spec.rotAt c s i j (x, y)).2 := by
  unfold drotPair Spec.rotAt
  simp only
  rw [rs_get1_data hx hi, rs_get1_data hy hj]
  exact ⟨rs_set1_data hx hi _, rs_set1_data hy hj _⟩

/-- **C14.** For every count, all increments (positive, negative and zero) and vectors of any length,
`drot` returns normally in both profiles, and what it does is the sequence of `n` plane rotations, one
element of `x` and one of `y` at a time, in order. -/
theorem C14_drot_sequential (n : Nat) (x y : List F) (incx incy : Int) (c s : F)
    (hox : n * incx.natAbs + 1 < 2 ^ 31) (hoy : n * incy.natAbs + 1 < 2 ^ 31) :
    drot (n : Int) x incx y incy c s = pure (Spec.rotSeq n incx incy c s x y n) := by
  by_cases hn : 0 < n
  · suffices h : ∃ d', drotFA (n : Int) (ToFA.toFa x : FA F) incx (ToFA.toFa y) incy c s = pure (some d') ∧
        d'.1.data = (Spec.rotSeq n incx incy c s x y n).1 ∧
        d'.2.data = (Spec.rotSeq n incx incy c s x y n).2 by
      obtain ⟨d', e, h1, h2⟩ := h
      unfold drot
      rw [e]
      show (pure (d'.1.data, d'.2.data) : R _) = _
      rw [h1, h2]
    unfold drotFA
    rw [if_neg (by omega)]
    by_cases hu : incx = 1 ∧ incy = 1
    · rw [if_pos hu]
      obtain ⟨rfl, rfl⟩ := hu
      obtain ⟨s', h1, h2, h3⟩ := forUp_iter (P := fun k (st : FA F × FA F) =>
          st.1.data = (Spec.rotSeq n 1 1 c s x y k).1 ∧ st.2.data = (Spec.rotSeq n 1 1 c s x y k).2)
        (f := fun st i => pure (drotPair c s st.1 st.2 i i)) n
        (s := ((ToFA.toFa x : FA F), (ToFA.toFa y : FA F))) ⟨rfl, rfl⟩ (by
          rintro k ⟨d1, d2⟩ hk ⟨h1, h2⟩
          have hp := pos_one n k
          rw [← hp, pos_eq, rotSeq_succ]
          exact ⟨_, rfl, drotPair_data h1 h2 (strideIx_lt hox hk) (strideIx_lt hox hk)⟩)
      refine ⟨s', ?_, h2, h3⟩
      rw [h1]; rfl
    · rw [if_neg hu, startIx_ok hn hox, startIx_ok hn hoy]
      simp only [pure_bind]
      obtain ⟨s', h1, -, -, h2, h3⟩ := forUp_iter
        (P := fun k (st : (FA F × FA F) × Int × Int) =>
          st.2.1 = ixAt n incx k ∧ st.2.2 = ixAt n incy k ∧
          st.1.1.data = (Spec.rotSeq n incx incy c s x y k).1 ∧
          st.1.2.data = (Spec.rotSeq n incx incy c s x y k).2)
        (f := drotStep c s incx incy) n
        (s := (((ToFA.toFa x : FA F), (ToFA.toFa y : FA F)), ixAt n incx 0, ixAt n incy 0))
        ⟨rfl, rfl, rfl, rfl⟩ (by
          rintro k ⟨⟨d1, d2⟩, ix, iy⟩ hk ⟨rfl, rfl, h1, h2⟩
          unfold drotStep
          simp only
          rw [iadd_ok (by rw [← ixAt_succ]; exact ixAt_fits hn hox hk),
            iadd_ok (by rw [← ixAt_succ]; exact ixAt_fits hn hoy hk)]
          rw [ixAt_succ, ixAt_succ, ixAt_eq_pos hk, ixAt_eq_pos hk, rotSeq_succ]
          have := drotPair_data (c := c) (s := s) h1 h2 (strideIx_lt hox hk) (strideIx_lt hoy hk)
          refine ⟨_, rfl, rfl, rfl, ?_⟩
          rw [pos_eq, pos_eq]
          exact this)
      refine ⟨s'.1, ?_, h2, h3⟩
      rw [h1]; rfl
  · have : n = 0 := by omega
    subst this
    unfold drot drotFA
    simp [Spec.rotSeq]

/-- Specification: the first `m` copies of `dcopy`, in order. -/
def Spec.copySeq (n : Nat) (incx incy : Int) (x y : List F) (m : Nat) : List F :=
  (List.range m).foldl (fun y k => Spec.copyAt x (strideIx n incx k) (strideIx n incy k) y) y

theorem tab_upd (L : Nat) (g : Int → F) (i : Nat) (v : F) :
    tab L (upd g ((i : Int) + 1) v) = (tab L g).set i v := by
  apply List.ext_getElem?
  intro p
  rw [List.getElem?_set]
  by_cases hp : p < L
  · rw [tab_at hp]
    unfold upd
    by_cases e : i = p
    · subst e; simp [hp]
    · rw [if_neg (by omega), if_neg e, tab_at hp]
  · rw [List.getElem?_eq_none (by simp; omega)]
    split
    · rename_i e; subst e
      rw [if_neg (by simpa using hp)]
    · rw [List.getElem?_eq_none (by simp; omega)]

/-- **C11.** For every count, all increments (positive, negative and zero) and vectors of any length,
`dcopy` returns normally in both profiles, and what it does is the sequence of `n` element copies, in
order.  This includes the unrolled loop for unit increments. -/
theorem C11_dcopy_sequential (n : Nat) (x y : List F) (incx incy : Int)
    (hox : n * incx.natAbs + 1 < 2 ^ 31) (hoy : n * incy.natAbs + 1 < 2 ^ 31) :
    dcopy (F := F) (n : Int) x incx y incy = pure (Spec.copySeq n incx incy x y n) := by
  by_cases hn : 0 < n
  · obtain ⟨y', e, rfl⟩ := dcopy_vec_core n x y incx incy hn hox hoy
    rw [e]
    congr 1
    have key : ∀ m ≤ n, tab y.length (copyFold (pos n incy)
        (fun k => (ToFA.toFa (F := F) x : FA F).get1 (pos n incx k)) (ofList y) m) =
        Spec.copySeq n incx incy x y m := by
      intro m
      induction m with
      | zero =>
        intro _
        have h0 : (ToFA.toFa (F := F) y : FA F).data = tab y.length (ofList y) := is1_vec y
        exact h0.symm
      | succ m ih =>
        intro hm
        rw [copyFold, pos_eq, tab_upd, ih (by omega)]
        unfold Spec.copySeq
        rw [List.range_succ, List.foldl_append, pos_eq, rs_get1_data rfl (strideIx_lt hox (by omega))]
        rfl
    exact key n (le_refl _)
  · have : n = 0 := by omega
    subst this
    unfold dcopy dcopyFA
    simp [Spec.copySeq]

/-- Non-vacuity: a short `x` read backwards, into a `y` of increment zero: the last copy wins. -/
theorem C11_sequential_example :
    Spec.copySeq 3 (-1) 0 ([1, 2] : List Float) [5, 6] 3 = [1, 6] ∧
    Spec.copySeq 3 (-1) 1 ([1, 2] : List Float) [5, 6] 3 = [2.2250738585072014e-308, 2] := by
  decide +kernel

/-- Non-vacuity: increment zero in `x` rotates the same element three times; the vector `y` is one
element short, and the missing element reads as the smallest positive normal number. -/
theorem C14_sequential_example :
    Spec.rotSeq 3 0 1 (0 : Float) 1 [10, 20] [1, 2] 3 = ([2.2250738585072014e-308, 20], [-10, -1]) ∧
    3 * (0 : Int).natAbs + 1 < 2 ^ 31 := by decide +kernel

end Verif
