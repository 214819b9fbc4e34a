import Verif.Props.RotSeq
import Verif.Props.GemmSign
import Verif.Lib.F64Even

/-!
# C120: the direction in which `drot` and `dcopy` run through their vectors, and the order of the two vectors of `drot`, do not matter
-/

namespace Verif
open F64 Scalar Spec

variable {F : Type} [Scalar F]

theorem strideIx_neg {n : Nat} {inc : Int} (h : inc ≠ 0) {k : Nat} (hk : k < n) : strideIx n (-inc) k = strideIx n inc (n - 1 - k) := by
  unfold strideIx
  rw [Int.natAbs_neg]
  rcases lt_or_gt_of_ne h with h | h
  · rw [if_neg (by omega), if_pos h]
    congr 1
    omega
  · rw [if_pos (by omega), if_neg (by omega)]

theorem StrideFits.flip {n : Nat} {inc : Int} {len : Nat} (h0 : inc ≠ 0) (h : StrideFits n inc len) : StrideFits n (-inc) len := fun k hk => by
  rw [strideIx_neg h0 hk]
  exact h _ (by omega)

/-- Two lists that agree at the positions of a strided vector and elsewhere. -/
theorem list_eq_of_stride {α : Type} {n : Nat} {inc : Int} {u v w : List α} (h : ∀ k < n, u[strideIx n inc k]? = v[strideIx n inc k]?)
    (hu : ∀ p, (∀ k < n, strideIx n inc k ≠ p) → u[p]? = w[p]?) (hv : ∀ p, (∀ k < n, strideIx n inc k ≠ p) → v[p]? = w[p]?) : u = v := by
  apply List.ext_getElem?
  intro p
  by_cases hp : ∃ k < n, strideIx n inc k = p
  · obtain ⟨k, hk, rfl⟩ := hp
    exact h k hk
  · push Not at hp
    rw [hu p hp, hv p hp]

/-- **C120.** Negating both increments of `drot` changes nothing: the same pairs are rotated, in the other order.  Any scalars. -/
theorem C120_drot_direction (n : Nat) (x y : List F) (incx incy : Int) (c s : F) (hx0 : incx ≠ 0) (hy0 : incy ≠ 0) (hx : StrideFits n incx x.length) (hy : StrideFits n incy y.length)
    (hox : n * incx.natAbs + 1 < 2 ^ 31) (hoy : n * incy.natAbs + 1 < 2 ^ 31) :
    drot (n : Int) x (-incx) y (-incy) c s = (drot (n : Int) x incx y incy c s : R (List F × List F)) := by
  obtain ⟨x', y', e, -, -, h, hp, hq⟩ := C14_drot n x y incx incy c s hx0 hy0 hx hy hox hoy
  obtain ⟨x'', y'', e', -, -, h', hp', hq'⟩ := C14_drot n x y (-incx) (-incy) c s (by omega) (by omega) (hx.flip hx0) (hy.flip hy0)
    (by rwa [Int.natAbs_neg]) (by rwa [Int.natAbs_neg])
  have back : ∀ {inc : Int}, inc ≠ 0 → ∀ k < n, strideIx n (-inc) (n - 1 - k) = strideIx n inc k := by
    intro inc h0 k hk
    rw [strideIx_neg h0 (by omega)]
    congr 1
    omega
  have off : ∀ {inc : Int}, inc ≠ 0 → ∀ p, (∀ k < n, strideIx n inc k ≠ p) → ∀ k < n, strideIx n (-inc) k ≠ p := by
    intro inc h0 p hp k hk
    rw [strideIx_neg h0 hk]
    exact hp _ (by omega)
  rw [e, e']
  have both : ∀ k < n, x''[strideIx n incx k]? = x'[strideIx n incx k]? ∧ y''[strideIx n incy k]? = y'[strideIx n incy k]? := by
    intro k hk
    obtain ⟨a, b⟩ := h' (n - 1 - k) (by omega)
    simp only [back hx0 k hk, back hy0 k hk] at a b
    exact ⟨a.trans (h k hk).1.symm, b.trans (h k hk).2.symm⟩
  rw [list_eq_of_stride (fun k hk => (both k hk).1) (fun p hp1 => hp' p (off hx0 p hp1)) hp,
    list_eq_of_stride (fun k hk => (both k hk).2) (fun p hp1 => hq' p (off hy0 p hp1)) hq]

/-- **C120.** The same for `dcopy`. -/
theorem C120_dcopy_direction (n : Nat) (x y : List F) (incx incy : Int) (hx0 : incx ≠ 0) (hy0 : incy ≠ 0) (hx : StrideFits n incx x.length) (hy : StrideFits n incy y.length)
    (hox : n * incx.natAbs + 1 < 2 ^ 31) (hoy : n * incy.natAbs + 1 < 2 ^ 31) :
    dcopy (F := F) (n : Int) x (-incx) y (-incy) = (dcopy (F := F) (n : Int) x incx y incy : R (List F)) := by
  obtain ⟨y', e, -, h, hq⟩ := C10_dcopy_nonzero n x y incx incy hy0 hx hy hox hoy
  obtain ⟨y'', e', -, h', hq'⟩ := C10_dcopy_nonzero n x y (-incx) (-incy) (by omega) (hx.flip hx0) (hy.flip hy0)
    (by rwa [Int.natAbs_neg]) (by rwa [Int.natAbs_neg])
  rw [e, e']
  rw [list_eq_of_stride (u := y'') (v := y') (inc := incy) (n := n) (w := y) ?_ ?_ hq]
  · intro k hk
    have a := h' (n - 1 - k) (by omega)
    rw [strideIx_neg hx0 (by omega), strideIx_neg hy0 (by omega), show n - 1 - (n - 1 - k) = k by omega] at a
    rw [a, h k hk]
  · intro p hp
    refine hq' p fun k hk => ?_
    rw [strideIx_neg hy0 hk]
    exact hp _ (by omega)

theorem rotAt_swap (c s : Float) (i j : Nat) (st : List Float × List Float) : rotAt c (-s) j i st.swap = (rotAt c s i j st).swap := by
  unfold rotAt
  simp only [Prod.fst_swap, Prod.snd_swap, Prod.swap_prod_mk]
  rw [neg_mul', neg_mul', sub_eq_add_neg', neg_neg', sub_eq_add_neg']

/-- **C120.** Exchanging the two vectors of `drot` and the sign of `s` exchanges the results, on binary64 bit for bit, whatever the increments (also zero), the lengths and the data. -/
theorem C120_drot_exchange (n : Nat) (x y : List Float) (incx incy : Int) (c s : Float) (hox : n * incx.natAbs + 1 < 2 ^ 31) (hoy : n * incy.natAbs + 1 < 2 ^ 31) :
    ∃ x' y' : List Float, drot (n : Int) x incx y incy c s = (pure (x', y') : R (List Float × List Float)) ∧
      drot (n : Int) y incy x incx c (-s) = (pure (y', x') : R (List Float × List Float)) := by
  refine ⟨_, _, C14_drot_sequential n x y incx incy c s hox hoy, ?_⟩
  rw [C14_drot_sequential n y x incy incx c (-s) hoy hox]
  congr 1
  have : ∀ m, rotSeq n incy incx c (-s) y x m = (rotSeq n incx incy c s x y m).swap := by
    intro m
    induction m with
    | zero => rfl
    | succ m ih => rw [rotSeq_succ, rotSeq_succ, ih, rotAt_swap]
  exact this n

/-- A case of both, with rounding. -/
theorem C120_example (pr : Profile) :
    (drot (F := Float) 2 ([0.1, 0.7, 3] : List Float) 2 ([-0.3, 1.1] : List Float) (-1) 0.6 0.8 pr).val? = (drot (F := Float) 2 ([0.1, 0.7, 3] : List Float) (-2) ([-0.3, 1.1] : List Float) 1 0.6 0.8 pr).val? ∧
    (drot (F := Float) 2 ([0.1, 0.7, 3] : List Float) 2 ([-0.3, 1.1] : List Float) (-1) 0.6 0.8 pr).val?.map Prod.swap =
      (drot (F := Float) 2 ([-0.3, 1.1] : List Float) (-1) ([0.1, 0.7, 3] : List Float) 2 0.6 (-0.8) pr).val? ∧
    StrideFits 2 2 3 ∧ StrideFits 2 (-1) 2 := by
  refine ⟨by cases pr <;> decide +kernel, by cases pr <;> decide +kernel, ?_, ?_⟩ <;> unfold StrideFits <;> decide

/-- Negating only one increment does change the result. -/
theorem C120_one_increment (pr : Profile) :
    (drot (F := Float) 2 ([1, 2] : List Float) 1 ([3, 4] : List Float) 1 0 1 pr).val? ≠ (drot (F := Float) 2 ([1, 2] : List Float) 1 ([3, 4] : List Float) (-1) 0 1 pr).val? := by
  cases pr <;> decide +kernel

end Verif
