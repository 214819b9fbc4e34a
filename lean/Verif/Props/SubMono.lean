import Verif.Props.Monotone
import Verif.Props.Padding

/-!
# C115: leaving elements out never increases a norm or a product of nonnegative matrices
-/

namespace Verif
open Float.Model F64 Scalar Spec

/-! ### dnrm2 -/

theorem NrmMo.skip {s s' : Nrm2 Float} (h : NrmMo s s') {x : Float} (m : MidRange x) : NrmMo s (nrm2Acc s' x) := by
  obtain ⟨a, ⟨a1', a2'⟩, hm⟩ := h
  have fa : x.abs.isFinite = true := by rw [abs_finite]; exact m.1
  have p : NNeg (x.abs * x.abs) := NNeg.of_rounds (mul_self_nonneg _) (mul_rounds _ _ fa fa)
  rcases m.2 with m0 | ⟨l1, l2⟩
  · obtain ⟨t, ht⟩ := toR_eq_zero m.1 m0
    obtain ⟨c1, c2, c3⟩ := nrm2Acc_zero (s := s') ht a1'
    refine ⟨a, ⟨c1, c3.trans a2'⟩, ?_⟩
    rw [c2]
    exact hm
  · rw [nrm2Acc_mid m.1 l1 l2]
    exact ⟨a, ⟨a1', a2'⟩, hm.add_right p⟩

theorem NrmMo.sublist {l l' : List Float} (h : List.Sublist l l') (m : ∀ x ∈ l', MidRange x) {s s' : Nrm2 Float} (hs : NrmMo s s') :
    NrmMo (l.foldl nrm2Acc s) (l'.foldl nrm2Acc s') := by
  induction h generalizing s s' with
  | slnil => exact hs
  | cons x _ ih =>
    rw [List.foldl_cons]
    exact ih (fun y hy => m y (List.mem_cons_of_mem _ hy)) (hs.skip (m x List.mem_cons_self))
  | cons_cons x _ ih =>
    rw [List.foldl_cons, List.foldl_cons]
    exact ih (fun y hy => m y (List.mem_cons_of_mem _ hy)) (hs.step le_rfl (m x List.mem_cons_self) (m x List.mem_cons_self))

theorem dnrm2_fold (n : Nat) (x : List Float) (incx : Int) (h : StrideOK n incx) (hl : x.length < 2 ^ 62) :
    dnrm2 (n : Int) x incx = (pure (nrm2Final ((strided n incx x).foldl nrm2Acc ⟨true, zero, zero, zero⟩)) : R Float) := by
  rw [dnrm2_filter n x incx h hl, ← nrm2_filter (strided n incx x) (s := ⟨true, zero, zero, zero⟩) pos_pzero]

/-- **C115.** If the elements visited in `x` are some of those visited in `y`, in the same order, then `dnrm2` of `x` is at most `dnrm2` of `y` on binary64, with no allowance for
rounding; the elements are to be zero or between `2^-511` and `2^505`. -/
theorem C115_dnrm2 (n m : Nat) (x y : List Float) (incx incy : Int) (hx : StrideOK n incx) (hy : StrideOK m incy) (lx : x.length < 2 ^ 62) (ly : y.length < 2 ^ 62)
    (h : List.Sublist (strided n incx x) (strided m incy y)) (hm : ∀ v ∈ strided m incy y, MidRange v) :
    ∃ r s : Float, dnrm2 (n : Int) x incx = (pure r : R Float) ∧ dnrm2 (m : Int) y incy = (pure s : R Float) ∧ r ≤ s := by
  refine ⟨_, _, dnrm2_fold n x incx hx lx, dnrm2_fold m y incy hy ly, ?_⟩
  have inv := NrmMo.sublist h hm (s := ⟨true, zero, zero, zero⟩) (s' := ⟨true, zero, zero, zero⟩) ⟨⟨rfl, rfl⟩, ⟨rfl, rfl⟩, mo_zero⟩
  generalize List.foldl nrm2Acc _ (strided n incx x) = s at *
  generalize List.foldl nrm2Acc _ (strided m incy y) = s' at *
  obtain ⟨a, a', q⟩ := inv
  rw [nrm2Final_mid a, nrm2Final_mid a', F64.one_mul', F64.one_mul']
  exact q.sqrt.le

/-! ### dgemm -/

theorem mo_filter (p : Nat → Bool) (g : Nat → Float) (l : List Nat) {a b : Float} (h : Mo a b) (hg : ∀ q ∈ l, Mo (g q) (g q)) :
    Mo ((l.filter p).foldl (fun acc q => acc + g q) a) (l.foldl (fun acc q => acc + g q) b) := by
  induction l generalizing a b with
  | nil => exact h
  | cons q l ih =>
    have hg' : ∀ q ∈ l, Mo (g q) (g q) := fun q' hq' => hg q' (by simp [hq'])
    cases hp : p q
    · rw [List.filter_cons_of_neg (by rw [hp]; simp), List.foldl_cons]
      exact ih (h.add_right (hg q (by simp)).nn) hg'
    · rw [List.filter_cons_of_pos hp, List.foldl_cons, List.foldl_cons]
      exact ih (h.add (hg q (by simp))) hg'

theorem dotF64_sub {f : Nat → Nat} {k k' : Nat} (hf : ∀ l < k, ∀ l' < k, l < l' → f l < f l') (hk : ∀ l < k, f l < k') {x y x' y' : Nat → Float}
    (hx : ∀ l < k, x' (f l) = x l) (hy : ∀ l < k, y' (f l) = y l) (h0 : ∀ q < k', NonnegLe (x' q) (x' q) ∧ NonnegLe (y' q) (y' q)) :
    Mo (dotF64 k x y) (dotF64 k' x' y') := by
  have h := mo_filter (fun q => decide (∃ l < k, f l = q)) (fun q => x' q * y' q) (List.range k') mo_zero
    (fun q hq => (h0 q (List.mem_range.1 hq)).1.mul (h0 q (List.mem_range.1 hq)).2)
  rw [range_filter_mono hf hk, List.foldl_map] at h
  have e : dotF64 k x y = (List.range k).foldl (fun acc l => acc + x' (f l) * y' (f l)) zero :=
    (dotF64_congr hx hy).symm
  rw [e]
  exact h

/-- A finite number that is not negative. -/
def Spec.NonnegFin (x : Float) : Prop := x.isFinite = true ∧ (0 : Float) ≤ x

theorem Spec.NonnegFin.self {x : Float} (h : NonnegFin x) : NonnegLe x x := ⟨h.1, h.1, h.2, (le_iff h.1 h.1).2 le_rfl⟩

/-- **C115.** If `A` consists of some of the columns of a nonnegative `A'`, and `B` of the matching rows of a nonnegative `B'`, both in the same order, then every entry of the computed
product `A·B` is at most that of `A'·B'`, with no allowance for rounding and overflow included. `f` says where the columns and rows are taken from. -/
theorem C115_dgemm {ta tb ta' tb' : Char} (hta : TransFlag ta) (htb : TransFlag tb) (hta' : TransFlag ta') (htb' : TransFlag tb') (m n k k' : Nat)
    (a b c a' b' c' : List Float) (lda ldb ldc lda' ldb' ldc' : Nat)
    (sa : Stored a lda (storedRows ta m k) (storedCols ta m k)) (sb : Stored b ldb (storedRows tb k n) (storedCols tb k n)) (sc : Stored c ldc m n)
    (sa' : Stored a' lda' (storedRows ta' m k') (storedCols ta' m k')) (sb' : Stored b' ldb' (storedRows tb' k' n) (storedCols tb' k' n)) (sc' : Stored c' ldc' m n)
    (f : Nat → Nat) (hf : ∀ l < k, ∀ l' < k, l < l' → f l < f l') (hk : ∀ l < k, f l < k')
    (hA : ∀ i < m, ∀ l < k, op ta' (entry a' lda') i (f l) = op ta (entry a lda) i l)
    (hB : ∀ l < k, ∀ j < n, op tb' (entry b' ldb') (f l) j = op tb (entry b ldb) l j)
    (h0 : ∀ i < m, ∀ q < k', NonnegFin (op ta' (entry a' lda') i q)) (h1 : ∀ q < k', ∀ j < n, NonnegFin (op tb' (entry b' ldb') q j)) :
    ∃ r r' : List Float, dgemm ta tb m n k (1 : Float) a lda b ldb 0 c ldc = (pure r : R (List Float)) ∧
      dgemm ta' tb' m n k' (1 : Float) a' lda' b' ldb' 0 c' ldc' = (pure r' : R (List Float)) ∧
      ∀ i < m, ∀ j < n, ∃ v w, r[i + j * ldc]? = some v ∧ r'[i + j * ldc']? = some w ∧ v ≤ w := by
  obtain ⟨r, e, u⟩ := C95_dgemm_dot hta htb m n k a b c lda ldb ldc sa sb sc
  obtain ⟨r', e', u'⟩ := C95_dgemm_dot hta' htb' m n k' a' b' c' lda' ldb' ldc' sa' sb' sc'
  exact ⟨r, r', e, e', fun i hi j hj => ⟨_, _, u.block i hi j hj, u'.block i hi j hj,
    (dotF64_sub hf hk (hA i hi) (fun l hl => hB l hl j hj) fun q hq => ⟨(h0 i hi q hq).self, (h1 q hq j hj).self⟩).le⟩⟩

/-- A case for `dnrm2`: `(0.1, 3)` out of `(0.1, 1e-9, 3)`. The large element hides the small one: the norms are equal. -/
theorem C115_dnrm2_example (pr : Profile) :
    ((dnrm2 (F := Float) 2 ([0.1, 3] : List Float) 1 pr).val?.bind fun r => (dnrm2 (F := Float) 3 ([0.1, 1e-9, 3] : List Float) 1 pr).val?.map fun s => (decide (r ≤ s), r == s)) = some (true, true) ∧
    List.Sublist (strided 2 1 ([0.1, 3] : List Float)) (strided 3 1 ([0.1, 1e-9, 3] : List Float)) := by
  refine ⟨by cases pr <;> decide +kernel, ?_⟩
  show List.Sublist ([0.1, 3] : List Float) [0.1, 1e-9, 3]
  exact (List.sublist_cons_self (1e-9 : Float) [3]).cons_cons _

/-- A case for `dgemm`: `(0.1, 0.2)·(0.3, 0.7)` out of `(0.1, 4, 0.2)·(0.3, 5, 0.7)`, with `f l = 2 l`. -/
theorem C115_dgemm_example (pr : Profile) :
    ((dgemm (F := Float) 'N' 'N' 1 1 2 1 [0.1, 0.2] 1 ([0.3, 0.7] : List Float) 2 0 ([7] : List Float) 1 pr).val?.bind fun r =>
      (dgemm (F := Float) 'N' 'N' 1 1 3 1 [0.1, 4, 0.2] 1 ([0.3, 5, 0.7] : List Float) 3 0 ([7] : List Float) 1 pr).val?.map fun r' => (r.zipWith (fun v w => decide (v ≤ w)) r')) = some [true] ∧
    (0 : Float) ≤ 0.2 ∧ (4 : Float).isFinite = true := by
  cases pr <;> decide +kernel

/-- The signs matter: `1·1 + 1·(-1)` is less than `1·1`. -/
theorem C115_signs (pr : Profile) :
    ((dgemm (F := Float) 'N' 'N' 1 1 1 1 ([1] : List Float) 1 ([1] : List Float) 1 0 ([7] : List Float) 1 pr).val?.bind fun r =>
      (dgemm (F := Float) 'N' 'N' 1 1 2 1 ([1, 1] : List Float) 1 ([1, -1] : List Float) 2 0 ([7] : List Float) 1 pr).val?.map fun r' => (r.zipWith (fun v w => decide (v ≤ w)) r')) = some [false] := by
  cases pr <;> decide +kernel

end Verif
