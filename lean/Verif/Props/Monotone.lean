import Verif.Lib.F64Mono
import Verif.Props.PowTwoNrm
import Verif.Props.TrmmPowTwo

/-!
# C108: matrix products and norms on binary64 are monotone
-/

namespace Verif
open Float.Model F64 Scalar Spec

namespace F64

/-- Nonnegative and finite, or `+∞`. -/
def NNeg (x : Float) : Prop := (x.isFinite = true ∧ 0 ≤ toR x) ∨ up x = .infinity .positive

/-- `x` is nonnegative and at most `y`; both may be `+∞`. -/
def Mo (x y : Float) : Prop := NNeg x ∧ (up y = .infinity .positive ∨ (x.isFinite = true ∧ y.isFinite = true ∧ toR x ≤ toR y))

theorem Mo.nn {x y : Float} (h : Mo x y) : NNeg y := by
  rcases h with ⟨h1, h | ⟨f, g, h⟩⟩
  · exact Or.inr h
  · refine Or.inl ⟨g, ?_⟩
    rcases h1 with h1 | h1
    · exact h1.2.trans h
    · rw [isFinite_up, h1] at f; cases f

theorem NNeg.of_rounds {X : ℝ} {f : Float} (h : 0 ≤ X) (r : Rounds X f) : NNeg f := by
  rcases r.cases with r | r | r
  · exact Or.inl ⟨r.1, r.2.nonneg h⟩
  · exact Or.inr r.1
  · have := one_lt_ovf
    linarith [r.2]

theorem mo_of {X Y : ℝ} {f g : Float} (h : 0 ≤ X) (hXY : X ≤ Y) (r : Rounds X f) (s : Rounds Y g) (ef : f.isFinite = true → toR f = fl X)
    (eg : g.isFinite = true → toR g = fl Y) : Mo f g := by
  refine ⟨NNeg.of_rounds h r, ?_⟩
  rcases NNeg.of_rounds (h.trans hXY) s with ⟨hg, -⟩ | hg
  · right
    have hY := lt_ovf_of_fl (eg hg)
    have hf := r.finite (by rw [abs_of_nonneg h]; linarith)
    refine ⟨hf, hg, ?_⟩
    rw [ef hf, eg hg]
    exact fl_mono hXY
  · exact Or.inl hg

theorem inf_add_nn {x y : Float} (hx : up x = .infinity .positive) (hy : NNeg y) : up (x + y) = .infinity .positive ∧ up (y + x) = .infinity .positive := by
  rw [up_add, up_add, hx]
  rcases hy with ⟨hy, -⟩ | hy
  · rw [isFinite_up] at hy
    cases hu : up y with
    | notANumber => rw [hu] at hy; cases hy
    | infinity t => rw [hu] at hy; cases hy
    | zero t => exact ⟨by simp only [UnpackedFloat.add, fix_inf], by simp only [UnpackedFloat.add, fix_inf]⟩
    | finite t m e h => exact ⟨by simp only [UnpackedFloat.add, fix_inf], by simp only [UnpackedFloat.add, fix_inf]⟩
  · rw [hy]
    exact ⟨by simp only [UnpackedFloat.add]; exact fix_inf _, by simp only [UnpackedFloat.add]; exact fix_inf _⟩

theorem NNeg.add {x y : Float} (hx : NNeg x) (hy : NNeg y) : NNeg (x + y) := by
  rcases hx with ⟨f, h⟩ | h
  · rcases hy with ⟨f', h'⟩ | h'
    · exact NNeg.of_rounds (add_nonneg h h') (add_rounds x y f f')
    · exact Or.inr (inf_add_nn h' (Or.inl ⟨f, h⟩)).2
  · exact Or.inr (inf_add_nn h hy).1

theorem NNeg.val {x : Float} (h : NNeg x) (f : x.isFinite = true) : 0 ≤ toR x := by
  rcases h with h | h
  · exact h.2
  · rw [isFinite_up, h] at f; cases f

theorem Mo.add {x y x' y' : Float} (h : Mo x y) (h' : Mo x' y') : Mo (x + x') (y + y') := by
  have n := h.nn
  have n' := h'.nn
  obtain ⟨hx, hy⟩ := h
  obtain ⟨hx', hy'⟩ := h'
  rcases hy with hy | ⟨f, g, l⟩
  · exact ⟨hx.add hx', Or.inl (inf_add_nn hy n').1⟩
  · rcases hy' with hy' | ⟨f', g', l'⟩
    · exact ⟨hx.add hx', Or.inl (inf_add_nn hy' n).2⟩
    · exact mo_of (add_nonneg (hx.val f) (hx'.val f')) (add_le_add l l') (add_rounds _ _ f f') (add_rounds _ _ g g') add_fl add_fl

theorem Mo.mul {x y x' y' : Float} (fx : x.isFinite = true) (fy : y.isFinite = true) (fx' : x'.isFinite = true) (fy' : y'.isFinite = true)
    (h0 : 0 ≤ toR x) (h : toR x ≤ toR y) (h0' : 0 ≤ toR x') (h' : toR x' ≤ toR y') : Mo (x * x') (y * y') :=
  mo_of (mul_nonneg h0 h0') (mul_le_mul h h' h0' (h0.trans h)) (mul_rounds _ _ fx fx') (mul_rounds _ _ fy fy') mul_fl mul_fl

theorem Mo.add_right {x y p : Float} (h : Mo x y) (hp : NNeg p) : Mo x (y + p) := by
  have n := h.nn
  obtain ⟨hx, hy⟩ := h
  refine ⟨hx, ?_⟩
  rcases hy with hy | ⟨f, g, l⟩
  · exact Or.inl (inf_add_nn hy hp).1
  · rcases hp with ⟨fp, h0⟩ | hp
    · have r := add_rounds y p g fp
      rcases NNeg.of_rounds (add_nonneg (n.val g) h0) r with ⟨ff, -⟩ | hi
      · exact Or.inr ⟨f, ff, (r.fl ff).lower _ (grid_toR x) (by linarith)⟩
      · exact Or.inl hi
    · exact Or.inl (inf_add_nn hp (Or.inl ⟨g, n.val g⟩)).2

theorem Mo.sqrt {x y : Float} (h : Mo x y) : Mo (Float.sqrt x) (Float.sqrt y) := by
  have n := h.nn
  have hinf : ∀ {z : Float}, up z = .infinity .positive → up (Float.sqrt z) = .infinity .positive := by
    intro z hz
    rw [up_sqrt, hz]
    exact fix_inf _
  obtain ⟨hx, hy⟩ := h
  rcases hy with hy | ⟨f, g, l⟩
  · refine ⟨?_, Or.inl (hinf hy)⟩
    rcases hx with ⟨f, h0⟩ | hx
    · exact NNeg.of_rounds (Real.sqrt_nonneg _) (sqrt_rounds x f h0)
    · exact Or.inr (hinf hx)
  · exact mo_of (Real.sqrt_nonneg _) (Real.sqrt_le_sqrt l) (sqrt_rounds x f (hx.val f)) (sqrt_rounds y g (n.val g)) (sqrt_fl f (hx.val f)) (sqrt_fl g (n.val g))

theorem Mo.le {x y : Float} (h : Mo x y) : x ≤ y := by
  rcases h with ⟨hx, hy | ⟨f, g, l⟩⟩
  · show Float.le x y = true
    have e : toXR y = .pinf := by unfold toXR; rw [hy]; rfl
    rw [le_toXR, e]
    rcases hx with ⟨f, -⟩ | hx
    · rw [toXR_fin f]; simp [XR.le, XR.lt]
    · have e : toXR x = .pinf := by unfold toXR; rw [hx]; rfl
      rw [e]; simp [XR.le, XR.lt, XR.beq]
  · exact (le_iff f g).2 l

end F64

/-- `x` and `y` are finite and `0 ≤ x ≤ y`. -/
def Spec.NonnegLe (x y : Float) : Prop := x.isFinite = true ∧ y.isFinite = true ∧ (0 : Float) ≤ x ∧ x ≤ y

theorem Spec.NonnegLe.val {x y : Float} (h : NonnegLe x y) : 0 ≤ toR x ∧ toR x ≤ toR y := by
  obtain ⟨f, g, h1, h2⟩ := h
  have h1 := (le_iff toR_zero.1 f).1 h1
  rw [toR_zero.2] at h1
  exact ⟨h1, (le_iff f g).1 h2⟩

theorem Spec.NonnegLe.mul {x y x' y' : Float} (h : NonnegLe x y) (h' : NonnegLe x' y') : Mo (x * x') (y * y') :=
  Mo.mul h.1 h.2.1 h'.1 h'.2.1 h.val.1 h.val.2 h'.val.1 h'.val.2

theorem mo_zero : Mo (zero : Float) zero := ⟨Or.inl ⟨toR_zero.1, toR_zero.2.ge⟩, Or.inr ⟨toR_zero.1, toR_zero.1, le_rfl⟩⟩

theorem dotF64_mo {k : Nat} {x y x' y' : Nat → Float} (hx : ∀ l < k, NonnegLe (x l) (x' l)) (hy : ∀ l < k, NonnegLe (y l) (y' l)) :
    Mo (dotF64 k x y) (dotF64 k x' y') := by
  induction k with
  | zero => exact mo_zero
  | succ k ih =>
    have hs : ∀ x y : Nat → Float, dotF64 (k + 1) x y = dotF64 k x y + x k * y k := by
      intro x y
      unfold dotF64
      rw [List.range_succ, List.foldl_append]; rfl
    rw [hs, hs]
    exact (ih (fun l hl => hx l (by omega)) fun l hl => hy l (by omega)).add ((hx k (by omega)).mul (hy k (by omega)))

theorem dotF64_le {k : Nat} {x y x' y' : Nat → Float} (h : ∀ l < k, toR (x l) * toR (y l) ≤ toR (x' l) * toR (y' l))
    (f : (dotF64 k x y).isFinite = true) (f' : (dotF64 k x' y').isFinite = true) : toR (dotF64 k x y) ≤ toR (dotF64 k x' y') := by
  induction k with
  | zero => exact le_rfl
  | succ k ih =>
    have hs : ∀ x y : Nat → Float, dotF64 (k + 1) x y = dotF64 k x y + x k * y k := by
      intro x y
      unfold dotF64
      rw [List.range_succ, List.foldl_append]; rfl
    rw [hs] at f f'
    rw [hs, hs]
    have g := finite_of_add f
    have g' := finite_of_add f'
    rw [add_fl f, add_fl f']
    refine fl_mono (add_le_add (ih (fun l hl => h l (by omega)) g.1 g'.1) ?_)
    rw [mul_fl g.2, mul_fl g'.2]
    exact fl_mono (h k (by omega))

/-- **C108.** The product of nonnegative matrices on binary64 is monotone in both factors, overflow included. -/
theorem C108_dgemm {ta tb : Char} (hta : TransFlag ta) (htb : TransFlag tb) (m n k : Nat) (a b c a' b' c' : List Float) (lda ldb ldc : Nat)
    (sa : Stored a lda (storedRows ta m k) (storedCols ta m k)) (sb : Stored b ldb (storedRows tb k n) (storedCols tb k n)) (sc : Stored c ldc m n)
    (sa' : Stored a' lda (storedRows ta m k) (storedCols ta m k)) (sb' : Stored b' ldb (storedRows tb k n) (storedCols tb k n)) (sc' : Stored c' ldc m n)
    (hA : ∀ i < m, ∀ l < k, NonnegLe (op ta (entry a lda) i l) (op ta (entry a' lda) i l))
    (hB : ∀ l < k, ∀ j < n, NonnegLe (op tb (entry b ldb) l j) (op tb (entry b' ldb) l j)) :
    ∃ r r' : List Float, dgemm ta tb m n k (1 : Float) a lda b ldb 0 c ldc = (pure r : R (List Float)) ∧
      dgemm ta tb m n k (1 : Float) a' lda b' ldb 0 c' ldc = (pure r' : R (List Float)) ∧
      ∀ i < m, ∀ j < n, ∃ v w, r[i + j * ldc]? = some v ∧ r'[i + j * ldc]? = some w ∧ v ≤ w := by
  obtain ⟨r, e, u⟩ := C95_dgemm_dot hta htb m n k a b c lda ldb ldc sa sb sc
  obtain ⟨r', e', u'⟩ := C95_dgemm_dot hta htb m n k a' b' c' lda ldb ldc sa' sb' sc'
  exact ⟨r, r', e, e', fun i hi j hj => ⟨_, _, u.block i hi j hj, u'.block i hi j hj, (dotF64_mo (hA i hi) fun l hl => hB l hl j hj).le⟩⟩

/-- **C108.** `C108_dgemm` for arrays. -/
theorem C108_dgemm_array {ta tb : Char} (hta : TransFlag ta) (htb : TransFlag tb) (m n k : Nat) (a b c a' b' c' : FA Float) (lda ldb ldc : Int) (ra rb rc : Nat)
    (hla : max 1 (storedRows ta m k : Int) ≤ lda) (hlb : max 1 (storedRows tb k n : Int) ≤ ldb) (hlc : max 1 (m : Int) ≤ ldc)
    (ha : a.rows = ra) (hb : b.rows = rb) (hc : c.rows = rc) (ha' : a'.rows = ra) (hb' : b'.rows = rb) (hc' : c'.rows = rc)
    (sa : Stored a.data ra (storedRows ta m k) (storedCols ta m k)) (sb : Stored b.data rb (storedRows tb k n) (storedCols tb k n)) (sc : Stored c.data rc m n)
    (sa' : Stored a'.data ra (storedRows ta m k) (storedCols ta m k)) (sb' : Stored b'.data rb (storedRows tb k n) (storedCols tb k n)) (sc' : Stored c'.data rc m n)
    (hA : ∀ i < m, ∀ l < k, NonnegLe (op ta (entry a.data ra) i l) (op ta (entry a'.data ra) i l))
    (hB : ∀ l < k, ∀ j < n, NonnegLe (op tb (entry b.data rb) l j) (op tb (entry b'.data rb) l j)) :
    ∃ r r' : FA Float, dgemm ta tb m n k (1 : Float) a lda b ldb 0 c ldc = (pure r : R (FA Float)) ∧
      dgemm ta tb m n k (1 : Float) a' lda b' ldb 0 c' ldc = (pure r' : R (FA Float)) ∧
      ∀ i < m, ∀ j < n, ∃ v w, r.data[i + j * rc]? = some v ∧ r'.data[i + j * rc]? = some w ∧ v ≤ w := by
  obtain ⟨r, e, -, -, u⟩ := C95_dgemm_dot_array hta htb m n k a b c lda ldb ldc ra rb rc hla hlb hlc ha hb hc sa sb sc
  obtain ⟨r', e', -, -, u'⟩ := C95_dgemm_dot_array hta htb m n k a' b' c' lda ldb ldc ra rb rc hla hlb hlc ha' hb' hc' sa' sb' sc'
  exact ⟨r, r', e, e', fun i hi j hj => ⟨_, _, u.block i hi j hj, u'.block i hi j hj, (dotF64_mo (hA i hi) fun l hl => hB l hl j hj).le⟩⟩

/-- **C108.** A nonnegative `A` keeps the order of the columns on binary64: if `B ≤ B'` entry by entry, of whatever signs, then the entries of `A·B` are at most those of
`A·B'` wherever both are finite. -/
theorem C108_dgemm_order {ta tb : Char} (hta : TransFlag ta) (htb : TransFlag tb) (m n k : Nat) (a b c b' c' : List Float) (lda ldb ldc : Nat)
    (sa : Stored a lda (storedRows ta m k) (storedCols ta m k)) (sb : Stored b ldb (storedRows tb k n) (storedCols tb k n)) (sc : Stored c ldc m n)
    (sb' : Stored b' ldb (storedRows tb k n) (storedCols tb k n)) (sc' : Stored c' ldc m n)
    (hA : ∀ i < m, ∀ l < k, (op ta (entry a lda) i l).isFinite = true ∧ (0 : Float) ≤ op ta (entry a lda) i l)
    (hB : ∀ l < k, ∀ j < n, (op tb (entry b ldb) l j).isFinite = true ∧ (op tb (entry b' ldb) l j).isFinite = true ∧ op tb (entry b ldb) l j ≤ op tb (entry b' ldb) l j) :
    ∃ r r' : List Float, dgemm ta tb m n k (1 : Float) a lda b ldb 0 c ldc = (pure r : R (List Float)) ∧
      dgemm ta tb m n k (1 : Float) a lda b' ldb 0 c' ldc = (pure r' : R (List Float)) ∧
      ∀ i < m, ∀ j < n, ∃ v w, r[i + j * ldc]? = some v ∧ r'[i + j * ldc]? = some w ∧ (v.isFinite = true → w.isFinite = true → v ≤ w) := by
  obtain ⟨r, e, u⟩ := C95_dgemm_dot hta htb m n k a b c lda ldb ldc sa sb sc
  obtain ⟨r', e', u'⟩ := C95_dgemm_dot hta htb m n k a b' c' lda ldb ldc sa sb' sc'
  refine ⟨r, r', e, e', fun i hi j hj => ⟨_, _, u.block i hi j hj, u'.block i hi j hj, fun f f' => (le_iff f f').2 (dotF64_le (fun l hl => ?_) f f')⟩⟩
  obtain ⟨h1, h2⟩ := hA i hi l hl
  obtain ⟨g1, g2, g3⟩ := hB l hl j hj
  have h2 := (le_iff toR_zero.1 h1).1 h2
  rw [toR_zero.2] at h2
  exact mul_le_mul_of_nonneg_left ((le_iff g1 g2).1 g3) h2

/-! ### dnrm2 -/

/-- The accumulators of two runs of `dnrm2`, the second on a vector of larger elements. -/
def NrmMo (s s' : Nrm2 Float) : Prop :=
  (up s.asml = .zero .positive ∧ s.abig = zero) ∧ (up s'.asml = .zero .positive ∧ s'.abig = zero) ∧ Mo s.amed s'.amed

theorem NrmMo.step {s s' : Nrm2 Float} (h : NrmMo s s') {x x' : Float} (hx : |toR x| ≤ |toR x'|) (m : MidRange x) (m' : MidRange x') :
    NrmMo (nrm2Acc s x) (nrm2Acc s' x') := by
  obtain ⟨⟨a1, a2⟩, ⟨a1', a2'⟩, hm⟩ := h
  have fa : x.abs.isFinite = true := by rw [abs_finite]; exact m.1
  have fa' : x'.abs.isFinite = true := by rw [abs_finite]; exact m'.1
  have p' : NNeg (x'.abs * x'.abs) := NNeg.of_rounds (mul_self_nonneg _) (mul_rounds _ _ fa' fa')
  rcases m.2 with m0 | ⟨l1, l2⟩
  · obtain ⟨t, ht⟩ := toR_eq_zero m.1 m0
    obtain ⟨c1, c2, c3⟩ := nrm2Acc_zero (s := s) ht a1
    rcases m'.2 with m0' | ⟨l1', l2'⟩
    · obtain ⟨t', ht'⟩ := toR_eq_zero m'.1 m0'
      obtain ⟨c1', c2', c3'⟩ := nrm2Acc_zero (s := s') ht' a1'
      refine ⟨⟨c1, c3.trans a2⟩, ⟨c1', c3'.trans a2'⟩, ?_⟩
      rw [c2, c2']
      exact hm
    · rw [nrm2Acc_mid m'.1 l1' l2']
      refine ⟨⟨c1, c3.trans a2⟩, ⟨a1', a2'⟩, ?_⟩
      rw [c2]
      exact hm.add_right p'
  · have ne' : toR x' ≠ 0 := by
      intro h0
      rw [h0, abs_zero] at hx
      exact absurd (l1.trans hx) (not_le.2 (zp _))
    obtain ⟨l1', l2'⟩ := m'.2.resolve_left ne'
    rw [nrm2Acc_mid m.1 l1 l2, nrm2Acc_mid m'.1 l1' l2']
    refine ⟨⟨a1, a2⟩, ⟨a1', a2'⟩, hm.add ?_⟩
    have h0 : 0 ≤ toR x.abs := by rw [abs_toR]; exact abs_nonneg _
    have h1 : toR x.abs ≤ toR x'.abs := by rw [abs_toR, abs_toR]; exact hx
    exact Mo.mul fa fa' fa fa' h0 h1 h0 h1

theorem NrmMo.fold {l l' : List Float} (h : List.Forall₂ (fun x x' => |toR x| ≤ |toR x'|) l l') (m : ∀ x ∈ l, MidRange x) (m' : ∀ x ∈ l', MidRange x) {s s' : Nrm2 Float}
    (hs : NrmMo s s') : NrmMo (l.foldl nrm2Acc s) (l'.foldl nrm2Acc s') := by
  induction h generalizing s s' with
  | nil => exact hs
  | cons hx _ ih =>
    rw [List.foldl_cons, List.foldl_cons]
    exact ih (fun x hx => m x (List.mem_cons_of_mem _ hx)) (fun x hx => m' x (List.mem_cons_of_mem _ hx))
      (hs.step hx (m _ List.mem_cons_self) (m' _ List.mem_cons_self))

/-- **C108.** `dnrm2` on binary64 is monotone in the magnitudes of the elements, if these are zero or between `2^-511` and `2^505`. -/
theorem C108_dnrm2 (n : Nat) (hn : 0 < n) (x xs : List Float) (incx : Int) (h : StrideOK n incx) (hl : x.length < 2 ^ 62) (hls : xs.length < 2 ^ 62)
    (hx : StrideFits n incx x.length) (hxs : StrideFits n incx xs.length)
    (hk : ∀ l (hl : l < n), (x[strideIx n incx l]'(hx l hl)).abs ≤ (xs[strideIx n incx l]'(hxs l hl)).abs)
    (hm : ∀ l (hl : l < n), MidRange (x[strideIx n incx l]'(hx l hl)) ∧ MidRange (xs[strideIx n incx l]'(hxs l hl))) :
    ∃ r rs : Float, dnrm2 (n : Int) x incx = (pure r : R Float) ∧ dnrm2 (n : Int) xs incx = (pure rs : R Float) ∧ r ≤ rs := by
  refine ⟨_, _, dnrm2FA_fold hn h _ hl, dnrm2FA_fold hn h _ hls, ?_⟩
  have hg : ∀ (z : List Float) (hz : StrideFits n incx z.length), strided n incx z = (List.range n).pmap (fun l hl => z[strideIx n incx l]'(hz l hl)) fun l hl => List.mem_range.1 hl := by
    intro z hz
    unfold strided
    rw [← List.pmap_eq_map (p := fun l => l < n) (H := fun l hl => List.mem_range.1 hl)]
    apply List.pmap_congr_left
    intro l hl h1 h2
    rw [List.getD_eq_getElem?_getD, List.getElem?_eq_getElem (hz l h1)]
    rfl
  have hf : List.Forall₂ (fun x x' => |toR x| ≤ |toR x'|) (strided n incx x) (strided n incx xs) := by
    rw [hg x hx, hg xs hxs]
    rw [List.forall₂_iff_get]
    refine ⟨by simp, fun i h1 h2 => ?_⟩
    simp only [List.get_eq_getElem, List.getElem_pmap, List.getElem_range]
    have hi : i < n := by simpa using h1
    have := hk i hi
    rw [le_iff (by rw [abs_finite]; exact (hm i hi).1.1) (by rw [abs_finite]; exact (hm i hi).2.1), abs_toR, abs_toR] at this
    exact this
  have hmem : ∀ (z : List Float) (hz : StrideFits n incx z.length), (∀ l (hl : l < n), MidRange (z[strideIx n incx l]'(hz l hl))) → ∀ e ∈ strided n incx z, MidRange e := by
    intro z hz hh e he
    rw [hg z hz, List.mem_pmap] at he
    obtain ⟨l, hl, rfl⟩ := he
    exact hh l (List.mem_range.1 hl)
  have inv := NrmMo.fold hf (hmem x hx fun l hl => (hm l hl).1) (hmem xs hxs fun l hl => (hm l hl).2) (s := ⟨true, zero, zero, zero⟩) (s' := ⟨true, zero, zero, zero⟩)
    ⟨⟨rfl, rfl⟩, ⟨rfl, rfl⟩, mo_zero⟩
  change nrm2Final (List.foldl nrm2Acc _ (strided n incx x)) ≤ nrm2Final (List.foldl nrm2Acc _ (strided n incx xs))
  generalize List.foldl nrm2Acc _ (strided n incx x) = s at *
  generalize List.foldl nrm2Acc _ (strided n incx xs) = s' at *
  obtain ⟨a, a', m⟩ := inv
  rw [nrm2Final_mid a, nrm2Final_mid a', F64.one_mul', F64.one_mul']
  exact m.sqrt.le

/-- A case for `dgemm`: `(0.1, 0.2)·(0.3, 0.7)` and `(0.1, 0.3)·(0.4, 0.7)`. -/
theorem C108_dgemm_example (pr : Profile) :
    ((dgemm (F := Float) 'N' 'N' 1 1 2 1 [0.1, 0.2] 1 ([0.3, 0.7] : List Float) 2 0 ([7] : List Float) 1 pr).val?.bind fun r =>
      (dgemm (F := Float) 'N' 'N' 1 1 2 1 [0.1, 0.3] 1 ([0.4, 0.7] : List Float) 2 0 ([7] : List Float) 1 pr).val?.map fun r' => (r.zipWith (fun v w => decide (v ≤ w)) r')) = some [true] ∧
    (0 : Float) ≤ 0.2 ∧ (0.2 : Float) ≤ 0.3 ∧ (0.3 : Float).isFinite = true := by
  cases pr <;> decide +kernel

/-- A case for `dnrm2`: `(0.1, 0, -3)` and `(-0.1, 0.2, 3)`. -/
theorem C108_dnrm2_example (pr : Profile) :
    ((dnrm2 (F := Float) 3 ([0.1, 0, -3] : List Float) 1 pr).val?.bind fun r => (dnrm2 (F := Float) 3 ([-0.1, 0.2, 3] : List Float) 1 pr).val?.map fun r' => decide (r ≤ r')) = some true := by
  cases pr <;> decide +kernel

end Verif
