import Verif.Props.TrmmSides
import Verif.Props.Signs
import Verif.Props.GemmBits

/-!
# C106: zeros put in between change nothing on binary64
-/

namespace Verif
open Float.Model Float.Model.UnpackedFloat F64 Scalar Spec

namespace F64

theorem Pos.add_pzero {x p : Float} (hx : Pos (up x)) (hp : up p = .zero .positive) : x + p = x := by
  by_cases hf : x.isFinite = true
  · have pf : p.isFinite = true := by rw [isFinite_up, hp]; rfl
    have p0 : toR p = 0 := by unfold toR; rw [hp]; rfl
    by_cases h0 : toR x = 0
    · obtain ⟨s, hs⟩ := toR_eq_zero hf h0
      have : s = .positive := hx s (by rw [hs]; rfl)
      subst this
      apply up_inj
      rw [up_add, hs, hp]
      simp only [UnpackedFloat.add]
      rfl
    · have r := add_rounds x p hf pf
      rw [p0, _root_.add_zero] at r
      obtain ⟨f, v⟩ := r.exact (abs_toR_lt x) (grid_toR x)
      exact toR_inj v f hf (by rw [v]; exact h0)
  · apply up_inj
    rw [up_add, hp]
    rw [isFinite_up] at hf
    cases hu : up x with
    | notANumber => simp only [UnpackedFloat.add, fix_nan]
    | infinity t => simp only [UnpackedFloat.add, fix_inf]
    | zero t => rw [hu] at hf; exact absurd rfl hf
    | finite t m e h => rw [hu] at hf; exact absurd rfl hf

theorem Pos.ssml : Pos (up (ssml : Float)) := by
  have hss : up (Verif.ssml : Float) = .finite .positive (2 ^ 52) 466 (by norm_num) := by rw [ssml_bits]; rfl
  rw [hss]
  intro s h
  cases h
  rfl

/-- A zero element leaves the accumulators of `dnrm2` alone. -/
theorem nrm2Acc_skip {s : Nrm2 Float} {x : Float} {t} (h : up x = .zero t) (hs : Pos (up s.asml)) : nrm2Acc s x = s := by
  have hx : toXR x.abs = .fin 0 := by unfold toXR; rw [up_abs', h]; rfl
  have h1 : Float.lt tbig x.abs = false := by
    rw [lt_toXR, hx, toXR_fin toR_tbig.1, toR_tbig.2]
    have := zp 505
    simp only [XR.lt, decide_eq_false_iff_not]
    exact not_lt.2 this.le
  have h2 : Float.lt x.abs tsml = true := by
    rw [lt_toXR, hx, toXR_fin toR_tsml.1, toR_tsml.2]
    have := zp (-511)
    simp only [XR.lt, decide_eq_true_eq]
    exact this
  rw [nrm2Acc_def, h1, h2, if_neg Bool.false_ne_true, if_pos rfl]
  split
  · have hm : up (x.abs * Verif.ssml) = .zero .positive := by
      have hss : up (Verif.ssml : Float) = .finite .positive (2 ^ 52) 466 (by norm_num) := by rw [ssml_bits]; rfl
      exact up_mul_of (u := .zero .positive) (by rw [up_abs', h]; rfl) hss rfl trivial
    rw [hs.add_pzero (up_mul_of hm hm rfl trivial)]
  · rfl

theorem nrm2Acc_pos {s : Nrm2 Float} (x : Float) (hs : Pos (up s.asml)) : Pos (up (nrm2Acc s x).asml) := by
  rw [nrm2Acc_def]
  split
  · exact hs
  · split
    · split
      · exact hs.add (((Pos.abs x).mul Pos.ssml).mul ((Pos.abs x).mul Pos.ssml))
      · exact hs
    · exact hs

theorem nrm2_filter (l : List Float) {s : Nrm2 Float} (hs : Pos (up s.asml)) :
    l.foldl nrm2Acc s = (l.filter (fun v => !(v == 0))).foldl nrm2Acc s := by
  induction l generalizing s with
  | nil => rfl
  | cons x l ih =>
    cases h : (x == 0)
    · rw [List.filter_cons_of_pos (by rw [h]; rfl), List.foldl_cons, List.foldl_cons]
      exact ih (nrm2Acc_pos x hs)
    · rw [List.filter_cons_of_neg (by rw [h]; simp), List.foldl_cons]
      obtain ⟨t, ht⟩ := zero_of_beq h
      rw [nrm2Acc_skip ht hs]
      exact ih hs

end F64

theorem pos_pzero : Pos (up (zero : Float)) := by
  intro s hs
  have : up (zero : Float) = .zero .positive := rfl
  rw [this] at hs
  cases hs
  rfl

theorem dnrm2_filter (n : Nat) (x : List Float) (incx : Int) (h : StrideOK n incx) (hl : x.length < 2 ^ 62) :
    dnrm2 (n : Int) x incx = (pure (nrm2Final (((strided n incx x).filter (fun v => !(v == 0))).foldl nrm2Acc ⟨true, zero, zero, zero⟩)) : R Float) := by
  have e := nrm2_filter (strided n incx x) (s := ⟨true, zero, zero, zero⟩) pos_pzero
  rw [← e]
  rcases Nat.eq_zero_or_pos n with rfl | hn
  · have h0 : strided 0 incx x = [] := rfl
    rw [h0, List.foldl_nil]
    have h1 : nrm2Final (⟨true, zero, zero, zero⟩ : Nrm2 Float) = 0 := by decide +kernel
    rw [h1]
    exact C17_dnrm2_empty _ (le_refl 0) x incx
  · exact dnrm2FA_fold hn h (ToFA.toFa x) hl

/-- **C106.** `dnrm2` depends, bit for bit, only on the non-zero elements it visits and on their order: zeros of either sign, wherever they stand, have no effect. -/
theorem C106_dnrm2_zeros (n m : Nat) (x y : List Float) (incx incy : Int) (hx : StrideOK n incx) (hy : StrideOK m incy) (lx : x.length < 2 ^ 62) (ly : y.length < 2 ^ 62)
    (h : (strided n incx x).filter (fun v => !(v == 0)) = (strided m incy y).filter (fun v => !(v == 0))) :
    dnrm2 (n : Int) x incx = (dnrm2 (m : Int) y incy : R Float) := by
  rw [dnrm2_filter n x incx hx lx, dnrm2_filter m y incy hy ly, h]

/-! ## The product of matrices -/

theorem range_filter_mono {f : Nat → Nat} {k k' : Nat} (hf : ∀ l < k, ∀ l' < k, l < l' → f l < f l') (hk : ∀ l < k, f l < k') :
    (List.range k').filter (fun q => decide (∃ l < k, f l = q)) = (List.range k).map f := by
  apply List.Perm.eq_of_pairwise (le := (· < ·))
  · intro a b _ _ h1 h2; omega
  · exact List.Pairwise.filter _ List.pairwise_lt_range
  · rw [List.pairwise_map]
    refine List.Pairwise.imp_of_mem ?_ (List.pairwise_lt_range (n := k))
    intro a b ha hb hab
    exact hf a (List.mem_range.1 ha) b (List.mem_range.1 hb) hab
  · rw [List.perm_ext_iff_of_nodup]
    · intro q
      simp only [List.mem_filter, List.mem_range, decide_eq_true_eq, List.mem_map]
      exact ⟨fun h => h.2, fun ⟨l, hl, e⟩ => ⟨e ▸ hk l hl, l, hl, e⟩⟩
    · exact List.Nodup.filter _ List.nodup_range
    · rw [List.nodup_map_iff_inj_on List.nodup_range]
      intro a ha b hb e
      rcases Nat.lt_trichotomy a b with h | h | h
      · exact absurd e (hf a (List.mem_range.1 ha) b (List.mem_range.1 hb) h).ne
      · exact h
      · exact absurd e (hf b (List.mem_range.1 hb) a (List.mem_range.1 ha) h).ne'

theorem eqz_filter (p : Nat → Bool) (g : Nat → Float) (l : List Nat) {a b : Float} (h : Eqz a b) (hz : ∀ q ∈ l, p q = false → (g q).isFinite = true ∧ toR (g q) = 0) :
    Eqz (l.foldl (fun acc q => acc + g q) a) ((l.filter p).foldl (fun acc q => acc + g q) b) := by
  induction l generalizing a b with
  | nil => exact h
  | cons q l ih =>
    have hz' : ∀ q ∈ l, p q = false → (g q).isFinite = true ∧ toR (g q) = 0 := fun q' hq' => hz q' (by simp [hq'])
    cases hp : p q
    · rw [List.filter_cons_of_neg (by rw [hp]; simp), List.foldl_cons]
      obtain ⟨f, z⟩ := hz q (by simp) hp
      exact ih ((Eqz.add_zero f z).symm.trans h) hz'
    · rw [List.filter_cons_of_pos hp, List.foldl_cons, List.foldl_cons]
      exact ih (h.add (Eqz.refl _)) hz'

theorem dotF64_pad {f : Nat → Nat} {k k' : Nat} (hf : ∀ l < k, ∀ l' < k, l < l' → f l < f l') (hk : ∀ l < k, f l < k') {x y x' y' : Nat → Float}
    (hx : ∀ l < k, x' (f l) = x l) (hy : ∀ l < k, y' (f l) = y l)
    (h0 : ∀ q < k', (∀ l < k, f l ≠ q) → (x' q).isFinite = true ∧ (y' q).isFinite = true ∧ (toR (x' q) = 0 ∨ toR (y' q) = 0)) :
    Eqz (dotF64 k' x' y') (dotF64 k x y) := by
  have h := eqz_filter (fun q => decide (∃ l < k, f l = q)) (fun q => x' q * y' q) (List.range k') (Eqz.refl zero) (fun q hq hp => by
    obtain ⟨h1, h2, h3⟩ := h0 q (List.mem_range.1 hq) (fun l hl e => by
      have := of_decide_eq_false hp
      exact this ⟨l, hl, e⟩)
    exact mul_zero_of h1 h2 h3)
  rw [range_filter_mono hf hk, List.foldl_map] at h
  have e : dotF64 k x y = (List.range k).foldl (fun acc l => acc + x' (f l) * y' (f l)) zero :=
    (dotF64_congr hx hy).symm
  rw [e]
  exact h

/-- **C106.** The product of two matrices on binary64 does not change when columns of `A` and the matching rows of `B` are put in between, if one of the two is zero and the other one finite. `f` says where the old columns and rows go. -/
theorem C106_dgemm_zeros {ta tb ta' tb' : Char} (hta : TransFlag ta) (htb : TransFlag tb) (hta' : TransFlag ta') (htb' : TransFlag tb') (m n k k' : Nat)
    (a b c a' b' c' : List Float) (lda ldb ldc lda' ldb' ldc' : Nat)
    (sa : Stored a lda (storedRows ta m k) (storedCols ta m k)) (sb : Stored b ldb (storedRows tb k n) (storedCols tb k n)) (sc : Stored c ldc m n)
    (sa' : Stored a' lda' (storedRows ta' m k') (storedCols ta' m k')) (sb' : Stored b' ldb' (storedRows tb' k' n) (storedCols tb' k' n)) (sc' : Stored c' ldc' m n)
    (f : Nat → Nat) (hf : ∀ l < k, ∀ l' < k, l < l' → f l < f l') (hk : ∀ l < k, f l < k')
    (hA : ∀ i < m, ∀ l < k, op ta' (entry a' lda') i (f l) = op ta (entry a lda) i l)
    (hB : ∀ l < k, ∀ j < n, op tb' (entry b' ldb') (f l) j = op tb (entry b ldb) l j)
    (h0 : ∀ q < k', (∀ l < k, f l ≠ q) →
      ((∀ i < m, (op ta' (entry a' lda') i q == 0) = true) ∧ ∀ j < n, (op tb' (entry b' ldb') q j).isFinite = true) ∨
      ((∀ i < m, (op ta' (entry a' lda') i q).isFinite = true) ∧ ∀ j < n, (op tb' (entry b' ldb') q j == 0) = true)) :
    ∃ r r' : List Float, dgemm ta tb m n k (1 : Float) a lda b ldb 0 c ldc = (pure r : R (List Float)) ∧
      dgemm ta' tb' m n k' (1 : Float) a' lda' b' ldb' 0 c' ldc' = (pure r' : R (List Float)) ∧
      ∀ i < m, ∀ j < n, ∃ v w, r[i + j * ldc]? = some v ∧ r'[i + j * ldc']? = some w ∧ FlipEq false v w := by
  obtain ⟨r, e, u⟩ := C95_dgemm_dot hta htb m n k a b c lda ldb ldc sa sb sc
  obtain ⟨r', e', u'⟩ := C95_dgemm_dot hta' htb' m n k' a' b' c' lda' ldb' ldc' sa' sb' sc'
  refine ⟨r, r', e, e', fun i hi j hj => ⟨_, _, u.block i hi j hj, u'.block i hi j hj, Rel.spec (Eqz.symm ?_)⟩⟩
  refine dotF64_pad hf hk (hA i hi) (fun l hl => hB l hl j hj) fun q hq hn => ?_
  rcases h0 q hq hn with ⟨h1, h2⟩ | ⟨h1, h2⟩
  · obtain ⟨g1, g2⟩ := eq_toR toR_zero.1 (h1 i hi)
    exact ⟨g1, h2 j hj, .inl (g2.trans toR_zero.2)⟩
  · obtain ⟨g1, g2⟩ := eq_toR toR_zero.1 (h2 j hj)
    exact ⟨h1 i hi, g1, .inr (g2.trans toR_zero.2)⟩

/-- The norm of `(0.1, -0, 1e-200, 0, 3)` is the norm of `(0.1, 1e-200, 3)`, bit for bit; the empty vector and a vector of zeros have the same norm. -/
theorem C106_dnrm2_example (pr : Profile) :
    ([0.1, -0.0, 1e-200, 0, 3] : List Float).filter (fun v => !(v == 0)) = [0.1, 1e-200, 3] ∧
    (dnrm2 (F := Float) 5 ([0.1, -0.0, 1e-200, 0, 3] : List Float) 1 pr).val? = (dnrm2 (F := Float) 3 ([0.1, 1e-200, 3] : List Float) 1 pr).val? ∧
    (dnrm2 (F := Float) 2 ([-0.0, 0] : List Float) 1 pr).val? = (dnrm2 (F := Float) 0 ([] : List Float) 1 pr).val? := by
  cases pr <;> decide +kernel

/-- `(0.1, 0.2)·(0.3, 0.7)` and `(0.1, 0, 0.2)·(0.3, 5, 0.7)`, with `f 0 = 0` and `f 1 = 2`. -/
theorem C106_dgemm_example (pr : Profile) :
    (dgemm (F := Float) 'N' 'N' 1 1 2 1 [0.1, 0.2] 1 ([0.3, 0.7] : List Float) 2 0 ([7] : List Float) 1 pr).val? =
      (dgemm (F := Float) 'N' 'N' 1 1 3 1 [0.1, 0, 0.2] 1 ([0.3, 5, 0.7] : List Float) 3 0 ([7] : List Float) 1 pr).val? ∧
    (fun l => 2 * l) 0 < (fun l => 2 * l) 1 ∧ ((0 : Float) == 0) = true ∧ (5 : Float).isFinite = true := by
  cases pr <;> decide +kernel

/-- The matching row has to be finite: `0·∞` is not zero. -/
theorem C106_infinite (pr : Profile) :
    ((dgemm (F := Float) 'N' 'N' 1 1 3 1 [0.1, 0, 0.2] 1 ([0.3, 1 / 0, 0.7] : List Float) 3 0 ([7] : List Float) 1 pr).val?.map fun r => r.map Float.isNaN) = some [true] := by
  cases pr <;> decide +kernel

end Verif
