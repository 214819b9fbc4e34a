import Verif.Props.AbsBound
import Verif.Props.QuarterTurn

/-!
# C114: the bound by magnitudes for `dgemm` with `alpha` and `beta`
-/

namespace Verif
open Float.Model F64 Scalar Spec

namespace F64

theorem eq_zero_abs (x : Float) : (x.abs =ᶠ (zero : Float)) = (x =ᶠ (zero : Float)) := by
  show Float.beq x.abs zero = Float.beq x zero
  rw [beq_toXR, beq_toXR, abs_toXR, toXR_fin toR_zero.1, toR_zero.2]
  cases toXR x <;> simp [XR.abs, XR.beq]

theorem eq_one_of {x : Float} (h : (x =ᶠ (one : Float)) = true) : x = 1 := by
  obtain ⟨f, v⟩ := eq_toR (x := x) (y := 1) toR_one.1 h
  exact toR_inj v f toR_one.1 (by rw [v, toR_one.2]; norm_num)

theorem dom_abs {x : Float} (f : x.isFinite = true) : Dom x x.abs := fun _ => ⟨f, by rw [abs_toR]⟩

theorem mul_one_right (x : Float) : x * 1 = x := by rw [mul_comm']; exact one_mul' x

theorem scaled_mul {beta : Float} (h : (beta =ᶠ (zero : Float)) = false) (c : Float) : scaled beta c = c * beta := by
  unfold scaled
  rw [h]
  simp only [Bool.false_eq_true, if_false]
  split
  · rename_i h1
    rw [eq_one_of h1, mul_one_right]
  · rfl

theorem dom_scaled {beta c c' : Float} (fb : beta.isFinite = true) (h : AbsLe c c') : Dom (scaled beta c) (scaled beta.abs c') := by
  cases hb : (beta =ᶠ (zero : Float))
  · rw [scaled_mul hb, scaled_mul (by rw [eq_zero_abs]; exact hb)]
    exact h.dom.mul (dom_abs fb)
  · unfold scaled
    rw [if_pos hb, if_pos (by rw [eq_zero_abs]; exact hb)]
    exact fun _ => ⟨toR_zero.1, by rw [toR_zero.2, abs_zero]⟩

theorem dom_fold {k : Nat} {g g' : Nat → Float} (h : ∀ l < k, Dom (g l) (g' l)) {s s' : Float} (hs : Dom s s') :
    Dom ((List.range k).foldl (fun acc l => acc + g l) s) ((List.range k).foldl (fun acc l => acc + g' l) s') := by
  induction k with
  | zero => exact hs
  | succ k ih =>
    rw [List.range_succ, List.foldl_append, List.foldl_append]
    exact (ih fun l hl => h l (by omega)).add (h k (by omega))

end F64

theorem gemmEntry_dom (nota : Bool) (k : Nat) {alpha beta : Float} (fa : alpha.isFinite = true) (fb : beta.isFinite = true) {x y x' y' : Nat → Float} {c c' : Float}
    (hx : ∀ l < k, AbsLe (x l) (x' l)) (hy : ∀ l < k, AbsLe (y l) (y' l)) (hc : AbsLe c c') :
    Dom (gemmEntry nota k alpha beta x y c) (gemmEntry nota k alpha.abs beta.abs x' y' c') := by
  have dz : Dom (zero : Float) zero := fun _ => ⟨toR_zero.1, by rw [toR_zero.2, abs_zero]⟩
  have ab1 : (beta =ᶠ (one : Float)) = true → (beta.abs =ᶠ (one : Float)) = true := by
    intro h
    rw [eq_one_of h]
    decide +kernel
  have d1 : (beta.abs =ᶠ (one : Float)) = true → Dom (c * beta) c' := by
    intro h
    have := hc.dom.mul (dom_abs fb)
    rwa [eq_one_of h, mul_one_right] at this
  have nz : (beta.abs =ᶠ (one : Float)) = true → (beta =ᶠ (zero : Float)) = false := by
    intro h
    rw [← eq_zero_abs, eq_one_of h]
    decide +kernel
  unfold gemmEntry
  rw [eq_zero_abs, eq_zero_abs]
  by_cases P' : ((alpha =ᶠ (zero : Float)) = true ∨ k = 0) ∧ (beta.abs =ᶠ (one : Float)) = true
  · rw [if_pos P']
    by_cases P : ((alpha =ᶠ (zero : Float)) = true ∨ k = 0) ∧ (beta =ᶠ (one : Float)) = true
    · rw [if_pos P]
      exact hc.dom
    · rw [if_neg P]
      by_cases h0 : (alpha =ᶠ (zero : Float)) = true
      · rw [if_pos h0, scaled_mul (nz P'.2)]
        exact d1 P'.2
      · rw [if_neg h0]
        have k0 : k = 0 := P'.1.resolve_left h0
        subst k0
        cases nota
        · simp only [Bool.false_eq_true, if_false, nz P'.2, List.range_zero, List.foldl_nil]
          have z : (alpha * (zero : Float)).isFinite = true ∧ toR (alpha * (zero : Float)) = 0 := by
            rw [mul_comm']
            obtain ⟨f, v⟩ := mul_unit (c := (zero : Float)) (x := alpha) (Or.inl toR_zero.2) toR_zero.1 fa
            exact ⟨f, by rw [v, toR_zero.2, zero_mul]⟩
          intro f
          obtain ⟨g, b⟩ := d1 P'.2 f
          rw [mul_comm'] at g b
          obtain ⟨u, v⟩ := add_unit z.1 g (Or.inl z.2)
          exact ⟨u, by rw [v, z.2, zero_add]; exact b⟩
        · simp only [if_true, List.range_zero, List.foldl_nil]
          rw [scaled_mul (nz P'.2)]
          exact d1 P'.2
  · have P : ¬ (((alpha =ᶠ (zero : Float)) = true ∨ k = 0) ∧ (beta =ᶠ (one : Float)) = true) := fun h => P' ⟨h.1, ab1 h.2⟩
    rw [if_neg P, if_neg P']
    by_cases h0 : (alpha =ᶠ (zero : Float)) = true
    · rw [if_pos h0, if_pos h0]
      exact dom_scaled fb hc
    · rw [if_neg h0, if_neg h0]
      cases nota
      · simp only [Bool.false_eq_true, if_false]
        have t := dom_fold (k := k) (fun l hl => (hx l hl).dom.mul (hy l hl).dom) dz
        split
        · exact (dom_abs fa).mul t
        · exact ((dom_abs fa).mul t).add ((dom_abs fb).mul hc.dom)
      · simp only [if_true]
        exact dom_fold (fun l hl => ((dom_abs fa).mul (hy l hl).dom).mul (hx l hl).dom) (dom_scaled fb hc)

/-- **C114.** With `alpha` and `beta`: if `|A| ≤ A'`, `|B| ≤ B'` and `|C| ≤ C'` entry by entry, then every entry of `alpha·A·B + beta·C` as computed is at most that of
`|alpha|·A'·B' + |beta|·C'` in magnitude, with no allowance for rounding, as long as the latter is finite. -/
theorem C114_dgemm_scaled {ta tb : Char} (hta : TransFlag ta) (htb : TransFlag tb) (m n k : Nat) (alpha beta : Float) (fa : alpha.isFinite = true) (fb : beta.isFinite = true)
    (a b c a' b' c' : List Float) (lda ldb ldc : Nat)
    (sa : Stored a lda (storedRows ta m k) (storedCols ta m k)) (sb : Stored b ldb (storedRows tb k n) (storedCols tb k n)) (sc : Stored c ldc m n)
    (sa' : Stored a' lda (storedRows ta m k) (storedCols ta m k)) (sb' : Stored b' ldb (storedRows tb k n) (storedCols tb k n)) (sc' : Stored c' ldc m n)
    (hA : ∀ i < m, ∀ l < k, AbsLe (op ta (entry a lda) i l) (op ta (entry a' lda) i l))
    (hB : ∀ l < k, ∀ j < n, AbsLe (op tb (entry b ldb) l j) (op tb (entry b' ldb) l j))
    (hC : ∀ i < m, ∀ j < n, AbsLe (entry c ldc i j) (entry c' ldc i j)) :
    ∃ r r' : List Float, dgemm ta tb m n k alpha a lda b ldb beta c ldc = (pure r : R (List Float)) ∧
      dgemm ta tb m n k alpha.abs a' lda b' ldb beta.abs c' ldc = (pure r' : R (List Float)) ∧
      ∀ i < m, ∀ j < n, ∃ v w, r[i + j * ldc]? = some v ∧ r'[i + j * ldc]? = some w ∧ (w.isFinite = true → v.isFinite = true ∧ v.abs ≤ w) := by
  obtain ⟨r, e, u⟩ := C24_dgemm hta htb m n k alpha beta a b c lda ldb ldc sa sb sc
  obtain ⟨r', e', u'⟩ := C24_dgemm hta htb m n k alpha.abs beta.abs a' b' c' lda ldb ldc sa' sb' sc'
  exact ⟨r, r', e, e', fun i hi j hj => ⟨_, _, u.block i hi j hj, u'.block i hi j hj, (gemmEntry_dom _ k fa fb (hA i hi) (fun l hl => hB l hl j hj) (hC i hi j hj)).spec⟩⟩

/-- A case: `-0.5·(0.1, -0.2)·(0.3, 0.7) - 7` and `0.5·(0.1, 0.3)·(0.3, 0.7) + 7`. -/
theorem C114_scaled_example (pr : Profile) :
    ((dgemm (F := Float) 'N' 'N' 1 1 2 (-0.5) [0.1, -0.2] 1 ([0.3, 0.7] : List Float) 2 (-1) ([7] : List Float) 1 pr).val?.bind fun r =>
      (dgemm (F := Float) 'N' 'N' 1 1 2 ((-0.5 : Float).abs) [0.1, 0.3] 1 ([0.3, 0.7] : List Float) 2 ((-1 : Float).abs) ([7] : List Float) 1 pr).val?.map fun r' =>
        (r.zipWith (fun v w => decide (v.abs ≤ w)) r')) = some [true] := by
  cases pr <;> decide +kernel

end Verif
