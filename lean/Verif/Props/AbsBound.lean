import Verif.Props.ScalMono
import Verif.Props.TrmmMono

/-!
# C114: products and rotations on binary64 are bounded by the same computation on magnitudes
-/

namespace Verif
open Float.Model F64 Scalar Spec

namespace F64

/-- If `y` is finite, then `x` is finite and at most `y` in magnitude. -/
def Dom (x y : Float) : Prop := y.isFinite = true → x.isFinite = true ∧ |toR x| ≤ toR y

theorem abs_fl_le {X Y : ℝ} (h : |X| ≤ Y) : |fl X| ≤ fl Y := by
  obtain ⟨h1, h2⟩ := abs_le.1 h
  refine abs_le.2 ⟨?_, fl_mono h2⟩
  have := fl_mono h1
  rwa [fl_symm] at this

theorem dom_of {X Y : ℝ} {f g : Float} (h : |X| ≤ Y) (r : Rounds X f) (ef : f.isFinite = true → toR f = fl X) (eg : toR g = fl Y) :
    f.isFinite = true ∧ |toR f| ≤ toR g := by
  have hf := r.finite (lt_of_le_of_lt h (lt_ovf_of_fl eg))
  refine ⟨hf, ?_⟩
  rw [ef hf, eg]
  exact abs_fl_le h

theorem Dom.add {x y x' y' : Float} (h : Dom x y) (h' : Dom x' y') : Dom (x + x') (y + y') := by
  intro f
  obtain ⟨g, g'⟩ := finite_of_add f
  obtain ⟨a, b⟩ := h g
  obtain ⟨a', b'⟩ := h' g'
  exact dom_of ((abs_add_le _ _).trans (add_le_add b b')) (add_rounds _ _ a a') add_fl (add_fl f)

theorem Dom.neg {x y : Float} (h : Dom x y) : Dom (-x) y := by
  intro f
  obtain ⟨a, b⟩ := h f
  exact ⟨by rw [neg_finite]; exact a, by rw [neg_toR, abs_neg]; exact b⟩

theorem Dom.add_swap {x y x' y' : Float} (h : Dom x y) (h' : Dom x' y') : Dom (x' + x) (y + y') := by
  intro f
  obtain ⟨g, g'⟩ := finite_of_add f
  obtain ⟨a, b⟩ := h g
  obtain ⟨a', b'⟩ := h' g'
  refine dom_of ?_ (add_rounds _ _ a' a) add_fl (add_fl f)
  rw [add_comm]
  exact (abs_add_le _ _).trans (add_le_add b b')

theorem Dom.mul {x y x' y' : Float} (h : Dom x y) (h' : Dom x' y') : Dom (x * x') (y * y') := by
  intro f
  obtain ⟨g, g'⟩ := finite_of_mul f
  obtain ⟨a, b⟩ := h g
  obtain ⟨a', b'⟩ := h' g'
  refine dom_of ?_ (mul_rounds _ _ a a') mul_fl (mul_fl f)
  rw [abs_mul]
  exact mul_le_mul b b' (abs_nonneg _) ((abs_nonneg _).trans b)

theorem Dom.spec {x y : Float} (h : Dom x y) (f : y.isFinite = true) : x.isFinite = true ∧ x.abs ≤ y := by
  obtain ⟨a, b⟩ := h f
  exact ⟨a, (le_iff (by rw [abs_finite]; exact a) f).2 (by rw [abs_toR]; exact b)⟩

end F64

/-- `x` and `y` are finite and `|x| ≤ y`. -/
def Spec.AbsLe (x y : Float) : Prop := x.isFinite = true ∧ y.isFinite = true ∧ x.abs ≤ y

theorem Spec.AbsLe.dom {x y : Float} (h : AbsLe x y) : Dom x y := fun _ =>
  ⟨h.1, by have := (le_iff (by rw [abs_finite]; exact h.1) h.2.1).1 h.2.2; rwa [abs_toR] at this⟩

theorem dotF64_dom {k : Nat} {x y x' y' : Nat → Float} (hx : ∀ l < k, AbsLe (x l) (x' l)) (hy : ∀ l < k, AbsLe (y l) (y' l)) :
    Dom (dotF64 k x y) (dotF64 k x' y') := by
  induction k with
  | zero =>
    intro _
    have e : ∀ x y : Nat → Float, dotF64 0 x y = zero := fun _ _ => rfl
    rw [e, e]
    exact ⟨toR_zero.1, by rw [toR_zero.2, abs_zero]⟩
  | succ k ih =>
    have hs : ∀ x y : Nat → Float, dotF64 (k + 1) x y = dotF64 k x y + x k * y k := by
      intro x y
      unfold dotF64
      rw [List.range_succ, List.foldl_append]; rfl
    rw [hs, hs]
    exact (ih (fun l hl => hx l (by omega)) fun l hl => hy l (by omega)).add ((hx k (by omega)).dom.mul (hy k (by omega)).dom)

/-- **C114.** If `|A| ≤ A'` and `|B| ≤ B'` entry by entry, then every entry of the computed product `A·B` is at most the entry of the computed product `A'·B'` in magnitude, with no
allowance for rounding, as long as the latter is finite; the former is then finite too. -/
theorem C114_dgemm {ta tb : Char} (hta : TransFlag ta) (htb : TransFlag tb) (m n k : Nat) (a b c a' b' c' : List Float) (lda ldb ldc : Nat)
    (sa : Stored a lda (storedRows ta m k) (storedCols ta m k)) (sb : Stored b ldb (storedRows tb k n) (storedCols tb k n)) (sc : Stored c ldc m n)
    (sa' : Stored a' lda (storedRows ta m k) (storedCols ta m k)) (sb' : Stored b' ldb (storedRows tb k n) (storedCols tb k n)) (sc' : Stored c' ldc m n)
    (hA : ∀ i < m, ∀ l < k, AbsLe (op ta (entry a lda) i l) (op ta (entry a' lda) i l))
    (hB : ∀ l < k, ∀ j < n, AbsLe (op tb (entry b ldb) l j) (op tb (entry b' ldb) l j)) :
    ∃ r r' : List Float, dgemm ta tb m n k (1 : Float) a lda b ldb 0 c ldc = (pure r : R (List Float)) ∧
      dgemm ta tb m n k (1 : Float) a' lda b' ldb 0 c' ldc = (pure r' : R (List Float)) ∧
      ∀ i < m, ∀ j < n, ∃ v w, r[i + j * ldc]? = some v ∧ r'[i + j * ldc]? = some w ∧ (w.isFinite = true → v.isFinite = true ∧ v.abs ≤ w) := by
  obtain ⟨r, e, u⟩ := C95_dgemm_dot hta htb m n k a b c lda ldb ldc sa sb sc
  obtain ⟨r', e', u'⟩ := C95_dgemm_dot hta htb m n k a' b' c' lda ldb ldc sa' sb' sc'
  exact ⟨r, r', e, e', fun i hi j hj => ⟨_, _, u.block i hi j hj, u'.block i hi j hj, (dotF64_dom (hA i hi) fun l hl => hB l hl j hj).spec⟩⟩

/-- **C114.** `C114_dgemm` for arrays. -/
theorem C114_dgemm_array {ta tb : Char} (hta : TransFlag ta) (htb : TransFlag tb) (m n k : Nat) (a b c a' b' c' : FA Float) (lda ldb ldc : Int) (ra rb rc : Nat)
    (hla : max 1 (storedRows ta m k : Int) ≤ lda) (hlb : max 1 (storedRows tb k n : Int) ≤ ldb) (hlc : max 1 (m : Int) ≤ ldc)
    (ha : a.rows = ra) (hb : b.rows = rb) (hc : c.rows = rc) (ha' : a'.rows = ra) (hb' : b'.rows = rb) (hc' : c'.rows = rc)
    (sa : Stored a.data ra (storedRows ta m k) (storedCols ta m k)) (sb : Stored b.data rb (storedRows tb k n) (storedCols tb k n)) (sc : Stored c.data rc m n)
    (sa' : Stored a'.data ra (storedRows ta m k) (storedCols ta m k)) (sb' : Stored b'.data rb (storedRows tb k n) (storedCols tb k n)) (sc' : Stored c'.data rc m n)
    (hA : ∀ i < m, ∀ l < k, AbsLe (op ta (entry a.data ra) i l) (op ta (entry a'.data ra) i l))
    (hB : ∀ l < k, ∀ j < n, AbsLe (op tb (entry b.data rb) l j) (op tb (entry b'.data rb) l j)) :
    ∃ r r' : FA Float, dgemm ta tb m n k (1 : Float) a lda b ldb 0 c ldc = (pure r : R (FA Float)) ∧
      dgemm ta tb m n k (1 : Float) a' lda b' ldb 0 c' ldc = (pure r' : R (FA Float)) ∧
      ∀ i < m, ∀ j < n, ∃ v w, r.data[i + j * rc]? = some v ∧ r'.data[i + j * rc]? = some w ∧ (w.isFinite = true → v.isFinite = true ∧ v.abs ≤ w) := by
  obtain ⟨r, e, -, -, u⟩ := C95_dgemm_dot_array hta htb m n k a b c lda ldb ldc ra rb rc hla hlb hlc ha hb hc sa sb sc
  obtain ⟨r', e', -, -, u'⟩ := C95_dgemm_dot_array hta htb m n k a' b' c' lda ldb ldc ra rb rc hla hlb hlc ha' hb' hc' sa' sb' sc'
  exact ⟨r, r', e, e', fun i hi j hj => ⟨_, _, u.block i hi j hj, u'.block i hi j hj, (dotF64_dom (hA i hi) fun l hl => hB l hl j hj).spec⟩⟩

/-! ### dtrmm -/

theorem F64.Eqz.dom_spec {x y x' y' : Float} (h : Eqz x y) (h' : Eqz x' y') (m : Dom y y') (f : x'.isFinite = true) : x.isFinite = true ∧ x.abs ≤ x' := by
  obtain ⟨f', e'⟩ := h'.fin f
  obtain ⟨g, b⟩ := m f'
  obtain ⟨g', e⟩ := h.symm.fin g
  exact ⟨g', (F64.le_iff (by rw [abs_finite]; exact g') f).2 (by rw [abs_toR, e, ← e']; exact b)⟩

theorem triDot_dom {nounit : Bool} {c b c' b' : Int → Float} {l : List Int} {i : Int} (hd : nounit = true → AbsLe (c i) (c' i)) (hb : AbsLe (b i) (b' i))
    (hl : ∀ k ∈ l, AbsLe (c k) (c' k) ∧ AbsLe (b k) (b' k)) : Dom (triDot nounit c b l i) (triDot nounit c' b' l i) := by
  induction l using List.reverseRecOn with
  | nil =>
    unfold triDot diagMul
    cases nounit
    · exact hb.dom
    · exact hb.dom.mul (hd rfl).dom
  | append_singleton l k ih =>
    have hs : ∀ c b : Int → Float, triDot nounit c b (l ++ [k]) i = triDot nounit c b l i + c k * b k := by
      intro c b
      unfold triDot
      rw [List.foldl_append]; rfl
    rw [hs, hs]
    obtain ⟨h1, h2⟩ := hl k (by simp)
    exact (ih fun q hq => hl q (by simp [hq])).add (h1.dom.mul h2.dom)

/-- In the triangle of `op(A)` (of order `m`) that is read, `|op(A)| ≤ op(A')`, and `|B| ≤ B'`. -/
structure Spec.TriAbsLeft (uplo ta diag : Char) (m n : Nat) (A B A' B' : Nat → Nat → Float) : Prop where
  tri : ∀ i < m, ∀ l < m, InOp uplo ta diag i l → AbsLe (op ta A i l) (op ta A' i l)
  full : ∀ l < m, ∀ j < n, AbsLe (B l j) (B' l j)

/-- The same with triangles of order `n`. -/
structure Spec.TriAbsRight (uplo ta diag : Char) (m n : Nat) (A B A' B' : Nat → Nat → Float) : Prop where
  full : ∀ i < m, ∀ l < n, AbsLe (B i l) (B' i l)
  tri : ∀ l < n, ∀ j < n, InOp uplo ta diag l j → AbsLe (op ta A l j) (op ta A' l j)

/-- **C114.** For `dtrmm` from the left with `alpha = 1`, the computed product of the magnitudes bounds the computed product, as in `C114_dgemm`. -/
theorem C114_dtrmm_left {uplo ta diag : Char} (h2 : UploFlag uplo) (hta : TransFlag ta) (h4 : DiagFlag diag)
    {m n : Nat} {lda ldb : Int} (hla : max 1 (m : Int) ≤ lda) (hlb : max 1 (m : Int) ≤ ldb)
    (a b a' b' : FA Float) (ra rb : Nat) (ha : a.rows = ra) (hb : b.rows = rb) (ha' : a'.rows = ra) (hb' : b'.rows = rb)
    (sa : Stored a.data ra m m) (sb : Stored b.data rb m n) (sa' : Stored a'.data ra m m) (sb' : Stored b'.data rb m n)
    (h : TriAbsLeft uplo ta diag m n (entry a.data ra) (entry b.data rb) (entry a'.data ra) (entry b'.data rb)) :
    ∃ r r' : FA Float, dtrmm 'L' uplo ta diag m n (1 : Float) a lda b ldb = pure (a, r) ∧ dtrmm 'L' uplo ta diag m n (1 : Float) a' lda b' ldb = pure (a', r') ∧
      ∀ i < m, ∀ j < n, ∃ v w, r.data[i + j * rb]? = some v ∧ r'.data[i + j * rb]? = some w ∧ (w.isFinite = true → v.isFinite = true ∧ v.abs ≤ w) := by
  have hL : SideFlag 'L' := by decide
  have iL : isLeft 'L' = true := rfl
  have hla1 : max 1 (if isLeft 'L' then (m : Int) else n) ≤ lda := by rw [iL, if_pos rfl]; exact hla
  by_cases hq : m = 0 ∨ n = 0
  · refine ⟨b, b', C27_empty hL h2 hta h4 hla1 hlb hq _ a b, C27_empty hL h2 hta h4 hla1 hlb hq _ a' b', ?_⟩
    intro i hi j hj; omega
  · have h0 : ((1 : Float) =ᶠ (zero : Float)) = false := by decide +kernel
    obtain ⟨r, e, -, -, u⟩ := dtrmmFA_ok hL h2 hta h4 hla1 hlb (by omega) (by omega) (1 : Float) h0 a b ra rb ha hb (by unfold triOrder; rw [iL]; exact sa) sb
    obtain ⟨r', e', -, -, u'⟩ := dtrmmFA_ok hL h2 hta h4 hla1 hlb (by omega) (by omega) (1 : Float) h0 a' b' ra rb ha' hb' (by unfold triOrder; rw [iL]; exact sa') sb'
    refine ⟨r, r', ?_, ?_, fun i hi j hj => ⟨_, _, u.block i hi j hj, u'.block i hi j hj, ?_⟩⟩
    · unfold dtrmm
      show (dtrmmFA 'L' uplo ta diag m n (1 : Float) a lda b ldb >>= _) = _
      rw [e]; rfl
    · unfold dtrmm
      show (dtrmmFA 'L' uplo ta diag m n (1 : Float) a' lda b' ldb >>= _) = _
      rw [e']; rfl
    · rw [iL]
      obtain ⟨l, hl, H⟩ := trmmVal_left_list (isUpper uplo) (noTrans ta) m ((i : Int) + 1) (by omega) (by omega)
      have ei : ((i : Int) + 1 - 1).toNat = i := by omega
      have ej : ((j : Int) + 1 - 1).toNat = j := by omega
      have hop : ∀ d : List Float, ∀ k : Int, 1 ≤ k → (if noTrans ta then ofList2 ra d ((i : Int) + 1) k else ofList2 ra d k ((i : Int) + 1)) = op ta (entry d ra) i (k - 1).toNat :=
        fun d k hk => by rw [opInt ta d ra (by omega) hk, ei]
      have hdg : ∀ d : List Float, ofList2 ra d ((i : Int) + 1) ((i : Int) + 1) = op ta (entry d ra) i i := by
        intro d
        have := hop d ((i : Int) + 1) (by omega)
        rwa [ite_self, ei] at this
      have hbe : ∀ d : List Float, ∀ k : Int, 1 ≤ k → ofList2 rb d k ((j : Int) + 1) = entry d rb (k - 1).toNat j :=
        fun d k hk => by rw [entry_eq_ofList2 _ _ hk (by omega), ej]
      have hin : ∀ k ∈ l, InOp uplo ta diag i (k - 1).toNat := by
        intro k hk
        obtain ⟨k1, k2, k3⟩ := hl k hk
        refine inOp_off ?_
        by_cases hc : (isUpper uplo == noTrans ta) = true
        · rw [if_pos hc] at k3 ⊢; omega
        · rw [if_neg hc] at k3 ⊢; omega
      have E := H (!isUnit diag) (ofList2 ra a.data) (ofList2 rb b.data) n ((j : Int) + 1)
        (fun hn => by rw [hdg]; exact (h.tri i hi i hi (inOp_diag hn)).1)
        (fun k hk => by rw [hop _ k (hl k hk).1]; exact (h.tri i hi _ (by have := hl k hk; omega) (hin k hk)).1)
      have E' := H (!isUnit diag) (ofList2 ra a'.data) (ofList2 rb b'.data) n ((j : Int) + 1)
        (fun hn => by rw [hdg]; exact (h.tri i hi i hi (inOp_diag hn)).2.1)
        (fun k hk => by rw [hop _ k (hl k hk).1]; exact (h.tri i hi _ (by have := hl k hk; omega) (hin k hk)).2.1)
      refine (E.dom_spec E' (triDot_dom ?_ ?_ ?_))
      · intro hn
        simp only [ite_self]
        rw [hdg, hdg]
        exact h.tri i hi i hi (inOp_diag hn)
      · rw [hbe _ _ (by omega), hbe _ _ (by omega), ei]
        exact h.full i hi j hj
      · intro k hk
        obtain ⟨k1, k2, k3⟩ := hl k hk
        have hkm : (k - 1).toNat < m := by omega
        rw [hop _ k k1, hop _ k k1, hbe _ k k1, hbe _ k k1]
        exact ⟨h.tri i hi _ hkm (hin k hk), h.full _ hkm j hj⟩

/-- **C114.** The same from the right. -/
theorem C114_dtrmm_right {uplo ta diag : Char} (h2 : UploFlag uplo) (hta : TransFlag ta) (h4 : DiagFlag diag)
    {m n : Nat} {lda ldb : Int} (hla : max 1 (n : Int) ≤ lda) (hlb : max 1 (m : Int) ≤ ldb)
    (a b a' b' : FA Float) (ra rb : Nat) (ha : a.rows = ra) (hb : b.rows = rb) (ha' : a'.rows = ra) (hb' : b'.rows = rb)
    (sa : Stored a.data ra n n) (sb : Stored b.data rb m n) (sa' : Stored a'.data ra n n) (sb' : Stored b'.data rb m n)
    (h : TriAbsRight uplo ta diag m n (entry a.data ra) (entry b.data rb) (entry a'.data ra) (entry b'.data rb)) :
    ∃ r r' : FA Float, dtrmm 'R' uplo ta diag m n (1 : Float) a lda b ldb = pure (a, r) ∧ dtrmm 'R' uplo ta diag m n (1 : Float) a' lda b' ldb = pure (a', r') ∧
      ∀ i < m, ∀ j < n, ∃ v w, r.data[i + j * rb]? = some v ∧ r'.data[i + j * rb]? = some w ∧ (w.isFinite = true → v.isFinite = true ∧ v.abs ≤ w) := by
  have hR : SideFlag 'R' := by decide
  have iR : isLeft 'R' = false := rfl
  have hla1 : max 1 (if isLeft 'R' then (m : Int) else n) ≤ lda := by rw [iR, if_neg (by simp)]; exact hla
  by_cases hq : m = 0 ∨ n = 0
  · refine ⟨b, b', C27_empty hR h2 hta h4 hla1 hlb hq _ a b, C27_empty hR h2 hta h4 hla1 hlb hq _ a' b', ?_⟩
    intro i hi j hj; omega
  · have h0 : ((1 : Float) =ᶠ (zero : Float)) = false := by decide +kernel
    obtain ⟨r, e, -, -, u⟩ := dtrmmFA_ok hR h2 hta h4 hla1 hlb (by omega) (by omega) (1 : Float) h0 a b ra rb ha hb (by unfold triOrder; rw [iR]; exact sa) sb
    obtain ⟨r', e', -, -, u'⟩ := dtrmmFA_ok hR h2 hta h4 hla1 hlb (by omega) (by omega) (1 : Float) h0 a' b' ra rb ha' hb' (by unfold triOrder; rw [iR]; exact sa') sb'
    refine ⟨r, r', ?_, ?_, fun i hi j hj => ⟨_, _, u.block i hi j hj, u'.block i hi j hj, ?_⟩⟩
    · unfold dtrmm
      show (dtrmmFA 'R' uplo ta diag m n (1 : Float) a lda b ldb >>= _) = _
      rw [e]; rfl
    · unfold dtrmm
      show (dtrmmFA 'R' uplo ta diag m n (1 : Float) a' lda b' ldb >>= _) = _
      rw [e']; rfl
    · rw [iR]
      obtain ⟨l, hl, H⟩ := trmmVal_right_list (isUpper uplo) (noTrans ta) n ((j : Int) + 1) (by omega) (by omega)
      have ei : ((i : Int) + 1 - 1).toNat = i := by omega
      have ej : ((j : Int) + 1 - 1).toNat = j := by omega
      have hop : ∀ d : List Float, ∀ k : Int, 1 ≤ k → (if noTrans ta then ofList2 ra d k ((j : Int) + 1) else ofList2 ra d ((j : Int) + 1) k) = op ta (entry d ra) (k - 1).toNat j :=
        fun d k hk => by rw [opInt ta d ra hk (by omega), ej]
      have hdg : ∀ d : List Float, ofList2 ra d ((j : Int) + 1) ((j : Int) + 1) = op ta (entry d ra) j j := by
        intro d
        have := hop d ((j : Int) + 1) (by omega)
        rwa [ite_self, ej] at this
      have hbe : ∀ d : List Float, ∀ k : Int, 1 ≤ k → ofList2 rb d ((i : Int) + 1) k = entry d rb i (k - 1).toNat :=
        fun d k hk => by rw [entry_eq_ofList2 _ _ (by omega) hk, ei]
      have hin : ∀ k ∈ l, InOp uplo ta diag (k - 1).toNat j := by
        intro k hk
        obtain ⟨k1, k2, k3⟩ := hl k hk
        refine inOp_off ?_
        by_cases hc : (isUpper uplo == noTrans ta) = true
        · rw [if_pos hc] at k3 ⊢; omega
        · rw [if_neg hc] at k3 ⊢; omega
      have E := H (!isUnit diag) (ofList2 ra a.data) (ofList2 rb b.data) m ((i : Int) + 1)
        (fun k hk => by rw [hbe _ k (hl k hk).1]; exact (h.full i hi _ (by have := hl k hk; omega)).1)
      have E' := H (!isUnit diag) (ofList2 ra a'.data) (ofList2 rb b'.data) m ((i : Int) + 1)
        (fun k hk => by rw [hbe _ k (hl k hk).1]; exact (h.full i hi _ (by have := hl k hk; omega)).2.1)
      refine (E.dom_spec E' (triDot_dom ?_ ?_ ?_))
      · intro hn
        simp only [ite_self]
        rw [hdg, hdg]
        exact h.tri j hj j hj (inOp_diag hn)
      · rw [hbe _ _ (by omega), hbe _ _ (by omega), ej]
        exact h.full i hi j hj
      · intro k hk
        obtain ⟨k1, k2, k3⟩ := hl k hk
        have hkm : (k - 1).toNat < n := by omega
        rw [hop _ k k1, hop _ k k1, hbe _ k k1, hbe _ k k1]
        exact ⟨h.tri _ hkm j hj (hin k hk), h.full i hi _ hkm⟩

/-- A case for `dtrmm`: the unit upper triangle with `-0.3` and one with `0.4`; the part that is not read is arbitrary. -/
theorem C114_dtrmm_example (pr : Profile) :
    ((dtrmm (F := Float) 'L' 'U' 'N' 'U' 2 1 1 (⟨[0.1, Scalar.nan, -0.3, 0.7], 2, 2, 0⟩ : FA Float) 2 (⟨[1.1, -1.3], 2, 1, 0⟩ : FA Float) 2 pr).val?.bind fun r =>
      (dtrmm (F := Float) 'L' 'U' 'N' 'U' 2 1 1 (⟨[0, 5, 0.4, -1], 2, 2, 0⟩ : FA Float) 2 (⟨[1.1, 1.4], 2, 1, 0⟩ : FA Float) 2 pr).val?.map fun r' =>
        r.2.data.zipWith (fun v w => decide (v.abs < w)) r'.2.data) = some [true, true] := by
  cases pr <;> decide +kernel

/-! ### drot -/

/-- **C114.** A rotation with `|c| ≤ 1` and `|s| ≤ 1` gives elements that are at most the computed sum `|x| + |y|` of the two magnitudes, with no allowance for rounding, as long as
that sum is finite; they are then finite too. -/
theorem C114_drot (n : Nat) (x y : List Float) (incx incy : Int) (c s : Float) (hx0 : incx ≠ 0) (hy0 : incy ≠ 0)
    (hx : StrideFits n incx x.length) (hy : StrideFits n incy y.length)
    (hox : n * incx.natAbs + 1 < 2 ^ 31) (hoy : n * incy.natAbs + 1 < 2 ^ 31) (hc : AbsLe c 1) (hs : AbsLe s 1) :
    ∃ p q : List Float, drot (n : Int) x incx y incy c s = pure (p, q) ∧
      ∀ l (hl : l < n), ((x[strideIx n incx l]'(hx l hl)).abs + (y[strideIx n incy l]'(hy l hl)).abs).isFinite = true →
        ∃ u v, p[strideIx n incx l]? = some u ∧ q[strideIx n incy l]? = some v ∧ u.isFinite = true ∧ v.isFinite = true ∧
          u.abs ≤ (x[strideIx n incx l]'(hx l hl)).abs + (y[strideIx n incy l]'(hy l hl)).abs ∧
          v.abs ≤ (x[strideIx n incx l]'(hx l hl)).abs + (y[strideIx n incy l]'(hy l hl)).abs := by
  obtain ⟨p, q, e, -, -, h, -⟩ := C14_drot n x y incx incy c s hx0 hy0 hx hy hox hoy
  refine ⟨p, q, e, fun l hl hf => ?_⟩
  have key : ∀ {c z : Float}, AbsLe c 1 → Dom (c * z) z.abs := by
    intro c z hc f
    have fz : z.isFinite = true := by rwa [abs_finite] at f
    have d : Dom z z.abs := fun _ => ⟨fz, by rw [abs_toR]⟩
    have := hc.dom.mul d
    rw [one_mul'] at this
    exact this f
  have d1 := (key (z := x[strideIx n incx l]'(hx l hl)) hc).add (key (z := y[strideIx n incy l]'(hy l hl)) hs)
  have d2 := (key (z := x[strideIx n incx l]'(hx l hl)) hs).neg.add_swap (key (z := y[strideIx n incy l]'(hy l hl)) hc)
  rw [← sub_eq_add_neg'] at d2
  obtain ⟨a1, a2⟩ := d1.spec hf
  obtain ⟨b1, b2⟩ := d2.spec hf
  exact ⟨_, _, (h l hl).1, (h l hl).2, a1, b1, a2, b2⟩

/-- A case for `dgemm`: `(0.1, -0.2)·(0.3, 0.7)` and `(0.1, 0.3)·(0.3, 0.7)`. -/
theorem C114_dgemm_example (pr : Profile) :
    ((dgemm (F := Float) 'N' 'N' 1 1 2 1 [0.1, -0.2] 1 ([0.3, 0.7] : List Float) 2 0 ([7] : List Float) 1 pr).val?.bind fun r =>
      (dgemm (F := Float) 'N' 'N' 1 1 2 1 [0.1, 0.3] 1 ([0.3, 0.7] : List Float) 2 0 ([7] : List Float) 1 pr).val?.map fun r' => (r.zipWith (fun v w => decide (v.abs ≤ w)) r')) = some [true] ∧
    (-0.2 : Float).abs ≤ 0.3 ∧ (-0.2 : Float).isFinite = true ∧ (0.3 : Float).isFinite = true := by
  cases pr <;> decide +kernel

/-- A case for `drot`, with `c = 0.6` and `s = -0.8`. -/
theorem C114_drot_example (pr : Profile) :
    ((drot (F := Float) 1 ([0.1] : List Float) 1 ([0.7] : List Float) 1 0.6 (-0.8) pr).val?.map fun r => (r.1.map fun u => decide (u.abs ≤ (0.1 : Float).abs + (0.7 : Float).abs)) ++
      r.2.map fun v => decide (v.abs ≤ (0.1 : Float).abs + (0.7 : Float).abs)) = some [true, true] ∧
    (-0.8 : Float).abs ≤ 1 ∧ (0.6 : Float).abs ≤ 1 ∧ ((0.1 : Float).abs + (0.7 : Float).abs).isFinite = true := by
  cases pr <;> decide +kernel

end Verif
