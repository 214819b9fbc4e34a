import Verif.Lib.F64Sign
import Verif.Props.GemmBits
import Verif.Props.RotF64

/-!
# C100: `dgemm` and `drot` of negated data on binary64
-/

namespace Verif
open F64 Scalar Spec

/-- `w` is `-v`: both are `NaN`, or they are equal as numbers (so that a zero may have any sign). -/
def Spec.Negated (v w : Float) : Prop := (v.isNaN = true ∧ w.isNaN = true) ∨ (w == -v) = true

theorem opp_zero : Opp (zero : Float) zero := Opp.zero toR_zero.2 toR_zero.1 toR_zero.2 toR_zero.1

theorem opp_scaled (beta : Float) {c c' : Float} (hc : (beta =ᶠ zero) = false → c' = -c) : Opp (scaled beta c) (scaled beta c') := by
  unfold scaled
  by_cases h : (beta =ᶠ zero) = true
  · rw [if_pos h, if_pos h]; exact opp_zero
  · rw [if_neg h, if_neg h, hc (by simpa using h)]
    split
    · exact Opp.of_neg c
    · exact (Opp.of_neg c).mulR beta

theorem opp_fold {f g : Nat → Float} (k : Nat) {a b : Float} (h0 : Opp a b) (h : ∀ l < k, Opp (f l) (g l)) :
    Opp ((List.range k).foldl (fun acc l => acc + f l) a) ((List.range k).foldl (fun acc l => acc + g l) b) := by
  induction k with
  | zero => exact h0
  | succ k ih =>
    rw [List.range_succ, List.foldl_append, List.foldl_append]
    exact (ih fun l hl => h l (by omega)).add (h k (by omega))

theorem gemmEntry_opp (nota : Bool) (k : Nat) {alpha alpha' beta : Float} {x y x' y' : Nat → Float} {c c' : Float}
    (h : (alpha' = alpha ∧ (∀ l < k, x' l = -x l) ∧ ∀ l < k, y' l = y l) ∨
      (alpha' = alpha ∧ (∀ l < k, x' l = x l) ∧ ∀ l < k, y' l = -y l) ∨
      (alpha' = -alpha ∧ (∀ l < k, x' l = x l) ∧ ∀ l < k, y' l = y l))
    (hc : (beta =ᶠ zero) = false → c' = -c) :
    Opp (gemmEntry nota k alpha beta x y c) (gemmEntry nota k alpha' beta x' y' c') := by
  have ha : (alpha' =ᶠ zero) = (alpha =ᶠ zero) := by
    rcases h with ⟨rfl, -⟩ | ⟨rfl, -⟩ | ⟨rfl, -⟩
    · rfl
    · rfl
    · show Float.beq (-alpha) zero = Float.beq alpha zero
      rw [beq_toXR, beq_toXR, neg_toXR, toXR_fin toR_zero.1, toR_zero.2]
      cases toXR alpha <;> simp [XR.neg, XR.beq]
  unfold gemmEntry
  rw [ha]
  split
  · rename_i h1
    have : (beta =ᶠ zero) = false := by
      have e := eq_toR toR_one'.1 h1.2
      by_contra hz
      have e' := eq_toR toR_zero.1 (Bool.eq_true_of_not_eq_false hz)
      have := e.2.symm.trans e'.2
      rw [toR_one'.2, toR_zero.2] at this
      norm_num at this
    rw [hc this]
    exact Opp.of_neg c
  · split
    · exact opp_scaled beta hc
    · have term : ∀ l < k, Opp (alpha * y l * x l) (alpha' * y' l * x' l) := by
        intro l hl
        rcases h with ⟨rfl, hx, hy⟩ | ⟨rfl, hx, hy⟩ | ⟨rfl, hx, hy⟩ <;> rw [hx l hl, hy l hl]
        · exact (Opp.of_neg _).mulL _
        · exact ((Opp.of_neg _).mulL _).mulR _
        · exact ((Opp.of_neg _).mulR _).mulR _
      split
      · exact opp_fold k (opp_scaled beta hc) term
      · have dot : Opp (alpha * (List.range k).foldl (fun acc l => acc + x l * y l) zero) (alpha' * (List.range k).foldl (fun acc l => acc + x' l * y' l) zero) := by
          rcases h with ⟨rfl, hx, hy⟩ | ⟨rfl, hx, hy⟩ | ⟨rfl, hx, hy⟩
          · refine (opp_fold k opp_zero fun l hl => ?_).mulL _
            rw [hx l hl, hy l hl]
            exact (Opp.of_neg _).mulR _
          · refine (opp_fold k opp_zero fun l hl => ?_).mulL _
            rw [hx l hl, hy l hl]
            exact (Opp.of_neg _).mulL _
          · have : (List.range k).foldl (fun acc l => acc + x' l * y' l) (zero : Float) = (List.range k).foldl (fun acc l => acc + x l * y l) zero :=
              List.foldl_ext _ _ _ fun acc l hl => by rw [hx l (List.mem_range.1 hl), hy l (List.mem_range.1 hl)]
            rw [this]
            exact (Opp.of_neg _).mulR _
        simp only
        by_cases hb : (beta =ᶠ zero) = true
        · rw [if_pos hb, if_pos hb]; exact dot
        · rw [if_neg hb, if_neg hb, hc (by simpa using hb)]
          exact dot.add ((Opp.of_neg _).mulL _)

theorem gemmEntry_same (nota : Bool) (k : Nat) {alpha beta : Float} {x y x' y' : Nat → Float} {c c' : Float}
    (hx : ∀ l < k, x' l = -x l) (hy : ∀ l < k, y' l = -y l) (hc : (beta =ᶠ zero) = false → c' = c) :
    gemmEntry nota k alpha beta x' y' c' = gemmEntry nota k alpha beta x y c := by
  have hs : scaled beta c' = scaled beta c := by
    unfold scaled
    by_cases h : (beta =ᶠ zero) = true
    · rw [if_pos h, if_pos h]
    · rw [hc (by simpa using h)]
  unfold gemmEntry
  rw [hs]
  have e1 : (List.range k).foldl (fun acc l => acc + alpha * y' l * x' l) (scaled beta c) = (List.range k).foldl (fun acc l => acc + alpha * y l * x l) (scaled beta c) :=
    List.foldl_ext _ _ _ fun acc l hl => by rw [hx l (List.mem_range.1 hl), hy l (List.mem_range.1 hl), mul_neg' alpha, neg_mul_neg']
  have e2 : (List.range k).foldl (fun acc l => acc + x' l * y' l) (zero : Float) = (List.range k).foldl (fun acc l => acc + x l * y l) zero :=
    List.foldl_ext _ _ _ fun acc l hl => by rw [hx l (List.mem_range.1 hl), hy l (List.mem_range.1 hl), neg_mul_neg']
  rw [e1, e2]
  by_cases h : (beta =ᶠ zero) = true
  · have h1 : (beta =ᶠ one) = false := by
      have e := eq_toR toR_zero.1 h
      by_contra hz
      have e' := eq_toR toR_one'.1 (Bool.eq_true_of_not_eq_false hz)
      have := e.2.symm.trans e'.2
      rw [toR_one'.2, toR_zero.2] at this
      norm_num at this
    simp only [h1, h, Bool.false_eq_true, and_false, if_false, if_true]
  · rw [hc (by simpa using h)]

/-- **C100.** Negating one of `alpha`, `A`, `B`, and also `C` (unless `beta = 0`), negates every entry of the result of `dgemm` on binary64,
infinities and `NaN` included; only a zero may come out with either sign. -/
theorem C100_dgemm_negated {ta tb : Char} (hta : TransFlag ta) (htb : TransFlag tb) (m n k : Nat) (alpha alpha' beta : Float) (a b c a' b' c' : List Float) (lda ldb ldc : Nat)
    (sa : Stored a lda (storedRows ta m k) (storedCols ta m k)) (sb : Stored b ldb (storedRows tb k n) (storedCols tb k n)) (sc : Stored c ldc m n)
    (sa' : Stored a' lda (storedRows ta m k) (storedCols ta m k)) (sb' : Stored b' ldb (storedRows tb k n) (storedCols tb k n)) (sc' : Stored c' ldc m n)
    (h : (alpha' = alpha ∧ (∀ i < m, ∀ l < k, op ta (entry a' lda) i l = -op ta (entry a lda) i l) ∧ ∀ l < k, ∀ j < n, op tb (entry b' ldb) l j = op tb (entry b ldb) l j) ∨
      (alpha' = alpha ∧ (∀ i < m, ∀ l < k, op ta (entry a' lda) i l = op ta (entry a lda) i l) ∧ ∀ l < k, ∀ j < n, op tb (entry b' ldb) l j = -op tb (entry b ldb) l j) ∨
      (alpha' = -alpha ∧ (∀ i < m, ∀ l < k, op ta (entry a' lda) i l = op ta (entry a lda) i l) ∧ ∀ l < k, ∀ j < n, op tb (entry b' ldb) l j = op tb (entry b ldb) l j))
    (hC : (beta == 0) = false → ∀ i < m, ∀ j < n, entry c' ldc i j = -entry c ldc i j) :
    ∃ r r' : List Float, dgemm ta tb m n k alpha a lda b ldb beta c ldc = (pure r : R (List Float)) ∧
      dgemm ta tb m n k alpha' a' lda b' ldb beta c' ldc = (pure r' : R (List Float)) ∧
      ∀ i < m, ∀ j < n, ∃ v w, r[i + j * ldc]? = some v ∧ r'[i + j * ldc]? = some w ∧ Negated v w := by
  obtain ⟨r, e, u⟩ := C24_dgemm hta htb m n k alpha beta a b c lda ldb ldc sa sb sc
  obtain ⟨r', e', u'⟩ := C24_dgemm hta htb m n k alpha' beta a' b' c' lda ldb ldc sa' sb' sc'
  refine ⟨r, r', e, e', fun i hi j hj => ⟨_, _, u.block i hi j hj, u'.block i hi j hj, Opp.spec (gemmEntry_opp _ k ?_ fun hb => hC hb i hi j hj)⟩⟩
  rcases h with ⟨h1, h2, h3⟩ | ⟨h1, h2, h3⟩ | ⟨h1, h2, h3⟩
  · exact Or.inl ⟨h1, fun l hl => h2 i hi l hl, fun l hl => h3 l hl j hj⟩
  · exact Or.inr (Or.inl ⟨h1, fun l hl => h2 i hi l hl, fun l hl => h3 l hl j hj⟩)
  · exact Or.inr (Or.inr ⟨h1, fun l hl => h2 i hi l hl, fun l hl => h3 l hl j hj⟩)

/-- **C100.** Negating both `A` and `B` changes no bit of the result. -/
theorem C100_dgemm_both {ta tb : Char} (hta : TransFlag ta) (htb : TransFlag tb) (m n k : Nat) (alpha beta : Float) (a b c a' b' c' : List Float) (lda ldb ldc : Nat)
    (sa : Stored a lda (storedRows ta m k) (storedCols ta m k)) (sb : Stored b ldb (storedRows tb k n) (storedCols tb k n)) (sc : Stored c ldc m n)
    (sa' : Stored a' lda (storedRows ta m k) (storedCols ta m k)) (sb' : Stored b' ldb (storedRows tb k n) (storedCols tb k n)) (sc' : Stored c' ldc m n)
    (hA : ∀ i < m, ∀ l < k, op ta (entry a' lda) i l = -op ta (entry a lda) i l) (hB : ∀ l < k, ∀ j < n, op tb (entry b' ldb) l j = -op tb (entry b ldb) l j)
    (hC : (beta == 0) = false → ∀ i < m, ∀ j < n, entry c' ldc i j = entry c ldc i j) :
    ∃ r r' : List Float, dgemm ta tb m n k alpha a lda b ldb beta c ldc = (pure r : R (List Float)) ∧
      dgemm ta tb m n k alpha a' lda b' ldb beta c' ldc = (pure r' : R (List Float)) ∧
      ∀ i < m, ∀ j < n, ∃ v, r[i + j * ldc]? = some v ∧ r'[i + j * ldc]? = some v := by
  obtain ⟨r, e, u⟩ := C24_dgemm hta htb m n k alpha beta a b c lda ldb ldc sa sb sc
  obtain ⟨r', e', u'⟩ := C24_dgemm hta htb m n k alpha beta a' b' c' lda ldb ldc sa' sb' sc'
  refine ⟨r, r', e, e', fun i hi j hj => ⟨_, u.block i hi j hj, ?_⟩⟩
  rw [u'.block i hi j hj]
  exact congrArg some (gemmEntry_same _ k (fun l hl => hA i hi l hl) (fun l hl => hB l hl j hj) fun hb => hC hb i hi j hj)

/-- **C100.** Negating one of `alpha`, `A`, `B`, and also `C` (unless `beta = 0`), negates every entry of the result of `dgemm` on binary64,
infinities and `NaN` included; only a zero may come out with either sign. For arrays. -/
theorem C100_dgemm_negated_array {ta tb : Char} (hta : TransFlag ta) (htb : TransFlag tb) (m n k : Nat) (alpha alpha' beta : Float) (a b c a' b' c' : FA Float) (lda ldb ldc : Int) (ra rb rc : Nat)
    (hla : max 1 (storedRows ta m k : Int) ≤ lda) (hlb : max 1 (storedRows tb k n : Int) ≤ ldb) (hlc : max 1 (m : Int) ≤ ldc)
    (ha : a.rows = ra) (hb : b.rows = rb) (hc : c.rows = rc) (ha' : a'.rows = ra) (hb' : b'.rows = rb) (hc' : c'.rows = rc)
    (sa : Stored a.data ra (storedRows ta m k) (storedCols ta m k)) (sb : Stored b.data rb (storedRows tb k n) (storedCols tb k n)) (sc : Stored c.data rc m n)
    (sa' : Stored a'.data ra (storedRows ta m k) (storedCols ta m k)) (sb' : Stored b'.data rb (storedRows tb k n) (storedCols tb k n)) (sc' : Stored c'.data rc m n)
    (h : (alpha' = alpha ∧ (∀ i < m, ∀ l < k, op ta (entry a'.data ra) i l = -op ta (entry a.data ra) i l) ∧ ∀ l < k, ∀ j < n, op tb (entry b'.data rb) l j = op tb (entry b.data rb) l j) ∨
      (alpha' = alpha ∧ (∀ i < m, ∀ l < k, op ta (entry a'.data ra) i l = op ta (entry a.data ra) i l) ∧ ∀ l < k, ∀ j < n, op tb (entry b'.data rb) l j = -op tb (entry b.data rb) l j) ∨
      (alpha' = -alpha ∧ (∀ i < m, ∀ l < k, op ta (entry a'.data ra) i l = op ta (entry a.data ra) i l) ∧ ∀ l < k, ∀ j < n, op tb (entry b'.data rb) l j = op tb (entry b.data rb) l j))
    (hC : (beta == 0) = false → ∀ i < m, ∀ j < n, entry c'.data rc i j = -entry c.data rc i j) :
    ∃ r r' : FA Float, dgemm ta tb m n k alpha a lda b ldb beta c ldc = (pure r : R (FA Float)) ∧
      dgemm ta tb m n k alpha' a' lda b' ldb beta c' ldc = (pure r' : R (FA Float)) ∧
      ∀ i < m, ∀ j < n, ∃ v w, r.data[i + j * rc]? = some v ∧ r'.data[i + j * rc]? = some w ∧ Negated v w := by
  obtain ⟨r, e, q₁, q₂, u⟩ := C24_dgemm_array hta htb m n k alpha beta a b c lda ldb ldc ra rb rc hla hlb hlc ha hb hc sa sb sc
  obtain ⟨r', e', p₁, p₂, u'⟩ := C24_dgemm_array hta htb m n k alpha' beta a' b' c' lda ldb ldc ra rb rc hla hlb hlc ha' hb' hc' sa' sb' sc'
  refine ⟨r, r', e, e', fun i hi j hj => ⟨_, _, u.block i hi j hj, u'.block i hi j hj, Opp.spec (gemmEntry_opp _ k ?_ fun hb => hC hb i hi j hj)⟩⟩
  rcases h with ⟨h1, h2, h3⟩ | ⟨h1, h2, h3⟩ | ⟨h1, h2, h3⟩
  · exact Or.inl ⟨h1, fun l hl => h2 i hi l hl, fun l hl => h3 l hl j hj⟩
  · exact Or.inr (Or.inl ⟨h1, fun l hl => h2 i hi l hl, fun l hl => h3 l hl j hj⟩)
  · exact Or.inr (Or.inr ⟨h1, fun l hl => h2 i hi l hl, fun l hl => h3 l hl j hj⟩)

/-- **C100.** Negating both `A` and `B` changes no bit of the result. For arrays. -/
theorem C100_dgemm_both_array {ta tb : Char} (hta : TransFlag ta) (htb : TransFlag tb) (m n k : Nat) (alpha beta : Float) (a b c a' b' c' : FA Float) (lda ldb ldc : Int) (ra rb rc : Nat)
    (hla : max 1 (storedRows ta m k : Int) ≤ lda) (hlb : max 1 (storedRows tb k n : Int) ≤ ldb) (hlc : max 1 (m : Int) ≤ ldc)
    (ha : a.rows = ra) (hb : b.rows = rb) (hc : c.rows = rc) (ha' : a'.rows = ra) (hb' : b'.rows = rb) (hc' : c'.rows = rc)
    (sa : Stored a.data ra (storedRows ta m k) (storedCols ta m k)) (sb : Stored b.data rb (storedRows tb k n) (storedCols tb k n)) (sc : Stored c.data rc m n)
    (sa' : Stored a'.data ra (storedRows ta m k) (storedCols ta m k)) (sb' : Stored b'.data rb (storedRows tb k n) (storedCols tb k n)) (sc' : Stored c'.data rc m n)
    (hA : ∀ i < m, ∀ l < k, op ta (entry a'.data ra) i l = -op ta (entry a.data ra) i l) (hB : ∀ l < k, ∀ j < n, op tb (entry b'.data rb) l j = -op tb (entry b.data rb) l j)
    (hC : (beta == 0) = false → ∀ i < m, ∀ j < n, entry c'.data rc i j = entry c.data rc i j) :
    ∃ r r' : FA Float, dgemm ta tb m n k alpha a lda b ldb beta c ldc = (pure r : R (FA Float)) ∧
      dgemm ta tb m n k alpha a' lda b' ldb beta c' ldc = (pure r' : R (FA Float)) ∧
      ∀ i < m, ∀ j < n, ∃ v, r.data[i + j * rc]? = some v ∧ r'.data[i + j * rc]? = some v := by
  obtain ⟨r, e, q₁, q₂, u⟩ := C24_dgemm_array hta htb m n k alpha beta a b c lda ldb ldc ra rb rc hla hlb hlc ha hb hc sa sb sc
  obtain ⟨r', e', p₁, p₂, u'⟩ := C24_dgemm_array hta htb m n k alpha beta a' b' c' lda ldb ldc ra rb rc hla hlb hlc ha' hb' hc' sa' sb' sc'
  refine ⟨r, r', e, e', fun i hi j hj => ⟨_, u.block i hi j hj, ?_⟩⟩
  rw [u'.block i hi j hj]
  exact congrArg some (gemmEntry_same _ k (fun l hl => hA i hi l hl) (fun l hl => hB l hl j hj) fun hb => hC hb i hi j hj)

/-- **C100.** Negating one of `alpha`, `A`, `B`, and also `C` (unless `beta = 0`), negates every entry of the result of `dgemm` on binary64,
infinities and `NaN` included; only a zero may come out with either sign. For nested vectors. -/
theorem C100_dgemm_negated_nested {ta tb : Char} (hta : TransFlag ta) (htb : TransFlag tb) (m n k : Nat) (alpha alpha' beta : Float) (a b c a' b' c' : List (List Float)) (lda ldb ldc : Int) (ra rb rc : Nat)
    (hla : max 1 (storedRows ta m k : Int) ≤ lda) (hlb : max 1 (storedRows tb k n : Int) ≤ ldb) (hlc : max 1 (m : Int) ≤ ldc)
    (ha : Rect a ra ra) (hb : Rect b rb rb) (hc : Rect c rc rc) (ha' : Rect a' ra ra) (hb' : Rect b' rb rb) (hc' : Rect c' rc rc)
    (sa : Stored a.flatten ra (storedRows ta m k) (storedCols ta m k)) (sb : Stored b.flatten rb (storedRows tb k n) (storedCols tb k n)) (sc : Stored c.flatten rc m n)
    (sa' : Stored a'.flatten ra (storedRows ta m k) (storedCols ta m k)) (sb' : Stored b'.flatten rb (storedRows tb k n) (storedCols tb k n)) (sc' : Stored c'.flatten rc m n)
    (h : (alpha' = alpha ∧ (∀ i < m, ∀ l < k, op ta (entry a'.flatten ra) i l = -op ta (entry a.flatten ra) i l) ∧ ∀ l < k, ∀ j < n, op tb (entry b'.flatten rb) l j = op tb (entry b.flatten rb) l j) ∨
      (alpha' = alpha ∧ (∀ i < m, ∀ l < k, op ta (entry a'.flatten ra) i l = op ta (entry a.flatten ra) i l) ∧ ∀ l < k, ∀ j < n, op tb (entry b'.flatten rb) l j = -op tb (entry b.flatten rb) l j) ∨
      (alpha' = -alpha ∧ (∀ i < m, ∀ l < k, op ta (entry a'.flatten ra) i l = op ta (entry a.flatten ra) i l) ∧ ∀ l < k, ∀ j < n, op tb (entry b'.flatten rb) l j = op tb (entry b.flatten rb) l j))
    (hC : (beta == 0) = false → ∀ i < m, ∀ j < n, entry c'.flatten rc i j = -entry c.flatten rc i j) :
    ∃ r r' : List (List Float), dgemm ta tb m n k alpha a lda b ldb beta c ldc = (pure r : R (List (List Float))) ∧
      dgemm ta tb m n k alpha' a' lda b' ldb beta c' ldc = (pure r' : R (List (List Float))) ∧
      ∀ i < m, ∀ j < n, ∃ v w, r.flatten[i + j * rc]? = some v ∧ r'.flatten[i + j * rc]? = some w ∧ Negated v w := by
  obtain ⟨r, e, q, u⟩ := C24_dgemm_nested hta htb m n k alpha beta a b c lda ldb ldc ra rb rc hla hlb hlc ha hb hc sa sb sc
  obtain ⟨r', e', p, u'⟩ := C24_dgemm_nested hta htb m n k alpha' beta a' b' c' lda ldb ldc ra rb rc hla hlb hlc ha' hb' hc' sa' sb' sc'
  refine ⟨r, r', e, e', fun i hi j hj => ⟨_, _, u.block i hi j hj, u'.block i hi j hj, Opp.spec (gemmEntry_opp _ k ?_ fun hb => hC hb i hi j hj)⟩⟩
  rcases h with ⟨h1, h2, h3⟩ | ⟨h1, h2, h3⟩ | ⟨h1, h2, h3⟩
  · exact Or.inl ⟨h1, fun l hl => h2 i hi l hl, fun l hl => h3 l hl j hj⟩
  · exact Or.inr (Or.inl ⟨h1, fun l hl => h2 i hi l hl, fun l hl => h3 l hl j hj⟩)
  · exact Or.inr (Or.inr ⟨h1, fun l hl => h2 i hi l hl, fun l hl => h3 l hl j hj⟩)

/-- **C100.** Negating both `A` and `B` changes no bit of the result. For nested vectors. -/
theorem C100_dgemm_both_nested {ta tb : Char} (hta : TransFlag ta) (htb : TransFlag tb) (m n k : Nat) (alpha beta : Float) (a b c a' b' c' : List (List Float)) (lda ldb ldc : Int) (ra rb rc : Nat)
    (hla : max 1 (storedRows ta m k : Int) ≤ lda) (hlb : max 1 (storedRows tb k n : Int) ≤ ldb) (hlc : max 1 (m : Int) ≤ ldc)
    (ha : Rect a ra ra) (hb : Rect b rb rb) (hc : Rect c rc rc) (ha' : Rect a' ra ra) (hb' : Rect b' rb rb) (hc' : Rect c' rc rc)
    (sa : Stored a.flatten ra (storedRows ta m k) (storedCols ta m k)) (sb : Stored b.flatten rb (storedRows tb k n) (storedCols tb k n)) (sc : Stored c.flatten rc m n)
    (sa' : Stored a'.flatten ra (storedRows ta m k) (storedCols ta m k)) (sb' : Stored b'.flatten rb (storedRows tb k n) (storedCols tb k n)) (sc' : Stored c'.flatten rc m n)
    (hA : ∀ i < m, ∀ l < k, op ta (entry a'.flatten ra) i l = -op ta (entry a.flatten ra) i l) (hB : ∀ l < k, ∀ j < n, op tb (entry b'.flatten rb) l j = -op tb (entry b.flatten rb) l j)
    (hC : (beta == 0) = false → ∀ i < m, ∀ j < n, entry c'.flatten rc i j = entry c.flatten rc i j) :
    ∃ r r' : List (List Float), dgemm ta tb m n k alpha a lda b ldb beta c ldc = (pure r : R (List (List Float))) ∧
      dgemm ta tb m n k alpha a' lda b' ldb beta c' ldc = (pure r' : R (List (List Float))) ∧
      ∀ i < m, ∀ j < n, ∃ v, r.flatten[i + j * rc]? = some v ∧ r'.flatten[i + j * rc]? = some v := by
  obtain ⟨r, e, q, u⟩ := C24_dgemm_nested hta htb m n k alpha beta a b c lda ldb ldc ra rb rc hla hlb hlc ha hb hc sa sb sc
  obtain ⟨r', e', p, u'⟩ := C24_dgemm_nested hta htb m n k alpha beta a' b' c' lda ldb ldc ra rb rc hla hlb hlc ha' hb' hc' sa' sb' sc'
  refine ⟨r, r', e, e', fun i hi j hj => ⟨_, u.block i hi j hj, ?_⟩⟩
  rw [u'.block i hi j hj]
  exact congrArg some (gemmEntry_same _ k (fun l hl => hA i hi l hl) (fun l hl => hB l hl j hj) fun hb => hC hb i hi j hj)

/-- A case: `[1 2; 3 4]·[0.1; 0.7]` with `A` negated, and with both negated. -/
theorem C100_example (pr : Profile) :
    ((dgemm (F := Float) 'N' 'N' 2 1 2 1 ([1, 3, 2, 4] : List Float) 2 ([0.1, 0.7] : List Float) 2 0 ([0, 0] : List Float) 2 pr).val?.bind fun r =>
      (dgemm (F := Float) 'N' 'N' 2 1 2 1 ([-1, -3, -2, -4] : List Float) 2 ([0.1, 0.7] : List Float) 2 0 ([0, 0] : List Float) 2 pr).val?.bind fun r' =>
      (dgemm (F := Float) 'N' 'N' 2 1 2 1 ([-1, -3, -2, -4] : List Float) 2 ([-0.1, -0.7] : List Float) 2 0 ([0, 0] : List Float) 2 pr).val?.map fun r'' =>
        (r.zipWith (fun v w => w == -v) r', r.zipWith (· == ·) r'', r.map (decide <| 1 < ·))) = some ([true, true], [true, true], [true, true]) := by
  cases pr <;> decide +kernel

/-- The sign of a zero is not kept: `1·1 + 1·(-1)` and `-1·1 + (-1)·(-1)` are both `+0`. -/
theorem C100_zero (pr : Profile) :
    ((dgemm (F := Float) 'N' 'N' 1 1 2 1 ([1, 1] : List Float) 1 ([1, -1] : List Float) 2 0 ([0] : List Float) 1 pr).val?.map fun r => r.map Float.toBits) = some [0] ∧
    ((dgemm (F := Float) 'N' 'N' 1 1 2 1 ([-1, -1] : List Float) 1 ([1, -1] : List Float) 2 0 ([0] : List Float) 1 pr).val?.map fun r => r.map Float.toBits) = some [0] := by
  cases pr <;> decide +kernel

/-! ### `drot` -/

/-- **C100.** Rotating the negated vectors gives the negated result, on binary64 and up to the sign of zeros. -/
theorem C100_drot_negated (n : Nat) (x y : List Float) (incx incy : Int) (c s : Float) (hx0 : incx ≠ 0)
    (hy0 : incy ≠ 0) (hx : StrideFits n incx x.length) (hy : StrideFits n incy y.length)
    (hox : n * incx.natAbs + 1 < 2 ^ 31) (hoy : n * incy.natAbs + 1 < 2 ^ 31) :
    ∃ x' y' x'' y'' : List Float, drot (n : Int) x incx y incy c s = (pure (x', y') : R (List Float × List Float)) ∧
      drot (n : Int) (x.map (- ·)) incx (y.map (- ·)) incy c s = (pure (x'', y'') : R (List Float × List Float)) ∧
      ∀ k < n, (∃ v w, x'[strideIx n incx k]? = some v ∧ x''[strideIx n incx k]? = some w ∧ Negated v w) ∧
        ∃ v w, y'[strideIx n incy k]? = some v ∧ y''[strideIx n incy k]? = some w ∧ Negated v w := by
  obtain ⟨x', y', e, -, -, h, -⟩ := C14_drot n x y incx incy c s hx0 hy0 hx hy hox hoy
  obtain ⟨x'', y'', e', -, -, h', -⟩ := C14_drot n (x.map (- ·)) (y.map (- ·)) incx incy c s hx0 hy0
    (by rw [List.length_map]; exact hx) (by rw [List.length_map]; exact hy) hox hoy
  refine ⟨x', y', x'', y'', e, e', fun k hk => ⟨⟨_, _, (h k hk).1, (h' k hk).1, Opp.spec ?_⟩, _, _, (h k hk).2, (h' k hk).2, Opp.spec ?_⟩⟩
  · rw [List.getElem_map, List.getElem_map]
    exact ((Opp.of_neg _).mulL _).add ((Opp.of_neg _).mulL _)
  · rw [List.getElem_map, List.getElem_map]
    exact ((Opp.of_neg _).mulL _).sub ((Opp.of_neg _).mulL _)

end Verif
