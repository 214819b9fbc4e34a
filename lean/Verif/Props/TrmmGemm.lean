import Verif.Props.Padding
import Verif.Props.GemmBitsArr

/-!
# C107: `dtrmm` and `dgemm` on the same triangular matrix, on binary64

Specification: `Spec.triF` is the triangular matrix written out with its zeros and, for a unit triangle, its ones.
-/

namespace Verif
open Float.Model F64 Scalar Spec

/-- The triangular matrix designated by `uplo` and `diag` in a square matrix, written out in full. -/
def Spec.triF (uplo diag : Char) (x : Nat → Nat → Float) (i j : Nat) : Float :=
  if i = j then (if isUnit diag then 1 else x i i)
  else if (if isUpper uplo then i < j else j < i) then x i j else 0

theorem dotF64_irange (m : Nat) (x y : Nat → Float) :
    dotF64 m x y = (irange 1 m).foldl (fun acc k => acc + x (k - 1).toNat * y (k - 1).toNat) zero := by
  rw [irange_one_eq, List.foldl_map]
  unfold dotF64
  refine List.foldl_ext _ _ _ fun acc l _ => ?_
  rw [show ((l : Int) + 1 - 1).toNat = l by omega]

theorem eqz_zeros (g : Int → Float) (l : List Int) {a b : Float} (h : Eqz a b) (hz : ∀ q ∈ l, (g q).isFinite = true ∧ toR (g q) = 0) :
    Eqz (l.foldl (fun acc q => acc + g q) a) b := by
  induction l generalizing a with
  | nil => exact h
  | cons q l ih =>
    obtain ⟨f, z⟩ := hz q (by simp)
    exact ih ((Eqz.add_zero f z).symm.trans h) fun q' hq' => hz q' (by simp [hq'])

/-- A sum that starts from zero. -/
theorem zero_add_eqz (p : Float) : Eqz p (zero + p) := by
  by_cases hp : p.isFinite = true
  · have r := add_rounds zero p toR_zero.1 hp
    rw [toR_zero.2, _root_.zero_add] at r
    obtain ⟨f, v⟩ := r.exact (abs_toR_lt p) (grid_toR p)
    by_cases hz : toR p = 0
    · exact Eqz.zero hp hz f (v.trans hz)
    · exact Eqz.of_eq (toR_inj v.symm hp f hz)
  · have h0 : up (zero : Float) = .zero .positive := rfl
    refine Eqz.of_eq (up_inj ?_)
    rw [up_add, h0]
    rw [isFinite_up] at hp
    cases hu : up p with
    | notANumber => simp only [UnpackedFloat.add, fix_nan]
    | infinity t => simp only [UnpackedFloat.add, fix_inf]
    | zero t => rw [hu] at hp; exact absurd rfl hp
    | finite t m e h => rw [hu] at hp; exact absurd rfl hp

/-- A row that starts with zeros: the sum that starts at the diagonal is the full one. -/
theorem triDot_dot {nounit : Bool} {c b : Int → Float} {m : Nat} {x y : Nat → Float} {i : Int} (h1 : 1 ≤ i) (h2 : i ≤ m)
    (hz : ∀ k : Int, 1 ≤ k → k < i → (x (k - 1).toNat).isFinite = true ∧ toR (x (k - 1).toNat) = 0)
    (hy : ∀ k : Int, 1 ≤ k → k ≤ m → y (k - 1).toNat = b k) (fb : ∀ k : Int, 1 ≤ k → k ≤ m → (b k).isFinite = true)
    (hd : x (i - 1).toNat = if nounit then c i else 1) (hx : ∀ k : Int, i < k → k ≤ m → x (k - 1).toNat = c k) :
    Eqz (triDot nounit c b (irange (i + 1) m) i) (dotF64 m x y) := by
  rw [dotF64_irange, irange_append (lo := 1) (mid := i - 1) (by omega) (by omega), List.foldl_append, show i - 1 + 1 = i by omega, irange_cons h2, List.foldl_cons]
  have e0 := eqz_zeros (fun k => x (k - 1).toNat * y (k - 1).toNat) (irange 1 (i - 1)) (Eqz.refl zero) fun q hq => by
    rw [mem_irange] at hq
    obtain ⟨f, z⟩ := hz q hq.1 (by omega)
    exact mul_zero_of f (by rw [hy q hq.1 (by omega)]; exact fb q hq.1 (by omega)) (Or.inl z)
  unfold triDot
  refine eqz_foldl _ ?_ fun k hk p q hpq => ?_
  · have e1 : diagMul nounit (b i) (c i) = x (i - 1).toNat * y (i - 1).toNat := by
      rw [hd, hy i h1 h2]
      unfold diagMul
      split
      · exact mul_comm' _ _
      · exact (one_mul' _).symm
    rw [e1]
    generalize x (i - 1).toNat * y (i - 1).toNat = p
    have : Eqz p (zero + p) := zero_add_eqz p
    exact this.trans (e0.symm.add (Eqz.refl p))
  · rw [mem_irange] at hk
    rw [hx k (by omega) hk.2, hy k (by omega) hk.2]
    exact hpq.add (Eqz.refl _)

/-- From the left, `op(A)` upper triangular. -/
theorem trmmVal_left_upper {upper nounit : Bool} {ga gb : Int → Int → Float} {m n : Int} {i j : Int}
    (fd : nounit = true → (ga i i).isFinite = true) (fa : ∀ k : Int, i < k → k ≤ m → (ga i k).isFinite = true ∨ upper = false) :
    Eqz (trmmVal true upper upper nounit m n 1 ga gb i j) (triDot nounit (fun k => if upper then ga i k else ga k i) (fun k => gb k j) (irange (i + 1) m) i) := by
  cases upper
  · have e : trmmVal true false false nounit m n 1 ga gb i j = triDot nounit (fun k => ga k i) (fun k => gb k j) (irange (i + 1) m) i := one_mul' _
    rw [e]
    exact Eqz.refl _
  · refine ln_triDot fd fun k hk => ?_
    rw [mem_irange] at hk
    exact (fa k (by omega) hk.2).resolve_right (by simp)

/-- From the right, `op(A)` lower triangular. -/
theorem trmmVal_right_lower {upper nounit : Bool} {ga gb : Int → Int → Float} {m n : Int} {i j : Int}
    (fb : ∀ k : Int, j < k → k ≤ n → (gb i k).isFinite = true) :
    Eqz (trmmVal false upper (!upper) nounit m n 1 ga gb i j) (triDot nounit (fun k => if upper then ga j k else ga k j) (gb i) (irange (j + 1) n) j) := by
  have fb' : ∀ k ∈ irange (j + 1) n, (gb i k).isFinite = true := fun k hk => by
    rw [mem_irange] at hk
    exact fb k (by omega) hk.2
  cases upper
  · exact r_triDot fb'
  · have e : trmmVal false true (!true) nounit m n 1 ga gb i j =
        (irange (j + 1) n).foldl (fun acc k => rAcc 1 (ga j k) (gb i) acc k) (diagMul nounit 1 (ga j j) * gb i j) := by
      rw [← rtStart_eq]; rfl
    rw [e]
    exact r_triDot fb'

/-- **C107.** Where `op(A)` is upper triangular, `dtrmm` from the left with `alpha = 1` gives the same numbers on binary64 as `dgemm` with the triangle written
out in full: every rounding is the same, overflow included, and only a zero may come out with either sign. -/
theorem C107_left {uplo ta tg diag : Char} (h2 : UploFlag uplo) (hta : TransFlag ta) (htg : TransFlag tg) (hu : isUpper uplo = noTrans ta) (h4 : DiagFlag diag)
    {m n : Nat} {lda ldb ldg ldc : Int} (hla : max 1 (m : Int) ≤ lda) (hlb : max 1 (m : Int) ≤ ldb) (hlg : max 1 (m : Int) ≤ ldg) (hlc : max 1 (m : Int) ≤ ldc)
    (a b g c : FA Float) (ra rb rg rc : Nat) (ha : a.rows = ra) (hb : b.rows = rb) (hg : g.rows = rg) (hc : c.rows = rc)
    (sa : Stored a.data ra m m) (sb : Stored b.data rb m n) (sg : Stored g.data rg m m) (sc : Stored c.data rc m n)
    (fa : ∀ i < m, ∀ j < m, InTri uplo diag i j → (entry a.data ra i j).isFinite = true) (fb : ∀ i < m, ∀ j < n, (entry b.data rb i j).isFinite = true)
    (hG : ∀ i < m, ∀ l < m, op tg (entry g.data rg) i l = op ta (triF uplo diag (entry a.data ra)) i l) :
    ∃ b' c' : FA Float, dtrmm 'L' uplo ta diag m n (1 : Float) a lda b ldb = pure (a, b') ∧ dgemm tg 'N' m n m (1 : Float) g ldg b ldb 0 c ldc = (pure c' : R (FA Float)) ∧
      ∀ i < m, ∀ j < n, ∃ v w, b'.data[i + j * rb]? = some v ∧ c'.data[i + j * rc]? = some w ∧ FlipEq false v w := by
  have hL : SideFlag 'L' := by decide
  have iL : isLeft 'L' = true := rfl
  have hsr : storedRows tg m m = m := by unfold storedRows; split <;> rfl
  have hsc : storedCols tg m m = m := by unfold storedCols; split <;> rfl
  have hla1 : max 1 (if isLeft 'L' then (m : Int) else n) ≤ lda := by rw [iL, if_pos rfl]; exact hla
  obtain ⟨c', e', -, -, u'⟩ := C95_dgemm_dot_array htg (by decide : TransFlag 'N') m n m g b c ldg ldb ldc rg rb rc (by rw [hsr]; exact hlg) hlb hlc hg hb hc
    (by rw [hsr, hsc]; exact sg) sb sc
  by_cases hq : m = 0 ∨ n = 0
  · refine ⟨b, c', C27_empty hL h2 hta h4 hla1 hlb hq _ a b, e', ?_⟩
    intro i hi j hj; omega
  · have h0 : ((1 : Float) =ᶠ (zero : Float)) = false := by decide +kernel
    obtain ⟨b', e, r, c, u⟩ := dtrmmFA_ok hL h2 hta h4 hla1 hlb (by omega) (by omega) (1 : Float) h0 a b ra rb ha hb (by unfold triOrder; rw [iL]; exact sa) sb
    refine ⟨b', c', ?_, e', fun i hi j hj => ⟨_, _, u.block i hi j hj, u'.block i hi j hj, Rel.spec ?_⟩⟩
    · unfold dtrmm
      show (dtrmmFA 'L' uplo ta diag m n (1 : Float) a lda b ldb >>= _) = _
      rw [e]; rfl
    · rw [iL, ← hu]
      refine (trmmVal_left_upper ?_ ?_).trans (triDot_dot (by omega) (by omega) ?_ ?_ ?_ ?_ ?_)
      · intro hn
        rw [entry_eq_ofList2 _ _ (by omega) (by omega)]
        refine fa _ (by omega) _ (by omega) ⟨by split <;> exact le_rfl, fun h => ?_⟩
        rw [h] at hn; exact absurd hn (by simp)
      · intro k k1 k2
        cases hU : isUpper uplo
        · exact Or.inr rfl
        · left
          rw [entry_eq_ofList2 _ _ (by omega) (by omega)]
          refine fa _ (by omega) _ (by omega) ⟨by rw [hU, if_pos rfl]; omega, fun _ => by omega⟩
      · intro k k1 k2
        have : op tg (entry g.data rg) i (k - 1).toNat = 0 := by
          rw [hG i hi _ (by omega)]
          unfold op triF
          rw [← hu]
          cases hU : isUpper uplo
          · simp only [Bool.false_eq_true, if_false]
            rw [if_neg (by omega), if_neg (by omega)]
          · simp only [if_true]
            rw [if_neg (by omega), if_neg (by omega)]
        simp only [this]
        exact toR_zero
      · intro k k1 k2
        rw [entry_eq_ofList2 _ _ (by omega) (by omega), show ((j : Int) + 1 - 1).toNat = j by omega]
        rfl
      · intro k k1 k2
        rw [entry_eq_ofList2 _ _ (by omega) (by omega)]
        exact fb _ (by omega) _ (by omega)
      · rw [show ((i : Int) + 1 - 1).toNat = i by omega, hG i hi i hi]
        unfold op triF
        rw [entry_eq_ofList2 _ _ (by omega) (by omega), show ((i : Int) + 1 - 1).toNat = i by omega]
        cases isUnit diag <;> simp
      · intro k k1 k2
        rw [hG i hi _ (by omega)]
        unfold op triF
        rw [← hu, entry_eq_ofList2 _ _ (by omega) (by omega), entry_eq_ofList2 _ _ (by omega) (by omega), show ((i : Int) + 1 - 1).toNat = i by omega]
        cases hU : isUpper uplo
        · simp only [Bool.false_eq_true, if_false]
          rw [if_neg (by omega), if_pos (by omega)]
        · simp only [if_true]
          rw [if_neg (by omega), if_pos (by omega)]

/-- **C107.** Where `op(A)` is lower triangular, the same from the right. -/
theorem C107_right {uplo ta tg diag : Char} (h2 : UploFlag uplo) (hta : TransFlag ta) (htg : TransFlag tg) (hu : isUpper uplo = !noTrans ta) (h4 : DiagFlag diag)
    {m n : Nat} {lda ldb ldg ldc : Int} (hla : max 1 (n : Int) ≤ lda) (hlb : max 1 (m : Int) ≤ ldb) (hlg : max 1 (n : Int) ≤ ldg) (hlc : max 1 (m : Int) ≤ ldc)
    (a b g c : FA Float) (ra rb rg rc : Nat) (ha : a.rows = ra) (hb : b.rows = rb) (hg : g.rows = rg) (hc : c.rows = rc)
    (sa : Stored a.data ra n n) (sb : Stored b.data rb m n) (sg : Stored g.data rg n n) (sc : Stored c.data rc m n)
    (fb : ∀ i < m, ∀ j < n, (entry b.data rb i j).isFinite = true)
    (hG : ∀ i < n, ∀ l < n, op tg (entry g.data rg) i l = op ta (triF uplo diag (entry a.data ra)) i l) :
    ∃ b' c' : FA Float, dtrmm 'R' uplo ta diag m n (1 : Float) a lda b ldb = pure (a, b') ∧ dgemm 'N' tg m n n (1 : Float) b ldb g ldg 0 c ldc = (pure c' : R (FA Float)) ∧
      ∀ i < m, ∀ j < n, ∃ v w, b'.data[i + j * rb]? = some v ∧ c'.data[i + j * rc]? = some w ∧ FlipEq false v w := by
  have hR : SideFlag 'R' := by decide
  have iR : isLeft 'R' = false := rfl
  have hsr : storedRows tg n n = n := by unfold storedRows; split <;> rfl
  have hsc : storedCols tg n n = n := by unfold storedCols; split <;> rfl
  have hla1 : max 1 (if isLeft 'R' then (m : Int) else n) ≤ lda := by rw [iR, if_neg (by simp)]; exact hla
  obtain ⟨c', e', -, -, u'⟩ := C95_dgemm_dot_array (by decide : TransFlag 'N') htg m n n b g c ldb ldg ldc rb rg rc hlb (by rw [hsr]; exact hlg) hlc hb hg hc
    sb (by rw [hsr, hsc]; exact sg) sc
  by_cases hq : m = 0 ∨ n = 0
  · refine ⟨b, c', C27_empty hR h2 hta h4 hla1 hlb hq _ a b, e', ?_⟩
    intro i hi j hj; omega
  · have h0 : ((1 : Float) =ᶠ (zero : Float)) = false := by decide +kernel
    have hn : noTrans ta = !isUpper uplo := by rw [hu, Bool.not_not]
    obtain ⟨b', e, r, c, u⟩ := dtrmmFA_ok hR h2 hta h4 hla1 hlb (by omega) (by omega) (1 : Float) h0 a b ra rb ha hb (by unfold triOrder; rw [iR]; exact sa) sb
    refine ⟨b', c', ?_, e', fun i hi j hj => ⟨_, _, u.block i hi j hj, u'.block i hi j hj, Rel.spec ?_⟩⟩
    · unfold dtrmm
      show (dtrmmFA 'R' uplo ta diag m n (1 : Float) a lda b ldb >>= _) = _
      rw [e]; rfl
    · rw [iR, hn, dotF64_comm]
      refine (trmmVal_right_lower ?_).trans (triDot_dot (by omega) (by omega) ?_ ?_ ?_ ?_ ?_)
      · intro k k1 k2
        rw [entry_eq_ofList2 _ _ (by omega) (by omega)]
        exact fb _ (by omega) _ (by omega)
      · intro k k1 k2
        have : op tg (entry g.data rg) (k - 1).toNat j = 0 := by
          rw [hG _ (by omega) j hj]
          unfold op triF
          rw [hn]
          cases hU : isUpper uplo
          · simp only [Bool.false_eq_true, if_false, Bool.not_false, if_true]
            rw [if_neg (by omega), if_neg (by omega)]
          · simp only [if_true, Bool.not_true, Bool.false_eq_true, if_false]
            rw [if_neg (by omega), if_neg (by omega)]
        simp only [this]
        exact toR_zero
      · intro k k1 k2
        rw [entry_eq_ofList2 _ _ (by omega) (by omega), show ((i : Int) + 1 - 1).toNat = i by omega]
        rfl
      · intro k k1 k2
        rw [entry_eq_ofList2 _ _ (by omega) (by omega)]
        exact fb _ (by omega) _ (by omega)
      · rw [show ((j : Int) + 1 - 1).toNat = j by omega, hG j hj j hj]
        unfold op triF
        rw [entry_eq_ofList2 _ _ (by omega) (by omega), show ((j : Int) + 1 - 1).toNat = j by omega]
        cases isUnit diag <;> simp
      · intro k k1 k2
        rw [hG _ (by omega) j hj]
        unfold op triF
        rw [hn, entry_eq_ofList2 _ _ (by omega) (by omega), entry_eq_ofList2 _ _ (by omega) (by omega), show ((j : Int) + 1 - 1).toNat = j by omega]
        cases hU : isUpper uplo
        · simp only [Bool.false_eq_true, if_false, Bool.not_false, if_true]
          rw [if_neg (by omega), if_pos (by omega)]
        · simp only [if_true, Bool.not_true, Bool.false_eq_true, if_false]
          rw [if_neg (by omega), if_pos (by omega)]

/-- A case: the upper triangle of `[0.1 0.3; · 0.7]`, and the full matrix `[0.1 0.3; 0 0.7]`, times `(1.1, 1.3)ᵀ`. -/
theorem C107_example (pr : Profile) :
    ((dtrmm (F := Float) 'L' 'U' 'N' 'N' 2 1 1 (⟨[0.1, Scalar.nan, 0.3, 0.7], 2, 2, 0⟩ : FA Float) 2 (⟨[1.1, 1.3], 2, 1, 0⟩ : FA Float) 2 pr).val?.map fun r => r.2.data) =
      (dgemm (F := Float) 'N' 'N' 2 1 2 1 (⟨[0.1, 0, 0.3, 0.7], 2, 2, 0⟩ : FA Float) 2 (⟨[1.1, 1.3], 2, 1, 0⟩ : FA Float) 2 0 (⟨[7, 7], 2, 1, 0⟩ : FA Float) 2 pr).val?.map fun r => r.data := by
  cases pr <;> decide +kernel

/-- Where `op(A)` is lower triangular the sum from the left is taken in another order: with the rows `(1, 0, 0)`, `(0, 1, 0)` and `(2^-53, 2^-53, 1)` the last entry for
`B = (1, 1, 1)ᵀ` is `1` from `dtrmm`, and the next larger number from `dgemm`. -/
theorem C107_other_order (pr : Profile) :
    ((dtrmm (F := Float) 'L' 'L' 'N' 'N' 3 1 1 (⟨[1, 0, Float.ofBits 0x3CA0000000000000, 0, 1, Float.ofBits 0x3CA0000000000000, 0, 0, 1], 3, 3, 0⟩ : FA Float) 3
        (⟨[1, 1, 1], 3, 1, 0⟩ : FA Float) 3 pr).val?.map fun r => r.2.data) = some [1, 1, 1] ∧
      ((dgemm (F := Float) 'N' 'N' 3 1 3 1 (⟨[1, 0, Float.ofBits 0x3CA0000000000000, 0, 1, Float.ofBits 0x3CA0000000000000, 0, 0, 1], 3, 3, 0⟩ : FA Float) 3
        (⟨[1, 1, 1], 3, 1, 0⟩ : FA Float) 3 0 (⟨[7, 7, 7], 3, 1, 0⟩ : FA Float) 3 pr).val?.map fun r => r.data) = some [1, 1, Float.ofBits 0x3FF0000000000001] := by
  cases pr <;> decide +kernel

end Verif
