import Verif.Props.GemmSign
import Verif.Props.TrmmNested

/-!
# C100: `dtrmm` of negated data on binary64
-/

namespace Verif
open F64 Scalar Spec

theorem opp_foldl {step step' : Float → Int → Float} (l : List Int) {a b : Float} (h0 : Opp a b)
    (h : ∀ k ∈ l, ∀ x y, Opp x y → Opp (step x k) (step' y k)) : Opp (l.foldl step a) (l.foldl step' b) := by
  induction l generalizing a b with
  | nil => exact h0
  | cons k l ih => exact ih (h k (by simp) _ _ h0) fun k' hk' => h k' (by simp [hk'])

theorem ne_zero_neg (x : Float) : ((-x) ≠ᶠ (zero : Float)) = (x ≠ᶠ zero) := by
  congr 1
  show Float.beq (-x) zero = Float.beq x zero
  rw [beq_toXR, beq_toXR, neg_toXR, toXR_fin toR_zero.1, toR_zero.2]
  cases toXR x <;> simp [XR.neg, XR.beq]

theorem opp_of_zero {x : Float} (h : ¬ (x ≠ᶠ (zero : Float)) = true) : Opp x x := by
  have e := eq_toR toR_zero.1 (by simpa using h : (x =ᶠ (zero : Float)) = true)
  have z := e.2.trans toR_zero.2
  exact Opp.zero z e.1 z e.1

theorem one_of {x : Float} (h : ¬ (x ≠ᶠ (one : Float)) = true) : x = 1 := by
  have h1 := eq_toR toR_one'.1 (by simpa using h : (x =ᶠ (one : Float)) = true)
  exact toR_inj (h1.2.trans (toR_one'.2.trans toR_one.2.symm)) h1.1 toR_one.1 (by rw [h1.2, toR_one'.2]; norm_num)

/-- `alpha` or the entries of `b` are negated. -/
def OneNeg (alpha alpha' : Float) (P : Int → Prop) (b b' : Int → Float) : Prop :=
  (alpha' = alpha ∧ ∀ k, P k → b' k = -b k) ∨ (alpha' = -alpha ∧ ∀ k, P k → b' k = b k)

section
variable {alpha alpha' : Float} {P : Int → Prop} {b b' : Int → Float} {nounit : Bool} {ga : Int → Int → Float} {i k lo hi : Int}

theorem opp_diagMul {x y : Float} (h : Opp x y) (d : Float) : Opp (diagMul nounit x d) (diagMul nounit y d) := by
  unfold diagMul
  split
  · exact h.mulR d
  · exact h

theorem OneNeg.term (h : OneNeg alpha alpha' P b b') (hk : P k) : Opp (alpha * b k) (alpha' * b' k) := by
  rcases h with ⟨rfl, h⟩ | ⟨rfl, h⟩ <;> rw [h k hk]
  · exact (Opp.of_neg _).mulL _
  · exact (Opp.of_neg _).mulR _

theorem OneNeg.ne (h : OneNeg alpha alpha' P b b') (hk : P k) : (b' k ≠ᶠ (zero : Float)) = (b k ≠ᶠ zero) := by
  rcases h with ⟨rfl, h⟩ | ⟨rfl, h⟩ <;> rw [h k hk]
  exact ne_zero_neg _

theorem OneNeg.skip (h : OneNeg alpha alpha' P b b') (hk : P k) (hz : ¬ (b k ≠ᶠ (zero : Float)) = true) : Opp (b k) (b' k) := by
  rcases h with ⟨rfl, h⟩ | ⟨rfl, h⟩ <;> rw [h k hk]
  · exact Opp.of_neg _
  · exact opp_of_zero hz

theorem opp_lnStart (h : OneNeg alpha alpha' P b b') (hi : P i) : Opp (lnStart nounit alpha ga b i) (lnStart nounit alpha' ga b' i) := by
  unfold lnStart
  rw [h.ne hi]
  by_cases hz : (b i ≠ᶠ (zero : Float)) = true
  · rw [if_pos hz, if_pos hz]
    exact opp_diagMul (h.term hi) _
  · rw [if_neg hz, if_neg hz]
    exact h.skip hi hz

theorem opp_lnStep (h : OneNeg alpha alpha' P b b') (hk : P k) {x y : Float} (hxy : Opp x y) :
    Opp (lnStep alpha ga b i x k) (lnStep alpha' ga b' i y k) := by
  unfold lnStep
  rw [h.ne hk]
  split
  · exact hxy.add ((h.term hk).mulR _)
  · exact hxy

theorem opp_ltVal (h : OneNeg alpha alpha' P b b') (hi' : P i) (hr : ∀ k, lo ≤ k → k ≤ hi → P k) :
    Opp (ltVal nounit alpha ga b lo hi i) (ltVal nounit alpha' ga b' lo hi i) := by
  unfold ltVal
  rcases h with ⟨rfl, h⟩ | ⟨rfl, h⟩
  · refine (opp_foldl _ ?_ fun k hk x y hxy => ?_).mulL _
    · rw [h i hi']
      exact opp_diagMul (Opp.of_neg _) _
    · rw [mem_irange] at hk
      rw [h k (hr k hk.1 hk.2)]
      exact hxy.add ((Opp.of_neg _).mulL _)
  · have : (irange lo hi).foldl (fun t k => t + ga k i * b' k) (diagMul nounit (b' i) (ga i i)) =
        (irange lo hi).foldl (fun t k => t + ga k i * b k) (diagMul nounit (b i) (ga i i)) := by
      rw [h i hi']
      refine List.foldl_ext _ _ _ fun t k hk => ?_
      rw [mem_irange] at hk
      rw [h k (hr k hk.1 hk.2)]
    rw [this]
    exact (Opp.of_neg _).mulR _

theorem OneNeg.term' (h : OneNeg alpha alpha' P b b') (hk : P k) (c : Float) : Opp (alpha * c * b k) (alpha' * c * b' k) := by
  rcases h with ⟨rfl, h⟩ | ⟨rfl, h⟩ <;> rw [h k hk]
  · exact (Opp.of_neg _).mulL _
  · exact ((Opp.of_neg _).mulR _).mulR _

theorem opp_rAcc (h : OneNeg alpha alpha' P b b') (hk : P k) {c x y : Float} (hxy : Opp x y) : Opp (rAcc alpha c b x k) (rAcc alpha' c b' y k) := by
  unfold rAcc
  split
  · exact hxy.add (h.term' hk c)
  · exact hxy

theorem opp_rnStart (h : OneNeg alpha alpha' P b b') (hi : P i) :
    Opp (diagMul nounit alpha (ga i i) * b i) (diagMul nounit alpha' (ga i i) * b' i) := by
  unfold diagMul
  split
  · exact h.term' hi _
  · exact h.term hi

theorem rtStart_eq (nounit : Bool) (alpha : Float) (ga : Int → Int → Float) (b : Int → Float) (i : Int) :
    rtStart nounit alpha ga b i = diagMul nounit alpha (ga i i) * b i := by
  unfold rtStart
  by_cases h : (diagMul nounit alpha (ga i i) ≠ᶠ (one : Float)) = true
  · rw [if_pos h]
  · rw [if_neg h, one_of h, one_mul']

/-- One entry, with `alpha` or `B` negated. -/
theorem trmmVal_opp {gb gb' : Int → Int → Float} {m n : Nat} (lside upper notrans nounit : Bool)
    (h : (alpha' = alpha ∧ ∀ i j : Int, 1 ≤ i → i ≤ m → 1 ≤ j → j ≤ n → gb' i j = -gb i j) ∨
      (alpha' = -alpha ∧ ∀ i j : Int, 1 ≤ i → i ≤ m → 1 ≤ j → j ≤ n → gb' i j = gb i j))
    {i j : Int} (hi1 : 1 ≤ i) (hi2 : i ≤ m) (hj1 : 1 ≤ j) (hj2 : j ≤ n) :
    Opp (trmmVal lside upper notrans nounit m n alpha ga gb i j) (trmmVal lside upper notrans nounit m n alpha' ga gb' i j) := by
  have hc : OneNeg alpha alpha' (fun k => 1 ≤ k ∧ k ≤ m) (fun k => gb k j) (fun k => gb' k j) := by
    rcases h with ⟨e, h⟩ | ⟨e, h⟩
    · exact Or.inl ⟨e, fun k hk => h k j hk.1 hk.2 hj1 hj2⟩
    · exact Or.inr ⟨e, fun k hk => h k j hk.1 hk.2 hj1 hj2⟩
  have hr : OneNeg alpha alpha' (fun k => 1 ≤ k ∧ k ≤ n) (gb i) (gb' i) := by
    rcases h with ⟨e, h⟩ | ⟨e, h⟩
    · exact Or.inl ⟨e, fun k hk => h i k hi1 hi2 hk.1 hk.2⟩
    · exact Or.inr ⟨e, fun k hk => h i k hi1 hi2 hk.1 hk.2⟩
  unfold trmmVal
  split_ifs
  · exact opp_foldl _ (opp_lnStart hc ⟨hi1, hi2⟩) fun k hk x y hxy => opp_lnStep hc (by rw [mem_irange] at hk; omega) hxy
  · exact opp_foldl _ (opp_lnStart hc ⟨hi1, hi2⟩) fun k hk x y hxy => opp_lnStep hc (by rw [List.mem_reverse, mem_irange] at hk; omega) hxy
  · exact opp_ltVal hc ⟨hi1, hi2⟩ fun k h1 h2 => by omega
  · exact opp_ltVal hc ⟨hi1, hi2⟩ fun k h1 h2 => by omega
  · exact opp_foldl _ (opp_rnStart hr ⟨hj1, hj2⟩) fun k hk x y hxy => opp_rAcc hr (by rw [mem_irange] at hk; omega) hxy
  · exact opp_foldl _ (opp_rnStart hr ⟨hj1, hj2⟩) fun k hk x y hxy => opp_rAcc hr (by rw [mem_irange] at hk; omega) hxy
  · rw [rtStart_eq, rtStart_eq]
    exact opp_foldl _ (opp_rnStart hr ⟨hj1, hj2⟩) fun k hk x y hxy => opp_rAcc hr (by rw [mem_irange] at hk; omega) hxy
  · rw [rtStart_eq, rtStart_eq]
    exact opp_foldl _ (opp_rnStart hr ⟨hj1, hj2⟩) fun k hk x y hxy => opp_rAcc hr (by rw [List.mem_reverse, mem_irange] at hk; omega) hxy

end

/-- **C100.** Negating `alpha` or `B` negates every entry of the result of `dtrmm` on binary64, infinities and `NaN` included; only a zero may come out with
either sign.  Exception: `alpha = 0` sets everything to zero, which this statement covers. -/
theorem C100_dtrmm_negated {side uplo transa diag : Char} (h1 : SideFlag side) (h2 : UploFlag uplo)
    (h3 : TransFlag transa) (h4 : DiagFlag diag) {m n : Nat} {lda ldb : Int}
    (hla : max 1 (if isLeft side then (m : Int) else n) ≤ lda) (hlb : max 1 (m : Int) ≤ ldb)
    (alpha alpha' : Float) (a b b₁ : FA Float) (ra rb : Nat) (ha : a.rows = ra) (hb : b.rows = rb) (hb₁ : b₁.rows = rb)
    (sa : Stored a.data ra (triOrder side m n) (triOrder side m n)) (sb : Stored b.data rb m n) (sb₁ : Stored b₁.data rb m n)
    (h : (alpha' = alpha ∧ ∀ i < m, ∀ j < n, entry b₁.data rb i j = -entry b.data rb i j) ∨
      (alpha' = -alpha ∧ ∀ i < m, ∀ j < n, entry b₁.data rb i j = entry b.data rb i j)) :
    ∃ b' b₁' : FA Float, dtrmm side uplo transa diag m n alpha a lda b ldb = pure (a, b') ∧
      dtrmm side uplo transa diag m n alpha' a lda b₁ ldb = pure (a, b₁') ∧
      (b'.rows = b.rows ∧ b'.cols = b.cols ∧ b'.data.length = b.data.length) ∧
      (b₁'.rows = b₁.rows ∧ b₁'.cols = b₁.cols ∧ b₁'.data.length = b₁.data.length) ∧
      ∀ i < m, ∀ j < n, ∃ v w, b'.data[i + j * rb]? = some v ∧ b₁'.data[i + j * rb]? = some w ∧ Negated v w := by
  by_cases hq : m = 0 ∨ n = 0
  · refine ⟨b, b₁, C27_empty h1 h2 h3 h4 hla hlb hq _ a b, C27_empty h1 h2 h3 h4 hla hlb hq _ a b₁, ⟨rfl, rfl, rfl⟩, ⟨rfl, rfl, rfl⟩, ?_⟩
    intro i hi j hj; omega
  · have hz : (alpha' ≠ᶠ (zero : Float)) = (alpha ≠ᶠ zero) := by
      rcases h with ⟨rfl, -⟩ | ⟨rfl, -⟩
      · rfl
      · exact ne_zero_neg _
    by_cases h0 : (alpha =ᶠ (Scalar.zero : Float)) = true
    · have h0' : (alpha' =ᶠ (Scalar.zero : Float)) = true := by simpa [h0] using hz
      obtain ⟨b', e, r, c, u⟩ := C27_alpha_zero h1 h2 h3 h4 hla hlb alpha h0 b rb hb sb
      obtain ⟨b₁', e', r', c', u'⟩ := C27_alpha_zero h1 h2 h3 h4 hla hlb alpha' h0' b₁ rb hb₁ sb₁
      exact ⟨b', b₁', e a, e' a, ⟨r, c, u.length⟩, ⟨r', c', u'.length⟩, fun i hi j hj => ⟨_, _, u.block i hi j hj, u'.block i hi j hj, Opp.spec opp_zero⟩⟩
    · have h0' : ¬ (alpha' =ᶠ (Scalar.zero : Float)) = true := by simpa [h0] using hz
      obtain ⟨b', e, r, c, u⟩ := dtrmmFA_ok h1 h2 h3 h4 hla hlb (by omega) (by omega) alpha (by simpa using h0) a b ra rb ha hb sa sb
      obtain ⟨b₁', e', r', c', u'⟩ := dtrmmFA_ok h1 h2 h3 h4 hla hlb (by omega) (by omega) alpha' (by simpa using h0') a b₁ ra rb ha hb₁ sa sb₁
      refine ⟨b', b₁', ?_, ?_, ⟨r, c, u.length⟩, ⟨r', c', u'.length⟩, fun i hi j hj => ⟨_, _, u.block i hi j hj, u'.block i hi j hj, Opp.spec ?_⟩⟩
      · unfold dtrmm
        show (dtrmmFA side uplo transa diag m n alpha a lda b ldb >>= _) = _
        rw [e]; rfl
      · unfold dtrmm
        show (dtrmmFA side uplo transa diag m n alpha' a lda b₁ ldb >>= _) = _
        rw [e']; rfl
      · refine trmmVal_opp _ _ _ _ ?_ (by omega) (by omega) (by omega) (by omega)
        rcases h with ⟨e, h⟩ | ⟨e, h⟩
        · refine Or.inl ⟨e, fun i j g1 g2 g3 g4 => ?_⟩
          rw [entry_eq_ofList2 _ _ g1 g3, entry_eq_ofList2 _ _ g1 g3]
          exact h _ (by omega) _ (by omega)
        · refine Or.inr ⟨e, fun i j g1 g2 g3 g4 => ?_⟩
          rw [entry_eq_ofList2 _ _ g1 g3, entry_eq_ofList2 _ _ g1 g3]
          exact h _ (by omega) _ (by omega)

/-- **C100.** The same for nested vectors. -/
theorem C100_dtrmm_negated_nested {side uplo transa diag : Char} (h1 : SideFlag side) (h2 : UploFlag uplo)
    (h3 : TransFlag transa) (h4 : DiagFlag diag) {m n : Nat} {lda ldb : Int}
    (hla : max 1 (if isLeft side then (m : Int) else n) ≤ lda) (hlb : max 1 (m : Int) ≤ ldb)
    (alpha alpha' : Float) (a b b₁ : List (List Float)) (ra rb : Nat) (ha : Rect a ra ra) (hb : Rect b rb rb) (hb₁ : Rect b₁ rb rb)
    (sa : Stored a.flatten ra (triOrder side m n) (triOrder side m n)) (sb : Stored b.flatten rb m n) (sb₁ : Stored b₁.flatten rb m n)
    (h : (alpha' = alpha ∧ ∀ i < m, ∀ j < n, entry b₁.flatten rb i j = -entry b.flatten rb i j) ∨
      (alpha' = -alpha ∧ ∀ i < m, ∀ j < n, entry b₁.flatten rb i j = entry b.flatten rb i j)) :
    ∃ b' b₁' : List (List Float), dtrmm side uplo transa diag m n alpha a lda b ldb = pure (a, b') ∧
      dtrmm side uplo transa diag m n alpha' a lda b₁ ldb = pure (a, b₁') ∧
      ∀ i < m, ∀ j < n, ∃ v w, b'.flatten[i + j * rb]? = some v ∧ b₁'.flatten[i + j * rb]? = some w ∧ Negated v w := by
  obtain ⟨a1, a2, a3⟩ := faOfVecVec_shape ha sa.pos sa.ldSmall sa.ldSmall
  obtain ⟨b1, b2, b3⟩ := faOfVecVec_shape hb sb.pos sb.ldSmall sb.ldSmall
  obtain ⟨d1, d2, d3⟩ := faOfVecVec_shape hb₁ sb.pos sb.ldSmall sb.ldSmall
  rw [← a3] at sa; rw [← b3] at sb h; rw [← d3] at sb₁ h
  obtain ⟨b', b₁', e, e', ⟨r, c, l⟩, ⟨r', c', l'⟩, u⟩ := C100_dtrmm_negated h1 h2 h3 h4 hla hlb alpha alpha' (faOfVecVec a) (faOfVecVec b) (faOfVecVec b₁)
    ra rb a1 b1 d1 sa sb sb₁ h
  obtain ⟨w, g1, -, g3⟩ := dtrmm_nested ha sa.ldSmall hb sb.pos sb.ldSmall e r c l
  obtain ⟨w', g1', -, g3'⟩ := dtrmm_nested ha sa.ldSmall hb₁ sb.pos sb.ldSmall e' r' c' l'
  refine ⟨w, w', g1, g1', ?_⟩
  rw [g3, g3']; exact u

/-- A case: `[1 3; 0 4]·[5; 7]` with `B` negated. -/
theorem C100_dtrmm_example (pr : Profile) :
    ((dtrmm (F := Float) 'L' 'U' 'N' 'N' 2 1 2 (⟨[1, Scalar.nan, 3, 4], 2, 2, 0⟩ : FA Float) 2 (⟨[5, 7], 2, 1, 0⟩ : FA Float) 2 pr).val?.map fun r => r.2.data.zipWith (· == ·) [52, 56]) = some [true, true] ∧
    ((dtrmm (F := Float) 'L' 'U' 'N' 'N' 2 1 2 (⟨[1, Scalar.nan, 3, 4], 2, 2, 0⟩ : FA Float) 2 (⟨[-5, -7], 2, 1, 0⟩ : FA Float) 2 pr).val?.map fun r => r.2.data.zipWith (· == ·) [-52, -56]) = some [true, true] := by
  cases pr <;> decide +kernel

end Verif
