import Verif.Props.TrmmSign
import Verif.Props.Laqr1Sign

/-!
# C105: `dtrmm` from the left and from the right on binary64

Specification: `Spec.FlipEq false v w` says that `v` and `w` are equal as numbers (a zero may have either sign) or both `NaN`.
-/

namespace Verif
open Float.Model F64 Scalar Spec

namespace F64

/-- Equal up to the sign of a zero. -/
abbrev Eqz (x y : Float) : Prop := Rel false x y

theorem Eqz.refl (x : Float) : Eqz x x := Rel.of_flip false x
theorem Eqz.symm {x y : Float} (h : Eqz x y) : Eqz y x := by
  have := (Opp.symm' h).neg'
  rwa [show Spec.flip (!false) x = -x from rfl, neg_neg'] at this
theorem Eqz.trans {x y z : Float} (h : Eqz x y) (h' : Eqz y z) : Eqz x z := by
  have h1 : Opp x (-y) := by
    have := Opp.neg' h
    rwa [show Spec.flip (!false) x = -x from rfl, neg_neg'] at this
  exact h1.trans' h'
theorem Eqz.of_eq {x y : Float} (h : x = y) : Eqz x y := h ▸ Eqz.refl x
theorem Eqz.zero {x y : Float} (hx : x.isFinite = true) (zx : toR x = 0) (hy : y.isFinite = true) (zy : toR y = 0) : Eqz x y :=
  Opp.zero (by rw [show Spec.flip (!false) x = -x from rfl, neg_toR, zx, neg_zero]) (by rw [show Spec.flip (!false) x = -x from rfl, neg_finite]; exact hx) zy hy

theorem mul_zero_of {x y : Float} (hx : x.isFinite = true) (hy : y.isFinite = true) (h : toR x = 0 ∨ toR y = 0) : (x * y).isFinite = true ∧ toR (x * y) = 0 := by
  have e : toR x * toR y = 0 := by rcases h with h | h <;> rw [h] <;> simp
  have r := mul_rounds x y hx hy
  rw [e] at r
  exact r.exact (by rw [abs_zero]; exact zero_lt_one.trans one_lt_ovf) (by simpa using grid_nat (n := 0) (by norm_num))

/-- Adding a zero changes at most the sign of a zero. -/
theorem Eqz.add_zero {x p : Float} (hp : p.isFinite = true) (h0 : toR p = 0) : Eqz x (x + p) := by
  by_cases hx : x.isFinite = true
  · have r := add_rounds x p hx hp
    rw [h0, _root_.add_zero] at r
    obtain ⟨f, v⟩ := r.exact (abs_toR_lt x) (grid_toR x)
    by_cases hz : toR x = 0
    · exact Eqz.zero hx hz f (v.trans hz)
    · exact Eqz.of_eq (toR_inj v.symm hx f hz)
  · obtain ⟨s, hs⟩ := toR_eq_zero hp h0
    refine Eqz.of_eq (up_inj ?_)
    rw [up_add, hs]
    rw [isFinite_up] at hx
    cases hu : up x with
    | notANumber => simp only [UnpackedFloat.add, fix_nan]
    | infinity t => simp only [UnpackedFloat.add, fix_inf]
    | zero t => rw [hu] at hx; exact absurd rfl hx
    | finite t m e h => rw [hu] at hx; exact absurd rfl hx

end F64

/-- The reference value of one entry with `alpha = 1`: the diagonal term, then the other terms in the order of `l`. -/
def triDot (nounit : Bool) (c : Int → Float) (b : Int → Float) (l : List Int) (i : Int) : Float :=
  l.foldl (fun acc k => acc + c k * b k) (diagMul nounit (b i) (c i))

theorem eqz_foldl {step step' : Float → Int → Float} (l : List Int) {a b : Float} (h0 : Eqz a b)
    (h : ∀ k ∈ l, ∀ x y, Eqz x y → Eqz (step x k) (step' y k)) : Eqz (l.foldl step a) (l.foldl step' b) := by
  induction l generalizing a b with
  | nil => exact h0
  | cons k l ih => exact ih (h k (by simp) _ _ h0) fun k' hk' => h k' (by simp [hk'])

theorem zero_ne {x : Float} (h : ¬ (x ≠ᶠ (zero : Float)) = true) : x.isFinite = true ∧ toR x = 0 := by
  have e := eq_toR toR_zero.1 (by simpa using h : (x =ᶠ (zero : Float)) = true)
  exact ⟨e.1, e.2.trans toR_zero.2⟩

section
variable {nounit : Bool} {ga : Int → Int → Float} {b c : Int → Float} {i : Int} {l : List Int}

theorem ln_triDot (hd : nounit = true → (ga i i).isFinite = true) (hc : ∀ k ∈ l, (ga i k).isFinite = true) :
    Eqz (l.foldl (lnStep 1 ga b i) (lnStart nounit 1 ga b i)) (triDot nounit (ga i) b l i) := by
  refine eqz_foldl l ?_ fun k hk x y hxy => ?_
  · unfold lnStart
    by_cases h : (b i ≠ᶠ (zero : Float)) = true
    · rw [if_pos h, one_mul']
      exact Eqz.refl _
    · rw [if_neg h]
      obtain ⟨z1, z2⟩ := zero_ne h
      unfold diagMul
      split
      · have := mul_zero_of z1 (hd ‹_›) (Or.inl z2)
        exact Eqz.zero z1 z2 this.1 this.2
      · exact Eqz.refl _
  · unfold lnStep
    by_cases h : (b k ≠ᶠ (zero : Float)) = true
    · rw [if_pos h, one_mul', mul_comm']
      exact hxy.add (Eqz.refl _)
    · rw [if_neg h]
      obtain ⟨z1, z2⟩ := zero_ne h
      have := mul_zero_of (hc k hk) z1 (Or.inr z2)
      exact hxy.trans (Eqz.add_zero this.1 this.2)

theorem r_triDot (hb : ∀ k ∈ l, (b k).isFinite = true) :
    Eqz (l.foldl (fun acc k => rAcc 1 (c k) b acc k) (diagMul nounit 1 (c i) * b i)) (triDot nounit c b l i) := by
  refine eqz_foldl l ?_ fun k hk x y hxy => ?_
  · unfold diagMul
    split
    · rw [one_mul', mul_comm']; exact Eqz.refl _
    · rw [one_mul']; exact Eqz.refl _
  · unfold rAcc
    by_cases h : (c k ≠ᶠ (zero : Float)) = true
    · rw [if_pos h, one_mul']
      exact hxy.add (Eqz.refl _)
    · rw [if_neg h]
      obtain ⟨z1, z2⟩ := zero_ne h
      have := mul_zero_of z1 (hb k hk) (Or.inl z2)
      exact hxy.trans (Eqz.add_zero this.1 this.2)

end

/-- One entry of the product from the left, and of the transposed product from the right. -/
theorem trmmVal_sides {upper notrans nounit : Bool} {ga gb gt : Int → Int → Float} {m n : Nat}
    (fd : nounit = true → ∀ i : Int, 1 ≤ i → i ≤ m → (ga i i).isFinite = true)
    (fa : ∀ i j : Int, 1 ≤ i → i ≤ m → 1 ≤ j → j ≤ m → (if upper then i < j else j < i) → (ga i j).isFinite = true)
    (fb : ∀ i j : Int, 1 ≤ i → i ≤ m → 1 ≤ j → j ≤ n → (gb i j).isFinite = true)
    (ht : ∀ i j : Int, 1 ≤ i → i ≤ m → 1 ≤ j → j ≤ n → gt j i = gb i j)
    {i j : Int} (hi1 : 1 ≤ i) (hi2 : i ≤ m) (hj1 : 1 ≤ j) (hj2 : j ≤ n) :
    Eqz (trmmVal true upper notrans nounit m n 1 ga gb i j) (trmmVal false upper (!notrans) nounit n m 1 ga gt j i) := by
  have fold_gt : ∀ (c : Int → Float) (l : List Int), (∀ k ∈ l, 1 ≤ k ∧ k ≤ m) → triDot nounit c (gt j) l i = triDot nounit c (fun k => gb k j) l i := by
    intro c l hl
    unfold triDot
    rw [ht i j hi1 hi2 hj1 hj2]
    refine List.foldl_ext _ _ _ fun acc k hk => ?_
    rw [ht k j (hl k hk).1 (hl k hk).2 hj1 hj2]
  have ftl : ∀ (l : List Int), (∀ k ∈ l, 1 ≤ k ∧ k ≤ m) → ∀ k ∈ l, (gt j k).isFinite = true := by
    intro l hl k hk
    rw [ht k j (hl k hk).1 (hl k hk).2 hj1 hj2]
    exact fb k j (hl k hk).1 (hl k hk).2 hj1 hj2
  cases notrans
  · cases upper
    · have hl : ∀ k ∈ irange (i + 1) m, 1 ≤ k ∧ k ≤ (m : Int) := fun k hk => by rw [mem_irange] at hk; omega
      have e : trmmVal true false false nounit m n 1 ga gb i j = triDot nounit (fun k => ga k i) (fun k => gb k j) (irange (i + 1) m) i := one_mul' _
      rw [e, ← fold_gt _ _ hl]
      exact (r_triDot (ftl _ hl)).symm
    · have hl : ∀ k ∈ irange 1 (i - 1), 1 ≤ k ∧ k ≤ (m : Int) := fun k hk => by rw [mem_irange] at hk; omega
      have e : trmmVal true true false nounit m n 1 ga gb i j = triDot nounit (fun k => ga k i) (fun k => gb k j) (irange 1 (i - 1)) i := one_mul' _
      rw [e, ← fold_gt _ _ hl]
      exact (r_triDot (ftl _ hl)).symm
  · cases upper
    · have hl : ∀ k ∈ (irange 1 (i - 1)).reverse, 1 ≤ k ∧ k ≤ (m : Int) := fun k hk => by rw [List.mem_reverse, mem_irange] at hk; omega
      have e : trmmVal false false (!true) nounit n m 1 ga gt j i =
          (irange 1 (i - 1)).reverse.foldl (fun acc k => rAcc 1 (ga i k) (gt j) acc k) (diagMul nounit 1 (ga i i) * gt j i) := by
        rw [← rtStart_eq]; rfl
      rw [e]
      refine Eqz.trans (ln_triDot (fun h => fd h i hi1 hi2) fun k hk => fa i k hi1 hi2 (hl k hk).1 (hl k hk).2 ?_) ?_
      · rw [List.mem_reverse, mem_irange] at hk
        simp only [Bool.false_eq_true, if_false]
        omega
      · rw [← fold_gt _ _ hl]
        exact (r_triDot (ftl _ hl)).symm
    · have hl : ∀ k ∈ irange (i + 1) m, 1 ≤ k ∧ k ≤ (m : Int) := fun k hk => by rw [mem_irange] at hk; omega
      have e : trmmVal false true (!true) nounit n m 1 ga gt j i =
          (irange (i + 1) m).foldl (fun acc k => rAcc 1 (ga i k) (gt j) acc k) (diagMul nounit 1 (ga i i) * gt j i) := by
        rw [← rtStart_eq]; rfl
      rw [e]
      refine Eqz.trans (ln_triDot (fun h => fd h i hi1 hi2) fun k hk => fa i k hi1 hi2 (hl k hk).1 (hl k hk).2 ?_) ?_
      · rw [mem_irange] at hk
        simp only [if_true]
        omega
      · rw [← fold_gt _ _ hl]
        exact (r_triDot (ftl _ hl)).symm

/-- **C105.** With `alpha = 1` the product of `op(A)` from the left with `B`, and the product of `Bᵀ` with the other `op(A)` from the right, agree entry by entry
on binary64, overflow included; only a zero may come out with either sign.  The named triangle and `B` are finite. -/
theorem C105_dtrmm_sides {uplo ta tb diag : Char} (h2 : UploFlag uplo) (hta : TransFlag ta) (htb : TransFlag tb) (ht : noTrans tb = !noTrans ta) (h4 : DiagFlag diag)
    {m n : Nat} {lda ldb ldt : Int} (hla : max 1 (m : Int) ≤ lda) (hlb : max 1 (m : Int) ≤ ldb) (hlt : max 1 (n : Int) ≤ ldt)
    (a b bt : FA Float) (ra rb rt : Nat) (ha : a.rows = ra) (hb : b.rows = rb) (hbt : bt.rows = rt)
    (sa : Stored a.data ra m m) (sb : Stored b.data rb m n) (sbt : Stored bt.data rt n m)
    (fa : ∀ i < m, ∀ j < m, InTri uplo diag i j → (entry a.data ra i j).isFinite = true) (fb : ∀ i < m, ∀ j < n, (entry b.data rb i j).isFinite = true)
    (hT : ∀ i < m, ∀ j < n, entry bt.data rt j i = entry b.data rb i j) :
    ∃ b' bt' : FA Float, dtrmm 'L' uplo ta diag m n (1 : Float) a lda b ldb = pure (a, b') ∧ dtrmm 'R' uplo tb diag n m (1 : Float) a lda bt ldt = pure (a, bt') ∧
      ∀ i < m, ∀ j < n, ∃ v w, b'.data[i + j * rb]? = some v ∧ bt'.data[j + i * rt]? = some w ∧ FlipEq false v w := by
  have hL : SideFlag 'L' := by decide
  have hR : SideFlag 'R' := by decide
  have iL : isLeft 'L' = true := rfl
  have iR : isLeft 'R' = false := rfl
  have hla1 : max 1 (if isLeft 'L' then (m : Int) else n) ≤ lda := by rw [iL, if_pos rfl]; exact hla
  have hla2 : max 1 (if isLeft 'R' then (n : Int) else m) ≤ lda := by rw [iR, if_neg (by simp)]; exact hla
  by_cases hq : m = 0 ∨ n = 0
  · refine ⟨b, bt, C27_empty hL h2 hta h4 hla1 hlb hq _ a b, C27_empty hR h2 htb h4 hla2 hlt hq.symm _ a bt, ?_⟩
    intro i hi j hj; omega
  · have h0 : ((1 : Float) =ᶠ (zero : Float)) = false := by decide +kernel
    obtain ⟨b', e, r, c, u⟩ := dtrmmFA_ok hL h2 hta h4 hla1 hlb (by omega) (by omega) (1 : Float) h0 a b ra rb ha hb (by unfold triOrder; rw [iL]; exact sa) sb
    obtain ⟨bt', e', r', c', u'⟩ := dtrmmFA_ok hR h2 htb h4 hla2 hlt (by omega) (by omega) (1 : Float) h0 a bt ra rt ha hbt (by unfold triOrder; rw [iR]; exact sa) sbt
    refine ⟨b', bt', ?_, ?_, fun i hi j hj => ⟨_, _, u.block i hi j hj, u'.block j hj i hi, Rel.spec ?_⟩⟩
    · unfold dtrmm
      show (dtrmmFA 'L' uplo ta diag m n (1 : Float) a lda b ldb >>= _) = _
      rw [e]; rfl
    · unfold dtrmm
      show (dtrmmFA 'R' uplo tb diag n m (1 : Float) a lda bt ldt >>= _) = _
      rw [e']; rfl
    · rw [ht, iL, iR]
      refine trmmVal_sides ?_ ?_ ?_ ?_ (by omega) (by omega) (by omega) (by omega)
      · intro hu i g1 g2
        rw [entry_eq_ofList2 _ _ g1 g1]
        refine fa _ (by omega) _ (by omega) ⟨by split <;> exact le_rfl, fun h => ?_⟩
        rw [h] at hu; exact absurd hu (by simp)
      · intro i j g1 g2 g3 g4 g5
        rw [entry_eq_ofList2 _ _ g1 g3]
        refine fa _ (by omega) _ (by omega) ⟨?_, fun _ => ?_⟩
        · cases hU : isUpper uplo <;> rw [hU] at g5 <;> simp only [Bool.false_eq_true, if_false, if_true] at g5 ⊢ <;> omega
        · cases hU : isUpper uplo <;> rw [hU] at g5 <;> simp only [Bool.false_eq_true, if_false, if_true] at g5 <;> omega
      · intro i j g1 g2 g3 g4
        rw [entry_eq_ofList2 _ _ g1 g3]
        exact fb _ (by omega) _ (by omega)
      · intro i j g1 g2 g3 g4
        rw [entry_eq_ofList2 _ _ g1 g3, entry_eq_ofList2 _ _ g3 g1]
        exact hT _ (by omega) _ (by omega)

/-- A case: the upper triangle of `[0.1 0.3; · 0.7]` times `(1.1, 1.3)ᵀ`, and `(1.1, 1.3)` times its transpose. -/
theorem C105_example (pr : Profile) :
    ((dtrmm (F := Float) 'L' 'U' 'N' 'N' 2 1 1 (⟨[0.1, Scalar.nan, 0.3, 0.7], 2, 2, 0⟩ : FA Float) 2 (⟨[1.1, 1.3], 2, 1, 0⟩ : FA Float) 2 pr).val?.map fun r => r.2.data) =
      (dtrmm (F := Float) 'R' 'U' 'T' 'N' 1 2 1 (⟨[0.1, Scalar.nan, 0.3, 0.7], 2, 2, 0⟩ : FA Float) 2 (⟨[1.1, 1.3], 1, 2, 0⟩ : FA Float) 1 pr).val?.map fun r => r.2.data := by
  cases pr <;> decide +kernel

/-- With another `alpha` the two products round differently. -/
theorem C105_alpha (pr : Profile) :
    ((dtrmm (F := Float) 'L' 'U' 'N' 'N' 2 1 0.3 (⟨[0.1, Scalar.nan, 0.3, 0.7], 2, 2, 0⟩ : FA Float) 2 (⟨[1.1, 1.3], 2, 1, 0⟩ : FA Float) 2 pr).val?.map fun r => r.2.data) ≠
      (dtrmm (F := Float) 'R' 'U' 'T' 'N' 1 2 0.3 (⟨[0.1, Scalar.nan, 0.3, 0.7], 2, 2, 0⟩ : FA Float) 2 (⟨[1.1, 1.3], 1, 2, 0⟩ : FA Float) 1 pr).val?.map fun r => r.2.data := by
  cases pr <;> decide +kernel

/-- With an infinite entry in the triangle they differ: from the left the term is left out because `B` is zero there, from the right `∞·0` gives `NaN`. -/
theorem C105_infinite (pr : Profile) :
    ((dtrmm (F := Float) 'L' 'U' 'N' 'N' 2 1 1 (⟨[1, 0, 1 / 0, 1], 2, 2, 0⟩ : FA Float) 2 (⟨[1, 0], 2, 1, 0⟩ : FA Float) 2 pr).val?.map fun r => r.2.data.map (·.isNaN)) = some [false, false] ∧
      ((dtrmm (F := Float) 'R' 'U' 'T' 'N' 1 2 1 (⟨[1, 0, 1 / 0, 1], 2, 2, 0⟩ : FA Float) 2 (⟨[1, 0], 1, 2, 0⟩ : FA Float) 1 pr).val?.map fun r => r.2.data.map (·.isNaN)) = some [true, false] := by
  cases pr <;> decide +kernel

end Verif
