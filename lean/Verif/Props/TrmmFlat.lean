import Verif.Props.Trmm

/-!
# `dtrmm` on flat vectors (C28)
-/

set_option linter.unusedSectionVars false

namespace Verif
open Scalar Spec

variable {F : Type} [Scalar F]

theorem forUp_keep {σ : Type} {P : σ → Prop} {f : σ → Int → R σ} {lo hi : Int}
    (step : ∀ i s, lo ≤ i → i ≤ hi → P s → ∃ s', f s i = pure s' ∧ P s')
    {s : σ} (h : P s) : ∃ s', forUp lo hi s f = pure s' ∧ P s' := by
  obtain ⟨s', e, h'⟩ := forUp_rel (τ := Unit) (fun s _ => P s) (fun _ _ => ())
    (fun i h1 h2 s _ hs => step i s h1 h2 hs) (t := ()) h
  exact ⟨s', e, h'⟩

theorem forDown_keep {σ : Type} {P : σ → Prop} {f : σ → Int → R σ} {lo hi : Int}
    (step : ∀ i s, lo ≤ i → i ≤ hi → P s → ∃ s', f s i = pure s' ∧ P s')
    {s : σ} (h : P s) : ∃ s', forDown lo hi s f = pure s' ∧ P s' := by
  obtain ⟨s', e, h'⟩ := forDown_rel (τ := Unit) (fun s _ => P s) (fun _ _ => ())
    (fun i h1 h2 s _ hs => step i s h1 h2 hs) (t := ()) h
  exact ⟨s', e, h'⟩

/-- `c` has the shape of a vector of length `L` and agrees with `v` from position `m` on. -/
structure Tail (v : List F) (m : Nat) (c : FA F) : Prop where
  rows : c.rows = v.length
  length : c.data.length = v.length
  tail : ∀ p, m ≤ p → c.data[p]? = v[p]?

theorem off_flat {a : FA F} {L n : Nat} (hr : a.rows = L) (hs : L * n < 2 ^ 31)
    (hs31 : L < 2 ^ 31) (hn : n < 2 ^ 31)
    {i j : Int} (h1 : 1 ≤ i) (h2 : i ≤ L) (h3 : 1 ≤ j) (h4 : j ≤ n) :
    a.off i j = pure ((j - 1) * L + (i - 1)) := by
  have hm : (0 : Int) ≤ (j - 1) * L := Int.mul_nonneg (by omega) (by omega)
  have hb : (j - 1) * (L : Int) + L ≤ L * n := by nlinarith
  have hs' : (L : Int) * n < 2147483648 := by exact_mod_cast hs
  unfold FA.off
  rw [hr, isub_ok (by unfold FitsI32; omega), isub_ok (by unfold FitsI32; omega)]
  simp only [pure_bind]
  rw [imul_ok (by unfold FitsI32; omega)]
  simp only [pure_bind]
  exact iadd_ok (by unfold FitsI32; omega)

theorem get2_flat {a : FA F} {L n : Nat} (hr : a.rows = L) (hs : L * n < 2 ^ 31)
    (hs31 : L < 2 ^ 31) (hn : n < 2 ^ 31)
    {i j : Int} (h1 : 1 ≤ i) (h2 : i ≤ L) (h3 : 1 ≤ j) (h4 : j ≤ n) :
    ∃ x, a.get2 i j = pure x := by
  unfold FA.get2
  rw [off_flat hr hs hs31 hn h1 h2 h3 h4]
  exact ⟨_, rfl⟩

theorem modify2_flat {v : List F} {m n : Nat} {c : FA F} (hc : Tail v m c)
    (hs : v.length * n < 2 ^ 31) (hs31 : v.length < 2 ^ 31) (hn : n < 2 ^ 31) (hm : m ≤ v.length)
    {i j : Int} (h1 : 1 ≤ i) (h2 : i ≤ m) (h3 : 1 ≤ j) (h4 : j ≤ n) (f : F → F) :
    ∃ c', c.modify2 i j f = pure c' ∧ Tail v m c' := by
  unfold FA.modify2
  rw [off_flat hc.rows hs hs31 hn h1 (by omega) h3 h4, pure_bind]
  have hm : (0 : Int) ≤ (j - 1) * v.length := Int.mul_nonneg (by omega) (by omega)
  have hb : (j - 1) * (v.length : Int) + v.length ≤ v.length * n := by nlinarith
  have hs' : (v.length : Int) * n < 2147483648 := by exact_mod_cast hs
  rw [asUsize_nonneg (by omega) (by unfold FitsI32; omega)]
  generalize ho : ((j - 1) * (v.length : Int) + (i - 1)).toNat = o
  cases hd : c.data[o]? with
  | none => exact ⟨_, rfl, hc.rows, hc.length, hc.tail⟩
  | some x =>
    refine ⟨_, rfl, hc.rows, by simpa using hc.length, ?_⟩
    intro p hp
    have hlt : o < c.data.length := (List.getElem?_eq_some_iff.1 hd).1
    rw [hc.length] at hlt
    have hj : j = 1 := by
      by_contra hne
      have hj2 : 1 ≤ j - 1 := by omega
      have : (v.length : Int) ≤ (j - 1) * v.length := by nlinarith
      omega
    subst hj
    simp only
    rw [List.getElem?_set_ne (by omega), hc.tail p hp]

section
variable {v : List F} {m n : Nat} (hs : v.length * n < 2 ^ 31) (hs31 : v.length < 2 ^ 31)
  (hn : n < 2 ^ 31) (hm : m ≤ v.length)
include hs hs31 hn hm

theorem trmmAxpyB_flat (t : F) {j k : Int} (h1 : 1 ≤ j) (h2 : j ≤ n) (h3 : 1 ≤ k) (h4 : k ≤ n)
    {c : FA F} (hc : Tail v m c) : ∃ c', trmmAxpyB m t j k c = pure c' ∧ Tail v m c' := by
  refine forUp_keep (fun i c g1 g2 hc => ?_) hc
  obtain ⟨x, hx⟩ := get2_flat hc.rows hs hs31 hn (i := i) (j := k) g1 (by omega) h3 h4
  rw [hx]
  exact modify2_flat hc hs hs31 hn hm g1 g2 h1 h2 _

theorem trmmScale_flat (t : F) {j : Int} (h1 : 1 ≤ j) (h2 : j ≤ n)
    {c : FA F} (hc : Tail v m c) : ∃ c', trmmScale m t j c = pure c' ∧ Tail v m c' :=
  forUp_keep (fun _ _ g1 g2 hc => modify2_flat hc hs hs31 hn hm g1 g2 h1 h2 _) hc

theorem trmmAxpyA_flat {a : FA F} {La s : Nat} (hra : a.rows = La) (hsa : La * s < 2 ^ 31)
    (hLa : La < 2 ^ 31) (hsL : s ≤ La) (hms : m ≤ s) (t : F) {lo hi k j : Int} (hlo : 1 ≤ lo)
    (hhi : hi ≤ m) (h1 : 1 ≤ j) (h2 : j ≤ n) (h3 : 1 ≤ k) (h4 : k ≤ s)
    {c : FA F} (hc : Tail v m c) : ∃ c', trmmAxpyA lo hi t a k j c = pure c' ∧ Tail v m c' := by
  refine forUp_keep (fun i c g1 g2 hc => ?_) hc
  obtain ⟨x, hx⟩ := get2_flat hra hsa hLa (by omega) (i := i) (j := k) (by omega) (by omega) h3 h4
  rw [hx]
  exact modify2_flat hc hs hs31 hn hm (by omega) (by omega) h1 h2 _

theorem dtrmmCore_flat {a : FA F} {La s : Nat} (hra : a.rows = La) (hsa : La * s < 2 ^ 31)
    (hLa : La < 2 ^ 31) (hsL : s ≤ La) (lside upper notrans nounit : Bool)
    (hse : s = if lside then m else n) (alpha : F) {c : FA F} (hc : Tail v m c) :
    ∃ c', dtrmmCore lside upper notrans nounit m n alpha a c = pure c' ∧ Tail v m c' := by
  have hA : ∀ i j : Int, 1 ≤ i → i ≤ s → 1 ≤ j → j ≤ s → ∃ x, a.get2 i j = pure x := fun i j h1 h2 h3 h4 =>
    get2_flat hra hsa hLa (by omega) h1 (by omega) h3 h4
  have hrn : lside = false → ∀ (lo hi : Int), 1 ≤ lo → hi ≤ n → ∀ (b : FA F) (j : Int), 1 ≤ j → j ≤ n →
      Tail v m b → ∃ b', trmmRNStep nounit m lo hi alpha a b j = pure b' ∧ Tail v m b' := by
    rintro rfl lo hi hlo hhi b j h1 h2 hb
    simp only [Bool.false_eq_true, if_false] at hse
    subst hse
    have hl : ∀ t : F, ∃ b', (trmmScale m t j b >>= fun b => forUp lo hi b fun b k => do
        let akj ← a.get2 k j
        if akj ≠ᶠ zero then trmmAxpyB m (alpha * akj) j k b else pure b) = pure b' ∧ Tail v m b' := by
      intro t
      obtain ⟨b1, e1, g1⟩ := trmmScale_flat hs hs31 hn hm t h1 h2 hb
      rw [e1, pure_bind]
      refine forUp_keep (fun k b k1 k2 hb => ?_) g1
      obtain ⟨x, hx⟩ := hA k j (by omega) (by omega) h1 h2
      rw [hx, pure_bind]
      split
      · exact trmmAxpyB_flat hs hs31 hn hm _ h1 h2 (by omega) (by omega) hb
      · exact ⟨b, rfl, hb⟩
    obtain ⟨x, hx⟩ := hA j j h1 h2 h1 h2
    unfold trmmRNStep
    rw [hx]
    cases nounit
    · simpa only [Bool.false_eq_true, if_false, pure_bind] using hl _
    · simpa only [if_true, pure_bind] using hl _
  have hrt : lside = false → ∀ (lo hi : Int), 1 ≤ lo → hi ≤ n → ∀ (b : FA F) (j : Int), 1 ≤ j → j ≤ n →
      Tail v m b → ∃ b', trmmRTStep nounit m lo hi alpha a b j = pure b' ∧ Tail v m b' := by
    rintro rfl lo hi hlo hhi b k h1 h2 hb
    simp only [Bool.false_eq_true, if_false] at hse
    subst hse
    obtain ⟨b1, e1, g1⟩ : ∃ b', (forUp lo hi b fun b j => do
        let ajk ← a.get2 j k
        if ajk ≠ᶠ zero then trmmAxpyB m (alpha * ajk) j k b else pure b) = pure b' ∧ Tail v m b' := by
      refine forUp_keep (fun j b k1 k2 hb => ?_) hb
      obtain ⟨x, hx⟩ := hA j k (by omega) (by omega) h1 h2
      rw [hx, pure_bind]
      split
      · exact trmmAxpyB_flat hs hs31 hn hm _ (by omega) (by omega) h1 h2 hb
      · exact ⟨b, rfl, hb⟩
    have hl : ∀ t : F, ∃ b', (if t ≠ᶠ one then trmmScale m t k b1 else pure b1) = pure b' ∧
        Tail v m b' := by
      intro t
      split
      · exact trmmScale_flat hs hs31 hn hm t h1 h2 g1
      · exact ⟨b1, rfl, g1⟩
    obtain ⟨x, hx⟩ := hA k k h1 h2 h1 h2
    unfold trmmRTStep
    rw [e1, pure_bind, hx]
    cases nounit
    · simpa only [Bool.false_eq_true, if_false, pure_bind] using hl _
    · simpa only [if_true, pure_bind] using hl _
  have hlt : lside = true → ∀ (lo hi : Int), 1 ≤ lo → hi ≤ m → ∀ (b : FA F) (i j : Int), 1 ≤ j → j ≤ n →
      1 ≤ i → i ≤ m → Tail v m b → ∃ b', trmmLTStep nounit lo hi alpha a j b i = pure b' ∧
      Tail v m b' := by
    rintro rfl lo hi hlo hhi b i j h1 h2 h3 h4 hb
    simp only [if_true] at hse
    subst hse
    have hl : ∀ t : F, ∃ b', (forUp lo hi t (fun temp k => do
        let aki ← a.get2 k i
        let bkj ← b.get2 k j
        pure (temp + aki * bkj)) >>= fun temp => b.set2 i j (alpha * temp)) = pure b' ∧ Tail v s b' := by
      intro t
      obtain ⟨t', e1, -⟩ := forUp_keep (P := fun _ : F => True) (lo := lo) (hi := hi)
        (f := fun temp k => do
          let aki ← a.get2 k i
          let bkj ← b.get2 k j
          pure (temp + aki * bkj)) (fun k t k1 k2 _ => by
          obtain ⟨x, hx⟩ := hA k i (by omega) (by omega) h3 h4
          obtain ⟨y, hy⟩ := get2_flat hb.rows hs hs31 hn (i := k) (j := j) (by omega) (by omega) h1 h2
          rw [hx, hy]
          exact ⟨_, rfl, trivial⟩) (s := t) trivial
      rw [e1, pure_bind]
      exact modify2_flat hb hs hs31 hn hm h3 h4 h1 h2 _
    obtain ⟨y, hy⟩ := get2_flat hb.rows hs hs31 hn (i := i) (j := j) h3 (by omega) h1 h2
    obtain ⟨x, hx⟩ := hA i i h3 h4 h3 h4
    unfold trmmLTStep
    rw [hy, pure_bind, hx]
    cases nounit
    · simpa only [Bool.false_eq_true, if_false, pure_bind] using hl _
    · simpa only [if_true, pure_bind] using hl _
  have hlu : lside = true → ∀ (b : FA F) (k j : Int), 1 ≤ j → j ≤ n → 1 ≤ k → k ≤ m → Tail v m b →
      ∃ b', trmmLUNStep nounit alpha a j b k = pure b' ∧ Tail v m b' := by
    rintro rfl b k j h1 h2 h3 h4 hb
    simp only [if_true] at hse
    subst hse
    obtain ⟨y, hy⟩ := get2_flat hb.rows hs hs31 hn (i := k) (j := j) h3 (by omega) h1 h2
    obtain ⟨x, hx⟩ := hA k k h3 h4 h3 h4
    unfold trmmLUNStep
    rw [hy, pure_bind]
    split
    · obtain ⟨b1, e1, g1⟩ := trmmAxpyA_flat hs hs31 hn hm hra hsa hLa hsL (le_refl _) (alpha * y)
        (le_refl 1) (show k - 1 ≤ (s : Int) by omega) h1 h2 h3 h4 hb
      simp only
      rw [e1, pure_bind, hx]
      cases nounit
      · simp only [Bool.false_eq_true, if_false]
        exact modify2_flat g1 hs hs31 hn hm h3 h4 h1 h2 _
      · simp only [if_true, pure_bind]
        exact modify2_flat g1 hs hs31 hn hm h3 h4 h1 h2 _
    · exact ⟨b, rfl, hb⟩
  have hll : lside = true → ∀ (b : FA F) (k j : Int), 1 ≤ j → j ≤ n → 1 ≤ k → k ≤ m → Tail v m b →
      ∃ b', trmmLLNStep nounit m alpha a j b k = pure b' ∧ Tail v m b' := by
    rintro rfl b k j h1 h2 h3 h4 hb
    simp only [if_true] at hse
    subst hse
    obtain ⟨y, hy⟩ := get2_flat hb.rows hs hs31 hn (i := k) (j := j) h3 (by omega) h1 h2
    obtain ⟨x, hx⟩ := hA k k h3 h4 h3 h4
    unfold trmmLLNStep
    rw [hy, pure_bind]
    split
    · obtain ⟨b1, e1, g1⟩ := modify2_flat hb hs hs31 hn hm h3 h4 h1 h2 (fun _ => alpha * y)
      have e1' : b.set2 k j (alpha * y) = pure b1 := e1
      simp only
      rw [e1', pure_bind, hx]
      cases nounit
      · simp only [Bool.false_eq_true, if_false]
        exact trmmAxpyA_flat hs hs31 hn hm hra hsa hLa hsL (le_refl _) (alpha * y)
          (show 1 ≤ k + 1 by omega) (le_refl _) h1 h2 h3 h4 g1
      · simp only [if_true, pure_bind]
        obtain ⟨b2, e2, g2⟩ := modify2_flat g1 hs hs31 hn hm h3 h4 h1 h2 (· * x)
        rw [e2, pure_bind]
        exact trmmAxpyA_flat hs hs31 hn hm hra hsa hLa hsL (le_refl _) (alpha * y)
          (show 1 ≤ k + 1 by omega) (le_refl _) h1 h2 h3 h4 g2
    · exact ⟨b, rfl, hb⟩
  unfold dtrmmCore
  cases lside
  · simp only [Bool.false_eq_true, if_false]
    split <;> split
    · exact forDown_keep (fun j b h1 h2 hb => hrn rfl _ _ (le_refl _) (by omega) b j h1 h2 hb) hc
    · exact forUp_keep (fun j b h1 h2 hb => hrn rfl _ _ (by omega) (le_refl _) b j h1 h2 hb) hc
    · exact forUp_keep (fun j b h1 h2 hb => hrt rfl _ _ (le_refl _) (by omega) b j h1 h2 hb) hc
    · exact forDown_keep (fun j b h1 h2 hb => hrt rfl _ _ (by omega) (le_refl _) b j h1 h2 hb) hc
  · simp only [if_true]
    split <;> split
    · exact forUp_keep (fun j b h1 h2 hb =>
        forUp_keep (fun k b h3 h4 hb => hlu rfl b k j h1 h2 h3 h4 hb) hb) hc
    · exact forUp_keep (fun j b h1 h2 hb =>
        forDown_keep (fun k b h3 h4 hb => hll rfl b k j h1 h2 h3 h4 hb) hb) hc
    · exact forUp_keep (fun j b h1 h2 hb => forDown_keep (fun i b h3 h4 hb =>
        hlt rfl _ _ (le_refl _) (by omega) b i j h1 h2 h3 h4 hb) hb) hc
    · exact forUp_keep (fun j b h1 h2 hb => forUp_keep (fun i b h3 h4 hb =>
        hlt rfl _ _ (by omega) (le_refl _) b i j h1 h2 h3 h4 hb) hb) hc
end

/-- **C28, exact behaviour for all arguments.** On flat vectors `dtrmm` returns normally, returns `A`
unchanged and never changes an element of `B` at position `m` or later: whatever the leading
dimension, at most the first `m` elements, the first column, are written.  (Sizes such that the
computed offsets are `i32` values.) -/
theorem C28_flat_tail {side uplo transa diag : Char} (h1 : SideFlag side) (h2 : UploFlag uplo)
    (h3 : TransFlag transa) (h4 : DiagFlag diag) {m n : Nat} {lda ldb : Int}
    (hla : max 1 (if isLeft side then (m : Int) else n) ≤ lda) (hlb : max 1 (m : Int) ≤ ldb)
    (alpha : F) (a b : List F) (la : a.length < 2 ^ 31) (lb : b.length < 2 ^ 31)
    (hn : n < 2 ^ 31) (sa : triOrder side m n ≤ a.length) (sb : m ≤ b.length)
    (oa : a.length * triOrder side m n < 2 ^ 31) (ob : b.length * n < 2 ^ 31) :
    ∃ b' : List F, dtrmm side uplo transa diag m n alpha a lda b ldb = pure (a, b') ∧
      b'.length = b.length ∧ ∀ p, m ≤ p → b'[p]? = b[p]? := by
  by_cases hq : m = 0 ∨ n = 0
  · exact ⟨b, C27_empty h1 h2 h3 h4 hla hlb hq alpha a b, rfl, fun _ _ => rfl⟩
  · have rb : (faOfVec b).rows = b.length := wrap32_of_fits (by unfold FitsI32; omega)
    have ra : (faOfVec a).rows = a.length := wrap32_of_fits (by unfold FitsI32; omega)
    have t0 : Tail b m (faOfVec b) := ⟨rb, rfl, fun _ _ => rfl⟩
    unfold dtrmm
    show ∃ b', (dtrmmFA side uplo transa diag m n alpha (faOfVec a) lda (faOfVec b) ldb >>= _) = _ ∧ _
    unfold dtrmmFA
    rw [dtrmmInfo_zero h1 h2 h3 h4 hla hlb, if_neg (by simp), if_neg (by omega)]
    cases h0 : (alpha =ᶠ zero) with
    | true =>
      rw [if_pos rfl]
      obtain ⟨c, e, t⟩ := forUp_keep (P := Tail b m) (lo := 1) (hi := n) (f := zeroCol (m : Int))
        (fun j c g1 g2 hc => forUp_keep (fun i c k1 k2 hc =>
          modify2_flat hc ob lb hn sb k1 k2 g1 g2 (fun _ => zero)) hc) t0
      exact ⟨c.data, by rw [e]; rfl, t.length, t.tail⟩
    | false =>
      rw [if_neg (by simp), (lsame_L h1).1, (lsame_U h2).1, lsame_N h3, (lsame_D h4).1]
      obtain ⟨c, e, t⟩ := dtrmmCore_flat ob lb hn sb ra oa la sa (isLeft side) (isUpper uplo)
        (noTrans transa) (!isUnit diag) rfl alpha t0
      exact ⟨c.data, by rw [e]; rfl, t.length, t.tail⟩

/-- **C28, the difference from the reference.** Honouring the leading dimension would make `alpha = 0` clear the whole `m`-by-`n` block; for every
flat matrix with `n ≥ 2` columns, the entry `(0, 1)` keeps its old value. -/
theorem C28_flat_wrong {side uplo transa diag : Char} (h1 : SideFlag side) (h2 : UploFlag uplo)
    (h3 : TransFlag transa) (h4 : DiagFlag diag) {m n : Nat} (hm : 0 < m) (hn2 : 2 ≤ n)
    (lda ldb : Nat) (hla : triOrder side m n ≤ lda)
    (alpha : F) (h0 : (alpha =ᶠ zero) = true) (a b : List F) (x : F)
    (sa : Stored a lda (triOrder side m n) (triOrder side m n)) (sb : Stored b ldb m n)
    (hn : n < 2 ^ 31) (oa : a.length * triOrder side m n < 2 ^ 31) (ob : b.length * n < 2 ^ 31)
    (hx : entry b ldb 0 1 = x) (hx0 : x ≠ zero) :
    ∃ b' : List F, dtrmm side uplo transa diag m n alpha a lda b ldb = pure (a, b') ∧
      ¬ Updated ldb m n b b' (fun _ _ => zero) := by
  have hr := sb.rows
  have hp := sb.pos
  have f1 := sb.fits (m - 1) (by omega) 0 (by omega)
  have f2 := sb.fits 0 hm 1 (by omega)
  have hs1 : 0 < triOrder side m n := by unfold triOrder; split <;> omega
  have ga := sa.fits (triOrder side m n - 1) (Nat.sub_lt hs1 Nat.one_pos) 0 hs1
  have ga' : triOrder side m n ≤ a.length := by
    generalize triOrder side m n = s at *; omega
  have pa := sa.pos
  have hla' : max 1 (if isLeft side then (m : Int) else n) ≤ lda := by
    unfold triOrder at hla
    cases h : isLeft side <;> simp [h] at hla ⊢ <;> omega
  obtain ⟨b', e, l, t⟩ := C28_flat_tail (ldb := ldb) h1 h2 h3 h4 hla' (by omega) alpha a b sa.small
    sb.small hn
    ga' (by omega) oa ob
  refine ⟨b', e, fun u => hx0 ?_⟩
  have h := u.block 0 hm 1 (by omega)
  rw [t _ (by omega)] at h
  rw [← hx]
  unfold entry
  rw [List.getD_eq_getElem?_getD, h]; rfl

/-- The hypotheses are met by a 2-by-2 matrix with leading dimension 2. -/
example (x y : F) : Stored [x, x, y, x] 2 (triOrder 'L' 2 2) (triOrder 'L' 2 2) ∧
    Stored [x, x, y, x] 2 2 2 ∧ entry [x, x, y, x] 2 0 1 = y ∧
    [x, x, y, x].length * triOrder 'L' 2 2 < 2 ^ 31 := by
  have h : ∀ i < 2, ∀ j < 2, i + j * 2 < [x, x, y, x].length := by intro i hi j hj; simp; omega
  exact ⟨⟨by decide, by decide, by decide, by simp, h⟩, ⟨by decide, by decide, by decide, by simp, h⟩,
    rfl, by simp [triOrder, isLeft]⟩

end Verif
