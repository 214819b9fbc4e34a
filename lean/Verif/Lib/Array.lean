import Verif.Lib.Loops
import Verif.Model.Array

/-!
# Lemmas on element access

`tab L g` is the list `[g 1, .., g L]`; `tab2 ld L g` is the list of length `L` whose element at
linear offset `(j-1)*ld + (i-1)` is `g i j`.  `Is1 a L g` and `Is2 a ld cols L g` say that an array
holds such a list.
-/

set_option linter.unusedSectionVars false

namespace Verif
open Scalar

variable {F : Type} [Scalar F]

/-- Update of a function at one integer. -/
def upd (g : Int → F) (i : Int) (v : F) : Int → F := fun k => if k = i then v else g k

/-- Update of a matrix (as a function) at one entry. -/
def upd2 (g : Int → Int → F) (i j : Int) (v : F) : Int → Int → F :=
  fun i' j' => if i' = i ∧ j' = j then v else g i' j'

def tab (L : Nat) (g : Int → F) : List F := (List.range L).map fun (k : Nat) => g ((k : Int) + 1)

def tab2 (ld : Nat) (L : Nat) (g : Int → Int → F) : List F :=
  (List.range L).map fun (k : Nat) => g (((k % ld : Nat) : Int) + 1) (((k / ld : Nat) : Int) + 1)

omit [Scalar F] in
@[simp] theorem length_tab (L : Nat) (g : Int → F) : (tab L g).length = L := by simp [tab]
omit [Scalar F] in
@[simp] theorem length_tab2 (ld L : Nat) (g : Int → Int → F) : (tab2 ld L g).length = L := by
  simp [tab2]

omit [Scalar F] in
theorem tab_getElem? (L : Nat) (g : Int → F) (k : Nat) :
    (tab L g)[k]? = if k < L then some (g ((k : Int) + 1)) else none := by
  unfold tab
  by_cases h : k < L
  · simp [h]
  · simp [h]

omit [Scalar F] in
theorem tab2_getElem? (ld L : Nat) (g : Int → Int → F) (k : Nat) :
    (tab2 ld L g)[k]? =
      if k < L then some (g (((k % ld : Nat) : Int) + 1) (((k / ld : Nat) : Int) + 1)) else none := by
  unfold tab2
  by_cases h : k < L
  · simp [h]
  · simp [h]

omit [Scalar F] in
theorem tab_congr {L : Nat} {g g' : Int → F} (h : ∀ k : Int, 1 ≤ k → k ≤ L → g k = g' k) :
    tab L g = tab L g' := by
  apply List.map_congr_left
  intro k hk
  rw [List.mem_range] at hk
  exact h ((k : Int) + 1) (by omega) (by omega)

omit [Scalar F] in
theorem tab2_congr {ld L : Nat} (hld : 0 < ld) {g g' : Int → Int → F}
    (h : ∀ i j : Int, 1 ≤ i → i ≤ ld → 1 ≤ j → g i j = g' i j) : tab2 ld L g = tab2 ld L g' := by
  apply List.map_congr_left
  intro k hk
  have := Nat.mod_lt k hld
  have h2 : (0 : Int) ≤ ((k / ld : Nat) : Int) := Int.natCast_nonneg _
  exact h (((k % ld : Nat) : Int) + 1) (((k / ld : Nat) : Int) + 1) (by omega) (by omega) (by omega)

/-- The view of any list as a function. -/
def ofList (v : List F) (i : Int) : F := v.getD (i - 1).toNat minPositive

/-- The view of any list as a matrix. -/
def ofList2 (ld : Nat) (v : List F) (i j : Int) : F :=
  v.getD ((i - 1).toNat + (j - 1).toNat * ld) minPositive

theorem tab_ofList (v : List F) : tab v.length (ofList v) = v := by
  apply List.ext_getElem?
  intro k
  rw [tab_getElem?]
  by_cases h : k < v.length
  · simp [h, ofList]
  · simp [h]

theorem tab2_ofList2 {ld : Nat} (_hld : 0 < ld) (v : List F) :
    tab2 ld v.length (ofList2 ld v) = v := by
  apply List.ext_getElem?
  intro k
  rw [tab2_getElem?]
  by_cases h : k < v.length
  · have e : ((((k % ld : Nat) : Int) + 1 - 1).toNat + (((k / ld : Nat) : Int) + 1 - 1).toNat * ld) = k := by
      have := Nat.mod_add_div k ld
      rw [Nat.mul_comm] at this
      rw [Int.add_sub_cancel, Int.add_sub_cancel, Int.toNat_natCast, Int.toNat_natCast]
      exact this
    simp only [h, ofList2, e, if_true]
    simp [h]
  · simp [h]

/-- A 1-D view: the data of `a` is `[g 1, .., g L]`. -/
def Is1 (a : FA F) (L : Nat) (g : Int → F) : Prop := a.data = tab L g

theorem is1_ofList (a : FA F) : Is1 a a.data.length (ofList a.data) := (tab_ofList _).symm

theorem get1_is1 {a : FA F} {L : Nat} {g : Int → F} (h : Is1 a L g) {i : Int}
    (h1 : 1 ≤ i) (h2 : i ≤ L) (hf : FitsI32 i) : a.get1 i = g i := by
  unfold FA.get1
  rw [if_neg (by omega), h, tab_getElem?, asUsize_nonneg (by omega) hf, if_pos (by omega)]
  simp only
  congr 1; omega

theorem get1_is1_out {a : FA F} {L : Nat} {g : Int → F} (h : Is1 a L g) {i : Int}
    (h1 : ¬ (1 ≤ i ∧ i ≤ L)) (hf : FitsI32 i) (hL : L < 2 ^ 62) : a.get1 i = minPositive := by
  unfold FA.get1
  by_cases h0 : i = 0
  · rw [if_pos h0]
  · rw [if_neg h0, h, tab_getElem?]
    rw [if_neg]
    by_cases hn : i < 0
    · have := asUsize_neg hn hf
      have : (2 : Nat) ^ 62 + 2 ^ 62 = 2 ^ 63 := by norm_num
      have : (0 : Nat) < 2 ^ 62 := by positivity
      omega
    · rw [asUsize_nonneg (by omega) hf]; omega

theorem modify1_is1 {a : FA F} {L : Nat} {g : Int → F} (h : Is1 a L g) {i : Int}
    (h1 : 1 ≤ i) (hf : FitsI32 i) (f : F → F) :
    Is1 (a.modify1 i f) L (upd g i (f (g i))) ∧ (a.modify1 i f).rows = a.rows ∧
      (a.modify1 i f).cols = a.cols := by
  unfold FA.modify1 Is1
  rw [if_neg (by omega), h, tab_getElem?, asUsize_nonneg (by omega) hf]
  by_cases hb : i.toNat - 1 < L
  · rw [if_pos hb]
    refine ⟨?_, rfl, rfl⟩
    simp only
    apply List.ext_getElem?
    intro k
    rw [List.getElem?_set, tab_getElem?, tab_getElem?]
    by_cases hk : i.toNat - 1 = k
    · subst hk
      have e : ((i.toNat - 1 : Nat) : Int) + 1 = i := by omega
      rw [if_pos rfl, length_tab, if_pos hb, if_pos hb, e]
      simp [upd]
    · rw [if_neg hk]
      by_cases hk2 : k < L
      · have : (k : Int) + 1 ≠ i := by omega
        simp [hk2, upd, this]
      · simp [hk2]
  · rw [if_neg hb]
    refine ⟨?_, rfl, rfl⟩
    apply tab_congr
    intro k hk1 hk2
    rw [upd, if_neg (by omega)]

theorem set1_is1 {a : FA F} {L : Nat} {g : Int → F} (h : Is1 a L g) {i : Int}
    (h1 : 1 ≤ i) (hf : FitsI32 i) (v : F) : Is1 (a.set1 i v) L (upd g i v) :=
  (modify1_is1 h h1 hf (fun _ => v)).1

/-! ### 2-D -/

/-- A 2-D view: the array has `ld` rows and `cols` columns (fields), and `L` elements, the one at
linear offset `(j-1)*ld + (i-1)` being `g i j`. -/
structure Is2 (a : FA F) (ld : Nat) (cols : Int) (L : Nat) (g : Int → Int → F) : Prop where
  rows : a.rows = ld
  cols : a.cols = cols
  data : a.data = tab2 ld L g

theorem is2_ofList {a : FA F} {ld : Nat} (hr : a.rows = ld) (h0 : 0 < ld) :
    Is2 a ld a.cols a.data.length (ofList2 ld a.data) :=
  ⟨hr, rfl, (tab2_ofList2 h0 _).symm⟩

/-- `(i, j)` designates a stored element of an array with `ld` rows and `L` elements. -/
def Cell (ld : Nat) (L : Nat) (i j : Int) : Prop :=
  1 ≤ i ∧ i ≤ ld ∧ 1 ≤ j ∧ (j - 1) * ld + (i - 1) < L

theorem off_ok {a : FA F} {ld L : Nat} (hr : a.rows = ld) {i j : Int} (hc : Cell ld L i j)
    (hL : L < 2 ^ 31) : a.off i j = pure ((j - 1) * ld + (i - 1)) := by
  obtain ⟨h1, h2, h3, h4⟩ := hc
  have hm : (0 : Int) ≤ (j - 1) * ld := Int.mul_nonneg (by omega) (by omega)
  have hj : j - 1 ≤ (j - 1) * ld := by nlinarith
  have hL' : (L : Int) < 2147483648 := by exact_mod_cast hL
  unfold FA.off
  rw [isub_ok (by unfold FitsI32; omega), isub_ok (by unfold FitsI32; omega), hr]
  simp only [pure_bind]
  rw [imul_ok (by unfold FitsI32; omega)]
  simp only [pure_bind]
  rw [iadd_ok (by unfold FitsI32; omega)]

omit [Scalar F] in
theorem cell_idx {ld : Nat} {i j : Int} (h1 : 1 ≤ i) (h2 : i ≤ ld) (h3 : 1 ≤ j) :
    ∃ k : Nat, (j - 1) * ld + (i - 1) = k ∧ ((k % ld : Nat) : Int) + 1 = i
      ∧ ((k / ld : Nat) : Int) + 1 = j := by
  refine ⟨(j - 1).toNat * ld + (i - 1).toNat, ?_, ?_, ?_⟩
  · push_cast
    rw [Int.toNat_of_nonneg (by omega), Int.toNat_of_nonneg (by omega)]
  · rw [Nat.add_comm, Nat.add_mul_mod_self_right, Nat.mod_eq_of_lt (by omega)]; omega
  · rw [Nat.add_comm, Nat.add_mul_div_right _ _ (by omega), Nat.div_eq_of_lt (by omega)]; omega

theorem asUsize_natCast {k : Nat} (h : k < 2 ^ 63) : asUsize (k : Int) = k := by
  have : (2 : Nat) ^ 63 = 9223372036854775808 := by norm_num
  unfold asUsize; omega

theorem get2_is2 {a : FA F} {ld L : Nat} {cols : Int} {g : Int → Int → F} (h : Is2 a ld cols L g)
    {i j : Int} (hc : Cell ld L i j) (hL : L < 2 ^ 31) : a.get2 i j = pure (g i j) := by
  unfold FA.get2
  rw [off_ok h.rows hc hL]
  obtain ⟨k, hk, hi, hj⟩ := cell_idx hc.1 hc.2.1 hc.2.2.1
  have hkL : k < L := by have := hc.2.2.2; omega
  simp only [pure_bind]
  rw [hk, asUsize_natCast (by omega), h.data, tab2_getElem?, if_pos hkL, hi, hj]

theorem modify2_is2 {a : FA F} {ld L : Nat} {cols : Int} {g : Int → Int → F} (h : Is2 a ld cols L g)
    {i j : Int} (hc : Cell ld L i j) (hL : L < 2 ^ 31) (f : F → F) :
    ∃ a', a.modify2 i j f = pure a' ∧ Is2 a' ld cols L (upd2 g i j (f (g i j))) := by
  unfold FA.modify2
  rw [off_ok h.rows hc hL]
  obtain ⟨k, hk, hi, hj⟩ := cell_idx hc.1 hc.2.1 hc.2.2.1
  have hkL : k < L := by have := hc.2.2.2; omega
  simp only [pure_bind]
  rw [hk, asUsize_natCast (by omega), h.data, tab2_getElem?, if_pos hkL, hi, hj]
  refine ⟨_, rfl, h.rows, h.cols, ?_⟩
  simp only
  apply List.ext_getElem?
  intro l
  rw [List.getElem?_set, tab2_getElem?, tab2_getElem?]
  by_cases hkl : k = l
  · subst hkl
    rw [if_pos rfl, length_tab2, if_pos hkL, if_pos hkL, hi, hj]
    simp [upd2]
  · rw [if_neg hkl]
    by_cases hl : l < L
    · rw [if_pos hl, if_pos hl, upd2, if_neg]
      rintro ⟨e1, e2⟩
      apply hkl
      have h1 : k % ld = l % ld := by omega
      have h2 : k / ld = l / ld := by omega
      rw [← Nat.div_add_mod k ld, ← Nat.div_add_mod l ld, h1, h2]
    · rw [if_neg hl, if_neg hl]

theorem set2_is2 {a : FA F} {ld L : Nat} {cols : Int} {g : Int → Int → F} (h : Is2 a ld cols L g)
    {i j : Int} (hc : Cell ld L i j) (hL : L < 2 ^ 31) (v : F) :
    ∃ a', a.set2 i j v = pure a' ∧ Is2 a' ld cols L (upd2 g i j v) :=
  modify2_is2 h hc hL (fun _ => v)

omit [Scalar F] in
theorem Is2.congr {a : FA F} {ld L : Nat} (hld : 0 < ld) {cols : Int} {g g' : Int → Int → F}
    (h : Is2 a ld cols L g)
    (hg : ∀ i j : Int, 1 ≤ i → i ≤ ld → 1 ≤ j → g i j = g' i j) : Is2 a ld cols L g' :=
  ⟨h.rows, h.cols, h.data.trans (tab2_congr hld hg)⟩

/-- All entries of an `m`-by-`n` block are cells. -/
theorem cell_of_block {ld L m n : Nat} (hm : m ≤ ld) (hL : (n - 1) * ld + m ≤ L)
    {i j : Int} (h1 : 1 ≤ i) (h2 : i ≤ m) (h3 : 1 ≤ j) (h4 : j ≤ n) : Cell ld L i j := by
  refine ⟨h1, by omega, h3, ?_⟩
  have hn : (1 : Int) ≤ n := by omega
  have : ((n - 1 : Nat) : Int) = n - 1 := by omega
  have hL' : ((n : Int) - 1) * ld + m ≤ L := by rw [← this]; exact_mod_cast hL
  have : (j - 1) * (ld : Int) ≤ ((n : Int) - 1) * ld :=
    Int.mul_le_mul_of_nonneg_right (by omega) (by omega)
  omega

/-- `to_fa_2d` of a flat vector. -/
theorem toFa2d_list {v : List F} {ld : Nat} (h0 : 0 < ld) (hld : ld < 2 ^ 31) (hv : v.length < 2 ^ 31) :
    ∃ a : FA F, ToFA.toFa2d (F := F) v (ld : Int) = pure a ∧ a.data = v ∧
      Is2 a ld ((v.length / ld : Nat) : Int) v.length (ofList2 ld v) := by
  have hv' : (v.length : Int) < 2147483648 := by exact_mod_cast hv
  have hq : v.length / ld ≤ v.length := Nat.div_le_self _ _
  show ∃ a : FA F, (faOfVec v).as2d (ld : Int) = pure a ∧ _
  unfold FA.as2d faOfVec
  rw [if_neg (by omega)]
  simp only
  rw [wrap32_of_fits (by unfold FitsI32; omega)]
  have : ((v.length : Int).tdiv (ld : Int)) = ((v.length / ld : Nat) : Int) := by
    rw [Int.tdiv_eq_ediv_of_nonneg (by omega)]; rfl
  have hf : FitsI32 ((v.length / ld : Nat) : Int) := by
    generalize v.length / ld = q at *; unfold FitsI32; omega
  rw [this, chk_ok hf]
  refine ⟨_, rfl, rfl, rfl, rfl, (tab2_ofList2 h0 v).symm⟩

end Verif
