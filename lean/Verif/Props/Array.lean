import Verif.Lib.Array

/-!
# Properties of `FortranArray` (C01–C05, C07, C09)

All theorems hold for an arbitrary scalar type `F`.  `a.data` is the sequence of stored elements,
`a.data[k]` (0-based) the `k`-th of them.  A Rust `Vec<f64>` never has `2^60` or more elements (its
size in bytes is at most `isize::MAX`), which is the hypothesis `Storable`.
-/

set_option linter.unusedSectionVars false

namespace Verif
open Scalar

variable {F : Type} [Scalar F]

/-- The array can exist in memory. -/
def Storable (a : FA F) : Prop := a.data.length < 2 ^ 60

/-- `a` is an `r`-by-`c` matrix whose elements can all be addressed with `i32` offsets. -/
structure IsMatrix (a : FA F) (r c : Nat) : Prop where
  rows : a.rows = r
  cols : a.cols = c
  length : a.data.length = r * c
  small : r * c < 2 ^ 31

/-! ### C01, C02: one-dimensional access -/

/-- **C01.** Reading `a[i]` never fails: it is the `i`-th stored element for `1 ≤ i ≤ len`, and
`f64::MIN_POSITIVE` for every other `i32`. -/
theorem C01_read (a : FA F) (ha : Storable a) (i : Int) (hi : FitsI32 i) :
    a.get1 i = if h : 1 ≤ i ∧ i ≤ a.data.length then a.data[(i - 1).toNat]'(by omega)
      else minPositive := by
  by_cases h : 1 ≤ i ∧ i ≤ a.data.length
  · rw [dif_pos h, get1_is1 (is1_ofList a) h.1 h.2 hi]
    unfold ofList
    rw [List.getD_eq_getElem?_getD, List.getElem?_eq_getElem (by omega)]; rfl
  · rw [dif_neg h, get1_is1_out (is1_ofList a) h hi]
    unfold Storable at ha
    exact lt_of_lt_of_le ha (Nat.pow_le_pow_right (by norm_num) (by norm_num))

theorem modify1_out (a : FA F) (ha : Storable a) (i : Int) (hi : FitsI32 i)
    (h : ¬ (1 ≤ i ∧ i ≤ a.data.length)) (f : F → F) :
    a.modify1 i f = { a with defaultValue := f a.defaultValue } := by
  unfold FA.modify1
  by_cases h0 : i = 0
  · rw [if_pos h0]
  · rw [if_neg h0]
    have : a.data[asUsize i - 1]? = none := by
      rw [List.getElem?_eq_none_iff]
      unfold Storable at ha
      have : (2 : Nat) ^ 60 = 1152921504606846976 := by norm_num
      by_cases hn : i < 0
      · have := asUsize_neg hn hi
        have : (2 : Nat) ^ 63 = 9223372036854775808 := by norm_num
        omega
      · rw [asUsize_nonneg (by omega) hi]; omega
    rw [this]

/-- **C02.** After `a[i] = v`: every read sees the old value, except a read at `i` itself, which sees
`v` if `i` was in range.  Length and shape are unchanged. -/
theorem C02_write (a : FA F) (ha : Storable a) (i : Int) (hi : FitsI32 i) (v : F) :
    (∀ k : Int, FitsI32 k → (a.set1 i v).get1 k =
      if k = i ∧ 1 ≤ i ∧ i ≤ a.data.length then v else a.get1 k) ∧
    (a.set1 i v).data.length = a.data.length ∧
    (a.set1 i v).rows = a.rows ∧ (a.set1 i v).cols = a.cols := by
  by_cases h : 1 ≤ i ∧ i ≤ a.data.length
  · obtain ⟨hd, hr, hc⟩ := modify1_is1 (is1_ofList a) h.1 hi (fun _ => v)
    have hlen : (a.set1 i v).data.length = a.data.length := by
      unfold FA.set1; rw [hd, length_tab]
    refine ⟨?_, hlen, hr, hc⟩
    intro k hk
    have hL : a.data.length < 2 ^ 62 :=
      lt_of_lt_of_le ha (Nat.pow_le_pow_right (by norm_num) (by norm_num))
    by_cases hkr : 1 ≤ k ∧ k ≤ a.data.length
    · show (a.modify1 i fun _ => v).get1 k = _
      rw [get1_is1 hd hkr.1 hkr.2 hk, get1_is1 (is1_ofList a) hkr.1 hkr.2 hk]
      simp only [upd, h, and_self, and_true]
    · show (a.modify1 i fun _ => v).get1 k = _
      rw [get1_is1_out hd hkr hk hL, get1_is1_out (is1_ofList a) hkr hk hL, if_neg]
      rintro ⟨rfl, h1, h2⟩; exact hkr ⟨h1, h2⟩
  · have := modify1_out a ha i hi h (fun _ => v)
    unfold FA.set1
    rw [this]
    refine ⟨?_, rfl, rfl, rfl⟩
    intro k _
    rw [if_neg (by rintro ⟨_, h1⟩; exact h h1)]
    rfl

/-- The stored elements change in at most one place (stronger form of C02, on the data itself). -/
theorem C02_write_data (a : FA F) (ha : Storable a) (i : Int) (hi : FitsI32 i) (v : F) :
    (a.set1 i v).data = if 1 ≤ i ∧ i ≤ a.data.length then a.data.set (i - 1).toNat v else a.data := by
  by_cases h : 1 ≤ i ∧ i ≤ a.data.length
  · rw [if_pos h]
    unfold FA.set1 FA.modify1
    rw [if_neg (by omega), asUsize_nonneg (by omega) hi, List.getElem?_eq_getElem (by omega)]
    simp only
    congr 1; omega
  · rw [if_neg h]; unfold FA.set1; rw [modify1_out a ha i hi h]

/-- The hypotheses of C01 and C02 are met by a three-element vector. -/
example (x y z : F) : Storable (FA.vector [x, y, z]) := by
  simp [Storable, FA.vector]

/-! ### C03, C04: two-dimensional access -/

theorem cell_of_matrix {r c : Nat} {i j : Int} (h1 : 1 ≤ i) (h2 : i ≤ r) (h3 : 1 ≤ j)
    (h4 : j ≤ c) : Cell r (r * c) i j := by
  refine cell_of_block (m := r) (n := c) (le_refl _) ?_ h1 h2 h3 h4
  obtain ⟨c', rfl⟩ : ∃ c', c = c' + 1 := ⟨c - 1, by omega⟩
  simp only [Nat.add_sub_cancel]
  rw [Nat.mul_comm r, Nat.succ_mul]

theorem matrix_index {r c : Nat} {i j : Int} (h1 : 1 ≤ i) (h2 : i ≤ r) (h3 : 1 ≤ j)
    (h4 : j ≤ c) : ((j - 1) * r + (i - 1)).toNat < r * c := by
  obtain ⟨_, _, _, h⟩ := cell_of_matrix h1 h2 h3 h4
  have : (0 : Int) ≤ (j - 1) * r := Int.mul_nonneg (by omega) (by omega)
  omega

/-- **C03, reading.** An in-range `a[(i, j)]` is the stored element number `(j-1)*r + i`
(1-based): column-major order; no panic and no overflow in either profile. -/
theorem C03_read {a : FA F} {r c : Nat} (ha : IsMatrix a r c) {i j : Int}
    (h1 : 1 ≤ i) (h2 : i ≤ r) (h3 : 1 ≤ j) (h4 : j ≤ c) :
    a.get2 i j = pure (a.data[((j - 1) * r + (i - 1)).toNat]'(by
      rw [ha.length]; exact matrix_index h1 h2 h3 h4)) := by
  have hr : 0 < r := by omega
  have hcell := cell_of_matrix h1 h2 h3 h4
  rw [get2_is2 (is2_ofList ha.rows hr) (by rw [ha.length]; exact hcell) (by rw [ha.length]; exact ha.small)]
  congr 1
  unfold ofList2
  have e : (i - 1).toNat + (j - 1).toNat * r = ((j - 1) * r + (i - 1)).toNat := by
    have : (((i - 1).toNat + (j - 1).toNat * r : Nat) : Int) = (j - 1) * r + (i - 1) := by
      push_cast
      rw [Int.toNat_of_nonneg (by omega), Int.toNat_of_nonneg (by omega)]; ring
    omega
  rw [List.getD_eq_getElem?_getD, e, List.getElem?_eq_getElem (by
    rw [ha.length]; exact matrix_index h1 h2 h3 h4)]; rfl

/-- **C03, writing.** After an in-range `a[(i, j)] = v` the array is still an `r`-by-`c` matrix, and an
in-range read at `(i2, j2)` sees `v` iff `(i2, j2) = (i, j)`, and the old value otherwise. -/
theorem C03_write {a : FA F} {r c : Nat} (ha : IsMatrix a r c) {i j : Int}
    (h1 : 1 ≤ i) (h2 : i ≤ r) (h3 : 1 ≤ j) (h4 : j ≤ c) (v : F) :
    ∃ a', a.set2 i j v = pure a' ∧ IsMatrix a' r c ∧
      ∀ i2 j2 : Int, 1 ≤ i2 → i2 ≤ r → 1 ≤ j2 → j2 ≤ c →
        a'.get2 i2 j2 = if i2 = i ∧ j2 = j then pure v else a.get2 i2 j2 := by
  have hr : 0 < r := by omega
  have hv := is2_ofList ha.rows hr
  rw [ha.length] at hv
  obtain ⟨a', e, h'⟩ := set2_is2 hv (cell_of_matrix h1 h2 h3 h4) ha.small v
  refine ⟨a', e, ⟨h'.rows, h'.cols.trans ha.cols, by rw [h'.data, length_tab2], ha.small⟩, ?_⟩
  intro i2 j2 g1 g2 g3 g4
  rw [get2_is2 h' (cell_of_matrix g1 g2 g3 g4) ha.small,
    get2_is2 hv (cell_of_matrix g1 g2 g3 g4) ha.small]
  unfold upd2
  split <;> rfl

/-- The hypotheses of C03 are met by a 2-by-3 matrix. -/
example (x y : F) : IsMatrix (⟨[x, y, x, y, x, y], 2, 3, nan⟩ : FA F) 2 3 :=
  ⟨rfl, rfl, rfl, by norm_num⟩

/-- Linear offset of `(i, j)` in an array with `rows` rows. -/
def offset (rows i j : Int) : Int := (j - 1) * rows + (i - 1)

/-- The value seen at linear offset `o`. -/
def readAt (a : FA F) (o : Int) : F :=
  if h : 0 ≤ o ∧ o < a.data.length then a.data[o.toNat]'(by omega) else minPositive

theorem wrap32_add_wrap (x y : Int) : wrap32 (wrap32 x + wrap32 y) = wrap32 (x + y) := by
  unfold wrap32; omega

theorem wrap32_mul_wrap (x y : Int) : wrap32 (wrap32 x * y) = wrap32 (x * y) := by
  have h : ∃ k, wrap32 x = x + 4294967296 * k := by
    refine ⟨-((x + 2147483648) / 4294967296), ?_⟩
    unfold wrap32; omega
  obtain ⟨k, hk⟩ := h
  rw [hk]
  have : (x + 4294967296 * k) * y = x * y + 4294967296 * (k * y) := by ring
  rw [this]; unfold wrap32; omega

theorem chk_release (x : Int) : chk x .release = .ok (wrap32 x) := by
  unfold chk
  split
  · rename_i h; rw [wrap32_of_fits h]
  · rfl

theorem getElem?_readAt (a : FA F) (ha : Storable a) (o : Int) (ho : FitsI32 o) :
    (match a.data[asUsize o]? with | some v => v | none => minPositive) = readAt a o := by
  unfold readAt
  by_cases hn : o < 0
  · have h1 := asUsize_neg hn ho
    have : (2 : Nat) ^ 63 = 9223372036854775808 := by norm_num
    have : (2 : Nat) ^ 60 = 1152921504606846976 := by norm_num
    unfold Storable at ha
    rw [dif_neg (by omega), List.getElem?_eq_none (by omega)]
  · rw [asUsize_nonneg (by omega) ho]
    by_cases h : o < a.data.length
    · rw [dif_pos ⟨by omega, h⟩, List.getElem?_eq_getElem (by omega)]
    · rw [dif_neg (by omega), List.getElem?_eq_none (by omega)]

/-- **C04, release profile.** For *every* pair of `i32` coordinates a read in a release build returns
the element at linear offset `(j-1)*rows + (i-1)` taken modulo `2^32`, or `MIN_POSITIVE` if there is
none; it never panics. -/
theorem C04_read_release (a : FA F) (ha : Storable a) (i j : Int) :
    a.get2 i j .release = .ok (readAt a (wrap32 (offset a.rows i j))) := by
  have e : a.off i j .release = .ok (wrap32 (offset a.rows i j)) := by
    unfold FA.off isub imul iadd
    simp only [R.bind_apply, chk_release]
    congr 1
    rw [wrap32_mul_wrap, wrap32_add_wrap]; rfl
  unfold FA.get2
  rw [R.bind_apply, e]
  simp only [R.pure_apply]
  rw [← getElem?_readAt a ha _ (fits_wrap32 _)]; rfl

/-- **C04, debug profile.** In a debug build a read either panics with an arithmetic overflow or
returns the element at linear offset `(j-1)*rows + (i-1)`, or `MIN_POSITIVE` if there is none.
It does not panic when all of `j-1`, `i-1`, `(j-1)*rows` and the offset are `i32` values. -/
theorem C04_read_debug (a : FA F) (ha : Storable a) (i j : Int) :
    a.get2 i j .debug =
      if FitsI32 (j - 1) ∧ FitsI32 ((j - 1) * a.rows) ∧ FitsI32 (i - 1) ∧ FitsI32 (offset a.rows i j)
      then .ok (readAt a (offset a.rows i j)) else .panic .overflow := by
  unfold FA.get2 FA.off isub imul iadd
  by_cases h1 : FitsI32 (j - 1)
  · by_cases h2 : FitsI32 ((j - 1) * a.rows)
    · by_cases h3 : FitsI32 (i - 1)
      · by_cases h4 : FitsI32 (offset a.rows i j)
        · rw [if_pos ⟨h1, h2, h3, h4⟩, chk_ok h1, chk_ok h3]
          simp only [pure_bind]
          rw [chk_ok h2]
          simp only [pure_bind]
          have h4' : FitsI32 ((j - 1) * a.rows + (i - 1)) := h4
          rw [chk_ok h4']
          simp only [pure_bind, R.pure_apply]
          rw [← getElem?_readAt a ha _ h4]; rfl
        · rw [if_neg (by tauto), chk_ok h1, chk_ok h3]
          simp only [pure_bind]
          rw [chk_ok h2]
          have h4' : ¬ FitsI32 ((j - 1) * a.rows + (i - 1)) := h4
          simp [R.bind_apply, chk, h4']
      · rw [if_neg (by tauto), chk_ok h1]
        simp only [pure_bind]
        rw [chk_ok h2]
        simp [R.bind_apply, chk, h3]
    · rw [if_neg (by tauto), chk_ok h1]
      simp [R.bind_apply, chk, h2]
  · rw [if_neg (by tauto)]
    simp [R.bind_apply, chk, h1]

/-- The array after a write at linear offset `o`: that element is replaced, or, if there is none, only
the value handed out for missing elements, which no read returns, changes. -/
def writeAt (a : FA F) (o : Int) (v : F) : FA F :=
  if 0 ≤ o ∧ o < a.data.length then { a with data := a.data.set o.toNat v }
  else { a with defaultValue := v }

theorem set_writeAt (a : FA F) (ha : Storable a) (o : Int) (ho : FitsI32 o) (v : F) :
    (match a.data[asUsize o]? with
      | some _ => { a with data := a.data.set (asUsize o) v }
      | none => { a with defaultValue := v }) = writeAt a o v := by
  unfold writeAt
  by_cases hn : o < 0
  · have h1 := asUsize_neg hn ho
    have : (2 : Nat) ^ 63 = 9223372036854775808 := by norm_num
    have : (2 : Nat) ^ 60 = 1152921504606846976 := by norm_num
    unfold Storable at ha
    rw [if_neg (by omega), List.getElem?_eq_none (by omega)]
  · rw [asUsize_nonneg (by omega) ho]
    by_cases h : o < a.data.length
    · rw [if_pos ⟨by omega, h⟩, List.getElem?_eq_getElem (by omega)]
    · rw [if_neg (by omega), List.getElem?_eq_none (by omega)]

/-- **C04, writing, release profile.** A write goes to the element at the offset modulo `2^32` a read
would use; if there is none, no element changes. -/
theorem C04_write_release (a : FA F) (ha : Storable a) (i j : Int) (v : F) :
    a.set2 i j v .release = .ok (writeAt a (wrap32 (offset a.rows i j)) v) := by
  have e : a.off i j .release = .ok (wrap32 (offset a.rows i j)) := by
    unfold FA.off isub imul iadd
    simp only [R.bind_apply, chk_release]
    congr 1
    rw [wrap32_mul_wrap, wrap32_add_wrap]; rfl
  unfold FA.set2 FA.modify2
  rw [R.bind_apply, e]
  simp only [R.pure_apply]
  rw [← set_writeAt a ha _ (fits_wrap32 _)]; rfl

/-- **C04, writing, debug profile.** A write panics exactly when a read does, and otherwise goes to the
element at the offset a read would use; if there is none, no element changes. -/
theorem C04_write_debug (a : FA F) (ha : Storable a) (i j : Int) (v : F) :
    a.set2 i j v .debug =
      if FitsI32 (j - 1) ∧ FitsI32 ((j - 1) * a.rows) ∧ FitsI32 (i - 1) ∧ FitsI32 (offset a.rows i j)
      then .ok (writeAt a (offset a.rows i j) v) else .panic .overflow := by
  unfold FA.set2 FA.modify2 FA.off isub imul iadd
  by_cases h1 : FitsI32 (j - 1)
  · by_cases h2 : FitsI32 ((j - 1) * a.rows)
    · by_cases h3 : FitsI32 (i - 1)
      · by_cases h4 : FitsI32 (offset a.rows i j)
        · rw [if_pos ⟨h1, h2, h3, h4⟩, chk_ok h1, chk_ok h3]
          simp only [pure_bind]
          rw [chk_ok h2]
          simp only [pure_bind]
          have h4' : FitsI32 ((j - 1) * a.rows + (i - 1)) := h4
          rw [chk_ok h4']
          simp only [pure_bind, R.pure_apply]
          rw [← set_writeAt a ha _ h4]; rfl
        · rw [if_neg (by tauto), chk_ok h1, chk_ok h3]
          simp only [pure_bind]
          rw [chk_ok h2]
          have h4' : ¬ FitsI32 ((j - 1) * a.rows + (i - 1)) := h4
          simp [R.bind_apply, chk, h4']
      · rw [if_neg (by tauto), chk_ok h1]
        simp only [pure_bind]
        rw [chk_ok h2]
        simp [R.bind_apply, chk, h3]
    · rw [if_neg (by tauto), chk_ok h1]
      simp [R.bind_apply, chk, h2]
  · rw [if_neg (by tauto)]
    simp [R.bind_apply, chk, h1]

/-- **C04, aliasing**: coordinates outside the matrix can alias an element inside it.  In every
matrix with `r` rows and at least 2 columns, writing `a[(r+1, 1)]` overwrites `a[(1, 2)]`. -/
theorem C04_aliasing {a : FA F} {r c : Nat} (ha : IsMatrix a r c) (hr : 1 ≤ r) (hc : 2 ≤ c) (v : F) :
    ∃ a', a.set2 ((r : Int) + 1) 1 v = pure a' ∧ a'.get2 1 2 = pure v := by
  have hrc : r * 2 ≤ r * c := Nat.mul_le_mul_left _ hc
  have hs := ha.small
  have e1 : a.off ((r : Int) + 1) 1 = pure (r : Int) := by
    unfold FA.off
    rw [isub_ok (by decide), isub_ok (by unfold FitsI32; omega)]
    simp only [pure_bind]
    rw [imul_ok (by simp; decide)]
    simp only [pure_bind]
    rw [iadd_ok (by unfold FitsI32; omega)]
    congr 1; simp
  have h12 : (1 : Int) ≤ r := by omega
  obtain ⟨a2, e2, hm, hget⟩ := C03_write ha (i := 1) (j := 2) (by omega) (by omega) (by omega)
    (by omega) v
  refine ⟨a2, ?_, ?_⟩
  · rw [← e2]
    unfold FA.set2 FA.modify2
    rw [e1]
    have : a.off 1 2 = pure (r : Int) := by
      unfold FA.off
      rw [isub_ok (by decide), isub_ok (by decide)]
      simp only [pure_bind]
      rw [imul_ok (by rw [ha.rows]; unfold FitsI32; omega)]
      simp only [pure_bind]
      rw [iadd_ok (by rw [ha.rows]; unfold FitsI32; omega), ha.rows]
      congr 1; ring
    rw [this]
  · rw [hget 1 2 (by omega) (by omega) (by omega) (by omega)]; simp

/-! ### C05: flat vectors -/

/-- **C05.** A `Vec<f64>` survives the round trip through `FortranArray`, and `a[i]` is element
`i-1` of it. -/
theorem C05_roundtrip (v : List F) : FromFA.fromFa (ToFA.toFa (F := F) v) = (pure v : R (List F)) := rfl

theorem C05_read (v : List F) (hv : v.length < 2 ^ 31) (i : Nat) (hi : i < v.length) :
    (ToFA.toFa (F := F) v).get1 ((i : Int) + 1) = v[i] := by
  have h := C01_read (ToFA.toFa (F := F) v : FA F)
    (by show v.length < 2 ^ 60; exact lt_trans hv (by norm_num)) ((i : Int) + 1)
    (by unfold FitsI32; omega)
  rw [h, dif_pos ⟨by omega, by show (i : Int) + 1 ≤ v.length; omega⟩]
  show v[((i : Int) + 1 - 1).toNat]'_ = v[i]
  congr 1; omega

/-- **C05, 2-D.** `to_fa_2d(ld)` on a flat vector is the matrix whose entry `(i+1, j+1)` is
`v[i + j*ld]`. -/
theorem C05_read2 (v : List F) (ld : Nat) (hld : 0 < ld) (hld' : ld < 2 ^ 31)
    (hv : v.length < 2 ^ 31) (i j : Nat) (hi : i < ld) (h : i + j * ld < v.length) :
    (do (← ToFA.toFa2d (F := F) v (ld : Int)).get2 ((i : Int) + 1) ((j : Int) + 1)) =
      (pure v[i + j * ld] : R F) := by
  obtain ⟨a, ha, _, h2⟩ := toFa2d_list (F := F) hld hld' hv
  rw [ha, pure_bind, get2_is2 h2 ⟨by omega, by omega, by omega, ?_⟩ hv]
  · unfold ofList2
    have e1 : ((i : Int) + 1 - 1).toNat = i := by omega
    have e2 : ((j : Int) + 1 - 1).toNat = j := by omega
    rw [e1, e2, List.getD_eq_getElem?_getD, List.getElem?_eq_getElem h]; rfl
  · have : ((i + j * ld : Nat) : Int) < v.length := by exact_mod_cast h
    push_cast at this
    have e : ((j : Int) + 1 - 1) = j := by ring
    rw [e]; omega

/-! ### C07: suffixes -/

/-- The length field of the array agrees with its data (true of all arrays made by the constructors
and conversions from data of fewer than `2^31` elements). -/
def LenOK (a : FA F) : Prop :=
  a.data.length < 2 ^ 31 ∧
    ((0 < a.rows ∧ 0 < a.cols ∧ a.rows * a.cols = a.data.length) ∨
      (¬ (0 < a.rows ∧ 0 < a.cols) ∧ a.rows = a.data.length))

theorem len_ok {a : FA F} (ha : LenOK a) : a.len = pure (a.data.length : Int) := by
  obtain ⟨hs, h | h⟩ := ha
  · unfold FA.len FA.is2d
    rw [if_pos (by simp [h.1, h.2.1]), imul_ok (by unfold FitsI32; omega), h.2.2]
  · unfold FA.len FA.is2d
    rw [if_neg (by simpa using h.1), h.2]

/-- **C07.** `a[k..]` is the stored elements from number `k` to the end for `1 ≤ k ≤ len`, and empty
for every other `k`. -/
theorem C07_from1 {a : FA F} (ha : LenOK a) (k : Int) :
    a.from1 k = pure (if 1 ≤ k ∧ k ≤ a.data.length then a.data.drop (k - 1).toNat else []) := by
  unfold FA.from1
  rw [len_ok ha]
  simp only [pure_bind]
  have hs : (a.data.length : Int) < 2147483648 := by exact_mod_cast ha.1
  by_cases h : 1 ≤ k ∧ k ≤ a.data.length
  · rw [if_pos h, if_pos h, asUsize_nonneg (by omega) (by unfold FitsI32; omega), if_pos (by omega)]
  · rw [if_neg h, if_neg h]

/-- **C07, 2-D.** `a[(i, j)..]` for an in-range coordinate of a matrix is its data from that element
to the end. -/
theorem C07_from2 {a : FA F} {r c : Nat} (ha : IsMatrix a r c) {i j : Int}
    (h1 : 1 ≤ i) (h2 : i ≤ r) (h3 : 1 ≤ j) (h4 : j ≤ c) :
    a.from2 i j = pure (a.data.drop ((j - 1) * r + (i - 1)).toNat) := by
  have hcell := cell_of_matrix h1 h2 h3 h4
  have hlt := hcell.2.2.2
  have hs : ((r * c : Nat) : Int) < 2147483648 := by exact_mod_cast ha.small
  have hm : (0 : Int) ≤ (j - 1) * r := Int.mul_nonneg (by omega) (by omega)
  have hj : j - 1 ≤ (j - 1) * r := by nlinarith
  unfold FA.from2
  rw [isub_ok (by unfold FitsI32; omega), ha.rows]
  simp only [pure_bind]
  rw [imul_ok (by unfold FitsI32; omega)]
  simp only [pure_bind]
  rw [iadd_ok (by unfold FitsI32; omega)]
  simp only [pure_bind]
  have hl : LenOK a := ⟨by rw [ha.length]; exact ha.small, Or.inl ⟨by rw [ha.rows]; omega, by
    rw [ha.cols]; omega, by rw [ha.rows, ha.cols, ha.length]; push_cast; rfl⟩⟩
  rw [C07_from1 hl, if_pos ⟨by omega, by rw [ha.length]; omega⟩]
  congr 3; ring

/-- The stored elements from number `k` (counted from 1) to the end; empty if there is no element number `k`. -/
def Spec.suffixFrom (l : List F) (k : Int) : List F :=
  if 1 ≤ k ∧ k ≤ l.length then l.drop (k - 1).toNat else []

/-- **C07, 2-D, every start, release profile.** For every pair of integers (in range or not, of a matrix or of a
vector) `a[(i, j)..]` starts at element number `(j-1)*rows + i`, computed modulo `2^32`. -/
theorem C07_from2_release {a : FA F} (ha : LenOK a) (i j : Int) :
    a.from2 i j .release = .ok (Spec.suffixFrom a.data (wrap32 ((j - 1) * a.rows + i))) := by
  unfold FA.from2 isub imul iadd
  simp only [R.bind_apply, chk_release]
  rw [C07_from1 ha]
  have e : wrap32 (wrap32 (wrap32 (j - 1) * a.rows) + i) = wrap32 ((j - 1) * a.rows + i) := by
    have h : wrap32 (wrap32 (wrap32 (j - 1) * a.rows) + i) = wrap32 (wrap32 (j - 1) * a.rows + i) := by
      generalize wrap32 (j - 1) * a.rows = x
      unfold wrap32; omega
    rw [h, ← wrap32_add_wrap, wrap32_mul_wrap, wrap32_add_wrap]
  rw [e]; rfl

/-- **C07, 2-D, every start, debug profile.** The same start, or a panic with an arithmetic overflow if `j-1`,
`(j-1)*rows` or the element number is not an `i32` value. -/
theorem C07_from2_debug {a : FA F} (ha : LenOK a) (i j : Int) :
    a.from2 i j .debug =
      if FitsI32 (j - 1) ∧ FitsI32 ((j - 1) * a.rows) ∧ FitsI32 ((j - 1) * a.rows + i)
      then .ok (Spec.suffixFrom a.data ((j - 1) * a.rows + i)) else .panic .overflow := by
  unfold FA.from2 isub imul iadd
  by_cases h1 : FitsI32 (j - 1)
  · rw [chk_ok h1]
    simp only [pure_bind]
    by_cases h2 : FitsI32 ((j - 1) * a.rows)
    · rw [chk_ok h2]
      simp only [pure_bind]
      by_cases h3 : FitsI32 ((j - 1) * a.rows + i)
      · rw [if_pos ⟨h1, h2, h3⟩, chk_ok h3]
        simp only [pure_bind]
        rw [C07_from1 ha]; rfl
      · rw [if_neg (by tauto)]
        simp [R.bind_apply, chk, h3]
    · rw [if_neg (by tauto)]
      simp [R.bind_apply, chk, h2]
  · rw [if_neg (by tauto)]
    simp [R.bind_apply, chk, h1]

/-- Row 5 of column 1 of a 2-by-3 matrix is row 1 of column 3; row 0 of column 1 is nothing. -/
example (x y z : F) : (⟨[x, y, z, x, y, z], 2, 3, nan⟩ : FA F).from2 5 1 .debug = .ok [y, z] ∧
    (⟨[x, y, z, x, y, z], 2, 3, nan⟩ : FA F).from2 0 1 .debug = .ok [] := by
  have ha : LenOK (⟨[x, y, z, x, y, z], 2, 3, nan⟩ : FA F) :=
    ⟨by norm_num, Or.inl ⟨by norm_num, by norm_num, by norm_num⟩⟩
  rw [C07_from2_debug ha, C07_from2_debug ha]
  constructor
  · rw [if_pos (by unfold FitsI32; norm_num)]
    simp [Spec.suffixFrom]
  · rw [if_pos (by unfold FitsI32; norm_num)]
    simp [Spec.suffixFrom]

example (x y : F) : LenOK (⟨[x, y, x, y, x, y], 2, 3, nan⟩ : FA F) :=
  ⟨by norm_num, Or.inl ⟨by norm_num, by norm_num, by norm_num⟩⟩
example (x y : F) : LenOK (FA.vector [x, y, x]) :=
  ⟨by simp [FA.vector], Or.inr ⟨by simp [FA.vector], by simp [FA.vector]; decide⟩⟩

/-! ### C09: constructors -/

/-- **C09, `matrix`.** With `r * c` elements `matrix(data, r, c)` is that matrix (so C03 applies),
otherwise it panics. -/
theorem C09_matrix (data : List F) (r c : Nat) (hrc : r * c < 2 ^ 31) (hd : data.length < 2 ^ 31) :
    if data.length = r * c then
      ∃ a : FA F, FA.matrix data r c = pure a ∧ IsMatrix a r c ∧ a.data = data
    else FA.matrix data r c = R.panic .assertFailed := by
  have e : ((r : Int) * c) = ((r * c : Nat) : Int) := by push_cast; rfl
  have hf : FitsI32 ((r : Int) * c) := by rw [e]; generalize r * c = x at *; unfold FitsI32; omega
  have hw : wrap32 (data.length : Int) = data.length := wrap32_of_fits (by unfold FitsI32; omega)
  unfold FA.matrix
  rw [imul_ok hf, hw]
  simp only [pure_bind]
  split
  · rename_i h
    rw [if_pos (by rw [e]; exact_mod_cast h)]
    exact ⟨_, rfl, ⟨rfl, rfl, h, hrc⟩, rfl⟩
  · rename_i h
    rw [if_neg (by rw [e]; exact_mod_cast h)]

/-- **C09, `zeros`.** `zeros(r, c)` is an `r`-by-`c` matrix, zero at every in-range coordinate. -/
theorem C09_zeros (r c : Nat) (hrc : r * c < 2 ^ 31) :
    ∃ a : FA F, FA.zeros r c = pure a ∧ IsMatrix a r c ∧
      ∀ i j : Int, 1 ≤ i → i ≤ r → 1 ≤ j → j ≤ c → a.get2 i j = pure zero := by
  have e : ((r : Int) * c) = ((r * c : Nat) : Int) := by push_cast; rfl
  have hf : FitsI32 ((r : Int) * c) := by rw [e]; generalize r * c = x at *; unfold FitsI32; omega
  have hz : FA.zeros (F := F) r c = pure ⟨List.replicate (r * c) zero, r, c, nan⟩ := by
    unfold FA.zeros vecCap
    rw [imul_ok hf]
    simp only [pure_bind]
    rw [e, asUsize_natCast (lt_trans hrc (by norm_num)), if_pos (lt_trans hrc (by norm_num))]
    rfl
  refine ⟨_, hz, ⟨rfl, rfl, by simp, hrc⟩, ?_⟩
  intro i j h1 h2 h3 h4
  rw [C03_read (r := r) (c := c) ⟨rfl, rfl, by simp, hrc⟩ h1 h2 h3 h4]
  simp

/-- **C09, `vector`.** `vector(data)` reads `data[i-1]` at `i`. -/
theorem C09_vector (data : List F) (hv : data.length < 2 ^ 31) (i : Nat) (hi : i < data.length) :
    (FA.vector data).get1 ((i : Int) + 1) = data[i] := C05_read data hv i hi

end Verif
