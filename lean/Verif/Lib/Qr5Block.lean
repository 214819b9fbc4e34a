import Verif.Props.Gemm
import Verif.Props.Lacpy
import Verif.Model.Qr5
import Verif.Lib.Exact

/-!
# The block products of `dlaqr5`
-/

namespace Verif
open Scalar Spec

section
variable {F : Type} [Scalar F]

/-- The part of a matrix that begins at element `(a, b)`, looked at with the same leading dimension. -/
theorem sub_entry {D : List F} {r L : Nat} {g : ℤ → ℤ → F} (hD : D = tab2 r L g) {a b : ℤ} (a1 : 1 ≤ a) (b1 : 1 ≤ b) {i j : Nat}
    (hi : a + i ≤ r) (hc : (b + j - 1) * r + (a + i - 1) < L) :
    ((b - 1) * r + (a - 1)).toNat + (i + j * r) < L ∧ entry (D.drop ((b - 1) * r + (a - 1)).toNat) r i j = g (a + i) (b + j) := by
  have h0 : (0 : ℤ) ≤ (b - 1) * r := mul_nonneg (by omega) (by omega)
  have e : ((b - 1) * r + (a - 1)).toNat + (i + j * r) = (a - 1 + i).toNat + (b - 1 + j).toNat * r := by
    zify
    rw [Int.toNat_of_nonneg (by omega), Int.toNat_of_nonneg (by omega), Int.toNat_of_nonneg (by omega)]
    ring
  have lt : (a - 1 + i).toNat + (b - 1 + j).toNat * r < L := by
    zify
    rw [Int.toNat_of_nonneg (by omega), Int.toNat_of_nonneg (by omega)]
    have : (b - 1 + (j : ℤ)) * r = (b + j - 1) * r := by ring
    omega
  refine ⟨by omega, ?_⟩
  unfold entry
  rw [List.getD_eq_getElem?_getD, List.getElem?_drop, e, hD, tab2_at (by omega) lt]
  simp only [Option.getD_some]
  congr 1 <;> omega

theorem sub_stored {D : List F} {r L m n : Nat} {g : ℤ → ℤ → F} (hD : D = tab2 r L g) (hL : L < 2 ^ 31) (hr : r < 2 ^ 31) {a b : ℤ} (a1 : 1 ≤ a) (b1 : 1 ≤ b)
    (hm : a + m ≤ r + 1) (hr0 : 0 < r) (hn : 0 < m → 0 < n → (b + n - 2) * r + (a + m - 2) < L) : Stored (D.drop ((b - 1) * r + (a - 1)).toNat) r m n := by
  have hl : D.length = L := by rw [hD, length_tab2]
  refine ⟨hr0, by omega, hr, ?_, ?_⟩
  · rw [List.length_drop]; omega
  · intro i hi j hj
    have h1 := hn (by omega) (by omega)
    have h2 : (b + j - 1) * (r : ℤ) ≤ (b + n - 2) * r := mul_le_mul_of_nonneg_right (by omega) (by omega)
    have := (sub_entry (i := i) (j := j) hD a1 b1 (by omega) (by omega)).1
    rw [List.length_drop, hl]
    omega

theorem toNat_cancel (y : Nat) : ((y : ℤ) + 1 - 1).toNat = y := by omega

/-- Replacing an `m`-by-`n` block of a matrix by writing into the tail that begins at its first element. -/
theorem splice {D : List F} {r L m n : Nat} {g : ℤ → ℤ → F} (hD : D = tab2 r L g) {a b : ℤ} (a1 : 1 ≤ a) (b1 : 1 ≤ b) (hm : a + m ≤ r + 1) (hr0 : 0 < r)
    (K : ℤ → ℤ → F) (ho : ((b - 1) * r + (a - 1)).toNat ≤ L) :
    D.take ((b - 1) * r + (a - 1)).toNat ++ tab2 r (L - ((b - 1) * r + (a - 1)).toNat) (fun i j => if (1 ≤ i ∧ i ≤ m) ∧ (1 ≤ j ∧ j ≤ (n : ℤ)) then K i j
      else ofList2 r (D.drop ((b - 1) * r + (a - 1)).toNat) i j) =
    tab2 r L fun i j => if (a ≤ i ∧ i < a + m) ∧ (b ≤ j ∧ j < b + n) then K (i - a + 1) (j - b + 1) else g i j := by
  have hl : D.length = L := by rw [hD, length_tab2]
  obtain ⟨A, rfl⟩ : ∃ A : Nat, a = A + 1 := ⟨(a - 1).toNat, by omega⟩
  obtain ⟨B, rfl⟩ : ∃ B : Nat, b = B + 1 := ⟨(b - 1).toNat, by omega⟩
  have eo : (((B : ℤ) + 1 - 1) * r + ((A : ℤ) + 1 - 1)).toNat = A + B * r := by
    rw [show ((B : ℤ) + 1 - 1) * r + ((A : ℤ) + 1 - 1) = ((A + B * r : ℕ) : ℤ) by push_cast; ring, Int.toNat_natCast]
  rw [eo] at ho ⊢
  apply List.ext_getElem?
  intro p
  have hp := Nat.div_add_mod p r
  have hpm := Nat.mod_lt p hr0
  rw [tab2_getElem?]
  by_cases hpo : p < A + B * r
  · rw [List.getElem?_append_left (by rw [List.length_take]; omega), List.getElem?_take_of_lt hpo, hD, tab2_getElem?]
    congr 1
    rw [if_neg]
    rintro ⟨⟨i1, i2⟩, j1, j2⟩
    have h1 : B ≤ p / r := by omega
    have h2 : r * B ≤ r * (p / r) := Nat.mul_le_mul_left r h1
    have h3 : B * r = r * B := Nat.mul_comm _ _
    omega
  · rw [List.getElem?_append_right (by rw [List.length_take]; omega), List.length_take, hl, Nat.min_eq_left ho, tab2_getElem?]
    obtain ⟨q, rfl⟩ : ∃ q, p = A + B * r + q := ⟨p - (A + B * r), by omega⟩
    rw [Nat.add_sub_cancel_left]
    by_cases hlt : A + B * r + q < L
    · rw [if_pos hlt, if_pos (by omega)]
      congr 1
      have hq := Nat.div_add_mod q r
      have hqm := Nat.mod_lt q hr0
      by_cases hc : A + q % r < r
      · have e1 : (A + B * r + q) % r = A + q % r := by
          have : A + B * r + q = (A + q % r) + (B + q / r) * r := by
            have : (B + q / r) * r = B * r + r * (q / r) := by ring
            omega
          rw [this, Nat.add_mul_mod_self_right, Nat.mod_eq_of_lt hc]
        have e2 : (A + B * r + q) / r = B + q / r := by
          have : A + B * r + q = (A + q % r) + (B + q / r) * r := by
            have : (B + q / r) * r = B * r + r * (q / r) := by ring
            omega
          rw [this, Nat.add_mul_div_right _ _ hr0, Nat.div_eq_of_lt hc, Nat.zero_add]
        rw [e1, e2]
        by_cases hb : (1 ≤ (((q % r : ℕ) : ℤ) + 1) ∧ (((q % r : ℕ) : ℤ) + 1) ≤ m) ∧ 1 ≤ (((q / r : ℕ) : ℤ) + 1) ∧ (((q / r : ℕ) : ℤ) + 1) ≤ (n : ℤ)
        · rw [if_pos hb, if_pos (by revert hb; generalize q % r = y1; generalize q / r = y2; intro hb; push_cast; omega)]
          congr 1 <;> push_cast <;> ring
        · rw [if_neg hb, if_neg (by revert hb; generalize q % r = y1; generalize q / r = y2; intro hb; push_cast; omega)]
          unfold ofList2
          rw [List.getD_eq_getElem?_getD, List.getElem?_drop, hD]
          have e3 : A + B * r + ((((q % r : ℕ) : ℤ) + 1 - 1).toNat + (((q / r : ℕ) : ℤ) + 1 - 1).toNat * r) = A + B * r + q := by
            have h1 : (((q % r : ℕ) : ℤ) + 1 - 1).toNat = q % r := toNat_cancel _
            have h2 : (((q / r : ℕ) : ℤ) + 1 - 1).toNat = q / r := toNat_cancel _
            rw [h1, h2]
            have : q / r * r = r * (q / r) := Nat.mul_comm _ _
            omega
          rw [e3, tab2_getElem?, if_pos hlt, e1, e2]
          rfl
      · have hm' : ¬ ((((q % r : ℕ) : ℤ) + 1) ≤ m) := by omega
        rw [if_neg (by tauto)]
        have e1 : (A + B * r + q) % r = A + q % r - r := by
          have : A + B * r + q = (A + q % r - r) + (B + q / r + 1) * r := by
            have : (B + q / r + 1) * r = B * r + r * (q / r) + r := by ring
            omega
          rw [this, Nat.add_mul_mod_self_right, Nat.mod_eq_of_lt (by omega)]
        have h9 : A + q % r - r < A := by omega
        rw [if_neg (by rw [e1]; generalize A + q % r - r = y at h9 ⊢; omega)]
        unfold ofList2
        rw [List.getD_eq_getElem?_getD, List.getElem?_drop, hD]
        have e3 : A + B * r + ((((q % r : ℕ) : ℤ) + 1 - 1).toNat + (((q / r : ℕ) : ℤ) + 1 - 1).toNat * r) = A + B * r + q := by
          have h1 : (((q % r : ℕ) : ℤ) + 1 - 1).toNat = q % r := toNat_cancel _
          have h2 : (((q / r : ℕ) : ℤ) + 1 - 1).toNat = q / r := toNat_cancel _
          rw [h1, h2]
          have : q / r * r = r * (q / r) := Nat.mul_comm _ _
          omega
        rw [e3, tab2_getElem?, if_pos hlt]
        rfl
    · rw [if_neg hlt, if_neg (by omega)]

theorem takeTo_ok {D : List F} {o : Nat} (ho : o ≤ D.length) (hD : D.length < 2 ^ 31) : takeTo D ((o : ℤ) + 1) = pure (D.take o) := by
  have e : asUsize ((o : ℤ) + 1) = o + 1 := by
    rw [show (o : ℤ) + 1 = ((o + 1 : ℕ) : ℤ) by push_cast; rfl, asUsize_natCast (by omega)]
  unfold takeTo
  rw [e]
  exact (if_neg (Nat.succ_ne_zero o)).trans (if_pos ho)

theorem fits_rc (R C : Nat) (i j : ℤ) (_ : 1 ≤ i) (h2 : i ≤ R) (_ : 1 ≤ j) (h4 : j ≤ C) : (j - 1) * (R : ℤ) + (i - 1) < ((R * C : ℕ) : ℤ) := by
  have : (j - 1) * (R : ℤ) ≤ (C - 1) * R := mul_le_mul_of_nonneg_right (by omega) (by omega)
  have e : ((C : ℤ) - 1) * R = R * C - R := by ring
  push_cast
  omega

theorem idx_ok {x : FA F} {r c : Nat} {g : ℤ → ℤ → F} (hx : Is2 x r c (r * c) g) (hxs : r * c < 2 ^ 31) {a b : ℤ} (a1 : 1 ≤ a) (a2 : a ≤ r) (b1 : 1 ≤ b)
    (b2 : b ≤ c) : x.idx a b = pure ((((b - 1) * (r : ℤ) + (a - 1)).toNat : ℤ) + 1) := by
  have h1 := fits_rc r c a b a1 a2 b1 b2
  have h2 : ((r * c : ℕ) : ℤ) < 2147483648 := by exact_mod_cast hxs
  have h3 : b - 1 ≤ (b - 1) * (r : ℤ) := le_mul_of_one_le_right (by omega) (by omega)
  unfold FA.idx
  rw [isub_ok (by unfold FitsI32; omega), hx.rows, pure_bind, imul_ok (by unfold FitsI32; omega), pure_bind, iadd_ok (by unfold FitsI32; omega)]
  congr 1
  omega

/-- The middle part of one block update: what is written is the product. -/
theorem qr5Block_ok {hz : Bool} {nu jlen m n : Nat} {u x w : FA F} {ru cu r c rw' cw : Nat} {g ug : ℤ → ℤ → F} (hmn : m = if hz then nu else jlen)
    (hnm : n = if hz then jlen else nu)
    (hu : Is2 u ru cu (ru * cu) ug) (hus : ru * cu < 2 ^ 31) (hx : Is2 x r c (r * c) g) (hxs : r * c < 2 ^ 31) (hw : IsMatrix w rw' cw)
    {a b k1 : ℤ} (n0 : 0 < nu) (j0 : 0 < jlen) (k11 : 1 ≤ k1) (k1r : k1 + nu ≤ ru + 1) (k1c : k1 + nu ≤ cu + 1) (a1 : 1 ≤ a) (b1 : 1 ≤ b)
    (am : a + m ≤ r + 1) (bn : b + n ≤ c + 1) (wm : m ≤ rw') (wn : n ≤ cw) :
    ∃ x' w', qr5Block hz nu jlen ru r rw' r a b k1 u x w = pure (x', w') ∧ IsMatrix w' rw' cw ∧ Is2 x' r c (r * c) (fun i j =>
      if (a ≤ i ∧ i < a + m) ∧ (b ≤ j ∧ j < b + n) then
        gemmEntry (!hz) nu one zero
          (fun l => if hz then ug (k1 + l) (k1 + (i - a)) else g i (b + l))
          (fun l => if hz then g (a + l) j else ug (k1 + l) (k1 + (j - b)))
          (ofList2 rw' w.data (i - a + 1) (j - b + 1))
      else g i j) := by
  have m0 : 0 < m := by rw [hmn]; split <;> omega
  have n0' : 0 < n := by rw [hnm]; split <;> omega
  have r0 : 0 < r := by omega
  have ru0 : 0 < ru := by omega
  have rw0 : 0 < rw' := by omega
  have hfit := fits_rc
  have hrs : r < 2 ^ 31 := lt_of_le_of_lt (Nat.le_mul_of_pos_right r (by omega)) hxs
  have hrus : ru < 2 ^ 31 := lt_of_le_of_lt (Nat.le_mul_of_pos_right ru (by omega)) hus
  have hrws : rw' < 2 ^ 31 := lt_of_le_of_lt (Nat.le_mul_of_pos_right rw' (by omega)) hw.small
  have hxl : x.data.length = r * c := by rw [hx.data, length_tab2]
  have hul : u.data.length = ru * cu := by rw [hu.data, length_tab2]
  have hxm : IsMatrix x r c := ⟨hx.rows, hx.cols, hxl, hxs⟩
  have hum : IsMatrix u ru cu := ⟨hu.rows, hu.cols, hul, hus⟩
  have eu := C07_from2 hum (i := k1) (j := k1) k11 (by omega) k11 (by omega)
  have ex := C07_from2 hxm (i := a) (j := b) a1 (by omega) b1 (by omega)
  have su : Stored (u.data.drop ((k1 - 1) * ru + (k1 - 1)).toNat) ru nu nu := by
    refine sub_stored hu.data hus hrus k11 k11 (by omega) ru0 fun _ _ => ?_
    have := hfit ru cu (k1 + nu - 1) (k1 + nu - 1) (by omega) (by omega) (by omega) (by omega)
    rw [show k1 + (nu : ℤ) - 1 - 1 = k1 + nu - 2 by ring] at this
    exact this
  have sx : Stored (x.data.drop ((b - 1) * r + (a - 1)).toNat) r m n := by
    refine sub_stored hx.data hxs hrs a1 b1 (by omega) r0 fun _ _ => ?_
    have := hfit r c (a + m - 1) (b + n - 1) (by omega) (by omega) (by omega) (by omega)
    rw [show b + (n : ℤ) - 1 - 1 = b + n - 2 by ring, show a + (m : ℤ) - 1 - 1 = a + m - 2 by ring] at this
    exact this
  have sw : Stored w.data rw' m n := by
    refine ⟨rw0, wm, hrws, by rw [hw.length]; exact hw.small, fun i hi j hj => ?_⟩
    rw [hw.length]
    have := hfit rw' cw (i + 1) (j + 1) (by omega) (by omega) (by omega) (by omega)
    have e : ((i + j * rw' : ℕ) : ℤ) = ((j : ℤ) + 1 - 1) * rw' + ((i : ℤ) + 1 - 1) := by push_cast; ring
    rw [← e] at this
    exact_mod_cast this
  have ou : ∀ i j : Nat, i < nu → j < nu → entry (u.data.drop ((k1 - 1) * ru + (k1 - 1)).toNat) ru i j = ug (k1 + i) (k1 + j) := fun i j hi hj =>
    (sub_entry hu.data k11 k11 (by omega) (hfit ru cu (k1 + i) (k1 + j) (by omega) (by omega) (by omega) (by omega))).2
  have ox : ∀ i j : Nat, i < m → j < n → entry (x.data.drop ((b - 1) * r + (a - 1)).toNat) r i j = g (a + i) (b + j) := fun i j hi hj =>
    (sub_entry hx.data a1 b1 (by omega) (hfit r c (a + i) (b + j) (by omega) (by omega) (by omega) (by omega))).2
  have o0 : (0 : ℤ) ≤ (b - 1) * r + (a - 1) := add_nonneg (mul_nonneg (by omega) (by omega)) (by omega)
  have ho : ((b - 1) * r + (a - 1)).toNat ≤ r * c := by
    have := hfit r c a b a1 (by omega) b1 (by omega)
    omega
  generalize hou : ((k1 - 1) * (ru : ℤ) + (k1 - 1)).toNat = U at *
  have eidx := idx_ok hx hxs a1 (by omega : a ≤ r) b1 (by omega : b ≤ c)
  generalize hox : ((b - 1) * (r : ℤ) + (a - 1)).toNat = O at *
  obtain ⟨fu, du, du', iu⟩ := toFa2d_list (v := u.data.drop U) ru0 hrus su.small
  obtain ⟨fx, dx, dx', ix⟩ := toFa2d_list (v := x.data.drop O) r0 hrs sx.small
  -- the product
  obtain ⟨w1, ew, hw1, vw⟩ : ∃ w1, (if hz then dgemm (F := F) 'C' 'N' nu jlen nu one (u.data.drop U) ru (x.data.drop O) r zero w rw'
      else dgemm (F := F) 'N' 'N' jlen nu nu one (x.data.drop O) r (u.data.drop U) ru zero w rw') = (pure w1 : R (FA F)) ∧ IsMatrix w1 rw' cw ∧
      ∀ i j : ℤ, 1 ≤ i → i ≤ m → 1 ≤ j → j ≤ n → ofList2 rw' w1.data i j = gemmEntry (!hz) nu one zero
          (fun l => if hz then ug (k1 + l) (k1 + (i - 1)) else g (a + (i - 1)) (b + l))
          (fun l => if hz then g (a + l) (b + (j - 1)) else ug (k1 + l) (k1 + (j - 1))) (ofList2 rw' w.data i j) := by
    have fin' : ∀ (o : Option (FA F)) (f : ℤ → ℤ → F), Is2 (o.getD w) rw' w.cols w.data.length f → IsMatrix (o.getD w) rw' cw ∧
        ∀ i j : ℤ, 1 ≤ i → i ≤ m → 1 ≤ j → j ≤ n → ofList2 rw' (o.getD w).data i j = f i j := by
      intro o f h
      refine ⟨⟨h.rows, h.cols.trans hw.cols, by rw [h.data, length_tab2, hw.length], hw.small⟩, fun i j i1 i2 j1 j2 => ?_⟩
      have hf := sw.fits (i - 1).toNat (by omega) (j - 1).toNat (by omega)
      unfold ofList2
      rw [List.getD_eq_getElem?_getD, h.data, tab2_at (by omega) hf, Option.getD_some]
      congr 1 <;> omega
    cases hz with
    | true =>
      rw [if_pos rfl] at hmn hnm
      subst hmn hnm
      obtain ⟨o, e, h⟩ := dgemmFA_ok (ta := 'C') (tb := 'N') (by simp [TransFlag]) (by simp [TransFlag]) (m := m) (n := n) (k := m) (lda' := ru) (ldb' := r) (ldc' := rw') one zero
        (a := fu) (b := fx) (c := w) (lda := ru) (ldb := r) (ldc := rw') (by simp [storedRows, noTrans]; omega) (by simp [storedRows, noTrans]; omega) (by omega) iu.rows ix.rows hw.rows
        (by rw [du']; exact su) (by rw [dx']; exact sx) sw
      obtain ⟨q1, q2⟩ := fin' o _ h
      refine ⟨o.getD w, ?_, q1, fun i j i1 i2 j1 j2 => ?_⟩
      · rw [if_pos rfl]
        unfold dgemm
        rw [du, dx]
        show (dgemmFA 'C' 'N' m n m one fu ru fx r zero w rw' >>= _) = _
        rw [e]
        cases o <;> rfl
      · rw [q2 i j i1 i2 j1 j2, if_pos ⟨⟨i1, i2⟩, j1, j2⟩]
        refine gemmEntry_congr ?_ ?_
        · intro l hl
          rw [du']
          have := ou l (i - 1).toNat hl (by omega)
          rw [show (((i - 1).toNat : ℕ) : ℤ) = i - 1 by omega] at this
          exact this
        · intro l hl
          rw [dx']
          have := ox l (j - 1).toNat hl (by omega)
          rw [show (((j - 1).toNat : ℕ) : ℤ) = j - 1 by omega] at this
          exact this
    | false =>
      rw [if_neg (by simp)] at hmn hnm
      subst hmn hnm
      obtain ⟨o, e, h⟩ := dgemmFA_ok (ta := 'N') (tb := 'N') (by simp [TransFlag]) (by simp [TransFlag]) (m := m) (n := n) (k := n) (lda' := r) (ldb' := ru) (ldc' := rw') one zero
        (a := fx) (b := fu) (c := w) (lda := r) (ldb := ru) (ldc := rw') (by simp [storedRows, noTrans]; omega) (by simp [storedRows, noTrans]; omega) (by omega) ix.rows iu.rows hw.rows
        (by rw [dx']; exact sx) (by rw [du']; exact su) sw
      obtain ⟨q1, q2⟩ := fin' o _ h
      refine ⟨o.getD w, ?_, q1, fun i j i1 i2 j1 j2 => ?_⟩
      · rw [if_neg (by simp)]
        unfold dgemm
        rw [du, dx]
        show (dgemmFA 'N' 'N' m n n one fx r fu ru zero w rw' >>= _) = _
        rw [e]
        cases o <;> rfl
      · rw [q2 i j i1 i2 j1 j2, if_pos ⟨⟨i1, i2⟩, j1, j2⟩]
        refine gemmEntry_congr ?_ ?_
        · intro l hl
          rw [dx']
          have := ox (i - 1).toNat l (by omega) hl
          rw [show (((i - 1).toNat : ℕ) : ℤ) = i - 1 by omega] at this
          exact this
        · intro l hl
          rw [du']
          have := ou l (j - 1).toNat hl (by omega)
          rw [show (((j - 1).toNat : ℕ) : ℤ) = j - 1 by omega] at this
          exact this
  obtain ⟨x1, e1, i1⟩ := dlacpyFA_ok (uplo := 'A') (m := m) (n := n) (a := w1) (b := fx) (lda := rw') (ldb := r) hw1.rows ix.rows
    (by
      refine ⟨rw0, wm, hrws, by rw [hw1.length]; exact hw.small, ?_⟩
      intro i hi j hj
      rw [hw1.length, ← hw.length]
      exact sw.fits i hi j hj) (by rw [dx']; exact sx)
  have hcp : (if hz then dlacpy (F := F) 'A' nu jlen w1 rw' fx r else dlacpy (F := F) 'A' jlen nu w1 rw' fx r) = (pure x1 : R (FA F)) := by
    have : (if hz then dlacpy (F := F) 'A' nu jlen w1 rw' fx r else dlacpy (F := F) 'A' jlen nu w1 rw' fx r) = (dlacpy (F := F) 'A' m n w1 rw' fx r : R (FA F)) := by
      rw [hmn, hnm]; cases hz <;> rfl
    rw [this]
    unfold dlacpy
    show (dlacpyFA 'A' m n w1 fx >>= _) = _
    rw [e1]; rfl
  have ht : takeTo x.data ((O : ℤ) + 1) = pure (x.data.take O) := takeTo_ok (by rw [hxl]; exact ho) (by rw [hxl]; exact hxs)
  -- the spliced array
  set G : ℤ → ℤ → F := fun i j => if (a ≤ i ∧ i < a + m) ∧ (b ≤ j ∧ j < b + n) then ofList2 rw' w1.data (i - a + 1) (j - b + 1) else g i j with hG
  have hsp : x.data.take O ++ x1.data = tab2 r (r * c) G := by
    rw [i1.data, hG, ← splice hx.data a1 b1 (by omega) r0 (ofList2 rw' w1.data) (by rw [hox]; exact ho), hox, dx', List.length_drop, hxl]
    congr 1
    refine tab2_congr r0 fun i j i1 i2 j1 => ?_
    show (if _ then (if uploLo 'A' j ≤ i ∧ i ≤ uploHi 'A' m j then _ else _) else _) = _
    rw [show touchedRows 'A' m n = m by simp [touchedRows]]
    by_cases hb : (1 ≤ i ∧ i ≤ (m : ℤ)) ∧ 1 ≤ j ∧ j ≤ (n : ℤ)
    · rw [if_pos hb, if_pos hb, if_pos (by simp [uploLo, uploHi]; omega)]
    · rw [if_neg hb, if_neg hb]
  have hlen : (x.data.take O ++ x1.data).length = r * c := by rw [hsp, length_tab2]
  obtain ⟨x2, e2, d2, i2⟩ := toFa2d_list (v := x.data.take O ++ x1.data) r0 hrs (by rw [hlen]; exact hxs)
  refine ⟨x2, w1, ?_, hw1, ?_⟩
  · unfold qr5Block
    rw [eu, ex, pure_bind, pure_bind]
    cases hz
    · simp only [Bool.false_eq_true, if_false] at ew hcp ⊢
      rw [ew, pure_bind, dx, pure_bind, hcp, pure_bind, eidx, pure_bind, ht, pure_bind, e2, pure_bind]
    · simp only [if_true] at ew hcp ⊢
      rw [ew, pure_bind, dx, pure_bind, hcp, pure_bind, eidx, pure_bind, ht, pure_bind, e2, pure_bind]
  · refine ⟨i2.rows, ?_, ?_⟩
    · rw [i2.cols, hlen, Nat.mul_div_cancel_left _ r0]
    · rw [d2, hsp]
      refine tab2_congr r0 fun i j i1 i2 j1 => ?_
      rw [hG]
      dsimp only
      by_cases hb : (a ≤ i ∧ i < a + m) ∧ b ≤ j ∧ j < b + n
      · rw [if_pos hb, if_pos hb, vw _ _ (by omega) (by omega) (by omega) (by omega)]
        congr 1
        · funext l; rw [show i - a + 1 - 1 = i - a by ring, show a + (i - a) = i by ring]
        · funext l; rw [show j - b + 1 - 1 = j - b by ring, show b + (j - b) = j by ring]
      · rw [if_neg hb, if_neg hb]

end

end Verif
