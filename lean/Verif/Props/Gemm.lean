import Verif.Lib.Gemm
import Verif.Spec.Mat
import Verif.Props.Convert

/-!
# `dgemm` (C20–C24): parametric part
-/

set_option linter.unusedSectionVars false

namespace Verif
open Scalar Spec

variable {F : Type} [Scalar F]

/-! ### From stored matrices to cells -/

theorem Spec.Stored.block {v : List F} {ld r c : Nat} (h : Stored v ld r c) :
    Block ld v.length r c := by
  intro i j h1 h2 h3 h4
  have := h.rows
  have hf := h.fits (i - 1).toNat (by omega) (j - 1).toNat (by omega)
  have hf' : (((i - 1).toNat + (j - 1).toNat * ld : Nat) : Int) < v.length := by exact_mod_cast hf
  push_cast at hf'
  rw [Int.toNat_of_nonneg (by omega), Int.toNat_of_nonneg (by omega)] at hf'
  exact ⟨h1, by omega, h3, by omega⟩

theorem entry_ofList2 (v : List F) (ld i j : Nat) :
    ofList2 ld v ((i : Int) + 1) ((j : Int) + 1) = entry v ld i j := by
  unfold ofList2 entry
  have e1 : ((i : Int) + 1 - 1).toNat = i := by omega
  have e2 : ((j : Int) + 1 - 1).toNat = j := by omega
  rw [e1, e2]

theorem tab2_at {ld L : Nat} {g : Int → Int → F} {i j : Nat} (hi : i < ld) (h : i + j * ld < L) :
    (tab2 ld L g)[i + j * ld]? = some (g ((i : Int) + 1) ((j : Int) + 1)) := by
  rw [tab2_getElem?, if_pos h, Nat.add_mul_mod_self_right, Nat.mod_eq_of_lt hi,
    Nat.add_mul_div_right _ _ (by omega), Nat.div_eq_of_lt hi, Nat.zero_add]

/-- Outside the block a result that agrees with the old matrix there is unchanged. -/
theorem tab2_frame {v : List F} {ld r c : Nat} (h0 : 0 < ld) {g : Int → Int → F}
    (hg : ∀ i j : Int, ¬ ((1 ≤ i ∧ i ≤ r) ∧ (1 ≤ j ∧ j ≤ c)) → g i j = ofList2 ld v i j)
    {p : Nat} (hp : ¬ InBlock ld r c p) : (tab2 ld v.length g)[p]? = v[p]? := by
  conv_rhs => rw [← tab2_ofList2 h0 v]
  rw [tab2_getElem?, tab2_getElem?]
  split
  · rw [hg]
    rintro ⟨⟨h1, h2⟩, h3, h4⟩
    apply hp
    refine ⟨p % ld, by omega, p / ld, ?_, ?_⟩
    · generalize p / ld = q at *; omega
    · rw [Nat.mul_comm]; exact (Nat.mod_add_div p ld).symm
  · rfl

/-! ### Flags -/

theorem lsame_N {t : Char} (h : TransFlag t) : lsame t 'N' = noTrans t := by
  unfold TransFlag at h
  simp only [List.mem_cons, List.not_mem_nil, or_false] at h
  rcases h with rfl | rfl | rfl | rfl | rfl | rfl <;> decide

theorem lsame_flag {t : Char} (h : TransFlag t) :
    (lsame t 'N' || lsame t 'C' || lsame t 'T') = true := by
  unfold TransFlag at h
  simp only [List.mem_cons, List.not_mem_nil, or_false] at h
  rcases h with rfl | rfl | rfl | rfl | rfl | rfl <;> decide

/-- Number of rows of the stored `A` (resp. `B`), whose `op` is `r`-by-`c`. -/
abbrev storedRows (t : Char) (r c : Nat) : Nat := if noTrans t then r else c
/-- Number of columns of the stored matrix whose `op` is `r`-by-`c`. -/
abbrev storedCols (t : Char) (r c : Nat) : Nat := if noTrans t then c else r

theorem dgemmInfo_zero {ta tb : Char} (hta : TransFlag ta) (htb : TransFlag tb) {m n k : Nat}
    {lda ldb ldc : Int}
    (h1 : max 1 (storedRows ta m k : Int) ≤ lda) (h2 : max 1 (storedRows tb k n : Int) ≤ ldb)
    (h3 : max 1 (m : Int) ≤ ldc) : dgemmInfo ta tb m n k lda ldb ldc = 0 := by
  unfold dgemmInfo
  have e1 := lsame_flag hta
  have e2 := lsame_flag htb
  have f1 := lsame_N hta
  have f2 := lsame_N htb
  rw [f1] at e1; rw [f2] at e2
  simp only [Bool.or_eq_true] at e1 e2
  have g1 : (if noTrans ta = true then (m : Int) else k) = (storedRows ta m k : Nat) := by
    unfold storedRows; split <;> rfl
  have g2 : (if noTrans tb = true then (k : Int) else n) = (storedRows tb k n : Nat) := by
    unfold storedRows; split <;> rfl
  simp only [f1, f2, g1, g2]
  rw [if_neg (by revert e1; cases noTrans ta <;> cases lsame ta 'C' <;> cases lsame ta 'T' <;> simp),
    if_neg (by revert e2; cases noTrans tb <;> cases lsame tb 'C' <;> cases lsame tb 'T' <;> simp),
    if_neg (by omega), if_neg (by omega), if_neg (by omega), if_neg (by omega), if_neg (by omega),
    if_neg (by omega)]

theorem betaVal_eq (beta x : F) : betaVal beta x = scaled beta x := by
  unfold betaVal scaled
  cases (beta =ᶠ zero) <;> cases (beta =ᶠ one) <;> rfl

/-- The whole of `dgemm` on arrays. -/
theorem dgemmFA_ok {ta tb : Char} (hta : TransFlag ta) (htb : TransFlag tb) {m n k : Nat}
    {lda' ldb' ldc' : Int} (alpha beta : F) {a b c : FA F} {lda ldb ldc : Nat}
    (h1 : max 1 (storedRows ta m k : Int) ≤ lda') (h2 : max 1 (storedRows tb k n : Int) ≤ ldb')
    (h3 : max 1 (m : Int) ≤ ldc')
    (ra : a.rows = lda) (rb : b.rows = ldb) (rc : c.rows = ldc)
    (sa : Stored a.data lda (storedRows ta m k) (storedCols ta m k))
    (sb : Stored b.data ldb (storedRows tb k n) (storedCols tb k n))
    (sc : Stored c.data ldc m n) :
    ∃ o : Option (FA F), dgemmFA ta tb m n k alpha a lda' b ldb' beta c ldc' = pure o ∧
      Is2 (o.getD c) ldc c.cols c.data.length (fun i j =>
        if (1 ≤ i ∧ i ≤ m) ∧ (1 ≤ j ∧ j ≤ n) then
          gemmEntry (noTrans ta) k alpha beta
            (fun l => op ta (entry a.data lda) (i - 1).toNat l)
            (fun l => op tb (entry b.data ldb) l (j - 1).toNat)
            (ofList2 ldc c.data i j)
        else ofList2 ldc c.data i j) := by
  have ia := is2_ofList ra sa.pos
  have ib := is2_ofList rb sb.pos
  have ic := is2_ofList rc sc.pos
  have bA := sa.block
  have bB := sb.block
  have bC := sc.block
  have hinfo := dgemmInfo_zero hta htb (m := m) (n := n) (k := k) h1 h2 h3
  have hB : ∀ l j : Nat, opB (!noTrans tb) (ofList2 ldb b.data) ((l : Int) + 1) ((j : Int) + 1) =
      op tb (entry b.data ldb) l j := by
    intro l j
    unfold opB op
    cases noTrans tb <;> simp [entry_ofList2]
  have hbB : if (!noTrans tb) then Block ldb b.data.length n k else Block ldb b.data.length k n := by
    unfold storedRows storedCols at bB
    cases h : noTrans tb <;> simpa [h] using bB
  unfold dgemmFA
  simp only [hinfo, ne_eq, not_true_eq_false, if_false, lsame_N hta, lsame_N htb]
  by_cases hq : ((m : Int) = 0 ∨ (n : Int) = 0 ∨
      (((alpha =ᶠ zero) = true ∨ (k : Int) = 0) ∧ (beta =ᶠ one) = true))
  · rw [if_pos hq]
    refine ⟨none, rfl, ?_⟩
    apply Is2.congr sc.pos ic
    intro i j hi1 hi2 hj1
    by_cases hb : (1 ≤ i ∧ i ≤ m) ∧ (1 ≤ j ∧ j ≤ n)
    · rw [if_pos hb]
      obtain ⟨hak, hbt⟩ : ((alpha =ᶠ zero) = true ∨ (k : Int) = 0) ∧ (beta =ᶠ one) = true := by
        rcases hq with h | h | h
        · omega
        · omega
        · exact h
      unfold gemmEntry
      rw [if_pos ⟨hak.imp id (fun h => by omega), hbt⟩]
    · rw [if_neg hb]
  · rw [if_neg hq]
    have hm : 0 < m := by omega
    have hn : 0 < n := by omega
    have hq' : ¬ (((alpha =ᶠ zero) = true ∨ k = 0) ∧ (beta =ᶠ one) = true) := by
      rintro ⟨h, h'⟩
      exact hq (Or.inr (Or.inr ⟨h.imp id (fun h => by omega), h'⟩))
    by_cases ha0 : (alpha =ᶠ zero) = true
    · have hb1 : (beta =ᶠ one) = false := by
        cases h : (beta =ᶠ one)
        · rfl
        · exact absurd ⟨Or.inl ha0, h⟩ hq'
      rw [if_pos ha0]
      by_cases hb0 : (beta =ᶠ zero) = true
      · rw [if_pos hb0]
        obtain ⟨c', e1, e2⟩ := zeroBlock_ok sc.small bC ic
        refine ⟨some c', by rw [e1]; rfl, ?_⟩
        apply Is2.congr sc.pos e2
        intro i j _ _ _
        unfold gemmEntry scaled
        rw [if_neg hq', if_pos ha0, if_pos hb0]
      · rw [if_neg hb0]
        obtain ⟨c', e1, e2⟩ := scaleBlock_ok sc.small bC beta ic
        refine ⟨some c', by rw [e1]; rfl, ?_⟩
        apply Is2.congr sc.pos e2
        intro i j _ _ _
        unfold gemmEntry scaled
        rw [if_neg hq', if_pos ha0, if_neg hb0, hb1]
        rfl
    · rw [if_neg ha0]
      have hmain : ∃ c', (if noTrans ta then gemmNotA (!noTrans tb) m n k alpha a b beta c
          else gemmTransA (!noTrans tb) m n k alpha a b beta c) = pure c' ∧
          Is2 c' ldc c.cols c.data.length (fun i j =>
            if (1 ≤ i ∧ i ≤ (m : Int)) ∧ (1 ≤ j ∧ j ≤ (n : Int)) then
              gemmEntry (noTrans ta) k alpha beta
                (fun l => op ta (entry a.data lda) (i - 1).toNat l)
                (fun l => op tb (entry b.data ldb) l (j - 1).toNat)
                (ofList2 ldc c.data i j)
            else ofList2 ldc c.data i j) := by
        cases hnt : noTrans ta
        · obtain ⟨c', e1, e2⟩ := gemmTransA_ok (m := m) (n := n) (k := k) sc.small sa.small sb.small
            bC ia (by simpa [storedRows, storedCols, hnt] using bA) ib (!noTrans tb) hbB alpha beta ic
          refine ⟨c', by simpa using e1, ?_⟩
          apply Is2.congr sc.pos e2
          intro i j _ _ _
          by_cases hb : (1 ≤ i ∧ i ≤ (m : Int)) ∧ (1 ≤ j ∧ j ≤ (n : Int))
          · rw [if_pos hb, if_pos hb]
            obtain ⟨i', rfl⟩ : ∃ i' : Nat, i = (i' : Int) + 1 := ⟨(i - 1).toNat, by omega⟩
            obtain ⟨j', rfl⟩ : ∃ j' : Nat, j = (j' : Int) + 1 := ⟨(j - 1).toNat, by omega⟩
            have e1 : ((i' : Int) + 1 - 1).toNat = i' := by omega
            have e2 : ((j' : Int) + 1 - 1).toNat = j' := by omega
            unfold gemmEntry storeVal
            rw [if_neg hq', if_neg ha0, e1, e2, irange_one_eq, List.foldl_map]
            simp only [hB, op, hnt, entry_ofList2, Bool.false_eq_true, if_false]
          · rw [if_neg hb, if_neg hb]
        · obtain ⟨c', e1, e2⟩ := gemmNotA_ok (m := m) (n := n) (k := k) sc.small sa.small sb.small
            bC ia (by simpa [storedRows, storedCols, hnt] using bA) ib (!noTrans tb) hbB alpha beta ic
          refine ⟨c', by simpa using e1, ?_⟩
          apply Is2.congr sc.pos e2
          intro i j _ _ _
          by_cases hb : (1 ≤ i ∧ i ≤ (m : Int)) ∧ (1 ≤ j ∧ j ≤ (n : Int))
          · rw [if_pos hb, if_pos hb]
            obtain ⟨i', rfl⟩ : ∃ i' : Nat, i = (i' : Int) + 1 := ⟨(i - 1).toNat, by omega⟩
            obtain ⟨j', rfl⟩ : ∃ j' : Nat, j = (j' : Int) + 1 := ⟨(j - 1).toNat, by omega⟩
            have e1 : ((i' : Int) + 1 - 1).toNat = i' := by omega
            have e2 : ((j' : Int) + 1 - 1).toNat = j' := by omega
            unfold gemmEntry
            rw [if_neg hq', if_neg ha0, e1, e2, irange_one_eq, List.foldl_map, betaVal_eq]
            simp only [hB, op, hnt, entry_ofList2, if_true]
          · rw [if_neg hb, if_neg hb]
      obtain ⟨c', e1, e2⟩ := hmain
      refine ⟨some c', ?_, e2⟩
      cases hnb : noTrans tb <;> cases hna : noTrans ta <;>
        simp only [hnb, hna, Bool.not_true, Bool.not_false, if_true, if_false,
          Bool.false_eq_true] at e1 ⊢ <;> rw [e1] <;> rfl

/-- What a matrix routine does to its output matrix: entries of the leading `m`-by-`n` block become
`val i j`, everything else, and the length, is unchanged. -/
structure Updated (ld m n : Nat) (old new : List F) (val : Nat → Nat → F) : Prop where
  length : new.length = old.length
  block : ∀ i < m, ∀ j < n, new[i + j * ld]? = some (val i j)
  frame : ∀ p, ¬ InBlock ld m n p → new[p]? = old[p]?

theorem updated_of_is2 {c c' : FA F} {ld m n : Nat} {cols : Int} {g : Int → Int → F}
    (sc : Stored c.data ld m n) (h : Is2 c' ld cols c.data.length (fun i j =>
      if (1 ≤ i ∧ i ≤ (m : Int)) ∧ (1 ≤ j ∧ j ≤ (n : Int)) then g i j else ofList2 ld c.data i j)) :
    Updated ld m n c.data c'.data (fun i j => g ((i : Int) + 1) ((j : Int) + 1)) where
  length := by rw [h.data, length_tab2]
  block := by
    intro i hi j hj
    have := sc.rows
    rw [h.data, tab2_at (by omega) (sc.fits i hi j hj), if_pos (by omega)]
  frame := by
    intro p hp
    rw [h.data]
    exact tab2_frame sc.pos (fun i j hij => if_neg hij) hp

/-- **C21, C24 (flat vectors).** For legal arguments `dgemm` returns normally in both profiles; entry
`(i, j)` of the block is the value of one fixed sequence of operations on row `i` of `op(A)`, column
`j` of `op(B)` and the old entry, and nothing else changes (`A` and `B` are passed by reference and
are not results of the call). -/
theorem C24_dgemm {ta tb : Char} (hta : TransFlag ta) (htb : TransFlag tb) (m n k : Nat)
    (alpha beta : F) (a b c : List F) (lda ldb ldc : Nat)
    (sa : Stored a lda (storedRows ta m k) (storedCols ta m k))
    (sb : Stored b ldb (storedRows tb k n) (storedCols tb k n))
    (sc : Stored c ldc m n) :
    ∃ c', dgemm ta tb m n k alpha a lda b ldb beta c ldc = (pure c' : R (List F)) ∧
      Updated ldc m n c c' (fun i j => gemmEntry (noTrans ta) k alpha beta
        (fun l => op ta (entry a lda) i l) (fun l => op tb (entry b ldb) l j) (entry c ldc i j)) := by
  obtain ⟨fa, ea, da, ia⟩ := toFa2d_list (v := a) sa.pos sa.ldSmall sa.small
  obtain ⟨fb, eb, db, ib⟩ := toFa2d_list (v := b) sb.pos sb.ldSmall sb.small
  obtain ⟨fc, ec, dc, ic⟩ := toFa2d_list (v := c) sc.pos sc.ldSmall sc.small
  subst da db dc
  have pa := sa.pos; have ra := sa.rows
  have pb := sb.pos; have rb := sb.rows
  have pc := sc.pos; have rc := sc.rows
  obtain ⟨o, e1, e2⟩ := dgemmFA_ok hta htb (lda' := lda) (ldb' := ldb) (ldc' := ldc) alpha beta
    (by omega) (by omega) (by omega) ia.rows ib.rows ic.rows sa sb sc
  refine ⟨(o.getD fc).data, ?_, ?_⟩
  · unfold dgemm
    rw [ea, eb, ec]
    simp only [pure_bind]
    rw [e1, pure_bind]
    cases o <;> rfl
  · have := updated_of_is2 sc e2
    simpa only [entry_ofList2, add_sub_cancel_right, Int.toNat_natCast] using this

/-- **C21, C24 (`FortranArray`).** The same for 2-D arrays; the leading dimension of the data is the
array's own row count, the `ld` arguments only have to be legal. -/
theorem C24_dgemm_array {ta tb : Char} (hta : TransFlag ta) (htb : TransFlag tb) (m n k : Nat)
    (alpha beta : F) (a b c : FA F) (lda ldb ldc : Int) (ra rb rc : Nat)
    (hla : max 1 (storedRows ta m k : Int) ≤ lda) (hlb : max 1 (storedRows tb k n : Int) ≤ ldb)
    (hlc : max 1 (m : Int) ≤ ldc)
    (ha : a.rows = ra) (hb : b.rows = rb) (hc : c.rows = rc)
    (sa : Stored a.data ra (storedRows ta m k) (storedCols ta m k))
    (sb : Stored b.data rb (storedRows tb k n) (storedCols tb k n))
    (sc : Stored c.data rc m n) :
    ∃ c', dgemm ta tb m n k alpha a lda b ldb beta c ldc = (pure c' : R (FA F)) ∧
      c'.rows = c.rows ∧ c'.cols = c.cols ∧
      Updated rc m n c.data c'.data (fun i j => gemmEntry (noTrans ta) k alpha beta
        (fun l => op ta (entry a.data ra) i l) (fun l => op tb (entry b.data rb) l j)
        (entry c.data rc i j)) := by
  obtain ⟨o, e1, e2⟩ := dgemmFA_ok hta htb alpha beta hla hlb hlc ha hb hc sa sb sc
  refine ⟨o.getD c, ?_, ?_, e2.cols, ?_⟩
  · unfold dgemm
    show (dgemmFA ta tb m n k alpha a lda b ldb beta c ldc >>= _) = _
    rw [e1, pure_bind]
    cases o <;> rfl
  · rw [hc]; exact e2.rows
  · have := updated_of_is2 sc e2
    simpa only [entry_ofList2, add_sub_cancel_right, Int.toNat_natCast] using this

/-- Entry `(i, j)` of a square nested vector: the inner vectors are the columns. -/
theorem rect_entry {w : List (List F)} {s : Nat} (hw : Rect w s s) {i j : Nat} (hi : i < s) :
    w.flatten[i + j * s]? = (w[j]?).bind (fun x => x[i]?) := by
  rw [flatten_getElem? (by omega) hw, Nat.add_mul_mod_self_right, Nat.mod_eq_of_lt hi,
    Nat.add_mul_div_right _ _ (by omega), Nat.div_eq_of_lt hi, Nat.zero_add]

/-- **C21, C24 (square nested vectors).** `a`, `b`, `c` are square, given by their columns. -/
theorem C24_dgemm_nested {ta tb : Char} (hta : TransFlag ta) (htb : TransFlag tb) (m n k : Nat)
    (alpha beta : F) (a b c : List (List F)) (lda ldb ldc : Int) (ra rb rc : Nat)
    (hla : max 1 (storedRows ta m k : Int) ≤ lda) (hlb : max 1 (storedRows tb k n : Int) ≤ ldb)
    (hlc : max 1 (m : Int) ≤ ldc)
    (ha : Rect a ra ra) (hb : Rect b rb rb) (hc : Rect c rc rc)
    (sa : Stored a.flatten ra (storedRows ta m k) (storedCols ta m k))
    (sb : Stored b.flatten rb (storedRows tb k n) (storedCols tb k n))
    (sc : Stored c.flatten rc m n) :
    ∃ c', dgemm ta tb m n k alpha a lda b ldb beta c ldc = (pure c' : R (List (List F))) ∧
      Rect c' rc rc ∧
      Updated rc m n c.flatten c'.flatten (fun i j => gemmEntry (noTrans ta) k alpha beta
        (fun l => op ta (entry a.flatten ra) i l) (fun l => op tb (entry b.flatten rb) l j)
        (entry c.flatten rc i j)) := by
  obtain ⟨a1, a2, a3⟩ := faOfVecVec_shape ha sa.pos sa.ldSmall sa.ldSmall
  obtain ⟨b1, b2, b3⟩ := faOfVecVec_shape hb sb.pos sb.ldSmall sb.ldSmall
  obtain ⟨c1, c2, c3⟩ := faOfVecVec_shape hc sc.pos sc.ldSmall sc.ldSmall
  rw [← a3] at sa; rw [← b3] at sb; rw [← c3] at sc
  obtain ⟨o, e1, e2⟩ := dgemmFA_ok hta htb alpha beta hla hlb hlc a1 b1 c1 sa sb sc
  have hlen : (o.getD (faOfVecVec c)).data.length = rc * rc := by
    rw [e2.data, length_tab2, c3, flatten_length hc]
  obtain ⟨w, f1, f2, f3⟩ := vecVecOfFa_ok (o.getD (faOfVecVec c)) rc rc sc.pos sc.ldSmall sc.ldSmall
    e2.rows (e2.cols.trans c2) hlen.le
  rw [hlen, Nat.sub_self, List.replicate_zero, List.append_nil] at f3
  refine ⟨w, ?_, f2, ?_⟩
  · unfold dgemm
    show (dgemmFA ta tb m n k alpha (faOfVecVec a) lda (faOfVecVec b) ldb beta (faOfVecVec c) ldc
      >>= _) = _
    rw [e1, pure_bind]
    cases o with
    | some r => exact f1
    | none =>
      show pure c = pure w
      rw [rect_ext hc f2 (by rw [f3]; exact c3.symm)]
  · have := updated_of_is2 sc e2
    rw [← f3, c3, a3, b3] at this
    simpa only [entry_ofList2, add_sub_cancel_right, Int.toNat_natCast] using this

/-- A 2×3 matrix with leading dimension 3 times the transpose of a 2×3 matrix: the hypotheses are
met by non-trivial data. -/
example (x : F) : Stored [x, x, x, x, x, x, x, x, x] 3 (storedRows 'N' 2 3) (storedCols 'N' 2 3) ∧
    Stored [x, x, x, x, x, x] 2 (storedRows 'T' 3 2) (storedCols 'T' 3 2) ∧
    Stored [x, x, x, x, x] 3 2 2 := by
  refine ⟨⟨by decide, by decide, by decide, by simp, ?_⟩, ⟨by decide, by decide, by decide, by simp, ?_⟩,
    ⟨by decide, by decide, by decide, by simp, ?_⟩⟩
  all_goals
    intro i hi j hj
    try simp [storedRows, storedCols, noTrans] at hi hj
    simp; omega

/-! ### C23: non-interference -/

/-- An entry depends only on `k` elements of each operand. -/
theorem gemmEntry_congr {nota : Bool} {k : Nat} {alpha beta c : F} {x x' y y' : Nat → F}
    (hx : ∀ l < k, x l = x' l) (hy : ∀ l < k, y l = y' l) :
    gemmEntry nota k alpha beta x y c = gemmEntry nota k alpha beta x' y' c := by
  unfold gemmEntry
  have e1 := foldl_congr' (fun acc l => acc + alpha * y l * x l)
    (fun acc l => acc + alpha * y' l * x' l) (List.range k)
    (fun s l hl => by rw [hx l (List.mem_range.1 hl), hy l (List.mem_range.1 hl)]) (scaled beta c)
  have e2 := foldl_congr' (fun acc l => acc + x l * y l)
    (fun acc l => acc + x' l * y' l) (List.range k)
    (fun s l hl => by rw [hx l (List.mem_range.1 hl), hy l (List.mem_range.1 hl)]) zero
  simp only [e1, e2]

theorem updated_unique {ld m n : Nat} {c₁ c₂ r₁ r₂ : List F} {v₁ v₂ : Nat → Nat → F}
    (h₁ : Updated ld m n c₁ r₁ v₁) (h₂ : Updated ld m n c₂ r₂ v₂)
    (hv : ∀ i < m, ∀ j < n, v₁ i j = v₂ i j)
    (hc : ∀ p, ¬ InBlock ld m n p → c₁[p]? = c₂[p]?) : r₁ = r₂ := by
  apply List.ext_getElem?
  intro p
  by_cases hp : InBlock ld m n p
  · obtain ⟨i, hi, j, hj, rfl⟩ := hp
    rw [h₁.block i hi j hj, h₂.block i hi j hj, hv i hi j hj]
  · rw [h₁.frame p hp, h₂.frame p hp, hc p hp]

/-- **C23, beta = 0.** The result does not depend on the old contents of the block of `C`. -/
theorem C23_beta_zero {ta tb : Char} (hta : TransFlag ta) (htb : TransFlag tb) (m n k : Nat)
    (alpha beta : F) (a b c₁ c₂ : List F) (lda ldb ldc : Nat)
    (sa : Stored a lda (storedRows ta m k) (storedCols ta m k))
    (sb : Stored b ldb (storedRows tb k n) (storedCols tb k n))
    (s₁ : Stored c₁ ldc m n) (s₂ : Stored c₂ ldc m n)
    (h0 : (beta =ᶠ zero) = true) (h1 : (beta =ᶠ one) = false)
    (hc : ∀ p, ¬ InBlock ldc m n p → c₁[p]? = c₂[p]?) :
    (dgemm ta tb m n k alpha a lda b ldb beta c₁ ldc : R (List F)) =
      dgemm ta tb m n k alpha a lda b ldb beta c₂ ldc := by
  obtain ⟨r₁, e₁, u₁⟩ := C24_dgemm hta htb m n k alpha beta a b c₁ lda ldb ldc sa sb s₁
  obtain ⟨r₂, e₂, u₂⟩ := C24_dgemm hta htb m n k alpha beta a b c₂ lda ldb ldc sa sb s₂
  rw [e₁, e₂, updated_unique u₁ u₂ _ hc]
  intro i _ j _
  unfold gemmEntry scaled
  simp only [h0, h1, Bool.false_eq_true, and_false, if_false, if_true]

/-- **C23, beta = 0 (`FortranArray`).** -/
theorem C23_beta_zero_array {ta tb : Char} (hta : TransFlag ta) (htb : TransFlag tb) (m n k : Nat)
    (alpha beta : F) (a b c₁ c₂ : FA F) (lda ldb ldc : Int) (ra rb rc : Nat)
    (hla : max 1 (storedRows ta m k : Int) ≤ lda) (hlb : max 1 (storedRows tb k n : Int) ≤ ldb)
    (hlc : max 1 (m : Int) ≤ ldc)
    (ha : a.rows = ra) (hb : b.rows = rb) (hc₁ : c₁.rows = rc) (hc₂ : c₂.rows = rc)
    (sa : Stored a.data ra (storedRows ta m k) (storedCols ta m k))
    (sb : Stored b.data rb (storedRows tb k n) (storedCols tb k n))
    (s₁ : Stored c₁.data rc m n) (s₂ : Stored c₂.data rc m n)
    (h0 : (beta =ᶠ zero) = true) (h1 : (beta =ᶠ one) = false)
    (hc : ∀ p, ¬ InBlock rc m n p → c₁.data[p]? = c₂.data[p]?) :
    ∃ c₁' c₂' : FA F, dgemm ta tb m n k alpha a lda b ldb beta c₁ ldc = (pure c₁' : R (FA F)) ∧
      dgemm ta tb m n k alpha a lda b ldb beta c₂ ldc = (pure c₂' : R (FA F)) ∧ c₁'.data = c₂'.data := by
  obtain ⟨r₁, e₁, -, -, u₁⟩ := C24_dgemm_array hta htb m n k alpha beta a b c₁ lda ldb ldc ra rb rc hla hlb hlc ha hb hc₁ sa sb s₁
  obtain ⟨r₂, e₂, -, -, u₂⟩ := C24_dgemm_array hta htb m n k alpha beta a b c₂ lda ldb ldc ra rb rc hla hlb hlc ha hb hc₂ sa sb s₂
  refine ⟨r₁, r₂, e₁, e₂, updated_unique u₁ u₂ ?_ hc⟩
  intro i _ j _
  unfold gemmEntry scaled
  simp only [h0, h1, Bool.false_eq_true, and_false, if_false, if_true]

/-- **C23, beta = 0 (square nested vectors).** -/
theorem C23_beta_zero_nested {ta tb : Char} (hta : TransFlag ta) (htb : TransFlag tb) (m n k : Nat)
    (alpha beta : F) (a b c₁ c₂ : List (List F)) (lda ldb ldc : Int) (ra rb rc : Nat)
    (hla : max 1 (storedRows ta m k : Int) ≤ lda) (hlb : max 1 (storedRows tb k n : Int) ≤ ldb)
    (hlc : max 1 (m : Int) ≤ ldc)
    (ha : Rect a ra ra) (hb : Rect b rb rb) (hc₁ : Rect c₁ rc rc) (hc₂ : Rect c₂ rc rc)
    (sa : Stored a.flatten ra (storedRows ta m k) (storedCols ta m k))
    (sb : Stored b.flatten rb (storedRows tb k n) (storedCols tb k n))
    (s₁ : Stored c₁.flatten rc m n) (s₂ : Stored c₂.flatten rc m n)
    (h0 : (beta =ᶠ zero) = true) (h1 : (beta =ᶠ one) = false)
    (hc : ∀ p, ¬ InBlock rc m n p → c₁.flatten[p]? = c₂.flatten[p]?) :
    ∃ c₁' c₂' : List (List F), dgemm ta tb m n k alpha a lda b ldb beta c₁ ldc = (pure c₁' : R (List (List F))) ∧
      dgemm ta tb m n k alpha a lda b ldb beta c₂ ldc = (pure c₂' : R (List (List F))) ∧
      Rect c₁' rc rc ∧ Rect c₂' rc rc ∧ c₁'.flatten = c₂'.flatten := by
  obtain ⟨r₁, e₁, q₁, u₁⟩ := C24_dgemm_nested hta htb m n k alpha beta a b c₁ lda ldb ldc ra rb rc hla hlb hlc ha hb hc₁ sa sb s₁
  obtain ⟨r₂, e₂, q₂, u₂⟩ := C24_dgemm_nested hta htb m n k alpha beta a b c₂ lda ldb ldc ra rb rc hla hlb hlc ha hb hc₂ sa sb s₂
  refine ⟨r₁, r₂, e₁, e₂, q₁, q₂, updated_unique u₁ u₂ ?_ hc⟩
  intro i _ j _
  unfold gemmEntry scaled
  simp only [h0, h1, Bool.false_eq_true, and_false, if_false, if_true]

theorem dgemmFA_alpha_zero {ta tb : Char} (m n k : Int) (alpha beta : F) (a a' b b' c : FA F)
    (lda ldb ldc : Int) (h0 : (alpha =ᶠ zero) = true) :
    dgemmFA ta tb m n k alpha a lda b ldb beta c ldc =
      dgemmFA ta tb m n k alpha a' lda b' ldb beta c ldc := by
  unfold dgemmFA
  simp only [h0, if_true]

/-- **C23, alpha = 0.** The result does not depend on `A` and `B`, which may even be too short. -/
theorem C23_alpha_zero {ta tb : Char} (m n k : Int) (alpha beta : F) (a a' b b' c : List F)
    (lda ldb ldc : Nat) (ha : 0 < lda) (hb : 0 < ldb) (ha' : lda < 2 ^ 31) (hb' : ldb < 2 ^ 31)
    (la : a.length < 2 ^ 31) (la' : a'.length < 2 ^ 31) (lb : b.length < 2 ^ 31)
    (lb' : b'.length < 2 ^ 31) (h0 : (alpha =ᶠ zero) = true) :
    (dgemm ta tb m n k alpha a lda b ldb beta c ldc : R (List F)) =
      dgemm ta tb m n k alpha a' lda b' ldb beta c ldc := by
  obtain ⟨fa, ea, -⟩ := toFa2d_list (v := a) ha ha' la
  obtain ⟨fa', ea', -⟩ := toFa2d_list (v := a') ha ha' la'
  obtain ⟨fb, eb, -⟩ := toFa2d_list (v := b) hb hb' lb
  obtain ⟨fb', eb', -⟩ := toFa2d_list (v := b') hb hb' lb'
  unfold dgemm
  rw [ea, ea', eb, eb']
  simp only [pure_bind]
  simp only [fun fc => dgemmFA_alpha_zero (ta := ta) (tb := tb) m n k alpha beta fa fa' fb fb' fc
    lda ldb ldc h0]

/-- **C23, alpha = 0 (`FortranArray`).** -/
theorem C23_alpha_zero_array {ta tb : Char} (m n k : Int) (alpha beta : F) (a a' b b' c : FA F)
    (lda ldb ldc : Int) (h0 : (alpha =ᶠ zero) = true) :
    (dgemm ta tb m n k alpha a lda b ldb beta c ldc : R (FA F)) =
      dgemm ta tb m n k alpha a' lda b' ldb beta c ldc := by
  unfold dgemm
  simp only [ToFA.toFa2d, pure_bind]
  simp only [fun fc => dgemmFA_alpha_zero (ta := ta) (tb := tb) m n k alpha beta a a' b b' fc
    lda ldb ldc h0]

/-- **C23, nothing to do.** `m = 0`, `n = 0`, or (`alpha = 0` or `k = 0`) and `beta = 1`: `C` is
returned as it was. -/
theorem C23_unchanged {ta tb : Char} (hta : TransFlag ta) (htb : TransFlag tb) (m n k : Nat)
    (alpha beta : F) (a b c : List F) (lda ldb ldc : Nat)
    (hla : max 1 (storedRows ta m k) ≤ lda) (hlb : max 1 (storedRows tb k n) ≤ ldb)
    (hlc : max 1 m ≤ ldc) (ha' : lda < 2 ^ 31) (hb' : ldb < 2 ^ 31) (hc' : ldc < 2 ^ 31)
    (la : a.length < 2 ^ 31) (lb : b.length < 2 ^ 31) (lc : c.length < 2 ^ 31)
    (h : m = 0 ∨ n = 0 ∨ (((alpha =ᶠ zero) = true ∨ k = 0) ∧ (beta =ᶠ one) = true)) :
    dgemm ta tb m n k alpha a lda b ldb beta c ldc = (pure c : R (List F)) := by
  obtain ⟨fa, ea, -⟩ := toFa2d_list (v := a) (by omega) ha' la
  obtain ⟨fb, eb, -⟩ := toFa2d_list (v := b) (by omega) hb' lb
  obtain ⟨fc, ec, -⟩ := toFa2d_list (v := c) (by omega) hc' lc
  unfold dgemm
  rw [ea, eb, ec]
  simp only [pure_bind]
  unfold dgemmFA
  rw [dgemmInfo_zero hta htb (by omega) (by omega) (by omega), if_neg (by simp), if_pos]
  · rfl
  · rcases h with h | h | ⟨h, h'⟩
    · left; omega
    · right; left; omega
    · right; right; exact ⟨h.imp id (by omega), h'⟩

end Verif
