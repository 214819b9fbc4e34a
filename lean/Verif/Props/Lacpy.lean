import Verif.Props.Gemm
import Verif.Model.Lapack

/-!
# `dlacpy` and `dlaset` (C29, C30)
-/

set_option linter.unusedSectionVars false

namespace Verif
open Scalar Spec

variable {F : Type} [Scalar F]

/-! ### Specification -/

/-- The entries (0-based) that `uplo` selects in the two routines: with `'U'` those on and *below*
the diagonal, with `'L'` those on and *above* it, otherwise all. -/
def Spec.selected (uplo : Char) (i j : Nat) : Prop :=
  if uplo = 'U' then j ≤ i else if uplo = 'L' then i ≤ j else True

instance (uplo : Char) (i j : Nat) : Decidable (selected uplo i j) := by
  unfold selected; infer_instance

/-- Number of rows the routines may touch: `m`, except that with `'L'` the argument `m` is ignored
and rows up to `n` are touched. -/
abbrev Spec.touchedRows (uplo : Char) (m n : Nat) : Nat := if uplo = 'L' then n else m

/-! ### Writes that may fall outside the data -/

theorem set2_is2_any {a : FA F} {ld L : Nat} {cols : Int} {g : Int → Int → F} (h : Is2 a ld cols L g)
    (hL : L < 2 ^ 31) {i j : Int} (h1 : 1 ≤ i) (h2 : i ≤ ld) (h3 : 1 ≤ j)
    (h4 : (j - 1) * ld + (i - 1) < 2 ^ 31 - 1) (v : F) :
    ∃ a', a.set2 i j v = pure a' ∧ Is2 a' ld cols L (upd2 g i j v) := by
  by_cases hc : (j - 1) * ld + (i - 1) < L
  · exact set2_is2 h ⟨h1, h2, h3, hc⟩ hL v
  · have ho := off_ok (L := 2 ^ 31 - 1) h.rows ⟨h1, h2, h3, by push_cast; omega⟩ (by norm_num)
    obtain ⟨k, hk, hi, hj⟩ := cell_idx h1 h2 h3
    unfold FA.set2 FA.modify2
    rw [ho, pure_bind, hk, asUsize_natCast (by omega), h.data, tab2_getElem?, if_neg (by omega)]
    refine ⟨_, rfl, h.rows, h.cols, ?_⟩
    simp only
    apply List.ext_getElem?
    intro l
    rw [tab2_getElem?, tab2_getElem?]
    by_cases hl : l < L
    · rw [if_pos hl, if_pos hl, upd2, if_neg]
      rintro ⟨e1, e2⟩
      have h1 : k % ld = l % ld := by omega
      have h2 : k / ld = l / ld := by omega
      have : k = l := by rw [← Nat.div_add_mod k ld, ← Nat.div_add_mod l ld, h1, h2]
      omega
    · rw [if_neg hl, if_neg hl]

/-- A square nested vector after an update of its array. -/
theorem nested_of_is2 {c : List (List F)} {c' : FA F} {s : Nat} {g : Int → Int → F} (h0 : 0 < s)
    (hs : s < 2 ^ 31) (hc : Rect c s s)
    (h : Is2 c' s (faOfVecVec c).cols c.flatten.length g) :
    ∃ w, vecVecOfFa c' = pure w ∧ Rect w s s ∧ w.flatten = c'.data := by
  obtain ⟨_, c2, _⟩ := faOfVecVec_shape hc h0 hs hs
  have hlen : c'.data.length = s * s := by rw [h.data, length_tab2, flatten_length hc]
  obtain ⟨w, f1, f2, f3⟩ := vecVecOfFa_ok c' s s h0 hs hs h.rows (h.cols.trans c2) hlen.le
  rw [hlen, Nat.sub_self, List.replicate_zero, List.append_nil] at f3
  exact ⟨w, f1, f2, f3⟩

/-! ### C29 -/

theorem sel_iff {uplo : Char} {m n : Nat} {i j : Nat} (hj : j < n) :
    (uploLo uplo ((j : Int) + 1) ≤ (i : Int) + 1 ∧ (i : Int) + 1 ≤ uploHi uplo m ((j : Int) + 1)) ↔
      (i < touchedRows uplo m n ∧ selected uplo i j) := by
  unfold uploLo uploHi selected touchedRows
  by_cases hU : uplo = 'U'
  · subst hU; simp; omega
  · by_cases hL : uplo = 'L'
    · subst hL; simp; omega
    · simp [hU, hL]; omega

theorem upd_range {uplo : Char} {m n : Nat} {j i : Int} (h1 : 1 ≤ j) (h2 : j ≤ n)
    (h3 : uploLo uplo j ≤ i) (h4 : i ≤ uploHi uplo m j) : 1 ≤ i ∧ i ≤ touchedRows uplo m n := by
  unfold uploLo at h3; unfold uploHi at h4; unfold touchedRows
  by_cases hU : uplo = 'U'
  · subst hU; simp at h3 h4 ⊢; omega
  · by_cases hL : uplo = 'L'
    · subst hL; simp at h3 h4 ⊢; omega
    · simp [hU, hL] at h3 h4 ⊢; omega

theorem dlacpyFA_ok {uplo : Char} {m n : Nat} {a b : FA F} {lda ldb : Nat}
    (ra : a.rows = lda) (rb : b.rows = ldb)
    (sa : Stored a.data lda (touchedRows uplo m n) n)
    (sb : Stored b.data ldb (touchedRows uplo m n) n) :
    ∃ b', dlacpyFA uplo m n a b = pure b' ∧ Is2 b' ldb b.cols b.data.length (fun i j =>
      if (1 ≤ i ∧ i ≤ (touchedRows uplo m n : Nat)) ∧ (1 ≤ j ∧ j ≤ (n : Int)) then
        (if uploLo uplo j ≤ i ∧ i ≤ uploHi uplo m j then ofList2 lda a.data i j
          else ofList2 ldb b.data i j) else ofList2 ldb b.data i j) := by
  have ia := is2_ofList ra sa.pos
  have ib := is2_ofList rb sb.pos
  obtain ⟨b', e1, e2⟩ := colLoop (lo := 1) (hi := n)
    (f := fun b j => forUp (uploLo uplo j) (uploHi uplo m j) b fun b i => do
      b.set2 i j (← a.get2 i j))
    (fun g i j => if uploLo uplo j ≤ i ∧ i ≤ uploHi uplo m j then ofList2 lda a.data i j else g i j)
    (fun j h1 h2 c g hc => by
      obtain ⟨c', q1, q2⟩ := rowLoop (lo := uploLo uplo j) (hi := uploHi uplo m j) (j := j)
        (f := fun b i => do b.set2 i j (← a.get2 i j)) (fun _ i => ofList2 lda a.data i j)
        (fun i h3 h4 c g hc => by
          obtain ⟨h5, h6⟩ := upd_range h1 h2 h3 h4
          rw [get2_is2 ia (sa.block i j h5 h6 h1 h2) sa.small]
          exact set2_is2 hc (sb.block i j h5 h6 h1 h2) sb.small _)
        (fun _ _ _ _ _ _ => rfl) hc
      refine ⟨c', q1, ?_⟩
      have : (fun i' j' => if j' = j then
          (if uploLo uplo j ≤ i' ∧ i' ≤ uploHi uplo m j then ofList2 lda a.data i' j else g i' j)
          else g i' j') = fun i' j' => if (uploLo uplo j ≤ i' ∧ i' ≤ uploHi uplo m j) ∧ j' = j then
          ofList2 lda a.data i' j else g i' j' := by
        funext i' j'
        by_cases hj : j' = j
        · subst hj; simp
        · simp [hj]
      rw [this]; exact q2)
    (fun j _ _ g g' h i => by beta_reduce; rw [h]) ib
  refine ⟨b', e1, ?_⟩
  apply e2.congr sb.pos
  intro i j h1 h2 h3
  by_cases hj : 1 ≤ j ∧ j ≤ (n : Int)
  · rw [if_pos hj]
    by_cases hi : uploLo uplo j ≤ i ∧ i ≤ uploHi uplo m j
    · rw [if_pos hi, if_pos ⟨upd_range hj.1 hj.2 hi.1 hi.2, hj⟩]
    · rw [if_neg hi]; simp
  · rw [if_neg hj, if_neg (by tauto)]

/-- The value `dlacpy` leaves at `(i, j)`. -/
abbrev cpyVal (uplo : Char) (a b : List F) (lda ldb i j : Nat) : F :=
  if selected uplo i j then entry a lda i j else entry b ldb i j

theorem updated_cpy {uplo : Char} {m n : Nat} {a : List F} {b b' : FA F} {lda ldb : Nat} {cols : Int}
    (sb : Stored b.data ldb (touchedRows uplo m n) n)
    (h : Is2 b' ldb cols b.data.length (fun i j =>
      if (1 ≤ i ∧ i ≤ (touchedRows uplo m n : Nat)) ∧ (1 ≤ j ∧ j ≤ (n : Int)) then
        (if uploLo uplo j ≤ i ∧ i ≤ uploHi uplo m j then ofList2 lda a i j
          else ofList2 ldb b.data i j) else ofList2 ldb b.data i j)) :
    Updated ldb (touchedRows uplo m n) n b.data b'.data (cpyVal uplo a b.data lda ldb) := by
  have u := updated_of_is2 sb h
  refine ⟨u.length, fun i hi j hj => ?_, u.frame⟩
  rw [u.block i hi j hj]
  congr 1
  unfold cpyVal
  by_cases hs : selected uplo i j
  · rw [if_pos hs, if_pos ((sel_iff hj).2 ⟨hi, hs⟩), entry_ofList2]
  · rw [if_neg hs, if_neg (fun h => hs ((sel_iff hj).1 h).2), entry_ofList2]

/-- **C29 (flat vectors).** `dlacpy` copies exactly the selected entries of the block and changes
nothing else, for every `uplo`, every shape and any scalar type. -/
theorem C29_dlacpy (uplo : Char) (m n : Nat) (a b : List F) (lda ldb : Nat)
    (sa : Stored a lda (touchedRows uplo m n) n) (sb : Stored b ldb (touchedRows uplo m n) n) :
    ∃ b', dlacpy (F := F) uplo m n a lda b ldb = (pure b' : R (List F)) ∧
      Updated ldb (touchedRows uplo m n) n b b' (cpyVal uplo a b lda ldb) := by
  obtain ⟨fa, ea, da, ia⟩ := toFa2d_list (v := a) sa.pos sa.ldSmall sa.small
  obtain ⟨fb, eb, db, ib⟩ := toFa2d_list (v := b) sb.pos sb.ldSmall sb.small
  subst da db
  obtain ⟨b', e1, e2⟩ := dlacpyFA_ok ia.rows ib.rows sa sb
  refine ⟨b'.data, ?_, updated_cpy sb e2⟩
  unfold dlacpy
  rw [ea, eb]
  simp only [pure_bind]
  rw [e1]; rfl

/-- **C29 (`FortranArray`).** -/
theorem C29_dlacpy_array (uplo : Char) (m n : Nat) (a b : FA F) (lda ldb : Int) (ra rb : Nat)
    (ha : a.rows = ra) (hb : b.rows = rb)
    (sa : Stored a.data ra (touchedRows uplo m n) n) (sb : Stored b.data rb (touchedRows uplo m n) n) :
    ∃ b', dlacpy (F := F) uplo m n a lda b ldb = (pure b' : R (FA F)) ∧ b'.rows = b.rows ∧ b'.cols = b.cols ∧
      Updated rb (touchedRows uplo m n) n b.data b'.data (cpyVal uplo a.data b.data ra rb) := by
  obtain ⟨b', e1, e2⟩ := dlacpyFA_ok ha hb sa sb
  refine ⟨b', ?_, by rw [hb]; exact e2.rows, e2.cols, updated_cpy sb e2⟩
  unfold dlacpy
  show (dlacpyFA uplo m n a b >>= _) = _
  rw [e1]; rfl

/-- **C29 (square nested vectors).** -/
theorem C29_dlacpy_nested (uplo : Char) (m n : Nat) (a b : List (List F)) (lda ldb : Int) (ra rb : Nat)
    (ha : Rect a ra ra) (hb : Rect b rb rb)
    (sa : Stored a.flatten ra (touchedRows uplo m n) n)
    (sb : Stored b.flatten rb (touchedRows uplo m n) n) :
    ∃ b', dlacpy (F := F) uplo m n a lda b ldb = (pure b' : R (List (List F))) ∧ Rect b' rb rb ∧
      Updated rb (touchedRows uplo m n) n b.flatten b'.flatten
        (cpyVal uplo a.flatten b.flatten ra rb) := by
  obtain ⟨a1, a2, a3⟩ := faOfVecVec_shape ha sa.pos sa.ldSmall sa.ldSmall
  obtain ⟨b1, b2, b3⟩ := faOfVecVec_shape hb sb.pos sb.ldSmall sb.ldSmall
  obtain ⟨b', e1, e2⟩ := dlacpyFA_ok (a := faOfVecVec a) (b := faOfVecVec b) a1 b1 sa sb
  obtain ⟨w, f1, f2, f3⟩ := nested_of_is2 sb.pos sb.ldSmall hb e2
  refine ⟨w, ?_, f2, ?_⟩
  · unfold dlacpy
    show (dlacpyFA uplo m n (faOfVecVec a) (faOfVecVec b) >>= _) = _
    rw [e1]; exact f1
  · have := updated_cpy (b := faOfVecVec b) sb e2
    rw [f3]; exact this

/-- **C29, no rows or columns.** With `n ≤ 0` the destination is only converted back and forth. -/
theorem C29_dlacpy_nonpos (uplo : Char) (m n : Int) (hn : n ≤ 0) (a b : FA F) (lda ldb : Int) :
    dlacpy (F := F) uplo m n a lda b ldb = (pure b : R (FA F)) := by
  unfold dlacpy dlacpyFA
  show (forUp 1 n b _ >>= _) = _
  rw [forUp_empty (by omega)]; rfl

/-- **C29, the reference meaning of `uplo` is refuted.**  The documentation defers to LAPACK, where
`'U'` selects the entries on and above the diagonal.  Here, whenever the block has two rows, `'U'`
overwrites the entry `(1, 0)` *below* the diagonal, and with two columns leaves the entry `(0, 1)`
above it alone. -/
theorem C29_upper_refuted (m n : Nat) (hm : 2 ≤ m) (hn : 2 ≤ n) (a b : List F) (lda ldb : Nat)
    (sa : Stored a lda m n) (sb : Stored b ldb m n) :
    ∃ b', dlacpy (F := F) 'U' m n a lda b ldb = (pure b' : R (List F)) ∧
      entry b' ldb 1 0 = entry a lda 1 0 ∧ entry b' ldb 0 1 = entry b ldb 0 1 := by
  obtain ⟨b', e, u⟩ := C29_dlacpy 'U' m n a b lda ldb sa sb
  refine ⟨b', e, ?_, ?_⟩
  · have := u.block 1 (by show 1 < m; omega) 0 (by omega)
    unfold entry at *
    rw [List.getD_eq_getElem?_getD, this]; rfl
  · have := u.block 0 (by show 0 < m; omega) 1 (by omega)
    unfold entry at *
    rw [List.getD_eq_getElem?_getD, this]; rfl

/-- **C29, finding.** With `'L'` the row count `m` is ignored: when `m < n`, rows outside the `m`-by-`n`
block are overwritten, for instance the entry `(m, m)`. -/
theorem C29_lower_spills (m n : Nat) (hmn : m < n) (a b : List F) (lda ldb : Nat)
    (sa : Stored a lda n n) (sb : Stored b ldb n n) :
    ∃ b', dlacpy (F := F) 'L' m n a lda b ldb = (pure b' : R (List F)) ∧
      entry b' ldb m m = entry a lda m m := by
  obtain ⟨b', e, u⟩ := C29_dlacpy 'L' m n a b lda ldb sa sb
  refine ⟨b', e, ?_⟩
  have := u.block m hmn m hmn
  unfold entry at *
  rw [List.getD_eq_getElem?_getD, this]
  unfold cpyVal
  rw [if_pos (by unfold selected; simp)]; rfl

/-! ### C30 -/

theorem dlasetFA_ok {uplo : Char} {m n : Nat} (alpha beta : F) {a : FA F} {ld : Nat}
    (ra : a.rows = ld) (h0 : 0 < ld) (hr : touchedRows uplo m n ≤ ld) (hs : a.data.length < 2 ^ 31)
    (hb : ld * n < 2 ^ 31) :
    ∃ a', dlasetFA uplo m n alpha beta a = pure a' ∧ Is2 a' ld a.cols a.data.length (fun i j =>
      if i = j ∧ 1 ≤ i ∧ i ≤ min (n : Int) m then beta
      else if (1 ≤ j ∧ j ≤ (n : Int)) ∧ (uploLo uplo j ≤ i ∧ i ≤ uploHi uplo m j) then alpha
      else ofList2 ld a.data i j) := by
  have ia := is2_ofList ra h0
  have hfit : ∀ i j : Int, 1 ≤ i → i ≤ ld → 1 ≤ j → j ≤ n → (j - 1) * ld + (i - 1) < 2 ^ 31 - 1 := by
    intro i j h1 h2 h3 h4
    have : (j - 1) * (ld : Int) + ld ≤ ld * n := by nlinarith
    have hb' : (ld : Int) * n < 2147483648 := by exact_mod_cast hb
    norm_num
    omega
  obtain ⟨a1, e1, e2⟩ := colLoop (lo := 1) (hi := n)
    (f := fun a j => forUp (uploLo uplo j) (uploHi uplo m j) a fun a i => a.set2 i j alpha)
    (fun g i j => if uploLo uplo j ≤ i ∧ i ≤ uploHi uplo m j then alpha else g i j)
    (fun j h1 h2 c g hc => by
      obtain ⟨c', q1, q2⟩ := rowLoop (lo := uploLo uplo j) (hi := uploHi uplo m j) (j := j)
        (f := fun a i => a.set2 i j alpha) (fun _ i => alpha)
        (fun i h3 h4 c g hc => by
          obtain ⟨h5, h6⟩ := upd_range h1 h2 h3 h4
          exact set2_is2_any hc hs h5 (by omega) h1 (hfit i j h5 (by omega) h1 h2) _)
        (fun _ _ _ _ _ _ => rfl) hc
      refine ⟨c', q1, ?_⟩
      have : (fun i' j' => if j' = j then
          (if uploLo uplo j ≤ i' ∧ i' ≤ uploHi uplo m j then alpha else g i' j)
          else g i' j') = fun i' j' => if (uploLo uplo j ≤ i' ∧ i' ≤ uploHi uplo m j) ∧ j' = j then
          alpha else g i' j' := by
        funext i' j'
        by_cases hj : j' = j
        · subst hj; simp
        · simp [hj]
      rw [this]; exact q2)
    (fun j _ _ g g' h i => by beta_reduce; rw [h]) ia
  have hmin : min (n : Int) m ≤ ld := by
    unfold touchedRows at hr
    split at hr <;> omega
  obtain ⟨a2, q1, q2⟩ := forUp_inv (lo := 1) (hi := min (n : Int) m)
    (f := fun a i => a.set2 i i beta)
    (P := fun k c => Is2 c ld a.cols a.data.length (fun i j =>
      if i = j ∧ 1 ≤ i ∧ i < k then beta
      else if 1 ≤ j ∧ j ≤ (n : Int) then
        (if uploLo uplo j ≤ i ∧ i ≤ uploHi uplo m j then alpha else ofList2 ld a.data i j)
      else ofList2 ld a.data i j)) (by omega)
    (fun k c h1 h2 hP => by
      obtain ⟨c', q1, q2⟩ := set2_is2_any hP hs h1 (by omega) h1
        (hfit k k h1 (by omega) h1 (by omega)) beta
      refine ⟨c', q1, ?_⟩
      apply q2.congr h0
      intro i j _ _ _
      unfold upd2
      by_cases hk : i = k ∧ j = k
      · obtain ⟨rfl, rfl⟩ := hk
        rw [if_pos ⟨rfl, rfl⟩, if_pos ⟨rfl, by omega, by omega⟩]
      · rw [if_neg hk]
        beta_reduce
        by_cases hc : i = j ∧ 1 ≤ i ∧ i < k
        · rw [if_pos hc, if_pos ⟨hc.1, hc.2.1, by omega⟩]
        · rw [if_neg hc, if_neg (show ¬ (i = j ∧ 1 ≤ i ∧ i < k + 1) by omega)])
    (s := a1) (by
      apply e2.congr h0
      intro i j _ _ _
      rw [if_neg (show ¬ (i = j ∧ 1 ≤ i ∧ i < 1) by omega)])
  refine ⟨a2, ?_, ?_⟩
  · unfold dlasetFA
    rw [e1, pure_bind]; exact q1
  · apply q2.congr h0
    intro i j _ _ _
    by_cases hd : i = j ∧ 1 ≤ i ∧ i ≤ min (n : Int) m
    · rw [if_pos hd, if_pos ⟨hd.1, hd.2.1, by omega⟩]
    · rw [if_neg hd, if_neg (by omega)]
      by_cases hj : 1 ≤ j ∧ j ≤ (n : Int) <;> simp [hj]

/-- The value `dlaset` leaves at `(i, j)` of the touched block. -/
abbrev setVal (uplo : Char) (m n : Nat) (alpha beta : F) (a : List F) (ld i j : Nat) : F :=
  if i = j ∧ i < min m n then beta else if selected uplo i j then alpha else entry a ld i j

theorem updated_set {uplo : Char} {m n : Nat} {alpha beta : F} {a a' : FA F} {ld : Nat} {cols : Int}
    (sa : Stored a.data ld (touchedRows uplo m n) n)
    (h : Is2 a' ld cols a.data.length (fun i j =>
      if i = j ∧ 1 ≤ i ∧ i ≤ min (n : Int) m then beta
      else if (1 ≤ j ∧ j ≤ (n : Int)) ∧ (uploLo uplo j ≤ i ∧ i ≤ uploHi uplo m j) then alpha
      else ofList2 ld a.data i j)) :
    Updated ld (touchedRows uplo m n) n a.data a'.data (setVal uplo m n alpha beta a.data ld) := by
  have h' := h.congr (g' := fun i j =>
      if (1 ≤ i ∧ i ≤ (touchedRows uplo m n : Nat)) ∧ (1 ≤ j ∧ j ≤ (n : Int)) then
        (if i = j ∧ 1 ≤ i ∧ i ≤ min (n : Int) m then beta
          else if (1 ≤ j ∧ j ≤ (n : Int)) ∧ (uploLo uplo j ≤ i ∧ i ≤ uploHi uplo m j) then alpha
          else ofList2 ld a.data i j) else ofList2 ld a.data i j) sa.pos (by
    intro i j _ _ _
    by_cases hb : (1 ≤ i ∧ i ≤ (touchedRows uplo m n : Nat)) ∧ (1 ≤ j ∧ j ≤ (n : Int))
    · rw [if_pos hb]
    · rw [if_neg hb, if_neg, if_neg]
      · rintro ⟨h1, h2⟩
        exact hb ⟨upd_range h1.1 h1.2 h2.1 h2.2, h1⟩
      · rintro ⟨rfl, h1, h2⟩
        apply hb
        unfold touchedRows
        split <;> omega)
  have u := updated_of_is2 sa h'
  refine ⟨u.length, fun i hi j hj => ?_, u.frame⟩
  rw [u.block i hi j hj]
  congr 1
  unfold setVal
  by_cases hd : i = j ∧ i < min m n
  · rw [if_pos hd, if_pos (by omega)]
  · rw [if_neg hd, if_neg (by omega)]
    by_cases hs : selected uplo i j
    · rw [if_pos hs, if_pos ⟨by omega, (sel_iff hj).2 ⟨hi, hs⟩⟩]
    · rw [if_neg hs, if_neg (fun h => hs ((sel_iff hj).1 h.2).2), entry_ofList2]

/-- **C30 (`FortranArray`).** `dlaset` writes `beta` on the first `min(m,n)` diagonal entries, `alpha`
on the other selected entries of the block, and changes nothing else. -/
theorem C30_dlaset_array (uplo : Char) (m n : Nat) (alpha beta : F) (a : FA F) (ra : Nat)
    (ha : a.rows = ra) (sa : Stored a.data ra (touchedRows uplo m n) n) (hb : ra * n < 2 ^ 31) :
    ∃ a', dlaset uplo m n alpha beta a = (pure a' : R (FA F)) ∧ a'.rows = a.rows ∧ a'.cols = a.cols ∧
      Updated ra (touchedRows uplo m n) n a.data a'.data (setVal uplo m n alpha beta a.data ra) := by
  obtain ⟨a', e1, e2⟩ := dlasetFA_ok alpha beta ha sa.pos sa.rows sa.small hb
  refine ⟨a', ?_, by rw [ha]; exact e2.rows, e2.cols, updated_set sa e2⟩
  unfold dlaset
  show (dlasetFA uplo m n alpha beta a >>= _) = _
  rw [e1]; rfl

/-- **C30 (square nested vectors).** -/
theorem C30_dlaset_nested (uplo : Char) (m n : Nat) (alpha beta : F) (a : List (List F)) (ra : Nat)
    (ha : Rect a ra ra) (sa : Stored a.flatten ra (touchedRows uplo m n) n) (hb : ra * n < 2 ^ 31) :
    ∃ a', dlaset uplo m n alpha beta a = (pure a' : R (List (List F))) ∧ Rect a' ra ra ∧
      Updated ra (touchedRows uplo m n) n a.flatten a'.flatten
        (setVal uplo m n alpha beta a.flatten ra) := by
  obtain ⟨a1, a2, a3⟩ := faOfVecVec_shape ha sa.pos sa.ldSmall sa.ldSmall
  obtain ⟨a', e1, e2⟩ := dlasetFA_ok (a := faOfVecVec a) alpha beta a1 sa.pos sa.rows sa.small hb
  obtain ⟨w, f1, f2, f3⟩ := nested_of_is2 sa.pos sa.ldSmall ha e2
  refine ⟨w, ?_, f2, ?_⟩
  · unfold dlaset
    show (dlasetFA uplo m n alpha beta (faOfVecVec a) >>= _) = _
    rw [e1]; exact f1
  · have := updated_set (a := faOfVecVec a) sa e2
    rw [f3]; exact this

/-- **C30 (flat vectors), finding.** `dlaset` has no leading dimension argument and treats a flat
vector as a single column: of a vector representing a matrix only the first column is ever written
(`'L'`: only the first element). -/
theorem C30_dlaset_flat (uplo : Char) (m n : Nat) (hm : 0 < m) (hn : 0 < n) (alpha beta : F)
    (a : List F) (h0 : a ≠ []) (hr : touchedRows uplo m n ≤ a.length) (hs : a.length < 2 ^ 31)
    (hb : a.length * n < 2 ^ 31) :
    ∃ a', dlaset uplo m n alpha beta a = (pure a' : R (List F)) ∧ a'.length = a.length ∧
      ∀ p < a.length, a'[p]? =
        if p = 0 then some beta else if uplo ≠ 'L' ∧ p < m then some alpha else a[p]? := by
  have hl : 0 < a.length := List.length_pos_iff.2 h0
  have hra : (faOfVec a).rows = a.length := wrap32_of_fits (by unfold FitsI32; omega)
  obtain ⟨a', e1, e2⟩ := dlasetFA_ok (uplo := uplo) (m := m) (n := n) alpha beta (a := faOfVec a)
    (ld := a.length) hra hl hr hs hb
  have hd : (faOfVec a).data = a := rfl
  refine ⟨a'.data, ?_, by rw [e2.data, length_tab2, hd], ?_⟩
  · unfold dlaset
    show (dlasetFA uplo m n alpha beta (faOfVec a) >>= _) = _
    rw [e1]; rfl
  · intro p hp
    rw [e2.data, hd, tab2_getElem?, if_pos hp, Nat.mod_eq_of_lt hp, Nat.div_eq_of_lt hp]
    by_cases h1 : p = 0
    · subst h1
      rw [if_pos rfl, if_pos (by simp; omega)]
    · rw [if_neg h1, if_neg (by simp; omega)]
      unfold uploLo uploHi
      by_cases hL : uplo = 'L'
      · subst hL
        rw [if_neg (by simp; omega), if_neg (by simp), entry_ofList2]
        unfold entry
        simp [hp]
      · by_cases hpm : p < m
        · rw [if_pos (by simp [hL]; omega), if_pos ⟨hL, hpm⟩]
        · rw [if_neg (by simp [hL]; omega), if_neg (fun h => hpm h.2), entry_ofList2]
          unfold entry
          simp [hp]

/-- **C30, the reference meaning of `uplo` is refuted.** In LAPACK `'U'` sets only entries above the
diagonal to `alpha` (and leaves those below alone).  Here `'U'` overwrites the entry `(1, 0)`. -/
theorem C30_upper_refuted (m n : Nat) (hm : 2 ≤ m) (hn : 1 ≤ n) (alpha beta : F) (a : FA F) (ra : Nat)
    (ha : a.rows = ra) (sa : Stored a.data ra m n) (hb : ra * n < 2 ^ 31) :
    ∃ a', dlaset 'U' m n alpha beta a = (pure a' : R (FA F)) ∧ entry a'.data ra 1 0 = alpha := by
  obtain ⟨a', e, _, _, u⟩ := C30_dlaset_array 'U' m n alpha beta a ra ha sa hb
  refine ⟨a', e, ?_⟩
  have := u.block 1 (by show 1 < m; omega) 0 (by omega)
  unfold entry at *
  rw [List.getD_eq_getElem?_getD, this]; rfl

/-- A 3-by-2 block in an array with 4 rows meets the hypotheses. -/
example (x : F) : Stored [x, x, x, x, x, x, x, x] 4 (touchedRows 'U' 3 2) 2 ∧
    Stored [x, x, x, x, x, x, x, x] 4 (touchedRows 'L' 3 2) 2 := by
  constructor <;>
  · refine ⟨by decide, by decide, by decide, by simp, ?_⟩
    intro i hi j hj
    simp [touchedRows] at hi
    simp; omega

end Verif
