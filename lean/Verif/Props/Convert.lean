import Verif.Props.Array

/-!
# Properties of the conversions to and from nested vectors, and of `Display` (C06, C08)
-/

set_option linter.unusedSectionVars false

namespace Verif
open Scalar

variable {F : Type} [Scalar F]

/-! ### Rectangular lists -/

/-- `w` consists of `c` lists of length `r`. -/
def Rect (w : List (List F)) (c r : Nat) : Prop := w.length = c ∧ ∀ x ∈ w, x.length = r

theorem flatten_getElem? {w : List (List F)} {c r : Nat} (hr : 0 < r) (hw : Rect w c r) (k : Nat) :
    w.flatten[k]? = (w[k / r]?).bind (fun x => x[k % r]?) := by
  induction w generalizing c k with
  | nil => simp
  | cons x w ih =>
    obtain ⟨h1, h2⟩ := hw
    have hx : x.length = r := h2 x (by simp)
    have hw' : Rect w w.length r := ⟨rfl, fun y hy => h2 y (by simp [hy])⟩
    rw [List.flatten_cons]
    by_cases hk : k < r
    · rw [List.getElem?_append_left (by omega), Nat.div_eq_of_lt hk, Nat.mod_eq_of_lt hk]
      simp
    · rw [List.getElem?_append_right (by omega), hx, ih hw']
      obtain ⟨k', rfl⟩ : ∃ k', k = k' + r := ⟨k - r, by omega⟩
      rw [Nat.add_sub_cancel, Nat.add_div_right _ hr, Nat.add_mod_right]
      simp

theorem rect_ext {w w' : List (List F)} {c r : Nat} (hw : Rect w c r) (hw' : Rect w' c r)
    (h : w.flatten = w'.flatten) : w = w' := by
  induction w generalizing w' c with
  | nil =>
    have : w'.length = 0 := by rw [hw'.1, ← hw.1]; rfl
    exact (List.length_eq_zero_iff.1 this).symm
  | cons x w ih =>
    cases w' with
    | nil => have := hw.1; have := hw'.1; simp at *; omega
    | cons x' w' =>
      rw [List.flatten_cons, List.flatten_cons] at h
      have hl : x.length = x'.length := by
        rw [hw.2 x (by simp), hw'.2 x' (by simp)]
      obtain ⟨h1, h2⟩ := List.append_inj h hl
      have hn : w.length = w'.length := by
        have := hw.1; have := hw'.1; simp at *; omega
      rw [h1, ih ⟨rfl, fun y hy => hw.2 y (by simp [hy])⟩
        ⟨hn.symm, fun y hy => hw'.2 y (by simp [hy])⟩ h2]

theorem flatten_length {w : List (List F)} {c r : Nat} (hw : Rect w c r) :
    w.flatten.length = c * r := by
  induction w generalizing c with
  | nil => obtain ⟨h, _⟩ := hw; simp at h; subst h; try simp
  | cons x w ih =>
    obtain ⟨h1, h2⟩ := hw
    rw [List.flatten_cons, List.length_append, h2 x (by simp),
      ih (c := w.length) ⟨rfl, fun y hy => h2 y (by simp [hy])⟩]
    rw [← h1, List.length_cons, Nat.succ_mul, Nat.add_comm]

/-- The element loop of the conversion, all of whose steps are in range. -/
theorem vecVec_loop {r c : Nat} (hr : 0 < r) (l : List F) (p : Nat) (hl : p + l.length ≤ c * r)
    (w : List (List F)) (hw : Rect w c r) :
    ∃ w', (l.zipIdx p).foldlM (vecVecStep r) w = pure w' ∧ Rect w' c r ∧
      ∀ k, w'.flatten[k]? = if p ≤ k ∧ k < p + l.length then l[k - p]? else w.flatten[k]? := by
  induction l generalizing p w with
  | nil =>
    refine ⟨w, rfl, hw, fun k => ?_⟩
    rw [if_neg (by simp; try omega)]
  | cons x l ih =>
    rw [List.length_cons] at hl
    have hp : p / r < c := by
      rw [Nat.div_lt_iff_lt_mul hr]; omega
    have hpr := Nat.mod_lt p hr
    have hlen : (w[p / r]'(by rw [hw.1]; exact hp)).length = r := hw.2 _ (List.getElem_mem _)
    have hstep : vecVecStep r w (x, p) =
        pure (w.set (p / r) ((w[p / r]'(by rw [hw.1]; exact hp)).set (p % r) x)) := by
      unfold vecVecStep
      rw [if_neg (by omega)]
      simp only
      rw [List.getElem?_eq_getElem (by rw [hw.1]; exact hp)]
      simp only
      rw [if_pos (by rw [hlen]; exact hpr)]
    have hrect : Rect (w.set (p / r) ((w[p / r]'(by rw [hw.1]; exact hp)).set (p % r) x)) c r := by
      refine ⟨by rw [List.length_set]; exact hw.1, ?_⟩
      intro y hy
      rcases List.mem_or_eq_of_mem_set hy with h | h
      · exact hw.2 y h
      · rw [h, List.length_set, hlen]
    obtain ⟨w', h1, h2, h3⟩ := ih (p + 1) (by omega) _ hrect
    refine ⟨w', ?_, h2, ?_⟩
    · rw [List.zipIdx_cons, List.foldlM_cons, hstep, pure_bind, h1]
    · intro k
      rw [h3 k, List.length_cons]
      by_cases hk : k = p
      · subst hk
        rw [if_neg (by omega), if_pos (by omega), flatten_getElem? hr hrect]
        rw [List.getElem?_set_self (by rw [hw.1]; exact hp)]
        simp only [Option.bind_some]
        rw [List.getElem?_set_self (by rw [hlen]; exact hpr)]
        simp
      · by_cases hk2 : p + 1 ≤ k ∧ k < p + 1 + l.length
        · rw [if_pos hk2, if_pos (by omega)]
          obtain ⟨q, hq⟩ : ∃ q, k - p = q + 1 := ⟨k - p - 1, by omega⟩
          have : k - (p + 1) = q := by omega
          rw [hq, this]; simp
        · rw [if_neg hk2, if_neg (by omega), flatten_getElem? hr hrect, flatten_getElem? hr hw,
            List.getElem?_set]
          by_cases hd : p / r = k / r
          · rw [if_pos hd, if_pos (by rw [hw.1]; exact hp), ← hd,
              List.getElem?_eq_getElem (by rw [hw.1]; exact hp)]
            simp only [Option.bind_some]
            rw [List.getElem?_set_ne]
            intro hm
            apply hk
            rw [← Nat.div_add_mod k r, ← Nat.div_add_mod p r, hm, hd]
          · rw [if_neg hd]

theorem vecCap_ok {n : Nat} (h : n < 2 ^ 31) : vecCap n = pure n := by
  unfold vecCap; rw [if_pos (lt_trans h (by norm_num))]

/-- **Conversion to nested vectors.** An array with `r > 0` rows, `c` columns and at most `r * c`
elements becomes `c` vectors of length `r`, which hold the data in storage order, followed by zeros. -/
theorem vecVecOfFa_ok (a : FA F) (r c : Nat) (hr : 0 < r) (hrs : r < 2 ^ 31) (hcs : c < 2 ^ 31)
    (h1 : a.rows = r) (h2 : a.cols = c) (hd : a.data.length ≤ c * r) :
    ∃ w, vecVecOfFa a = pure w ∧ Rect w c r ∧
      w.flatten = a.data ++ List.replicate (c * r - a.data.length) zero := by
  have hrep : Rect (List.replicate c (List.replicate r (zero : F))) c r := by
    refine ⟨by simp, ?_⟩
    intro x hx
    rw [List.eq_of_mem_replicate hx]; simp
  obtain ⟨w, e1, e2, e3⟩ := vecVec_loop hr a.data 0 (by omega) _ hrep
  refine ⟨w, ?_, e2, ?_⟩
  · unfold vecVecOfFa
    rw [h1, h2, asUsize_natCast (lt_trans hrs (by norm_num)),
      asUsize_natCast (lt_trans hcs (by norm_num)), vecCap_ok hrs, vecCap_ok hcs]
    exact e1
  · apply List.ext_getElem?
    intro k
    rw [e3 k]
    by_cases hk : k < a.data.length
    · rw [if_pos (by omega), List.getElem?_append_left hk]; simp
    · rw [if_neg (by omega), List.getElem?_append_right (by omega)]
      rw [List.flatten_replicate_replicate]
      by_cases hk2 : k < c * r
      · rw [List.getElem?_eq_getElem (by simpa using hk2),
          List.getElem?_eq_getElem (by simp; omega)]
        simp
      · rw [List.getElem?_eq_none (by simp; omega), List.getElem?_eq_none (by simp; omega)]

theorem faOfVecVec_shape {v : List (List F)} {r c : Nat} (hv : Rect v r c) (hr : 0 < r)
    (hrs : r < 2 ^ 31) (hcs : c < 2 ^ 31) :
    (faOfVecVec v).rows = r ∧ (faOfVecVec v).cols = c ∧ (faOfVecVec v).data = v.flatten := by
  unfold faOfVecVec
  refine ⟨?_, ?_, rfl⟩
  · simp only; rw [hv.1]; exact wrap32_of_fits (by unfold FitsI32; omega)
  · cases v with
    | nil => have := hv.1; simp at this; omega
    | cons x v =>
      simp only
      rw [hv.2 x (by simp)]; exact wrap32_of_fits (by unfold FitsI32; omega)

/-- **C06, general rectangular case.** `r` vectors of length `c` come back as `c` vectors of length
`r` that hold the same elements in the same order. -/
theorem C06_rectangular (v : List (List F)) (r c : Nat) (hr : 0 < r) (hrs : r < 2 ^ 31)
    (hcs : c < 2 ^ 31) (hv : Rect v r c) :
    ∃ w : List (List F), FromFA.fromFa (ToFA.toFa (F := F) v) = pure w ∧ Rect w c r ∧
      w.flatten = v.flatten := by
  obtain ⟨h1, h2, h3⟩ := faOfVecVec_shape hv hr hrs hcs
  have hl := flatten_length hv
  obtain ⟨w, e1, e2, e3⟩ := vecVecOfFa_ok (faOfVecVec v) r c hr hrs hcs h1 h2
    (by rw [h3, hl, Nat.mul_comm])
  refine ⟨w, e1, e2, ?_⟩
  rw [e3, h3, hl, Nat.mul_comm c r, Nat.sub_self]; simp

/-- **C06 for square input.** A square nested vector survives the round trip. -/
theorem C06_roundtrip_square (v : List (List F)) (r : Nat) (hrs : r < 2 ^ 31)
    (hv : Rect v r r) :
    FromFA.fromFa (ToFA.toFa (F := F) v) = (pure v : R (List (List F))) := by
  by_cases hr : 0 < r
  · obtain ⟨w, e1, e2, e3⟩ := C06_rectangular v r r hr hrs hrs hv
    rw [e1, rect_ext e2 hv e3]
  · have : r = 0 := by omega
    subst this
    have : v = [] := List.length_eq_zero_iff.1 hv.1
    subst this
    show vecVecOfFa (faOfVecVec []) = _
    have e1 : wrap32 0 = 0 := by decide
    have e2 : asUsize 0 = 0 := by decide
    simp [vecVecOfFa, faOfVecVec, e1, e2, vecCap]

/-- **C06 is refuted for every non-square shape**: the result never equals the input. -/
theorem C06_nonsquare_differs (v : List (List F)) (r c : Nat) (hr : 0 < r) (hrs : r < 2 ^ 31)
    (hcs : c < 2 ^ 31) (hv : Rect v r c) (hne : r ≠ c) :
    FromFA.fromFa (ToFA.toFa (F := F) v) ≠ (pure v : R (List (List F))) := by
  obtain ⟨w, e1, e2, _⟩ := C06_rectangular v r c hr hrs hcs hv
  rw [e1]
  intro h
  have h' := congrFun h .debug
  rw [R.pure_apply, R.pure_apply] at h'
  injection h' with h''
  apply hne
  rw [← hv.1, ← h'', e2.1]

/-- A 2-by-3 nested vector is such a shape. -/
example (x y : F) : Rect [[x, y, x], [y, x, y]] 2 3 := ⟨rfl, by simp⟩
example (x y : F) : FromFA.fromFa (ToFA.toFa (F := F) [[x, y, x], [y, x, y]]) ≠
    (pure [[x, y, x], [y, x, y]] : R (List (List F))) :=
  C06_nonsquare_differs _ 2 3 (by norm_num) (by norm_num) (by norm_num) ⟨rfl, by simp⟩ (by norm_num)

theorem vecVec_loop_panic {r c : Nat} (hr : 0 < r) (l : List F) (w : List (List F)) (hw : Rect w c r)
    (hl : c * r < l.length) :
    (l.zipIdx).foldlM (vecVecStep r) w = R.panic .bounds := by
  obtain ⟨l1, x, l2, rfl, hlen⟩ : ∃ l1 x l2, l = l1 ++ x :: l2 ∧ l1.length = c * r :=
    ⟨l.take (c * r), l[c * r], l.drop (c * r + 1), by simp, by simp; omega⟩
  obtain ⟨w', e1, e2, _⟩ := vecVec_loop hr l1 0 (by omega) w hw
  rw [List.zipIdx_append, List.foldlM_append, e1, pure_bind, List.zipIdx_cons, List.foldlM_cons]
  have : vecVecStep r w' (x, 0 + l1.length) = R.panic .bounds := by
    unfold vecVecStep
    rw [if_neg (by omega)]
    simp only
    rw [List.getElem?_eq_none]
    rw [e2.1, Nat.zero_add, hlen, Nat.mul_div_cancel _ hr]
  rw [this]; rfl

/-- **C06, panics.** Converting to nested vectors panics when the data is longer than
`rows * cols` (in particular for every non-empty 1-D array, which has `cols = 0`). -/
theorem C06_panic (a : FA F) (r c : Nat) (hrs : r < 2 ^ 31) (hcs : c < 2 ^ 31)
    (h1 : a.rows = r) (h2 : a.cols = c) (hd : c * r < a.data.length) :
    ∃ e, (FromFA.fromFa a : R (List (List F))) = R.panic e := by
  show ∃ e, vecVecOfFa a = R.panic e
  unfold vecVecOfFa
  rw [h1, h2, asUsize_natCast (lt_trans hrs (by norm_num)),
    asUsize_natCast (lt_trans hcs (by norm_num)), vecCap_ok hrs, vecCap_ok hcs]
  simp only [pure_bind]
  have hrep : Rect (List.replicate c (List.replicate r (zero : F))) c r := by
    refine ⟨by simp, ?_⟩
    intro x hx
    rw [List.eq_of_mem_replicate hx]; simp
  by_cases hr : 0 < r
  · exact ⟨_, vecVec_loop_panic hr _ _ hrep hd⟩
  · have : r = 0 := by omega
    subst this
    cases hdat : a.data with
    | nil => rw [hdat] at hd; simp at hd
    | cons x l =>
      refine ⟨.divZero, ?_⟩
      rw [List.zipIdx_cons, List.foldlM_cons]
      rfl

/-- Every non-empty vector, seen as 1-D array, makes the conversion panic. -/
theorem C06_panic_1d (v : List F) (hv : v ≠ []) (hs : v.length < 2 ^ 31) :
    ∃ e, (FromFA.fromFa (ToFA.toFa (F := F) v) : R (List (List F))) = R.panic e := by
  refine C06_panic _ v.length 0 hs (by norm_num) ?_ rfl ?_
  · show wrap32 v.length = v.length
    exact wrap32_of_fits (by unfold FitsI32; omega)
  · show 0 * v.length < v.length
    have : 0 < v.length := List.length_pos_iff.2 hv
    omega

/-! ### C08: Display -/

/-- Specification: a bracketed, comma-separated group of elements. -/
def group (p : Nat) (xs : List F) : List (Piece F) :=
  .text "[" :: (List.intersperse (.text ", ") (xs.map (.num p)) ++ [.text "]"])

/-- What was printed of the elements, in order. -/
def printed : List (Piece F) → List F
  | [] => []
  | .text _ :: l => printed l
  | .num _ x :: l => x :: printed l

theorem sep_eq (p : Nat) (l : List F) (k : Nat) :
    ((l.zipIdx k).flatMap fun (v, i) => (if i ≠ 0 then [Piece.text ", "] else []) ++ [.num p v]) =
      match k, l with
      | _, [] => []
      | 0, _ :: _ => List.intersperse (.text ", ") (l.map (.num p))
      | _ + 1, _ :: _ => .text ", " :: List.intersperse (.text ", ") (l.map (.num p)) := by
  induction l generalizing k with
  | nil => cases k <;> simp
  | cons x l ih =>
    rw [List.zipIdx_cons, List.flatMap_cons, ih (k + 1)]
    cases k with
    | zero =>
      cases l with
      | nil => simp
      | cons y l => simp [List.intersperse]
    | succ k =>
      cases l with
      | nil => simp
      | cons y l => simp [List.intersperse]

theorem display1_eq (p : Nat) (l : List F) : display1 p l = group p l := by
  unfold display1 group
  rw [List.cons_append, sep_eq p l 0]
  cases l <;> rfl

/-- **C08, 1-D.** A 1-D array is printed as one group holding all elements in order. -/
theorem C08_vector (a : FA F) (ha : a.cols = 0) (prec : Option Nat) :
    display prec a = pure (group (prec.getD 1) a.data) := by
  unfold display FA.is1d
  simp [ha, display1_eq]

theorem intersperse_snoc {α : Type} (s : α) (l : List α) (x : α) :
    List.intersperse s (l ++ [x]) =
      if l = [] then [x] else List.intersperse s l ++ [s, x] := by
  induction l with
  | nil => simp
  | cons y l ih =>
    cases l with
    | nil => simp [List.intersperse]
    | cons z l =>
      rw [if_neg (by simp), List.cons_append, List.cons_append, List.intersperse_cons_cons,
        ← List.cons_append, ih, if_neg (by simp), List.intersperse_cons_cons]
      simp

theorem displayRow (p : Nat) (a : FA F) {r c : Nat} (ha : IsMatrix a r c) (row : Nat) (hrow : row < r)
    (out : List (Piece F)) :
    (irange 0 (a.cols - 1)).foldlM (displayCell p a row) (out ++ [.text "["]) =
      pure (out ++ .text "[" :: List.intersperse (.text ", ")
        (((a.data.drop (row * c)).take c).map (.num p))) := by
  rw [ha.cols]
  have key : ∀ n : Nat, n ≤ c → (irange 0 ((n : Int) - 1)).foldlM (displayCell p a row)
      (out ++ [.text "["]) = pure (out ++ .text "[" :: List.intersperse (.text ", ")
        (((a.data.drop (row * c)).take n).map (.num p))) := by
    intro n
    induction n with
    | zero => intro _; rw [irange_empty (by omega)]; simp
    | succ n ih =>
      intro hn
      have hidx : row * c + n < r * c := by
        calc row * c + n < row * c + c := by omega
          _ = (row + 1) * c := by ring
          _ ≤ r * c := Nat.mul_le_mul_right _ hrow
      have hs := ha.small
      have hcell : ∀ o : List (Piece F), displayCell p a row o (n : Int) =
          pure (o ++ (if n ≠ 0 then [.text ", "] else []) ++
            [.num p (a.data[row * c + n]'(by rw [ha.length]; exact hidx))]) := by
        intro o
        unfold displayCell
        have e0 : (row : Int) * a.cols = ((row * c : Nat) : Int) := by rw [ha.cols]; push_cast; rfl
        rw [imul_ok (by rw [e0]; generalize row * c = z at *; unfold FitsI32; omega)]
        simp only [pure_bind]
        have e : (row : Int) * a.cols + n = ((row * c + n : Nat) : Int) := by
          rw [ha.cols]; push_cast; rfl
        rw [iadd_ok (by rw [e]; generalize row * c + n = z at *; unfold FitsI32; omega), e]
        simp only [pure_bind]
        rw [asUsize_natCast (lt_trans (lt_trans hidx hs) (by norm_num)),
          List.getElem?_eq_getElem (by rw [ha.length]; exact hidx)]
        simp
      have e1 : ((n + 1 : Nat) : Int) - 1 = n := by omega
      rw [e1, irange_snoc (by omega), List.foldlM_append, ih (by omega), pure_bind]
      simp only [List.foldlM_cons, List.foldlM_nil, bind_pure]
      rw [hcell, List.take_add_one, List.map_append]
      have e2 : (a.data.drop (row * c))[n]? = some (a.data[row * c + n]'(by rw [ha.length]; exact hidx)) := by
        rw [List.getElem?_drop, List.getElem?_eq_getElem]
      rw [e2]
      simp only [Option.toList_some, List.map_cons, List.map_nil]
      rw [intersperse_snoc]
      by_cases hn0 : n = 0
      · subst hn0; simp
      · have hne : (((a.data.drop (row * c)).take n).map (Piece.num p)) ≠ [] := by
          simp only [ne_eq, List.map_eq_nil_iff, List.take_eq_nil_iff, List.drop_eq_nil_iff, not_or]
          refine ⟨hn0, ?_⟩
          rw [ha.length]; omega
        rw [if_neg hne, if_pos hn0]
        simp
  exact key c (le_refl _)

/-- **C08, 2-D.** An `r`-by-`c` matrix (`c > 0`) is printed as `r` groups of `c` elements, which are
the stored elements in storage order; printing does not panic. -/
theorem C08_matrix (a : FA F) {r c : Nat} (ha : IsMatrix a r c) (hc : 0 < c) (prec : Option Nat) :
    display prec a = pure (.text "[" ::
      (List.range r).flatMap (fun i => group (prec.getD 1) ((a.data.drop (i * c)).take c))
        ++ [.text "]"]) := by
  unfold display FA.is1d
  rw [if_neg (by rw [ha.cols]; simp; omega)]
  unfold display2
  have key : ∀ n : Nat, n ≤ r → (irange 0 ((n : Int) - 1)).foldlM
      (fun (out : List (Piece F)) (row : Int) => (do
        let out ← (irange 0 (a.cols - 1)).foldlM (displayCell (prec.getD 1) a row)
          (out ++ [Piece.text "["])
        pure (out ++ [Piece.text "]"]) : R (List (Piece F)))) [Piece.text "["] = pure (.text "[" ::
      (List.range n).flatMap (fun i => group (prec.getD 1) ((a.data.drop (i * c)).take c))) := by
    intro n
    induction n with
    | zero => intro _; rw [irange_empty (lo := 0) (hi := ((0 : Nat) : Int) - 1) (by omega)]; simp
    | succ n ih =>
      intro hn
      have e1 : ((n + 1 : Nat) : Int) - 1 = n := by omega
      rw [e1, irange_snoc (lo := 0) (hi := (n : Int)) (by omega), List.foldlM_append, ih (by omega), pure_bind]
      simp only [List.foldlM_cons, List.foldlM_nil, bind_pure]
      rw [displayRow _ a ha n (by omega)]
      simp only [pure_bind]
      rw [List.range_succ, List.flatMap_append]
      simp [group]
  rw [ha.rows, key r (le_refl _)]
  rfl

theorem printed_append (l l' : List (Piece F)) : printed (l ++ l') = printed l ++ printed l' := by
  induction l with
  | nil => rfl
  | cons x l ih => cases x <;> simp [printed, ih]

theorem printed_group (p : Nat) (xs : List F) : printed (group p xs) = xs := by
  unfold group
  rw [printed, printed_append]
  have : printed (List.intersperse (.text ", ") (xs.map (Piece.num p))) = xs := by
    induction xs with
    | nil => rfl
    | cons x xs ih =>
      cases xs with
      | nil => rfl
      | cons y xs =>
        simp only [List.map_cons, List.intersperse_cons_cons, printed] at *
        rw [ih]
  rw [this]; simp [printed]

/-- **C08, every element once.** The elements printed are exactly the stored elements, in order. -/
theorem C08_all_elements (a : FA F) {r c : Nat} (ha : IsMatrix a r c) (hc : 0 < c) (prec : Option Nat) :
    ∃ out, display prec a = pure out ∧ printed out = a.data := by
  refine ⟨_, C08_matrix a ha hc prec, ?_⟩
  rw [List.cons_append, printed, printed_append]
  have : ∀ n, n ≤ r → printed ((List.range n).flatMap
      (fun i => group (prec.getD 1) ((a.data.drop (i * c)).take c))) = a.data.take (n * c) := by
    intro n
    induction n with
    | zero => intro _; simp [printed]
    | succ n ih =>
      intro hn
      rw [List.range_succ, List.flatMap_append, printed_append, ih (by omega)]
      simp only [List.flatMap_cons, List.flatMap_nil, List.append_nil, printed_group]
      rw [Nat.succ_mul, List.take_add]
  rw [this r (le_refl _), ← ha.length, List.take_length]
  simp [printed]

/-- **C08, consequence.** The element printed in column `j` of row `i` (0-based) is stored element
`i*c + j`, that is, `a[(i+1, j+1)]` of the *transposed* layout: a 2-by-2 matrix with data `w x y z`,
whose entry (1,2) is `y`, is printed as `[[w, x][y, z]]`. -/
example (w x y z : F) : display none (⟨[w, x, y, z], 2, 2, nan⟩ : FA F) =
    pure [.text "[", .text "[", .num 1 w, .text ", ", .num 1 x, .text "]",
      .text "[", .num 1 y, .text ", ", .num 1 z, .text "]", .text "]"] :=
  C08_matrix _ (r := 2) (c := 2) ⟨rfl, rfl, rfl, by norm_num⟩ (by norm_num) none

end Verif
