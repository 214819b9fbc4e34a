import Verif.Props.Lacpy
import Verif.Props.HqrIndep

/-!
# C121: copying with `dlacpy` in parts, again, and back
-/

namespace Verif
open Scalar Spec

variable {F : Type} [Scalar F]

/-- `b'` is `b` with the selected entries of the leading `r`-by-`n` block taken from `a`. -/
structure CpyAt (uplo : Char) (r n : Nat) (a : List F) (lda : Nat) (b b' : List F) (ldb : Nat) : Prop where
  hit : ∀ i < r, ∀ j < n, selected uplo i j → b'[i + j * ldb]? = some (entry a lda i j)
  miss : ∀ p, (∀ i < r, ∀ j < n, selected uplo i j → p ≠ i + j * ldb) → b'[p]? = b[p]?

theorem entry_at {v : List F} {ld r c i j : Nat} (s : Stored v ld r c) (hi : i < r) (hj : j < c) : v[i + j * ld]? = some (entry v ld i j) := by
  have := s.fits i hi j hj
  unfold entry
  rw [List.getD_eq_getElem?_getD, List.getElem?_eq_getElem this]
  rfl

theorem cpyAt_of {uplo : Char} {r n : Nat} {a b b' : List F} {lda ldb : Nat} (sb : Stored b ldb r n) (u : Updated ldb r n b b' (cpyVal uplo a b lda ldb)) :
    CpyAt uplo r n a lda b b' ldb := by
  refine ⟨fun i hi j hj hs => ?_, fun p hp => ?_⟩
  · rw [u.block i hi j hj, cpyVal, if_pos hs]
  · by_cases hb : InBlock ldb r n p
    · obtain ⟨i, hi, j, hj, rfl⟩ := hb
      rw [u.block i hi j hj, cpyVal, if_neg fun h => hp i hi j hj h rfl, entry_at sb hi hj]
    · exact u.frame p hb

omit [Scalar F] in
theorem stored_congr {v w : List F} {ld r c : Nat} (s : Stored v ld r c) (h : w.length = v.length) : Stored w ld r c :=
  ⟨s.pos, s.rows, s.ldSmall, by rw [h]; exact s.small, by rw [h]; exact s.fits⟩

/-- Two copies that together select what a third one selects. -/
theorem CpyAt.join {u v w : Char} {r s t n : Nat} {a b b' b'' d : List F} {lda ldb : Nat} (h : CpyAt u r n a lda b b' ldb) (h' : CpyAt v s n a lda b' b'' ldb)
    (g : CpyAt w t n a lda b d ldb)
    (hs : ∀ i, ∀ j < n, (i < t ∧ selected w i j) ↔ (i < r ∧ selected u i j) ∨ (i < s ∧ selected v i j)) : b'' = d := by
  apply List.ext_getElem?
  intro p
  by_cases hv : ∃ i < s, ∃ j < n, selected v i j ∧ p = i + j * ldb
  · obtain ⟨i, hi, j, hj, hsel, rfl⟩ := hv
    obtain ⟨h1, h2⟩ := (hs i j hj).2 (Or.inr ⟨hi, hsel⟩)
    rw [h'.hit i hi j hj hsel, g.hit i h1 j hj h2]
  · have hv' : ∀ i < s, ∀ j < n, selected v i j → p ≠ i + j * ldb := fun i hi j hj hsel e => hv ⟨i, hi, j, hj, hsel, e⟩
    rw [h'.miss p hv']
    by_cases hu : ∃ i < r, ∃ j < n, selected u i j ∧ p = i + j * ldb
    · obtain ⟨i, hi, j, hj, hsel, rfl⟩ := hu
      obtain ⟨h1, h2⟩ := (hs i j hj).2 (Or.inl ⟨hi, hsel⟩)
      rw [h.hit i hi j hj hsel, g.hit i h1 j hj h2]
    · rw [h.miss p fun i hi j hj hsel e => hu ⟨i, hi, j, hj, hsel, e⟩, g.miss p]
      intro i hi j hj hsel
      rcases (hs i j hj).1 ⟨hi, hsel⟩ with ⟨h1, h2⟩ | ⟨h1, h2⟩
      · exact fun e => hu ⟨i, h1, j, hj, h2, e⟩
      · exact hv' i h1 j hj h2

theorem sel_parts {w : Char} (h1 : w ≠ 'U') (h2 : w ≠ 'L') {m n : Nat} (hmn : n ≤ m) :
    ∀ i, ∀ j < n, (i < touchedRows w m n ∧ selected w i j) ↔ (i < touchedRows 'U' m n ∧ selected 'U' i j) ∨ (i < touchedRows 'L' m n ∧ selected 'L' i j) := by
  intro i j hj
  unfold touchedRows selected
  have e : ¬ 'U' = 'L' := by decide
  have e' : ¬ 'L' = 'U' := by decide
  simp only [h1, h2, e, e', if_true, if_false, and_true]
  omega

/-- **C121.** If the block has at least as many rows as columns, copying with `'U'` and then with `'L'`, or the other way round, is copying the whole block. -/
theorem C121_dlacpy_parts {w : Char} (h1 : w ≠ 'U') (h2 : w ≠ 'L') {m n : Nat} (hmn : n ≤ m) (a b : List F) (lda ldb : Nat) (sa : Stored a lda m n) (sb : Stored b ldb m n) :
    (dlacpy (F := F) 'U' m n a lda b ldb >>= fun b' => dlacpy (F := F) 'L' m n a lda b' ldb) = (dlacpy (F := F) w m n a lda b ldb : R (List F)) ∧
    (dlacpy (F := F) 'L' m n a lda b ldb >>= fun b' => dlacpy (F := F) 'U' m n a lda b' ldb) = (dlacpy (F := F) w m n a lda b ldb : R (List F)) := by
  have sub : ∀ (c : Char) {v : List F} {ld : Nat}, Stored v ld m n → Stored v ld (touchedRows c m n) n := by
    intro c v ld s
    have : touchedRows c m n ≤ m := by unfold touchedRows; split <;> omega
    exact ⟨s.pos, this.trans s.rows, s.ldSmall, s.small, fun i hi => s.fits i (lt_of_lt_of_le hi this)⟩
  obtain ⟨d, ed, ud⟩ := C29_dlacpy w m n a b lda ldb (sub w sa) (sub w sb)
  have key : ∀ u v : Char, (∀ i, ∀ j < n, (i < touchedRows w m n ∧ selected w i j) ↔ (i < touchedRows u m n ∧ selected u i j) ∨ (i < touchedRows v m n ∧ selected v i j)) →
      (dlacpy (F := F) u m n a lda b ldb >>= fun b' => dlacpy (F := F) v m n a lda b' ldb) = (dlacpy (F := F) w m n a lda b ldb : R (List F)) := by
    intro u v hs
    obtain ⟨b', e', u'⟩ := C29_dlacpy u m n a b lda ldb (sub u sa) (sub u sb)
    have sb' := stored_congr sb u'.length
    obtain ⟨b'', e'', u''⟩ := C29_dlacpy v m n a b' lda ldb (sub v sa) (sub v sb')
    rw [e', pure_bind, e'', ed, CpyAt.join (cpyAt_of (sub u sb) u') (cpyAt_of (sub v sb') u'') (cpyAt_of (sub w sb) ud) hs]
  exact ⟨key _ _ (sel_parts h1 h2 hmn), key _ _ fun i j hj => by rw [sel_parts h1 h2 hmn i j hj, or_comm]⟩

/-- **C121.** Copying again, or copying back what has been copied, changes nothing. -/
theorem C121_dlacpy_again (uplo : Char) (m n : Nat) (a b : List F) (lda ldb : Nat) (sa : Stored a lda (touchedRows uplo m n) n) (sb : Stored b ldb (touchedRows uplo m n) n) :
    ∃ b', dlacpy (F := F) uplo m n a lda b ldb = (pure b' : R (List F)) ∧ dlacpy (F := F) uplo m n a lda b' ldb = (pure b' : R (List F)) ∧
      dlacpy (F := F) uplo m n b' ldb a lda = (pure a : R (List F)) := by
  obtain ⟨b', e, u⟩ := C29_dlacpy uplo m n a b lda ldb sa sb
  have sb' := stored_congr sb u.length
  obtain ⟨b'', e', u'⟩ := C29_dlacpy uplo m n a b' lda ldb sa sb'
  obtain ⟨a', e3, u3⟩ := C29_dlacpy uplo m n b' a ldb lda sb' sa
  have c := cpyAt_of sb u
  refine ⟨b', e, ?_, ?_⟩
  · rw [e', CpyAt.join c (cpyAt_of sb' u') c fun i j _ => (or_self_iff).symm]
  · rw [e3]
    congr 1
    have c3 := cpyAt_of sa u3
    apply List.ext_getElem?
    intro p
    by_cases hv : ∃ i < touchedRows uplo m n, ∃ j < n, selected uplo i j ∧ p = i + j * lda
    · obtain ⟨i, hi, j, hj, hs, rfl⟩ := hv
      rw [c3.hit i hi j hj hs, entry_at sa hi hj, ← entry_at sb' hi hj, c.hit i hi j hj hs]
    · exact c3.miss p fun i hi j hj hs e => hv ⟨i, hi, j, hj, hs, e⟩

/-- The parts of a block of two rows and two columns, with leading dimensions `2` and `3`. -/
theorem C121_example (pr : Profile) :
    (dlacpy (F := Float) 'U' 2 2 ([1, 2, 3, 4] : List Float) 2 ([9, 9, 9, 9, 9, 9] : List Float) 3 pr).val? = some [1, 2, 9, 9, 4, 9] ∧
    (dlacpy (F := Float) 'L' 2 2 ([1, 2, 3, 4] : List Float) 2 ([1, 2, 9, 9, 4, 9] : List Float) 3 pr).val? = some [1, 2, 9, 3, 4, 9] ∧
    (dlacpy (F := Float) 'A' 2 2 ([1, 2, 3, 4] : List Float) 2 ([9, 9, 9, 9, 9, 9] : List Float) 3 pr).val? = some [1, 2, 9, 3, 4, 9] := by
  cases pr <;> decide +kernel

/-- With more columns than rows it is not so: `'L'` writes below the block (C29). -/
theorem C121_wide (pr : Profile) :
    ((dlacpy (F := Float) 'U' 1 2 ([1, 2, 3, 4] : List Float) 2 ([9, 9, 9, 9] : List Float) 2 pr).val?.bind fun b =>
      (dlacpy (F := Float) 'L' 1 2 ([1, 2, 3, 4] : List Float) 2 b 2 pr).val?) = some [1, 9, 3, 4] ∧
    (dlacpy (F := Float) 'A' 1 2 ([1, 2, 3, 4] : List Float) 2 ([9, 9, 9, 9] : List Float) 2 pr).val? = some [1, 9, 3, 9] := by
  cases pr <;> decide +kernel

end Verif
