import Verif.Props.LacpyParts

/-!
# C122: of several calls of `dlaset` the last one wins
-/

namespace Verif
open Scalar Spec

variable {F : Type} [Scalar F]

theorem set_last {uplo : Char} {r m n : Nat} {alpha beta alpha' beta' : F} {a b c d : List F} {ld : Nat} (u : Updated ld r n a b (setVal uplo m n alpha beta a ld))
    (v : Updated ld r n b c (setVal uplo m n alpha' beta' b ld)) (w : Updated ld r n a d (setVal uplo m n alpha' beta' a ld)) : c = d := by
  refine updated_unique v w (fun i hi j hj => ?_) u.frame
  unfold setVal
  split
  · rfl
  · rename_i h1
    split
    · rfl
    · rename_i h2
      have := u.block i hi j hj
      rw [setVal, if_neg h1, if_neg h2] at this
      rw [entry, List.getD_eq_getElem?_getD, this]
      rfl

/-- **C122.** On square nested vectors, `dlaset` after another `dlaset` of the same part gives what it gives alone. -/
theorem C122_dlaset_last (uplo : Char) (m n : Nat) (alpha beta alpha' beta' : F) (a : List (List F)) (ra : Nat) (ha : Rect a ra ra)
    (sa : Stored a.flatten ra (touchedRows uplo m n) n) (hb : ra * n < 2 ^ 31) :
    (dlaset uplo m n alpha beta a >>= fun b => dlaset uplo m n alpha' beta' b) = (dlaset uplo m n alpha' beta' a : R (List (List F))) := by
  obtain ⟨b, e, rb, u⟩ := C30_dlaset_nested uplo m n alpha beta a ra ha sa hb
  obtain ⟨c, e', rc, v⟩ := C30_dlaset_nested uplo m n alpha' beta' b ra rb (stored_congr sa u.length) hb
  obtain ⟨d, e'', rd, w⟩ := C30_dlaset_nested uplo m n alpha' beta' a ra ha sa hb
  rw [e, pure_bind, e', e'', rect_ext rc rd (set_last u v w)]

/-- **C122.** The same for arrays. -/
theorem C122_dlaset_last_array (uplo : Char) (m n : Nat) (alpha beta alpha' beta' : F) (a : FA F) (ra : Nat) (ha : a.rows = ra)
    (sa : Stored a.data ra (touchedRows uplo m n) n) (hb : ra * n < 2 ^ 31) :
    ∃ b c d, dlaset uplo m n alpha beta a = (pure b : R (FA F)) ∧ dlaset uplo m n alpha' beta' b = (pure c : R (FA F)) ∧ dlaset uplo m n alpha' beta' a = (pure d : R (FA F)) ∧
      c.rows = d.rows ∧ c.cols = d.cols ∧ c.data = d.data := by
  obtain ⟨b, e, rb, cb, u⟩ := C30_dlaset_array uplo m n alpha beta a ra ha sa hb
  obtain ⟨c, e', rc, cc, v⟩ := C30_dlaset_array uplo m n alpha' beta' b ra (rb.trans ha) (stored_congr sa u.length) hb
  obtain ⟨d, e'', rd, cd, w⟩ := C30_dlaset_array uplo m n alpha' beta' a ra ha sa hb
  exact ⟨b, c, d, e, e', e'', by rw [rc, rb, rd], by rw [cc, cb, cd], set_last u v w⟩

/-- A case. -/
theorem C122_example (pr : Profile) :
    ((dlaset (F := Float) 'U' 2 2 7 8 ([[1, 2], [3, 4]] : List (List Float)) pr).val?.bind fun b => (dlaset (F := Float) 'U' 2 2 5 6 b pr).val?) = some [[6, 5], [3, 6]] ∧
    (dlaset (F := Float) 'U' 2 2 5 6 ([[1, 2], [3, 4]] : List (List Float)) pr).val? = some [[6, 5], [3, 6]] := by
  cases pr <;> decide +kernel

/-- After a call for the other part both off-diagonal constants are there; only the diagonal belongs to both parts. -/
theorem C122_other_part (pr : Profile) :
    ((dlaset (F := Float) 'U' 2 2 7 8 ([[1, 2], [3, 4]] : List (List Float)) pr).val?.bind fun b => (dlaset (F := Float) 'L' 2 2 5 6 b pr).val?) = some [[6, 7], [5, 6]] := by
  cases pr <;> decide +kernel

end Verif
