import Verif.Props.Gemm
import Verif.Props.Trmm
import Verif.Props.Lacpy
import Verif.Props.Blas1
import Verif.Props.Nrm2
import Verif.Props.Larfg

/-!
# Debug and release builds (C46)
-/

namespace Verif
open Scalar Spec

variable {F : Type} [Scalar F]

/-- The call returns normally, with the same value, in a debug and in a release build. -/
def Spec.SameInBoth {α : Type} (x : R α) : Prop := ∃ a, x .debug = .ok a ∧ x .release = .ok a

theorem sameInBoth_pure {α : Type} {x : R α} {a : α} (h : x = pure a) : SameInBoth x := by
  subst h; exact ⟨a, rfl, rfl⟩

/-- **C46, dcopy.** -/
theorem C46_dcopy (n : Nat) (x y : List F) (incx incy : Int)
    (hx : StrideFits n incx x.length) (hy : StrideFits n incy y.length)
    (hox : n * incx.natAbs + 1 < 2 ^ 31) (hoy : n * incy.natAbs + 1 < 2 ^ 31) :
    SameInBoth (dcopy (F := F) (n : Int) x incx y incy) := by
  obtain ⟨_, e, _⟩ := C10_dcopy n x y incx incy hx hy hox hoy
  exact sameInBoth_pure e

/-- **C46, dscal.** -/
theorem C46_dscal (n : Nat) (da : F) (x : List F) (incx : Int) (hinc : 1 ≤ incx)
    (hx : StrideFits n incx x.length) (hox : n * incx.natAbs + 1 < 2 ^ 31) :
    SameInBoth (dscal (n : Int) da x incx) := by
  by_cases hda : (da =ᶠ one) = false
  · obtain ⟨_, e, _⟩ := C12_dscal n da hda x incx hinc hx hox
    exact sameInBoth_pure e
  · exact sameInBoth_pure (C13_dscal_noop (n : Int) da x incx (Or.inr (Or.inr (by simpa using hda))))

/-- **C46, drot.** -/
theorem C46_drot (n : Nat) (x y : List F) (incx incy : Int) (c s : F) (hx0 : incx ≠ 0) (hy0 : incy ≠ 0)
    (hx : StrideFits n incx x.length) (hy : StrideFits n incy y.length)
    (hox : n * incx.natAbs + 1 < 2 ^ 31) (hoy : n * incy.natAbs + 1 < 2 ^ 31) :
    SameInBoth (drot (n : Int) x incx y incy c s) := by
  obtain ⟨_, _, e, _⟩ := C14_drot n x y incx incy c s hx0 hy0 hx hy hox hoy
  exact sameInBoth_pure e

/-- **C46, dnrm2.** -/
theorem C46_dnrm2 (n : Nat) (x : List F) (incx : Int) (hx : x.length < 2 ^ 62)
    (hox : n * incx.natAbs + 1 < 2 ^ 31) : SameInBoth (dnrm2 (F := F) (n : Int) x incx) := by
  by_cases hn : 0 < n
  · exact sameInBoth_pure (dnrm2FA_fold hn hox (ToFA.toFa (F := F) x) hx)
  · refine sameInBoth_pure (a := zero) ?_
    show dnrm2FA _ _ _ = _
    unfold dnrm2FA
    rw [if_pos (by omega)]

/-- **C46, dgemm** (flat vectors). -/
theorem C46_dgemm {ta tb : Char} (hta : TransFlag ta) (htb : TransFlag tb) (m n k : Nat)
    (alpha beta : F) (a b c : List F) (lda ldb ldc : Nat)
    (sa : Stored a lda (storedRows ta m k) (storedCols ta m k))
    (sb : Stored b ldb (storedRows tb k n) (storedCols tb k n)) (sc : Stored c ldc m n) :
    SameInBoth (dgemm (F := F) ta tb m n k alpha a lda b ldb beta c ldc : R (List F)) := by
  obtain ⟨_, e, _⟩ := C24_dgemm hta htb m n k alpha beta a b c lda ldb ldc sa sb sc
  exact sameInBoth_pure e

/-- **C46, dtrmm** (`FortranArray`). -/
theorem C46_dtrmm {side uplo transa diag : Char} (h1 : SideFlag side) (h2 : UploFlag uplo)
    (h3 : TransFlag transa) (h4 : DiagFlag diag) {m n : Nat} {lda ldb : Int}
    (hla : max 1 (if isLeft side then (m : Int) else n) ≤ lda) (hlb : max 1 (m : Int) ≤ ldb)
    (alpha : F) (a b : FA F) (ra rb : Nat) (ha : a.rows = ra) (hb : b.rows = rb)
    (sa : Stored a.data ra (triOrder side m n) (triOrder side m n)) (sb : Stored b.data rb m n) :
    SameInBoth (dtrmm side uplo transa diag m n alpha a lda b ldb) := by
  obtain ⟨_, e, _⟩ := C26_dtrmm h1 h2 h3 h4 hla hlb alpha a a b ra ra rb ha ha hb sa sa sb (fun _ _ _ _ _ => rfl)
  exact sameInBoth_pure e

/-- **C46, dlacpy** (flat vectors). -/
theorem C46_dlacpy (uplo : Char) (m n : Nat) (a b : List F) (lda ldb : Nat)
    (sa : Stored a lda (touchedRows uplo m n) n) (sb : Stored b ldb (touchedRows uplo m n) n) :
    SameInBoth (dlacpy (F := F) uplo m n a lda b ldb : R (List F)) := by
  obtain ⟨_, e, _⟩ := C29_dlacpy uplo m n a b lda ldb sa sb
  exact sameInBoth_pure e

/-- **C46, dlaset** (`FortranArray`). -/
theorem C46_dlaset (uplo : Char) (m n : Nat) (alpha beta : F) (a : FA F) (ra : Nat)
    (ha : a.rows = ra) (sa : Stored a.data ra (touchedRows uplo m n) n) (hb : ra * n < 2 ^ 31) :
    SameInBoth (dlaset (F := F) uplo m n alpha beta a : R (FA F)) := by
  obtain ⟨_, e, _⟩ := C30_dlaset_array uplo m n alpha beta a ra ha sa hb
  exact sameInBoth_pure e

/-- **C46, dlarfg.** -/
theorem C46_dlarfg (m : Nat) (alpha : F) (x : List F) (incx : Int) (hx : StrideFits m incx x.length)
    (hl : x.length < 2 ^ 60) (hm : m < 2 ^ 31 - 1) (hox : m * incx.natAbs + 1 < 2 ^ 31) :
    SameInBoth (dlarfg ((m : Int) + 1) alpha x incx) := by
  obtain ⟨_, _, _, e, _⟩ := C35_dlarfg_returns m alpha x incx hx hl hm hox
  exact sameInBoth_pure e

/-- The preconditions matter: two elements at stride `i32::MAX` panic in a debug build, and come back unscaled
in a release build. -/
theorem C46_dscal_differs (da : F) (hda : (da =ᶠ one) = false) (x : List F) :
    dscal 2 da x 2147483647 .debug = .panic .overflow ∧
      dscal 2 da x 2147483647 .release = .ok x := by
  refine ⟨C12_dscal_overflow_debug da hda x, ?_⟩
  unfold dscal dscalFA
  rw [if_neg (by simp [hda]), if_neg (by decide)]
  simp only [R.bind_apply, imul, chk_release]
  rfl

/-- The hypotheses are met: `dgemm` on `2×2` matrices. -/
example (a b c d : F) : SameInBoth (dgemm (F := F) 'N' 'T' (2 : Nat) (2 : Nat) (2 : Nat) a [a, b, c, d] (2 : Nat)
    [d, c, b, a] (2 : Nat) b [a, a, b, b] (2 : Nat) : R (List F)) := by
  refine C46_dgemm (by decide) (by decide) 2 2 2 a b _ _ _ 2 2 2 ?_ ?_ ?_ <;>
    constructor <;> simp [storedRows, storedCols, noTrans] <;> intros <;> omega

end Verif
