import Verif.Lib.Loops
import Verif.Model.Array

/-!
# Computations that never reach `process::exit`
-/

set_option linter.unusedSectionVars false

namespace Verif
open Scalar

/-- In no profile does the computation end in `process::exit`. -/
def NoExit {α : Type} (x : R α) : Prop := ∀ p s i, x p ≠ .exit s i

section
variable {α β σ ι : Type}

theorem NoExit.pure (a : α) : NoExit (pure a : R α) := by intro p s i h; cases h

theorem NoExit.panic (e : Panic) : NoExit (R.panic e : R α) := by intro p s i h; cases h

theorem NoExit.timeout : NoExit (R.timeout : R α) := by intro p s i h; cases h

theorem NoExit.bind {x : R α} {f : α → R β} (hx : NoExit x) (hf : ∀ a, NoExit (f a)) :
    NoExit (x >>= f) := by
  intro p s i h
  rw [R.bind_apply] at h
  cases e : x p with
  | ok a => rw [e] at h; exact hf a p s i h
  | panic q => rw [e] at h; cases h
  | exit s' i' => exact hx p s' i' e
  | timeout => rw [e] at h; cases h

theorem NoExit.ite {c : Prop} [Decidable c] {x y : R α} (hx : NoExit x) (hy : NoExit y) :
    NoExit (if c then x else y) := by split <;> assumption

theorem NoExit.foldlM {f : σ → ι → R σ} (hf : ∀ s i, NoExit (f s i)) (l : List ι) (s : σ) :
    NoExit (l.foldlM f s) := by
  induction l generalizing s with
  | nil => exact NoExit.pure s
  | cons a l ih =>
    rw [List.foldlM_cons]
    exact NoExit.bind (hf s a) ih

theorem NoExit.forUp {f : σ → Int → R σ} (hf : ∀ s i, NoExit (f s i)) (lo hi : Int) (s : σ) :
    NoExit (forUp lo hi s f) := NoExit.foldlM hf _ s

theorem NoExit.forDown {f : σ → Int → R σ} (hf : ∀ s i, NoExit (f s i)) (lo hi : Int) (s : σ) :
    NoExit (forDown lo hi s f) := NoExit.foldlM hf _ s

theorem NoExit.chk (x : Int) : NoExit (chk x) := by
  intro p s i h
  unfold Verif.chk at h
  split at h
  · cases h
  · cases p <;> cases h

theorem NoExit.iadd (a b : Int) : NoExit (iadd a b) := NoExit.chk _
theorem NoExit.isub (a b : Int) : NoExit (isub a b) := NoExit.chk _
theorem NoExit.imul (a b : Int) : NoExit (imul a b) := NoExit.chk _

theorem NoExit.vecCap (n : Nat) : NoExit (vecCap n) := NoExit.ite (NoExit.pure _) (NoExit.panic _)
end

section
variable {F : Type} [Scalar F]

theorem NoExit.off (a : FA F) (i j : Int) : NoExit (a.off i j) :=
  .bind (.isub _ _) fun _ => .bind (.imul _ _) fun _ => .bind (.isub _ _) fun _ => .iadd _ _

theorem NoExit.get2 (a : FA F) (i j : Int) : NoExit (a.get2 i j) :=
  .bind (.off a i j) fun _ => .pure _

theorem NoExit.modify2 (a : FA F) (i j : Int) (f : F → F) : NoExit (a.modify2 i j f) :=
  .bind (.off a i j) fun _ => .pure _

theorem NoExit.set2 (a : FA F) (i j : Int) (v : F) : NoExit (a.set2 i j v) := .modify2 a i j _

theorem NoExit.as2d (a : FA F) (rows : Int) : NoExit (a.as2d rows) :=
  .ite (.panic _) (.bind (.chk _) fun _ => .pure _)

theorem NoExit.vecVecOfFa (a : FA F) : NoExit (vecVecOfFa a) := by
  refine .bind (.vecCap _) fun _ => .bind (.vecCap _) fun _ => .foldlM (fun w iv => ?_) _ _
  unfold vecVecStep
  refine .ite (.panic _) ?_
  split
  · exact .panic _
  · exact .ite (.pure _) (.panic _)

end

/-- Containers whose conversions never reach `process::exit`. -/
class Container (F : Type) (A : Type) [ToFA F A] : Prop where
  noExit : ∀ (a : A) (ld : Int), NoExit (ToFA.toFa2d (F := F) a ld)

/-- Containers whose conversion from an array never reaches `process::exit`. -/
class Sink (F : Type) (A : Type) [FromFA F A] : Prop where
  noExit : ∀ (a : FA F), NoExit (FromFA.fromFa (A := A) a)

variable {F : Type} [Scalar F]
instance : Container F (List F) := ⟨fun _ _ => .as2d _ _⟩
instance : Container F (List (List F)) := ⟨fun _ _ => .pure _⟩
instance : Container F (FA F) := ⟨fun _ _ => .pure _⟩
instance : Sink F (List F) := ⟨fun _ => .pure _⟩
instance : Sink F (List (List F)) := ⟨fun _ => .vecVecOfFa _⟩
instance : Sink F (FA F) := ⟨fun _ => .pure _⟩

end Verif
