import Verif.Props.Env6

/-!
# C102: the whole table of `ilaenv`

The answers for `ispec = 1, 2, 3` as tables of name patterns: the first row whose pattern fits the beginning of the name gives the
answer.  `?` fits any character.
-/

namespace Verif
open Spec

/-- Specification: `name` begins as the pattern says. -/
def Spec.fitsPat (pat : String) (name : List Char) : Bool :=
  decide (pat.toList.length ≤ name.length) && (List.zipWith (fun p c => decide (p = '?') || decide (c = p)) pat.toList name).all id

/-- Specification: the answer of the first row that fits, or `d`. -/
def Spec.lookup (d : Int) (name : List Char) : List (String × Int) → Int
  | [] => d
  | (pat, v) :: rows => if Spec.fitsPat pat name then v else Spec.lookup d name rows

/-- Specification: block sizes, routines for real matrices (`n` is the order of a Sylvester equation, `wide` that the band is wider than 64). -/
def Spec.blockReal (n : Int) (wide : Bool) : List (String × Int) :=
  [("?LAORH", 192), ("?SYTRF????2", 192), ("?HETRF????2", 192), ("?SYTRF", 64), ("?HETRF", 64),
   ("?GEQRF", 32), ("?GERQF", 32), ("?GELQF", 32), ("?GEQLF", 32), ("?GEHRD", 32), ("?GEBRD", 32),
   ("?OR", 32),
   ("?GBTRF", if wide then 32 else 1), ("?PBTRF", if wide then 32 else 1),
   ("?TRTRI", 64), ("?TREVC", 64), ("?TRSYL", min (max 48 ((n * 16).tdiv 100)) 240),
   ("?LAUUM", 64), ("?LATRS", 64), ("?GGHD3", 32)]

/-- Specification: block sizes, routines for complex matrices. -/
def Spec.blockComplex (n : Int) (wide : Bool) : List (String × Int) :=
  [("?LAORH", 192), ("?SYTRF????2", 192), ("?HETRF????2", 192), ("?SYTRF", 64), ("?HETRF", 64),
   ("?GEQRF", 32), ("?GERQF", 32), ("?GELQF", 32), ("?GEQLF", 32), ("?GEHRD", 32), ("?GEBRD", 32),
   ("?UNGQR", 32), ("?UNGRQ", 32), ("?UNGLQ", 32), ("?UNGQL", 32), ("?UNGHR", 32), ("?UNGTR", 32), ("?UNGBR", 32),
   ("?UNMQR", 32), ("?UNMRQ", 32), ("?UNMLQ", 32), ("?UNMQL", 32), ("?UNMHR", 32), ("?UNMTR", 32), ("?UNMBR", 32),
   ("?GBTRF", if wide then 32 else 1), ("?PBTRF", if wide then 32 else 1),
   ("?TRTRI", 64), ("?TREVC", 64), ("?TRSYL", min (max 24 ((n * 8).tdiv 100)) 80),
   ("?LAUUM", 64), ("?LATRS", 64), ("?GGHD3", 32)]

/-- Specification: minimum block sizes (2 if no row fits). -/
def Spec.minReal : List (String × Int) :=
  [("?SYTRF", 8), ("?ORG", 2), ("?ORMQR", 2), ("?ORMRQ", 2), ("?ORMLQ", 2), ("?ORMQL", 2), ("?ORMHR", 2), ("?ORMTR", 2), ("?ORMBR", 2),
   ("?OR", 1)]

def Spec.minComplex : List (String × Int) :=
  [("?SYTRF", 8), ("?UNG", 2), ("?UNMQR", 2), ("?UNMRQ", 2), ("?UNMLQ", 2), ("?UNMQL", 2), ("?UNMHR", 2), ("?UNMTR", 2), ("?UNMBR", 2),
   ("?UN", 1)]

/-- Specification: crossover points (0 if no row fits). -/
def Spec.crossReal : List (String × Int) :=
  [("?GEQRF", 128), ("?GERQF", 128), ("?GELQF", 128), ("?GEQLF", 128), ("?GEHRD", 128), ("?GEBRD", 128),
   ("?SYTRD", 32), ("?HETRD", 32), ("?GGHD3", 128),
   ("?ORGQR", 128), ("?ORGRQ", 128), ("?ORGLQ", 128), ("?ORGQL", 128), ("?ORGHR", 128), ("?ORGTR", 128), ("?ORGBR", 128)]

def Spec.crossComplex : List (String × Int) :=
  [("?GEQRF", 128), ("?GERQF", 128), ("?GELQF", 128), ("?GEQLF", 128), ("?GEHRD", 128), ("?GEBRD", 128),
   ("?SYTRD", 32), ("?HETRD", 32), ("?GGHD3", 128),
   ("?UNGQR", 128), ("?UNGRQ", 128), ("?UNGLQ", 128), ("?UNGQL", 128), ("?UNGHR", 128), ("?UNGTR", 128), ("?UNGBR", 128)]

section
variable {c : Char} {t : List Char}

theorem fits6 (pat : String) (x y u v w : Char) (h : pat.toList = ['?', x, y, u, v, w])
    (hx : x ≠ '?') (hy : y ≠ '?') (hu : u ≠ '?') (hv : v ≠ '?') (hw : w ≠ '?') :
    fitsPat pat (c :: t) = (decide (((c :: t).drop 1).take 2 = [x, y]) && decide (((c :: t).drop 3).take 3 = [u, v, w])) := by
  unfold fitsPat
  rw [h]
  rcases t with _ | ⟨a, _ | ⟨b, _ | ⟨d, _ | ⟨e, _ | ⟨f, t⟩⟩⟩⟩⟩ <;> simp [hx, hy, hu, hv, hw, Bool.and_assoc]

theorem fits3 (pat : String) (x y : Char) (h : pat.toList = ['?', x, y])
    (hx : x ≠ '?') (hy : y ≠ '?') :
    fitsPat pat (c :: t) = decide (((c :: t).drop 1).take 2 = [x, y]) := by
  unfold fitsPat
  rw [h]
  rcases t with _ | ⟨a, _ | ⟨b, t⟩⟩ <;> simp [hx, hy]

theorem fits4 (pat : String) (x y u : Char) (h : pat.toList = ['?', x, y, u])
    (hx : x ≠ '?') (hy : y ≠ '?') (hu : u ≠ '?') :
    fitsPat pat (c :: t) = (decide (((c :: t).drop 1).take 2 = [x, y]) && startsWith (((c :: t).drop 3).take 3) u) := by
  unfold fitsPat startsWith
  rw [h]
  rcases t with _ | ⟨a, _ | ⟨b, _ | ⟨d, t⟩⟩⟩ <;> simp [hx, hy, hu, Bool.and_assoc]

theorem fits11 (pat : String) (x y u v w z : Char) (h : pat.toList = ['?', x, y, u, v, w, '?', '?', '?', '?', z])
    (hx : x ≠ '?') (hy : y ≠ '?') (hu : u ≠ '?') (hv : v ≠ '?') (hw : w ≠ '?') (hz : z ≠ '?') :
    fitsPat pat (c :: t) = (decide (((c :: t).drop 1).take 2 = [x, y]) && decide (((c :: t).drop 3).take 3 = [u, v, w]) &&
      decide ((c :: t)[10]? = some z)) := by
  unfold fitsPat
  rw [h]
  rcases t with _ | ⟨a, _ | ⟨b, _ | ⟨d, _ | ⟨e, _ | ⟨f, _ | ⟨g1, _ | ⟨g2, _ | ⟨g3, _ | ⟨g4, _ | ⟨g5, t⟩⟩⟩⟩⟩⟩⟩⟩⟩⟩ <;> simp [hx, hy, hu, hv, hw, hz, Bool.and_assoc]

theorem laorh : (decide (((c :: t).drop 1).take 2 = "LA".toList) && decide (((c :: t).drop 1).take 5 = "LAORH".toList)) = fitsPat "?LAORH" (c :: t) := by
  rw [fits6 "?LAORH" 'L' 'A' 'O' 'R' 'H' rfl (by decide) (by decide) (by decide) (by decide) (by decide)]
  rcases t with _ | ⟨a, _ | ⟨b, _ | ⟨d, _ | ⟨e, _ | ⟨f, t⟩⟩⟩⟩⟩ <;> simp [Bool.and_assoc]
  by_cases h1 : a = 'L' <;> by_cases h2 : b = 'A' <;> simp [h1, h2]

end

theorem ite_or' {α : Type} (a b : Prop) [Decidable a] [Decidable b] (x y : α) :
    (if a ∨ b then x else y) = if a then x else if b then x else y := by
  by_cases ha : a <;> by_cases hb : b <;> simp [ha, hb]

theorem orth_eq {c3 : List Char} (h : c3.length ≤ 3) (m : Char) : (startsWith c3 m && orthNames.contains ((c3.drop 1).take 2)) =
    (decide (c3 = [m, 'Q', 'R']) || (decide (c3 = [m, 'R', 'Q']) || (decide (c3 = [m, 'L', 'Q']) || (decide (c3 = [m, 'Q', 'L']) ||
      (decide (c3 = [m, 'H', 'R']) || (decide (c3 = [m, 'T', 'R']) || decide (c3 = [m, 'B', 'R']))))))) := by
  unfold startsWith orthNames
  rcases c3 with _ | ⟨d, _ | ⟨e, _ | ⟨f, _ | ⟨g, t⟩⟩⟩⟩
  · simp
  · simp
  · simp
  · by_cases h : d = m
    · simp [h]
    · simp [h]
  · simp only [List.length_cons] at h; omega

section
variable {c : Char} {t : List Char}
theorem pat_GBTRF : fitsPat "?GBTRF" (c :: t) = (decide (((c :: t).drop 1).take 2 = ['G', 'B']) && decide (((c :: t).drop 3).take 3 = ['T', 'R', 'F'])) :=
  fits6 _ 'G' 'B' 'T' 'R' 'F' rfl (by decide) (by decide) (by decide) (by decide) (by decide)
theorem pat_GEBRD : fitsPat "?GEBRD" (c :: t) = (decide (((c :: t).drop 1).take 2 = ['G', 'E']) && decide (((c :: t).drop 3).take 3 = ['B', 'R', 'D'])) :=
  fits6 _ 'G' 'E' 'B' 'R' 'D' rfl (by decide) (by decide) (by decide) (by decide) (by decide)
theorem pat_GEHRD : fitsPat "?GEHRD" (c :: t) = (decide (((c :: t).drop 1).take 2 = ['G', 'E']) && decide (((c :: t).drop 3).take 3 = ['H', 'R', 'D'])) :=
  fits6 _ 'G' 'E' 'H' 'R' 'D' rfl (by decide) (by decide) (by decide) (by decide) (by decide)
theorem pat_GELQF : fitsPat "?GELQF" (c :: t) = (decide (((c :: t).drop 1).take 2 = ['G', 'E']) && decide (((c :: t).drop 3).take 3 = ['L', 'Q', 'F'])) :=
  fits6 _ 'G' 'E' 'L' 'Q' 'F' rfl (by decide) (by decide) (by decide) (by decide) (by decide)
theorem pat_GEQLF : fitsPat "?GEQLF" (c :: t) = (decide (((c :: t).drop 1).take 2 = ['G', 'E']) && decide (((c :: t).drop 3).take 3 = ['Q', 'L', 'F'])) :=
  fits6 _ 'G' 'E' 'Q' 'L' 'F' rfl (by decide) (by decide) (by decide) (by decide) (by decide)
theorem pat_GEQRF : fitsPat "?GEQRF" (c :: t) = (decide (((c :: t).drop 1).take 2 = ['G', 'E']) && decide (((c :: t).drop 3).take 3 = ['Q', 'R', 'F'])) :=
  fits6 _ 'G' 'E' 'Q' 'R' 'F' rfl (by decide) (by decide) (by decide) (by decide) (by decide)
theorem pat_GERQF : fitsPat "?GERQF" (c :: t) = (decide (((c :: t).drop 1).take 2 = ['G', 'E']) && decide (((c :: t).drop 3).take 3 = ['R', 'Q', 'F'])) :=
  fits6 _ 'G' 'E' 'R' 'Q' 'F' rfl (by decide) (by decide) (by decide) (by decide) (by decide)
theorem pat_GGHD3 : fitsPat "?GGHD3" (c :: t) = (decide (((c :: t).drop 1).take 2 = ['G', 'G']) && decide (((c :: t).drop 3).take 3 = ['H', 'D', '3'])) :=
  fits6 _ 'G' 'G' 'H' 'D' '3' rfl (by decide) (by decide) (by decide) (by decide) (by decide)
theorem pat_HETRD : fitsPat "?HETRD" (c :: t) = (decide (((c :: t).drop 1).take 2 = ['H', 'E']) && decide (((c :: t).drop 3).take 3 = ['T', 'R', 'D'])) :=
  fits6 _ 'H' 'E' 'T' 'R' 'D' rfl (by decide) (by decide) (by decide) (by decide) (by decide)
theorem pat_HETRF : fitsPat "?HETRF" (c :: t) = (decide (((c :: t).drop 1).take 2 = ['H', 'E']) && decide (((c :: t).drop 3).take 3 = ['T', 'R', 'F'])) :=
  fits6 _ 'H' 'E' 'T' 'R' 'F' rfl (by decide) (by decide) (by decide) (by decide) (by decide)
theorem pat_HETRF2 : fitsPat "?HETRF????2" (c :: t) = (decide (((c :: t).drop 1).take 2 = ['H', 'E']) && decide (((c :: t).drop 3).take 3 = ['T', 'R', 'F']) && decide ((c :: t)[10]? = some '2')) :=
  fits11 _ 'H' 'E' 'T' 'R' 'F' '2' rfl (by decide) (by decide) (by decide) (by decide) (by decide) (by decide)
theorem pat_LAORH : fitsPat "?LAORH" (c :: t) = (decide (((c :: t).drop 1).take 2 = ['L', 'A']) && decide (((c :: t).drop 3).take 3 = ['O', 'R', 'H'])) :=
  fits6 _ 'L' 'A' 'O' 'R' 'H' rfl (by decide) (by decide) (by decide) (by decide) (by decide)
theorem pat_LATRS : fitsPat "?LATRS" (c :: t) = (decide (((c :: t).drop 1).take 2 = ['L', 'A']) && decide (((c :: t).drop 3).take 3 = ['T', 'R', 'S'])) :=
  fits6 _ 'L' 'A' 'T' 'R' 'S' rfl (by decide) (by decide) (by decide) (by decide) (by decide)
theorem pat_LAUUM : fitsPat "?LAUUM" (c :: t) = (decide (((c :: t).drop 1).take 2 = ['L', 'A']) && decide (((c :: t).drop 3).take 3 = ['U', 'U', 'M'])) :=
  fits6 _ 'L' 'A' 'U' 'U' 'M' rfl (by decide) (by decide) (by decide) (by decide) (by decide)
theorem pat_OR : fitsPat "?OR" (c :: t) = decide (((c :: t).drop 1).take 2 = ['O', 'R']) :=
  fits3 _ 'O' 'R' rfl (by decide) (by decide)
theorem pat_ORG : fitsPat "?ORG" (c :: t) = (decide (((c :: t).drop 1).take 2 = ['O', 'R']) && startsWith (((c :: t).drop 3).take 3) 'G') :=
  fits4 _ 'O' 'R' 'G' rfl (by decide) (by decide) (by decide)
theorem pat_ORGBR : fitsPat "?ORGBR" (c :: t) = (decide (((c :: t).drop 1).take 2 = ['O', 'R']) && decide (((c :: t).drop 3).take 3 = ['G', 'B', 'R'])) :=
  fits6 _ 'O' 'R' 'G' 'B' 'R' rfl (by decide) (by decide) (by decide) (by decide) (by decide)
theorem pat_ORGHR : fitsPat "?ORGHR" (c :: t) = (decide (((c :: t).drop 1).take 2 = ['O', 'R']) && decide (((c :: t).drop 3).take 3 = ['G', 'H', 'R'])) :=
  fits6 _ 'O' 'R' 'G' 'H' 'R' rfl (by decide) (by decide) (by decide) (by decide) (by decide)
theorem pat_ORGLQ : fitsPat "?ORGLQ" (c :: t) = (decide (((c :: t).drop 1).take 2 = ['O', 'R']) && decide (((c :: t).drop 3).take 3 = ['G', 'L', 'Q'])) :=
  fits6 _ 'O' 'R' 'G' 'L' 'Q' rfl (by decide) (by decide) (by decide) (by decide) (by decide)
theorem pat_ORGQL : fitsPat "?ORGQL" (c :: t) = (decide (((c :: t).drop 1).take 2 = ['O', 'R']) && decide (((c :: t).drop 3).take 3 = ['G', 'Q', 'L'])) :=
  fits6 _ 'O' 'R' 'G' 'Q' 'L' rfl (by decide) (by decide) (by decide) (by decide) (by decide)
theorem pat_ORGQR : fitsPat "?ORGQR" (c :: t) = (decide (((c :: t).drop 1).take 2 = ['O', 'R']) && decide (((c :: t).drop 3).take 3 = ['G', 'Q', 'R'])) :=
  fits6 _ 'O' 'R' 'G' 'Q' 'R' rfl (by decide) (by decide) (by decide) (by decide) (by decide)
theorem pat_ORGRQ : fitsPat "?ORGRQ" (c :: t) = (decide (((c :: t).drop 1).take 2 = ['O', 'R']) && decide (((c :: t).drop 3).take 3 = ['G', 'R', 'Q'])) :=
  fits6 _ 'O' 'R' 'G' 'R' 'Q' rfl (by decide) (by decide) (by decide) (by decide) (by decide)
theorem pat_ORGTR : fitsPat "?ORGTR" (c :: t) = (decide (((c :: t).drop 1).take 2 = ['O', 'R']) && decide (((c :: t).drop 3).take 3 = ['G', 'T', 'R'])) :=
  fits6 _ 'O' 'R' 'G' 'T' 'R' rfl (by decide) (by decide) (by decide) (by decide) (by decide)
theorem pat_ORMBR : fitsPat "?ORMBR" (c :: t) = (decide (((c :: t).drop 1).take 2 = ['O', 'R']) && decide (((c :: t).drop 3).take 3 = ['M', 'B', 'R'])) :=
  fits6 _ 'O' 'R' 'M' 'B' 'R' rfl (by decide) (by decide) (by decide) (by decide) (by decide)
theorem pat_ORMHR : fitsPat "?ORMHR" (c :: t) = (decide (((c :: t).drop 1).take 2 = ['O', 'R']) && decide (((c :: t).drop 3).take 3 = ['M', 'H', 'R'])) :=
  fits6 _ 'O' 'R' 'M' 'H' 'R' rfl (by decide) (by decide) (by decide) (by decide) (by decide)
theorem pat_ORMLQ : fitsPat "?ORMLQ" (c :: t) = (decide (((c :: t).drop 1).take 2 = ['O', 'R']) && decide (((c :: t).drop 3).take 3 = ['M', 'L', 'Q'])) :=
  fits6 _ 'O' 'R' 'M' 'L' 'Q' rfl (by decide) (by decide) (by decide) (by decide) (by decide)
theorem pat_ORMQL : fitsPat "?ORMQL" (c :: t) = (decide (((c :: t).drop 1).take 2 = ['O', 'R']) && decide (((c :: t).drop 3).take 3 = ['M', 'Q', 'L'])) :=
  fits6 _ 'O' 'R' 'M' 'Q' 'L' rfl (by decide) (by decide) (by decide) (by decide) (by decide)
theorem pat_ORMQR : fitsPat "?ORMQR" (c :: t) = (decide (((c :: t).drop 1).take 2 = ['O', 'R']) && decide (((c :: t).drop 3).take 3 = ['M', 'Q', 'R'])) :=
  fits6 _ 'O' 'R' 'M' 'Q' 'R' rfl (by decide) (by decide) (by decide) (by decide) (by decide)
theorem pat_ORMRQ : fitsPat "?ORMRQ" (c :: t) = (decide (((c :: t).drop 1).take 2 = ['O', 'R']) && decide (((c :: t).drop 3).take 3 = ['M', 'R', 'Q'])) :=
  fits6 _ 'O' 'R' 'M' 'R' 'Q' rfl (by decide) (by decide) (by decide) (by decide) (by decide)
theorem pat_ORMTR : fitsPat "?ORMTR" (c :: t) = (decide (((c :: t).drop 1).take 2 = ['O', 'R']) && decide (((c :: t).drop 3).take 3 = ['M', 'T', 'R'])) :=
  fits6 _ 'O' 'R' 'M' 'T' 'R' rfl (by decide) (by decide) (by decide) (by decide) (by decide)
theorem pat_PBTRF : fitsPat "?PBTRF" (c :: t) = (decide (((c :: t).drop 1).take 2 = ['P', 'B']) && decide (((c :: t).drop 3).take 3 = ['T', 'R', 'F'])) :=
  fits6 _ 'P' 'B' 'T' 'R' 'F' rfl (by decide) (by decide) (by decide) (by decide) (by decide)
theorem pat_SYTRD : fitsPat "?SYTRD" (c :: t) = (decide (((c :: t).drop 1).take 2 = ['S', 'Y']) && decide (((c :: t).drop 3).take 3 = ['T', 'R', 'D'])) :=
  fits6 _ 'S' 'Y' 'T' 'R' 'D' rfl (by decide) (by decide) (by decide) (by decide) (by decide)
theorem pat_SYTRF : fitsPat "?SYTRF" (c :: t) = (decide (((c :: t).drop 1).take 2 = ['S', 'Y']) && decide (((c :: t).drop 3).take 3 = ['T', 'R', 'F'])) :=
  fits6 _ 'S' 'Y' 'T' 'R' 'F' rfl (by decide) (by decide) (by decide) (by decide) (by decide)
theorem pat_SYTRF2 : fitsPat "?SYTRF????2" (c :: t) = (decide (((c :: t).drop 1).take 2 = ['S', 'Y']) && decide (((c :: t).drop 3).take 3 = ['T', 'R', 'F']) && decide ((c :: t)[10]? = some '2')) :=
  fits11 _ 'S' 'Y' 'T' 'R' 'F' '2' rfl (by decide) (by decide) (by decide) (by decide) (by decide) (by decide)
theorem pat_TREVC : fitsPat "?TREVC" (c :: t) = (decide (((c :: t).drop 1).take 2 = ['T', 'R']) && decide (((c :: t).drop 3).take 3 = ['E', 'V', 'C'])) :=
  fits6 _ 'T' 'R' 'E' 'V' 'C' rfl (by decide) (by decide) (by decide) (by decide) (by decide)
theorem pat_TRSYL : fitsPat "?TRSYL" (c :: t) = (decide (((c :: t).drop 1).take 2 = ['T', 'R']) && decide (((c :: t).drop 3).take 3 = ['S', 'Y', 'L'])) :=
  fits6 _ 'T' 'R' 'S' 'Y' 'L' rfl (by decide) (by decide) (by decide) (by decide) (by decide)
theorem pat_TRTRI : fitsPat "?TRTRI" (c :: t) = (decide (((c :: t).drop 1).take 2 = ['T', 'R']) && decide (((c :: t).drop 3).take 3 = ['T', 'R', 'I'])) :=
  fits6 _ 'T' 'R' 'T' 'R' 'I' rfl (by decide) (by decide) (by decide) (by decide) (by decide)
theorem pat_UN : fitsPat "?UN" (c :: t) = decide (((c :: t).drop 1).take 2 = ['U', 'N']) :=
  fits3 _ 'U' 'N' rfl (by decide) (by decide)
theorem pat_UNG : fitsPat "?UNG" (c :: t) = (decide (((c :: t).drop 1).take 2 = ['U', 'N']) && startsWith (((c :: t).drop 3).take 3) 'G') :=
  fits4 _ 'U' 'N' 'G' rfl (by decide) (by decide) (by decide)
theorem pat_UNGBR : fitsPat "?UNGBR" (c :: t) = (decide (((c :: t).drop 1).take 2 = ['U', 'N']) && decide (((c :: t).drop 3).take 3 = ['G', 'B', 'R'])) :=
  fits6 _ 'U' 'N' 'G' 'B' 'R' rfl (by decide) (by decide) (by decide) (by decide) (by decide)
theorem pat_UNGHR : fitsPat "?UNGHR" (c :: t) = (decide (((c :: t).drop 1).take 2 = ['U', 'N']) && decide (((c :: t).drop 3).take 3 = ['G', 'H', 'R'])) :=
  fits6 _ 'U' 'N' 'G' 'H' 'R' rfl (by decide) (by decide) (by decide) (by decide) (by decide)
theorem pat_UNGLQ : fitsPat "?UNGLQ" (c :: t) = (decide (((c :: t).drop 1).take 2 = ['U', 'N']) && decide (((c :: t).drop 3).take 3 = ['G', 'L', 'Q'])) :=
  fits6 _ 'U' 'N' 'G' 'L' 'Q' rfl (by decide) (by decide) (by decide) (by decide) (by decide)
theorem pat_UNGQL : fitsPat "?UNGQL" (c :: t) = (decide (((c :: t).drop 1).take 2 = ['U', 'N']) && decide (((c :: t).drop 3).take 3 = ['G', 'Q', 'L'])) :=
  fits6 _ 'U' 'N' 'G' 'Q' 'L' rfl (by decide) (by decide) (by decide) (by decide) (by decide)
theorem pat_UNGQR : fitsPat "?UNGQR" (c :: t) = (decide (((c :: t).drop 1).take 2 = ['U', 'N']) && decide (((c :: t).drop 3).take 3 = ['G', 'Q', 'R'])) :=
  fits6 _ 'U' 'N' 'G' 'Q' 'R' rfl (by decide) (by decide) (by decide) (by decide) (by decide)
theorem pat_UNGRQ : fitsPat "?UNGRQ" (c :: t) = (decide (((c :: t).drop 1).take 2 = ['U', 'N']) && decide (((c :: t).drop 3).take 3 = ['G', 'R', 'Q'])) :=
  fits6 _ 'U' 'N' 'G' 'R' 'Q' rfl (by decide) (by decide) (by decide) (by decide) (by decide)
theorem pat_UNGTR : fitsPat "?UNGTR" (c :: t) = (decide (((c :: t).drop 1).take 2 = ['U', 'N']) && decide (((c :: t).drop 3).take 3 = ['G', 'T', 'R'])) :=
  fits6 _ 'U' 'N' 'G' 'T' 'R' rfl (by decide) (by decide) (by decide) (by decide) (by decide)
theorem pat_UNMBR : fitsPat "?UNMBR" (c :: t) = (decide (((c :: t).drop 1).take 2 = ['U', 'N']) && decide (((c :: t).drop 3).take 3 = ['M', 'B', 'R'])) :=
  fits6 _ 'U' 'N' 'M' 'B' 'R' rfl (by decide) (by decide) (by decide) (by decide) (by decide)
theorem pat_UNMHR : fitsPat "?UNMHR" (c :: t) = (decide (((c :: t).drop 1).take 2 = ['U', 'N']) && decide (((c :: t).drop 3).take 3 = ['M', 'H', 'R'])) :=
  fits6 _ 'U' 'N' 'M' 'H' 'R' rfl (by decide) (by decide) (by decide) (by decide) (by decide)
theorem pat_UNMLQ : fitsPat "?UNMLQ" (c :: t) = (decide (((c :: t).drop 1).take 2 = ['U', 'N']) && decide (((c :: t).drop 3).take 3 = ['M', 'L', 'Q'])) :=
  fits6 _ 'U' 'N' 'M' 'L' 'Q' rfl (by decide) (by decide) (by decide) (by decide) (by decide)
theorem pat_UNMQL : fitsPat "?UNMQL" (c :: t) = (decide (((c :: t).drop 1).take 2 = ['U', 'N']) && decide (((c :: t).drop 3).take 3 = ['M', 'Q', 'L'])) :=
  fits6 _ 'U' 'N' 'M' 'Q' 'L' rfl (by decide) (by decide) (by decide) (by decide) (by decide)
theorem pat_UNMQR : fitsPat "?UNMQR" (c :: t) = (decide (((c :: t).drop 1).take 2 = ['U', 'N']) && decide (((c :: t).drop 3).take 3 = ['M', 'Q', 'R'])) :=
  fits6 _ 'U' 'N' 'M' 'Q' 'R' rfl (by decide) (by decide) (by decide) (by decide) (by decide)
theorem pat_UNMRQ : fitsPat "?UNMRQ" (c :: t) = (decide (((c :: t).drop 1).take 2 = ['U', 'N']) && decide (((c :: t).drop 3).take 3 = ['M', 'R', 'Q'])) :=
  fits6 _ 'U' 'N' 'M' 'R' 'Q' rfl (by decide) (by decide) (by decide) (by decide) (by decide)
theorem pat_UNMTR : fitsPat "?UNMTR" (c :: t) = (decide (((c :: t).drop 1).take 2 = ['U', 'N']) && decide (((c :: t).drop 3).take 3 = ['M', 'T', 'R'])) :=
  fits6 _ 'U' 'N' 'M' 'T' 'R' rfl (by decide) (by decide) (by decide) (by decide) (by decide)

end

theorem minReal_table {c : Char} {t : List Char} : ilaenvMin (c :: t) (((c :: t).drop 1).take 2) (((c :: t).drop 3).take 3) (((((c :: t).drop 3).take 3).drop 1).take 2) true false = lookup 2 (c :: t) minReal := by
  simp only [lookup, minReal, pat_SYTRF, pat_ORG, pat_ORMQR, pat_ORMRQ, pat_ORMLQ, pat_ORMQL, pat_ORMHR, pat_ORMTR, pat_ORMBR, pat_OR]
  unfold ilaenvMin geFact
  simp only [qp3rk_false]
  have hl : (((c :: t).drop 3).take 3).length ≤ 3 := by rw [List.length_take]; omega
  generalize ((c :: t).drop 1).take 2 = c2
  generalize ((c :: t).drop 3).take 3 = c3 at hl ⊢
  simp only [orth_eq hl, show "GE".toList = ['G', 'E'] from rfl, show "SY".toList = ['S', 'Y'] from rfl, show "HE".toList = ['H', 'E'] from rfl, show "OR".toList = ['O', 'R'] from rfl, show "UN".toList = ['U', 'N'] from rfl, show "GG".toList = ['G', 'G'] from rfl, show "TRF".toList = ['T', 'R', 'F'] from rfl, show "TRD".toList = ['T', 'R', 'D'] from rfl, show "HD3".toList = ['H', 'D', '3'] from rfl, show "QRF".toList = ['Q', 'R', 'F'] from rfl, show "RQF".toList = ['R', 'Q', 'F'] from rfl, show "LQF".toList = ['L', 'Q', 'F'] from rfl, show "QLF".toList = ['Q', 'L', 'F'] from rfl, show "HRD".toList = ['H', 'R', 'D'] from rfl, show "BRD".toList = ['B', 'R', 'D'] from rfl, List.map_cons, List.map_nil, List.contains_cons, List.contains_nil]
  by_cases h0 : c2 = ['G', 'E']
  · subst h0
    simp [ite_or']
  by_cases h1 : c2 = ['S', 'Y']
  · subst h1
    simp [ite_or']
  by_cases h2 : c2 = ['H', 'E']
  · subst h2
    simp [ite_or']
  by_cases h3 : c2 = ['G', 'G']
  · subst h3
    simp [ite_or']
  by_cases h4 : c2 = ['O', 'R']
  · subst h4
    simp [ite_or']
  simp [h0, h1, h2, h3, h4]

theorem crossReal_table {c : Char} {t : List Char} : ilaenvCross (c :: t) (((c :: t).drop 1).take 2) (((c :: t).drop 3).take 3) (((((c :: t).drop 3).take 3).drop 1).take 2) true false = lookup 0 (c :: t) crossReal := by
  simp only [lookup, crossReal, pat_GEQRF, pat_GERQF, pat_GELQF, pat_GEQLF, pat_GEHRD, pat_GEBRD, pat_SYTRD, pat_HETRD, pat_GGHD3, pat_ORGQR, pat_ORGRQ, pat_ORGLQ, pat_ORGQL, pat_ORGHR, pat_ORGTR, pat_ORGBR]
  unfold ilaenvCross geFact
  simp only [qp3rk_false]
  have hl : (((c :: t).drop 3).take 3).length ≤ 3 := by rw [List.length_take]; omega
  generalize ((c :: t).drop 1).take 2 = c2
  generalize ((c :: t).drop 3).take 3 = c3 at hl ⊢
  simp only [orth_eq hl, show "GE".toList = ['G', 'E'] from rfl, show "SY".toList = ['S', 'Y'] from rfl, show "HE".toList = ['H', 'E'] from rfl, show "OR".toList = ['O', 'R'] from rfl, show "UN".toList = ['U', 'N'] from rfl, show "GG".toList = ['G', 'G'] from rfl, show "TRF".toList = ['T', 'R', 'F'] from rfl, show "TRD".toList = ['T', 'R', 'D'] from rfl, show "HD3".toList = ['H', 'D', '3'] from rfl, show "QRF".toList = ['Q', 'R', 'F'] from rfl, show "RQF".toList = ['R', 'Q', 'F'] from rfl, show "LQF".toList = ['L', 'Q', 'F'] from rfl, show "QLF".toList = ['Q', 'L', 'F'] from rfl, show "HRD".toList = ['H', 'R', 'D'] from rfl, show "BRD".toList = ['B', 'R', 'D'] from rfl, List.map_cons, List.map_nil, List.contains_cons, List.contains_nil]
  by_cases h0 : c2 = ['G', 'E']
  · subst h0
    simp [ite_or']
  by_cases h1 : c2 = ['S', 'Y']
  · subst h1
    simp [ite_or']
  by_cases h2 : c2 = ['H', 'E']
  · subst h2
    simp [ite_or']
  by_cases h3 : c2 = ['G', 'G']
  · subst h3
    simp [ite_or']
  by_cases h4 : c2 = ['O', 'R']
  · subst h4
    simp [ite_or']
  simp [h0, h1, h2, h3, h4]

theorem minComplex_table {c : Char} {t : List Char} : ilaenvMin (c :: t) (((c :: t).drop 1).take 2) (((c :: t).drop 3).take 3) (((((c :: t).drop 3).take 3).drop 1).take 2) false true = lookup 2 (c :: t) minComplex := by
  simp only [lookup, minComplex, pat_SYTRF, pat_UNG, pat_UNMQR, pat_UNMRQ, pat_UNMLQ, pat_UNMQL, pat_UNMHR, pat_UNMTR, pat_UNMBR, pat_UN]
  unfold ilaenvMin geFact
  simp only [qp3rk_false]
  have hl : (((c :: t).drop 3).take 3).length ≤ 3 := by rw [List.length_take]; omega
  generalize ((c :: t).drop 1).take 2 = c2
  generalize ((c :: t).drop 3).take 3 = c3 at hl ⊢
  simp only [orth_eq hl, show "GE".toList = ['G', 'E'] from rfl, show "SY".toList = ['S', 'Y'] from rfl, show "HE".toList = ['H', 'E'] from rfl, show "OR".toList = ['O', 'R'] from rfl, show "UN".toList = ['U', 'N'] from rfl, show "GG".toList = ['G', 'G'] from rfl, show "TRF".toList = ['T', 'R', 'F'] from rfl, show "TRD".toList = ['T', 'R', 'D'] from rfl, show "HD3".toList = ['H', 'D', '3'] from rfl, show "QRF".toList = ['Q', 'R', 'F'] from rfl, show "RQF".toList = ['R', 'Q', 'F'] from rfl, show "LQF".toList = ['L', 'Q', 'F'] from rfl, show "QLF".toList = ['Q', 'L', 'F'] from rfl, show "HRD".toList = ['H', 'R', 'D'] from rfl, show "BRD".toList = ['B', 'R', 'D'] from rfl, List.map_cons, List.map_nil, List.contains_cons, List.contains_nil]
  by_cases h0 : c2 = ['G', 'E']
  · subst h0
    simp [ite_or']
  by_cases h1 : c2 = ['S', 'Y']
  · subst h1
    simp [ite_or']
  by_cases h2 : c2 = ['H', 'E']
  · subst h2
    simp [ite_or']
  by_cases h3 : c2 = ['G', 'G']
  · subst h3
    simp [ite_or']
  by_cases h4 : c2 = ['U', 'N']
  · subst h4
    simp [ite_or']
  simp [h0, h1, h2, h3, h4]

theorem crossComplex_table {c : Char} {t : List Char} : ilaenvCross (c :: t) (((c :: t).drop 1).take 2) (((c :: t).drop 3).take 3) (((((c :: t).drop 3).take 3).drop 1).take 2) false true = lookup 0 (c :: t) crossComplex := by
  simp only [lookup, crossComplex, pat_GEQRF, pat_GERQF, pat_GELQF, pat_GEQLF, pat_GEHRD, pat_GEBRD, pat_SYTRD, pat_HETRD, pat_GGHD3, pat_UNGQR, pat_UNGRQ, pat_UNGLQ, pat_UNGQL, pat_UNGHR, pat_UNGTR, pat_UNGBR]
  unfold ilaenvCross geFact
  simp only [qp3rk_false]
  have hl : (((c :: t).drop 3).take 3).length ≤ 3 := by rw [List.length_take]; omega
  generalize ((c :: t).drop 1).take 2 = c2
  generalize ((c :: t).drop 3).take 3 = c3 at hl ⊢
  simp only [orth_eq hl, show "GE".toList = ['G', 'E'] from rfl, show "SY".toList = ['S', 'Y'] from rfl, show "HE".toList = ['H', 'E'] from rfl, show "OR".toList = ['O', 'R'] from rfl, show "UN".toList = ['U', 'N'] from rfl, show "GG".toList = ['G', 'G'] from rfl, show "TRF".toList = ['T', 'R', 'F'] from rfl, show "TRD".toList = ['T', 'R', 'D'] from rfl, show "HD3".toList = ['H', 'D', '3'] from rfl, show "QRF".toList = ['Q', 'R', 'F'] from rfl, show "RQF".toList = ['R', 'Q', 'F'] from rfl, show "LQF".toList = ['L', 'Q', 'F'] from rfl, show "QLF".toList = ['Q', 'L', 'F'] from rfl, show "HRD".toList = ['H', 'R', 'D'] from rfl, show "BRD".toList = ['B', 'R', 'D'] from rfl, List.map_cons, List.map_nil, List.contains_cons, List.contains_nil]
  by_cases h0 : c2 = ['G', 'E']
  · subst h0
    simp [ite_or']
  by_cases h1 : c2 = ['S', 'Y']
  · subst h1
    simp [ite_or']
  by_cases h2 : c2 = ['H', 'E']
  · subst h2
    simp [ite_or']
  by_cases h3 : c2 = ['G', 'G']
  · subst h3
    simp [ite_or']
  by_cases h4 : c2 = ['U', 'N']
  · subst h4
    simp [ite_or']
  simp [h0, h1, h2, h3, h4]

set_option maxHeartbeats 1600000 in
theorem blockReal_table {c : Char} {t : List Char} (n1 n2 n4 : Int) (hm : FitsI32 (min n1 n2 * 16)) :
    ilaenvBlock (c :: t) (((c :: t).drop 1).take 2) (((c :: t).drop 3).take 3) (((((c :: t).drop 3).take 3).drop 1).take 2) true false (decide ((c :: t).length ≥ 11) && decide ((c :: t)[10]? = some '2')) n1 n2 n4 =
      pure (lookup 1 (c :: t) (blockReal (min n1 n2) (decide (64 < n4) || decide (64 < n2)))) := by
  have hm8 : FitsI32 (min n1 n2 * 8) := by unfold FitsI32 at *; omega
  have h2 : (decide ((c :: t).length ≥ 11) && decide ((c :: t)[10]? = some '2')) = decide ((c :: t)[10]? = some '2') := by
    by_cases h : (c :: t)[10]? = some '2'
    · have := (List.getElem?_eq_some_iff.1 h).1
      simp only [h, decide_true, Bool.and_true, decide_eq_true_eq]
      omega
    · simp only [h, decide_false, Bool.and_false]
  rw [h2]
  unfold ilaenvBlock geFact
  simp only [laorh, qp3rk_false, imul_ok hm, imul_ok hm8, pure_bind]
  simp only [lookup, blockReal, pat_LAORH, pat_SYTRF2, pat_HETRF2, pat_SYTRF, pat_HETRF, pat_GEQRF, pat_GERQF, pat_GELQF, pat_GEQLF, pat_GEHRD, pat_GEBRD, pat_OR, pat_GBTRF, pat_PBTRF, pat_TRTRI, pat_TREVC, pat_TRSYL, pat_LAUUM, pat_LATRS, pat_GGHD3]
  have hl : (((c :: t).drop 3).take 3).length ≤ 3 := by rw [List.length_take]; omega
  generalize ((c :: t).drop 1).take 2 = c2
  generalize ((c :: t).drop 3).take 3 = c3 at hl ⊢
  generalize decide ((c :: t)[10]? = some '2') = two
  simp only [Bool.and_assoc, Bool.and_or_distrib_right, Bool.and_or_distrib_left, orth_eq hl, show "GE".toList = ['G', 'E'] from rfl, show "SY".toList = ['S', 'Y'] from rfl, show "HE".toList = ['H', 'E'] from rfl, show "OR".toList = ['O', 'R'] from rfl, show "UN".toList = ['U', 'N'] from rfl, show "GG".toList = ['G', 'G'] from rfl, show "TRF".toList = ['T', 'R', 'F'] from rfl, show "TRD".toList = ['T', 'R', 'D'] from rfl, show "HD3".toList = ['H', 'D', '3'] from rfl, show "QRF".toList = ['Q', 'R', 'F'] from rfl, show "RQF".toList = ['R', 'Q', 'F'] from rfl, show "LQF".toList = ['L', 'Q', 'F'] from rfl, show "QLF".toList = ['Q', 'L', 'F'] from rfl, show "HRD".toList = ['H', 'R', 'D'] from rfl, show "BRD".toList = ['B', 'R', 'D'] from rfl, show "LA".toList = ['L', 'A'] from rfl, show "GB".toList = ['G', 'B'] from rfl, show "PB".toList = ['P', 'B'] from rfl, show "TR".toList = ['T', 'R'] from rfl, show "ST".toList = ['S', 'T'] from rfl, show "TRI".toList = ['T', 'R', 'I'] from rfl, show "EVC".toList = ['E', 'V', 'C'] from rfl, show "SYL".toList = ['S', 'Y', 'L'] from rfl, show "UUM".toList = ['U', 'U', 'M'] from rfl, show "TRS".toList = ['T', 'R', 'S'] from rfl, show "EBZ".toList = ['E', 'B', 'Z'] from rfl, List.map_cons, List.map_nil, List.contains_cons, List.contains_nil]
  by_cases h0 : c2 = ['L', 'A']
  · subst h0
    cases two <;> simp [ite_or'] <;> (try split_ifs) <;> first | rfl | tauto
  by_cases h1 : c2 = ['S', 'Y']
  · subst h1
    cases two <;> simp [ite_or'] <;> (try split_ifs) <;> first | rfl | tauto
  by_cases h2 : c2 = ['H', 'E']
  · subst h2
    cases two <;> simp [ite_or'] <;> (try split_ifs) <;> first | rfl | tauto
  by_cases h3 : c2 = ['G', 'E']
  · subst h3
    cases two <;> simp [ite_or'] <;> (try split_ifs) <;> first | rfl | tauto
  by_cases h4 : c2 = ['G', 'B']
  · subst h4
    cases two <;> simp [ite_or'] <;> (try split_ifs) <;> first | rfl | tauto
  by_cases h5 : c2 = ['P', 'B']
  · subst h5
    cases two <;> simp [ite_or'] <;> (try split_ifs) <;> first | rfl | tauto
  by_cases h6 : c2 = ['T', 'R']
  · subst h6
    cases two <;> simp [ite_or'] <;> (try split_ifs) <;> first | rfl | tauto
  by_cases h7 : c2 = ['S', 'T']
  · subst h7
    cases two <;> simp [ite_or'] <;> (try split_ifs) <;> first | rfl | tauto
  by_cases h8 : c2 = ['G', 'G']
  · subst h8
    cases two <;> simp [ite_or'] <;> (try split_ifs) <;> first | rfl | tauto
  by_cases h9 : c2 = ['O', 'R']
  · subst h9
    cases two <;> simp [ite_or'] <;> (try split_ifs) <;> first | rfl | tauto
  simp [h0, h1, h2, h3, h4, h5, h6, h7, h8, h9]

set_option maxHeartbeats 1600000 in
theorem blockComplex_table {c : Char} {t : List Char} (n1 n2 n4 : Int) (hm : FitsI32 (min n1 n2 * 16)) :
    ilaenvBlock (c :: t) (((c :: t).drop 1).take 2) (((c :: t).drop 3).take 3) (((((c :: t).drop 3).take 3).drop 1).take 2) false true (decide ((c :: t).length ≥ 11) && decide ((c :: t)[10]? = some '2')) n1 n2 n4 =
      pure (lookup 1 (c :: t) (blockComplex (min n1 n2) (decide (64 < n4) || decide (64 < n2)))) := by
  have hm8 : FitsI32 (min n1 n2 * 8) := by unfold FitsI32 at *; omega
  have h2 : (decide ((c :: t).length ≥ 11) && decide ((c :: t)[10]? = some '2')) = decide ((c :: t)[10]? = some '2') := by
    by_cases h : (c :: t)[10]? = some '2'
    · have := (List.getElem?_eq_some_iff.1 h).1
      simp only [h, decide_true, Bool.and_true, decide_eq_true_eq]
      omega
    · simp only [h, decide_false, Bool.and_false]
  rw [h2]
  unfold ilaenvBlock geFact
  simp only [laorh, qp3rk_false, imul_ok hm, imul_ok hm8, pure_bind]
  simp only [lookup, blockComplex, pat_LAORH, pat_SYTRF2, pat_HETRF2, pat_SYTRF, pat_HETRF, pat_GEQRF, pat_GERQF, pat_GELQF, pat_GEQLF, pat_GEHRD, pat_GEBRD, pat_UNGQR, pat_UNGRQ, pat_UNGLQ, pat_UNGQL, pat_UNGHR, pat_UNGTR, pat_UNGBR, pat_UNMQR, pat_UNMRQ, pat_UNMLQ, pat_UNMQL, pat_UNMHR, pat_UNMTR, pat_UNMBR, pat_GBTRF, pat_PBTRF, pat_TRTRI, pat_TREVC, pat_TRSYL, pat_LAUUM, pat_LATRS, pat_GGHD3]
  have hl : (((c :: t).drop 3).take 3).length ≤ 3 := by rw [List.length_take]; omega
  generalize ((c :: t).drop 1).take 2 = c2
  generalize ((c :: t).drop 3).take 3 = c3 at hl ⊢
  generalize decide ((c :: t)[10]? = some '2') = two
  simp only [Bool.and_assoc, Bool.and_or_distrib_right, Bool.and_or_distrib_left, orth_eq hl, show "GE".toList = ['G', 'E'] from rfl, show "SY".toList = ['S', 'Y'] from rfl, show "HE".toList = ['H', 'E'] from rfl, show "OR".toList = ['O', 'R'] from rfl, show "UN".toList = ['U', 'N'] from rfl, show "GG".toList = ['G', 'G'] from rfl, show "TRF".toList = ['T', 'R', 'F'] from rfl, show "TRD".toList = ['T', 'R', 'D'] from rfl, show "HD3".toList = ['H', 'D', '3'] from rfl, show "QRF".toList = ['Q', 'R', 'F'] from rfl, show "RQF".toList = ['R', 'Q', 'F'] from rfl, show "LQF".toList = ['L', 'Q', 'F'] from rfl, show "QLF".toList = ['Q', 'L', 'F'] from rfl, show "HRD".toList = ['H', 'R', 'D'] from rfl, show "BRD".toList = ['B', 'R', 'D'] from rfl, show "LA".toList = ['L', 'A'] from rfl, show "GB".toList = ['G', 'B'] from rfl, show "PB".toList = ['P', 'B'] from rfl, show "TR".toList = ['T', 'R'] from rfl, show "ST".toList = ['S', 'T'] from rfl, show "TRI".toList = ['T', 'R', 'I'] from rfl, show "EVC".toList = ['E', 'V', 'C'] from rfl, show "SYL".toList = ['S', 'Y', 'L'] from rfl, show "UUM".toList = ['U', 'U', 'M'] from rfl, show "TRS".toList = ['T', 'R', 'S'] from rfl, show "EBZ".toList = ['E', 'B', 'Z'] from rfl, List.map_cons, List.map_nil, List.contains_cons, List.contains_nil]
  by_cases h0 : c2 = ['L', 'A']
  · subst h0
    cases two <;> simp [ite_or'] <;> (try split_ifs) <;> first | rfl | tauto
  by_cases h1 : c2 = ['S', 'Y']
  · subst h1
    cases two <;> simp [ite_or'] <;> (try split_ifs) <;> first | rfl | tauto
  by_cases h2 : c2 = ['H', 'E']
  · subst h2
    cases two <;> simp [ite_or'] <;> (try split_ifs) <;> first | rfl | tauto
  by_cases h3 : c2 = ['G', 'E']
  · subst h3
    cases two <;> simp [ite_or'] <;> (try split_ifs) <;> first | rfl | tauto
  by_cases h4 : c2 = ['G', 'B']
  · subst h4
    cases two <;> simp [ite_or'] <;> (try split_ifs) <;> first | rfl | tauto
  by_cases h5 : c2 = ['P', 'B']
  · subst h5
    cases two <;> simp [ite_or'] <;> (try split_ifs) <;> first | rfl | tauto
  by_cases h6 : c2 = ['T', 'R']
  · subst h6
    cases two <;> simp [ite_or'] <;> (try split_ifs) <;> first | rfl | tauto
  by_cases h7 : c2 = ['S', 'T']
  · subst h7
    cases two <;> simp [ite_or'] <;> (try split_ifs) <;> first | rfl | tauto
  by_cases h8 : c2 = ['G', 'G']
  · subst h8
    cases two <;> simp [ite_or'] <;> (try split_ifs) <;> first | rfl | tauto
  by_cases h9 : c2 = ['U', 'N']
  · subst h9
    cases two <;> simp only [ite_or', decide_eq_true_eq, apply_ite (pure : Int → R Int)] <;> simp [ite_or', apply_ite (pure : Int → R Int)]
  simp [h0, h1, h2, h3, h4, h5, h6, h7, h8, h9]

/-- **C102.** The answers for a real routine, whatever its name: an ASCII name that starts with `S` or `D`. -/
theorem C102_ilaenv_real (c : Char) (t : List Char) (hc : c = 'S' ∨ c = 'D') (ha : Spec.ascii (c :: t)) (n1 n2 n3 n4 : Int)
    (hm : FitsI32 (min n1 n2 * 16)) :
    ilaenv 1 (c :: t) n1 n2 n3 n4 = pure (lookup 1 (c :: t) (blockReal (min n1 n2) (decide (64 < n4) || decide (64 < n2)))) ∧
    ilaenv 2 (c :: t) n1 n2 n3 n4 = pure (lookup 2 (c :: t) minReal) ∧
    ilaenv 3 (c :: t) n1 n2 n3 n4 = pure (lookup 0 (c :: t) crossReal) := by
  have hn : ilaenvName (c :: t) = pure (c :: t) := by
    simp only [ilaenvName]
    rcases hc with rfl | rfl <;> rfl
  have hs : (decide (c = 'S') || decide (c = 'D')) = true := by rcases hc with rfl | rfl <;> rfl
  have hz : (decide (c = 'C') || decide (c = 'Z')) = false := by rcases hc with rfl | rfl <;> rfl
  refine ⟨?_, ?_, ?_⟩
  · show ilaenvTune 1 (c :: t) n1 n2 n4 = _
    rw [ilaenvTune_ok hn (twoStage_ascii ha)]
    simp only [hs, hz, Bool.false_or, Bool.not_true, Bool.false_eq_true, if_false, if_true]
    exact blockReal_table n1 n2 n4 hm
  · show ilaenvTune 2 (c :: t) n1 n2 n4 = _
    rw [ilaenvTune_ok hn (twoStage_ascii ha)]
    simp only [hs, hz, Bool.false_or, Bool.not_true, Bool.false_eq_true, if_false]
    rw [if_neg (by norm_num), if_pos trivial, minReal_table]
  · show ilaenvTune 3 (c :: t) n1 n2 n4 = _
    rw [ilaenvTune_ok hn (twoStage_ascii ha)]
    simp only [hs, hz, Bool.false_or, Bool.not_true, Bool.false_eq_true, if_false]
    rw [if_neg (by norm_num), if_neg (by norm_num), crossReal_table]

/-- **C102.** The answers for a complex routine: an ASCII name that starts with `C` or `Z`. -/
theorem C102_ilaenv_complex (c : Char) (t : List Char) (hc : c = 'C' ∨ c = 'Z') (ha : Spec.ascii (c :: t)) (n1 n2 n3 n4 : Int)
    (hm : FitsI32 (min n1 n2 * 16)) :
    ilaenv 1 (c :: t) n1 n2 n3 n4 = pure (lookup 1 (c :: t) (blockComplex (min n1 n2) (decide (64 < n4) || decide (64 < n2)))) ∧
    ilaenv 2 (c :: t) n1 n2 n3 n4 = pure (lookup 2 (c :: t) minComplex) ∧
    ilaenv 3 (c :: t) n1 n2 n3 n4 = pure (lookup 0 (c :: t) crossComplex) := by
  have hn : ilaenvName (c :: t) = pure (c :: t) := by
    simp only [ilaenvName]
    rcases hc with rfl | rfl <;> rfl
  have hs : (decide (c = 'S') || decide (c = 'D')) = false := by rcases hc with rfl | rfl <;> rfl
  have hz : (decide (c = 'C') || decide (c = 'Z')) = true := by rcases hc with rfl | rfl <;> rfl
  refine ⟨?_, ?_, ?_⟩
  · show ilaenvTune 1 (c :: t) n1 n2 n4 = _
    rw [ilaenvTune_ok hn (twoStage_ascii ha)]
    simp only [hs, hz, Bool.or_false, Bool.not_true, Bool.false_eq_true, if_false, if_true]
    exact blockComplex_table n1 n2 n4 hm
  · show ilaenvTune 2 (c :: t) n1 n2 n4 = _
    rw [ilaenvTune_ok hn (twoStage_ascii ha)]
    simp only [hs, hz, Bool.or_false, Bool.not_true, Bool.false_eq_true, if_false]
    rw [if_neg (by norm_num), if_pos trivial, minComplex_table]
  · show ilaenvTune 3 (c :: t) n1 n2 n4 = _
    rw [ilaenvTune_ok hn (twoStage_ascii ha)]
    simp only [hs, hz, Bool.or_false, Bool.not_true, Bool.false_eq_true, if_false]
    rw [if_neg (by norm_num), if_neg (by norm_num), crossComplex_table]

/-- **C102.** Any other name that does not start with a lower-case letter gives 1, whatever is asked; the rest of the name is not
even looked at. -/
theorem C102_ilaenv_foreign (ispec : Int) (c : Char) (t : List Char) (hc : c ∉ ['S', 'D', 'C', 'Z']) (hl : ¬ Spec.isLower c)
    (n1 n2 n3 n4 : Int) (h : 1 ≤ ispec ∧ ispec ≤ 3) : ilaenv ispec (c :: t) n1 n2 n3 n4 = pure 1 := by
  unfold ilaenv ilaenvWith ilaenvTune
  rw [if_pos h]
  rw [isLower_iff] at hl
  simp only [ilaenvName]
  rw [if_neg hl]
  simp only [List.mem_cons, List.not_mem_nil, or_false, not_or] at hc
  simp [hc.1, hc.2.1, hc.2.2.1, hc.2.2.2]

/-- Cases: a row for all names with a prefix, a row for two-stage routines, and the difference between real and complex ones:
`DORCSD` gets 32, `ZUNCSD` 1. -/
theorem C102_examples : lookup 1 "DORCSD".toList (blockReal 10 false) = 32 ∧ lookup 1 "ZUNCSD".toList (blockComplex 10 false) = 1 ∧
    lookup 1 "ZUNMQR".toList (blockComplex 10 false) = 32 ∧
    lookup 1 "DSYTRF_AA_2STAGE".toList (blockReal 10 false) = 192 ∧ lookup 1 "DSYTRF_RK".toList (blockReal 10 false) = 64 ∧
    lookup 1 "DGETRF".toList (blockReal 10 false) = 1 ∧ lookup 2 "DORG2L".toList minReal = 2 ∧ lookup 2 "DORM2L".toList minReal = 1 ∧
    lookup 3 "ZHETRD".toList crossComplex = 32 ∧ Spec.ascii "DSYTRF_AA_2STAGE".toList := by
  refine ⟨by decide, by decide, by decide, by decide, by decide, by decide, by decide, by decide, by decide, ?_⟩
  unfold Spec.ascii
  decide

end Verif
