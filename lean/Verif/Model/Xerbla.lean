import Verif.Model.Basic

/-!
# `xerbla` (src/xerbla.rs)

`Res.exit srname info` records the two arguments of the call of `xerbla`; here is what the world outside the process sees of it.
-/

namespace Verif

/-- Models: src/xerbla.rs:26, the line printed to standard output (`println!` writes the routine name as it is and `info` in decimal, and ends the line). -/
def xerblaText (srname : String) (info : Int) : String :=
  "** On entry to " ++ srname ++ " parameter number " ++ toString info ++ " had an illegal value\n"

/-- Models: src/xerbla.rs:22-28: what a run of the program that ends in `xerbla` leaves behind, the text printed and the exit status; `none` if it does not end there. -/
def Res.ended {α : Type} : Res α → Option (String × Nat)
  | .exit srname info => some (xerblaText srname info, 1)
  | _ => none

end Verif
