import Verif.Inst.Float
import Verif.Model.Qr5

/-!
# Running the crate's own unit-test vectors on the model

Generated by /verif/tools/gen_tests.py from the `#[case(..)]`s in /repo/src.  These are *tests* of the
model against the expected values recorded in the repository (evaluated with hardware `f64`); they
are no proofs and no theorem depends on them.
-/

namespace Verif.Tests
open Verif Scalar

def okIs {α : Type} (x : R α) (p : α → Bool) : Bool :=
  (match x .debug with | .ok a => p a | _ => false) &&
  (match x .release with | .ok a => p a | _ => false)

def feq (a b : List Float) : Bool := a.length == b.length && (List.zipWith (· == ·) a b).all id
def feq2 (a b : List (List Float)) : Bool := a.length == b.length && (List.zipWith feq a b).all id
def near (eps a b : Float) : Bool := (a - b).abs < eps

/-- Renders the pieces of `display` for one-decimal values (`toString` prints six decimals). -/
def render (ps : List (Piece Float)) : R String :=
  pure (String.join (ps.map fun
    | .text s => s
    | .num _ x => (toString x).dropEnd 5 |>.toString))

#guard okIs (dcopy (F := Float) 0 ([0.0] : List Float) 1 ([0.0] : List Float) 1) (feq [0.0])
#guard okIs (dcopy (F := Float) 1 ([1.0, 2.0, 3.0] : List Float) 1 ([0.0, 0.0, 0.0] : List Float) 1) (feq [1.0, 0.0, 0.0])
#guard okIs (dcopy (F := Float) 2 ([1.0,2.0,3.0,4.0,5.0,6.0,7.0,8.0] : List Float) 2 ([0.0, 0.0, 0.0, 0.0, 0.0, 0.0, 0.0, 0.0] : List Float) 2) (feq [1.0, 0.0, 3.0, 0.0, 0.0, 0.0, 0.0, 0.0])
#guard okIs (dcopy (F := Float) 3 ([1.1, 2.2, 3.3, 4.4] : List Float) 1 ([0.0, 0.0, 0.0, 0.0] : List Float) 1) (feq [1.1, 2.2, 3.3, 0.0])
#guard okIs (dcopy (F := Float) 4 ([5.5, 6.6, 7.7, 8.8] : List Float) 2 ([0.0, 0.0, 0.0, 0.0] : List Float) 3) (feq [5.5, 0.0, 0.0, 7.7])
#guard okIs (dcopy (F := Float) 5 ([9.9, 10.1, 11.1, 12.1] : List Float) 4 ([0.0, 0.0, 0.0, 0.0] : List Float) 4) (feq [9.9, 0.0, 0.0, 0.0])
#guard okIs (dgemm (F := Float) 'T' 'T' 2 2 2 0.5 ([[3.0, 5.0], [7.0, 11.0]] : List (List Float)) 2 ([[13.0, 17.0], [19.0, 23.0]] : List (List Float)) 2 0.5 ([[1.0,1.0],[1.0,1.0]] : List (List Float)) 2) (feq2 [[67.5, 150.5], [83.5, 186.5]])
#guard okIs (dgemm (F := Float) 'T' 'N' 2 2 2 0.5 ([[3.0, 5.0], [7.0, 11.0]] : List (List Float)) 2 ([[13.0, 17.0], [19.0, 23.0]] : List (List Float)) 2 0.5 ([[1.0,1.0],[1.0,1.0]] : List (List Float)) 2) (feq2 [[62.5, 139.5], [86.5, 193.5]])
#guard okIs (dgemm (F := Float) 'N' 'T' 2 2 2 0.5 ([[109.0, 113.0], [199.0, 401.0]] : List (List Float)) 2 ([[503.0, 601.0], [701.0, 809.0]] : List (List Float)) 2 0.5 ([[1.0,1.0],[1.0,1.0]] : List (List Float)) 2) (feq2 [[97163.5, 168970.5], [113250.5, 196161.5]])
#guard okIs (dgemm (F := Float) 'N' 'N' 2 2 2 0.5 ([[109.0, 113.0], [199.0, 401.0]] : List (List Float)) 2 ([[503.0, 601.0], [701.0, 809.0]] : List (List Float)) 2 0.5 ([[1.0,1.0],[1.0,1.0]] : List (List Float)) 2) (feq2 [[87213.5, 148920.5], [118700.5, 201811.5]])
#guard okIs (dnrm2 (F := Float) 2 ([2.0, 3.0] : List Float) 1) (near 1e-15 3.605551275463989)
#guard okIs (dnrm2 (F := Float) 3 ([4.0, 3.0, 2.0] : List Float) 1) (near 1e-15 5.385164807134504)
#guard okIs (dnrm2 (F := Float) 1 ([5.0] : List Float) 1) (near 1e-15 5.0)
#guard okIs (dnrm2 (F := Float) 1 ([0.0] : List Float) 1) (near 1e-15 0.0)
#guard okIs (dnrm2 (F := Float) 2 ([0.0, 0.0] : List Float) 1) (near 1e-15 0.0)
#guard okIs (dnrm2 (F := Float) 2 ([-1.0, -1.0] : List Float) 1) (near 1e-15 1.4142135623730951)
#guard okIs (dnrm2 (F := Float) 2 ([-1.0, 0.0] : List Float) 1) (near 1e-15 1.0)
#guard okIs (dnrm2 (F := Float) 2 ([2.6, 7.8, 3.2] : List Float) 2) (near 1e-15 4.123105625617661)
#guard okIs (dnrm2 (F := Float) 3 ([-1.0, 0.0, 1.0] : List Float) 1) (near 1e-15 1.4142135623730951)
#guard okIs (dnrm2 (F := Float) 3 ([-1.0, 0.0, 1.0] : List Float) 2) (near 1e-15 1.4142135623730951)
#guard okIs (drot (F := Float) 4 ([1.0, 2.0, 3.0, 4.0] : List Float) 1 ([5.0, 6.0, 7.0, 8.0] : List Float) 1 2.0 3.0) (fun r => feq [17.0, 22.0, 27.0, 32.0] r.1 && feq [7.0, 6.0, 5.0, 4.0] r.2)
#guard okIs (drot (F := Float) 4 ([2.0, 4.0, 6.0, 8.0] : List Float) 1 ([4.0, 5.0, 4.0, 5.0] : List Float) 1 4.0 4.0) (fun r => feq [24.0, 36.0, 40.0, 52.0] r.1 && feq [8.0, 4.0, -8.0, -12.0] r.2)
#guard okIs (drot (F := Float) 4 ([0.5, 1.5, 2.5, 3.5] : List Float) 1 ([4.5, 5.5, 6.5, 7.5] : List Float) 1 2.0 3.0) (fun r => feq [14.5, 19.5, 24.5, 29.5] r.1 && feq [7.5, 6.5, 5.5, 4.5] r.2)
#guard okIs (drot (F := Float) 2 ([1.0, 3.0, 5.0, 7.0] : List Float) 1 ([2.0, 4.0, 6.0, 8.0] : List Float) 1 2.0 2.0) (fun r => feq [6.0, 14.0, 5.0, 7.0] r.1 && feq [2.0, 2.0, 6.0, 8.0] r.2)
#guard okIs (drot (F := Float) 3 ([0.1, 0.2, 0.3, 0.4] : List Float) 1 ([0.5, 0.6, 0.7, 0.8] : List Float) 1 3.0 4.0) (fun r => feq [2.3, 3.0, 3.6999999999999997, 0.4] r.1 && feq [1.1, 0.9999999999999998, 0.8999999999999997, 0.8] r.2)
#guard okIs (dscal (F := Float) 0 1.0 ([] : List Float) (1)) (feq [])
#guard okIs (dscal (F := Float) 1 2.0 ([1.0] : List Float) (1)) (feq [2.0])
#guard okIs (dscal (F := Float) 2 (-1.0) ([1.0, 2.0] : List Float) (1)) (feq [-1.0, -2.0])
#guard okIs (dscal (F := Float) 5 0.0 ([1.0, 2.0, 3.0, 4.0, 5.0] : List Float) (1)) (feq [0.0, 0.0, 0.0, 0.0, 0.0])
#guard okIs (dscal (F := Float) 3 5.0 ([1.0, 2.0, 3.0] : List Float) (2)) (feq [5.0, 2.0, 15.0])
#guard okIs (dscal (F := Float) 4 (-2.0) ([1.0, 2.0, 3.0, 4.0] : List Float) (2)) (feq [-2.0, 2.0, -6.0, 4.0])
#guard okIs (dscal (F := Float) 4 3.0 ([1.0, 2.0, 3.0, 4.0] : List Float) (3)) (feq [3.0, 2.0, 3.0, 12.0])
#guard okIs (dscal (F := Float) 0 1.0 ([1.0, 2.0, 3.0, 4.0, 5.0] : List Float) (2)) (feq [1.0, 2.0, 3.0, 4.0, 5.0])
#guard okIs (dscal (F := Float) 5 1.0 ([1.0, 2.0, 3.0, 4.0, 5.0] : List Float) (0)) (feq [1.0, 2.0, 3.0, 4.0, 5.0])
#guard okIs (dscal (F := Float) 5 0.0 ([1.0, 2.0, 3.0, 4.0, 5.0] : List Float) (-1)) (feq [1.0, 2.0, 3.0, 4.0, 5.0])
#guard okIs (dtrmm (F := Float) 'L' 'U' 'N' 'N' 2 2 1.0 ([[1.0, 2.0], [0.0, 1.0]] : List (List Float)) 2 ([[3.0, 4.0], [5.0, 6.0]] : List (List Float)) 2) (fun r => feq2 [[1.0, 2.0], [0.0, 1.0]] r.1 && feq2 [[3.0, 4.0], [5.0, 6.0]] r.2)
#guard okIs (dtrmm (F := Float) 'R' 'U' 'N' 'U' 2 2 2.0 ([[1.0, 0.0], [2.0, 1.0]] : List (List Float)) 2 ([[1.0, 2.0], [3.0, 4.0]] : List (List Float)) 2) (fun r => feq2 [[1.0, 0.0], [2.0, 1.0]] r.1 && feq2 [[2.0, 4.0], [10.0, 16.0]] r.2)
#guard okIs (dtrmm (F := Float) 'L' 'L' 'T' 'N' 2 2 3.0 ([[1.0, 0.0], [1.0, 2.0]] : List (List Float)) 2 ([[1.0, 2.0], [3.0, 4.0]] : List (List Float)) 2) (fun r => feq2 [[1.0, 0.0], [1.0, 2.0]] r.1 && feq2 [[3.0, 12.0], [9.0, 24.0]] r.2)
#guard okIs (dtrmm (F := Float) 'R' 'L' 'N' 'N' 2 2 2.0 ([[1.0, 1.0], [0.0, 2.0]] : List (List Float)) 2 ([[1.0, 2.0], [3.0, 4.0]] : List (List Float)) 2) (fun r => feq2 [[1.0, 1.0], [0.0, 2.0]] r.1 && feq2 [[8.0, 12.0], [12.0, 16.0]] r.2)
#guard okIs (dtrmm (F := Float) 'L' 'U' 'N' 'U' 2 2 1.0 ([[1.0, 2.0], [0.0, 1.0]] : List (List Float)) 2 ([[0.0, 0.0], [0.0, 0.0]] : List (List Float)) 2) (fun r => feq2 [[1.0, 2.0], [0.0, 1.0]] r.1 && feq2 [[0.0, 0.0], [0.0, 0.0]] r.2)
#guard okIs (dtrmm (F := Float) 'R' 'U' 'T' 'N' 2 2 2.0 ([[1.0, 0.0], [2.0, 1.0]] : List (List Float)) 2 ([[0.0, 0.0], [0.0, 0.0]] : List (List Float)) 2) (fun r => feq2 [[1.0, 0.0], [2.0, 1.0]] r.1 && feq2 [[0.0, 0.0], [0.0, 0.0]] r.2)
#guard lsame 'A' 'A' == true
#guard lsame 'A' 'a' == true
#guard lsame 'a' 'A' == true
#guard lsame 'a' 'a' == true
#guard lsame 'a' 'b' == false
#guard lsame 'A' 'B' == false
#guard okIs (dlacpy (F := Float) 'U' 3 3 ([[1.0,2.0,3.0],[4.0,5.0,6.0],[7.0,8.0,9.0]] : List (List Float)) 3 ([[0.0,0.0,0.0],[0.0,0.0,0.0],[0.0,0.0,0.0]] : List (List Float)) 3) (feq2 [ [1.0, 2.0, 3.0], [0.0, 5.0, 6.0], [0.0, 0.0, 9.0], ])
#guard okIs (dlacpy (F := Float) 'L' 3 3 ([[1.0,2.0,3.0],[4.0,5.0,6.0],[7.0,8.0,9.0]] : List (List Float)) 3 ([[0.0,0.0,0.0],[0.0,0.0,0.0],[0.0,0.0,0.0]] : List (List Float)) 3) (feq2 [ [1.0, 0.0, 0.0], [4.0, 5.0, 0.0], [7.0, 8.0, 9.0], ])
#guard okIs (dlacpy (F := Float) 'A' 3 3 ([[1.0,2.0,3.0],[4.0,5.0,6.0],[7.0,8.0,9.0]] : List (List Float)) 3 ([[0.0,0.0,0.0],[0.0,0.0,0.0],[0.0,0.0,0.0]] : List (List Float)) 3) (feq2 ([[1.0,2.0,3.0],[4.0,5.0,6.0],[7.0,8.0,9.0]] : List (List Float)))
#guard okIs (dlaset (F := Float) 'U' 3 3 1.0 2.0 ([[0.0,0.0,0.0],[0.0,0.0,0.0],[0.0,0.0,0.0]] : List (List Float))) (feq2 [ [2.0, 1.0, 1.0], [0.0, 2.0, 1.0], [0.0, 0.0, 2.0] ])
#guard okIs (dlaset (F := Float) 'L' 3 3 1.0 2.0 ([[0.0,0.0,0.0],[0.0,0.0,0.0],[0.0,0.0,0.0]] : List (List Float))) (feq2 [ [2.0, 0.0, 0.0], [1.0, 2.0, 0.0], [1.0, 1.0, 2.0] ])
#guard okIs (dlaset (F := Float) 'A' 3 3 1.0 2.0 ([[0.0,0.0,0.0],[0.0,0.0,0.0],[0.0,0.0,0.0]] : List (List Float))) (feq2 [ [2.0, 1.0, 1.0], [1.0, 2.0, 1.0], [1.0, 1.0, 2.0] ])
#guard okIs (dlahqr (F := Float) 100 true true 3 1 3 ([[1.0, 2.0, 3.0], [4.0, 5.0, 6.0], [7.0, 8.0, 9.0]] : List (List Float)) 3 ([1.0, 2.0, 3.0] : List Float) ([1.0, 2.0, 3.0] : List Float) 1 3 ([[1.0, 2.0, 3.0], [4.0, 5.0, 6.0], [7.0, 8.0, 9.0]] : List (List Float)) 3) (fun r => feq2 [[0.08064984900783352, 1.5862959541840427, 0.0], [-0.37825080661482813, 0.08064984900783352, 0.0], [-6.221356919060636, -3.7993781215208107, 14.838700301984334]] r.h && feq [0.08064984900783352, 0.08064984900783352, 14.838700301984334] r.wr && feq [0.774608110078866, -0.774608110078866, 0.0] r.wi && feq2 [[-0.4651395556132531, -1.2543276506150056, -2.043515745616759], [0.34592653350082625, -0.15812789956359435, -0.6621823326280135], [8.10333141536393, 9.56042141917825, 11.017511422992568]] r.z)
#guard okIs (dlahqr (F := Float) 100 false false 4 2 4 ([[7.0, 8.0, 9.0, 10.0], [11.0, 12.0, 13.0, 14.0], [15.0, 16.0, 17.0, 18.0], [19.0, 20.0, 21.0, 22.0]] : List (List Float)) 4 ([4.0, 5.0, 6.0, 7.0] : List Float) ([4.0, 5.0, 6.0, 7.0] : List Float) 2 4 ([[7.0, 8.0, 9.0, 10.0], [11.0, 12.0, 13.0, 14.0], [15.0, 16.0, 17.0, 18.0], [19.0, 20.0, 21.0, 22.0]] : List (List Float)) 4) (fun r => feq2 [[7.0, 8.0, 9.0, -3.4983360944002646e-21], [-2.0658540465189605, -2.016740798182532, 0.0, -3.4166091623768073e-28], [1.5544763283028376, -0.8003032123903298, 20.692597675634232, 0.0], [-26.463481449031356, -28.17468094616857, -35.37092977070222, -11.366325417353767]] r.h && feq [4.0, -2.016740798182532, 20.692597675634232, -11.366325417353767] r.wr && feq [4.0, 0.0, 0.0, 0.0] r.wi && feq2 [[7.0, 8.0, 9.0, 10.0], [11.0, 12.0, 13.0, 14.0], [15.0, 16.0, 17.0, 18.0], [19.0, 20.0, 21.0, 22.0]] r.z)
#guard okIs (dlahqr (F := Float) 100 false true 2 1 2 ([[2.0, 3.0], [3.0, 2.0]] : List (List Float)) 2 ([2.0, 3.0] : List Float) ([2.0, 3.0] : List Float) 1 2 ([[2.0, 3.0], [3.0, 2.0]] : List (List Float)) 2) (fun r => feq2 [[5.0, 0.0], [0.0, -1.0000000000000009]] r.h && feq [5.0, -1.0000000000000009] r.wr && feq [0.0, 0.0] r.wi && feq2 [[3.5355339059327378, 3.5355339059327378], [0.7071067811865472, -0.7071067811865479]] r.z)
#guard okIs (dlahqr (F := Float) 100 true false 3 3 3 ([[9.0, 8.0, 7.0], [6.0, 5.0, 4.0], [3.0, 2.0, 1.0]] : List (List Float)) 3 ([3.0, 2.0, 1.0] : List Float) ([3.0, 2.0, 1.0] : List Float) 3 3 ([[9.0, 8.0, 7.0], [6.0, 5.0, 4.0], [3.0, 2.0, 1.0]] : List (List Float)) 3) (fun r => feq2 [[9.0, 8.0, 7.0], [6.0, 5.0, 4.0], [3.0, 2.0, 1.0]] r.h && feq [3.0, 2.0, 1.0] r.wr && feq [3.0, 2.0, 0.0] r.wi && feq2 [[9.0, 8.0, 7.0], [6.0, 5.0, 4.0], [3.0, 2.0, 1.0]] r.z)
#guard (let r := dlanv2 (F := Float) 1.0 2.0 3.0 4.0; feq [-0.3722813232690143, -1.0, 0.0, 5.372281323269014, -0.3722813232690143, 0.0, 5.372281323269014, 0.0, -0.824564840132393848, 0.56576746496899233] [r.a, r.b, r.c, r.d, r.rt1r, r.rt1i, r.rt2r, r.rt2i, r.cs, r.sn])
#guard (let r := dlanv2 (F := Float) 7.0 10.0 5.0 6.0; feq [13.588723439378914, 5.0, 0.0, -0.58872343937891181, 13.588723439378914, 0.0, -0.58872343937891181, 0.0, 0.83504205669979814, 0.55018611718451338] [r.a, r.b, r.c, r.d, r.rt1r, r.rt1i, r.rt2r, r.rt2i, r.cs, r.sn])
#guard (let r := dlanv2 (F := Float) 6.0 12.0 13.0 7.0; feq [-6.0, -1.0, 0.0, 19.0, -6.0, 0.0, 19.0, 0.0, -0.7071067811865475, 0.7071067811865475] [r.a, r.b, r.c, r.d, r.rt1r, r.rt1i, r.rt2r, r.rt2i, r.cs, r.sn])
#guard (let r := dlanv2 (F := Float) (-0.35413764185334262) (-0.56298456891977766) 1.4015621918790930 0.51543733986900975; feq [0.08064984900783352, -0.37825080661482813, 1.5862959541840427, 0.08064984900783352, 0.08064984900783352, 0.774608110078866, 0.08064984900783352, -0.774608110078866, 0.9203697166177524, 0.39104933797790564] [r.a, r.b, r.c, r.d, r.rt1r, r.rt1i, r.rt2r, r.rt2i, r.cs, r.sn])
#guard near 2.220446049250313e-16 0.0 (dlapy2 (F := Float) 0.0 0.0)
#guard near 2.220446049250313e-16 5.0 (dlapy2 (F := Float) 3.0 4.0)
#guard near 2.220446049250313e-16 5.0 (dlapy2 (F := Float) (-3.0) 4.0)
#guard near 2.220446049250313e-16 5.0 (dlapy2 (F := Float) 3.0 (-4.0))
#guard near 2.220446049250313e-16 5.0 (dlapy2 (F := Float) (-3.0) (-4.0))
#guard near 2.220446049250313e-16 17.0 (dlapy2 (F := Float) 8.0 15.0)
#guard near 2.220446049250313e-16 0.1 (dlapy2 (F := Float) 0.1 0.0)
#guard near 2.220446049250313e-16 0.1 (dlapy2 (F := Float) 0.0 0.1)
#guard near 2.220446049250313e-16 1.414213562373095e-307 (dlapy2 (F := Float) 1e-307 1e-307)
#guard near 2.220446049250313e-16 1.4142135623730951e307 (dlapy2 (F := Float) 1e307 1e307)
#guard okIs (dlaqr1 (F := Float) 2 ([[1.0, 2.0], [3.0, 4.0]] : List (List Float)) 2 1.5 2.5 3.5 4.5 ([0.0, 0.0] : List Float)) (feq [-0.44444444444444442, 0.0])
#guard okIs (dlaqr1 (F := Float) 2 ([[0.5, 1.5], [3.5, 6.5]] : List (List Float)) 2 1.0 2.0 3.0 3.5 ([0.0, 0.0] : List Float)) (feq [-0.06666666666666665, 0.6000000000000001])
#guard okIs (dlaqr1 (F := Float) 3 ([[5.0, 6.0, 7.0], [8.0, 9.0, 10.0], [11.0, 12.0, 13.0]] : List (List Float)) 3 2.0 3.0 4.0 5.0 ([0.0, 0.0, 0.0] : List Float)) (feq [5.9473684210526310, 6.9473684210526310, 7.5789473684210522])
#guard okIs (dlaqr1 (F := Float) 3 ([[2.5, 4.5, 2.0], [1.5, 3.5, 1.0], [0.5, 2.5, 0.0]] : List (List Float)) 3 1.5 2.5 3.5 4.5 ([0.0, 0.0, 0.0] : List Float)) (feq [-0.37499999999999994, 0.7916666666666666, -0.04166666666666663])
#guard okIs (dlaqr5 (F := Float) true true 1 4 1 3 2 ([1.0, 2.0, 3.0] : List Float) ([0.0, 0.0, 0.0] : List Float) ([[2.0, 2.0, 2.0], [1.0, 1.0, 1.0], [3.0, 3.0, 3.0]] : List (List Float)) 3 1 3 ([[3.0, 3.0, 3.0], [2.0, 2.0, 2.0], [4.0, 4.0, 4.0]] : List (List Float)) 3 ([[2.0, 2.0, 2.0], [1.0, 1.0, 1.0], [3.0, 3.0, 3.0]] : List (List Float)) 3 ([[3.0, 3.0, 3.0], [2.0, 2.0, 2.0], [4.0, 4.0, 4.0]] : List (List Float)) 3 3 ([[0.0, 0.0, 0.0], [0.0, 0.0, 0.0], [0.0, 0.0, 0.0]] : List (List Float)) 5 3 ([[0.0, 0.0, 0.0], [0.0, 0.0, 0.0], [0.0, 0.0, 0.0]] : List (List Float)) 3) (fun r => feq2 [ [3.9999999999999973, 3.6742346141747659, 0.0], [0.81649658092772626, 0.81481481481481510, 5.2378280087892359e-2], [-2.3094010767585029, -0.65472850109865499, 1.1851851851851853]] r.h && feq2 [ [-4.949747468305832, -4.949747468305832, -4.949747468305832], [-1.7320508075688774, -1.7320508075688774, -1.7320508075688774], [5.230171827006869, 5.230171827006869, 5.230171827006869]] r.z && feq2 [ [1.9622504486493764, -0.13870070824202946, 0.4142135623730951], [1.0, 1.0, 1.0], [3.0, 3.0, 3.0]] r.v && feq2 [ [-0.7071067811865472, 0.0, -0.7071067811865475], [-0.19245008972987515, -0.9622504486493764, 0.19245008972987515], [0.6547285010986551, 0.27216552697590857, 0.6804138174397717]] r.u && feq2 [ [-4.949747468305832, -4.949747468305832, -4.949747468305832], [-1.7320508075688774, -1.7320508075688774, -1.7320508075688774], [5.230171827006869, 5.230171827006869, 5.230171827006869]] r.wv && feq2 [ [-3.1467296279827165e-308, -2.1410783186265535e-308, 3.576378669627478e-308], [0.0, 0.0, 0.0], [0.0, 0.0, 0.0]] r.wh)
#guard okIs (dlaqr5 (F := Float) true true 1 3 2 3 2 ([1.0, 2.0, 3.0] : List Float) ([0.0, 0.0, 0.0] : List Float) ([[2.0, 2.0, 2.0], [1.0, 1.0, 1.0], [3.0, 3.0, 3.0]] : List (List Float)) 3 1 3 ([[3.0, 3.0, 3.0], [2.0, 2.0, 2.0], [4.0, 4.0, 4.0]] : List (List Float)) 3 ([[2.0, 2.0, 2.0], [1.0, 1.0, 1.0], [3.0, 3.0, 3.0]] : List (List Float)) 3 ([[3.0, 3.0, 3.0], [2.0, 2.0, 2.0], [4.0, 4.0, 4.0]] : List (List Float)) 3 3 ([[0.0, 0.0, 0.0], [0.0, 0.0, 0.0], [0.0, 0.0, 0.0]] : List (List Float)) 3 3 ([[0.0, 0.0, 0.0], [0.0, 0.0, 0.0], [0.0, 0.0, 0.0]] : List (List Float)) 3) (fun r => feq2 [ [2.0, 2.0, 2.0], [-1.8973665961010278, 2.4000000000000012, -1.2000000000000002], [3.1460498941515413, -3.2000000000000006, 1.6000000000000001]] r.h && feq2 [ [3.0, 3.0, 3.0], [-3.1622776601683800, -3.1622776601683800, -3.1622776601683800], [4.3947331922020556, 4.3947331922020556, 4.3947331922020556]] r.z && feq2 [ [1.9486832980505140, 0.16227766016837933, 2.0], [1.0, 1.0, 1.0], [3.0, 3.0, 3.0]] r.v && feq2 [ [-0.94868329805051399, -0.31622776601683794, 0.0], [0.30000000000000010, 0.94868329805051377, 0.0], [0.10000000000000001, 0.0, 1.0]] r.u && feq2 [ [-3.1622776601683800, -3.1622776601683800, -3.1622776601683800], [ 4.3947331922020556, 4.3947331922020556, 4.3947331922020556], [0.0, 0.0, 0.0]] r.wv && feq2 [[0.0, 0.0, 0.0], [0.0, 0.0, 0.0], [0.0, 0.0, 0.0]] r.wh)
#guard okIs (dlarfg (F := Float) 1 2.0 ([3.0] : List Float) 1) (fun r => r.2.2 == 0.0)
#guard okIs (dlarfg (F := Float) 2 2.0 ([4.0, 5.0] : List Float) 2) (fun r => r.2.2 == 1.4472135954999579)
#guard okIs (dlarfg (F := Float) 2 1.6 ([2.8, 3.6] : List Float) 1) (fun r => r.2.2 == 1.4961389383568338)
#guard okIs (dlarfg (F := Float) 2 2.9 ([3.2, 4.8] : List Float) 2) (fun r => r.2.2 == 1.6715194247388592)
#guard okIs (dlarfg (F := Float) 3 2.1 ([2.6, 7.8, 3.2] : List Float) 2) (fun r => r.2.2 == 1.4538485592273604)
#guard okIs (dlarfg (F := Float) 4 3.4 ([2.9, 1.0, 4.1, 5.2] : List Float) 1) (fun r => r.2.2 == 1.5531563983709862)
#guard okIs (dlarfg (F := Float) 5 4.5 ([3.3, 4.4, 5.5, 6.6, 7.7] : List Float) 1) (fun r => r.2.2 == 1.403607734816732)
#guard okIs (dlarfg (F := Float) 6 6.8 ([7.1, 8.2, 9.3, 1.4, 2.5, 3.6] : List Float) 2) (fun r => r.2.2 == 1.4941176766392699)
#guard okIs (dlarfg (F := Float) 7 8.7 ([4.8, 2.9, 7.1, 8.2, 9.3, 1.4, 2.5] : List Float) 4) (fun r => r.2.2 == 1.6392567355572378)
#guard ieeeck (F := Float) 0 0.0 1.0 == 1
#guard ieeeck (F := Float) 1 0.0 1.0 == 0
#guard ieeeck (F := Float) 0 0.0 1e-10 == 1
#guard ieeeck (F := Float) 0 0.0 (-1e-10) == 0
#guard ieeeck (F := Float) 1 0.0 0.0 == 0
#guard ieeeck (F := Float) 1 0.0 1e-10 == 0
#guard ieeeck (F := Float) 1 0.0 (-1.0) == 0
#guard ieeeck (F := Float) 1 0.0 (-1e-10) == 0
#guard ieeeck (F := Float) 1 0.0 1e20 == 0
#guard ieeeck (F := Float) 1 0.0 (-1e20) == 0
#guard ieeeck (F := Float) 1 (0.0/0.0) 1.0 == 0
#guard ieeeck (F := Float) 1 0.0 (0.0/0.0) == 0
#guard okIs (ilaenv (-1) "CGGHRD".toList 0 0 0 0) (· == -1)
#guard okIs (ilaenv (0) "CGGHRD".toList 0 0 0 0) (· == -1)
#guard okIs (ilaenv (1) "CGGHRD".toList 0 0 0 0) (· == 1)
#guard okIs (ilaenv (1) "DGGHRD".toList 0 0 0 0) (· == 1)
#guard okIs (ilaenv (1) "SGBTRF".toList 0 128 0 128) (· == 32)
#guard okIs (ilaenv (1) "DGBTRF".toList 0 128 0 128) (· == 32)
#guard okIs (ilaenv (1) "DGEQRF".toList 0 0 0 0) (· == 32)
#guard okIs (ilaenv (1) "SGEQRF".toList 0 0 0 0) (· == 32)
#guard okIs (ilaenv (2) "CGGHRD".toList 0 0 0 0) (· == 2)
#guard okIs (ilaenv (2) "DGGHRD".toList 0 0 0 0) (· == 2)
#guard okIs (ilaenv (2) "SGBTRF".toList 0 0 0 0) (· == 2)
#guard okIs (ilaenv (2) "DGBTRF".toList 0 0 0 0) (· == 2)
#guard okIs (ilaenv (2) "DGEQRF".toList 0 0 0 0) (· == 2)
#guard okIs (ilaenv (2) "SGEQRF".toList 0 0 0 0) (· == 2)
#guard okIs (ilaenv (3) "CGGHRD".toList 0 0 0 0) (· == 0)
#guard okIs (ilaenv (3) "DGGHRD".toList 0 0 0 0) (· == 0)
#guard okIs (ilaenv (3) "SGBTRF".toList 0 0 0 0) (· == 0)
#guard okIs (ilaenv (3) "DGBTRF".toList 0 0 0 0) (· == 0)
#guard okIs (ilaenv (3) "DGEQRF".toList 0 0 0 0) (· == 128)
#guard okIs (ilaenv (3) "SGEQRF".toList 0 0 0 0) (· == 128)
#guard okIs (ilaenv (4) "CGGHRD".toList 2 3 0 0) (· == 6)
#guard okIs (ilaenv (5) "CGGHRD".toList 2 3 0 0) (· == 2)
#guard okIs (ilaenv (6) "CGGHRD".toList 2 3 0 0) (· == 3)
#guard okIs (ilaenv (7) "CGGHRD".toList 2 3 0 0) (· == 1)
#guard okIs (ilaenv (8) "CGGHRD".toList 2 3 0 0) (· == 50)
#guard okIs (ilaenv (9) "CGGHRD".toList 2 3 0 0) (· == 25)
#guard okIs (ilaenv (10) "CGGHRD".toList 0 0 0 0) (· == 0)
#guard okIs (ilaenv (11) "CGGHRD".toList 0 0 0 0) (· == 1)
#guard okIs (ilaenv (12) "CGGHRD".toList 2 3 4 5) (· == 75)
#guard okIs (ilaenv (13) "CGGHRD".toList 2 3 4 5) (· == 2)
#guard okIs (ilaenv (14) "CGGHRD".toList 2 3 4 5) (· == 14)
#guard okIs (ilaenv (15) "CGGHRD".toList 2 3 4 5) (· == 2)
#guard okIs (ilaenv (16) "CGGHRD".toList 2 3 4 5) (· == 1)
#guard okIs (ilaenv (17) "CGGHRD".toList 2 3 4 5) (· == 10)
#guard okIs (ilaenv (18) "CGGHRD".toList 0 0 0 0) (· == -1)
#guard okIs (iparmq 12 "test".toList 5 5) (· == 75)
#guard okIs (iparmq 14 "test".toList 10 10) (· == 14)
#guard okIs (iparmq 18 "test".toList 30 30) (· == -1)
#guard okIs (iparmq 15 "CGGHRD".toList 15 15) (· == 2)
#guard okIs (iparmq 16 "DGGHRD".toList 20 20) (· == 1)
#guard okIs (iparmq 17 "CHSEQR".toList 25 25) (· == 10)
#guard okIs (iparmq 15 "CTGEXC".toList 35 35) (· == 2)
#guard okIs (iparmq 16 "CLAQR0".toList 40 40) (· == 0)
#guard okIs (iparmq 17 "CHSEQR".toList 45 45) (· == 10)
#guard (dlamch 'E' : Float) == (epsilon * 0.5 : Float)
#guard (dlamch 'S' : Float) == (minPositive : Float)
#guard (dlamch 'B' : Float) == (2.0 : Float)
#guard (dlamch 'P' : Float) == (epsilon * 0.5 * 2.0 : Float)
#guard (dlamch 'N' : Float) == (53.0 : Float)
#guard (dlamch 'R' : Float) == (1.0 : Float)
#guard (dlamch 'M' : Float) == (-1021.0 : Float)
#guard (dlamch 'U' : Float) == (minPositive : Float)
#guard (dlamch 'L' : Float) == (1024.0 : Float)
#guard (dlamch 'O' : Float) == (maxValue : Float)
#guard okIs (do render (← display none (← (pure (FA.vector [1.0, 2.0, 3.0, 4.0]) : R (FA Float))))) (· == "[1.0, 2.0, 3.0, 4.0]")
#guard okIs (do render (← display none (← (FA.matrix (F := Float) [1.0, 2.0, 3.0, 4.0] 1 4)))) (· == "[[1.0, 2.0, 3.0, 4.0]]")
#guard okIs (do render (← display none (← (FA.matrix (F := Float) [1.0, 2.0, 3.0, 4.0] 4 1)))) (· == "[[1.0][2.0][3.0][4.0]]")
#guard okIs (do render (← display none (← (FA.matrix (F := Float) [1.0, 2.0, 3.0, 4.0] 2 2)))) (· == "[[1.0, 2.0][3.0, 4.0]]")

end Verif.Tests
