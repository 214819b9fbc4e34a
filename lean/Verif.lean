import Verif.Inst.Float
import Verif.Inst.XR
import Verif.Lib.Array
import Verif.Lib.Blas1
import Verif.Lib.Ends
import Verif.Lib.Exact
import Verif.Lib.F64
import Verif.Lib.F64Alg
import Verif.Lib.F64Err
import Verif.Lib.F64Even
import Verif.Lib.F64Int
import Verif.Lib.F64Mono
import Verif.Lib.F64Nrm2
import Verif.Lib.F64Num
import Verif.Lib.F64Ops
import Verif.Lib.F64Rel
import Verif.Lib.F64Round
import Verif.Lib.F64Sign
import Verif.Lib.F64Sum
import Verif.Lib.FrancisAlg
import Verif.Lib.Gemm
import Verif.Lib.HqrChase
import Verif.Lib.HqrCode
import Verif.Lib.HqrF64a
import Verif.Lib.HqrF64b
import Verif.Lib.HqrF64c
import Verif.Lib.HqrF64d
import Verif.Lib.HqrF64e
import Verif.Lib.HqrF64f
import Verif.Lib.HqrF64g
import Verif.Lib.HqrF64h
import Verif.Lib.HqrF64i
import Verif.Lib.HqrF64j
import Verif.Lib.HqrF64k
import Verif.Lib.HqrFrancis
import Verif.Lib.HqrLocal
import Verif.Lib.HqrMat
import Verif.Lib.HqrNaN
import Verif.Lib.HqrOuter
import Verif.Lib.HqrRefl
import Verif.Lib.HqrRot
import Verif.Lib.HqrSafe
import Verif.Lib.HqrStep
import Verif.Lib.HqrSweep
import Verif.Lib.HqrTop
import Verif.Lib.HqrTwo
import Verif.Lib.HqrTwoG
import Verif.Lib.Lanv2Alg
import Verif.Lib.Lanv2F64
import Verif.Lib.Lanv2F64b
import Verif.Lib.Lanv2F64c
import Verif.Lib.Lanv2F64d
import Verif.Lib.Lanv2F64e
import Verif.Lib.Lanv2F64f
import Verif.Lib.Loops
import Verif.Lib.Mat
import Verif.Lib.NoExit
import Verif.Lib.Post
import Verif.Lib.Qr5Acc
import Verif.Lib.Qr5BlkG
import Verif.Lib.Qr5Block
import Verif.Lib.Qr5Chase
import Verif.Lib.Qr5Defl
import Verif.Lib.Qr5DeflAll
import Verif.Lib.Qr5F64a
import Verif.Lib.Qr5F64b
import Verif.Lib.Qr5F64c
import Verif.Lib.Qr5F64d
import Verif.Lib.Qr5F64e
import Verif.Lib.Qr5F64f
import Verif.Lib.Qr5F64g
import Verif.Lib.Qr5F64h
import Verif.Lib.Qr5F64i
import Verif.Lib.Qr5F64j
import Verif.Lib.Qr5F64k
import Verif.Lib.Qr5F64l
import Verif.Lib.Qr5F64m
import Verif.Lib.Qr5F64n
import Verif.Lib.Qr5Local
import Verif.Lib.Qr5LocalAcc
import Verif.Lib.Qr5Mat
import Verif.Lib.Qr5Pad
import Verif.Lib.Qr5Reach
import Verif.Lib.Qr5Safe
import Verif.Lib.Qr5Scratch
import Verif.Lib.Qr5Scratch2
import Verif.Lib.Qr5Scratch3
import Verif.Lib.Qr5Shift
import Verif.Lib.Qr5Start
import Verif.Lib.Qr5Step
import Verif.Lib.Qr5Sweep
import Verif.Lib.Qr5Vec
import Verif.Lib.Qr5ZSweep
import Verif.Lib.Refl
import Verif.Lib.SchurDet
import Verif.Lib.Sim
import Verif.Lib.Sub
import Verif.Lib.Tot
import Verif.Lib.Trmm
import Verif.Model.Array
import Verif.Model.Basic
import Verif.Model.Blas
import Verif.Model.Env
import Verif.Model.Hqr
import Verif.Model.Lapack
import Verif.Model.Qr5
import Verif.Model.Scalar
import Verif.Model.Xerbla
import Verif.Props.AbsBound
import Verif.Props.AbsBoundScaled
import Verif.Props.Array
import Verif.Props.ArrayEq
import Verif.Props.Blas1
import Verif.Props.Convert
import Verif.Props.Env
import Verif.Props.Env6
import Verif.Props.EnvTable
import Verif.Props.Gemm
import Verif.Props.GemmArgs
import Verif.Props.GemmBits
import Verif.Props.GemmBitsArr
import Verif.Props.GemmExact
import Verif.Props.GemmF64
import Verif.Props.GemmNaN
import Verif.Props.GemmSign
import Verif.Props.GemmSplit
import Verif.Props.Gram
import Verif.Props.Hqr
import Verif.Props.HqrAgain
import Verif.Props.HqrExact
import Verif.Props.HqrF64
import Verif.Props.HqrFrancis
import Verif.Props.HqrIndep
import Verif.Props.HqrLocal
import Verif.Props.HqrNaN
import Verif.Props.HqrNested
import Verif.Props.HqrNestedMore
import Verif.Props.HqrSafe
import Verif.Props.HqrStuck
import Verif.Props.HqrStuckF64
import Verif.Props.HqrTop
import Verif.Props.HqrTwoEig
import Verif.Props.HqrTwoG
import Verif.Props.HqrWrong
import Verif.Props.Ieeeck
import Verif.Props.Lacpy
import Verif.Props.LacpyParts
import Verif.Props.Lamch
import Verif.Props.Lanv2
import Verif.Props.Lanv2F64
import Verif.Props.Lanv2Idem
import Verif.Props.Lapy2
import Verif.Props.Lapy2F64
import Verif.Props.Lapy2Mono
import Verif.Props.Lapy2Upper
import Verif.Props.Laqr1
import Verif.Props.Laqr1F64
import Verif.Props.Laqr1PowTwo
import Verif.Props.Laqr1Sign
import Verif.Props.Larfg
import Verif.Props.LarfgBound
import Verif.Props.LarfgF64
import Verif.Props.LarfgTau
import Verif.Props.LasetLast
import Verif.Props.Monotone
import Verif.Props.NestedShape
import Verif.Props.NormLower
import Verif.Props.Nrm2
import Verif.Props.Nrm2Acc
import Verif.Props.Nrm2F64
import Verif.Props.Nrm2Inf
import Verif.Props.Padding
import Verif.Props.PowTwo
import Verif.Props.PowTwoNrm
import Verif.Props.Profiles
import Verif.Props.Qr5
import Verif.Props.Qr5Accum
import Verif.Props.Qr5Collapse
import Verif.Props.Qr5Defl
import Verif.Props.Qr5Exact
import Verif.Props.Qr5F64
import Verif.Props.Qr5F64Acc
import Verif.Props.Qr5Flat
import Verif.Props.Qr5Ldz
import Verif.Props.Qr5Local
import Verif.Props.Qr5LocalAcc
import Verif.Props.Qr5Many
import Verif.Props.Qr5Reach
import Verif.Props.Qr5Safe
import Verif.Props.Qr5Scratch
import Verif.Props.Qr5Three
import Verif.Props.Qr5Z
import Verif.Props.Qr5ZExact
import Verif.Props.QuarterTurn
import Verif.Props.RotExact
import Verif.Props.RotF64
import Verif.Props.RotSeq
import Verif.Props.RotSwap
import Verif.Props.ScalMono
import Verif.Props.Signs
import Verif.Props.Storage1
import Verif.Props.SubMono
import Verif.Props.Trmm
import Verif.Props.TrmmExact
import Verif.Props.TrmmF64
import Verif.Props.TrmmFlat
import Verif.Props.TrmmGemm
import Verif.Props.TrmmInt
import Verif.Props.TrmmMono
import Verif.Props.TrmmNested
import Verif.Props.TrmmPowTwo
import Verif.Props.TrmmSides
import Verif.Props.TrmmSign
import Verif.Props.Xerbla
import Verif.Spec.Backward
import Verif.Spec.BackwardF64
import Verif.Spec.Mat
import Verif.Spec.Stride
import Verif.Spec.Tri
import Verif.Tests
