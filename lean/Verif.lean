import Verif.Model.Basic
import Verif.Model.Stream
import Verif.Model.Int
import Verif.Spec.Int
import Verif.Proofs.IntBasic
import Verif.Proofs.IntArith
import Verif.Proofs.IntDiv
import Verif.Proofs.IntMore
import Verif.Proofs.IntUnfold
import Verif.Spec.Text
import Verif.Proofs.IntText
import Verif.Proofs.IntSafe
import Verif.Model.IntMem
import Verif.Spec.IntProg
import Verif.Proofs.IntMem
import Verif.Proofs.Witness
import Verif.Proofs.FracReleaseAux
import Verif.Proofs.FracAux
import Verif.Proofs.IntAux
import Verif.Proofs.PolyAux
import Verif.Proofs.OStreamAux
import Verif.Props.Int
import Verif.Props.IntText
import Verif.Model.Frac
import Verif.Spec.Frac
import Verif.Proofs.Frac
import Verif.Proofs.FracOps
import Verif.Model.FracMem
import Verif.Spec.FracProg
import Verif.Proofs.FracText
import Verif.Proofs.FracMem
import Verif.Spec.FracBuilt
import Verif.Proofs.FracBuilt
import Verif.Props.Frac
import Verif.Props.FracText
import Verif.Model.Scalar
import Verif.Model.Vec
import Verif.Model.Mat
import Verif.Spec.Linear
import Verif.Proofs.Scalar
import Verif.Proofs.ScalarInst
import Verif.Proofs.Vec
import Verif.Props.Vec
import Verif.Spec.Rref
import Verif.Proofs.MatBasic
import Verif.Proofs.MatCofactor
import Verif.Proofs.MatElim
import Verif.Proofs.MatDet
import Verif.Proofs.MatRref
import Verif.Proofs.MatMore
import Verif.Props.Mat
import Verif.Props.MatElim
import Verif.Model.Poly
import Verif.Spec.Poly
import Verif.Proofs.Poly
import Verif.Proofs.PolyList
import Verif.Proofs.PolyText
import Verif.Props.Poly
import Verif.Model.Double
import Verif.Model.FracDouble
import Verif.Spec.Common
import Verif.Proofs.Double
import Verif.Proofs.Common
import Verif.Props.Common
import Verif.Props.IntQueries
import Verif.Model.Machine
import Verif.Spec.Machine
import Verif.Proofs.Sqrt
import Verif.Proofs.Machine
import Verif.Proofs.MatMachine
import Verif.Proofs.Norm
import Verif.Proofs.DoubleErr
import Verif.Props.Machine
import Verif.Model.MatHeap
import Verif.Spec.Safe
import Verif.Spec.MatHeap
import Verif.Proofs.MatSafe
import Verif.Proofs.VecSafe
import Verif.Proofs.MatHeap
import Verif.Proofs.MatHeapSafe
import Verif.Props.Safe
import Verif.Props.MatHeap
import Verif.Proofs.MatLU
import Verif.Proofs.FracLinear
import Verif.Props.FracLinear
import Verif.Spec.Transfer
import Verif.Proofs.Transfer
import Verif.Proofs.TransferInst
import Verif.Props.Transfer
import Verif.Model.MatCost
import Verif.Spec.Cost
import Verif.Proofs.MatCost
import Verif.Props.MatCost
import Verif.Model.Release
import Verif.Spec.Release
import Verif.Proofs.Release
import Verif.Props.Release
import Verif.Spec.Solve
import Verif.Proofs.Solve
import Verif.Props.Solve
import Verif.Spec.Rounding
import Verif.Proofs.Rounding
import Verif.Props.Rounding
import Verif.Model.DoubleText
import Verif.Spec.Decimal
import Verif.Proofs.DoubleText
import Verif.Props.DoubleText
import Verif.Model.OStream
import Verif.Spec.Output
import Verif.Proofs.OStream
import Verif.Props.OStream
import Verif.Conformance.IntTables
import Verif.Conformance.Int
import Verif.Conformance.Frac
import Verif.Conformance.Vec
import Verif.Conformance.Mat
import Verif.Conformance.Poly
import Verif.Conformance.Demo
import Verif.Proofs.DoubleRref
import Verif.Proofs.DoubleDet
import Verif.Proofs.Dominant
import Verif.Proofs.DoubleDom
import Verif.Proofs.DoubleInv
import Verif.Props.DoubleMat
import Verif.Props.DoubleInverse
import Verif.Props.DoubleSolve
import Verif.Model.IntCost
import Verif.Model.FracCost
import Verif.Proofs.IntCost
import Verif.Proofs.IntTime
import Verif.Proofs.IntTime2
import Verif.Proofs.IntTime3
import Verif.Proofs.IntTime4
import Verif.Proofs.ExpCalls
import Verif.Proofs.FracCost
import Verif.Props.IntCost
import Verif.Model.FracRelease
import Verif.Proofs.FracRelease
import Verif.Proofs.FracReleaseOps
import Verif.Proofs.FracReleaseMem
import Verif.Proofs.FracReleaseWF
import Verif.Proofs.FracReleaseText
import Verif.Proofs.ReleaseScalar
import Verif.Props.FracRelease
import Verif.Model.MatMem
import Verif.Spec.MatMem
import Verif.Proofs.MatMem
import Verif.Proofs.MatMemFun
import Verif.Proofs.MatMemStep
import Verif.Props.MatMem
import Verif.Model.IntAlloc
import Verif.Spec.IntAlloc
import Verif.Proofs.IntAlloc
import Verif.Proofs.IntAllocLeft
import Verif.Props.IntAlloc
import Verif.Model.FracAlloc
import Verif.Proofs.FracAlloc
import Verif.Props.FracAlloc
import Verif.Model.ReadAlloc
import Verif.Proofs.ReadAlloc
import Verif.Proofs.ReadAllocLocal
import Verif.Props.ReadAlloc
import Verif.Model.OStreamFail
import Verif.Spec.OutputFail
import Verif.Proofs.OStreamFail
import Verif.Props.OStreamFail
import Verif.Model.FracReadAlloc
import Verif.Proofs.FracReadAlloc
import Verif.Proofs.FracReadAllocLocal
import Verif.Props.FracReadAlloc
import Verif.Model.PolyProg
import Verif.Spec.PolyProg
import Verif.Proofs.PolyProg
import Verif.Props.PolyProg
import Verif.Model.IntAllocProg
import Verif.Spec.IntAllocProg
import Verif.Proofs.IntAllocProg
import Verif.Props.IntAllocProg
import Verif.Model.PolyAlloc
import Verif.Spec.PolyAlloc
import Verif.Proofs.PolyAlloc
import Verif.Props.PolyAlloc
import Verif.Model.FracAllocProg
import Verif.Spec.FracAllocProg
import Verif.Proofs.FracAllocProg
import Verif.Props.FracAllocProg
import Verif.Model.PolyRelease
import Verif.Spec.PolyRelease
import Verif.Proofs.PolyRelease
import Verif.Props.PolyRelease
