import Verif.Core.Mem
import Verif.Core.Arr
import Verif.Model.BlockCuts
import Verif.Spec.Splitting
import Verif.Proofs.BlockCuts
import Verif.Props.Splitting
import Verif.Model.Perm
import Verif.Spec.Perm
import Verif.Proofs.Perm
import Verif.Props.Perm
import Verif.Core.FP
import Verif.Model.Reduce
import Verif.Proofs.Reduce
import Verif.Props.Reduce
import Verif.Model.Limits
import Verif.Props.Limits
import Verif.Model.Bounds
import Verif.Proofs.Bounds
import Verif.Props.Bounds
import Verif.Model.LazyGemm
import Verif.Proofs.LazyGemm
import Verif.Props.LazyGemm
import Verif.Model.RNS
import Verif.Proofs.RNS
import Verif.Proofs.RNSMod
import Verif.Props.RNS
import Verif.Model.Sparse
import Verif.Spec.Sparse
import Verif.Proofs.Sparse
import Verif.Props.Sparse
import Verif.Core.Heap
import Verif.Core.HeapEx
import Verif.Core.Enums
import Verif.Spec.LinAlg
import Verif.Model.Level1
import Verif.Model.Level2
import Verif.Proofs.Level1
import Verif.Proofs.Level2
import Verif.Props.Level1
import Verif.Props.Level2
import Verif.Core.Fam
import Verif.Model.Gemm
import Verif.Model.Winograd
import Verif.Proofs.Gemm
import Verif.Proofs.Winograd
import Verif.Proofs.Winograd2
import Verif.Proofs.Winograd3
import Verif.Props.Gemm
import Verif.Model.Trsm
import Verif.Proofs.Tri
import Verif.Proofs.Trsm
import Verif.Proofs.Trmm
import Verif.Proofs.TrmmO
import Verif.Props.Trsm
import Verif.Spec.Mat
import Verif.Proofs.OnWin
import Verif.Model.Ftrtr
import Verif.Proofs.Ftrtr
import Verif.Props.Ftrtr
import Verif.Props.ApplyP
import Verif.Spec.Pluq
import Verif.Model.Pluq
import Verif.Proofs.PluqMath
import Verif.Proofs.PluqArr
import Verif.Proofs.PluqComb
import Verif.Proofs.Crout
import Verif.Proofs.At
import Verif.Proofs.PluqStep
import Verif.Proofs.PluqRank
import Verif.Model.RankProfile
import Verif.Model.Det
import Verif.Spec.RankProfile
import Verif.Proofs.RankProfile
import Verif.Proofs.Det
import Verif.Props.Pluq
import Verif.Proofs.Src
import Verif.Model.Solve
import Verif.Spec.Solve
import Verif.Proofs.SolveMath
import Verif.Proofs.Solve
import Verif.Props.Solve
import Verif.Model.Echelon
import Verif.Spec.Echelon
import Verif.Proofs.EchelonMath
import Verif.Proofs.Echelon
import Verif.Proofs.GJArr
import Verif.Proofs.GaussJordan
import Verif.Props.Echelon
import Verif.Model.Checkers
import Verif.Proofs.Checkers
import Verif.Props.Checkers
import Verif.Spec.Sym
import Verif.Model.Fsyrk
import Verif.Proofs.Fsyrk
import Verif.Proofs.FsyrkDiag
import Verif.Proofs.Fsyr2k
import Verif.Props.Fsyrk
import Verif.Model.Simd
import Verif.Model.Transpose
import Verif.Proofs.Simd
import Verif.Proofs.Transpose
import Verif.Props.Transpose
import Verif.Model.Monotonic
import Verif.Proofs.Monotonic
import Verif.Props.Monotonic
import Verif.Spec.Cup
import Verif.Model.LUdivine
import Verif.Model.LudUse
import Verif.Proofs.LudMath
import Verif.Proofs.LudRank
import Verif.Proofs.LudOn
import Verif.Proofs.LudStep
import Verif.Proofs.LudBase
import Verif.Proofs.LudSmallMath
import Verif.Proofs.LudSmall
import Verif.Proofs.Ludivine
import Verif.Proofs.LudUse
import Verif.Props.LUdivine
import Verif.Props.LudUse
import Verif.Model.EchelonSlab
import Verif.Model.EchelonGet
import Verif.Proofs.EchelonSlab
import Verif.Proofs.EchelonGet
import Verif.Proofs.EchelonGet2
import Verif.Proofs.EchelonGetIn
import Verif.Proofs.EchelonForm
import Verif.Props.EchelonGet
import Verif.Core.Par
import Verif.Core.ParProg
import Verif.Core.ParRace
import Verif.Spec.Par
import Verif.Model.ParTasks
import Verif.Model.Par
import Verif.Proofs.ParWr
import Verif.Proofs.ParLoops
import Verif.Proofs.ParElem
import Verif.Proofs.ParLevel
import Verif.Proofs.ParGemm
import Verif.Proofs.ParBad
import Verif.Props.Par
import Verif.Props.ParLinear
import Verif.Model.Ftrstr
import Verif.Proofs.Ftrstr
import Verif.Props.Ftrstr
import Verif.Model.Fsytrf
import Verif.Proofs.FsytrfMath
import Verif.Proofs.Fsytrf
import Verif.Props.Fsytrf
import Verif.Model.Danilevski
import Verif.Spec.CharPoly
import Verif.Proofs.CharPolyMath
import Verif.Proofs.Danilevski
import Verif.Model.MinPoly
import Verif.Proofs.MinPolyElim
import Verif.Spec.MinPoly
import Verif.Proofs.MinPolyMath
import Verif.Proofs.MinPoly
import Verif.Props.MinPoly
import Verif.Model.CharPoly
import Verif.Proofs.LukMath
import Verif.Proofs.Luk
import Verif.Props.CharPolyLuk
import Verif.Props.CharPoly
import Verif.Spec.Sss
import Verif.Model.Sss
import Verif.Proofs.Wins
import Verif.Proofs.SssMath
import Verif.Proofs.Sss
import Verif.Proofs.SssProd
import Verif.Proofs.SssDense
import Verif.Props.Sss
import Verif.Spec.QuasiSep
import Verif.Proofs.SssBuildMath
import Verif.Model.SssBuild
import Verif.Proofs.SssBuild
import Verif.Proofs.SssUp
import Verif.Proofs.SssLow
import Verif.Proofs.SssBuildAll
import Verif.Props.SssBuild
import Verif.Model.Bruhat
import Verif.Spec.Bruhat
import Verif.Proofs.BruhatMath
import Verif.Proofs.BruhatRank
import Verif.Proofs.BruhatElim
import Verif.Proofs.BruhatTmp
import Verif.Proofs.Bruhat
import Verif.Proofs.BruhatGet
import Verif.Props.Bruhat
import Verif.Model.KrylovPrecond
import Verif.Proofs.Tmps
import Verif.Proofs.KrylovMath
import Verif.Proofs.KrylovPrecond
import Verif.Props.KrylovPrecond
import Verif.Spec.Rook
import Verif.Model.RandRook
import Verif.Proofs.RandRook
import Verif.Proofs.RandSym
import Verif.Proofs.RandLtqs
import Verif.Props.RandRook
import Verif.Model.RandMat
import Verif.Proofs.RandRank
import Verif.Proofs.RandLen
import Verif.Proofs.RandMat
import Verif.Proofs.RandMatSym
import Verif.Proofs.RandMatDet
import Verif.Props.RandMat
import Verif.Model.MultiPrec
import Verif.Proofs.MultiPrec
import Verif.Proofs.MultiPrecGemm
import Verif.Proofs.MultiPrecDet
import Verif.Props.MultiPrec
import Verif.Model.CheckDet
import Verif.Proofs.CheckDet
import Verif.Props.CheckDet
import Verif.Props.IGemm
import Verif.Model.SyrkStrassen
import Verif.Proofs.SyrkStrassen1
import Verif.Proofs.SyrkStrassen2
import Verif.Proofs.SyrkStrassen3
import Verif.Proofs.SyrkStrassen4
import Verif.Proofs.SyrkStrassen5
import Verif.Proofs.SyrkStrassen6
import Verif.Proofs.SyrkStrassen7
import Verif.Props.SyrkStrassen
import Verif.Model.MatIO
import Verif.Proofs.MatIO
import Verif.Props.MatIO
import Verif.Model.ReadSparse
import Verif.Proofs.ReadSparse
import Verif.Props.ReadSparse
import Verif.Model.SparseMM
import Verif.Spec.SparseMM
import Verif.Proofs.SparseMM
import Verif.Props.SparseMM
import Verif.Core.ParV
import Verif.Core.ParVProg
import Verif.Spec.ParV
import Verif.Model.PPluq
import Verif.Proofs.PhaseV
import Verif.Proofs.PPluqSeq
import Verif.Proofs.PPluqParts
import Verif.Proofs.PPluq
import Verif.Props.PPluq
import Verif.Model.SimdInt
import Verif.Spec.SimdInt
import Verif.Proofs.SimdInt
import Verif.Proofs.SimdInt2
import Verif.Proofs.SimdInt3
import Verif.Proofs.SimdInt4
import Verif.Props.SimdInt
import Verif.Model.SimdVec
import Verif.Spec.SimdVec
import Verif.Proofs.SimdVec
import Verif.Proofs.SimdVec2
import Verif.Proofs.SimdVec3
import Verif.Proofs.SimdVec4
import Verif.Proofs.SimdVec5
import Verif.Props.SimdVec
import Verif.Model.TrsmMP
import Verif.Proofs.TrsmMP
import Verif.Proofs.TrsmMP2
import Verif.Proofs.TrsmMP3
import Verif.Props.TrsmMP
import Verif.Model.RnsElt
import Verif.Proofs.RnsElt
import Verif.Props.RnsElt
import Verif.Model.FsytrfRpm
import Verif.Proofs.FsytrfRpmMath
import Verif.Proofs.FsytrfRpm
import Verif.Proofs.FsytrfRpmStep
import Verif.Proofs.FsytrfRpmTwo
import Verif.Proofs.FsytrfRpmLoop
import Verif.Proofs.FsytrfRpmTop
import Verif.Props.FsytrfRpm
import Verif.Model.ParSparse
import Verif.Proofs.ParSparse
import Verif.Props.ParSparse
import Verif.Model.PSolve
import Verif.Proofs.PSolve
import Verif.Props.PSolve
import Verif.Props.PFsyrk
import Verif.Model.PFsytrf
import Verif.Proofs.PFsytrf
import Verif.Proofs.PFsytrfBase
import Verif.Props.PFsytrf
import Verif.Model.PTrsm
import Verif.Proofs.PTrsm
import Verif.Props.PTrsm
import Verif.Model.WinogradOld
import Verif.Proofs.WinogradOld
import Verif.Props.WinogradOld
import Verif.Props.Convert
import Verif.Props.FgemvMP
import Verif.Props.Delayed
import Verif.Props.LazyInt
import Verif.Props.FitTable
import Verif.Props.LazyTight
import Verif.Props.RnsOps
import Verif.Props.PEchelon
import Verif.Props.Move
import Verif.Props.SpStat
import Verif.Props.PHyb
import Verif.Props.Alloc
import Verif.Props.PSell
