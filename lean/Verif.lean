import Verif.Ainur.PropsConvert
import Verif.Ainur.PropsFun
import Verif.Ainur.PropsGrammar
import Verif.Ainur.PropsMacro
import Verif.Ainur.PropsNative
import Verif.Ainur.PropsState
import Verif.Ast.Props
import Verif.Ast.PropsTree
import Verif.Base64.Props
import Verif.BitManip.Props
import Verif.Canonical.Props
import Verif.Canonical.PropsReplace
import Verif.Cmplx.Props
import Verif.Cmplx.PropsOther
import Verif.Collective.Props
import Verif.Collective.PropsMat
import Verif.Concurrency.Props
import Verif.Concurrency.PropsDisable
import Verif.Copy.Props
import Verif.Crs.Props
import Verif.Crs.Props2
import Verif.Crs.PropsExpr
import Verif.Crs.PropsSample
import Verif.Crs.PropsVerySparse
import Verif.Dense.Props
import Verif.Dense.PropsExpr
import Verif.Dense.PropsView
import Verif.Extrap.PropsFit
import Verif.Extrap.PropsLin
import Verif.Extrap.PropsRk
import Verif.Extrap.PropsRkConv
import Verif.Gather.Props
import Verif.GemmR.Props
import Verif.GemmR.PropsShort
import Verif.Geom.PropsAinur
import Verif.Geom.PropsBath
import Verif.Geom.PropsChain
import Verif.Geom.PropsGood
import Verif.Geom.PropsHoneycomb
import Verif.Geom.PropsImport
import Verif.Geom.PropsInput
import Verif.Geom.PropsKTwo
import Verif.Geom.PropsLadder
import Verif.Geom.PropsLadderX
import Verif.Geom.PropsLongRange
import Verif.Geom.PropsMax
import Verif.Geom.PropsMesh
import Verif.Geom.PropsPrint
import Verif.Geom.PropsSplit
import Verif.Geom.PropsSuper
import Verif.Geom.PropsSuperX
import Verif.Geom.PropsTerm
import Verif.Host.PropsApp
import Verif.Host.PropsLimit
import Verif.Host.PropsMemory
import Verif.Host.PropsProgress
import Verif.Host.PropsRedirect
import Verif.Host.PropsRunId
import Verif.InputNg.Props
import Verif.InputNg.PropsOrder
import Verif.InputNg.PropsRefuse
import Verif.InputNg.PropsValues
import Verif.IoNg.PropsBool
import Verif.IoNg.PropsCanary
import Verif.IoNg.PropsComposite
import Verif.IoNg.PropsGroup
import Verif.IoNg.PropsLife
import Verif.IoNg.PropsMatrix
import Verif.IoNg.PropsOver
import Verif.IoNg.PropsRun
import Verif.IoNg.PropsStore
import Verif.IoNg.PropsWrong
import Verif.IoSimple.Props
import Verif.IoSimple.PropsCf
import Verif.IoSimple.PropsEnd
import Verif.IoSimple.PropsFiles
import Verif.Krylov.PropsAccuracy
import Verif.Krylov.PropsCheb
import Verif.Krylov.PropsConverge
import Verif.Krylov.PropsCore
import Verif.Krylov.PropsCurve
import Verif.Krylov.PropsInterlace
import Verif.Krylov.PropsKernel
import Verif.Krylov.PropsLanczos
import Verif.Krylov.PropsSolver
import Verif.Krylov.PropsStates
import Verif.Krylov.PropsTri
import Verif.Labels.Props
import Verif.Lapack.PropsDoc
import Verif.Lapack.PropsEigen
import Verif.Lapack.PropsInverse
import Verif.Lapack.PropsSvd
import Verif.Lapack.PropsTri
import Verif.LoadBalancer.Props
import Verif.MemResolv.Props
import Verif.MemResolv.PropsFile
import Verif.MemResolv.PropsObjects
import Verif.MemResolv.PropsWalk
import Verif.Numeric.Props
import Verif.Numeric.PropsAkima
import Verif.Numeric.PropsCurve
import Verif.Numeric.PropsGradient
import Verif.Numeric.PropsIntegrator
import Verif.Numeric.PropsMinimizer
import Verif.Parallel.Props
import Verif.Parallel.PropsAffinity
import Verif.Parallel.PropsBalanced
import Verif.Parallel.PropsNested
import Verif.Parallel.PropsOld
import Verif.Parallel.PropsReads
import Verif.Perms.Props
import Verif.Predicate.Props
import Verif.Random.Props
import Verif.Random.Props48
import Verif.Random.PropsMT
import Verif.SolverP.Props
import Verif.SortM.Props
import Verif.SparseVec.Props
import Verif.SparseVec.PropsChunk
import Verif.Spectral.Props
import Verif.Spectral.PropsLanczos
import Verif.StrUtil.Props
import Verif.SumDec.Props
import Verif.TextIo.Props
import Verif.TextIo.PropsMat
import Verif.TextIo.PropsMatFile
import Verif.TextIo.PropsSymbolic
import Verif.Vec.Props
import Verif.Vec.PropsDot
import Verif.Whole.Props
import Verif.Whole.PropsBlas
import Verif.Whole.PropsBools
import Verif.Whole.PropsCalculator
import Verif.Whole.PropsClosures
import Verif.Whole.PropsCombine
import Verif.Whole.PropsCrs
import Verif.Whole.PropsDecompose
import Verif.Whole.PropsFun
import Verif.Whole.PropsGemm
import Verif.Whole.PropsGemm2
import Verif.Whole.PropsImbalance
import Verif.Whole.PropsInput
import Verif.Whole.PropsInterNode
import Verif.Whole.PropsKernel
import Verif.Whole.PropsLanczos
import Verif.Whole.PropsLinear
import Verif.Whole.PropsParallel2
import Verif.Whole.PropsRange
import Verif.Whole.PropsReal
import Verif.Whole.PropsSmall
import Verif.Whole.PropsSparse
import Verif.Whole.PropsSvd
import Verif.Whole.PropsThreads
import Verif.Whole.PropsTools
