import Verif.Model.Loop
import Verif.Props.View
import Verif.Props.Checks
import Verif.Props.Heap
import Verif.Props.Assign
import Verif.Props.Ops
import Verif.Props.Fill
import Verif.Props.Stream
import Verif.Props.Mixed
import Verif.Props.Elim
import Verif.Props.Cholesky
import Verif.Props.WLS
import Verif.Props.LU
import Verif.Props.QR
import Verif.Props.IRLS
import Verif.Props.SVD
import Verif.Props.SVDExists
import Verif.Props.Helpers
import Verif.Props.Extrema
import Verif.Props.SymEigen2
import Verif.Props.SymEigenD
import Verif.Props.SymEigen3
import Verif.Props.SO2
import Verif.Props.SO3
import Verif.Props.SO3Ln
import Verif.Props.SE
import Verif.Props.SE3
import Verif.Props.SE3Ln
import Verif.Props.SE2
import Verif.Props.SIM
import Verif.Props.SIMExp
import Verif.Props.SIMLn
import Verif.Props.SL
import Verif.Props.MatFun
import Verif.Props.MatSqrt
import Verif.Props.GoldenSection
import Verif.Props.Brent
import Verif.Props.Simplex
import Verif.Props.CG
import Verif.Props.CGQuad
import Verif.Props.Deriv
import Verif.Props.GRSVD
import Verif.Props.LapackChol
import Verif.Props.QRLapack
import Verif.Props.Fad
import Verif.Props.GroupIO
import Verif.Props.Typed
import Verif.Props.FloatOps
import Verif.Props.FloatChol
import Verif.Props.FloatElim
import Verif.Props.FloatDet
import Verif.Props.FloatCoerce2
import Verif.Props.Expr
import Verif.Props.Prog
import Verif.Props.Param
import Verif.Props.IntView
import Verif.Props.FloatExp2
import Verif.Props.FloatWLS
import Verif.Props.Thread
import Verif.Props.ThreadEx
import Verif.Props.DebugRandom
import Verif.Props.SIMAdj
import Verif.Props.OptMach
import Verif.Props.OptMachSx
import Verif.Props.OptMachCG
import Verif.Props.OptIEEE
import Verif.Props.OptBracket
import Verif.Props.OptNaN
import Verif.Props.DebugPeriod
import Verif.Props.Throw
import Verif.Props.Swap
import Verif.Props.Norms
import Verif.Props.FloatMixed
import Verif.Props.FloatWLSMixed
import Verif.Props.Special
import Verif.Props.OptExact
import Verif.Props.Bridge
import Verif.Props.ExpXF
import Verif.Props.LogXF
import Verif.Props.IRLSLoop
import Verif.Props.QRF
import Verif.Props.Fused
import Verif.Props.FusedChol
import Verif.Props.FusedElim
import Verif.Props.FusedWLS
import Verif.Props.Generated
import Verif.Props.NaNDecomp
import Verif.Props.PinvF
import Verif.Props.ExtremaNaN
import Verif.Props.HelpersF
import Verif.Props.SymEigenF
import Verif.Props.FloatSE3
import Verif.Props.FloatFromTo2
import Verif.Props.FloatLn2
import Verif.Props.FloatPose2
import Verif.Props.FloatSE3Ln
import Verif.Props.FloatSE3Ln2
import Verif.Props.FloatSE3Ln3
import Verif.Props.FloatSE3Ln4
import Verif.Props.FloatSE2Ln
import Verif.Props.FloatSE2Ln2
import Verif.Props.FloatSE2Ln3
import Verif.Props.FloatSim
import Verif.Props.FloatSim2
import Verif.Props.FloatSL
import Verif.Props.FloatSL2
import Verif.Props.FloatSL3
import Verif.Props.FloatChol2
import Verif.Props.FloatDet2
import Verif.Props.FloatElim2
import Verif.Props.FloatChol3
