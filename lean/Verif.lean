import Verif.Basic
import Verif.Num
import Verif.NumLemmas
import Verif.MSupport
import Verif.Spec.MSupport
import Verif.Props.MSupport
import Verif.NDArray
import Verif.Scaler
import Verif.ScalerLemmas
import Verif.Missing
import Verif.Robust
import Verif.Props.Preproc
import Verif.Props.Scaler
import Verif.Props.Robust
import Verif.GSSPP
import Verif.Props.GSSPP
import Verif.Dicomo
import Verif.Energy
import Verif.Spec.Dicomo
import Verif.DicomoLemmas
import Verif.Props.Dicomo
import Verif.Props.Dicomo2
import Verif.DicomoDistLemmas
import Verif.Props.DicomoDist
import Verif.Props.DicomoDist2
import Verif.Props.DicomoDist3
import Verif.Props.DicomoClass
import Verif.Snipls
import Verif.SniplsLemmas
import Verif.Spec.Regress
import Verif.Props.Snipls
import Verif.RM
import Verif.SPRM
import Verif.RMLemmas
import Verif.Spec.Reweight
import Verif.Props.RM
import Verif.Props.RMExample
import Verif.Props.SPRM
import Verif.Props.SPRMExample
import Verif.Props.SPRMEquiv
import Verif.Grid
import Verif.Spec.PP
import Verif.Props.Grid
import Verif.PPDire
import Verif.Props.PPDire
import Verif.Props.PPDireExample
import Verif.Spec.PPFull
import Verif.PPFull
import Verif.Props.PPFull
import Verif.Props.PPFullExample
import Verif.Capi
import Verif.Spec.Capi
import Verif.Props.Capi
import Verif.Params
import Verif.Props.Params
import Verif.Slicing
import Verif.Spec.Sudire
import Verif.Props.Discretize
import Verif.Props.Slicing
import Verif.Props.SlicingEig
import Verif.Props.Phd
import Verif.Sudire
import Verif.Props.Sudire
import Verif.Props.SudireHist
import Verif.Props.SudireFit
import Verif.Props.SudireStart
import Verif.Props.SudireScale
import Verif.Ipopt
import Verif.Spec.Ipopt
import Verif.Props.Ipopt
import Verif.Props.Jacobian
import Verif.Plot
import Verif.PlotPics
import Verif.Props.Plot
import Verif.Props.PlotPics
import Verif.Props.Nested
import Verif.Props.NestedSudire
import Verif.Spec.Exact
import Verif.Props.ExactFit
import Verif.Props.PPFullMedian
import Verif.Options
import Verif.Props.Options
import Verif.SudireObj
import Verif.Spec.SudireObj
import Verif.Props.SudireObj
import Verif.Inputs
import Verif.Spec.Inputs
import Verif.Props.Inputs
import Verif.Valscore
import Verif.Spec.Valscore
import Verif.Props.Valscore
import Verif.SniplsEv
import Verif.Props.SniplsEv
import Verif.Spec.Units
import Verif.EquivLemmas
import Verif.Props.SniplsEquiv
import Verif.Props.Preproc2
import Verif.Spec.LeastSquares
import Verif.EquivRobust
import Verif.Props.RMEquiv
import Verif.Props.ReweightRun
import Verif.Props.PPDireEquiv
import Verif.Props.PPDireHist
import Verif.Props.SudireOrder
import Verif.Props.SudireAffine
import Verif.Props.DicomoOrder
import Verif.PPIndex
import Verif.Spec.Pca
import Verif.Props.PPDirePCA
import Verif.Props.PPDirePLS
import Verif.Props.PPDireSquare
import Verif.Coords
import Verif.Spec.Coords
import Verif.Props.Coords
import Verif.Spec.SudireCrit
import Verif.Props.SudireCrit
import Verif.Props.SudireCrit2
import Verif.Spec.Stats
import Verif.Props.Checks
import Verif.Props.Stats
import Verif.Props.SudireParams
import Verif.ScalerObj
import Verif.Props.ScalerObj
import Verif.Spec.CaseByCase
import Verif.Props.CaseByCase
import Verif.Props.DicomoPerfect
import Verif.Props.RMTotal
import Verif.Props.RMInfluence
import Verif.Props.PPFullUncentred
import Verif.Props.ScalerReturns
import Verif.Props.SudireData
import Verif.Props.Breakdown
import Verif.Props.SniplsDirections
import Verif.Props.IpoptResult
import Verif.Props.Clean
import Verif.Props.FullRank
import Verif.Props.Whiten
import Verif.Props.MomentLaws
import Verif.CapiObj
import Verif.Props.CapiObj
import Verif.SniplsNaN
import Verif.Props.SniplsNaN
import Verif.Props.SniplsNaN2
import Verif.Props.SniplsNaN3
import Verif.Props.SudireReturn
import Verif.Props.Krylov
import Verif.Props.CaseWeights
import Verif.Props.ReweightLimit
import Verif.Props.Independence
import Verif.Props.Replicate
import Verif.Props.Replicate2
import Verif.Props.Replicate3
import Verif.Props.Rotate
import Verif.Props.Rotate2
import Verif.Props.Rotate3
import Verif.Props.Rotate4
import Verif.Props.SpatialMedian
import Verif.Props.Idempotent
import Verif.Spec.Constant
import Verif.Props.Constant
import Verif.Props.Constant2
import Verif.Props.CapiEquiv
import Verif.PPKw
import Verif.Props.PPKw
import Verif.Props.RegEquiv
import Verif.Props.TrimResist
import Verif.Props.SaveSir
import Verif.Props.GridNear
import Verif.Props.DrSir
import Verif.Props.EqualCols
import Verif.Props.SPRMTwo
import Verif.Props.ResidCentre
import Verif.Props.Uncorr
import Verif.Props.Unbiased
import Verif.Props.Retained
import Verif.Props.Lda
import Verif.Props.Shrink
import Verif.Props.SirRank
import Verif.Props.PPDireCCA
import Verif.Spec.Reproduce
import Verif.Props.Reproduce
import Verif.Props.FullModel
import Verif.Props.KyFan
import Verif.Props.BestSpace
import Verif.Props.BestSudire
import Verif.Spec.RSquare
import Verif.Props.RSquare
import Verif.WrapperObj
import Verif.Props.Wrap
import Verif.FailObj
import Verif.Props.FailSafe
import Verif.Spec.Stability
import Verif.Props.Stability
import Verif.Props.Gradual
import Verif.Props.StabilityDicomo
import Verif.Spec.Beforehand
import Verif.Props.Beforehand
import Verif.Spec.Steady
import Verif.Props.Steady
import Verif.Spec.LeaveOneOut
import Verif.Props.LeaveOneOut
import Verif.Props.CloseLocations
import Verif.Props.PlsPcr
