import Verif.Props.Filter
import Verif.Props.FilterLS
import Verif.Props.Options
import Verif.Props.OptionFile
import Verif.Props.OptionsNumeric
import Verif.Props.SmartPtr
import Verif.Props.Cache
import Verif.Props.Perturb
import Verif.Props.Journal
import Verif.Props.ConvCheck
import Verif.Props.Optimize
import Verif.Props.App
import Verif.Props.DenseVector
import Verif.Props.VecCache
import Verif.Props.CompoundVector
import Verif.Props.Mem
import Verif.Props.CSR
import Verif.Props.Adapter
import Verif.Props.AdapterJac
import Verif.Props.AdapterEval
import Verif.Props.AdapterFD
import Verif.Props.TimedTask
import Verif.Props.Safeguard
import Verif.Props.InitPoint
import Verif.Props.MonotoneMu
import Verif.Props.LineSearch
import Verif.Props.Watchdog
import Verif.Props.Matrix
import Verif.Props.Scaling
import Verif.Props.FinalBounds
import Verif.Props.GradScaling
import Verif.Props.PDSystem
import Verif.Props.AugResto
import Verif.Props.QuasiNewton
import Verif.Props.QuasiNewtonEx
import Verif.Props.QuasiNewtonReal
import Verif.Props.Reducer
import Verif.Props.CInterface
import Verif.Props.CalcQuant
import Verif.Props.AdaptiveMu
import Verif.Props.AdaptiveMuEx
import Verif.Props.Golden
import Verif.Props.MuOracle
import Verif.Props.QfOracle
import Verif.Props.MuOracleEx
import Verif.Props.Triplet
import Verif.Props.AugSolve
import Verif.Props.CurrIter
import Verif.Props.CurrIter2
import Verif.Props.CurrIter3
import Verif.Props.CurrIter4
import Verif.Props.OrigNLP
import Verif.Props.OrigNLP2
import Verif.Props.LowRank
import Verif.Props.LowRankSS
import Verif.Props.RestoNLP
import Verif.Props.RestoInit
import Verif.Props.RestoConv
import Verif.Props.PenaltyLS
import Verif.Props.SOC
import Verif.Props.BoundsRemover
import Verif.Props.InitMult
import Verif.Props.SearchDirReal
import Verif.Props.DerivCheck
import Verif.Props.AdapterUser
import Verif.Props.Ampl
import Verif.Props.Ma27
import Verif.Props.Sens
import Verif.Props.Mumps
import Verif.Props.DepRows
import Verif.Props.RestoResto
import Verif.Props.KktErr2
import Verif.Props.FinalTnlp3
import Verif.Props.Piecewise3
import Verif.Props.Ma57
import Verif.Props.SysScaling
import Verif.Props.Equil
import Verif.Props.GenAug
import Verif.Props.CgPerturb
import Verif.Props.CgBest
import Verif.Props.CgDir
