import Verif.PropsShape
import Verif.PropsPool
import Verif.PropsSafety
import Verif.PropsFw
import Verif.PropsFw2
import Verif.PropsFw3
import Verif.PropsBw
import Verif.PropsGraph
import Verif.Operators
import Verif.PropsNode2
import Verif.PropsNode3
import Verif.PropsCalc
import Verif.RealSoft
import Verif.PropsSerde
import Verif.PropsOpt
import Verif.PropsOpt2
import Verif.PropsModel
import Verif.PropsCalc2
import Verif.PropsAd3
import Verif.PropsLife2
import Verif.PropsGraph2
import Verif.PropsContrib3
import Verif.PropsInit
import Verif.PropsFw4
import Verif.PropsShape2
import Verif.Safety6
import Verif.Safety7
import Verif.Safety8
import Verif.Safety9
import Verif.PropsSafety2
import Verif.PropsSafety3
import Verif.Registry
import Verif.PropsRegistry
import Verif.PropsTrain
import Verif.Threads
import Verif.ThreadsSpec
import Verif.ThreadsLemmas
import Verif.ThreadsExec
import Verif.PropsThreads
import Verif.RandomLock
import Verif.PropsRandom
import Verif.Unwind
import Verif.PropsUnwind
import Verif.Borrow
import Verif.BorrowLemmas
import Verif.PropsBorrow
import Verif.Owner
import Verif.OwnerLemmas
import Verif.OwnerLemmas2
import Verif.PropsOwner
import Verif.PropsTrain2
import Verif.Derive
import Verif.PropsDerive
import Verif.RawHandles
import Verif.PropsRaw
import Verif.PropsGraph3
import Verif.GraphFin
import Verif.NodeRead
import Verif.ReadLemmas
import Verif.PropsRead
import Verif.Round
import Verif.FloatInst
import Verif.FloatLemmas
import Verif.FloatSoft
import Verif.FloatSpec
import Verif.FloatErr
import Verif.FloatAcc
import Verif.FloatAcc2
import Verif.FloatIdeal
import Verif.PropsFloat
import Verif.PropsFloat2
import Verif.FloatSum
import Verif.FloatOpt
import Verif.PropsFloat3
import Verif.PropsFloat4
import Verif.FloatOrder
import Verif.PropsFloat5
import Verif.FloatAct
import Verif.PropsFloat6
import Verif.FloatGap
import Verif.PropsFloat7
import Verif.GraphOrder
import Verif.PropsOrder
import Verif.FloatNorm
import Verif.PropsFloat8
import Verif.Batchwise
import Verif.BatchSpec
import Verif.Batchwise2
import Verif.PropsBatch
import Verif.PropsBatch2
import Verif.SampleSpec
import Verif.Sample
import Verif.SampleGraph
import Verif.PropsSample
import Verif.PropsSample2
import Verif.PropsAccum
import Verif.PropsAccum2
import Verif.RandomLaw
import Verif.PropsLaw
import Verif.Converge
import Verif.PropsConverge
import Verif.Converge2
import Verif.PropsConverge2
import Verif.Converge3
import Verif.PropsMomentum
import Verif.PropsAdam
import Verif.PropsScaled
import Verif.ErrorSpec
import Verif.Param
import Verif.Param2
import Verif.Error
import Verif.Error2
import Verif.Whole
import Verif.PropsError
import Verif.PropsError2
import Verif.FloatAdam
import Verif.PropsAdam32
import Verif.PropsNan
import Verif.FlowSpec
import Verif.Param3
import Verif.PropsFlow
import Verif.MaskSpec
import Verif.MaskLemmas
import Verif.PropsMask
import Verif.PropsLossGrad
import Verif.PropsMono
import Verif.PropsMono2
import Verif.PropsPredict
import Verif.PropsIdent
import Verif.ShapeText
import Verif.PropsText
import Verif.PropsMatmul
import Verif.PropsNatural
