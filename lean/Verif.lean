import Verif.Np
import Verif.FX
import Verif.FloatNp
import Verif.Kepler
import Verif.KeplerArr
import Verif.KepReal
import Verif.PropsStumpff
import Verif.PropsRot
import Verif.Mask
import Verif.KepGeom
import Verif.PropsKepCart
import Verif.KepSurj
import Verif.OrbitSpec
import Verif.PropsRoundTrip
import Verif.PropsCalls
import Verif.AnomReal
import Verif.PropsAnomaly
import Verif.PropsSolver
import Verif.OrbitNum
import Verif.PropsFormula
import Verif.PropsEqui
import Verif.PropsEquiCart
import Verif.PropsDegrees
import Verif.Unit
import Verif.PropsUnit
import Verif.PropsAngleUnits
import Verif.PropsEquiv
import Verif.PropsNewton
import Verif.OrbitCls
import Verif.OrbitIndex
import Verif.OrbitCalc
import Verif.OrbitRun
import Verif.OrbitOps
import Verif.PropsOrbitShape
import Verif.OrbitDirect
import Verif.PropsOrbitRead
import Verif.PropsOrbitAgree
import Verif.OrbitReal
import Verif.PropsOrbitGuard
import Verif.PropsOrbitDepth
import Verif.OrbitVals
import Verif.PropsOrbitCopy
import Verif.PropsOrbitIter
import Verif.PropsOrbitUpdate
import Verif.PropsShape
import Verif.PropsOrbitAlloc
import Verif.OrbitLazy
import Verif.PropsOrbitLazy
import Verif.PropsOrbitType
import Verif.PropsOrbitSet
import Verif.PropsOrbitSpeed
import Verif.PropsOrbitEqui
import Verif.PropsOrbitPropagate
import Verif.PropsOrbitFrame
import Verif.PropsOrbitDerived
import Verif.PropsOrbitReturns
import Verif.PropsOrbitInit
import Verif.PropsOrbitRaise
import Verif.PropsOrbitMotion
import Verif.PropsOrbitDrift
import Verif.Round
import Verif.Binary
import Verif.PropsRound
import Verif.PropsRoundKep
import Verif.PropsRoundFormula
import Verif.LagReal
import Verif.LagConverge
import Verif.PropsConverge
import Verif.PropsConvergeAll
import Verif.PropsDomain
import Verif.PropsRoundElem
import Verif.PropsRoundFinite
import Verif.PropsRoundBoth
import Verif.PropsBroadcast
import Verif.PropsRoundAngle
import Verif.PropsRoundSix
import Verif.PropsOrbitNames
import Verif.PropsOrbitDefault
import Verif.PropsSymmetry
import Verif.PropsOrbitIndep
import Verif.LagHyperReal
import Verif.LagHyper
import Verif.PropsConvergeHyp
import Verif.PropsConvergeIn
import Verif.PropsNewtonOpen
import Verif.PropsOrbitOpen
import Verif.PropsTripMean
import Verif.PropsOrbitAssign
import Verif.PropsOrbitReturn
import Verif.LagContract
import Verif.PropsRoundSolve
import Verif.PropsRoundAnom
import Verif.OrbitKern
import Verif.PropsOrbitRound
import Verif.PropsRoundStumpff
import Verif.PropsRoundRot
import Verif.PropsRoundUnit
import Verif.PropsRoundEqui
import Verif.OrbitHeap
import Verif.PropsOrbitHeap
import Verif.PropsRoundHyper
import Verif.LagHyperRound
import Verif.PropsRoundSolveHyp
import Verif.PropsRoundPar
import Verif.LagRound
import Verif.LagRoundStart
import Verif.PropsRoundSolveEll
import Verif.PropsRoundEllipse
import Verif.PropsOrbitRoundAll
import Verif.PropsOrbitRoundDeg
import Verif.HypNear
import Verif.PropsOrbitRoundHyp
import Verif.LagHyperStep
import Verif.LagHyperFit
import Verif.PropsRoundHypAll
import Verif.PropsRoundResolve
import Verif.PropsOrbitRoundHypDeg
import Verif.RoundAngleDist
import Verif.PropsCartBack
import Verif.PropsCartMotion
import Verif.RoundSpecial
import Verif.CartAligned
import Verif.CartSpecial
import Verif.PropsCartSpecial
import Verif.PropsCartMotionSpecial
import Verif.CartDeg
import Verif.PropsCartDeg
import Verif.PropsCartMotionDeg
import Verif.CartHyp
import Verif.PropsCartHyp
import Verif.CartHypMove
import Verif.PropsCartHypMotion
import Verif.PropsCartHypMotionDeg
import Verif.PropsCartHypRun
import Verif.PropsCartHypRunDeg
import Verif.PropsSteps
import Verif.PropsDrift
