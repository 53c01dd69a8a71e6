import Verif.Basic
import Verif.Scalar
import Verif.Matrix
import Verif.MatrixLemmas
import Verif.MatrixSpec
import Verif.Sparse
import Verif.SparseLemmas
import Verif.SparseSpec
import Verif.SparseReal
import Verif.SparseScale
import Verif.Api
import Verif.Real
import Verif.Spec
import Verif.PropsMatrix
import Verif.PropsSparse
import Verif.Sle
import Verif.SleSpec
import Verif.GaussSeidel
import Verif.GsSolve
import Verif.GaussElim
import Verif.GeSolve
import Verif.CgPure
import Verif.Cg
import Verif.CgSolve
import Verif.Frames
import Verif.SleInv
import Verif.Setup
import Verif.GsPure
import Verif.SleProps
import Verif.PropsSle
import Verif.State
import Verif.Ode
import Verif.StateLemmas
import Verif.OdeLemmas
import Verif.OdeRun
import Verif.StateSpec
import Verif.OdeProps
import Verif.PropsState
import Verif.PropsOde
import Verif.Constraint
import Verif.ConstraintLemmas
import Verif.ConstraintAgree
import Verif.PropsConstraint
import Verif.Force
import Verif.ForceLemmas
import Verif.ForceSpec
import Verif.PropsForce
import Verif.World
import Verif.WorldHist
import Verif.WorldFrame
import Verif.WorldReg
import Verif.WorldProf
import Verif.PropsWorld
import Verif.WorldRows
import Verif.WorldAsm
import Verif.WorldState
import Verif.WorldPop
import Verif.SolveRun
import Verif.WorldEval
import Verif.WorldInv
import Verif.WorldDtor
import Verif.WorldStep
import Verif.WorldProc
import Verif.WorldObj
import Verif.WorldRun
import Verif.WorldMove
import Verif.WorldBuild
import Verif.WorldDemo
import Verif.SolveGen
import Verif.WorldAsmGen
import Verif.WorldGen
import Verif.OdeKeep
import Verif.WorldGenStep
import Verif.WorldGenObj
import Verif.WorldGenMove
import Verif.PropsStep
import Verif.PropsMotion
import Verif.PropsRepeat
import Verif.PropsGeneric
import Verif.PropsDtor
import Verif.WorldEnergy
import Verif.PropsEnergy
import Verif.WorldSafe
import Verif.WorldSync
import Verif.PropsSafe
import Verif.WorldDrift
import Verif.PropsDrift
import Verif.WorldIdle
import Verif.PropsIdle
import Verif.Twin
import Verif.TwinSle
import Verif.TwinState
import Verif.TwinOde
import Verif.TwinAsm
import Verif.TwinWorld
import Verif.TwinHist
import Verif.PropsTwin
import Verif.PropsConfig
import Verif.PropsMany
import Verif.WorldFollow
import Verif.WorldView
import Verif.WorldSeen
import Verif.PropsView
import Verif.WorldPart
import Verif.PropsPart
import Verif.PropsStatic
import Verif.PropsSplit
import Verif.PropsLeast
import Verif.PropsSuper
import Verif.WorldUnits
import Verif.WorldScaled
import Verif.PropsUnits
import Verif.GsConverge
import Verif.PropsGs
import Verif.WorldMore
import Verif.PropsMore
import Verif.WorldGs
import Verif.WorldActs
import Verif.PropsGsWorld
import Verif.WorldExact
import Verif.PropsExact
import Verif.PropsPassive
import Verif.WorldSlip
import Verif.PropsSlip
import Verif.WorldRk
import Verif.WorldOde
import Verif.PropsOdeWorld
import Verif.LipAt
import Verif.Converge
import Verif.FieldSmooth
import Verif.WorldField
import Verif.WorldConverge
import Verif.PropsConverge
import Verif.Flow
import Verif.WorldDamped
import Verif.PropsDamped
import Verif.PropsBody
import Verif.Project
import Verif.WorldProject
import Verif.PropsHeld
import Verif.WorldMech
import Verif.PropsMech
import Verif.PropsAgree
import Verif.PropsSpin
import Verif.Noise
import Verif.WorldNoise
import Verif.WorldGsNoise
import Verif.PropsNoise
import Verif.Attach
import Verif.PropsAttach
import Verif.PropsNew
import Verif.PropsRedundant
import Verif.Round
import Verif.RoundMem
import Verif.RoundState
import Verif.RoundCon
import Verif.RoundGe
import Verif.RoundGs
import Verif.RoundCg
import Verif.RoundOde
import Verif.RoundWorld
import Verif.RoundProc
import Verif.RoundHist
import Verif.RoundTies
import Verif.RoundClose
import Verif.RoundFormat
import Verif.PropsRound
import Verif.Local
import Verif.Systems
import Verif.PropsLocal
import Verif.Shared
import Verif.PropsShared
import Verif.PropsBound
import Verif.PropsGsFree
import Verif.Release
import Verif.ReleaseInv
import Verif.ReleaseRun
import Verif.PropsRelease
import Verif.PropsKeep
import Verif.MatrixRelease
import Verif.SparseRelease
import Verif.PropsMatrixRelease
import Verif.WorldSpring
import Verif.PropsSpring
import Verif.WorldIgnore
import Verif.PropsIgnore
import Verif.WorldEuler
import Verif.PropsEuler
import Verif.PropsRkSpring
import Verif.PropsStiff
import Verif.PropsDamper
import Verif.PropsMotor
import Verif.WorldSettle
import Verif.PropsSettle
import Verif.PropsParticle
import Verif.PropsEngage
import Verif.PropsLimits
import Verif.PropsHoldFast
import Verif.PropsTorqueBudget
import Verif.PropsWeakLink
import Verif.PropsCrush
import Verif.PropsRigidGs
import Verif.PropsUnlimited
import Verif.PropsParked
import Verif.PropsSign
