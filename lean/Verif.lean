import Verif.Model.SortedContainer
import Verif.Model.Core
import Verif.Spec.Batch
import Verif.Lemmas.SortedContainer
import Verif.Lemmas.Nearest
import Verif.Lemmas.Core
import Verif.Lemmas.Sweep
import Verif.Lemmas.Sweep2
import Verif.Lemmas.Target
import Verif.Lemmas.Entry
import Verif.Lemmas.Inv
import Verif.Lemmas.Inv2
import Verif.Lemmas.BatchEq
import Verif.Lemmas.Order
import Verif.Lemmas.Interp
import Verif.Lemmas.Reject
import Verif.Props.SortedContainer
import Verif.Props.Demo
import Verif.Props.Batch
import Verif.Props.Core
import Verif.Props.Faults
import Verif.Model.Quat
import Verif.Model.Layout
import Verif.Model.State
import Verif.Model.Propagate
import Verif.Model.Fuzzy
import Verif.Model.Update
import Verif.Lemmas.Quat
import Verif.Lemmas.Propagate
import Verif.Lemmas.Layout
import Verif.Props.Propagation
import Verif.Props.Layout
import Verif.Model.Covariance
import Verif.Lemmas.Covariance
import Verif.Props.Covariance
import Verif.Props.CovBlocks
import Verif.Spec.Process
import Verif.Model.CalcQ
import Verif.Model.Predict
import Verif.Lemmas.CalcQ
import Verif.Lemmas.Lyap
import Verif.Lemmas.CalcQSpec
import Verif.Lemmas.CalcQGen
import Verif.Lemmas.Predict
import Verif.Lemmas.Predict2
import Verif.Props.Predict
import Verif.Props.Fuzzy
import Verif.Model.Timing
import Verif.Props.Timing
import Verif.Model.Similarity
import Verif.Model.SphericalHandler
import Verif.Props.SphericalHandler
import Verif.Props.Similarity
import Verif.Props.SimilarityCond
import Verif.Model.Handlers
import Verif.Props.Handlers
import Verif.Model.Gps
import Verif.Lemmas.Gps
import Verif.Props.Gps
import Verif.Model.Sensors
import Verif.Spec.Deriv
import Verif.Lemmas.Sensors
import Verif.Lemmas.Jacobian
import Verif.Props.Jacobian
import Verif.Lemmas.Spherical
import Verif.Props.Spherical
import Verif.Props.PoseSensor
import Verif.Model.StateDefs
import Verif.Model.Managers
import Verif.Lemmas.Managers
import Verif.Lemmas.InitCov
import Verif.Props.Managers
import Verif.Props.InitCov
import Verif.Props.InitMotion
import Verif.Props.AuxNoise
import Verif.Model.FilterKernel
import Verif.Props.FilterKernel
import Verif.Props.FuzzyOrder
import Verif.Props.YawRow
import Verif.Props.RelPose
import Verif.Lemmas.FixedStates
import Verif.Props.FixedStates
import Verif.Spec.Kinematics
import Verif.Lemmas.Jets
import Verif.Lemmas.Kinematics
import Verif.Lemmas.Accuracy
import Verif.Props.Accuracy
import Verif.Lemmas.BufMap
import Verif.Lemmas.CoreForms
import Verif.Lemmas.CoreTimes
import Verif.Lemmas.CoreMap
import Verif.Props.TimeOrigin
import Verif.Lemmas.Translate
import Verif.Props.Readings
import Verif.Props.Translation
import Verif.Lemmas.CoreFlags
import Verif.Props.Flags
import Verif.Lemmas.KernelInv
import Verif.Lemmas.Runs
import Verif.Props.Runs
import Verif.Lemmas.Quiet
import Verif.Lemmas.Early
import Verif.Lemmas.Skeleton
import Verif.Spec.Unchecked
import Verif.Lemmas.Unchecked
import Verif.Props.PoseFilters
import Verif.Props.FuzzyAngle
import Verif.Model.Distort
import Verif.Props.Distort
import Verif.Model.Eval
import Verif.Spec.Eval
import Verif.Lemmas.Eval
import Verif.Props.Eval
import Verif.Props.EvalFrames
import Verif.Model.External
import Verif.Spec.External
import Verif.Lemmas.CoreNewest
import Verif.Lemmas.External
import Verif.Props.External
import Verif.Lemmas.Stamps
import Verif.Lemmas.Memory
import Verif.Props.Stamps
import Verif.Model.Config
import Verif.Model.Publish
import Verif.Spec.Config
import Verif.Lemmas.Config
import Verif.Props.Config
import Verif.Lemmas.RunNumbers
import Verif.Lemmas.StillRun
import Verif.Props.RunNumbers
import Verif.Lemmas.Agree
import Verif.Props.Agree
import Verif.Props.Publish
import Verif.Spec.Heading
import Verif.Spec.TurnPose
import Verif.Lemmas.Yaw
import Verif.Lemmas.Yaw2
import Verif.Props.Heading
import Verif.Props.HeadingDistance
import Verif.Props.HeadingAngle
import Verif.Spec.Signs
import Verif.Lemmas.KernelQuot
import Verif.Lemmas.CalcQSign
import Verif.Lemmas.Signs
import Verif.Props.Signs
import Verif.Model.Relative
import Verif.Lemmas.FlowForms
import Verif.Lemmas.FlowInv
import Verif.Lemmas.FlowMap
import Verif.Lemmas.RelMap
import Verif.Lemmas.ClearIdem
import Verif.Lemmas.RelInv
import Verif.Lemmas.RelRuns
import Verif.Lemmas.FlowAbs
import Verif.Props.Relative
import Verif.Props.RelRuns
import Verif.Lemmas.Safe
import Verif.Lemmas.SafeClosest
import Verif.Lemmas.SafeMeas
import Verif.Lemmas.SafeRel
import Verif.Lemmas.SafeRun
import Verif.Lemmas.SafePrompt
import Verif.Props.Safe
import Verif.Props.Spikes
import Verif.Props.Rejected
import Verif.Props.Init
import Verif.Props.Information
import Verif.Spec.Moments
import Verif.Props.Consistency
import Verif.Props.Cloning
import Verif.Model.PositionHandler
import Verif.Props.PositionHandler
import Verif.Model.PoseSource
import Verif.Lemmas.PoseSource
import Verif.Lemmas.Volume
import Verif.Props.PoseSource
import Verif.Model.Compass
import Verif.Props.Compass
import Verif.Props.Towards
import Verif.Props.TowardsPose
import Verif.Props.Volume
import Verif.Props.TranslationRel
import Verif.Lemmas.RelQuot
import Verif.Props.SignsRel
import Verif.Props.PoseNoise
import Verif.Props.Unobservable
import Verif.Props.UpdateDemo
import Verif.Lemmas.Frame
import Verif.Props.Repeated
import Verif.Spec.LengthUnit
import Verif.Lemmas.LengthUnit
import Verif.Lemmas.LengthUnit2
import Verif.Lemmas.LengthUnit3
import Verif.Lemmas.TurnPose
import Verif.Props.HeadingPose
import Verif.Props.HeadingTest
import Verif.Lemmas.InputMap
import Verif.Lemmas.BiasShift
import Verif.Props.BiasOffset
import Verif.Lemmas.InputSpikes
import Verif.Props.BiasSpikes
import Verif.Lemmas.FlowInput
import Verif.Lemmas.RelInput
import Verif.Props.BiasOffsetRel
import Verif.Lemmas.FlowSpikes
import Verif.Props.BiasSpikesRel
import Verif.Model.QBlock
import Verif.Props.QBlocks
import Verif.Model.Relay
import Verif.Props.Relay
import Verif.Props.LengthUnit
import Verif.Spec.RelJacobian
import Verif.Lemmas.RelJacobian
import Verif.Props.RelJacobian
import Verif.Spec.RelChain
import Verif.Lemmas.RelChain
import Verif.Props.RelChain
import Verif.Lemmas.LengthUnitRel
import Verif.Props.LengthUnitRel
import Verif.Props.SensorIds
import Verif.Lemmas.FlowTimes
import Verif.Lemmas.FlowShift
import Verif.Lemmas.RelShift
import Verif.Props.TimeOriginRel
import Verif.Lemmas.FlowNewest
import Verif.Lemmas.FlowFlags
import Verif.Props.FlagsRel
import Verif.Lemmas.FlowMemory
import Verif.Props.MemoryRel
import Verif.Lemmas.FlowEarly
import Verif.Lemmas.FlowWaits
import Verif.Lemmas.FlowEarlyOut
import Verif.Lemmas.FlowQueue
import Verif.Lemmas.FlowSeveral
import Verif.Props.Early
