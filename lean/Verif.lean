import Verif.Lemmas.Build
import Verif.Lemmas.Carry
import Verif.Lemmas.Collision
import Verif.Lemmas.Compile
import Verif.Lemmas.Component
import Verif.Lemmas.Contact
import Verif.Lemmas.Edit
import Verif.Lemmas.Frame
import Verif.Lemmas.FromMat
import Verif.Lemmas.JointEval
import Verif.Lemmas.JointInv
import Verif.Lemmas.Joints
import Verif.Lemmas.Kind
import Verif.Lemmas.KindStep
import Verif.Lemmas.LocalIK
import Verif.Lemmas.Look
import Verif.Lemmas.MinFlow
import Verif.Lemmas.Motion
import Verif.Lemmas.MotionAxes
import Verif.Lemmas.New
import Verif.Lemmas.ObjInv
import Verif.Lemmas.Pipeline
import Verif.Lemmas.Problem
import Verif.Lemmas.QuatRate
import Verif.Lemmas.Rot
import Verif.Lemmas.Screw
import Verif.Lemmas.Settings
import Verif.Lemmas.Shift
import Verif.Lemmas.SimData
import Verif.Lemmas.Smooth
import Verif.Lemmas.Spin
import Verif.Lemmas.Structure
import Verif.Lemmas.Tree
import Verif.Lemmas.Turning
import Verif.Lemmas.Twist
import Verif.Lemmas.Visualize
import Verif.Lemmas.Vmap
import Verif.Lemmas.World
import Verif.Model.Arr
import Verif.Model.Collision
import Verif.Model.Component
import Verif.Model.CopySet
import Verif.Model.Data
import Verif.Model.Eval
import Verif.Model.GlobalIK
import Verif.Model.Lie
import Verif.Model.LocalIK
import Verif.Model.MjModel
import Verif.Model.Problem
import Verif.Model.RealFns
import Verif.Model.SimEquality
import Verif.Model.SimWeld
import Verif.Model.Simulator
import Verif.Model.Video
import Verif.Model.Visualize
import Verif.Model.Vmap
import Verif.Props.Accept
import Verif.Props.Approx
import Verif.Props.AutoJacobian
import Verif.Props.Batch
import Verif.Props.BodyMotion
import Verif.Props.Cache
import Verif.Props.Carry
import Verif.Props.CarryEx
import Verif.Props.ClosedLoop
import Verif.Props.Collision
import Verif.Props.CollisionFlow
import Verif.Props.CollisionSampled
import Verif.Props.CollisionSampledEx
import Verif.Props.Compiles
import Verif.Props.Control
import Verif.Props.Converge
import Verif.Props.CopySet
import Verif.Props.Descent
import Verif.Props.Distance
import Verif.Props.Energy
import Verif.Props.EnergyEx
import Verif.Props.EnergyFlow
import Verif.Props.Equality
import Verif.Props.Flow
import Verif.Props.Follow
import Verif.Props.FrameMotion
import Verif.Props.FrameTarget
import Verif.Props.FrameTask
import Verif.Props.GlobalIK
import Verif.Props.GlobalSteps
import Verif.Props.History
import Verif.Props.Integrate
import Verif.Props.JointMask
import Verif.Props.Kinematics
import Verif.Props.Lie
import Verif.Props.LocalIK
import Verif.Props.Look
import Verif.Props.Loop
import Verif.Props.LoopClosure
import Verif.Props.LoopClosureEx
import Verif.Props.Measure
import Verif.Props.Nudge
import Verif.Props.Objects
import Verif.Props.Optimum
import Verif.Props.PairOrder
import Verif.Props.Priority
import Verif.Props.PriorityEx
import Verif.Props.Problem
import Verif.Props.Rest
import Verif.Props.RestEx
import Verif.Props.RobotFlow
import Verif.Props.RobotJacobian
import Verif.Props.RobotSampled
import Verif.Props.RobotSampledEx
import Verif.Props.Running
import Verif.Props.RunningRobot
import Verif.Props.RunningRobotEx
import Verif.Props.Sampled
import Verif.Props.SampledEx
import Verif.Props.SelfCollision
import Verif.Props.Setters
import Verif.Props.Settings
import Verif.Props.Sizes
import Verif.Props.Slack
import Verif.Props.SlackEx
import Verif.Props.Solvable
import Verif.Props.Spheres
import Verif.Props.Steer
import Verif.Props.Structure
import Verif.Props.StructureEx
import Verif.Props.Teams
import Verif.Props.TeamsEx
import Verif.Props.TeamsOwn
import Verif.Props.TeamsOwnEx
import Verif.Props.Tempo
import Verif.Props.TempoEx
import Verif.Props.Uniqueness
import Verif.Props.Video
import Verif.Props.VisRetry
import Verif.Props.Visualize
import Verif.Props.VisualizeModel
import Verif.Props.VisualizeXml
import Verif.Props.Vmap
import Verif.Props.WeldClosure
import Verif.Props.WeldClosureEx
import Verif.Spec.Accept
import Verif.Spec.Approx
import Verif.Spec.Batch
import Verif.Spec.Carry
import Verif.Spec.Collision
import Verif.Spec.CollisionFlow
import Verif.Spec.Compiles
import Verif.Spec.Component
import Verif.Spec.Control
import Verif.Spec.Converge
import Verif.Spec.CopySet
import Verif.Spec.Deriv
import Verif.Spec.Descent
import Verif.Spec.Energy
import Verif.Spec.ExEnv
import Verif.Spec.Examples
import Verif.Spec.Flow
import Verif.Spec.Follow
import Verif.Spec.Global
import Verif.Spec.History
import Verif.Spec.Joints
import Verif.Spec.Look
import Verif.Spec.Loop
import Verif.Spec.Loops
import Verif.Spec.Motion
import Verif.Spec.Optimum
import Verif.Spec.Pose
import Verif.Spec.Priority
import Verif.Spec.Problem
import Verif.Spec.QP
import Verif.Spec.Reach
import Verif.Spec.Rest
import Verif.Spec.Running
import Verif.Spec.Sampled
import Verif.Spec.Settings
import Verif.Spec.Sim
import Verif.Spec.Simulator
import Verif.Spec.Slack
import Verif.Spec.Solvable
import Verif.Spec.Steer
import Verif.Spec.Structure
import Verif.Spec.Teams
import Verif.Spec.Tempo
import Verif.Spec.Tree
import Verif.Spec.Video
import Verif.Spec.Visualize
import Verif.Spec.Vmap
import Verif.Spec.Watched
import Verif.Spec.Welds
import Verif.Tests.Unit
