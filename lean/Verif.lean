import Verif.Model.Basic
import Verif.Model.Engine
import Verif.Spec.Tree
import Verif.Proofs.Engine
import Verif.Props.Engine
import Verif.Model.Simulator
import Verif.Proofs.Basic
import Verif.Spec.Sim
import Verif.Proofs.Sim1
import Verif.Proofs.Sim2
import Verif.Proofs.Returned
import Verif.Proofs.Sim3
import Verif.Props.Sim
import Verif.Props.SimWitness
import Verif.Model.Tree
import Verif.Spec.ATree
import Verif.Proofs.ATree
import Verif.Proofs.ATree2
import Verif.Props.Tree
import Verif.Model.Contains
import Verif.Spec.Contains
import Verif.Proofs.Contains
import Verif.Proofs.Contains2
import Verif.Proofs.Contains3
import Verif.Props.Contains
import Verif.Model.Ast
import Verif.Model.Parser
import Verif.Spec.Python
import Verif.Spec.Naming
import Verif.Spec.NoTwin
import Verif.Spec.Decision
import Verif.Proofs.Parser1
import Verif.Proofs.Parser2
import Verif.Proofs.Parser3
import Verif.Proofs.Parser4
import Verif.Proofs.Parser5
import Verif.Proofs.Parser6
import Verif.Proofs.Parser7
import Verif.Props.ParserWitness
import Verif.Props.Parser
import Verif.Spec.Switching
import Verif.Proofs.Parser8
import Verif.Model.Guard
import Verif.Spec.Guard
import Verif.Proofs.Guard1
import Verif.Proofs.Guard2
import Verif.Proofs.Guard3
import Verif.Proofs.Guard4
import Verif.Model.Lane
import Verif.Spec.Lane
import Verif.Proofs.Lane
import Verif.Model.Road
import Verif.Props.Lane
import Verif.Props.Guard
import Verif.Model.Maps
import Verif.Props.Maps
import Verif.Spec.Rect
import Verif.Model.Rect
import Verif.Proofs.Rect
import Verif.Props.Rect
import Verif.Model.Reset
import Verif.Spec.Reset
import Verif.Proofs.Reset
import Verif.Props.Reset
import Verif.Model.Verifier
import Verif.Spec.Verifier
import Verif.Proofs.Verifier1
import Verif.Proofs.Verifier2
import Verif.Props.Verifier
import Verif.Props.VerifierEx
import Verif.Proofs.Verifier3
import Verif.Props.Verifier2
import Verif.Model.Partitioned
import Verif.Proofs.Verifier4
import Verif.Spec.Partitioned
import Verif.Props.Partitioned
import Verif.Model.Incremental
import Verif.Proofs.Incremental
import Verif.Proofs.Incremental2
import Verif.Props.Incremental
import Verif.Proofs.FullTube
import Verif.Props.FullTube
import Verif.Model.Scenario
import Verif.Spec.Scenario
import Verif.Proofs.Scenario
import Verif.Props.Scenario
import Verif.Model.FixedPoint
import Verif.Spec.FixedPoint
import Verif.Proofs.FixedPoint
import Verif.Proofs.FixedPoint2
import Verif.Proofs.FixedPoint3
import Verif.Props.FixedPoint
import Verif.Model.Utils
import Verif.Props.Utils
import Verif.Model.Sensor
import Verif.Spec.Sensor
import Verif.Proofs.Sensor
import Verif.Props.Sensor
import Verif.Model.Dryvr
import Verif.Spec.Dryvr
import Verif.Proofs.Dryvr
import Verif.Props.Dryvr
import Verif.Model.DryvrGlobal
import Verif.Spec.DryvrGlobal
import Verif.Proofs.DryvrGlobal
import Verif.Props.DryvrGlobal
import Verif.Model.MixMono
import Verif.Spec.MixMono
import Verif.Props.MixMono
import Verif.Model.MixCont
import Verif.Spec.MixCont
import Verif.Proofs.MixCont
import Verif.Proofs.MixCont2
import Verif.Props.MixCont
import Verif.Props.Star
import Verif.Props.StarReset
import Verif.Props.Angular
import Verif.Props.Span
import Verif.Props.Piecewise
import Verif.Props.ParserWrap
import Verif.Props.ParserLists
import Verif.Props.Execution
import Verif.Props.StarGuard
import Verif.Props.SimSimple
import Verif.Props.Unparse
import Verif.Model.Lane3d
import Verif.Spec.Lane3d
import Verif.Proofs.Lane3d
import Verif.Proofs.Lane3dB
import Verif.Props.Lane3d
import Verif.Model.Map3d
import Verif.Spec.Map3d
import Verif.Proofs.Map3d
import Verif.Props.Map3d
import Verif.Props.Neighbour3d
import Verif.Spec.Both
import Verif.Proofs.Both
import Verif.Props.Both
import Verif.Props.BothEx
import Verif.Spec.Safe
import Verif.Proofs.Safe
import Verif.Props.Safe
import Verif.Model.Assembled
import Verif.Spec.Assembled
import Verif.Proofs.Assembled
import Verif.Proofs.Assembled2
import Verif.Proofs.Assembled3
import Verif.Proofs.Assembled4
import Verif.Proofs.Shapes
import Verif.Proofs.Assembled5
import Verif.Proofs.Assembled6
import Verif.Props.Assembled
import Verif.Props.AssembledEx
import Verif.Spec.Crossing
import Verif.Proofs.Crossing
import Verif.Props.Crossing
import Verif.Props.CrossingEx
import Verif.Spec.Between
import Verif.Proofs.Steps
import Verif.Proofs.Between
import Verif.Props.Between
import Verif.Props.BetweenEx
import Verif.Spec.TrackMode
import Verif.Proofs.TrackMode
import Verif.Model.PackEnv
import Verif.Spec.PackEnv
import Verif.Proofs.PackEnv
import Verif.Props.PackEnv
import Verif.Model.Agents
import Verif.Spec.Agents
import Verif.Proofs.Agents
import Verif.Proofs.AgentsEx
import Verif.Props.Agents
import Verif.Proofs.Cars
import Verif.Props.Cars
import Verif.Props.IncDropped
import Verif.Props.Session
import Verif.Model.Plot
import Verif.Spec.Plot
import Verif.Proofs.Plot
import Verif.Proofs.Plot2
import Verif.Props.Plot
import Verif.Props.PlotTime
import Verif.Model.ExampleSensors
import Verif.Props.ExampleSensors
import Verif.Props.ResetCorners
import Verif.Model.Diameter
import Verif.Spec.Diameter
import Verif.Proofs.Diameter
import Verif.Props.Diameter
import Verif.Props.DiameterSteps
import Verif.Model.SensorParser
import Verif.Props.SensorParser
import Verif.Model.LaneQueries
import Verif.Props.LaneQueries
import Verif.Model.RangeError
import Verif.Spec.RangeSensor
import Verif.Proofs.RangeError
import Verif.Props.RangeError
import Verif.Model.OpenDrive
import Verif.Spec.OpenDrive
import Verif.Proofs.OpenDrive
import Verif.Props.OpenDrive
import Verif.Model.Reading
import Verif.Spec.Reading
import Verif.Proofs.Reading
import Verif.Proofs.Reading2
import Verif.Props.Source
import Verif.Props.SourceVerify
import Verif.Props.SourceEx
import Verif.Model.MixText
import Verif.Spec.MixText
import Verif.Proofs.MixText
import Verif.Props.MixText
import Verif.Model.Diams
import Verif.Spec.Diams
import Verif.Proofs.Diams
import Verif.Proofs.Diams2
import Verif.Props.Diams
import Verif.Model.Tracks
import Verif.Spec.Tracks
import Verif.Props.Tracks
import Verif.Model.Sampling
import Verif.Props.Sampling
import Verif.Props.SourceMap
import Verif.Model.Quadrotor
import Verif.Spec.Quadrotor
import Verif.Proofs.Quadrotor
import Verif.Props.Quadrotor
import Verif.Spec.PartExec
import Verif.Proofs.PartExec
import Verif.Props.PartExec
import Verif.Model.TorchText
import Verif.Spec.TorchText
import Verif.Props.TorchText
import Verif.Model.RayDist
import Verif.Spec.RayDist
import Verif.Props.RayDist
import Verif.Model.Loop3d
import Verif.Spec.Loop3d
import Verif.Proofs.Loop3d
import Verif.Props.Loop3d
import Verif.Model.IrText
import Verif.Spec.IrText
import Verif.Proofs.IrText
import Verif.Props.IrText
import Verif.Model.Video
import Verif.Spec.Video
import Verif.Proofs.Video
import Verif.Props.Video
import Verif.Model.DrawMap
import Verif.Spec.DrawMap
import Verif.Proofs.DrawMap
import Verif.Props.DrawMap
import Verif.Model.StarPlot
import Verif.Spec.StarPlot
import Verif.Proofs.StarPlot
import Verif.Props.StarPlot
import Verif.Model.LaneConfig
import Verif.Spec.LaneConfig
import Verif.Proofs.LaneConfig
import Verif.Props.LaneConfig
import Verif.Model.Plot3d
import Verif.Spec.Plot3d
import Verif.Proofs.Plot3d
import Verif.Props.Plot3d
import Verif.Model.Classes
import Verif.Spec.Classes
import Verif.Proofs.Classes
import Verif.Props.Classes
import Verif.Model.Bench
import Verif.Spec.Bench
import Verif.Proofs.Bench
import Verif.Props.Bench
import Verif.Model.Static
import Verif.Spec.Static
import Verif.Proofs.Static
import Verif.Props.Static
import Verif.Model.StarInc
import Verif.Spec.StarInc
import Verif.Proofs.StarInc
import Verif.Props.StarInc
import Verif.Model.Levels
import Verif.Spec.Levels
import Verif.Proofs.Levels
import Verif.Props.Levels
import Verif.Model.Falling
import Verif.Spec.Falling
import Verif.Proofs.Falling
import Verif.Props.Falling
import Verif.Props.MapCalls
import Verif.Props.LaneMore
import Verif.Props.PiecewiseMore
