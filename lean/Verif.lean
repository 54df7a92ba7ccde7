import Verif.Grid.Props
import Verif.Line.Props
import Verif.Line.Exact
import Verif.PlainMap.Props
import Verif.LazyMap.Props
import Verif.LazyMap.Alias
import Verif.Cells.Props
import Verif.Tbm.Props
import Verif.Rect.Props
import Verif.Rect.Raster
import Verif.Serial.Props
import Verif.Pose.Props
import Verif.ScanMatch.Driver
import Verif.ScanMatch.BruteForce
import Verif.ScanMatch.HillClimb
import Verif.ScanMatch.MonteCarlo
import Verif.ScanMatch.Fixed
import Verif.Particle.Props
import Verif.Particle.Master
import Verif.Particle.Noise
import Verif.Particle.Odometry
import Verif.World.Props
import Verif.World.Cache
import Verif.Sensor.Props
import Verif.Score.Hist
import Verif.Score.Props
import Verif.Score.Area
import Verif.Multires.PyramidProps
import Verif.Multires.Bound
import Verif.Multires.EngineMatcher
import Verif.Multires.Admissible
import Verif.Multires.Branching
import Verif.Multires.Kinds
import Verif.Multires.Growth
import Verif.Multires.OneMatch
import Verif.Multires.Levels
import Verif.ScanAdder.Whole
import Verif.ScanAdder.Exact
import Verif.Estimator.Props
import Verif.Estimator.Parts
import Verif.Estimator.Area
import Verif.Estimator.Tolerant
import Verif.Estimator.Which
import Verif.Config.Lookup
import Verif.Config.Props
import Verif.Dump.Props
import Verif.Primitive.Props
import Verif.Bag.Props
import Verif.Pub.Props
import Verif.Pub.Threads
import Verif.Drift.Model
import Verif.Drift.Props
import Verif.ScanGen.Model
import Verif.ScanGen.Props
import Verif.ScanGen.RoundTrip
import Verif.Nodes.Model
import Verif.Nodes.Props
import Verif.Nodes.Views
import Verif.Config.Launch
import Verif.Config.AssembleModel
import Verif.Config.Assemble
import Verif.Config.AssembleKnown
import Verif.Estimator.Corner
import Verif.Float.Round
import Verif.Float.Cells
import Verif.Float.Compare
import Verif.Float.Weights
import Verif.Float.Coord
import Verif.Float.Loop
import Verif.Float.Hist
import Verif.Float.Tbm
import Verif.Float.HistAcc
import Verif.Float.Score
import Verif.Float.Required
import Verif.Float.Two
import Verif.Float.Share
import Verif.Float.Single
import Verif.Float.Trig
import Verif.Float.TrigDemo
import Verif.Float.Beam
import Verif.Float.Track
import Verif.Whole.Model
import Verif.Whole.Props
import Verif.Whole.Total
import Verif.Whole.Instances
import Verif.Whole.Gmapping
import Verif.Whole.GmappingProps
import Verif.Whole.GmappingTotal
import Verif.SearchSpace.Model
import Verif.SearchSpace.Props
import Verif.Text.Model
import Verif.Text.Number
import Verif.Text.Props
import Verif.Text.Trajectory
import Verif.Config.Double
import Verif.Matcher.Model
import Verif.Matcher.Props
import Verif.Matcher.MonteCarlo
import Verif.Whole.Own
import Verif.Whole.OwnProps
import Verif.Whole.Configured
import Verif.Whole.ConfiguredProps
import Verif.Whole.OwnBrute
import Verif.Config.ShippedFiles
import Verif.Config.Shipped
import Verif.Whole.Shipped
import Verif.Matcher.FrameAlign
import Verif.Matcher.Stateful
import Verif.Matcher.StatefulClimb
import Verif.Whole.GmappingOwn
import Verif.Whole.GmappingOwnProps
import Verif.Whole.GmappingOwnRun
import Verif.Whole.GmappingOwnTotal
import Verif.Whole.GmappingOwnDemo
import Verif.Whole.GmappingLaunch
import Verif.Matcher.Machine
import Verif.Whole.Machine
import Verif.Whole.MachineLaunch
import Verif.Whole.MachineShipped
import Verif.Whole.Multires
import Verif.Whole.MultiresProps
import Verif.Whole.MultiresLaunch
import Verif.Whole.MultiresShipped
import Verif.Line.Box
import Verif.Matcher.Local
import Verif.Whole.Fixed
import Verif.Whole.FixedProps
import Verif.Whole.FixedLaunch
import Verif.Whole.FixedDemo
import Verif.Runner.Model
import Verif.Runner.Props
import Verif.Runner.Slams
import Verif.Runner.Shipped
import Verif.Config.Provider
import Verif.Config.ProviderProps
import Verif.Config.ProviderShipped
import Verif.Online.Model
import Verif.Online.Props
import Verif.Online.Slams
import Verif.Online.Shipped
import Verif.Matcher.Roam
import Verif.Matcher.RoamReads
import Verif.Whole.Roam
import Verif.Whole.RoamLaunch
import Verif.Online.Roam
import Verif.Online.RoamShipped
import Verif.Runner.Multires
import Verif.Runner.MultiresShipped
import Verif.Online.Multires
import Verif.Online.MultiresShipped
import Verif.Config.NoNumber
import Verif.Random.Model
import Verif.Random.Props
import Verif.Random.MonteCarlo
import Verif.Random.Whole
import Verif.Random.Shipped
import Verif.Random.Particles
import Verif.Random.Copies
import Verif.Random.Filter
import Verif.Random.CopiesDemo
import Verif.Random.Gmapping
import Verif.Random.GmappingDemo
import Verif.Random.GmappingRunner
import Verif.Random.GmappingRunnerDemo
import Verif.Random.Online
import Verif.Random.OnlineShipped
import Verif.GraphSlam.Model
import Verif.GraphSlam.Props
import Verif.GraphSlam.Frame
import Verif.GraphSlam.Total
import Verif.GraphSlam.Demo
import Verif.GraphSlam.Node
import Verif.GraphSlam.NodeProps
import Verif.GraphSlam.NodeDemo
import Verif.GraphSlam.NodeClimb
import Verif.Matcher.RoamAround
import Verif.Whole.FixedRoam
import Verif.Whole.FixedRoamDemo
import Verif.Matcher.Stay
import Verif.Whole.Still
import Verif.Whole.StillClear
import Verif.Whole.StillDemo
import Verif.Whole.StillLaunch
import Verif.Whole.ColdStart
import Verif.Whole.GmStill
import Verif.Whole.FirstScan
import Verif.Whole.FirstScanDemo
import Verif.Whole.GmOwnStill
import Verif.Whole.GmOwnStillDemo
import Verif.Whole.GmLone
import Verif.Whole.GmPair
import Verif.Whole.GmShare
import Verif.Random.ColdStart
import Verif.Random.ColdStartDemo
