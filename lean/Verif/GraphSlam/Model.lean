import Verif.Whole.Fixed

/-!
# C106: the graph SLAM world (`src/slams/graph/graph_slam_world.h`)

The executable is switched off (CMakeLists.txt:35, 46), and the class inherits from `LaserScanGridWorld<PoseGraphMap>`, which is
no longer a template. The model takes `handle_sensor_data` of the base class as it is (laser_scan_grid_world.h:26-32): advance the
pose, `handle_observation`, notify.
-/

set_option autoImplicit false
set_option linter.unusedSectionVars false

namespace Slam.GraphSlam
open Slam.Grid Slam.Cells Slam.Poses Slam.Sensor Slam.Score Slam.ScanAdder Slam.Worlds Slam.Matcher Slam.Whole

/-- The configuration: `gmsa`, `gsm` and `scan_margin` of the properties (graph_slam_world.h:40-42; the remaining properties are
not used), the observer's switch and tolerance, and `ok`, `fuel` as in `Whole.Cfg`. -/
structure GraphCfg (T : Type) where
  adder : Adder ℝ
  ok : Int → Bool
  fuel : Nat
  margin : Nat
  machine : Machine (BaseCell ℝ) T
  skipMax : Bool
  tol : ℝ

variable {T : Type}

/-- How a scan is put into the rasterised map: `append_scan` on a `PlainGridMap` with cells of 0.1,
graph_slam_world.h:48-53. -/
noncomputable def GraphCfg.slam (cfg : GraphCfg T) : Whole.Cfg (BaseCell ℝ) (PlainMap.PMap (BaseCell ℝ)) where
  api := boundedApi BaseCell.observe
  scale := 1 / 10
  adder := cfg.adder
  ok := cfg.ok
  fuel := cfg.fuel
  props := ⟨1, 1, cfg.margin⟩
  skipMax := cfg.skipMax
  tol := cfg.tol

/-- The empty map of 1000 x 1000 cells `GridCell{Occupancy{0, 0}}`, graph_slam_world.h:48-50. -/
noncomputable def blank : PlainMap.PMap (BaseCell ℝ) := PlainMap.create 1000 1000 (BaseCell.create (some ⟨0, 0⟩))

/-- `rasterized_last`, graph_slam_world.h:48-53: the last scan, with its quality of 1 (src/ros/laser_scan_observer.h:43), seen from
the negated odometry increment of the current one. -/
noncomputable def GraphCfg.raster (cfg : GraphCfg T) (hist : Option Hist) (delta : Delta ℝ) (last : List ScanPoint) :
    Option (PlainMap.PMap (BaseCell ℝ) × Option Hist) :=
  cfg.slam.append hist blank delta.neg last 1 cfg.margin

/-- What the matcher sees of it: `has_cell` src/core/maps/regular_squares_grid.h:124-126, `operator[]` plain_grid_map.h:27-31. -/
noncomputable def rasterView (m : PlainMap.PMap (BaseCell ℝ)) : Matcher.View (BaseCell ℝ) :=
  ⟨⟨m.width, m.height⟩, m.origin, 1 / 10, fun c => (Dims.mk m.width m.height).hasCell m.origin c, m.readBounded⟩

/-- The state: `_prev_pose` of the observer (src/ros/laser_scan_observer.h:92), the pose of the world (world.h:94), `_last_scan`,
the accumulated motion of `_nco`, `_pose_graph` (graph_slam_world.h:29, 78-80), and what the scan adder and the scan matcher keep. -/
structure GraphSt (T : Type) where
  odom : Pose ℝ
  pose : Pose ℝ
  last : Option (List ScanPoint)
  acc : Delta ℝ
  graph : Graph ℝ
  hist : Option Hist
  weights : Spw
  state : T

/-- The state of a newly created world, graph_slam_world.h:40-42, world.h:94. -/
noncomputable def GraphSt.start (hist : Option Hist) (weights : Spw) (state : T) : GraphSt T :=
  ⟨Pose.zero, Pose.zero, none, Pose.zero, Graph.empty, hist, weights, state⟩

/-- `estimate_pose_delta`, graph_slam_world.h:44-57: the correction, and what adder and matcher keep. There is no `reset_state`. -/
noncomputable def GraphCfg.estimate (cfg : GraphCfg T) (hist : Option Hist) (weights : Spw) (state : T) (delta : Delta ℝ)
    (last scan : List ScanPoint) : Option (Delta ℝ × Option Hist × Spw × T) :=
  (cfg.raster hist delta last).bind fun r =>
    (cfg.machine.process (rasterView r.1) weights state scan Pose.zero).map fun a => (a.2.2.1, r.2, a.1, a.2.1)

/-- The refinement of the pose, graph_slam_world.h:60-64: none for the first scan. -/
noncomputable def GraphCfg.refine (cfg : GraphCfg T) (s : GraphSt T) (delta : Delta ℝ) (scan : List ScanPoint) :
    Option (Delta ℝ × Option Hist × Spw × T) :=
  match s.last with
  | none => some (Pose.zero, s.hist, s.weights, s.state)
  | some last => cfg.estimate s.hist s.weights s.state delta last scan

/-- `handle_transformed_msg`, src/ros/laser_scan_observer.h:28-38, `handle_sensor_data`,
src/core/states/laser_scan_grid_world.h:26-32, and `handle_observation`, graph_slam_world.h:59-72, with limits of 0.5. -/
noncomputable def GraphSt.handle (cfg : GraphCfg T) (s : GraphSt T) (d : Pose ℝ × Msg ℝ) : Option (GraphSt T) :=
  (msg2scan d.2 cfg.skipMax cfg.tol).bind fun pts =>
    (scanOf pts).bind fun scan =>
      let delta := (observerStep s.odom d.1).2
      (cfg.refine s delta scan).bind fun r =>
        let p := (s.pose.add delta).add r.1
        let o := oracle ⟨1 / 2, 1 / 2, 1 / 2⟩ s.acc delta
        (if o.2 then s.graph.addNode p else some s.graph).map fun g =>
          ⟨(observerStep s.odom d.1).1, p, some scan, o.1, g, r.2.1, r.2.2.1, r.2.2.2⟩

/-- A history of messages. -/
noncomputable def GraphSt.run (cfg : GraphCfg T) (s : GraphSt T) : List (Pose ℝ × Msg ℝ) → Option (GraphSt T)
  | [] => some s
  | d :: ds => (s.handle cfg d).bind fun s => s.run cfg ds

end Slam.GraphSlam
