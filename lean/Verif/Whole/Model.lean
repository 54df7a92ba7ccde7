import Verif.World.Model
import Verif.ScanAdder.Model
import Verif.PlainMap.Model
import Verif.LazyMap.Model
import Verif.Dump.Model

/-!
# The whole single-hypothesis SLAM

A laser scan observer (src/ros/laser_scan_observer.h) feeds a world
(src/core/states/single_state_hypothesis_laser_scan_grid_world.h) whose map is filled by a scan adder
(src/core/maps/grid_map_scan_adders.h) and shown by a publisher (src/ros/occupancy_grid_publisher.h). The parts are the
models of the other topics; here they are composed as the program composes them.

The map is any of the two growing implementations (`MapApi`). The scan matcher is arbitrary: each message brings a
function that gives its answer for the scan, the pose and the map it is called with (`none`: undefined behaviour); it does
not change the contents of the map.
-/

set_option autoImplicit false
set_option linter.unusedSectionVars false

namespace Slam.Whole
open Slam.Grid Slam.Cells Slam.Poses Slam.Sensor Slam.Score Slam.ScanAdder Slam.Worlds

/-- What the program does with a map: `operator[]` and `update`, src/core/maps/grid_map.h:41-46, 62. -/
structure MapApi (C M : Type) where
  read : M → Coord → Option C
  update : M → Coord → Aoo ℝ → Option M

/-- `UnboundedPlainGridMap`, src/core/maps/plain_grid_map.h:49-190 (topic PlainMap). -/
def plainApi {C : Type} (rate : Nat → ℚ) (upd : C → Aoo ℝ → C) : MapApi C (PlainMap.PMap C) where
  read := PlainMap.PMap.readUnbounded
  update m c o := PlainMap.stepUnbounded rate upd m (.update c o)

/-- `UnboundedLazyTiledGridMap`, src/core/maps/lazy_tiled_grid_map.h:122-187 (topic LazyMap): the heap with the map as its
first object. -/
def lazyApi {C : Type} (S : Nat) (upd : C → Aoo ℝ → C) : MapApi C (LazyMap.St C) where
  read st c := LazyMap.readL S st 0 c
  update st c o := LazyMap.stepL S upd st (.update 0 c o)

/-- Several updates, one after another. -/
def MapApi.tellAll {C M : Type} (api : MapApi C M) (m : M) : List (Coord × Aoo ℝ) → Option M
  | [] => some m
  | u :: us => (api.update m u.1 u.2).bind fun m => api.tellAll m us

/-- The configuration: the map's implementation and scale, the scan adder, the world's properties, the observer's switch
`_skip_max_vals` and its tolerance `deg2rad(0.001)`; `ok` and `fuel` as in `Line.worldToCells`. -/
structure Cfg (C M : Type) where
  api : MapApi C M
  scale : ℝ
  adder : Adder ℝ
  ok : Int → Bool
  fuel : Nat
  props : Worlds.Props ℝ
  skipMax : Bool
  tol : ℝ

/-- The state: `_prev_pose` of the observer, laser_scan_observer.h:92, the pose and the map of the world, and the
histogram of the quality estimator (`none`: `IdleOMQE`), grid_map_scan_adders.h:25-44. -/
structure St (M : Type) where
  odom : Pose ℝ
  pose : Pose ℝ
  map : M
  hist : Option Hist

/-- One message: the odometry pose, the scan, and the scan matcher's answer. -/
structure Datum (M : Type) where
  odom : Pose ℝ
  msg : Msg ℝ
  matcher : List ScanPoint → Pose ℝ → M → Option (Delta ℝ)

/-- The points of the scan, laser_scan_observer.h:64-66 (a factor of 1 is the default, sensor_data.h:16-17). A NaN range
is undefined behaviour as soon as the point is located in the map: `none`. -/
def scanOf : List (Worlds.Point ℝ) → Option (List ScanPoint)
  | [] => some []
  | p :: ps => p.range.bind fun r => (scanOf ps).map (.polar r p.angle p.occupied 1 :: ·)

/-- `_omqe->reset(scan)` and `_omqe->quality(points, i)`, grid_map_scan_adders.h:62, 70. -/
noncomputable def qualityOf (scan : List ScanPoint) : Option Hist → Option (Option Hist × (Nat → Option ℝ))
  | none => some (none, idleQuality)
  | some h => (h.reset scan).map fun h => (some h, ahrQuality h scan)

/-- `append_scan`, grid_map_scan_adders.h:54-75, on the map. -/
noncomputable def Cfg.append {C M : Type} (cfg : Cfg C M) (hist : Option Hist) (m : M) (pose : Pose ℝ)
    (scan : List ScanPoint) (quality : ℝ) (margin : Nat) : Option (M × Option Hist) :=
  if scan.isEmpty then some (m, hist)
  else
    (qualityOf scan hist).bind fun q =>
      (cfg.adder.appendScan cfg.ok cfg.fuel cfg.scale ⟨pose.x, pose.y⟩ q.2 quality (margin : ℝ)
        (worldPoints ⟨pose.x, pose.y, pose.theta⟩ scan)).bind fun us =>
        (cfg.api.tellAll m us).map fun m => (m, q.1)

/-- `handle_transformed_msg`, laser_scan_observer.h:28-38, `handle_sensor_data`, laser_scan_grid_world.h:26-32, and
`handle_observation`, single_state_hypothesis_laser_scan_grid_world.h:52-65. -/
noncomputable def St.handle {C M : Type} (cfg : Cfg C M) (s : St M) (d : Datum M) : Option (St M) :=
  (msg2scan d.msg cfg.skipMax cfg.tol).bind fun pts =>
    (scanOf pts).bind fun scan =>
      let p := s.pose.add (observerStep s.odom d.odom).2
      (d.matcher scan p s.map).bind fun c =>
        let p' := p.add c
        let q := if c.toBool then cfg.props.localizedQuality else cfg.props.rawQuality
        (cfg.append s.hist s.map p' scan q cfg.props.margin).map fun r => ⟨(observerStep s.odom d.odom).1, p', r.1, r.2⟩

/-- A history of messages. -/
noncomputable def St.run {C M : Type} (cfg : Cfg C M) (s : St M) : List (Datum M) → Option (St M)
  | [] => some s
  | d :: ds => (s.handle cfg d).bind fun s => s.run cfg ds

/-- What the publisher and the dumpers read from the map, src/ros/occupancy_grid_publisher.h:24-48: its size and origin,
and `(double) map[c]` for a cell `c`, where `value` is the conversion of a cell, src/core/maps/grid_cell.h:18. -/
def MapApi.shown {C M : Type} (api : MapApi C M) (m : M) (width height : Int) (origin : Coord) (scale : ℝ)
    (value : C → ℝ) : Dump.MapView ℝ :=
  ⟨width, height, origin, scale, fun c => ((api.read m c).map value).getD 0⟩

end Slam.Whole
