import Verif.Whole.Props
import Verif.Matcher.Model

/-!
# The single-hypothesis SLAM with its own scan matcher

`Whole.St.handle` takes the scan matcher's answers from outside. Here the matcher is the one of topic Matcher, working on
the map the program builds (src/core/states/single_state_hypothesis_laser_scan_grid_world.h:52-65). Its state (the weights
of the points and the pose enumerator) is part of the program's state.
-/

set_option autoImplicit false
set_option linter.unusedSectionVars false

namespace Slam.Whole
open Slam.Grid Slam.Cells Slam.Poses Slam.Sensor Slam.Score Slam.ScanAdder Slam.Worlds Slam.Tbm

/-- The observation impact estimators, src/utils/init_scan_matching.h:28-43. -/
inductive Impact where
  | discrepancy
  | occupancy
  deriving DecidableEq

/-- `estimate_impact` of an obstacle at `obst` on a cell, src/core/scan_matchers/observation_impact_estimators.h:14-28,
with the `discrepancy` of the cell's class (topics Cells and Tbm). -/
noncomputable def CellKind.impact : (k : CellKind) → Impact → Grid.Point ℝ → k.Cell → Option ℝ
  | .affine, .discrepancy => fun obst c => Matcher.discrepancyOie c.discrepancy obst
  | .mean, .discrepancy => fun obst c => Matcher.discrepancyOie c.discrepancy obst
  | .gmapping, .discrepancy => fun obst c => Matcher.discrepancyOie (fun a => some (gmDiscrepancy c a)) obst
  | .tbm .credibilist, .discrepancy => fun obst c => Matcher.discrepancyOie (fun a => some (credDiscrepancy c a)) obst
  | .tbm .consistent, .discrepancy => fun obst c => Matcher.discrepancyOie (fun a => some (tbmDiscrepancy c a)) obst
  | .tbm .unknownEven, .discrepancy => fun obst c => Matcher.discrepancyOie (fun a => some (tbmDiscrepancy c a)) obst
  | k, .occupancy => fun _ c => k.value c

/-- The configuration: that of `Whole.Cfg`, the matcher's, its pose enumerator; `dims` and `origin` are the extent and the
origin of a map; `fuel` bounds the number of candidates. -/
structure OwnCfg (C M S : Type) where
  slam : Cfg C M
  matcher : Matcher.Cfg C
  enumerator : ScanMatch.Enumerator ℝ S
  dims : M → Dims
  origin : M → Coord
  fuel : Nat

/-- What the matcher sees of the map. `has_cell` of the growing maps: src/core/maps/plain_grid_map.h:77,
lazy_tiled_grid_map.h:150. -/
def OwnCfg.view {C M S : Type} (cfg : OwnCfg C M S) (m : M) : Matcher.View C :=
  ⟨cfg.dims m, cfg.origin m, cfg.slam.scale, fun _ => true, cfg.slam.api.read m⟩

/-- The state of the program. -/
structure Own (M S : Type) where
  st : St M
  weights : Spw
  enum : S

/-- `sm->reset_state()` and `sm->process_scan(tr_scan, pose(), map(), pose_delta)`,
single_state_hypothesis_laser_scan_grid_world.h:53-57, pose_enumeration_scan_matcher.h:27-77. -/
noncomputable def OwnCfg.matching {C M S : Type} (cfg : OwnCfg C M S) (s : Own M S) (scan : List ScanPoint) (p : Pose ℝ)
    (m : M) : Option (Spw × S × Delta ℝ × Option ℝ × List (ScanMatch.Event ℝ)) :=
  cfg.matcher.processScan cfg.enumerator (cfg.view m) cfg.fuel s.weights (cfg.enumerator.reset s.enum) scan p

/-- `handle_transformed_msg`, laser_scan_observer.h:28-38, `handle_sensor_data`, laser_scan_grid_world.h:26-32, and
`handle_observation`, single_state_hypothesis_laser_scan_grid_world.h:52-65: as `St.handle`, with the program's matcher. -/
noncomputable def Own.handle {C M S : Type} (cfg : OwnCfg C M S) (s : Own M S) (d : Pose ℝ × Msg ℝ) : Option (Own M S) :=
  (msg2scan d.2 cfg.slam.skipMax cfg.slam.tol).bind fun pts =>
    (scanOf pts).bind fun scan =>
      let p := s.st.pose.add (observerStep s.st.odom d.1).2
      (cfg.matching s scan p s.st.map).bind fun r =>
        let p' := p.add r.2.2.1
        let q := if r.2.2.1.toBool then cfg.slam.props.localizedQuality else cfg.slam.props.rawQuality
        (cfg.slam.append s.st.hist s.st.map p' scan q cfg.slam.props.margin).map fun a =>
          ⟨⟨(observerStep s.st.odom d.1).1, p', a.1, a.2⟩, r.1, r.2.1⟩

/-- A history of messages: odometry poses and laser scans. -/
noncomputable def Own.run {C M S : Type} (cfg : OwnCfg C M S) (s : Own M S) : List (Pose ℝ × Msg ℝ) → Option (Own M S)
  | [] => some s
  | d :: ds => (s.handle cfg d).bind fun s => s.run cfg ds

end Slam.Whole
