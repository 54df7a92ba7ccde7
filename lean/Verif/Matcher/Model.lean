import Verif.Score.Model
import Verif.ScanMatch.Model

/-!
# Model of a whole scan matcher

`PoseEnumerationScanMatcher` (src/core/scan_matchers/pose_enumeration_scan_matcher.h) with its probability estimator
(weighted_mean_point_probability_spe.h, occupancy_observation_probability.h, observation_impact_estimators.h) on a map:
the models of ScanMatch and Score, composed as `init_scan_matching.h` composes them. A failed assertion or undefined
behaviour in any evaluation of the score is the outcome `none` of the whole call.
-/

set_option autoImplicit false
set_option linter.unusedSectionVars false

namespace Slam.Matcher
open Slam.Grid Slam.Rect Slam.Sensor Slam.Score Slam.ScanMatch

/-! ## The matching loop with a score that may fail -/

/-- The `while` loop of `process_scan`, pose_enumeration_scan_matcher.h:49-71, as `ScanMatch.loop`; the evaluation of the
score may fail (`none`; `some none` is NaN). -/
def loopP {K S : Type} [Field K] [LinearOrder K] (E : Enumerator K S) (score : Poses.Pose K → Option (Option K)) :
    Nat → Result K S → Option (Result K S)
  | 0, _ => none
  | fuel + 1, r =>
    if E.hasNext r.enum then
      let n := E.next r.enum r.best
      (score n.1).bind fun p =>
        if ltN r.prob p then
          loopP E score fuel ⟨E.feedback n.2 true, n.1, p, r.events ++ [.test n.1 p, .update n.1 p]⟩
        else loopP E score fuel ⟨E.feedback n.2 false, r.best, r.prob, r.events ++ [.test n.1 p]⟩
    else some r

/-- `process_scan` after filtering, pose_enumeration_scan_matcher.h:39-76. -/
def searchP {K S : Type} [Field K] [LinearOrder K] (E : Enumerator K S) (score : Poses.Pose K → Option (Option K))
    (fuel : Nat) (e : S) (init : Poses.Pose K) : Option (S × Poses.Delta K × Option K × List (Event K)) :=
  (score init).bind fun p =>
    (loopP E score fuel ⟨E.reset e, init, p, [.start init, .test init p, .update init p]⟩).map fun r =>
      let delta := r.best.sub init
      (r.enum, delta, r.prob, r.events ++ [.finish delta r.prob])

/-! ## The score on a map -/

/-- The four occupancy observation probability estimators, init_scan_matching.h:58-66. -/
inductive Oope where
  | obstacle
  | max
  | mean
  | overlap
  deriving DecidableEq

/-- What the matcher sees of a map with a finite scale: extent, origin and scale, `has_cell`, and `operator[]`;
src/core/maps/grid_map.h:41-46, regular_squares_grid.h. -/
structure View (C : Type) where
  dims : Dims
  origin : Coord
  scale : ℝ
  hasCell : Coord → Bool
  read : Coord → Option C

/-- The grid of the map. -/
def View.grid {C : Type} (v : View C) : GridView ℝ := ⟨v.dims, v.origin, some v.scale⟩

/-- `observation_impact(map[c], aoo)` for an obstacle at `obst`, occupancy_observation_probability.h:22-23, 42, 65, 90;
`imp` is the impact estimator: `none` is NaN, which fails the assertion after it. -/
def View.impact {C : Type} (v : View C) (imp : Point ℝ → C → Option ℝ) (obst : Point ℝ) (c : Coord) : Option ℝ :=
  (v.read c).bind (imp obst)

/-- The cells of the area, occupancy_observation_probability.h:39, 62, 86; `fuel` bounds their number. -/
noncomputable def View.cells {C : Type} (v : View C) (fuel : Nat) (area : Bounds ℝ) : Option (List Coord) :=
  (RState.create v.grid (.finite area) true).toVector fuel

/-- `occupancy_observation_probability`, grid_scan_matcher.h:107-111, for an obstacle at `obst`. -/
noncomputable def pointProb {C : Type} (k : Oope) (imp : Point ℝ → C → Option ℝ) (fuel : Nat) (v : View C) (obst : Point ℝ)
    (area : Bounds ℝ) : Option ℝ :=
  match k with
  | .obstacle => obstaclePE v.grid (v.impact imp obst) obst
  | .max => (v.cells fuel area).bind (maxPE (v.impact imp obst))
  | .mean => (v.cells fuel area).bind (meanPE (v.impact imp obst))
  | .overlap => (v.cells fuel area).bind (overlapPE (v.impact imp obst) v.scale area)

/-- The parameters of a scan matcher, init_scan_matching.h:47-110. -/
structure Cfg (C : Type) where
  filter : Score.Cfg
  oope : Oope
  imp : Point ℝ → C → Option ℝ
  cellFuel : Nat

/-- `scan_probability(scan, pose, map)`, grid_scan_matcher.h:187-190, 123-127: default `SPEParams` (lines 83-87), that is
an analysis area of no extent and a scan that has not been turned. -/
noncomputable def Cfg.score {C : Type} (cfg : Cfg C) (v : View C) (w : Spw) (pts : List ScanPoint) (p : Poses.Pose ℝ) :
    Option (Option ℝ) :=
  estimate (pointProb cfg.oope cfg.imp cfg.cellFuel v) w ⟨⟨0, 0, 0, 0⟩, false⟩ ⟨p.x, p.y, p.theta⟩ pts

/-- `filter_scan`, grid_scan_matcher.h:182-185. -/
noncomputable def Cfg.filterScan {C : Type} (cfg : Cfg C) (v : View C) (w : Spw) (pts : List ScanPoint)
    (p : Poses.Pose ℝ) : Option (List ScanPoint × Spw) :=
  Score.filterScan cfg.filter w v.scale v.hasCell ⟨p.x, p.y, p.theta⟩ pts

/-- `process_scan`, pose_enumeration_scan_matcher.h:31-77: the weighting's and the enumerator's state, the returned
`pose_delta` and probability, the notifications. -/
noncomputable def Cfg.processScan {C S : Type} (cfg : Cfg C) (E : Enumerator ℝ S) (v : View C) (fuel : Nat) (w : Spw) (e : S)
    (raw : List ScanPoint) (init : Poses.Pose ℝ) :
    Option (Spw × S × Poses.Delta ℝ × Option ℝ × List (Event ℝ)) :=
  (cfg.filterScan v w raw init).bind fun f =>
    (searchP E (cfg.score v f.2 f.1) fuel e init).map fun r => (f.2, r)

/-- `main` of src/utils/sm_runner.cpp:74-90 after loading: the scan is filtered, then `process_scan` is called with it. -/
noncomputable def Cfg.runOnce {C S : Type} (cfg : Cfg C) (E : Enumerator ℝ S) (v : View C) (fuel : Nat) (w : Spw) (e : S)
    (raw : List ScanPoint) (pose : Poses.Pose ℝ) : Option (Poses.Delta ℝ × Option ℝ) :=
  (cfg.filterScan v w raw pose).bind fun f =>
    (cfg.processScan E v fuel f.2 e f.1 pose).map fun r => (r.2.2.1, r.2.2.2.1)

/-! ## Impact of naive cells -/

/-- `OccupancyOIE::estimate_impact`, observation_impact_estimators.h:24-27. -/
def occupancyImpact (prob : ℝ) : Option ℝ := some prob

/-- `DiscrepancyOIE::estimate_impact`, observation_impact_estimators.h:16-19, with the `discrepancy` of a cell to the
expected observation `{true, {1.0, 1.0}, …}`, grid_scan_matcher.h:44-46. -/
noncomputable def discrepancyOie (discrepancy : Cells.Aoo ℝ → Option ℝ) (obst : Point ℝ) : Option ℝ :=
  (discrepancy ⟨true, some ⟨1, 1⟩, obst, 1⟩).map fun d => discrepancyImpact d

end Slam.Matcher
