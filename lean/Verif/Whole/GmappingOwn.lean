import Verif.Whole.Gmapping
import Verif.Matcher.Stateful
import Verif.Tbm.Props

/-!
# GMapping with its own scan matcher

`Whole.GSt.handle` takes the scan matcher's answers from outside. Here the matcher is the one `init_gmapping` makes
(src/slams/gmapping/init_gmapping.h:49-65): hill climbing, scored by GMapping's window estimate, working on the map the particles
build. One matcher serves all particles; its state (the weights of the points, the pose enumerator, and the last value of the
window estimate with the cell it belongs to) lasts from call to call.
-/

set_option autoImplicit false
set_option linter.unusedSectionVars false

namespace Slam.Whole
open Slam.Grid Slam.Cells Slam.Poses Slam.Sensor Slam.Score Slam.ScanAdder Slam.Worlds Slam.Tbm
open Slam.ScanMatch (Enumerator Event HCState hillClimbing)
open Slam.Particle (setObj)

/-! ## The score -/

/-- What GMapping's estimate reads in a cell, for an obstacle seen at `obst`: the occupancy probability
(src/core/maps/grid_cell.h:18) and the discrepancy to the observation `{true, {1.0, 1.0}, …}` (grid_scan_matcher.h:44-46). -/
noncomputable def gmView (obst : Grid.Point ℝ) (cell : GmCell ℝ) : GmView ℝ :=
  ⟨cell.occ.prob, gmDiscrepancy cell ⟨true, some ⟨1, 1⟩, obst, 1⟩⟩

/-- The loops of `probability`, gmapping_occupancy_observation_pe.h:26-34; `none`: a cell can not be read. -/
noncomputable def gmWindow (v : Matcher.View (GmCell ℝ)) (obst : Grid.Point ℝ) (fullness : ℝ) (c : Coord) :
    List Coord → ℝ → Option ℝ
  | [], best => some best
  | off :: offs, best => (v.read (c.add off)).bind fun cell =>
      gmWindow v obst fullness c offs
        (if (gmView obst cell).occ < fullness then best else max best (1 - (gmView obst cell).discrepancy))

/-- `probability`, gmapping_occupancy_observation_pe.h:17-39, for an obstacle at `obst`; the object's state is `e`. -/
noncomputable def gmPoint (v : Matcher.View (GmCell ℝ)) (e : GmPE ℝ) (obst : Grid.Point ℝ) : Option (ℝ × GmPE ℝ) :=
  let c := v.grid.worldToCell obst
  if c = e.cachedCoord ∧ e.cachedProb ≠ -1 then some (e.cachedProb, e)
  else (gmWindow v obst e.fullness c (windowOffsets e.window) 0).map fun best => (best, ⟨e.fullness, e.window, c, best⟩)

/-- The loop of `estimate_scan_probability`, weighted_mean_point_probability_spe.h:107-126, as `Score.scoreLoop`, with an
estimate that changes its state. -/
noncomputable def gmScoreLoop (v : Matcher.View (GmCell ℝ)) (weight : Nat → Option ℝ) (pose : Score.Pose) :
    Nat → GmPE ℝ → Totals → List ScanPoint → Option (Totals × GmPE ℝ)
  | _, e, t, [] => some (t, e)
  | i, e, t, sp :: rest =>
    (gmPoint v e (obstacleOf ⟨⟨0, 0, 0, 0⟩, false⟩ pose sp)).bind fun p =>
      (weight i).bind fun w =>
        gmScoreLoop v weight pose (i + 1) p.2 ⟨t.prob + p.1 * w * sp.factor, t.weight + w⟩ rest

open Classical in
/-- `scan_probability`, grid_scan_matcher.h:187-190, weighted_mean_point_probability_spe.h:97-133; `rnd` is the rounding of
the quotient in line 132 (the operations before it are exact). The inner `none` is NaN. -/
noncomputable def gmScore (rnd : ℝ → ℝ) (v : Matcher.View (GmCell ℝ)) (w : Spw) (pts : List ScanPoint) (e : GmPE ℝ)
    (p : Pose ℝ) : Option (Option ℝ × GmPE ℝ) :=
  (gmScoreLoop v (w.weight pts) ⟨p.x, p.y, p.theta⟩ 0 e ⟨0, 0⟩ pts).map fun t =>
    (if t.1.weight = 0 then none else some (rnd (t.1.prob / t.1.weight)), t.2)

/-! ## The matcher -/

/-- The state of the matcher. -/
structure GMatch where
  weights : Spw
  enum : HCState ℝ
  pe : GmPE ℝ

/-- The configuration: that of `Whole.Cfg`; the usable points; the parameters of hill climbing, `6, 0.1, 0.1` in
init_gmapping.h:59-61; `dims`, `origin` and `fuel` as in `OwnCfg`; `rnd` as in `gmScore`. -/
structure GOwnCfg (M : Type) where
  slam : Cfg (GmCell ℝ) M
  filter : Score.Cfg
  failed : Nat
  transl : ℝ
  rot : ℝ
  dims : M → Dims
  origin : M → Coord
  fuel : Nat
  rnd : ℝ → ℝ

/-- What the matcher sees of the map, src/core/maps/lazy_tiled_grid_map.h:150. -/
def GOwnCfg.view {M : Type} (cfg : GOwnCfg M) (m : M) : Matcher.View (GmCell ℝ) :=
  ⟨cfg.dims m, cfg.origin m, cfg.slam.scale, fun _ => true, cfg.slam.api.read m⟩

/-- `process_scan`, pose_enumeration_scan_matcher.h:31-77, of GMapping's matcher. -/
noncomputable def GOwnCfg.matching {M : Type} (cfg : GOwnCfg M) (s : GMatch) (scan : List ScanPoint) (p : Pose ℝ) (m : M) :
    Option (GMatch × (Delta ℝ × Option ℝ) × List (Event ℝ)) :=
  (Score.filterScan cfg.filter s.weights cfg.slam.scale (fun _ => true) ⟨p.x, p.y, p.theta⟩ scan).bind fun f =>
    (Matcher.searchS (hillClimbing cfg.failed cfg.transl cfg.rot) (gmScore cfg.rnd (cfg.view m) f.2 f.1) cfg.fuel s.pe s.enum p).map
      fun r => (⟨f.2, r.2.1, r.1⟩, (r.2.2.1, r.2.2.2.1), r.2.2.2.2)

/-! ## The program -/

/-- One message: the odometry pose and the scan; for each particle object the sampled noise and the next sample of the scan
matching step; the resampler's random numbers. -/
structure GMsg where
  odom : Pose ℝ
  msg : Msg ℝ
  guess : Nat → Delta ℝ
  nextSm : Nat → Delta ℝ
  samples : List ℝ

/-- The state: that of `GSt`, and the matcher's. -/
structure GOwn (M : Type) where
  st : GSt M
  matcher : GMatch

/-- The pose from which a particle matches a scan, gmapping_world.h:81-85. -/
noncomputable def startPose (w : Particle.World ℝ) (guess : Delta ℝ) : Pose ℝ :=
  if w.scanFirst then w.pose else w.pose.add (if w.noisy then guess else ⟨0, 0, 0⟩)

/-- The loop over the particles in `handle_observation`, gmapping_particle_filter.h:71-73, with gmapping_world.h:73-101, as
`observeEach`: a particle that has moved enough asks the matcher, in the state the particles before it left it in. -/
noncomputable def observeOwn {M : Type} (cfg : GOwnCfg M) (d : GMsg) (scan : List ScanPoint) :
    List Nat → (Nat → Particle.World ℝ) → (Nat → List (Pose ℝ)) → M → Option Hist → GMatch →
      Option ((Nat → Particle.World ℝ) × (Nat → List (Pose ℝ)) × M × Option Hist × GMatch)
  | [], h, ms, m, hist, g => some (h, ms, m, hist, g)
  | i :: is, h, ms, m, hist, g =>
    if (h i).tooClose then observeOwn cfg d scan is h ms m hist g
    else
      (cfg.matching g scan (startPose (h i) (d.guess i)) m).bind fun a =>
        let r := (h i).handleObservation ⟨d.guess i, fun _ => a.2.1, d.nextSm i⟩
        match r.2 with
        | none => observeOwn cfg d scan is (setObj h i r.1) ms m hist a.1
        | some p => (cfg.slam.append hist m p scan 1 0).bind fun q =>
            observeOwn cfg d scan is (setObj h i r.1) (fun k => if k = (h i).mapRef then p :: ms k else ms k) q.1 q.2 a.1

/-- `handle_transformed_msg`, laser_scan_observer.h:28-38, and `handle_sensor_data`, gmapping_particle_filter.h:45-85. -/
noncomputable def GOwn.handle {M : Type} (cfg : GOwnCfg M) (s : GOwn M) (d : GMsg) : Option (GOwn M) :=
  (msg2scan d.msg cfg.slam.skipMax cfg.slam.tol).bind fun pts =>
    (scanOf pts).bind fun scan =>
      let f := s.st.filter.updatePose Real.sin Real.cos (observerStep s.st.odom d.odom).2
      (observeOwn cfg d scan f.ids f.heap f.maps s.st.map s.st.hist s.matcher).bind fun r =>
        (({ f with heap := r.1, maps := r.2.1 } : Particle.Filter ℝ).normalize.gTryResample d.samples).map fun f =>
          ⟨⟨(observerStep s.st.odom d.odom).1, f, r.2.2.1, r.2.2.2.1⟩, r.2.2.2.2⟩

/-- A history of messages. -/
noncomputable def GOwn.run {M : Type} (cfg : GOwnCfg M) (s : GOwn M) : List GMsg → Option (GOwn M)
  | [] => some s
  | d :: ds => (s.handle cfg d).bind fun s => s.run cfg ds

/-- The matcher after construction, init_gmapping.h:36-45, 58-61, gmapping_occupancy_observation_pe.h:14-16,
hill_climbing_scan_matcher.h:73-82. -/
noncomputable def GMatch.create (w : Spw) (fullness : ℝ) (window : Nat) (transl rot : ℝ) : GMatch :=
  ⟨w, ⟨0, transl, rot, ⟨0, transl, rot, none⟩, true⟩, GmPE.create fullness window⟩

end Slam.Whole
