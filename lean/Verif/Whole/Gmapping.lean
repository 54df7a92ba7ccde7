import Verif.Whole.Model
import Verif.Particle.Model

/-!
# The whole GMapping

A laser scan observer (src/ros/laser_scan_observer.h) feeds the particle filter
(src/slams/gmapping/gmapping_particle_filter.h); its particles (src/slams/gmapping/gmapping_world.h) match the scan against
the map and put it there by the scan adder (src/core/maps/grid_map_scan_adders.h). As configured by `init_gmapping`
(src/slams/gmapping/init_gmapping.h:52-69), all particles get one properties object, hence one map (property C57), one
scan matcher and one scan adder.

The models of the topics Particle (filter), World (observer), ScanAdder and the maps are composed as the program composes
them. The random numbers and the answers of the scan matcher (a function of the scan, the pose and the map, different at
each call) are arbitrary; the matcher does not change the contents of the map and does not fail.
-/

set_option autoImplicit false
set_option linter.unusedSectionVars false

namespace Slam.Whole
open Slam.Grid Slam.Cells Slam.Poses Slam.Sensor Slam.Score Slam.ScanAdder Slam.Worlds
open Slam.Particle (Env setObj)

/-- One message: the odometry pose and the scan; for each particle object the sampled noise, the matcher's answers and the
next sample of the scan matching step; the resampler's random numbers. -/
structure GDatum (M : Type) where
  odom : Pose ℝ
  msg : Msg ℝ
  guess : Nat → Delta ℝ
  matcher : Nat → List ScanPoint → Pose ℝ → M → Delta ℝ × Option ℝ
  nextSm : Nat → Delta ℝ
  samples : List ℝ

/-- The state: `_prev_pose` of the observer, laser_scan_observer.h:92; the filter (its `maps` lists, newest first, the poses
at which scans were put into a map object); the contents of the one map all particles refer to; the histogram of the
scan adder's quality estimator (`none`: `IdleOMQE`). -/
structure GSt (M : Type) where
  odom : Pose ℝ
  filter : Particle.Filter ℝ
  map : M
  hist : Option Hist

/-- What particle `i` meets when it handles the scan while the map is `m`. -/
def GDatum.env {M : Type} (d : GDatum M) (scan : List ScanPoint) (m : M) (i : Nat) : Env ℝ :=
  ⟨d.guess i, fun p => d.matcher i scan p m, d.nextSm i⟩

/-- The loop over the particles in `handle_observation`, gmapping_particle_filter.h:71-73, with gmapping_world.h:73-101:
each particle in turn matches the scan against the map left by the ones before it, and may put the scan there
(`append_scan(map(), pose(), scan.scan, scan.quality, 0)`; the observer sets the quality to 1, laser_scan_observer.h:43). -/
noncomputable def observeEach {C M : Type} (cfg : Cfg C M) (d : GDatum M) (scan : List ScanPoint) :
    List Nat → (Nat → Particle.World ℝ) → (Nat → List (Pose ℝ)) → M → Option Hist →
      Option ((Nat → Particle.World ℝ) × (Nat → List (Pose ℝ)) × M × Option Hist)
  | [], h, ms, m, hist => some (h, ms, m, hist)
  | i :: is, h, ms, m, hist =>
    let r := (h i).handleObservation (d.env scan m i)
    match r.2 with
    | none => observeEach cfg d scan is (setObj h i r.1) ms m hist
    | some p => (cfg.append hist m p scan 1 0).bind fun q =>
        observeEach cfg d scan is (setObj h i r.1) (fun k => if k = (h i).mapRef then p :: ms k else ms k) q.1 q.2

/-- `handle_transformed_msg`, laser_scan_observer.h:28-38, and `handle_sensor_data`, gmapping_particle_filter.h:45-85. -/
noncomputable def GSt.handle {C M : Type} (cfg : Cfg C M) (s : GSt M) (d : GDatum M) : Option (GSt M) :=
  (msg2scan d.msg cfg.skipMax cfg.tol).bind fun pts =>
    (scanOf pts).bind fun scan =>
      let f := s.filter.updatePose Real.sin Real.cos (observerStep s.odom d.odom).2
      (observeEach cfg d scan f.ids f.heap f.maps s.map s.hist).bind fun r =>
        (({ f with heap := r.1, maps := r.2.1 } : Particle.Filter ℝ).normalize.gTryResample d.samples).map fun f =>
          ⟨(observerStep s.odom d.odom).1, f, r.2.2.1, r.2.2.2⟩

/-- A history of messages. -/
noncomputable def GSt.run {C M : Type} (cfg : Cfg C M) (s : GSt M) : List (GDatum M) → Option (GSt M)
  | [] => some s
  | d :: ds => (s.handle cfg d).bind fun s => s.run cfg ds

/-- The start, init_gmapping.h:52-69: `steps` are the first samples of the scan matching step, one for each particle; the
odometry of the observer starts at zero, laser_scan_observer.h:92. -/
noncomputable def gStart {M : Type} (steps : List (Delta ℝ)) (init : M) (hist : Option Hist) : Option (GSt M) :=
  (Particle.Filter.create steps).map fun f => ⟨⟨0, 0, 0⟩, f, init, hist⟩

/-- `pose()`, gmapping_particle_filter.h:63: the pose reported (`none`: no particles). -/
noncomputable def GSt.pose {M : Type} (s : GSt M) : Option (Pose ℝ) := s.filter.world.map Particle.World.pose

end Slam.Whole
