import Verif.Pose.Model

/-!
# Model of the particle filter

`src/core/particle_filter.h`, `src/slams/gmapping/gmapping_particle_filter.h`, `src/slams/gmapping/gmapping_world.h`.

Particles are objects reached through shared pointers, so a filter is a list of object identifiers plus a heap;
sharing and copying are explicit. A weight is `none` when it is NaN. The random numbers, the scan matcher's answers
and the trigonometric functions are arbitrary parameters.
-/

set_option autoImplicit false
set_option linter.unusedSectionVars false

namespace Slam.Particle
open Slam.Poses

variable {K : Type*} [Field K] [LinearOrder K] [IsStrictOrderedRing K]

/-- `GmappingWorld` (gmapping_world.h:121-127) with its base `Particle` (particle_filter.h:10-21) and the pose and
map references inherited from `World` and `SingleStateHypothesisLaserScanGridWorld`. `noisy` says whether
`_pose_guess_rv` and `_next_sm_delta_rv` are the configured random variables (true) or the constants zero set by
`mark_master` (false); `mapRef` is the object `_map` points to. -/
structure World (K : Type*) where
  weight : Option K
  master : Bool
  noisy : Bool
  scanFirst : Bool
  pose : Pose K
  rawOdom : Pose K
  deltaSince : Delta K
  nextSm : Delta K
  mapRef : Nat
  deriving DecidableEq

/-- `GmappingWorld::update_robot_pose`, gmapping_world.h:57-71 (`sn`, `cs` are the sine and the cosine). -/
def World.updatePose (sn cs : K → K) (w : World K) (delta : Delta K) : World K :=
  let dTh := (w.pose.sub w.rawOdom).theta
  let s := sn dTh
  let c := cs dTh
  let corrected : Delta K := ⟨c * delta.x - s * delta.y, s * delta.x + c * delta.y, delta.theta⟩
  { w with
    rawOdom := w.rawOdom.add delta
    deltaSince := w.deltaSince.add corrected.abs
    pose := w.pose.add corrected }

/-- What the environment supplies to one `handle_observation`: the sample of the configured pose guess variable, the
scan matcher's answer for a given pose, and the sample of the configured scan matching step variable. -/
structure Env (K : Type*) where
  guess : Delta K
  matcher : Pose K → Delta K × Option K
  nextSm : Delta K

/-- Does `handle_observation` leave at once? gmapping_world.h:73-77. -/
def World.tooClose (w : World K) : Bool :=
  decide (w.deltaSince.sqDist < w.nextSm.sqDist) && decide (|w.deltaSince.theta| < w.nextSm.theta)

/-- `0.0 < scan_prob`, false for NaN. -/
def positive (p : Option K) : Bool :=
  match p with
  | some p => decide (0 < p)
  | none => false

/-- Product of doubles, NaN propagates. -/
def mulN (a b : Option K) : Option K :=
  match a, b with
  | some a, some b => some (a * b)
  | _, _ => none

/-- `GmappingWorld::handle_observation`, gmapping_world.h:73-101: the new particle and, if the scan is put into
the map, the pose it is inserted at. -/
def World.handleObservation (w : World K) (e : Env K) : World K × Option (Pose K) :=
  if w.tooClose then (w, none)
  else
    let w :=
      if w.scanFirst then w
      else { w with pose := w.pose.add (if w.noisy then e.guess else ⟨0, 0, 0⟩) }
    let r := e.matcher w.pose
    let w := { w with pose := w.pose.add r.1 }
    let insert := positive r.2 || w.scanFirst
    ({ w with
        scanFirst := if insert then false else w.scanFirst
        weight := mulN r.2 w.weight
        deltaSince := ⟨0, 0, 0⟩
        nextSm := if w.noisy then e.nextSm else ⟨0, 0, 0⟩ },
     if insert then some w.pose else none)

/-- `mark_master`, gmapping_world.h:103-110. -/
def World.markMaster (w : World K) : World K := { w with master := true, noisy := false }

/-- `sample`, gmapping_world.h:112. -/
def World.sample (w : World K) : World K := { w with master := false }

/-- `GmappingParticleFactory::create_particle` (gmapping_particle_filter.h:20-22, gmapping_world.h:45-55): every
particle gets the same properties, hence the same map object (number 0). `nextSm` is the first sample of the
scan matching step variable. -/
def World.create (nextSm : Delta K) : World K :=
  ⟨some 1, false, true, true, ⟨0, 0, 0⟩, ⟨0, 0, 0⟩, ⟨0, 0, 0⟩, nextSm, 0⟩

/-- `ParticleFilter<GmappingWorld>` together with the heap of particles and the maps; a map is the list of the
poses at which scans were inserted (newest first). -/
structure Filter (K : Type*) where
  heap : Nat → World K
  ids : List Nat
  next : Nat
  maps : Nat → List (Pose K)
  traversed : Delta K

/-- The particles in the order of the vector. -/
def Filter.particles (f : Filter K) : List (World K) := f.ids.map f.heap

/-- Their weights. -/
def Filter.weights (f : Filter K) : List (Option K) := f.particles.map World.weight

/-- Assign to one object. -/
def setObj (h : Nat → World K) (i : Nat) (w : World K) : Nat → World K := fun j => if j = i then w else h j

/-- `for (auto &p : particles) p->g()`: apply `g` to each pointed object in turn. -/
def forEach (g : World K → World K) (h : Nat → World K) (ids : List Nat) : Nat → World K :=
  ids.foldl (fun h i => setObj h i (g (h i))) h

/-- Sum of weights, NaN propagates; `total_weight`, particle_filter.h:109-110. -/
def sumN : List (Option K) → Option K
  | [] => some 0
  | a :: l =>
    match a, sumN l with
    | some a, some s => some (a + s)
    | _, _ => none

/-- Division of doubles. A zero divisor gives NaN here; the program divides by a zero total only if every weight is
zero (weights are never negative), when the quotient is NaN indeed. -/
def divN (a b : Option K) : Option K :=
  match a, b with
  | some a, some b => if b = 0 then none else some (a / b)
  | _, _ => none

/-- `normalize_weights`, particle_filter.h:108-112. -/
def Filter.normalize (f : Filter K) : Filter K :=
  let total := sumN f.weights
  { f with heap := forEach (fun w => { w with weight := divN w.weight total }) f.heap f.ids }

/-- `resampling_is_required`, particle_filter.h:34-43. -/
def resamplingRequired (ws : List (Option K)) : Bool :=
  match sumN (ws.map fun w => mulN w w) with
  | some s => if s = 0 then false else decide (1 / s * 2 < (ws.length : K))
  | none => false

/-- The inner loop of `resample`, particle_filter.h:56-63, from position `j` with the partial sum `total`. The result
vector is zero-initialised (line 49), so the index is 0 if the loop ends without a hit. -/
def pick (sample : K) : Nat → Option K → List (Option K) → Nat
  | _, _, [] => 0
  | j, total, w :: ws =>
    let total := match total, w with
      | some t, some w => some (t + w)
      | _, _ => none
    match total with
    | some t => if sample < t then j else pick sample (j + 1) (some t) ws
    | none => pick sample (j + 1) none ws

/-- `UniformResamling::resample`, particle_filter.h:45-66: one index for each of `n` samples. -/
def resampleIndices (ws : List (Option K)) (samples : List K) : List Nat :=
  samples.map fun s => pick s 0 (some 0) ws

/-- The loop of `try_resample`, particle_filter.h:89-102: `seen` is `new_part_inds`, `out` is `new_particles`.
`none` if an index is out of range. The new particle is created and then overwritten by assignment, so every field
is copied (including the map reference and the random variables); then `sample()` is called on it. -/
def rebuild (ids : List Nat) : List Nat → List Nat → List Nat → (Nat → World K) → Nat →
    Option (List Nat × (Nat → World K) × Nat)
  | [], _, out, h, next => some (out, h, next)
  | i :: is, seen, out, h, next =>
    match ids[i]? with
    | none => none
    | some sampled =>
      if seen.contains i then
        rebuild ids is seen (out ++ [next]) (setObj h next (h sampled).sample) (next + 1)
      else rebuild ids is (i :: seen) (out ++ [sampled]) h next

/-- `ParticleFilter::try_resample`, particle_filter.h:83-106, with the random samples it draws. -/
def Filter.tryResample (f : Filter K) (samples : List K) : Option (Bool × Filter K) :=
  if !resamplingRequired f.weights then some (false, f)
  else
    (rebuild f.ids (resampleIndices f.weights samples) [] [] f.heap f.next).map fun (ids, h, next) =>
      (true, { f with ids := ids, heap := h, next := next }.normalize)

/-- `a < b` on doubles. -/
def ltN (a b : Option K) : Bool :=
  match a, b with
  | some a, some b => decide (a < b)
  | _, _ => false

/-- `heaviest_particle`, particle_filter.h:114-121: the loop from a candidate on; `none` is the null pointer. -/
def heaviest (h : Nat → World K) : List Nat → Option Nat → Option Nat
  | [], best => best
  | i :: is, best =>
    match best with
    | none => heaviest h is (some i)
    | some b => if ltN (h i).weight (h b).weight then heaviest h is (some b) else heaviest h is (some i)

/-- `ensure_master_exists`, gmapping_particle_filter.h:102-113. Dereferencing null is `none`. -/
def Filter.ensureMaster (f : Filter K) : Option (Filter K) :=
  if f.particles.any World.master then some f
  else (heaviest f.heap f.ids none).map fun i => { f with heap := setObj f.heap i (f.heap i).markMaster }

/-- `GmappingParticleFilter::try_resample`, gmapping_particle_filter.h:88-99. `std::fabs(theta <= 0.2)` is the
truth value of `theta <= 0.2`. -/
def Filter.gTryResample (f : Filter K) (samples : List K) : Option (Filter K) :=
  if decide (f.traversed.sqDist ≤ 1 / 2) && decide (f.traversed.theta ≤ 1 / 5) then some f
  else
    (f.tryResample samples).bind fun (done, f) =>
      if done then { f with traversed := ⟨0, 0, 0⟩ }.ensureMaster else some f

/-- The constructor, gmapping_particle_filter.h:35-43 with particle_filter.h:74-81: `steps` are the first
samples of the scan matching step variable, one for each particle. -/
def Filter.create (steps : List (Delta K)) : Option (Filter K) :=
  let n := steps.length
  let h : Nat → World K := fun i =>
    { World.create (steps.getD i ⟨0, 0, 0⟩) with weight := some (1 / (n : K)) }
  let ids := List.range n
  let h := forEach World.sample h ids
  (heaviest h ids none).map fun i => ⟨setObj h i (h i).markMaster, ids, n, fun _ => [], ⟨0, 0, 0⟩⟩

/-- `GmappingParticleFilter::update_robot_pose`, gmapping_particle_filter.h:52-57. -/
def Filter.updatePose (sn cs : K → K) (f : Filter K) (delta : Delta K) : Filter K :=
  { f with
    heap := forEach (fun w => w.updatePose sn cs delta) f.heap f.ids
    traversed := f.traversed.add delta.abs }

/-- The loop over the particles in `handle_observation`, gmapping_particle_filter.h:71-73; `env i` is what the
environment supplies to object `i`. -/
def observeAll (env : Nat → Env K) : List Nat → (Nat → World K) → (Nat → List (Pose K)) →
    (Nat → World K) × (Nat → List (Pose K))
  | [], h, m => (h, m)
  | i :: is, h, m =>
    let r := (h i).handleObservation (env i)
    let m := match r.2 with
      | some p => fun k => if k = (h i).mapRef then p :: m k else m k
      | none => m
    observeAll env is (setObj h i r.1) m

/-- One `handle_sensor_data`, gmapping_particle_filter.h:45-50 and 70-85. -/
def Filter.handle (sn cs : K → K) (f : Filter K) (delta : Delta K) (env : Nat → Env K) (samples : List K) :
    Option (Filter K) :=
  let f := f.updatePose sn cs delta
  let r := observeAll env f.ids f.heap f.maps
  ({ f with heap := r.1, maps := r.2 }.normalize).gTryResample samples

/-- `world()`, gmapping_particle_filter.h:59-61: the particle whose pose and map are reported. -/
def Filter.world (f : Filter K) : Option (World K) := (heaviest f.heap f.ids none).map f.heap

end Slam.Particle
