import Verif.ScanMatch.Model
import Verif.Particle.Model
import Mathlib.Analysis.SpecialFunctions.Log.Basic
import Mathlib.Analysis.SpecialFunctions.Sqrt

/-!
# Model of the random numbers

`src/core/random_utils.h`, `RobotPoseDeltaRV` of `src/core/states/robot_pose.h`, and their users: the Monte Carlo matcher
(`src/core/scan_matchers/monte_carlo_scan_matcher.h`), the particles of GMapping (`src/slams/gmapping/gmapping_world.h`) and the
resampling (`src/core/particle_filter.h`).

The engine and the two distributions belong to the C++ library; they are modelled as libstdc++ implements them (`bits/random.tcc`),
with exact real arithmetic.
-/

set_option autoImplicit false
set_option linter.unusedSectionVars false

namespace Slam.Random
open Slam.Poses (Delta Pose)

/-! ## Engines -/

/-- A generator of 32-bit numbers, the interface of `std::mt19937` that the distributions use. -/
structure Engine (E : Type) where
  next : E → Nat × E
  bound : ∀ e, (next e).1 < 2 ^ 32

/-- The state of `std::mt19937`: the 624 words, and those of them still to be handed out. -/
structure Mt where
  rest : List Nat
  block : List Nat
  deriving DecidableEq

/-- The initial words for a seed, `n` of them, the first with number `i` and the one before it `x`
([rand.eng.mers] of the C++ standard, with the parameters of `std::mt19937`). -/
def seedWords : Nat → Nat → Nat → List Nat
  | 0, _, _ => []
  | n + 1, i, x =>
    let y := (1812433253 * (Nat.xor x (x / 2 ^ 30)) + i) % 2 ^ 32
    y :: seedWords n (i + 1) y

/-- `std::mt19937(seed)`, called with an `unsigned`. -/
def Mt.create (seed : Nat) : Mt := ⟨[], seed % 2 ^ 32 :: seedWords 623 1 (seed % 2 ^ 32)⟩

/-- One new word from the words numbered `k`, `k + 1` and `k + 397`. -/
def mtWord (a b c : Nat) : Nat :=
  let y := a / 2 ^ 31 * 2 ^ 31 + b % 2 ^ 31
  Nat.xor c (Nat.xor (y / 2) (if y % 2 = 1 then 0x9908b0df else 0))

/-- `mtWord` along three lists, as long as all have elements. -/
def mtWords : List Nat → List Nat → List Nat → List Nat
  | a :: as, b :: bs, c :: cs => mtWord a b c :: mtWords as bs cs
  | _, _, _ => []

/-- The next 624 words (`_M_gen_rand`). -/
def mtTwist (x : List Nat) : List Nat :=
  let p := mtWords x (x.drop 1) (x.drop 397)
  let q := mtWords (x.drop 227) (x.drop 228) p
  p ++ (q ++ mtWords (x.drop 454) (x.drop 455 ++ p.take 1) q)

/-- Tempering. -/
def mtTemper (x : Nat) : Nat :=
  let x := Nat.xor x (x / 2 ^ 11)
  let x := Nat.xor x (Nat.land (x * 2 ^ 7) 0x9d2c5680)
  let x := Nat.xor x (Nat.land (x * 2 ^ 15) 0xefc60000)
  Nat.xor x (x / 2 ^ 18)

/-- `operator()` of `std::mt19937`. The last reduction changes nothing. -/
def Mt.next (e : Mt) : Nat × Mt :=
  match e.rest with
  | x :: xs => (mtTemper x % 2 ^ 32, ⟨xs, e.block⟩)
  | [] =>
    let b := mtTwist e.block
    match b with
    | x :: xs => (mtTemper x % 2 ^ 32, ⟨xs, b⟩)
    | [] => (0, e)

/-- `std::mt19937`. -/
def mt19937 : Engine Mt where
  next := Mt.next
  bound e := by
    unfold Mt.next
    cases e.rest with
    | cons x xs => exact Nat.mod_lt _ (by norm_num)
    | nil =>
      cases mtTwist e.block with
      | cons x xs => exact Nat.mod_lt _ (by norm_num)
      | nil => norm_num

/-! ## Distributions -/

variable {E : Type} (N : Engine E)

/-- `std::generate_canonical<double, 53>` for an engine of 32-bit numbers: two of them, the first one being the low word. -/
noncomputable def canonical (e : E) : ℝ × E :=
  let a := N.next e
  let b := N.next a.2
  (((a.1 : ℝ) + (b.1 : ℝ) * 2 ^ 32) / 2 ^ 64, b.2)

/-- A point of the square from `-1` to `1`: the body of the loop in `std::normal_distribution`. -/
noncomputable def attempt (e : E) : (ℝ × ℝ) × E :=
  let u := canonical N e
  let v := canonical N u.2
  ((2 * u.1 - 1, 2 * v.1 - 1), v.2)

/-- The engine before attempt number `n`. -/
noncomputable def afterAttempts (e : E) : Nat → E
  | 0 => e
  | n + 1 => (attempt N (afterAttempts e n)).2

/-- The loop's condition to end: the point is in the disc, and not in its middle. -/
def Accepted (q : ℝ × ℝ) : Prop := ¬ (1 < q.1 * q.1 + q.2 * q.2 ∨ q.1 * q.1 + q.2 * q.2 = 0)

open Classical in
/-- The loop `do … while (r2 > 1.0 || r2 == 0.0)`: the first accepted point; `none` if it never ends. -/
noncomputable def polarPoint (e : E) : Option ((ℝ × ℝ) × E) :=
  if h : ∃ n, Accepted (attempt N (afterAttempts N e n)).1 then some (attempt N (afterAttempts N e (Nat.find h))) else none

/-- `sqrt(-2 * log(r2) / r2)`. -/
noncomputable def polarFactor (q : ℝ × ℝ) : ℝ :=
  let r2 := q.1 * q.1 + q.2 * q.2
  Real.sqrt (-2 * Real.log r2 / r2)

/-- `GaussianRV1D` with its `std::normal_distribution` (`saved`: the second number of a pair, if it was not handed out yet), and
`UniformRV1D`; src/core/random_utils.h:16-54. -/
inductive RV where
  | gaussian (mean sd : ℝ) (saved : Option ℝ)
  | uniform (lo hi : ℝ)

/-- `clone`, random_utils.h:26-28 and 46-48: a new distribution, without the saved number. -/
def RV.clone : RV → RV
  | .gaussian m s _ => .gaussian m s none
  | .uniform a b => .uniform a b

/-- `sample`, random_utils.h:22-24 and 42-44. `none`: the loop in the distribution does not end. -/
noncomputable def RV.sample : RV → E → Option (ℝ × RV × E)
  | .gaussian m s (some z), e => some (z * s + m, .gaussian m s none, e)
  | .gaussian m s none, e =>
    (polarPoint N e).map fun r =>
      (r.1.2 * polarFactor r.1 * s + m, .gaussian m s (some (r.1.1 * polarFactor r.1)), r.2)
  | .uniform a b, e =>
    let u := canonical N e
    some (u.1 * (b - a) + a, .uniform a b, u.2)

/-- `RobotPoseDeltaRV`, src/core/states/robot_pose.h:63-94. -/
structure DeltaRV where
  x : RV
  y : RV
  theta : RV

/-- The constructors and the assignment, robot_pose.h:67-85: copies hold clones. -/
def DeltaRV.clone (d : DeltaRV) : DeltaRV := ⟨d.x.clone, d.y.clone, d.theta.clone⟩

/-- `RobotPoseDeltaRV::sample`, robot_pose.h:87-90. -/
noncomputable def DeltaRV.sample (d : DeltaRV) (e : E) : Option (Delta ℝ × DeltaRV × E) :=
  (d.x.sample N e).bind fun a =>
    (d.y.sample N a.2.2).bind fun b =>
      (d.theta.sample N b.2.2).map fun c => (⟨a.1, b.1, c.1⟩, ⟨a.2.1, b.2.1, c.2.1⟩, c.2.2)

/-- Three normal distributions, as `GRV1D{m, s}` is used throughout. -/
def DeltaRV.normal (m s mt st : ℝ) : DeltaRV := ⟨.gaussian m s none, .gaussian m s none, .gaussian mt st none⟩

/-! ## The Monte Carlo matcher with its generator -/

/-- `GaussianPoseEnumerator`, monte_carlo_scan_matcher.h:10-84, with the random variable and the engine. `gen = none`: the program
is caught in the distribution's loop. -/
structure MCGen (E : Type) where
  failed : Nat
  poses : Nat
  transDisp : ℝ
  rotDisp : ℝ
  gen : Option (DeltaRV × E)

/-- `reset_shift`, monte_carlo_scan_matcher.h:58-66: new random variables, the engine goes on. -/
noncomputable def MCGen.resetShift (s : MCGen E) (trans rot : ℝ) : MCGen E :=
  { s with
    failed := 0
    transDisp := trans
    rotDisp := rot
    gen := s.gen.map fun g => (DeltaRV.normal 0 trans 0 rot, g.2) }

/-- The enumerator, monte_carlo_scan_matcher.h:30-70. A program caught in a loop is modelled as an enumerator that goes on for
ever. -/
noncomputable def gaussianEnum (maxFailed maxPoses : Nat) (trans rot : ℝ) : ScanMatch.Enumerator ℝ (MCGen E) where
  hasNext s := s.gen.isNone || (decide (s.failed < maxFailed) && decide (s.poses < maxPoses))
  next s prev :=
    match s.gen.bind fun g => g.1.sample N g.2 with
    | some r => (prev.add r.1, { s with gen := some r.2 })
    | none => (prev, { s with gen := none })
  reset s := ({ s with poses := 0 } : MCGen E).resetShift trans rot
  feedback s ok :=
    if s.gen.isNone then s
    else
      let s := { s with poses := s.poses + 1 }
      if !ok then { s with failed := s.failed + 1 }
      else if s.failed ≤ maxFailed / 3 then s
      else s.resetShift (s.transDisp * (1 / 2)) (s.rotDisp * (1 / 2))

/-- The constructor, monte_carlo_scan_matcher.h:14-28, for an engine made from the seed. -/
noncomputable def MCGen.create (trans rot : ℝ) (e : E) : MCGen E :=
  ({ failed := 0, poses := 0, transDisp := 0, rotDisp := 0, gen := some (DeltaRV.normal 0 0 0 0, e) } : MCGen E).resetShift trans rot

/-! ## Resampling -/

/-- The samples of `UniformResamling::resample`, src/core/particle_filter.h:51-56: `n` draws of
`std::uniform_real_distribution<>(0, 1)`. -/
noncomputable def uniformDraws (e : E) : Nat → List ℝ
  | 0 => []
  | n + 1 =>
    let u := canonical N e
    (u.1 * (1 - 0) + 0) :: uniformDraws u.2 n

/-! ## Particles with their generator -/

/-- The random part of a `GmappingWorld`, gmapping_world.h:125-126. -/
structure Rng (E : Type) where
  engine : E
  guess : DeltaRV
  step : DeltaRV

/-- Assignment of particles (`*new_particle = *sampled`, particle_filter.h:95): the engine is copied, the variables are cloned. -/
def Rng.copy (g : Rng E) : Rng E := ⟨g.engine, g.guess.clone, g.step.clone⟩

/-- The random part of `mark_master`, gmapping_world.h:105-109. -/
noncomputable def Rng.markMaster (g : Rng E) : Rng E := ⟨g.engine, DeltaRV.normal 0 0 0 0, DeltaRV.normal 0 0 0 0⟩

/-- `GmappingWorld` with its random part. -/
structure RWorld (E : Type) where
  world : Particle.World ℝ
  rng : Rng E

/-- `GMappingParams`, gmapping_world.h:16-34: normally distributed guesses, uniformly distributed steps. -/
def guessRV (meanXy sigmaXy meanTh sigmaTh : ℝ) : DeltaRV := DeltaRV.normal meanXy sigmaXy meanTh sigmaTh

/-- See `guessRV`. -/
def stepRV (minXy maxXy minTh maxTh : ℝ) : DeltaRV := ⟨.uniform minXy maxXy, .uniform minXy maxXy, .uniform minTh maxTh⟩

/-- `reset_scan_matching_delta`, gmapping_world.h:116-119, the draw. -/
noncomputable def Rng.drawStep (g : Rng E) : Option (Delta ℝ × Rng E) :=
  (g.step.sample N g.engine).map fun r => (r.1, ⟨r.2.2, g.guess, r.2.1⟩)

/-- The draw of the noise, gmapping_world.h:83. -/
noncomputable def Rng.drawGuess (g : Rng E) : Option (Delta ℝ × Rng E) :=
  (g.guess.sample N g.engine).map fun r => (r.1, ⟨r.2.2, r.2.1, g.step⟩)

/-- The constructor of `GmappingWorld`, gmapping_world.h:45-55. -/
noncomputable def RWorld.create (guess step : DeltaRV) (e : E) : Option (RWorld E) :=
  (Rng.drawStep N ⟨e, guess.clone, step.clone⟩).map fun r => ⟨Particle.World.create r.1, r.2⟩

/-- `GmappingWorld::handle_observation`, gmapping_world.h:73-101: the new particle, the noise it was moved by (if the scan was
matched and was not the first), and the pose at which the scan is put into the map. `none`: the program is caught in a loop. -/
noncomputable def RWorld.handleObservation (w : RWorld E) (matcher : Pose ℝ → Delta ℝ × Option ℝ) :
    Option (RWorld E × Option (Delta ℝ) × Option (Pose ℝ)) :=
  if w.world.tooClose then some (w, none, none)
  else
    (if w.world.scanFirst then some (none, w.rng) else (w.rng.drawGuess N).map fun r => (some r.1, r.2)).bind fun n =>
      let u := match n.1 with
        | some d => { w.world with pose := w.world.pose.add d }
        | none => w.world
      let r := matcher u.pose
      let u := { u with pose := u.pose.add r.1 }
      let insert := Particle.positive r.2 || u.scanFirst
      (Rng.drawStep N n.2).map fun st =>
        (⟨{ u with
              scanFirst := if insert then false else u.scanFirst
              weight := Particle.mulN r.2 u.weight
              deltaSince := ⟨0, 0, 0⟩
              nextSm := st.1 }, st.2⟩,
          n.1, if insert then some u.pose else none)

/-! ## The filter with its generators -/

/-- What a particle draws in one `handle_observation`: the noise (zero if there is none to draw), the next step, and the random part
afterwards; see `RWorld.handleObservation`. `none`: the program is caught in a loop. -/
noncomputable def drawFor (w : Particle.World ℝ) (g : Rng E) : Option (Delta ℝ × Delta ℝ × Rng E) :=
  if w.tooClose then some (⟨0, 0, 0⟩, ⟨0, 0, 0⟩, g)
  else if w.scanFirst then (g.drawStep N).map fun st => (⟨0, 0, 0⟩, st.1, st.2)
  else (g.drawGuess N).bind fun n => (n.2.drawStep N).map fun st => (n.1, st.1, st.2)

/-- The particle filter with the random parts of the particles; `Particle.Filter` has the rest. -/
structure SFilter (E : Type) where
  filter : Particle.Filter ℝ
  rng : Nat → Rng E

/-- The random parts in the loop of `try_resample`, src/core/particle_filter.h:89-102, in step with `Particle.rebuild`: a new particle
gets a copy (line 95; the one it was created with is overwritten). -/
def rebuildRng (ids : List Nat) : List Nat → List Nat → (Nat → Rng E) → Nat → (Nat → Rng E)
  | [], _, g, _ => g
  | i :: is, seen, g, next =>
    match ids[i]? with
    | none => g
    | some sampled =>
      if seen.contains i then rebuildRng ids is seen (fun j => if j = next then (g sampled).copy else g j) (next + 1)
      else rebuildRng ids is (i :: seen) g next

/-- `ParticleFilter::try_resample`, particle_filter.h:83-106; `e` is the engine the resampler makes. -/
noncomputable def SFilter.tryResample (s : SFilter E) (e : E) : Option (Bool × SFilter E) :=
  let samples := uniformDraws N e s.filter.ids.length
  (s.filter.tryResample samples).map fun r =>
    (r.1, ⟨r.2, if r.1 then rebuildRng s.filter.ids (Particle.resampleIndices s.filter.weights samples) [] s.rng s.filter.next
      else s.rng⟩)

/-- `ensure_master_exists`, src/slams/gmapping/gmapping_particle_filter.h:102-113. -/
noncomputable def SFilter.ensureMaster (s : SFilter E) : Option (SFilter E) :=
  if s.filter.particles.any Particle.World.master then some s
  else
    (Particle.heaviest s.filter.heap s.filter.ids none).map fun i =>
      ⟨{ s.filter with heap := Particle.setObj s.filter.heap i (s.filter.heap i).markMaster },
        fun j => if j = i then (s.rng i).markMaster else s.rng j⟩

/-- `GmappingParticleFilter::try_resample`, gmapping_particle_filter.h:88-99. -/
noncomputable def SFilter.gTryResample (s : SFilter E) (e : E) : Option (SFilter E) :=
  if decide (s.filter.traversed.sqDist ≤ 1 / 2) && decide (s.filter.traversed.theta ≤ 1 / 5) then some s
  else
    (s.tryResample N e).bind fun (done, s) =>
      if done then SFilter.ensureMaster { s with filter := { s.filter with traversed := ⟨0, 0, 0⟩ } } else some s

/-- One `handle_sensor_data`, gmapping_particle_filter.h:45-50 and 70-85; `matcher i` answers for object `i`. -/
noncomputable def SFilter.handle (sn cs : ℝ → ℝ) (s : SFilter E) (delta : Delta ℝ) (matcher : Nat → Pose ℝ → Delta ℝ × Option ℝ) (e : E) :
    Option (SFilter E) :=
  let f := s.filter.updatePose sn cs delta
  let d := fun i => drawFor N (f.heap i) (s.rng i)
  if f.ids.all fun i => (d i).isSome then
    let at_ := fun i => (d i).getD (⟨0, 0, 0⟩, ⟨0, 0, 0⟩, s.rng i)
    let r := Particle.observeAll (fun i => ⟨(at_ i).1, matcher i, (at_ i).2.1⟩) f.ids f.heap f.maps
    SFilter.gTryResample N ⟨({ f with heap := r.1, maps := r.2 } : Particle.Filter ℝ).normalize,
      fun i => if i ∈ f.ids then (at_ i).2.2 else s.rng i⟩ e
  else none

/-- The constructor, gmapping_particle_filter.h:35-43, gmapping_world.h:45-55; `engines` are those of the particles. The particle marked as
master (the only one that is not `noisy`) has had its variables replaced. -/
noncomputable def SFilter.create (guess step : DeltaRV) (engines : List E) : Option (SFilter E) :=
  match engines with
  | [] => none
  | e0 :: _ =>
    (engines.mapM fun e => Rng.drawStep N ⟨e, guess.clone, step.clone⟩).bind fun gs =>
      (Particle.Filter.create (gs.map Prod.fst)).map fun f =>
        ⟨f, fun i =>
          let g := (gs.map Prod.snd).getD i ⟨e0, guess.clone, step.clone⟩
          if (f.heap i).noisy then g else g.markMaster⟩

end Slam.Random
