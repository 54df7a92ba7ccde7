import Verif.ScanMatch.Model
import Verif.Score.Model

/-!
# Model of the drift detector

`src/core/scan_matchers/connect_the_dots_ambiguous_drift_detector.h`, the polar enumerator of
`src/core/scan_matchers/pose_enumerators.h` and the extremal bins of `src/core/features/angle_histogram.h`.
Exact real arithmetic; printing to the console is not modelled.
-/

set_option autoImplicit false

namespace Slam.Drift
open Slam.Poses Slam.ScanMatch Slam.Score Slam.Sensor

/-! ## Extremal bins -/

/-- The loop of `std::max_element` behind its first step: `best` is the index of the largest element so far, `v` its
value and `i` the index of the head of the list. -/
def maxLoop : List Nat → Nat → Nat → Nat → Nat
  | [], _, best, _ => best
  | y :: ys, i, best, v => if v < y then maxLoop ys (i + 1) i y else maxLoop ys (i + 1) best v

/-- The loop of `std::min_element`. -/
def minLoop : List Nat → Nat → Nat → Nat → Nat
  | [], _, best, _ => best
  | y :: ys, i, best, v => if y < v then minLoop ys (i + 1) i y else minLoop ys (i + 1) best v

/-- `max_i`, angle_histogram.h:45-50; `none` is the failed assertion. -/
def maxI (h : Hist) : Option Nat :=
  match h.hist with
  | [] => none
  | x :: xs => some (maxLoop xs 1 0 x)

/-- `min_i`, angle_histogram.h:52-57. -/
def minI (h : Hist) : Option Nat :=
  match h.hist with
  | [] => none
  | x :: xs => some (minLoop xs 1 0 x)

/-- `mean_bin_angle`, angle_histogram.h:63-65: the outer `none` is an access beyond the end, the inner one is
`0.0 / 0`, a NaN. -/
noncomputable def meanBinAngle (h : Hist) (i : Nat) : Option (Option ℝ) :=
  (h.angSum[i]?).bind fun s => (h.hist[i]?).map fun (c : Nat) => if c = 0 then none else some (s / (c : ℝ))

/-- `major_direction`, angle_histogram.h:67. -/
noncomputable def majorDirection (h : Hist) : Option (Option ℝ) := (maxI h).bind (meanBinAngle h)

/-- `minor_direction`, angle_histogram.h:68. -/
noncomputable def minorDirection (h : Hist) : Option (Option ℝ) := (minI h).bind (meanBinAngle h)

/-! ## The polar enumerator -/

/-- Construction parameters, pose_enumerators.h:18-28. -/
structure PolarParams where
  fromDir : ℝ
  toDir : ℝ
  stepDir : ℝ
  fromDst : ℝ
  toDst : ℝ
  stepDst : ℝ

/-- Mutable fields, pose_enumerators.h:61-66. -/
structure PolarState where
  base : Option (Pose ℝ)
  dir : ℝ
  dst : ℝ

open Classical in
/-- `PolarCoordBruteForcePoseEnumerator`, pose_enumerators.h:30-59. -/
noncomputable def polar (p : PolarParams) : Enumerator ℝ PolarState where
  hasNext s := decide (s.dst ≤ p.toDst)
  next s prev :=
    let base := s.base.getD prev
    let delta : Delta ℝ := ⟨Real.cos s.dir * s.dst, Real.sin s.dir * s.dst, 0⟩
    (base.add delta, { s with base := some base })
  reset s := { s with dir := p.fromDir, dst := p.fromDst }
  feedback s _ :=
    if s.dir < p.toDir then { s with dir := s.dir + p.stepDir }
    else { s with dir := p.fromDir, dst := s.dst + p.stepDst }

/-- The state after construction, pose_enumerators.h:21-27. -/
def PolarState.init (p : PolarParams) : PolarState := ⟨none, p.fromDir, p.fromDst⟩

/-! ## The detector -/

/-- The loop that drops the points of the dominant direction,
connect_the_dots_ambiguous_drift_detector.h:46-53, from point `i` on. -/
noncomputable def dropDrift (h : Hist) (all : List ScanPoint) (drift : Nat) :
    Nat → List ScanPoint → Option (List ScanPoint)
  | _, [] => some []
  | i, sp :: rest =>
    (h.value all i).bind fun v =>
      (dropDrift h all drift (i + 1) rest).map fun r => if drift = v then r else sp :: r

open Classical in
/-- `process_scan`, connect_the_dots_ambiguous_drift_detector.h:22-97, for a robot at `init` whose wrapped matcher
returned `sm` (pose shift and probability). `scan` is the filtered scan (line 32; filtering also fixes the state of the
probability estimator), `score pts pose` the estimator's probability of the points `pts` at a pose, `none` being NaN.
The returned value is the new pose shift and probability. -/
noncomputable def detect (fuel : Nat) (score : List ScanPoint → Pose ℝ → Option ℝ) (scan : List ScanPoint)
    (init : Pose ℝ) (sm : Delta ℝ × Option ℝ) : Option (Delta ℝ × Option ℝ) :=
  ((Hist.create 20).reset scan).bind fun h =>
    (maxI h).bind fun driftI =>
      (h.hist[driftI]?).bind fun (drift : Nat) =>
        if (drift : ℝ) < 4 / 10 * (scan.length : ℝ) then some sm
        else
          (dropDrift h scan drift 1 scan.tail).bind fun rest =>
            let step := h.angleStep
            let ang := (driftI : ℝ) * step + step / 2
            let P : PolarParams := ⟨ang, ang, step, -25 / 100, 25 / 100, 10 / 100⟩
            let best := init.add sm.1
            (loop (polar P) (score rest) fuel ⟨PolarState.init P, best, score rest best, []⟩).map fun r =>
              (r.best.sub init, score scan r.best)

end Slam.Drift
