import Verif.Pose.Model

/-!
# Model of the pose-enumerating scan matchers

`src/core/scan_matchers/pose_enumeration_scan_matcher.h`, `pose_enumerators.h`, `brute_force_scan_matcher.h`,
`hill_climbing_scan_matcher.h`, `monte_carlo_scan_matcher.h`, `hcsm_fixed.h`.

The scan, the map and the probability estimator of one matching run are fixed; together they are a function
`score : Pose K → Option K`, `none` being NaN ("unknown probability").
-/

set_option autoImplicit false
set_option linter.unusedSectionVars false

namespace Slam.ScanMatch
open Slam.Poses

variable {K : Type*} [Field K] [LinearOrder K] [IsStrictOrderedRing K]

/-- `a < b` on doubles: false if one of them is NaN. -/
def ltN (a b : Option K) : Bool :=
  match a, b with
  | some a, some b => decide (a < b)
  | _, _ => false

/-- `PoseEnumerator`, pose_enumerators.h:7-14, with the object's state `S` made explicit. -/
structure Enumerator (K : Type*) (S : Type*) where
  hasNext : S → Bool
  next : S → Pose K → Pose K × S
  reset : S → S
  feedback : S → Bool → S

/-- Notifications of `GridScanMatcherObserver`, grid_scan_matcher.h:16-31. -/
inductive Event (K : Type*) where
  | start (p : Pose K)
  | test (p : Pose K) (s : Option K)
  | update (p : Pose K) (s : Option K)
  | finish (d : Delta K) (s : Option K)
  deriving DecidableEq

/-- What `process_scan` leaves behind: the enumerator's state, the best pose and score and the notifications
sent so far. -/
structure Result (K : Type*) (S : Type*) where
  enum : S
  best : Pose K
  prob : Option K
  events : List (Event K)

/-- The `while` loop of `process_scan`, pose_enumeration_scan_matcher.h:49-71; `none` if it needs more than
`fuel` iterations. -/
def loop {S : Type*} (E : Enumerator K S) (score : Pose K → Option K) :
    Nat → Result K S → Option (Result K S)
  | 0, _ => none
  | fuel + 1, r =>
    if E.hasNext r.enum then
      let (sampled, e) := E.next r.enum r.best
      let p := score sampled
      let acceptable := ltN r.prob p
      let e := E.feedback e acceptable
      if acceptable then
        loop E score fuel ⟨e, sampled, p, r.events ++ [.test sampled p, .update sampled p]⟩
      else loop E score fuel ⟨e, r.best, r.prob, r.events ++ [.test sampled p]⟩
    else some r

/-- `PoseEnumerationScanMatcher::process_scan`, pose_enumeration_scan_matcher.h:31-77: the enumerator's state,
the returned `pose_delta` and probability, and the notifications. -/
def processScan {S : Type*} (E : Enumerator K S) (score : Pose K → Option K) (fuel : Nat) (e : S)
    (init : Pose K) : Option (S × Delta K × Option K × List (Event K)) :=
  let p := score init
  let r : Result K S := ⟨E.reset e, init, p, [.start init, .test init p, .update init p]⟩
  (loop E score fuel r).map fun r =>
    let delta := r.best.sub init
    (r.enum, delta, r.prob, r.events ++ [.finish delta r.prob])

/-- `do_for_each_observer`, grid_scan_matcher.h:211-217: delivery of one notification to the live
observers, in order of subscription. -/
def deliver {Obs : Type*} (observers : List Obs) (live : Obs → Bool) (e : Event K) : List (Obs × Event K) :=
  (observers.filter live).map fun o => (o, e)

/-- `unsubscribe`, grid_scan_matcher.h:164-174. -/
def unsubscribe {Obs : Type*} [DecidableEq Obs] (observers : List Obs) (live : Obs → Bool) (o : Obs) : List Obs :=
  observers.filter fun x => live x && decide (x ≠ o)

/-! ## Brute force -/

/-- Construction parameters of `BruteForcePoseEnumerator`, brute_force_scan_matcher.h:12-22. -/
structure BFParams (K : Type*) where
  fromX : K
  toX : K
  stepX : K
  fromY : K
  toY : K
  stepY : K
  fromT : K
  toT : K
  stepT : K

/-- Its mutable fields, brute_force_scan_matcher.h:56-64. -/
structure BFState (K : Type*) where
  base : Option (Pose K)
  x : K
  y : K
  t : K

/-- `BruteForcePoseEnumerator`, brute_force_scan_matcher.h:24-54. -/
def bruteForce (p : BFParams K) : Enumerator K (BFState K) where
  hasNext s := decide (s.t ≤ p.toT)
  next s prev :=
    let base := s.base.getD prev
    (⟨base.x + s.x, base.y + s.y, base.theta + s.t⟩, { s with base := some base })
  reset s := { s with x := p.fromX, y := p.fromY, t := p.fromT }
  feedback s _ :=
    if s.x < p.toX then { s with x := s.x + p.stepX }
    else if s.y < p.toY then { s with x := p.fromX, y := s.y + p.stepY }
    else { s with x := p.fromX, y := p.fromY, t := s.t + p.stepT }

/-- The state after construction, brute_force_scan_matcher.h:15-21. -/
def BFState.init (p : BFParams K) : BFState K := ⟨none, p.fromX, p.fromY, p.fromT⟩

/-! ## Hill climbing -/

/-- `Distorsion1DPoseEnumerator`, hill_climbing_scan_matcher.h:11-71. The frame rotation is always zero in
the program (`reset_round` passes two arguments, line 118), so sin = 0 and cos = 1. -/
structure D1State (K : Type*) where
  action : Nat
  trans : K
  rot : K
  base : Option (Pose K)

/-- `Distorsion1DPoseEnumerator::next`, hill_climbing_scan_matcher.h:26-52. -/
def D1State.next (s : D1State K) (prev : Pose K) : Pose K × D1State K :=
  let base := s.base.getD prev
  let dir : K := if s.action % 2 = 0 then 1 else -1
  let frameCos : K := 1
  let frameSin : K := 0
  let p : Pose K :=
    match s.action % 3 with
    | 0 => ⟨base.x + frameCos * dir * s.trans, base.y + frameSin * dir * s.trans, base.theta⟩
    | 1 => ⟨base.x + -frameSin * dir * s.trans, base.y + frameCos * dir * s.trans, base.theta⟩
    | _ => ⟨base.x, base.y, base.theta + dir * s.rot⟩
  (p, { s with base := some base, action := s.action + 1 })

/-- `FailedRoundsLimitedPoseEnumerator`, hill_climbing_scan_matcher.h:73-131. -/
structure HCState (K : Type*) where
  failedRounds : Nat
  trans : K
  rot : K
  round : D1State K
  roundFailed : Bool

/-- `reset_round`, hill_climbing_scan_matcher.h:113-116. -/
def HCState.resetRound (s : HCState K) : HCState K :=
  { s with round := ⟨0, s.trans, s.rot, none⟩, roundFailed := true }

/-- The enumerator, hill_climbing_scan_matcher.h:86-114. -/
def hillClimbing (maxFailed : Nat) (trans rot : K) : Enumerator K (HCState K) where
  hasNext s := decide (s.failedRounds < maxFailed)
  next s prev :=
    let s :=
      if s.round.action < 6 then s
      else
        let s :=
          if s.roundFailed then
            { s with trans := s.trans * (1 / 2), rot := s.rot * (1 / 2), failedRounds := s.failedRounds + 1 }
          else s
        s.resetRound
    let (p, r) := s.round.next prev
    (p, { s with round := r })
  reset s := { s with failedRounds := 0, trans := trans, rot := rot }.resetRound
  feedback s ok := { s with roundFailed := s.roundFailed && !ok }

/-! ## Monte Carlo -/

/-- `GaussianPoseEnumerator`, monte_carlo_scan_matcher.h:10-87. The pseudo random generator is a stream of
samples: `draws` counts the samples already taken. -/
structure MCState (K : Type*) where
  failed : Nat
  poses : Nat
  transDisp : K
  rotDisp : K
  draws : Nat

/-- The enumerator, monte_carlo_scan_matcher.h:30-76. `sample n dt dr` is the shift drawn at the `n`-th call
with dispersions `dt`, `dr`; it is arbitrary. -/
def monteCarlo (maxFailed maxPoses : Nat) (trans rot : K) (sample : Nat → K → K → Delta K) :
    Enumerator K (MCState K) where
  hasNext s := decide (s.failed < maxFailed) && decide (s.poses < maxPoses)
  next s prev := (prev.add (sample s.draws s.transDisp s.rotDisp), { s with draws := s.draws + 1 })
  reset s := { s with poses := 0, failed := 0, transDisp := trans, rotDisp := rot }
  feedback s ok :=
    let s := { s with poses := s.poses + 1 }
    if !ok then { s with failed := s.failed + 1 }
    else if s.failed ≤ maxFailed / 3 then s
    else { s with failed := 0, transDisp := s.transDisp * (1 / 2), rotDisp := s.rotDisp * (1 / 2) }

/-! ## `HillClimbingSMFixed` -/

/-- `shift`, hcsm_fixed.h:82-96. -/
def shiftPose (p : Pose K) (aStep lStep : K) (action : Nat) : Pose K :=
  let v : K := if action % 2 = 0 then 1 else -1
  match action % 3 with
  | 0 => { p with x := p.x + v * lStep }
  | 1 => { p with y := p.y + v * lStep }
  | _ => { p with theta := p.theta + v * aStep }

/-- The result of the direction search: `next_action`, `d_d`, `best_diff`. -/
structure Direction (K : Type*) where
  action : Nat
  dd : K
  diff : K

/-- The `for` loop choosing the direction, hcsm_fixed.h:40-51. The score is a number here (NaN differences
never compare less, so such actions are skipped). -/
def chooseDirection (score : Pose K → Option K) (dt dO : K) (cur : Pose K) (best : Option K) : Direction K :=
  (List.range 6).foldl (fun d action =>
    match best, score (shiftPose cur dO dt action) with
    | some b, some s =>
      if b - s < d.diff then ⟨action, if action % 3 = 2 then dO else dt, b - s⟩ else d
    | _, _ => d) ⟨0, 0, 1⟩

/-- The inner `while`, hcsm_fixed.h:53-62, started with `r = 2^k · d_d`: `k` is the number of halvings left
until `r = d_d`. Returns the accepted step (with its score) or `none` if `r` reached `d_d`. -/
def lineSearch (score : Pose K → Option K) (cur : Pose K) (best : Option K) (action : Nat) (dd : K) :
    Nat → Option (Pose K × Option K)
  | 0 => none
  | k + 1 =>
    let r := 2 ^ (k + 1) * dd
    if dd < r then
      let rp := shiftPose cur r r action
      if ltN best (score rp) then some (rp, score rp) else lineSearch score cur best action dd k
    else none

/-- The outer loop, hcsm_fixed.h:33-72: note that the loop increments `_max_step_shrinks` (a 32-bit unsigned
member) and never `step_shrinks`. Returns the best pose, its probability and the new `_max_step_shrinks`. -/
def fixedLoop (score : Pose K → Option K) (dt dO : K) :
    Nat → BitVec 32 → Pose K → Option K → Option (Pose K × Option K × BitVec 32)
  | 0, _, _, _ => none
  | fuel + 1, maxShrinks, best, prob =>
    if (0 : BitVec 32) < maxShrinks then
      let d := chooseDirection score dt dO best prob
      match lineSearch score best prob d.action d.dd 4 with
      | some (rp, rs) => fixedLoop score dt dO fuel (maxShrinks + 1) rp rs
      | none =>
        if 0 ≤ d.diff then some (best, prob, maxShrinks)
        else
          fixedLoop score dt dO fuel (maxShrinks + 1) (shiftPose best d.dd d.dd d.action)
            (prob.map fun p => p - d.diff)
    else some (best, prob, maxShrinks)

/-- `HillClimbingSMFixed::process_scan`, hcsm_fixed.h:19-72: the returned pose, its probability and the new
configuration. -/
def fixedProcess (score : Pose K → Option K) (dt dO : K) (fuel : Nat) (maxShrinks : BitVec 32) (init : Pose K) :
    Option (Delta K × Option K × BitVec 32) :=
  (fixedLoop score dt dO fuel maxShrinks init (score init)).map fun (b, p, m) => (b.sub init, p, m)

end Slam.ScanMatch
