import Verif.Pose.Model

/-!
# Model of worlds, their observers, and the laser scan observer

`src/core/states/world.h`, `laser_scan_grid_world.h`, `single_state_hypothesis_laser_scan_grid_world.h`,
`src/ros/laser_scan_observer.h`, `src/ros/robot_pose_observers.h`.
-/

set_option autoImplicit false
set_option linter.unusedSectionVars false

namespace Slam.Worlds
open Slam.Poses Slam.Rect Slam.Grid

variable {K : Type*} [Field K] [LinearOrder K] [IsStrictOrderedRing K]

/-- A scan inserted into the map: the pose and the quality it is inserted with (and the margin). -/
structure Insertion (K : Type*) where
  pose : Pose K
  quality : K
  margin : Nat
  deriving DecidableEq

/-- Notifications, world.h:16-29, with the observer that receives them. The map is the list of insertions, oldest
first. -/
inductive Notice (K : Type*) where
  | pose (obs : Nat) (p : Pose K)
  | map (obs : Nat) (m : List (Insertion K))
  deriving DecidableEq

/-- `SingleStateHypothesisLSGWProperties`, single_state_hypothesis_laser_scan_grid_world.h:13-21. -/
structure Props (K : Type*) where
  localizedQuality : K
  rawQuality : K
  margin : Nat

/-- The state of a single-hypothesis world with its observer lists (world.h:63-64 and 94). Observers are weak
pointers: `alive` tells which objects still exist. -/
structure State (K : Type*) where
  pose : Pose K
  map : List (Insertion K)
  mapObs : List Nat
  poseObs : List Nat
  dead : List Nat

/-- A fresh world. -/
def State.init : State K := ⟨⟨0, 0, 0⟩, [], [], [], []⟩

/-- `NOTIFY_EACH_WOBSERVER(pose)`, world.h:44-54. -/
def State.notifyPose (s : State K) : List (Notice K) :=
  (s.poseObs.filter fun o => !s.dead.contains o).map fun o => .pose o s.pose

/-- `NOTIFY_EACH_WOBSERVER(map)`, world.h:44-50 and 56-58. -/
def State.notifyMap (s : State K) : List (Notice K) :=
  (s.mapObs.filter fun o => !s.dead.contains o).map fun o => .map o s.map

/-- `handle_observation`, single_state_hypothesis_laser_scan_grid_world.h:52-65; `m` is the scan matcher's answer
(the pose delta) for the scan at hand. -/
def State.observe (P : Props K) (s : State K) (m : Pose K → Delta K) : State K :=
  let d := m s.pose
  let s := { s with pose := s.pose.add d }
  let q := if d.toBool then P.localizedQuality else P.rawQuality
  { s with map := s.map ++ [⟨s.pose, q, P.margin⟩] }

/-- `handle_sensor_data`, laser_scan_grid_world.h:26-32. -/
def State.handle (P : Props K) (s : State K) (delta : Delta K) (m : Pose K → Delta K) : State K × List (Notice K) :=
  let s := { s with pose := s.pose.add delta }
  let s := s.observe P m
  (s, s.notifyPose ++ s.notifyMap)

/-- What can happen to a world. -/
inductive Op (K : Type*) where
  | subscribePose (o : Nat)
  | subscribeMap (o : Nat)
  | destroy (o : Nat)
  | handle (delta : Delta K) (m : Pose K → Delta K)

/-- One step: the new state and the notifications sent. Subscriptions are `push_back` (world.h:34-40). -/
def State.step (P : Props K) (s : State K) : Op K → State K × List (Notice K)
  | .subscribePose o => ({ s with poseObs := s.poseObs ++ [o] }, [])
  | .subscribeMap o => ({ s with mapObs := s.mapObs ++ [o] }, [])
  | .destroy o => ({ s with dead := o :: s.dead }, [])
  | .handle d m => s.handle P d m

/-- A history. -/
def State.run (P : Props K) (s : State K) : List (Op K) → State K × List (Notice K)
  | [] => (s, [])
  | op :: ops =>
    let r := s.step P op
    let r' := r.1.run P ops
    (r'.1, r.2 ++ r'.2)

/-! ## `LaserScanObserver` -/

/-- `handle_transformed_msg`, laser_scan_observer.h:28-38: the new `_prev_pose` and the increment handed to the
world. -/
def observerStep (prev new : Pose K) : Pose K × Delta K := (new, new.sub prev)

/-- The increments produced for a sequence of odometry poses. -/
def increments (prev : Pose K) : List (Pose K) → List (Delta K)
  | [] => []
  | p :: ps => (observerStep prev p).2 :: increments (observerStep prev p).1 ps

/-- A scan observer feeding a world: one odometry pose and one matcher answer for each message. -/
def drive (P : Props K) (s : State K) (prev : Pose K) : List (Pose K × (Pose K → Delta K)) → State K
  | [] => s
  | (p, m) :: l => drive P (s.handle P (observerStep prev p).2 m).1 (observerStep prev p).1 l

/-- `sensor_msgs::LaserScan`; a range is `none` if it is NaN. -/
structure Msg (K : Type*) where
  angleMin : K
  angleMax : K
  increment : K
  rangeMin : K
  rangeMax : K
  ranges : List (Option K)

/-- A scan point. -/
structure Point (K : Type*) where
  range : Option K
  angle : K
  occupied : Bool
  deriving DecidableEq

/-- The loop of `msg2scan`, laser_scan_observer.h:47-67: the points added and the last `sp_angle`. -/
def convert (m : Msg K) (skipMax : Bool) : K → List (Option K) → List (Point K) × K
  | a, [] => ([], a)
  | a, r :: rs =>
    let a := a + m.increment
    let rest := convert m skipMax a rs
    match r with
    | none => (⟨none, a, true⟩ :: rest.1, rest.2)
    | some v =>
      if v < m.rangeMin then rest
      else if m.rangeMax ≤ v then
        if skipMax then rest else (⟨some m.rangeMax, a, false⟩ :: rest.1, rest.2)
      else (⟨some v, a, true⟩ :: rest.1, rest.2)

/-- `msg2scan`, laser_scan_observer.h:40-70; `tol` is `deg2rad(0.001)`. `none` if the assertion fails. -/
def msg2scan (m : Msg K) (skipMax : Bool) (tol : K) : Option (List (Point K)) :=
  let r := convert m skipMax (m.angleMin - m.increment) m.ranges
  if |r.2 - m.angleMax| ≤ tol then some r.1 else none

/-! ## `RobotPoseTumTrajectoryDumper` -/

/-- `time.sec << '.' << time.nsec`, robot_pose_observers.h:78: the characters written for a time stamp (an unsigned
integer is written in decimal without leading zeros). -/
def stampText (sec nsec : Nat) : List Char := Nat.toDigits 10 sec ++ '.' :: Nat.toDigits 10 nsec

end Slam.Worlds
