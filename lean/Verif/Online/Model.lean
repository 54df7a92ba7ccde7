import Verif.Config.Provider
import Verif.Pub.Model
import Verif.Runner.Model
import Mathlib.Analysis.SpecialFunctions.Complex.Arg
import Mathlib.Analysis.SpecialFunctions.Trigonometric.Inverse

/-!
# Model of the online nodes

`main` of src/ros/single_hypoth_slam_node.cpp, src/slams/credibilist/slam.cpp and src/slams/gmapping/gmapping.cpp: what is made from
the parameters (src/ros/init_utils.h), and what happens when a scan is delivered (src/ros/topic_with_transform.h), up to the
messages that are sent. The SLAM is a parameter (`Runner.Engine`), as are `tf` lookups and the clock. The subscription, the queue of
messages that wait for a transform and the second thread of the publisher of corrections (`Pub.Threads`) are not part of a delivery.
-/

set_option autoImplicit false
set_option linter.unusedSectionVars false

namespace Slam.Online
open Slam.Config (Str Server Provider paramStr paramBool paramDbl paramInt)
open Slam.Pub (Tr)
open Slam.Runner (Engine LaserMsg)

/-- `ros::Time`: seconds and nanoseconds. -/
abbrev Stamp := Nat × Nat

/-- A time in seconds, as used by the difference of two. -/
noncomputable def Stamp.secs (t : Stamp) : ℝ := t.1 + t.2 / 10 ^ 9

/-- `tf::getYaw(t.getRotation())` (library): `getEulerYPR` of the matrix, its first solution. The way through a quaternion is left
out: it gives back the matrix of a rotation. -/
noncomputable def getYaw (t : Tr) : ℝ :=
  if 1 ≤ |t.basis 2 0| then 0
  else
    let pitch := -Real.arcsin (t.basis 2 0)
    Complex.arg ⟨t.basis 0 0 / Real.cos pitch, t.basis 1 0 / Real.cos pitch⟩

/-- The odometry pose of a transform, laser_scan_observer.h:30-31. -/
noncomputable def planar (t : Tr) : Poses.Pose ℝ := ⟨t.origin 0, t.origin 1, getYaw t⟩

/-- A pose as the publishers see it. -/
def pubPose (p : Poses.Pose ℝ) : Pub.Pose := ⟨p.x, p.y, p.theta⟩

/-! ## What is made from the parameters -/

/-- What `main` of a node takes from the parameters besides the SLAM. -/
structure Setup where
  topic : Str
  odomFrame : Str
  mapFrame : Str
  robotFrame : Str
  async : Bool
  interval : ℝ
  buffer : ℝ
  filterQueue : Int
  subscrQueue : Int
  skipExceeding : Bool
  trigCache : Bool

/-- `laser_scan_2D_ros_topic_name`, `tf_odom_frame_id`, `tf_map_frame_id`, `tf_robot_pose_frame_id`, `is_async_correction`,
`get_skip_exceeding_lsr`, `get_use_trig_cache`, `init_constants_for_ros`, init_utils.h:25-58,138-146. -/
noncomputable def setupOf (round : ℝ → Int) (props : Provider ℝ) (srv : Server ℝ) : Setup where
  topic := props.str "in/lscan2D/ros/topic/name".toList "/base_scan".toList
  odomFrame := props.str "in/odometry/ros/tf/odom_frame_id".toList "odom_combined".toList
  mapFrame := paramStr srv "ros/tf/map_frame_id".toList "map".toList
  robotFrame := paramStr srv "ros/tf/robot_pose_frame_id".toList "robot_pose".toList
  async := paramBool srv "ros/tf/async_correction".toList false
  interval := paramDbl srv "ros/rviz/map_publishing_rate".toList 5
  buffer := paramDbl srv "ros/tf/buffer_duration".toList 5
  filterQueue := paramInt round srv "ros/filter_queue_size".toList 1000
  subscrQueue := paramInt round srv "ros/subscribers_queue_size".toList 1000
  skipExceeding := props.bool "in/lscan2D/skip_exceeding_vals".toList false
  trigCache := props.bool "slam/performance/use_trig_cache".toList false

/-- A message that is sent: a transform (`tf::StampedTransform`), or the map (`nav_msgs::OccupancyGrid`: its frame, the time it was
loaded, and the rest). -/
inductive Out where
  | transform (stamp : Stamp) (frame child : Str) (t : Tr)
  | grid (frame : Str) (loaded : Stamp) (m : Dump.GridMsg ℝ)

/-- A node after its `main` has come to `ros::spin`: `stamped` tells whether the robot pose is sent with the stamp of the scan
(gmapping.cpp:39-42) or of the moment; the publishers, the SLAM, and what was sent. -/
structure Node (P : Engine) where
  setup : Setup
  stamped : Bool
  correction : Pub.Publisher
  observed : Stamp
  maps : Dump.Publisher ℝ
  slam : P.S
  sent : List Out

/-- The rest of `main` after the SLAM is made, single_hypoth_slam_node.cpp:40-64, credibilist/slam.cpp:25-47, gmapping.cpp:24-50. -/
noncomputable def start (P : Engine) (stamped : Bool) (setup : Setup) : Node P :=
  ⟨setup, stamped, Pub.Publisher.start, (0, 0), ⟨0, []⟩, P.start, []⟩

/-- `main` of the single-hypothesis node, single_hypoth_slam_node.cpp:34-64: `make` is `init_1h_slam` with the flags of the observer of
scans. `none`: an exception, or the stack is exhausted by properties files. -/
noncomputable def mainOneHypothesis (F : Config.Files) (fuel : Nat) (names : Config.Table → List Str) (round : ℝ → Int)
    (stod : Str → Option ℝ) (make : Provider ℝ → Bool → Option Engine) (srv : Server ℝ) : Option ((P : Engine) × Node P) :=
  (Config.nodeInit F fuel names srv).bind fun srv =>
    let props : Provider ℝ := .ofServer round stod srv
    let setup := setupOf round props srv
    (make props setup.skipExceeding).map fun P => ⟨P, start P false setup⟩

/-- `main` of the other nodes: the credibilist one (`stamped = false`, credibilist/slam.cpp:19-48) and GMapping (`stamped = true`,
gmapping.cpp:18-51). -/
noncomputable def mainLaunched (stamped : Bool) (round : ℝ → Int) (stod : Str → Option ℝ)
    (make : Provider ℝ → Bool → Option Engine) (srv : Server ℝ) : Option ((P : Engine) × Node P) :=
  let props : Provider ℝ := .ofServer round stod srv
  let setup := setupOf round props srv
  (make props setup.skipExceeding).map fun P => ⟨P, start P stamped setup⟩

/-! ## Delivery of a scan -/

/-- The values of `ros::Time::now()` while a scan is handled: pose_correction_tf_publisher.h:63, robot_pose_observers.h:31,
occupancy_grid_publisher.h:20,26,49. -/
structure Clock where
  correction : Stamp
  pose : Stamp
  checked : Stamp
  loaded : Stamp
  stored : Stamp

/-- A scan for which `transformed_msg_cb` is called: `lookup target source sec nsec` is what the listener of transforms answers at that
time, `none` if it throws. -/
structure Delivery where
  msg : LaserMsg
  lookup : Str → Str → Nat → Nat → Option Tr
  clock : Clock

/-- `notify_with_map`, world.h:56-58, with its observer, occupancy_grid_publisher.h:19-50. -/
noncomputable def Node.onMap {P : Engine} (n : Node P) (d : Delivery) (v : Dump.MapView ℝ) : Node P :=
  let maps := n.maps.onMapUpdate n.setup.interval (v, d.clock.checked.secs, d.clock.stored.secs)
  { n with
    maps := maps
    sent := n.sent ++ (maps.sent.drop n.maps.sent.length).map fun m => .grid n.setup.mapFrame d.clock.loaded m.2 }

/-- `notify_with_pose`, world.h:52-54, with its observers in the order of their subscription: pose_correction_tf_publisher.h:39-48,60-66,
robot_pose_observers.h:18-26,30-32,57-59. -/
noncomputable def Node.onPose {P : Engine} (n : Node P) (d : Delivery) (pose : Poses.Pose ℝ) : Node P :=
  let corr := n.correction.onPoseUpdate (pubPose pose)
  { n with
    correction := corr
    sent := n.sent ++ [.transform d.clock.correction n.setup.mapFrame n.setup.odomFrame corr.map2odom,
      .transform (if n.stamped then n.observed else d.clock.pose) n.setup.mapFrame n.setup.robotFrame (pubPose pose).tr] }

/-- The observers of the topic in the order of their subscription, topic_with_transform.h:67-71: the publisher of corrections
(pose_correction_tf_publisher.h:31-37), with GMapping the publisher of stamped poses (robot_pose_observers.h:48-53), and the observer
of scans (laser_scan_observer.h:28-39) with `handle_sensor_data` (laser_scan_grid_world.h:26-32, gmapping_particle_filter.h:45-50). -/
noncomputable def Node.onTransformed {P : Engine} (n : Node P) (d : Delivery) (t : Tr) : Option (Node P) :=
  let n := { n with correction := n.correction.handleMsg t }
  let n := if n.stamped then { n with observed := (d.msg.sec, d.msg.nsec) } else n
  (P.handle n.slam (planar t, d.msg.body)).bind fun s =>
    let n := { n with slam := s }
    (P.pose s).bind fun pose =>
      let n := n.onPose d pose
      (P.view s).map fun v => n.onMap d v

/-- `transformed_msg_cb`, topic_with_transform.h:49-72. -/
noncomputable def Node.onMsg {P : Engine} (n : Node P) (d : Delivery) : Option (Node P) :=
  match d.lookup n.setup.odomFrame d.msg.frame d.msg.sec d.msg.nsec with
  | none => some n
  | some t => n.onTransformed d t

/-- The scans delivered one after another. `none`: the node has been aborted. -/
noncomputable def Node.run {P : Engine} (n : Node P) : List Delivery → Option (Node P)
  | [] => some n
  | d :: ds => (n.onMsg d).bind fun n => n.run ds

end Slam.Online
