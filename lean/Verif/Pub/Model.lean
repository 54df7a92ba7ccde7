import Mathlib.Analysis.SpecialFunctions.Trigonometric.Basic
import Mathlib.Data.Matrix.Mul
import Mathlib.LinearAlgebra.Matrix.Notation

/-!
# Model of the publisher of the correction

`PoseCorrectionTfPublisher` (src/ros/pose_correction_tf_publisher.h) and the order of the observers of a topic
(src/ros/topic_with_transform.h). `tf::Transform` is a matrix and an origin, with exact real numbers.
-/

set_option autoImplicit false
set_option linter.unusedSectionVars false

namespace Slam.Pub

open Matrix

/-- `tf::Transform`. -/
@[ext] structure Tr where
  basis : Matrix (Fin 3) (Fin 3) ℝ
  origin : Fin 3 → ℝ

/-- `tf::Transform::operator*`. -/
def Tr.mul (a b : Tr) : Tr := ⟨a.basis * b.basis, a.basis *ᵥ b.origin + a.origin⟩

/-- `tf::Transform::inverse`: the transposed matrix. -/
def Tr.inv (a : Tr) : Tr := ⟨a.basisᵀ, a.basisᵀ *ᵥ (-a.origin)⟩

/-- `tf::Transform::operator()` of a point. -/
def Tr.apply (a : Tr) (p : Fin 3 → ℝ) : Fin 3 → ℝ := a.basis *ᵥ p + a.origin

/-- The matrix of `tf::createQuaternionFromRPY(0, 0, yaw)`. -/
noncomputable def yaw (θ : ℝ) : Matrix (Fin 3) (Fin 3) ℝ :=
  !![Real.cos θ, -Real.sin θ, 0; Real.sin θ, Real.cos θ, 0; 0, 0, 1]

/-- `RobotPose`. -/
structure Pose where
  x : ℝ
  y : ℝ
  θ : ℝ

/-- The transform of a pose, pose_correction_tf_publisher.h:40-42 before `inverse`. -/
noncomputable def Pose.tr (p : Pose) : Tr := ⟨yaw p.θ, ![p.x, p.y, 0]⟩

/-- `_last_odom2base`, `_map2odom`, and what was sent. -/
structure Publisher where
  lastOdom2base : Tr
  map2odom : Tr
  sent : List Tr

/-- The constructor, pose_correction_tf_publisher.h:20-23. -/
noncomputable def Publisher.start : Publisher := ⟨⟨yaw 0, 0⟩, ⟨yaw 0, 0⟩, []⟩

/-- `getOrigin().setZ(0)`. -/
def Tr.flat (t : Tr) : Tr := ⟨t.basis, ![t.origin 0, t.origin 1, 0]⟩

/-- `handle_transformed_msg`, pose_correction_tf_publisher.h:31-37. -/
def Publisher.handleMsg (p : Publisher) (t : Tr) : Publisher := { p with lastOdom2base := t.flat }

/-- `on_pose_update`, pose_correction_tf_publisher.h:39-48, in one thread. -/
noncomputable def Publisher.onPoseUpdate (p : Publisher) (pose : Pose) : Publisher :=
  let base2map := pose.tr.inv
  let map2odom := (p.lastOdom2base.mul base2map).inv
  { p with map2odom := map2odom, sent := p.sent ++ [map2odom] }

/-- One message for the observers of the topic in the order of their subscription, topic_with_transform.h:45-47,67-71:
the publisher, and the SLAM, which reports its new pose to the publisher. `publisherFirst` is the order of
single_hypoth_slam_node.cpp:54-61, the other one that of vinyx_slam.cpp:41-46. -/
noncomputable def Publisher.onMsg (publisherFirst : Bool) (p : Publisher) (t : Tr) (pose : Pose) : Publisher :=
  if publisherFirst then (p.handleMsg t).onPoseUpdate pose else (p.onPoseUpdate pose).handleMsg t

end Slam.Pub
