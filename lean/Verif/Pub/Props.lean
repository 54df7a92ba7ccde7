import Mathlib.Tactic.Linarith
import Mathlib.Tactic.NormNum
import Mathlib.Tactic.Ring
import Mathlib.Tactic.FinCases
import Mathlib.LinearAlgebra.Matrix.NonsingularInverse
import Verif.Pub.Model

/-!
# The published correction (C48, one thread)
-/

set_option autoImplicit false
set_option linter.unusedSectionVars false

namespace Slam.Pub

open Matrix

/-- A rotation or reflection: what the matrices of transforms are. -/
def Tr.IsRigid (t : Tr) : Prop := t.basisᵀ * t.basis = 1

theorem yaw_rigid (θ : ℝ) : (yaw θ)ᵀ * yaw θ = 1 := by
  have h := Real.sin_sq_add_cos_sq θ
  ext i j
  fin_cases i <;> fin_cases j <;> simp [yaw, Matrix.mul_apply, Fin.sum_univ_three] <;> nlinarith

theorem mul_inv_rigid (a b : Tr) (ha : a.IsRigid) (hb : b.IsRigid) : ((a.mul b.inv).inv).mul a = b := by
  have hb' : b.basis * b.basisᵀ = 1 := mul_eq_one_comm.1 hb
  unfold Tr.IsRigid at ha
  ext1
  · simp only [Tr.mul, Tr.inv, Matrix.transpose_mul, Matrix.transpose_transpose]
    rw [Matrix.mul_assoc, ha, Matrix.mul_one]
  · simp only [Tr.mul, Tr.inv, Matrix.transpose_mul, Matrix.transpose_transpose, Matrix.mulVec_neg,
      Matrix.mulVec_add, Matrix.mulVec_mulVec, neg_add_rev, neg_neg]
    have : b.basis * a.basisᵀ * (a.basis * b.basisᵀ) = 1 := by
      rw [Matrix.mul_assoc, ← Matrix.mul_assoc a.basisᵀ, ha, Matrix.one_mul, hb']
    rw [this, Matrix.one_mulVec]
    abel

/-- **The correction composes to the estimated pose (C48)**: after a message with the transform `t` of the base in the
odometry frame and the new pose, the transform sent, applied after `t` (with its height set to zero), is the pose:
every point of the robot is where the estimate puts it. -/
theorem correction_composes (p : Publisher) (t : Tr) (pose : Pose) (ht : t.IsRigid) :
    ∃ corr, (p.onMsg true t pose).sent = p.sent ++ [corr] ∧ corr.mul t.flat = pose.tr ∧
      ∀ q, corr.apply (t.flat.apply q) = pose.tr.apply q := by
  have hflat : t.flat.IsRigid := ht
  have hpose : pose.tr.IsRigid := yaw_rigid pose.θ
  have h := mul_inv_rigid t.flat pose.tr hflat hpose
  refine ⟨_, rfl, h, fun q => ?_⟩
  have key : ∀ (a b : Tr) (q : Fin 3 → ℝ), a.apply (b.apply q) = (a.mul b).apply q := by
    intro a b q
    simp only [Tr.apply, Tr.mul, Matrix.mulVec_add, Matrix.mulVec_mulVec]
    abel
  rw [key]
  exact congrArg (fun c : Tr => c.apply q) h

/-- **The height does not matter (C48)**: if the base only turns about the vertical axis in the odometry frame, the
correction composed with the transform as it was received has the estimated rotation and horizontal position. -/
theorem correction_composes_horizontally (p : Publisher) (x y z θ : ℝ) (pose : Pose) :
    ∃ corr, (p.onMsg true ⟨yaw θ, ![x, y, z]⟩ pose).sent = p.sent ++ [corr] ∧
      (corr.mul ⟨yaw θ, ![x, y, z]⟩).basis = yaw pose.θ ∧
      (corr.mul ⟨yaw θ, ![x, y, z]⟩).origin = ![pose.x, pose.y, z] := by
  obtain ⟨corr, h1, h2, -⟩ := correction_composes p ⟨yaw θ, ![x, y, z]⟩ pose (yaw_rigid θ)
  refine ⟨corr, h1, congrArg Tr.basis h2, ?_⟩
  have ho := congrArg Tr.origin h2
  have hb := congrArg Tr.basis h2
  have hcorr : corr.basis = yaw pose.θ * (yaw θ)ᵀ := by
    have : corr.basis * yaw θ = yaw pose.θ := hb
    have h3 := congrArg (fun m => m * (yaw θ)ᵀ) this
    rwa [Matrix.mul_assoc, mul_eq_one_comm.1 (yaw_rigid θ), Matrix.mul_one] at h3
  have hz : corr.basis *ᵥ ![0, 0, z] = ![0, 0, z] := by
    rw [hcorr, ← Matrix.mulVec_mulVec]
    have e1 : (yaw θ)ᵀ *ᵥ ![0, 0, z] = ![0, 0, z] := by
      funext i; fin_cases i <;> simp [yaw, Matrix.mulVec, dotProduct, Fin.sum_univ_three]
    have e2 : (yaw pose.θ) *ᵥ ![0, 0, z] = ![0, 0, z] := by
      funext i; fin_cases i <;> simp [yaw, Matrix.mulVec, dotProduct, Fin.sum_univ_three]
    rw [e1, e2]
  have hsplit : (![x, y, z] : Fin 3 → ℝ) = ![x, y, 0] + ![0, 0, z] := by
    funext i; fin_cases i <;> simp
  have ho' : corr.basis *ᵥ ![x, y, 0] + corr.origin = ![pose.x, pose.y, 0] := ho
  have hgoal : (corr.mul ⟨yaw θ, ![x, y, z]⟩).origin = corr.basis *ᵥ ![x, y, z] + corr.origin := rfl
  rw [hgoal, hsplit, Matrix.mulVec_add, hz]
  have : corr.basis *ᵥ ![x, y, 0] + ![0, 0, z] + corr.origin = ![pose.x, pose.y, 0] + ![0, 0, z] := by
    rw [← ho']; abel
  rw [this]
  funext i; fin_cases i <;> simp

example : (⟨yaw 1, ![2, 3, 4]⟩ : Tr).IsRigid := yaw_rigid 1

/-- If the SLAM is subscribed before the publisher, as in the vinyX node, the correction is computed with the
transform of the previous message: the first pose of a robot whose odometry says `(1, 0)` is corrected as if the
odometry said `(0, 0)`, and composes to `(2, 0)` for the estimate `(1, 0)`. -/
theorem slam_first_counterexample :
    let t : Tr := ⟨yaw 0, ![1, 0, 0]⟩
    let pose : Pose := ⟨1, 0, 0⟩
    ∃ corr, (Publisher.start.onMsg false t pose).sent = [corr] ∧ (corr.mul t.flat).origin 0 = 2 ∧
      pose.tr.origin 0 = 1 := by
  intro t pose
  refine ⟨_, rfl, ?_, by simp [pose, Pose.tr]⟩
  have h1 : yaw 0 = 1 := by
    ext i j
    fin_cases i <;> fin_cases j <;> simp [yaw]
  simp only [t, pose, Publisher.start, Tr.mul, Tr.inv, Tr.flat, Pose.tr, h1, Matrix.transpose_one, Matrix.one_mul,
    Matrix.mul_one, Matrix.one_mulVec]
  simp
  norm_num

end Slam.Pub
