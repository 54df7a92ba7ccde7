import Verif.Particle.Model
import Mathlib.Tactic.Ring
import Mathlib.Analysis.SpecialFunctions.Trigonometric.Basic

/-!
# C41: odometry of GMapping worlds
-/

set_option autoImplicit false
set_option linter.unusedSectionVars false

namespace Slam.Particle
open Slam.Poses

/-- Specification: the rigid motion of the plane that rotates by `a` and then shifts by `(tx, ty)`, applied to a
pose. -/
noncomputable def rigid (a tx ty : ℝ) (p : Pose ℝ) : Pose ℝ :=
  ⟨Real.cos a * p.x - Real.sin a * p.y + tx, Real.sin a * p.x + Real.cos a * p.y + ty, p.theta + a⟩

/-- C41: whatever the particle's state, one rigid motion relates its pose to the odometry pose it has integrated, from
now on, for every sequence of odometry increments; the odometry pose is the sum of the increments. -/
theorem odometry_related_by_one_rigid_motion (w : World ℝ) :
    ∃ a tx ty : ℝ, ∀ ds : List (Delta ℝ),
      let w' := ds.foldl (fun w d => w.updatePose Real.sin Real.cos d) w
      w'.pose = rigid a tx ty w'.rawOdom ∧ w'.rawOdom = ds.foldl Pose.add w.rawOdom := by
  refine ⟨w.pose.theta - w.rawOdom.theta,
    w.pose.x - (Real.cos (w.pose.theta - w.rawOdom.theta) * w.rawOdom.x -
      Real.sin (w.pose.theta - w.rawOdom.theta) * w.rawOdom.y),
    w.pose.y - (Real.sin (w.pose.theta - w.rawOdom.theta) * w.rawOdom.x +
      Real.cos (w.pose.theta - w.rawOdom.theta) * w.rawOdom.y), ?_⟩
  intro ds
  have key : ∀ (a tx ty : ℝ) (ds : List (Delta ℝ)) (w : World ℝ), w.pose = rigid a tx ty w.rawOdom →
      let w' := ds.foldl (fun w d => w.updatePose Real.sin Real.cos d) w
      w'.pose = rigid a tx ty w'.rawOdom ∧ w'.rawOdom = ds.foldl Pose.add w.rawOdom := by
    intro a tx ty ds
    induction ds with
    | nil => intro w h; exact ⟨h, rfl⟩
    | cons d ds ih =>
      intro w h
      simp only [List.foldl_cons]
      have h' : (w.updatePose Real.sin Real.cos d).pose = rigid a tx ty (w.updatePose Real.sin Real.cos d).rawOdom := by
        have hx := congrArg Pose.x h
        have hy := congrArg Pose.y h
        have ht := congrArg Pose.theta h
        simp only [rigid] at hx hy ht
        have hth : (w.pose.sub w.rawOdom).theta = a := by simp [Pose.sub, ht]
        unfold World.updatePose
        simp only [hth]
        simp only [rigid, Pose.add, Pose.mk.injEq]
        refine ⟨?_, ?_, ?_⟩
        · rw [hx]; ring
        · rw [hy]; ring
        · rw [ht]; ring
      exact ih _ h'
  apply key
  ext <;> simp [rigid]

/-- C41: hence distances between any two poses of the particle equal the distances between the corresponding odometry
poses, and heading changes agree. -/
theorem odometry_preserves_shape (a tx ty : ℝ) (p q : Pose ℝ) :
    ((rigid a tx ty p).sub (rigid a tx ty q)).sqDist = (p.sub q).sqDist ∧
    ((rigid a tx ty p).sub (rigid a tx ty q)).theta = (p.sub q).theta := by
  constructor
  · simp only [rigid, Pose.sub, Pose.sqDist]
    have := Real.sin_sq_add_cos_sq a
    have hs : Real.sin a ^ 2 = 1 - Real.cos a ^ 2 := by linarith
    ring_nf
    rw [hs]
    ring
  · simp [rigid, Pose.sub]

/-- Non-vacuity: a particle turned by a quarter against odometry moves along `y` when odometry reports `x`. -/
example : ((World.create (⟨0, 0, 0⟩ : Delta ℝ)).updatePose Real.sin Real.cos ⟨1, 0, 0⟩).pose = ⟨1, 0, 0⟩ ∧
    (({ World.create (⟨0, 0, 0⟩ : Delta ℝ) with pose := ⟨0, 0, Real.pi / 2⟩ }).updatePose Real.sin Real.cos
      ⟨1, 0, 0⟩).pose = ⟨0, 1, Real.pi / 2⟩ := by
  constructor <;> simp [World.updatePose, World.create, Pose.add, Pose.sub]

/-- The heading and coordinates of the poses a particle passes through while it integrates odometry. -/
def trace {K : Type*} [Field K] [LinearOrder K] (sn cs : K → K) : World K → List (Delta K) → List (Pose K)
  | w, [] => [w.pose]
  | w, d :: ds => w.pose :: trace sn cs (w.updatePose sn cs d) ds

/-- Specification: total variation of one coordinate along a list of poses. -/
def variation {K : Type*} [Field K] [LinearOrder K] (f : Pose K → K) : List (Pose K) → K
  | p :: q :: rest => |f q - f p| + variation f (q :: rest)
  | _ => 0

/-- C41: the distance a particle believes to have covered since its last processed scan is the total variation of its
own poses, coordinate by coordinate: motions in opposite directions do not cancel. -/
theorem traversed_is_total_variation {K : Type*} [Field K] [LinearOrder K] [IsStrictOrderedRing K] (sn cs : K → K)
    (ds : List (Delta K)) (w : World K) :
    let w' := ds.foldl (fun w d => w.updatePose sn cs d) w
    w'.deltaSince = ⟨w.deltaSince.x + variation Pose.x (trace sn cs w ds),
      w.deltaSince.y + variation Pose.y (trace sn cs w ds),
      w.deltaSince.theta + variation Pose.theta (trace sn cs w ds)⟩ := by
  induction ds generalizing w with
  | nil => simp [trace, variation]
  | cons d ds ih =>
    simp only [List.foldl_cons]
    rw [ih (w.updatePose sn cs d)]
    have ht : ∀ f, variation f (trace sn cs w (d :: ds)) =
        |f (w.updatePose sn cs d).pose - f w.pose| + variation f (trace sn cs (w.updatePose sn cs d) ds) := by
      intro f
      cases ds <;> rfl
    rw [ht, ht, ht]
    simp only [World.updatePose, Pose.add, Pose.abs, Pose.mk.injEq, add_sub_cancel_left]
    exact ⟨by ring, by ring, by ring⟩

example : (([⟨1, 0, 0⟩, ⟨-1, 0, 0⟩] : List (Delta ℚ)).foldl (fun w d => w.updatePose (fun _ => 0) (fun _ => 1) d)
    (World.create ⟨0, 0, 0⟩)).deltaSince = ⟨2, 0, 0⟩ := by
  decide +kernel

/-- C41, C57: what happens to one scan. A particle that has moved less than the distance *and* turned less than the angle it
is waiting for ignores it. Otherwise the pose changes by
the particle's guess (except for its first scan) and by the matcher's correction found at that guess; the scan is put into
the map at the corrected pose iff the matcher's probability is positive or it is the particle's first scan; the weight is
multiplied by the probability; the covered distance starts again from zero. -/
theorem observation_effect {K : Type*} [Field K] [LinearOrder K] [IsStrictOrderedRing K] (w : World K) (e : Env K) :
    (w.deltaSince.x ^ 2 + w.deltaSince.y ^ 2 < w.nextSm.x ^ 2 + w.nextSm.y ^ 2 ∧ |w.deltaSince.theta| < w.nextSm.theta →
      w.handleObservation e = (w, none)) ∧
    (w.nextSm.x ^ 2 + w.nextSm.y ^ 2 ≤ w.deltaSince.x ^ 2 + w.deltaSince.y ^ 2 ∨ w.nextSm.theta ≤ |w.deltaSince.theta| →
      let start := if w.scanFirst = true ∨ w.noisy = false then w.pose else w.pose.add e.guess
      let best := start.add (e.matcher start).1
      (w.handleObservation e).1.pose = best ∧
      (w.handleObservation e).1.deltaSince = ⟨0, 0, 0⟩ ∧
      (w.handleObservation e).1.rawOdom = w.rawOdom ∧
      ((w.handleObservation e).2 = some best ∨ (w.handleObservation e).2 = none) ∧
      ((w.handleObservation e).2 = some best ↔ w.scanFirst = true ∨ ∃ p, (e.matcher start).2 = some p ∧ 0 < p) ∧
      ((w.handleObservation e).1.scanFirst = true ↔ w.scanFirst = true ∧ (w.handleObservation e).2 = none) ∧
      (∀ p q, (e.matcher start).2 = some p → w.weight = some q → (w.handleObservation e).1.weight = some (p * q))) := by
  have hsq : ∀ d : Delta K, d.sqDist = d.x ^ 2 + d.y ^ 2 := by
    intro d; unfold Pose.sqDist; ring
  constructor
  · intro h
    have h : w.tooClose = true := by
      unfold World.tooClose
      rw [hsq, hsq, Bool.and_eq_true, decide_eq_true_eq, decide_eq_true_eq]
      exact h
    unfold World.handleObservation; rw [h]; rfl
  · intro h
    have h : w.tooClose = false := by
      unfold World.tooClose
      rw [hsq, hsq, Bool.and_eq_false_iff, decide_eq_false_iff_not, decide_eq_false_iff_not, not_lt, not_lt]
      exact h
    have hpos : ∀ r : Option K, positive r = true ↔ ∃ p, r = some p ∧ 0 < p := by
      intro r; cases r <;> simp [positive]
    cases hf : w.scanFirst <;> cases hn : w.noisy
    · have hz : w.pose.add ⟨0, 0, 0⟩ = w.pose := by simp [Pose.add]
      simp only [World.handleObservation, h, hf, hn, hz, Bool.false_eq_true, if_false, or_true, if_true, false_or, Bool.or_false, hpos]
      cases hp : (e.matcher w.pose).2 with
      | none => simp [positive, mulN]
      | some p => by_cases h0 : 0 < p <;> simp [positive, mulN, h0] <;> (rintro p' q rfl hq; rw [hq])
    · simp only [World.handleObservation, h, hf, hn, Bool.false_eq_true, if_false, or_self, if_true, false_or, Bool.or_false, hpos, reduceCtorEq]
      cases hp : (e.matcher (w.pose.add e.guess)).2 with
      | none => simp [positive, mulN]
      | some p => by_cases h0 : 0 < p <;> simp [positive, mulN, h0] <;> (rintro p' q rfl hq; rw [hq])
    · simp [World.handleObservation, h, hf, hn]
      rintro p q h1 h2; rw [h1, h2]; rfl
    · simp [World.handleObservation, h, hf, hn]
      rintro p q h1 h2; rw [h1, h2]; rfl

example : (World.create (⟨0, 0, 0⟩ : Delta ℚ)).tooClose = false := by decide +kernel

end Slam.Particle
