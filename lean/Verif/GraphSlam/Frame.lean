import Verif.GraphSlam.Props
import Mathlib.Analysis.SpecialFunctions.Trigonometric.Angle

/-!
# C106: where the two scans meet, and moving the origin
-/

set_option autoImplicit false
set_option linter.unusedSectionVars false

namespace Slam.GraphSlam
open Slam.Grid Slam.Cells Slam.Poses Slam.Sensor Slam.Score Slam.ScanAdder Slam.Worlds Slam.Matcher Slam.Whole

variable {T : Type}

/-! ## The frame of the refinement -/

/-- The point of the scan is the landmark `W`, seen by a robot at `p`. -/
def Sees (p : Poses.Pose ℝ) (sp : ScanPoint) (W : Grid.Point ℝ) : Prop := seenAt p sp = W

/-- The motion, turned by the angle. -/
noncomputable def turned (a : ℝ) (d : Delta ℝ) : Grid.Point ℝ :=
  ⟨Real.cos a * d.x - Real.sin a * d.y, Real.sin a * d.x + Real.cos a * d.y⟩

/-- **C106: the rasterised scan is displaced.** Let the odometry be exact and let both scans see the same landmark. In the
rasterised map the landmark is where the matcher sees it from the pose it starts at, plus the difference between the motion turned
by the current heading backwards and the motion itself - wherever the landmark is. -/
theorem refinement_offset (p motion : Poses.Pose ℝ) (W : Grid.Point ℝ) (before now : ScanPoint)
    (hb : Sees p before W) (hn : Sees (p.add motion) now W) :
    (seenAt Poses.Pose.zero now).x = (seenAt (motion.neg) before).x + (motion.x - (turned (-(p.theta + motion.theta)) motion).x) ∧
    (seenAt Poses.Pose.zero now).y = (seenAt (motion.neg) before).y + (motion.y - (turned (-(p.theta + motion.theta)) motion).y) := by
  have hb' : seenAt p before = W := hb
  have hn' : seenAt (p.add motion) now = W := hn
  have e := hn'.trans hb'.symm
  simp only [seenAt, Poses.Pose.add, Grid.Point.mk.injEq] at e
  obtain ⟨ex, ey⟩ := e
  have h1 := Real.cos_sq_add_sin_sq (p.theta + motion.theta)
  have c1 : Real.cos p.theta = Real.cos (p.theta + motion.theta) * Real.cos motion.theta +
      Real.sin (p.theta + motion.theta) * Real.sin motion.theta := by
    rw [← Real.cos_sub]; congr 1; ring
  have s1 : Real.sin p.theta = Real.sin (p.theta + motion.theta) * Real.cos motion.theta -
      Real.cos (p.theta + motion.theta) * Real.sin motion.theta := by
    rw [← Real.sin_sub]; congr 1; ring
  rw [c1, s1] at ex ey
  simp only [seenAt, Poses.Pose.zero, Poses.Pose.neg, turned, Real.cos_neg, Real.sin_neg, Real.cos_zero, Real.sin_zero]
  generalize Real.cos (p.theta + motion.theta) = C at *
  generalize Real.sin (p.theta + motion.theta) = S at *
  generalize Real.cos motion.theta = c at *
  generalize Real.sin motion.theta = s at *
  constructor
  · linear_combination C * ex + S * ey + (c * before.x + s * before.y - now.x) * h1
  · linear_combination (-S) * ex + C * ey + (c * before.y - s * before.x - now.y) * h1

/-- **C106: when the two scans meet.** With exact odometry, the landmark is where the matcher looks for it exactly if the robot has
not moved from its place, or its heading is a multiple of a full turn. -/
theorem refinement_aligned_iff (p motion : Poses.Pose ℝ) (W : Grid.Point ℝ) (before now : ScanPoint)
    (hb : Sees p before W) (hn : Sees (p.add motion) now W) :
    seenAt Poses.Pose.zero now = seenAt (motion.neg) before ↔
      (motion.x = 0 ∧ motion.y = 0) ∨ ∃ n : ℤ, p.theta + motion.theta = n * (2 * Real.pi) := by
  obtain ⟨ox, oy⟩ := refinement_offset p motion W before now hb hn
  have hpt : seenAt Poses.Pose.zero now = seenAt (motion.neg) before ↔
      (motion.x = (turned (-(p.theta + motion.theta)) motion).x ∧ motion.y = (turned (-(p.theta + motion.theta)) motion).y) := by
    constructor
    · intro h
      rw [h] at ox oy
      exact ⟨by linarith, by linarith⟩
    · rintro ⟨h1, h2⟩
      have hx : (seenAt Poses.Pose.zero now).x = (seenAt (motion.neg) before).x := by linarith
      have hy : (seenAt Poses.Pose.zero now).y = (seenAt (motion.neg) before).y := by linarith
      cases ha : seenAt Poses.Pose.zero now
      cases hb' : seenAt (motion.neg) before
      rw [ha, hb'] at hx hy
      simp only [Grid.Point.mk.injEq]
      exact ⟨hx, hy⟩
  rw [hpt]
  simp only [turned, Real.cos_neg, Real.sin_neg]
  have h1 := Real.cos_sq_add_sin_sq (p.theta + motion.theta)
  constructor
  · rintro ⟨h2, h3⟩
    by_cases h0 : motion.x = 0 ∧ motion.y = 0
    · exact .inl h0
    · right
      have hpos : 0 < motion.x ^ 2 + motion.y ^ 2 := by
        rcases not_and_or.1 h0 with h | h
        · have := sq_nonneg motion.y; have := pow_pos (abs_pos.2 h) 2; rw [sq_abs] at this; linarith
        · have := sq_nonneg motion.x; have := pow_pos (abs_pos.2 h) 2; rw [sq_abs] at this; linarith
      have hc : (Real.cos (p.theta + motion.theta) - 1) * (motion.x ^ 2 + motion.y ^ 2) = 0 := by
        linear_combination (-motion.x) * h2 + (-motion.y) * h3
      have hcos : Real.cos (p.theta + motion.theta) = 1 := by
        rcases mul_eq_zero.1 hc with h | h
        · linarith
        · exact absurd h hpos.ne'
      obtain ⟨n, hn⟩ := (Real.cos_eq_one_iff _).1 hcos
      exact ⟨n, hn.symm⟩
  · rintro (⟨h2, h3⟩ | ⟨n, hn⟩)
    · rw [h2, h3]; simp
    · have hcos : Real.cos (p.theta + motion.theta) = 1 := (Real.cos_eq_one_iff _).2 ⟨n, hn.symm⟩
      have hsin : Real.sin (p.theta + motion.theta) = 0 := by
        rw [hcos] at h1
        have : Real.sin (p.theta + motion.theta) ^ 2 = 0 := by linarith
        exact pow_eq_zero_iff (two_ne_zero) |>.1 this
      rw [hcos, hsin]
      constructor <;> ring

/-- **C106: refinement against the odometry (counterexample).** A robot heading along the y axis drives one metre forwards, without
any slip, and sees a landmark three metres ahead before and two metres ahead afterwards: in the rasterised map the landmark is at
(3, -1), the matcher looks for it at (2, 0). -/
theorem refinement_frame_counterexample :
    Sees ⟨0, 0, Real.pi / 2⟩ (.polar 3 0 true 1) ⟨0, 3⟩ ∧ Sees ⟨0, 1, Real.pi / 2⟩ (.polar 2 0 true 1) ⟨0, 3⟩ ∧
    seenAt (Poses.Pose.neg (Poses.Pose.sub (⟨0, 1, Real.pi / 2⟩ : Poses.Pose ℝ) ⟨0, 0, Real.pi / 2⟩)) (.polar 3 0 true 1) = ⟨3, -1⟩ ∧
    seenAt Poses.Pose.zero (.polar 2 0 true 1) = ⟨2, 0⟩ := by
  refine ⟨?_, ?_, ?_, ?_⟩ <;>
    simp [Sees, seenAt, ScanPoint.x, ScanPoint.y, Poses.Pose.neg, Poses.Pose.sub, Poses.Pose.zero] <;> norm_num

/-! ## Moving the origin -/

/-- The graph with all poses moved. -/
noncomputable def shiftGraph (v : Delta ℝ) (g : Graph ℝ) : Graph ℝ :=
  ⟨g.current, g.nodes.map fun n => ⟨n.pose.add v, n.edges⟩, g.edges⟩

/-- The state with all poses of the world moved; the odometry is what it was. -/
noncomputable def GraphSt.shift (v : Delta ℝ) (s : GraphSt T) : GraphSt T :=
  { s with
    pose := s.pose.add v
    graph := shiftGraph v s.graph }

theorem shift_addNode (v : Delta ℝ) (g : Graph ℝ) (p : Poses.Pose ℝ) :
    (shiftGraph v g).addNode (p.add v) = (g.addNode p).map (shiftGraph v) := by
  have hlink : ∀ (l : List (Node ℝ)) (n e : Nat), linkEdge (l.map fun n => (⟨n.pose.add v, n.edges⟩ : Node ℝ)) n e =
      (linkEdge l n e).map fun n => ⟨n.pose.add v, n.edges⟩ := by
    intro l n e
    unfold linkEdge
    apply List.ext_getElem?
    intro i
    rw [List.getElem?_modify, List.getElem?_map, List.getElem?_map, List.getElem?_modify]
    cases l[i]? with
    | none => rfl
    | some x =>
      simp only [Option.map_some, Option.map_map]
      by_cases h : n = i
      · simp [h]
      · simp [h]
  have hsub : ∀ a b : Poses.Pose ℝ, (a.add v).sub (b.add v) = a.sub b := by
    intro a b
    ext <;> simp [Poses.Pose.add, Poses.Pose.sub]
  obtain ⟨cur, nodes, edges⟩ := g
  unfold Graph.addNode shiftGraph
  cases cur with
  | none => simp
  | some c =>
    have hl : (nodes.map fun n => (⟨n.pose.add v, n.edges⟩ : Node ℝ)) ++ [⟨p.add v, []⟩] =
        (nodes ++ [(⟨p, []⟩ : Node ℝ)]).map fun n => (⟨n.pose.add v, n.edges⟩ : Node ℝ) := by simp
    simp only [Graph.addEdge, hl, List.length_map, List.getElem?_map]
    generalize nodes ++ [(⟨p, []⟩ : Node ℝ)] = l
    cases l[nodes.length]? with
    | none => rfl
    | some a =>
      cases l[c]? with
      | none => rfl
      | some b => simp [hlink, hsub]

theorem shift_handle (cfg : GraphCfg T) (v : Delta ℝ) (s : GraphSt T) (d : Poses.Pose ℝ × Msg ℝ) :
    (s.shift v).handle cfg d = (s.handle cfg d).map (GraphSt.shift v) := by
  unfold GraphSt.handle
  cases msg2scan d.2 cfg.skipMax cfg.tol with
  | none => rfl
  | some pts =>
    simp only [Option.bind_some]
    cases scanOf pts with
    | none => rfl
    | some scan =>
      simp only [Option.bind_some]
      have hr : cfg.refine (s.shift v) (observerStep (s.shift v).odom d.1).2 scan = cfg.refine s (observerStep s.odom d.1).2 scan := rfl
      rw [hr]
      cases cfg.refine s (observerStep s.odom d.1).2 scan with
      | none => rfl
      | some r =>
        simp only [Option.bind_some]
        have hp : ((s.shift v).pose.add (observerStep (s.shift v).odom d.1).2).add r.1 =
            ((s.pose.add (observerStep s.odom d.1).2).add r.1).add v := by
          simp only [GraphSt.shift]
          ext <;> simp [Poses.Pose.add] <;> ring
        rw [hp]
        have hg : (s.shift v).graph = shiftGraph v s.graph := rfl
        have ho : (s.shift v).odom = s.odom := rfl
        have ha : (s.shift v).acc = s.acc := rfl
        rw [hg, ho, ha, shift_addNode]
        by_cases hb : (oracle ⟨1 / 2, 1 / 2, 1 / 2⟩ s.acc (observerStep s.odom d.1).2).2 = true
        · rw [if_pos hb, if_pos hb]
          cases s.graph.addNode ((s.pose.add (observerStep s.odom d.1).2).add r.1) <;> rfl
        · rw [if_neg hb, if_neg hb]
          rfl

/-- **C106: the graph SLAM does not depend on where it starts.** Started at another pose it creates the same graph, with the same
edges, all poses being moved by the same offset. -/
theorem graph_slam_shift (cfg : GraphCfg T) (v : Delta ℝ) (ds : List (Poses.Pose ℝ × Msg ℝ)) (s : GraphSt T) :
    (s.shift v).run cfg ds = (s.run cfg ds).map (GraphSt.shift v) := by
  induction ds generalizing s with
  | nil => rfl
  | cons d ds ih =>
    simp only [GraphSt.run, shift_handle]
    cases s.handle cfg d with
    | none => rfl
    | some s1 => exact ih s1

end Slam.GraphSlam
