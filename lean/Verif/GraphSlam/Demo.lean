import Verif.GraphSlam.Total
import Verif.GraphSlam.Frame
import Verif.Whole.Instances
import Verif.Matcher.MonteCarlo

/-!
# C106: matchers and histories to which the theorems apply
-/

set_option autoImplicit false
set_option linter.unusedSectionVars false

namespace Slam.GraphSlam
open Slam.Grid Slam.Cells Slam.Poses Slam.Sensor Slam.Score Slam.ScanAdder Slam.Worlds Slam.Matcher Slam.Whole Slam.Tbm
open Slam.ScanMatch (monteCarlo MCState)

/-- The matcher that does nothing. -/
theorem idle_suits (i : Impact) : Suits (idleMachine (BaseCell ℝ)) i 0 where
  safe := idle_safe (cfg := ⟨⟨0, 0⟩, .obstacle, baseImpact i, 1⟩)
  near := idle_reads _
  keeps := idle_keeps (cfg := ⟨⟨0, 0⟩, .obstacle, baseImpact i, 1⟩)

/-- The Monte Carlo matcher, with random shifts of at most `b`, trying at most `maxPoses` poses. -/
theorem monte_carlo_suits (i : Impact) (cfg : Matcher.Cfg (BaseCell ℝ)) (hi : cfg.imp = baseImpact i) (hf : 0 < cfg.cellFuel)
    (maxFailed maxPoses : Nat) (trans rot : ℝ) (sample : Nat → ℝ → ℝ → Delta ℝ) (b : ℝ) (hb : 0 ≤ b)
    (hsam : ∀ n x y, WithinShift b (sample n x y)) :
    Suits (enumMachine cfg (monteCarlo maxFailed maxPoses trans rot sample) (maxPoses + 1)) i (maxPoses * b) where
  safe := hi ▸ monte_carlo_safe hf maxFailed maxPoses trans rot sample b hb hsam
  near := (monte_carlo_local hf maxFailed maxPoses trans rot sample b hb hsam (maxPoses + 1)).1
  keeps := hi ▸ enum_keeps _ _

/-- A configuration: constant estimations, the Monte Carlo matcher with ten poses at most. -/
noncomputable def demoCfg (sample : Nat → ℝ → ℝ → Delta ℝ) : GraphCfg (MCState ℝ) where
  adder := ⟨constEstimate ⟨95 / 100, 1⟩ ⟨1 / 100, 1⟩, 0, none⟩
  ok := fun v => decide (|v| ≤ 1000000)
  fuel := 100000
  margin := 0
  machine := enumMachine ⟨⟨0, -1⟩, .obstacle, baseImpact .discrepancy, 1⟩ (monteCarlo 5 10 (1 / 10) (1 / 10) sample) 11
  skipMax := false
  tol := 0

/-- Three beams, up to thirty metres. -/
noncomputable def demoMsg : Msg ℝ := ⟨0, 2, 1, 1 / 10, 30, [some 4, some 50, some 0]⟩

/-- A robot driving along the x axis, thirty centimetres between messages. -/
noncomputable def drivePose (n : Nat) : Poses.Pose ℝ := ⟨3 / 10 * (n + 1), 0, 0⟩

/-- The theorem applies: a robot driving away for ever, with any number of messages, is tracked. -/
theorem demo_total (sample : Nat → ℝ → ℝ → Delta ℝ) (hsam : ∀ n x y, WithinShift (1 / 2) (sample n x y)) (e : MCState ℝ) (n : Nat) :
    ∃ s, (GraphSt.start none (.even 0) e).run (demoCfg sample) ((List.range n).map fun i => (drivePose i, demoMsg)) = some s := by
  have hmsg : GoodMsg (demoCfg sample).slam 30 demoMsg := by
    refine ⟨by simp [demoMsg], by norm_num [demoMsg, GraphCfg.slam, demoCfg], by norm_num [demoMsg], by norm_num [demoMsg], ?_⟩
    intro pts h
    rcases pts with _ | ⟨p, pts⟩
    · left; rfl
    · right; simp [GraphCfg.slam, demoCfg]
  obtain ⟨s, h, -⟩ := graph_slam_total (cfg := demoCfg sample) (i := .discrepancy) (b := (10 : Nat) * (1 / 2 : ℝ)) (R := 30) (D := 1)
    (monte_carlo_suits .discrepancy ⟨⟨0, -1⟩, .obstacle, baseImpact .discrepancy, 1⟩ rfl Nat.one_pos 5 10 (1 / 10) (1 / 10)
      sample (1 / 2) (by norm_num) hsam)
    (const_sound _ _ ⟨⟨by norm_num, by norm_num⟩, ⟨by norm_num, by norm_num⟩⟩ ⟨⟨by norm_num, by norm_num⟩, ⟨by norm_num, by norm_num⟩⟩ _ _ _)
    (const_tells _ _ _ _ _)
    (fun v hv => by simp only [demoCfg, decide_eq_true_eq]; omega) (by simp [demoCfg]) (by norm_num) (by norm_num) (by norm_num)
    (hist := none) (by intro _ h; cases h) (w := .even 0) (by intro _ h; cases h) e
    ((List.range n).map fun i => (drivePose i, demoMsg)) (by
      intro d hd
      obtain ⟨i, -, rfl⟩ := List.mem_map.1 hd
      exact hmsg) (by
      intro i a b ha hb
      rw [List.getElem?_map, Option.map_eq_some_iff] at ha hb
      obtain ⟨j, j1, rfl⟩ := ha
      obtain ⟨k, k1, rfl⟩ := hb
      obtain ⟨l1, e1⟩ := List.getElem?_eq_some_iff.1 j1
      obtain ⟨l2, e2⟩ := List.getElem?_eq_some_iff.1 k1
      rw [List.getElem_range] at e1 e2
      subst e1 e2
      simp only [drivePose]
      push_cast
      constructor
      · have : (3 / 10 * ((i : ℝ) + 1 + 1) - 3 / 10 * (i + 1)) = 3 / 10 := by ring
        rw [this]; norm_num
      · norm_num)
  exact ⟨s, h⟩

/-- Nodes are created at every other message. -/
example : NodeTimes (moves [drivePose 0, drivePose 1, drivePose 2, drivePose 3]) 0 [1, 3] := by
  have e : moves [drivePose 0, drivePose 1, drivePose 2, drivePose 3] =
      [⟨3 / 10, 0, 0⟩, ⟨3 / 10, 0, 0⟩, ⟨3 / 10, 0, 0⟩, ⟨3 / 10, 0, 0⟩] := by
    simp [moves, drivePose, Poses.Pose.sub, Poses.Pose.zero]
    norm_num
  rw [e]
  refine ⟨by norm_num, by norm_num, fun j _ h => ?_, ?_, by norm_num, by norm_num, fun j h1 h2 => ?_, ?_, fun j h1 h2 => ?_⟩
  · interval_cases j
    norm_num [Small, stretch, total, abs_of_pos]
  · norm_num [Small, stretch, total, abs_of_pos]
  · interval_cases j
    norm_num [Small, stretch, total, abs_of_pos]
  · norm_num [Small, stretch, total, abs_of_pos]
  · simp at h2
    omega

/-- Going back and forth creates no node: the motion counted is the signed one. -/
theorem node_times_signed_counterexample : NodeTimes (moves [⟨2 / 5, 0, 0⟩, ⟨0, 0, 0⟩, ⟨2 / 5, 0, 0⟩, ⟨0, 0, 0⟩]) 0 [] := by
  have e : moves [⟨2 / 5, 0, 0⟩, ⟨0, 0, 0⟩, ⟨2 / 5, 0, 0⟩, ⟨0, 0, 0⟩] =
      [⟨2 / 5, 0, 0⟩, ⟨-(2 / 5), 0, 0⟩, ⟨2 / 5, 0, 0⟩, ⟨-(2 / 5), 0, 0⟩] := by
    simp [moves, Poses.Pose.sub, Poses.Pose.zero]
  rw [e]
  intro j _ h
  simp at h
  interval_cases j <;> norm_num [Small, stretch, total, abs_of_pos]

end Slam.GraphSlam
