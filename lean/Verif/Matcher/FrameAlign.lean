import Verif.Matcher.Props
import Verif.Drift.Props

/-!
# Frame alignment of the hill climbing matcher (C89)

`HillClimbingScanMatcher` with `use_frame_alignement` computes the main direction of the walls in the scan and makes a new pose
enumerator with it (src/core/scan_matchers/hill_climbing_scan_matcher.h:146-166). The model keeps the rotation that topic
ScanMatch leaves out, to show that leaving it out is right: it is lost on the way.
-/

set_option autoImplicit false
set_option linter.unusedSectionVars false

namespace Slam.Matcher
open Slam.Score Slam.ScanMatch Slam.Sensor
open Slam.Drift (majorDirection)

/-! ## Model -/

/-- `Distorsion1DPoseEnumerator`, hill_climbing_scan_matcher.h:61-68, with the rotation of the frame. -/
structure D1Frame where
  action : Nat
  trans : ℝ
  rot : ℝ
  sin : ℝ
  cos : ℝ
  base : Option (Poses.Pose ℝ)

/-- Its constructor, hill_climbing_scan_matcher.h:12-23. -/
noncomputable def D1Frame.make (trans rot : ℝ) (frame : ℝ := 0) : D1Frame := ⟨0, trans, rot, Real.sin frame, Real.cos frame, none⟩

/-- `next`, hill_climbing_scan_matcher.h:27-53. -/
noncomputable def D1Frame.next (s : D1Frame) (prev : Poses.Pose ℝ) : Poses.Pose ℝ × D1Frame :=
  let base := s.base.getD prev
  let dir : ℝ := if s.action % 2 = 0 then 1 else -1
  let p : Poses.Pose ℝ :=
    match s.action % 3 with
    | 0 => ⟨base.x + s.cos * dir * s.trans, base.y + s.sin * dir * s.trans, base.theta⟩
    | 1 => ⟨base.x + -s.sin * dir * s.trans, base.y + s.cos * dir * s.trans, base.theta⟩
    | _ => ⟨base.x, base.y, base.theta + dir * s.rot⟩
  (p, { s with base := some base, action := s.action + 1 })

/-- `FailedRoundsLimitedPoseEnumerator<Distorsion1DPoseEnumerator>`, hill_climbing_scan_matcher.h:118-126, with its
construction parameters. -/
structure HCFrame where
  maxFailed : Nat
  baseTrans : ℝ
  baseRot : ℝ
  failedRounds : Nat
  trans : ℝ
  rot : ℝ
  round : D1Frame
  roundFailed : Bool

/-- `reset_round`, hill_climbing_scan_matcher.h:113-116: two arguments, the third has its default. -/
noncomputable def HCFrame.resetRound (s : HCFrame) : HCFrame := { s with round := D1Frame.make s.trans s.rot, roundFailed := true }

/-- `reset`, hill_climbing_scan_matcher.h:99-105. -/
noncomputable def HCFrame.reset (s : HCFrame) : HCFrame :=
  { s with failedRounds := 0, trans := s.baseTrans, rot := s.baseRot }.resetRound

/-- The constructor, hill_climbing_scan_matcher.h:73-82: `frame_rotation` is not used. The inner enumerator is first `{0, 0}`,
line 124. -/
noncomputable def HCFrame.make (maxFailed : Nat) (trans rot : ℝ) (_frame : Option ℝ := some 0) : HCFrame :=
  HCFrame.reset ⟨maxFailed, trans, rot, 0, trans, rot, D1Frame.make 0 0, true⟩

/-- The enumerator, hill_climbing_scan_matcher.h:84-110. -/
noncomputable def hcFrame : Enumerator ℝ HCFrame where
  hasNext s := decide (s.failedRounds < s.maxFailed)
  next s prev :=
    let s :=
      if s.round.action < 6 then s
      else
        let s :=
          if s.roundFailed then
            { s with trans := s.trans * (1 / 2), rot := s.rot * (1 / 2), failedRounds := s.failedRounds + 1 }
          else s
        s.resetRound
    let n := s.round.next prev
    (n.1, { s with round := n.2 })
  reset := HCFrame.reset
  feedback s ok := { s with roundFailed := s.roundFailed && !ok }

/-- The parameters of `HillClimbingScanMatcher`, hill_climbing_scan_matcher.h:168-171. -/
structure HCCfg where
  maxFailed : Nat
  trans : ℝ
  rot : ℝ
  align : Bool

/-- `prepare_lookup`, hill_climbing_scan_matcher.h:156-166. `none`: a failed assertion of the histogram. -/
noncomputable def HCCfg.prepare (h : HCCfg) (e : HCFrame) (scan : List ScanPoint) : Option HCFrame :=
  if !h.align then some e
  else
    ((Hist.create 20).reset scan).bind fun hist =>
      (majorDirection hist).map fun frame => HCFrame.make h.maxFailed h.trans h.rot frame

/-- `process_scan`, hill_climbing_scan_matcher.h:146-153. -/
noncomputable def HCCfg.processScan {C : Type} (h : HCCfg) (cfg : Cfg C) (v : View C) (fuel : Nat) (w : Spw) (e : HCFrame)
    (raw : List ScanPoint) (init : Poses.Pose ℝ) :
    Option (Spw × HCFrame × Poses.Delta ℝ × Option ℝ × List (Event ℝ)) :=
  (h.prepare e raw).bind fun e => cfg.processScan hcFrame v fuel w e raw init

/-! ## Specification -/

/-- What a call of the matcher shows to the outside: the correction, its probability, and the observers' notifications (all the
poses tested); and the state of the weighting it leaves behind. -/
def shown {S : Type} (r : Spw × S × Poses.Delta ℝ × Option ℝ × List (Event ℝ)) :
    Spw × Poses.Delta ℝ × Option ℝ × List (Event ℝ) := (r.1, r.2.2)

/-- An enumerator as the matcher makes it: with its parameters, in any state whatever. -/
structure MadeFor (h : HCCfg) (e : HCFrame) : Prop where
  maxFailed : e.maxFailed = h.maxFailed
  trans : e.baseTrans = h.trans
  rot : e.baseRot = h.rot

/-! ## Proofs -/

/-- The state without the frame. -/
def D1Frame.forget (s : D1Frame) : D1State ℝ := ⟨s.action, s.trans, s.rot, s.base⟩

def HCFrame.forget (s : HCFrame) : HCState ℝ := ⟨s.failedRounds, s.trans, s.rot, s.round.forget, s.roundFailed⟩

/-- The invariant: the rotation never arrives. -/
structure Plain (h : HCCfg) (e : HCFrame) : Prop where
  made : MadeFor h e
  sin : e.round.sin = 0
  cos : e.round.cos = 1

theorem d1_next (s : D1Frame) (h0 : s.sin = 0) (h1 : s.cos = 1) (p : Poses.Pose ℝ) :
    ((s.next p).1, (s.next p).2.forget) = s.forget.next p ∧ (s.next p).2.sin = 0 ∧ (s.next p).2.cos = 1 := by
  refine ⟨?_, h0, h1⟩
  unfold D1Frame.next D1State.next
  simp only [h0, h1, D1Frame.forget]
  rcases (by omega : s.action % 3 = 0 ∨ s.action % 3 = 1 ∨ s.action % 3 = 2) with e | e | e <;> by_cases h2 : s.action % 2 = 0 <;>
    simp [e, h2]

theorem reset_plain {h : HCCfg} {e : HCFrame} (he : MadeFor h e) :
    Plain h (hcFrame.reset e) ∧ ∀ e', (hcFrame.reset e).forget = (hillClimbing h.maxFailed h.trans h.rot).reset e' := by
  obtain ⟨h1, h2, h3⟩ := he
  refine ⟨⟨⟨h1, h2, h3⟩, by simp [hcFrame, HCFrame.reset, HCFrame.resetRound, D1Frame.make],
    by simp [hcFrame, HCFrame.reset, HCFrame.resetRound, D1Frame.make]⟩, fun e' => ?_⟩
  simp [hcFrame, HCFrame.reset, HCFrame.resetRound, D1Frame.make, HCFrame.forget, D1Frame.forget, hillClimbing, HCState.resetRound,
    h2, h3]

theorem next_plain {h : HCCfg} {e : HCFrame} (he : Plain h e) (p : Poses.Pose ℝ) :
    Plain h (hcFrame.next e p).2 ∧
      ((hcFrame.next e p).1, (hcFrame.next e p).2.forget) = (hillClimbing h.maxFailed h.trans h.rot).next e.forget p := by
  have key : ∀ s : HCFrame, Plain h s → Plain h { s with round := (s.round.next p).2 } ∧
      ((s.round.next p).1, HCFrame.forget { s with round := (s.round.next p).2 }) =
        ((s.forget.round.next p).1, { s.forget with round := (s.forget.round.next p).2 }) := by
    intro s hs
    obtain ⟨a, b, c⟩ := d1_next s.round hs.sin hs.cos p
    refine ⟨⟨⟨hs.made.maxFailed, hs.made.trans, hs.made.rot⟩, b, c⟩, ?_⟩
    rw [Prod.ext_iff] at a
    simp only at a
    rw [Prod.mk.injEq]
    refine ⟨a.1, ?_⟩
    simp only [HCFrame.forget, a.2]
  unfold hcFrame hillClimbing
  simp only
  by_cases h6 : e.round.action < 6
  · have h6' : e.forget.round.action < 6 := h6
    rw [if_pos h6, if_pos h6']
    exact key e he
  · have h6' : ¬ e.forget.round.action < 6 := h6
    rw [if_neg h6, if_neg h6']
    by_cases hf : e.roundFailed = true
    · have hf' : e.forget.roundFailed = true := hf
      rw [if_pos hf, if_pos hf']
      have := key ({ e with trans := e.trans * (1 / 2), rot := e.rot * (1 / 2), failedRounds := e.failedRounds + 1 } : HCFrame).resetRound
        ⟨⟨he.made.maxFailed, he.made.trans, he.made.rot⟩, by simp [HCFrame.resetRound, D1Frame.make],
          by simp [HCFrame.resetRound, D1Frame.make]⟩
      exact this
    · have hf' : ¬ e.forget.roundFailed = true := hf
      rw [if_neg hf, if_neg hf']
      exact key e.resetRound ⟨⟨he.made.maxFailed, he.made.trans, he.made.rot⟩, by simp [HCFrame.resetRound, D1Frame.make],
          by simp [HCFrame.resetRound, D1Frame.make]⟩

theorem loop_plain {h : HCCfg} (score : Poses.Pose ℝ → Option (Option ℝ)) (fuel : Nat) (r : Result ℝ HCFrame)
    (he : Plain h r.enum) :
    (loopP hcFrame score fuel r).map (fun r => (⟨r.enum.forget, r.best, r.prob, r.events⟩ : Result ℝ (HCState ℝ))) =
      loopP (hillClimbing h.maxFailed h.trans h.rot) score fuel ⟨r.enum.forget, r.best, r.prob, r.events⟩ := by
  induction fuel generalizing r with
  | zero => rfl
  | succ n ih =>
    unfold loopP
    have hh : hcFrame.hasNext r.enum = (hillClimbing h.maxFailed h.trans h.rot).hasNext r.enum.forget := by
      simp only [hcFrame, hillClimbing, HCFrame.forget, he.made.maxFailed]
    simp only
    rw [hh]
    by_cases hn : (hillClimbing h.maxFailed h.trans h.rot).hasNext r.enum.forget = true
    · rw [if_pos hn, if_pos hn]
      obtain ⟨p1, p2⟩ := next_plain he r.best
      rw [← p2]
      simp only
      cases hs : score (hcFrame.next r.enum r.best).1 with
      | none => rfl
      | some p =>
        simp only [Option.bind_some]
        have fb : ∀ b, Plain h (hcFrame.feedback (hcFrame.next r.enum r.best).2 b) := fun b =>
          ⟨⟨p1.made.maxFailed, p1.made.trans, p1.made.rot⟩, p1.sin, p1.cos⟩
        by_cases hl : ltN r.prob p = true
        · rw [if_pos hl, if_pos hl]
          exact ih ⟨_, _, _, _⟩ (fb true)
        · rw [if_neg hl, if_neg hl]
          exact ih ⟨_, _, _, _⟩ (fb false)
    · rw [if_neg hn, if_neg hn]
      rfl

theorem process_plain {C : Type} {h : HCCfg} (cfg : Cfg C) (v : View C) (fuel : Nat) (w : Spw) {e : HCFrame} (he : MadeFor h e)
    (raw : List ScanPoint) (init : Poses.Pose ℝ) (e' : HCState ℝ) :
    (cfg.processScan hcFrame v fuel w e raw init).map shown =
      (cfg.processScan (hillClimbing h.maxFailed h.trans h.rot) v fuel w e' raw init).map shown := by
  unfold Cfg.processScan
  cases cfg.filterScan v w raw init with
  | none => rfl
  | some f =>
    simp only [Option.bind_some, Option.map_map]
    unfold searchP
    cases hs : cfg.score v f.2 f.1 init with
    | none => rfl
    | some p =>
      simp only [Option.bind_some]
      obtain ⟨r1, r2⟩ := reset_plain he
      have := loop_plain (cfg.score v f.2 f.1) fuel
        ⟨hcFrame.reset e, init, p, [.start init, .test init p, .update init p]⟩ r1
      simp only at this
      rw [r2 e'] at this
      rw [← this]
      simp only [Option.map_map]
      rfl

theorem prepare_some (h : HCCfg) (e : HCFrame) (he : MadeFor h e) (scan : List ScanPoint) :
    ∃ e', h.prepare e scan = some e' ∧ MadeFor h e' := by
  unfold HCCfg.prepare
  by_cases ha : h.align = true
  · rw [if_neg (by simp [ha])]
    have hwf : (Hist.create 20).WF := by simp [Hist.WF, Hist.create]
    obtain ⟨h', hr, -⟩ := reset_counts (Hist.create 20) hwf (by simp [Hist.create]) scan
    obtain ⟨k, hk, hf, hc⟩ := Drift.max_bin (Hist.create 20) hwf (by simp [Hist.create]) scan h' hr
    obtain ⟨h'', e2, -, -, hcs, -⟩ := reset_counts (Hist.create 20) hwf (by simp [Hist.create]) scan
    rw [hr] at e2; cases e2
    rw [hr, Option.bind_some, majorDirection, hk, Option.bind_some, Drift.meanBinAngle, (hcs k hf.1).2, hc]
    exact ⟨_, rfl, rfl, rfl, rfl⟩
  · rw [if_pos (by simp [ha])]
    exact ⟨e, rfl, he⟩

/-! ## C89 -/

/-- **Frame alignment changes nothing (C89).** With it or without it, whatever the scan, the map, the pose and the state left by
earlier scans, a hill climbing matcher reports the same correction and probability, after testing the same poses in the same
order. -/
theorem frame_alignment_no_effect {C : Type} (h : HCCfg) (align : Bool) (cfg : Cfg C) (v : View C) (fuel : Nat) (w : Spw)
    (e1 e2 : HCFrame) (h1 : MadeFor h e1) (h2 : MadeFor h e2) (raw : List ScanPoint) (init : Poses.Pose ℝ) :
    (h.processScan cfg v fuel w e1 raw init).map shown =
      (HCCfg.processScan { h with align := align } cfg v fuel w e2 raw init).map shown := by
  obtain ⟨e1', a1, b1⟩ := prepare_some h e1 h1 raw
  obtain ⟨e2', a2, b2⟩ := prepare_some { h with align := align } e2 ⟨h2.maxFailed, h2.trans, h2.rot⟩ raw
  unfold HCCfg.processScan
  rw [a1, a2, Option.bind_some, Option.bind_some,
    process_plain cfg v fuel w b1 raw init ⟨0, 0, 0, ⟨0, 0, 0, none⟩, true⟩,
    process_plain cfg v fuel w b2 raw init ⟨0, 0, 0, ⟨0, 0, 0, none⟩, true⟩]

/-- **Either way it is the climber of C30 (C89)**: the model without rotations describes it. -/
theorem frame_alignment_is_plain {C : Type} (h : HCCfg) (cfg : Cfg C) (v : View C) (fuel : Nat) (w : Spw) (e : HCFrame)
    (he : MadeFor h e) (raw : List ScanPoint) (init : Poses.Pose ℝ) (e' : HCState ℝ) :
    (h.processScan cfg v fuel w e raw init).map shown =
      (cfg.processScan (hillClimbing h.maxFailed h.trans h.rot) v fuel w e' raw init).map shown := by
  obtain ⟨e1', a1, b1⟩ := prepare_some h e he raw
  unfold HCCfg.processScan
  rw [a1, Option.bind_some, process_plain cfg v fuel w b1 raw init e']

/-- A wall seen at a right angle: two points at x = 1. -/
noncomputable def wallScan : List ScanPoint := [.cartesian 1 0 true 1, .cartesian 1 1 true 1]

/-- For that wall the direction is a right angle, and the enumerator would step along the wall if it were given the direction;
the one that the matcher makes steps along the x axis, into the wall. -/
theorem frame_alignment_counterexample (trans rot : ℝ) (e : HCFrame) :
    ∃ hist, (Hist.create 20).reset wallScan = some hist ∧ majorDirection hist = some (some (Real.pi / 2)) ∧
      ((D1Frame.make trans rot (Real.pi / 2)).next ⟨0, 0, 0⟩).1 = ⟨0, trans, 0⟩ ∧
      ∃ e', HCCfg.prepare ⟨6, trans, rot, true⟩ e wallScan = some e' ∧ (hcFrame.next e' ⟨0, 0, 0⟩).1 = ⟨trans, 0, 0⟩ := by
  have hang : oxAngle (.cartesian 1 0 true 1) (.cartesian 1 1 true 1) = Real.pi / 2 := by
    simp [oxAngle, ScanPoint.x, ScanPoint.y]
  have hidx : ⌊Real.pi / 2 / (Real.pi / (20 : ℕ))⌋ = 10 := by
    have : Real.pi / 2 / (Real.pi / (20 : ℕ)) = 10 := by
      have := Real.pi_pos
      push_cast
      field_simp
      norm_num
    rw [this]; norm_num
  have hpi := Real.pi_pos
  have hist : (Hist.create 20).reset wallScan =
      some ⟨20, (List.replicate 20 0).modify 10 (· + 1), (List.replicate 20 (0 : ℝ)).modify 10 (· + Real.pi / 2), [0, Real.pi / 2]⟩ := by
    simp only [Hist.reset, wallScan, Hist.addAll, Hist.add, hang]
    have : (Hist.histIndex ⟨20, (Hist.create 20).hist.map fun _ => 0, (Hist.create 20).angSum.map fun _ => 0,
        resize (Hist.create 20).driftDirs 2⟩ (Real.pi / 2)) = some 10 := by
      unfold Hist.histIndex Hist.angleStep
      rw [if_pos ⟨by linarith, by linarith⟩]
      simp only [hidx]
      simp [Hist.create]
    rw [show ([ScanPoint.cartesian 1 0 true 1, ScanPoint.cartesian 1 1 true 1] : List ScanPoint).length = 2 from rfl,
      show (Hist.create 20).n = 20 from rfl, this]
    simp [Hist.create, resize]
  have hmaj : majorDirection ⟨20, (List.replicate 20 0).modify 10 (· + 1), (List.replicate 20 (0 : ℝ)).modify 10 (· + Real.pi / 2),
      [0, Real.pi / 2]⟩ = some (some (Real.pi / 2)) := by
    have h1 : Drift.maxI ⟨20, (List.replicate 20 0).modify 10 (· + 1), (List.replicate 20 (0 : ℝ)).modify 10 (· + Real.pi / 2),
      [0, Real.pi / 2]⟩ = some 10 := by decide
    rw [majorDirection, h1, Option.bind_some, Drift.meanBinAngle]
    simp
  refine ⟨_, hist, hmaj, by simp [D1Frame.make, D1Frame.next], HCFrame.make 6 trans rot (some (Real.pi / 2)), ?_, ?_⟩
  · rw [HCCfg.prepare, if_neg (by simp), hist, Option.bind_some, hmaj, Option.map_some]
  · simp [HCFrame.make, HCFrame.reset, HCFrame.resetRound, hcFrame, D1Frame.make, D1Frame.next]

/-- The hypotheses are met by the enumerator the constructor makes. -/
example : MadeFor ⟨6, 1 / 10, 1 / 10, true⟩ (HCFrame.make 6 (1 / 10) (1 / 10)) := ⟨rfl, rfl, rfl⟩

end Slam.Matcher
