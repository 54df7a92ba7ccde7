import Verif.Matcher.MonteCarlo
import Verif.Drift.Props
import Verif.ScanMatch.Fixed

/-!
# The scan matchers as one interface

`GridScanMatcher` (src/core/scan_matchers/grid_scan_matcher.h:134-207) with the matchers `init_scan_matcher`
(src/utils/init_scan_matching.h:189-219) makes: those that enumerate poses (topic Matcher), `NoActionScanMatcher`,
`HillClimbingSMFixed` and, around any of them, `ConnectTheDotsAmbiguousDriftDetector`. The multi-resolution matcher is not
among them. A failed assertion or undefined behaviour in an evaluation of the score is the outcome `none` of the call.
-/

set_option autoImplicit false
set_option linter.unusedSectionVars false

namespace Slam.Matcher
open Slam.Grid Slam.Rect Slam.Sensor Slam.Score Slam.ScanMatch Slam.Cells Slam.Drift
open Slam.Poses (Delta)

/-! ## Model -/

/-- A scan matcher with states `T` of its own, grid_scan_matcher.h:134-207: `reset_state` and `process_scan`, which changes the
state of the (shared) weighting of the points and the matcher's, and returns the shift and the probability (`none`: NaN). -/
structure Machine (C T : Type) where
  reset : T → T
  process : View C → Spw → T → List ScanPoint → Poses.Pose ℝ → Option (Spw × T × Delta ℝ × Option ℝ)

/-- `PoseEnumerationScanMatcher`, pose_enumeration_scan_matcher.h:27-77; observers are not modelled. -/
noncomputable def enumMachine {C S : Type} (cfg : Cfg C) (E : Enumerator ℝ S) (fuel : Nat) : Machine C S where
  reset := E.reset
  process v w e raw p := (cfg.processScan E v fuel w e raw p).map fun r => (r.1, r.2.1, r.2.2.1, r.2.2.2.1)

/-- `NoActionScanMatcher::process_scan`, no_action_scan_matcher.h:11-17. -/
def idleMachine (C : Type) : Machine C Unit where
  reset t := t
  process _ w t _ _ := some (w, t, ⟨0, 0, 0⟩, some 1)

/-- `chooseDirection` of ScanMatch (hcsm_fixed.h:39-51) from action `a` on, for a score that may fail. -/
noncomputable def chooseP (score : Poses.Pose ℝ → Option (Option ℝ)) (dt dO : ℝ) (cur : Poses.Pose ℝ) (best : Option ℝ) :
    List Nat → Direction ℝ → Option (Direction ℝ)
  | [], d => some d
  | a :: as, d =>
    (score (shiftPose cur dO dt a)).bind fun s =>
      chooseP score dt dO cur best as (match best, s with
        | some b, some s => if b - s < d.diff then ⟨a, if a % 3 = 2 then dO else dt, b - s⟩ else d
        | _, _ => d)

/-- `lineSearch` of ScanMatch (hcsm_fixed.h:53-62) for a score that may fail. -/
noncomputable def lineSearchP (score : Poses.Pose ℝ → Option (Option ℝ)) (cur : Poses.Pose ℝ) (best : Option ℝ) (action : Nat)
    (dd : ℝ) : Nat → Option (Option (Poses.Pose ℝ × Option ℝ))
  | 0 => some none
  | k + 1 =>
    let r := 2 ^ (k + 1) * dd
    if dd < r then
      let rp := shiftPose cur r r action
      (score rp).bind fun s => if ltN best s then some (some (rp, s)) else lineSearchP score cur best action dd k
    else some none

/-- `fixedLoop` of ScanMatch (hcsm_fixed.h:31-71) for a score that may fail. -/
noncomputable def fixedLoopP (score : Poses.Pose ℝ → Option (Option ℝ)) (dt dO : ℝ) :
    Nat → BitVec 32 → Poses.Pose ℝ → Option ℝ → Option (Poses.Pose ℝ × Option ℝ × BitVec 32)
  | 0, _, _, _ => none
  | fuel + 1, limit, best, prob =>
    if (0 : BitVec 32) < limit then
      (chooseP score dt dO best prob (List.range 6) ⟨0, 0, 1⟩).bind fun d =>
        (lineSearchP score best prob d.action d.dd 4).bind fun l =>
          match l with
          | some (rp, rs) => fixedLoopP score dt dO fuel (limit + 1) rp rs
          | none =>
            if 0 ≤ d.diff then some (best, prob, limit)
            else fixedLoopP score dt dO fuel (limit + 1) (shiftPose best d.dd d.dd d.action) (prob.map fun p => p - d.diff)
    else some (best, prob, limit)

/-- `HillClimbingSMFixed`, hcsm_fixed.h:12-75: steps of 0.01 and half a degree; the state is `_max_step_shrinks`. It does not
override `reset_state`, which does nothing (grid_scan_matcher.h:155). -/
noncomputable def fixedMachine {C : Type} (cfg : Cfg C) (fuel : Nat) : Machine C (BitVec 32) where
  reset t := t
  process v w limit raw p :=
    (cfg.filterScan v w raw p).bind fun f =>
      (cfg.score v f.2 f.1 p).bind fun s =>
        (fixedLoopP (cfg.score v f.2 f.1) (1 / 100) (1 / 2 * (Real.pi / 180)) fuel limit p s).map fun r =>
          (f.2, r.2.2, r.1.sub p, r.2.1)

open Classical in
/-- `detect` of Drift (connect_the_dots_ambiguous_drift_detector.h:31-93) for a score that may fail. -/
noncomputable def detectP (fuel : Nat) (score : List ScanPoint → Poses.Pose ℝ → Option (Option ℝ)) (scan : List ScanPoint)
    (init : Poses.Pose ℝ) (sm : Delta ℝ × Option ℝ) : Option (Delta ℝ × Option ℝ) :=
  ((Hist.create 20).reset scan).bind fun h =>
    (maxI h).bind fun driftI =>
      (h.hist[driftI]?).bind fun (drift : Nat) =>
        if (drift : ℝ) < 4 / 10 * (scan.length : ℝ) then some sm
        else
          (dropDrift h scan drift 1 scan.tail).bind fun rest =>
            let step := h.angleStep
            let ang := (driftI : ℝ) * step + step / 2
            let P : PolarParams := ⟨ang, ang, step, -25 / 100, 25 / 100, 10 / 100⟩
            let best := init.add sm.1
            (score rest best).bind fun s =>
              (loopP (polar P) (score rest) fuel ⟨PolarState.init P, best, s, []⟩).bind fun r =>
                (score scan r.best).map fun s => (r.best.sub init, s)

/-- `ConnectTheDotsAmbiguousDriftDetector` around a matcher, connect_the_dots_ambiguous_drift_detector.h:12-97; the probability
estimator is that of the wrapped matcher (line 13). -/
noncomputable def driftMachine {C T : Type} (cfg : Cfg C) (fuel : Nat) (inner : Machine C T) : Machine C T where
  reset := inner.reset
  process v w t raw p :=
    (inner.process v w t raw p).bind fun r =>
      (cfg.filterScan v r.1 raw p).bind fun f =>
        (detectP fuel (cfg.score v f.2) f.1 p (r.2.2.1, r.2.2.2)).map fun d => (f.2, r.2.1, d.1, d.2)

/-! ## Specification -/

/-- `ws` are the weights the weighting `w` gives to `pts`. -/
structure Weighed (w : Spw) (pts : List ScanPoint) (ws : List ℝ) : Prop where
  len : ws.length = pts.length
  given : ∀ i, i < pts.length → w.weight pts i = ws[i]?
  nonneg : ∀ x ∈ ws, 0 ≤ x
  pos : ∀ (i : Nat) (p : ScanPoint), pts[i]? = some p → 0 < p.range → ∃ x, ws[i]? = some x ∧ 0 < x

/-- The weights of some points of a scan, after the weighting was prepared for the whole scan: even weights stay those of the
whole scan; reciprocal weights are not those of the points: point number `i` gets the weight of point number `i` of the whole
scan (the first one the reciprocal of the number of points). -/
structure LeftOver (w w' : Spw) (whole pts : List ScanPoint) (ws : List ℝ) : Prop where
  weighed : Weighed w' pts ws
  even : (∃ c, w = .even c) → ∀ x ∈ ws, x = 1 / (whole.length : ℝ)
  ahr : (∃ h, w = .ahr h) → (∀ i, 0 < i → i < pts.length → ws[i]? = w'.weight whole i) ∧
    (0 < pts.length → ws[0]? = some (1 / (pts.length : ℝ)))

/-! ## Scores -/

theorem Weights.weighed {w w' : Spw} {pts : List ScanPoint} {ws : List ℝ} (h : Weights w w' pts ws) : Weighed w' pts ws :=
  ⟨h.len, h.given, h.nonneg, h.pos⟩

theorem score_weighed {C : Type} (cfg : Cfg C) (v : View C) (prob : Point ℝ → Coord → ℝ)
    (h : Shows v cfg.imp prob) (hs : 0 < v.scale) (hf : 0 < cfg.cellFuel) (w : Spw) (pts : List ScanPoint)
    (ws : List ℝ) (hw : Weighed w pts ws) (hfac : ∀ p ∈ pts, p.factor = 1) (p : Poses.Pose ℝ) :
    cfg.score v w pts p = some (meanScore prob v.scale ws pts p) := by
  classical
  have hx : List.Forall₂ (fun sp x => pointProb cfg.oope cfg.imp cfg.cellFuel v
        (obstacleOf ⟨⟨0, 0, 0, 0⟩, false⟩ ⟨p.x, p.y, p.theta⟩ sp)
        (moveCenter ⟨0, 0, 0, 0⟩ (obstacleOf ⟨⟨0, 0, 0, 0⟩, false⟩ ⟨p.x, p.y, p.theta⟩ sp)) = some x) pts
      (pts.map fun sp => prob (seenAt p sp) (worldToCell v.scale (seenAt p sp))) := by
    rw [List.forall₂_map_right_iff, List.forall₂_same]
    intro sp _
    rw [obstacleOf_seenAt]
    exact pointProb_shown cfg.oope v cfg.imp prob h hs cfg.cellFuel hf _
  obtain ⟨h1, h2⟩ := score_is_weighted_mean (pointProb cfg.oope cfg.imp cfg.cellFuel v) w ⟨⟨0, 0, 0, 0⟩, false⟩
    ⟨p.x, p.y, p.theta⟩ pts _ ws hfac hx hw.len hw.given
  unfold Cfg.score meanScore
  by_cases h0 : ws.sum = 0
  · rw [if_pos h0, h1 h0]
  · rw [if_neg h0, h2 h0]

theorem left_over (w w' : Spw) (hw : Spw.Ok w) (whole pts : List ScanPoint) (hr : w.reset whole = some w')
    (hl : pts.length ≤ whole.length) : ∃ ws, LeftOver w w' whole pts ws := by
  obtain ⟨w1, wsW, hW⟩ := weights_exist w hw whole
  obtain rfl : w1 = w' := Option.some.inj (hW.reset.symm.trans hr)
  cases w with
  | even c =>
    simp only [Spw.reset, Option.some.injEq] at hr
    subst hr
    refine ⟨List.replicate pts.length (1 / (whole.length : ℝ)), ⟨by simp, ?_, ?_, ?_⟩, ?_, ?_⟩
    · intro i hi
      simp [Spw.weight, hi]
    · intro x hx
      rw [List.eq_of_mem_replicate hx]
      positivity
    · intro i p hp _
      have hi : i < pts.length := (List.getElem?_eq_some_iff.1 hp).1
      refine ⟨1 / (whole.length : ℝ), by simp [hi], ?_⟩
      have : (0 : ℝ) < whole.length := by
        have : 0 < whole.length := by omega
        exact_mod_cast this
      positivity
    · intro _ x hx
      exact List.eq_of_mem_replicate hx
    · rintro ⟨h, e⟩; cases e
  | viny =>
    simp only [Spw.reset, Option.some.injEq] at hr
    subst hr
    obtain ⟨w2, ws, h2⟩ := weights_exist .viny hw pts
    have := h2.reset
    simp only [Spw.reset, Option.some.injEq] at this
    subst this
    exact ⟨ws, h2.weighed, (by rintro ⟨c, e⟩; cases e), (by rintro ⟨c, e⟩; cases e)⟩
  | ahr h =>
    obtain ⟨hist, hh, rfl⟩ : ∃ hist, h.reset whole = some hist ∧ w1 = .ahr hist := by
      simp only [Spw.reset, Option.map_eq_some_iff] at hr
      obtain ⟨a, b, c⟩ := hr
      exact ⟨a, b, c.symm⟩
    have key : ∀ i, i < pts.length → ∃ x, (Spw.ahr hist).weight pts i = some x ∧ 0 < x := by
      intro i hi
      by_cases h0 : i = 0
      · subst h0
        refine ⟨1 / (pts.length : ℝ), ?_, ?_⟩
        · simp [Spw.weight, Hist.value]
          intro e; subst e; simp at hi
        · have : (0 : ℝ) < pts.length := by exact_mod_cast hi
          positivity
      · obtain ⟨hw1, hw2⟩ := hw h rfl
        obtain ⟨h', e, hv, -, -⟩ := value_is_bin_count h hw1 hw2 whole
        rw [hh, Option.some.injEq] at e
        subst e
        obtain ⟨x, v1, v2⟩ := hv i (by omega)
        have hvr : (0 : ℝ) < x := by exact_mod_cast v2
        have hval : hist.value pts i = some x := by
          rw [← v1]
          simp [Hist.value, h0]
        refine ⟨1 / (x : ℝ), ?_, by positivity⟩
        simp only [Spw.weight, hval, Option.bind_some]
        rw [if_pos (by omega)]
    refine ⟨(List.range pts.length).map fun i => ((Spw.ahr hist).weight pts i).getD 0, ⟨by simp, ?_, ?_, ?_⟩, ?_, ?_⟩
    · intro i hi
      obtain ⟨x, hx, -⟩ := key i hi
      simp [hi, hx]
    · intro x hx
      simp only [List.mem_map, List.mem_range] at hx
      obtain ⟨i, hi, rfl⟩ := hx
      obtain ⟨y, hy, h0⟩ := key i hi
      rw [hy]; exact h0.le
    · intro i p hp _
      have hi : i < pts.length := (List.getElem?_eq_some_iff.1 hp).1
      obtain ⟨x, hx, h0⟩ := key i hi
      exact ⟨x, by simp [hi, hx], h0⟩
    · rintro ⟨c, e⟩; cases e
    · rintro -
      refine ⟨?_, ?_⟩
      · intro i h0 hi
        obtain ⟨x, hx, -⟩ := key i hi
        have e : (Spw.ahr hist).weight whole i = (Spw.ahr hist).weight pts i := by
          simp [Spw.weight, Hist.value, show i ≠ 0 by omega]
        rw [e, hx]
        simp [hi, hx]
      · intro h0
        have hne : pts ≠ [] := by intro e; subst e; simp at h0
        simp [h0, Spw.weight, Hist.value, hne]

/-! ## `HillClimbingSMFixed` -/

theorem chooseP_eq (score : Poses.Pose ℝ → Option (Option ℝ)) (f : Poses.Pose ℝ → Option ℝ) (h : ∀ p, score p = some (f p))
    (dt dO : ℝ) (cur : Poses.Pose ℝ) (best : Option ℝ) :
    chooseP score dt dO cur best (List.range 6) ⟨0, 0, 1⟩ = some (chooseDirection f dt dO cur best) := by
  unfold chooseDirection
  generalize (⟨0, 0, 1⟩ : Direction ℝ) = d
  generalize List.range 6 = l
  induction l generalizing d with
  | nil => rfl
  | cons a l ih =>
    simp only [chooseP, h, Option.bind_some, ih, List.foldl_cons]
    cases best with
    | none => rfl
    | some b =>
      cases f (shiftPose cur dO dt a) with
      | none => rfl
      | some s => rfl

theorem lineSearchP_eq (score : Poses.Pose ℝ → Option (Option ℝ)) (f : Poses.Pose ℝ → Option ℝ)
    (h : ∀ p, score p = some (f p)) (cur : Poses.Pose ℝ) (best : Option ℝ) (action : Nat) (dd : ℝ) (k : Nat) :
    lineSearchP score cur best action dd k = some (lineSearch f cur best action dd k) := by
  induction k with
  | zero => rfl
  | succ k ih =>
    simp only [lineSearchP, lineSearch, h, Option.bind_some, ih]
    by_cases h1 : dd < 2 ^ (k + 1) * dd
    · simp only [h1, if_true]
      by_cases h2 : ltN best (f (shiftPose cur (2 ^ (k + 1) * dd) (2 ^ (k + 1) * dd) action)) = true
      · simp [h2]
      · simp [h2]
    · simp [h1]

theorem fixedLoopP_eq (score : Poses.Pose ℝ → Option (Option ℝ)) (f : Poses.Pose ℝ → Option ℝ)
    (h : ∀ p, score p = some (f p)) (dt dO : ℝ) (fuel : Nat) : ∀ (limit : BitVec 32) (best : Poses.Pose ℝ) (prob : Option ℝ),
    fixedLoopP score dt dO fuel limit best prob = fixedLoop f dt dO fuel limit best prob := by
  induction fuel with
  | zero => intro limit best prob; rfl
  | succ fuel ih =>
    intro limit best prob
    unfold fixedLoopP fixedLoop
    by_cases hl : (0 : BitVec 32) < limit
    · rw [if_pos hl, if_pos hl]
      simp only [chooseP_eq score f h, Option.bind_some, lineSearchP_eq score f h, ih]
      cases lineSearch f best prob (chooseDirection f dt dO best prob).action (chooseDirection f dt dO best prob).dd 4 with
      | none => rfl
      | some r => rfl
    · rw [if_neg hl, if_neg hl]

/-- With a limit other than zero the fixed climbing ends if there are finitely many scores. -/
theorem fixedLoop_ends (f : Poses.Pose ℝ → Option ℝ) (dt dO : ℝ) (W : Finset ℝ) (hW : ∀ p s, f p = some s → s ∈ W) :
    ∀ (n : Nat) (limit : BitVec 32) (best : Poses.Pose ℝ),
      (∀ b, f best = some b → (W.filter (b < ·)).card ≤ n) → ∃ fuel r, fixedLoop f dt dO fuel limit best (f best) = some r := by
  classical
  intro n
  induction n with
  | zero =>
    intro limit best hn
    refine ⟨1, ?_⟩
    unfold fixedLoop
    by_cases hl : (0 : BitVec 32) < limit
    · rw [if_pos hl]
      have hno : ∀ b, f best = some b → ∀ p s, f p = some s → s ≤ b := by
        intro b hb p s hs
        by_contra hlt
        have hc := hn b hb
        have : s ∈ W.filter (b < ·) := Finset.mem_filter.2 ⟨hW p s hs, not_le.1 hlt⟩
        rw [Nat.le_zero, Finset.card_eq_zero] at hc
        rw [hc] at this
        exact absurd this (Finset.notMem_empty _)
      cases hls : lineSearch f best (f best) (chooseDirection f dt dO best (f best)).action
          (chooseDirection f dt dO best (f best)).dd 4 with
      | some r =>
        obtain ⟨rp, rs⟩ := r
        obtain ⟨h1, h2⟩ := lineSearch_spec _ _ _ _ _ _ _ _ hls
        exfalso
        cases hb : f best with
        | none => rw [hb] at h2; simp [ltN] at h2
        | some b =>
          cases hs : rs with
          | none => rw [hb, hs] at h2; simp [ltN] at h2
          | some s =>
            rw [hb, hs] at h2
            have := hno b hb rp s (by rw [← h1, hs])
            simp [ltN] at h2
            linarith
      | none =>
        have h0 : 0 ≤ (chooseDirection f dt dO best (f best)).diff := by
          rcases chooseDirection_spec f dt dO best (f best) with ⟨e1, -⟩ | ⟨b, s, hb, hs, e1, -⟩
          · rw [e1]; exact zero_le_one
          · rw [e1]; linarith [hno b hb _ s hs]
        simp only [hls, h0, if_true]
        exact ⟨_, rfl⟩
    · rw [if_neg hl]; exact ⟨_, rfl⟩
  | succ n ih =>
    intro limit best hn
    by_cases hl : (0 : BitVec 32) < limit
    swap
    · refine ⟨1, ?_⟩
      unfold fixedLoop
      rw [if_neg hl]; exact ⟨_, rfl⟩
    have better : ∀ b p s, f best = some b → f p = some s → b < s → (W.filter (s < ·)).card ≤ n := by
      intro b p s hb hs hlt
      have hc := hn b hb
      have hsub : W.filter (s < ·) ⊂ W.filter (b < ·) := by
        refine Finset.ssubset_iff_of_subset ?_ |>.2 ⟨s, Finset.mem_filter.2 ⟨hW p s hs, hlt⟩, by simp⟩
        intro x hx
        obtain ⟨h1, h2⟩ := Finset.mem_filter.1 hx
        exact Finset.mem_filter.2 ⟨h1, hlt.trans h2⟩
      have := Finset.card_lt_card hsub
      omega
    cases hls : lineSearch f best (f best) (chooseDirection f dt dO best (f best)).action
        (chooseDirection f dt dO best (f best)).dd 4 with
    | some r =>
      obtain ⟨rp, rs⟩ := r
      obtain ⟨rfl, h2⟩ := lineSearch_spec _ _ _ _ _ _ _ _ hls
      obtain ⟨fuel, r, hr⟩ := ih (limit + 1) rp (by
        intro s hs
        cases hb : f best with
        | none => rw [hb] at h2; simp [ltN] at h2
        | some b =>
          rw [hb, hs] at h2
          exact better b rp s hb hs (by simpa [ltN] using h2))
      refine ⟨fuel + 1, r, ?_⟩
      unfold fixedLoop
      rw [if_pos hl]
      simp only [hls]
      exact hr
    | none =>
      by_cases h0 : 0 ≤ (chooseDirection f dt dO best (f best)).diff
      · refine ⟨1, ?_⟩
        unfold fixedLoop
        rw [if_pos hl]
        simp only [hls, h0, if_true]
        exact ⟨_, rfl⟩
      · rcases chooseDirection_spec f dt dO best (f best) with ⟨e1, -⟩ | ⟨b, s, hb, hs, e1, e2⟩
        · exact absurd (by rw [e1]; exact zero_le_one) h0
        · have hsp : shiftPose best (chooseDirection f dt dO best (f best)).dd (chooseDirection f dt dO best (f best)).dd
              (chooseDirection f dt dO best (f best)).action =
                shiftPose best dO dt (chooseDirection f dt dO best (f best)).action := by
            rw [e2]; exact shiftPose_congr best dO dt _
          have hlt : b < s := by
            rw [e1] at h0
            linarith [not_le.1 h0]
          have hscore : (f best).map (fun p => p - (chooseDirection f dt dO best (f best)).diff) =
              f (shiftPose best (chooseDirection f dt dO best (f best)).dd (chooseDirection f dt dO best (f best)).dd
              (chooseDirection f dt dO best (f best)).action) := by
            rw [hsp, hs, e1, hb]; simp
          obtain ⟨fuel, r, hr⟩ := ih (limit + 1) (shiftPose best (chooseDirection f dt dO best (f best)).dd
              (chooseDirection f dt dO best (f best)).dd (chooseDirection f dt dO best (f best)).action) (by
            intro s' hs'
            rw [hsp, hs, Option.some.injEq] at hs'
            subst hs'
            exact better b _ s hb hs hlt)
          refine ⟨fuel + 1, r, ?_⟩
          unfold fixedLoop
          rw [if_pos hl]
          simp only [hls, h0, if_false]
          rw [hscore]
          exact hr

theorem fixedLoop_more (f : Poses.Pose ℝ → Option ℝ) (dt dO : ℝ) (fuel : Nat) : ∀ (fuel' : Nat), fuel ≤ fuel' →
    ∀ (limit : BitVec 32) (best : Poses.Pose ℝ) (prob : Option ℝ) r, fixedLoop f dt dO fuel limit best prob = some r →
      fixedLoop f dt dO fuel' limit best prob = some r := by
  induction fuel with
  | zero => intro fuel' _ limit best prob r h; simp [fixedLoop] at h
  | succ fuel ih =>
    intro fuel' hle limit best prob r h
    obtain ⟨m, rfl⟩ : ∃ m, fuel' = m + 1 := ⟨fuel' - 1, by omega⟩
    unfold fixedLoop at h ⊢
    by_cases hl : (0 : BitVec 32) < limit
    · rw [if_pos hl] at h ⊢
      cases hls : lineSearch f best prob (chooseDirection f dt dO best prob).action (chooseDirection f dt dO best prob).dd 4 with
      | some r' =>
        simp only [hls] at h ⊢
        exact ih m (by omega) _ _ _ _ h
      | none =>
        simp only [hls] at h ⊢
        by_cases h0 : 0 ≤ (chooseDirection f dt dO best prob).diff
        · simp only [h0, if_true] at h ⊢
          exact h
        · simp only [h0, if_false] at h ⊢
          exact ih m (by omega) _ _ _ _ h
    · rw [if_neg hl] at h ⊢
      exact h

/-- **The fixed hill climbing on a map**: a run is the climbing of C32 with the mean probability of the usable points. -/
theorem fixed_on_map {C : Type} (cfg : Cfg C) (v : View C) (prob : Point ℝ → Coord → ℝ)
    (h : Shows v cfg.imp prob) (hs : 0 < v.scale) (hf : 0 < cfg.cellFuel) (w : Spw) (hw : Spw.Ok w)
    (raw : List ScanPoint) (hfac : ∀ p ∈ raw, p.factor = 1) (init : Poses.Pose ℝ) :
    ∃ w' ws, Weights w w' (usablePoints cfg.filter v.scale v.hasCell init raw) ws ∧ ∀ fuel limit,
      (fixedMachine cfg fuel).process v w limit raw init =
        (fixedProcess (meanScore prob v.scale ws (usablePoints cfg.filter v.scale v.hasCell init raw)) (1 / 100)
          (1 / 2 * (Real.pi / 180)) fuel limit init).map fun r => (w', r.2.2, r.1, r.2.1) := by
  obtain ⟨w', ws, hws⟩ := weights_exist w hw (usablePoints cfg.filter v.scale v.hasCell init raw)
  refine ⟨w', ws, hws, fun fuel limit => ?_⟩
  have hsc := score_on_map cfg v prob h hs hf w w' _ ws hws fun p hp => hfac p (usable_subset _ _ _ _ _ p hp)
  simp only [fixedMachine]
  rw [filterScan_usable, hws.reset]
  simp only [Option.map_some, Option.bind_some, hsc, fixedProcess]
  rw [fixedLoopP_eq _ _ hsc, Option.map_map]
  rfl

/-! ## The drift detector -/

theorem detectP_eq (fuel : Nat) (score : List ScanPoint → Poses.Pose ℝ → Option (Option ℝ))
    (f : List ScanPoint → Poses.Pose ℝ → Option ℝ) (scan : List ScanPoint)
    (h : ∀ pts : List ScanPoint, pts.Sublist scan → ∀ p, score pts p = some (f pts p)) (init : Poses.Pose ℝ)
    (sm : Delta ℝ × Option ℝ) : detectP fuel score scan init sm = detect fuel f scan init sm := by
  classical
  unfold detectP detect
  cases h1 : (Hist.create 20).reset scan with
  | none => rfl
  | some hist =>
    simp only [Option.bind_some]
    cases h2 : maxI hist with
    | none => rfl
    | some di =>
      simp only [Option.bind_some]
      cases h3 : hist.hist[di]? with
      | none => rfl
      | some drift =>
        simp only [Option.bind_some]
        by_cases h4 : (drift : ℝ) < 4 / 10 * (scan.length : ℝ)
        · rw [if_pos h4, if_pos h4]
        · rw [if_neg h4, if_neg h4]
          have hsub : ∀ (l : List ScanPoint) (i : Nat) (r : List ScanPoint), dropDrift hist scan drift i l = some r → r.Sublist l := by
            intro l
            induction l with
            | nil => intro i r hr; simp only [dropDrift, Option.some.injEq] at hr; subst hr; exact List.Sublist.refl _
            | cons q l ih =>
              intro i r hr
              simp only [dropDrift, Option.bind_eq_some_iff, Option.map_eq_some_iff] at hr
              obtain ⟨x, -, r', hr', rfl⟩ := hr
              by_cases e : drift = x
              · rw [if_pos e]; exact (ih _ _ hr').cons _
              · rw [if_neg e]; exact (ih _ _ hr').cons_cons _
          cases h5 : dropDrift hist scan drift 1 scan.tail with
          | none => rfl
          | some rest =>
            have hrs : rest.Sublist scan := (hsub _ _ _ h5).trans (List.tail_sublist scan)
            simp only [Option.bind_some, h rest hrs, h scan (List.Sublist.refl _), Option.map_some]
            rw [loopP_eq _ _ _ (h rest hrs)]
            cases loop (polar ⟨(di : ℝ) * hist.angleStep + hist.angleStep / 2, (di : ℝ) * hist.angleStep + hist.angleStep / 2,
              hist.angleStep, -25 / 100, 25 / 100, 10 / 100⟩) (f rest) fuel _ <;> rfl

theorem offDirection_sublist (P : ℝ → Prop) (ps : List ScanPoint) : ∀ q, (offDirection P q ps).Sublist ps := by
  induction ps with
  | nil => intro q; simp [offDirection]
  | cons x xs ih =>
    intro q
    rw [offDirection]
    by_cases h : P (oxAngle q x)
    · rw [if_pos h]; exact (ih x).cons _
    · rw [if_neg h]; exact (ih x).cons_cons _

theorem offDrift_sublist (scan : List ScanPoint) (k : Nat) : (offDrift scan k).Sublist scan := by
  cases scan with
  | nil => exact List.Sublist.refl _
  | cons p ps => exact (offDirection_sublist _ ps p).cons _

theorem reset_keeps_ok {w w' : Spw} {pts : List ScanPoint} (hw : Spw.Ok w) (h : w.reset pts = some w') : Spw.Ok w' := by
  intro hist' e
  subst e
  cases w with
  | even c => simp [Spw.reset] at h
  | viny => simp [Spw.reset] at h
  | ahr hist =>
    obtain ⟨h1, h2⟩ := hw hist rfl
    obtain ⟨h', r1, r2, r3, -⟩ := reset_counts hist h1 h2 pts
    simp only [Spw.reset, r1, Option.map_some, Option.some.injEq, Spw.ahr.injEq] at h
    subst h
    exact ⟨r2, by omega⟩

/-- **The drift detector on a map**, around any matcher that has answered `sm`: filtering and scoring never fail, whatever the
weighting, and the outcome is that of C63 with mean probabilities as scores. The points left over are weighed as `LeftOver`
says. -/
theorem drift_on_map {C T : Type} (cfg : Cfg C) (v : View C) (prob : Point ℝ → Coord → ℝ)
    (h : Shows v cfg.imp prob) (hs : 0 < v.scale) (hf : 0 < cfg.cellFuel) (inner : Machine C T) {w w1 : Spw} {t t1 : T}
    {raw : List ScanPoint} (hfac : ∀ p ∈ raw, p.factor = 1) {init : Poses.Pose ℝ} {sm : Delta ℝ × Option ℝ}
    (hi : inner.process v w t raw init = some (w1, t1, sm.1, sm.2)) (hw : Spw.Ok w1) (fuel : Nat) (hfuel : 7 ≤ fuel) :
    ∃ w2 ws k wl r, (driftMachine cfg fuel inner).process v w t raw init = some (w2, t1, r) ∧
      Weights w1 w2 (usablePoints cfg.filter v.scale v.hasCell init raw) ws ∧
      FirstFullest 20 (pairAngles (usablePoints cfg.filter v.scale v.hasCell init raw)) k ∧
      LeftOver w1 w2 (usablePoints cfg.filter v.scale v.hasCell init raw)
        (offDrift (usablePoints cfg.filter v.scale v.hasCell init raw) k) wl ∧
      ((binCount 20 k (pairAngles (usablePoints cfg.filter v.scale v.hasCell init raw)) : ℝ) <
        4 / 10 * ((usablePoints cfg.filter v.scale v.hasCell init raw).length : ℝ) → r = sm) ∧
      (4 / 10 * ((usablePoints cfg.filter v.scale v.hasCell init raw).length : ℝ) ≤
          (binCount 20 k (pairAngles (usablePoints cfg.filter v.scale v.hasCell init raw)) : ℝ) →
        ∃ p, r = (p.sub init, meanScore prob v.scale ws (usablePoints cfg.filter v.scale v.hasCell init raw) p) ∧
          let start := init.add sm.1
          let a := ((k : ℝ) + 1 / 2) * (Real.pi / 20)
          let try_ := meanScore prob v.scale wl (offDrift (usablePoints cfg.filter v.scale v.hasCell init raw) k)
          (∀ s0, try_ start = some s0 → ∃ s, FirstMax try_ (start :: sixSteps.map (displaced start a)) p s) ∧
          (try_ start = none → p = start)) ∧
      r.1.theta = sm.1.theta ∧ (r.1.x - sm.1.x) ^ 2 + (r.1.y - sm.1.y) ^ 2 ≤ (1 / 4) ^ 2 := by
  classical
  obtain ⟨w2, ws, hws⟩ := weights_exist w1 hw (usablePoints cfg.filter v.scale v.hasCell init raw)
  have hfu : ∀ p ∈ usablePoints cfg.filter v.scale v.hasCell init raw, p.factor = 1 :=
    fun p hp => hfac p (usable_subset _ _ _ _ _ p hp)
  have hproc : (driftMachine cfg fuel inner).process v w t raw init =
      (detectP fuel (cfg.score v w2) (usablePoints cfg.filter v.scale v.hasCell init raw) init sm).map fun d => (w2, t1, d) := by
    simp only [driftMachine, hi, Option.bind_some, filterScan_usable, hws.reset, Option.map_some]
  generalize usablePoints cfg.filter v.scale v.hasCell init raw = U at *
  have hpts : ∀ pts : List ScanPoint, pts.Sublist U → ∃ wl, LeftOver w1 w2 U pts wl ∧
      ∀ p, cfg.score v w2 pts p = some (meanScore prob v.scale wl pts p) := by
    intro pts hp
    obtain ⟨wl, hl⟩ := left_over w1 w2 hw U pts hws.reset hp.length_le
    exact ⟨wl, hl, score_weighed cfg v prob h hs hf w2 pts wl hl.weighed fun p hp' => hfu p (hp.subset hp')⟩
  have hd := detectP_eq fuel (cfg.score v w2) (fun pts p => (cfg.score v w2 pts p).getD none) U (by
    intro pts hp p
    obtain ⟨wl, -, hl⟩ := hpts pts hp
    simp [hl]) init sm
  obtain ⟨r, k, g1, g2, g3, g4⟩ := drift_detector (fun pts p => (cfg.score v w2 pts p).getD none) U init sm
  have g1 := g1 fuel hfuel
  obtain ⟨wl, l1, l2⟩ := hpts (offDrift U k) (offDrift_sublist U k)
  refine ⟨w2, ws, k, wl, r, ?_, hws, g2, l1, g3, ?_, drift_detector_moves_little _ _ _ _ _ _ g1⟩
  · rw [hproc, hd, g1]; rfl
  · intro hle
    obtain ⟨p, rfl, e2, e3⟩ := g4 hle
    have hU := score_on_map cfg v prob h hs hf w1 w2 U ws hws hfu
    refine ⟨p, by simp [hU], ?_⟩
    have htry : (fun p => (cfg.score v w2 (offDrift U k) p).getD none) = meanScore prob v.scale wl (offDrift U k) := by
      funext p
      simp [l2]
    rw [htry] at e2 e3
    exact ⟨e2, e3⟩

/-! ## What every matcher guarantees -/

/-- The matcher leaves the weighting usable. -/
def Machine.Keeps {C T : Type} (m : Machine C T) (imp : Point ℝ → C → Option ℝ) : Prop :=
  ∀ v prob, Shows v imp prob → 0 < v.scale → ∀ w, Spw.Ok w → ∀ t raw p w' t' delta s,
    m.process v w t raw p = some (w', t', delta, s) → Spw.Ok w'

/-- On every map that can be read everywhere, whatever its state, the matcher answers, with a shift of at most `b` along each
axis. -/
def Machine.Safe {C T : Type} (m : Machine C T) (imp : Point ℝ → C → Option ℝ) (b : ℝ) : Prop :=
  ∀ v prob, Shows v imp prob → 0 < v.scale → ∀ w, Spw.Ok w → ∀ t (raw : List ScanPoint), (∀ p ∈ raw, p.factor = 1) → ∀ p,
    ∃ w' t' delta s, m.process v w t raw p = some (w', t', delta, s) ∧ |Poses.Pose.x delta| ≤ b ∧ |Poses.Pose.y delta| ≤ b

section
variable {C T S : Type} {cfg : Cfg C}

theorem filterScan_ok {v : View C} {w : Spw} (hw : Spw.Ok w) {raw : List ScanPoint} {p : Poses.Pose ℝ} {f : List ScanPoint × Spw}
    (h : cfg.filterScan v w raw p = some f) : Spw.Ok f.2 := by
  rw [filterScan_usable, Option.map_eq_some_iff] at h
  obtain ⟨w', h, rfl⟩ := h
  exact reset_keeps_ok hw h

theorem enum_keeps (E : Enumerator ℝ S) (fuel : Nat) : (enumMachine cfg E fuel).Keeps cfg.imp := by
  intro v prob _ _ w hw t raw p w' t' delta s h
  simp only [enumMachine, Cfg.processScan, Option.map_eq_some_iff, Option.bind_eq_some_iff, Prod.mk.injEq] at h
  obtain ⟨r, ⟨f, h1, r', -, rfl⟩, rfl, -⟩ := h
  exact filterScan_ok hw h1

theorem idle_keeps : (idleMachine C).Keeps cfg.imp := by
  intro v prob _ _ w hw t raw p w' t' delta s h
  simp only [idleMachine, Option.some.injEq, Prod.mk.injEq] at h
  obtain ⟨rfl, -⟩ := h
  exact hw

theorem fixed_keeps (fuel : Nat) : (fixedMachine cfg fuel).Keeps cfg.imp := by
  intro v prob _ _ w hw t raw p w' t' delta s h
  simp only [fixedMachine, Option.map_eq_some_iff, Option.bind_eq_some_iff, Prod.mk.injEq] at h
  obtain ⟨f, h1, s', -, r, -, rfl, -⟩ := h
  exact filterScan_ok hw h1

theorem drift_keeps {inner : Machine C T} (fuel : Nat) (hk : inner.Keeps cfg.imp) : (driftMachine cfg fuel inner).Keeps cfg.imp := by
  intro v prob hv hs w hw t raw p w' t' delta s h
  simp only [driftMachine, Option.map_eq_some_iff, Option.bind_eq_some_iff, Prod.mk.injEq] at h
  obtain ⟨⟨w1, t1, d1, s1⟩, h1, f, h2, r, -, rfl, -⟩ := h
  exact filterScan_ok (hk v prob hv hs w hw t raw p _ _ _ _ h1) h2

theorem idle_safe : (idleMachine C).Safe cfg.imp 0 := by
  intro v prob _ _ w _ t raw _ p
  exact ⟨w, t, ⟨0, 0, 0⟩, some 1, rfl, by simp, by simp⟩

theorem monte_carlo_safe (hf : 0 < cfg.cellFuel) (maxFailed maxPoses : Nat) (trans rot : ℝ) (sample : Nat → ℝ → ℝ → Delta ℝ)
    (b : ℝ) (hb : 0 ≤ b) (hsam : ∀ n x y, WithinShift b (sample n x y)) :
    (enumMachine cfg (monteCarlo maxFailed maxPoses trans rot sample) (maxPoses + 1)).Safe cfg.imp (maxPoses * b) := by
  intro v prob hv hs w hw t raw hfac p
  obtain ⟨w', e', delta, s, events, h1, -, h3⟩ := monte_carlo_on_map cfg maxFailed maxPoses trans rot sample v prob hv hs hf w hw
    raw hfac p t
  obtain ⟨b1, b2, -⟩ := h3 b hb hsam
  exact ⟨w', e', delta, s, by simp only [enumMachine, h1, Option.map_some], b1, b2⟩

theorem drift_safe {inner : Machine C T} (hf : 0 < cfg.cellFuel) (fuel : Nat) (hfuel : 7 ≤ fuel) {b : ℝ}
    (hk : inner.Keeps cfg.imp) (hi : inner.Safe cfg.imp b) : (driftMachine cfg fuel inner).Safe cfg.imp (b + 1 / 4) := by
  intro v prob hv hs w hw t raw hfac p
  obtain ⟨w1, t1, d1, s1, h1, b1, b2⟩ := hi v prob hv hs w hw t raw hfac p
  obtain ⟨w2, ws, k, wl, r, g1, -, -, -, -, -, -, g2⟩ := drift_on_map cfg v prob hv hs hf inner hfac (sm := (d1, s1)) h1
    (hk v prob hv hs w hw t raw p _ _ _ _ h1) fuel hfuel
  simp only at g2
  have hx : |r.1.x - d1.x| ≤ 1 / 4 := abs_le_of_sq_le_sq (by nlinarith [sq_nonneg (r.1.y - d1.y)]) (by norm_num)
  have hy : |r.1.y - d1.y| ≤ 1 / 4 := abs_le_of_sq_le_sq (by nlinarith [sq_nonneg (r.1.x - d1.x)]) (by norm_num)
  refine ⟨w2, t1, r.1, r.2, g1, ?_, ?_⟩
  · rw [abs_le] at hx b1 ⊢
    constructor <;> linarith [hx.1, hx.2, b1.1, b1.2]
  · rw [abs_le] at hy b2 ⊢
    constructor <;> linarith [hy.1, hy.2, b2.1, b2.2]

/-- **The fixed hill climbing ends on every map with finitely many probabilities**, in every state, and with more iterations
allowed the answer is the same. -/
theorem fixed_ends_on_map (v : View C) (prob : Point ℝ → Coord → ℝ) (h : Shows v cfg.imp prob) (V : Finset ℝ)
    (hV : ∀ q c, prob q c ∈ V) (hs : 0 < v.scale) (hf : 0 < cfg.cellFuel) (w : Spw) (hw : Spw.Ok w)
    (raw : List ScanPoint) (hfac : ∀ p ∈ raw, p.factor = 1) (init : Poses.Pose ℝ) (limit : BitVec 32) :
    ∃ fuel r, ∀ fuel', fuel ≤ fuel' → (fixedMachine cfg fuel').process v w limit raw init = some r := by
  obtain ⟨w', ws, -, heq⟩ := fixed_on_map cfg v prob h hs hf w hw raw hfac init
  obtain ⟨W, hW⟩ := finitely_many_scores prob V hV v.scale ws (usablePoints cfg.filter v.scale v.hasCell init raw)
  obtain ⟨fuel, r, hr⟩ := fixedLoop_ends (meanScore prob v.scale ws (usablePoints cfg.filter v.scale v.hasCell init raw)) (1 / 100)
    (1 / 2 * (Real.pi / 180)) W hW W.card limit init fun b _ => Finset.card_le_card (Finset.filter_subset _ _)
  refine ⟨fuel, (w', r.2.2, r.1.sub init, r.2.1), fun fuel' hle => ?_⟩
  rw [heq, fixedProcess, fixedLoop_more _ _ _ fuel fuel' hle _ _ _ _ hr]
  rfl

end

end Slam.Matcher
