import Verif.Matcher.Model
import Verif.Score.Props
import Verif.Score.Area
import Verif.ScanMatch.Driver
import Verif.ScanMatch.BruteForce
import Verif.ScanMatch.HillClimb
import Mathlib.Data.Set.Finite.List

/-!
# C85: a whole scan matcher on a map; C86: the scan matching runner
-/

set_option autoImplicit false
set_option linter.unusedSectionVars false

namespace Slam.Matcher
open Slam.Grid Slam.Rect Slam.Sensor Slam.Score Slam.ScanMatch Slam.Cells

/-! ## Specification -/

/-- The map can be read everywhere, and the impact of an obstacle is the probability `prob`. -/
def Shows {C : Type} (v : View C) (imp : Point ℝ → C → Option ℝ) (prob : Point ℝ → Coord → ℝ) : Prop :=
  ∀ c, ∃ cell, v.read c = some cell ∧ ∀ obst, imp obst cell = some (prob obst c) ∧ Unit01 (prob obst c)

/-- Where a point of the scan is in the world when the robot is at `pose`. -/
noncomputable def seenAt (pose : Poses.Pose ℝ) (p : ScanPoint) : Point ℝ :=
  ⟨pose.x + (Real.cos pose.theta * p.x - Real.sin pose.theta * p.y),
   pose.y + (Real.sin pose.theta * p.x + Real.cos pose.theta * p.y)⟩

open Classical in
/-- The points of a scan that take part when matching starts at `pose`: obstacles within the usable range, in a cell of
the map, the number of the point a multiple of the skip rate. -/
noncomputable def usablePoints (cfg : Score.Cfg) (scale : ℝ) (hasCell : Coord → Bool) (pose : Poses.Pose ℝ)
    (raw : List ScanPoint) : List ScanPoint :=
  (raw.zipIdx.filter fun q => decide (Usable cfg scale hasCell ⟨pose.x, pose.y, pose.theta⟩ q.2 q.1)).map (·.1)

open Classical in
/-- The score of a pose: the weighted mean, over the points, of the probability in the cell in which the point is;
undefined if the weights add up to zero. -/
noncomputable def meanScore (prob : Point ℝ → Coord → ℝ) (scale : ℝ) (ws : List ℝ) (pts : List ScanPoint)
    (pose : Poses.Pose ℝ) : Option ℝ :=
  if ws.sum = 0 then none
  else some (weightedMean (pts.map fun p => prob (seenAt pose p) (worldToCell scale (seenAt pose p))) ws)

/-! ## Lemmas -/

theorem filterLoop_usable (cfg : Score.Cfg) (scale : ℝ) (hasCell : Coord → Bool) (pose : Score.Pose)
    (raw : List ScanPoint) [DecidablePred fun q : ScanPoint × Nat => Usable cfg scale hasCell pose q.2 q.1] : ∀ i,
    filterLoop cfg scale hasCell pose i raw =
      ((raw.zipIdx i).filter fun q => decide (Usable cfg scale hasCell pose q.2 q.1)).map (·.1) := by
  induction raw with
  | nil => intro i; rfl
  | cons p raw ih =>
    intro i
    obtain ⟨keep, h1, h2, h3⟩ := filterLoop_spec cfg scale hasCell pose [p] i
    match keep, h1 with
    | [b], _ =>
      have hb := h3 0 p b rfl rfl
      simp only [add_zero] at hb
      have hone : filterLoop cfg scale hasCell pose i (p :: raw) =
          filterLoop cfg scale hasCell pose i [p] ++ filterLoop cfg scale hasCell pose (i + 1) raw := by
        simp only [filterLoop]
        by_cases a1 : (cfg.skipRate != 0 && i % cfg.skipRate != 0) = true
        · simp [a1]
        · simp only [a1]
          by_cases a2 : shouldSkip cfg hasCell p (worldToCell scale
            ⟨(p.moveBy pose.x pose.y (Raw.sin ⟨pose.th⟩) (Raw.cos ⟨pose.th⟩)).1,
             (p.moveBy pose.x pose.y (Raw.sin ⟨pose.th⟩) (Raw.cos ⟨pose.th⟩)).2⟩) = true
          · simp [a2]
          · simp [a2]
      rw [hone, h2, ih (i + 1), List.zipIdx_cons, List.filter_cons]
      by_cases hu : Usable cfg scale hasCell pose i p
      · have : b = true := hb.2 hu
        subst this
        simp [hu]
      · have : b = false := by
          cases b with
          | false => rfl
          | true => exact absurd (hb.1 rfl) hu
        subst this
        simp [hu]

theorem filterScan_usable {C : Type} (cfg : Cfg C) (v : View C) (w : Spw) (raw : List ScanPoint) (p : Poses.Pose ℝ) :
    cfg.filterScan v w raw p = (w.reset (usablePoints cfg.filter v.scale v.hasCell p raw)).map fun w' =>
      (usablePoints cfg.filter v.scale v.hasCell p raw, w') := by
  classical
  simp only [Cfg.filterScan, Score.filterScan, usablePoints]
  rw [filterLoop_usable]

theorem loopP_eq {S : Type} (E : Enumerator ℝ S) (score : Poses.Pose ℝ → Option (Option ℝ))
    (f : Poses.Pose ℝ → Option ℝ) (h : ∀ p, score p = some (f p)) (fuel : Nat) :
    ∀ r, loopP E score fuel r = loop E f fuel r := by
  induction fuel with
  | zero => intro r; rfl
  | succ fuel ih =>
    intro r
    unfold loopP loop
    by_cases hn : E.hasNext r.enum = true
    · rw [if_pos hn, if_pos hn]
      simp only [h, Option.bind_some, ih]
      by_cases ha : ltN r.prob (f (E.next r.enum r.best).1) = true
      · simp [ha]
      · simp [ha]
    · rw [if_neg hn, if_neg hn]

theorem searchP_eq {S : Type} (E : Enumerator ℝ S) (score : Poses.Pose ℝ → Option (Option ℝ))
    (f : Poses.Pose ℝ → Option ℝ) (h : ∀ p, score p = some (f p)) (fuel : Nat) (e : S) (init : Poses.Pose ℝ) :
    searchP E score fuel e init = processScan E f fuel e init := by
  simp only [searchP, processScan, h, Option.bind_some, loopP_eq E score f h]

theorem lessOrEqual_of_le {K : Type*} [Field K] [LinearOrder K] [IsStrictOrderedRing K] {a b : K} (h : a ≤ b) :
    lessOrEqual a b = true := by
  have hp : (0 : K) < 1 / 2 ^ 52 := by positivity
  simp only [lessOrEqual, less, Bool.or_eq_true, decide_eq_true_eq]
  exact .inr (by linarith)

theorem cells_point {C : Type} (v : View C) (fuel : Nat) (hf : 0 < fuel) (q : Point ℝ) :
    v.cells fuel ⟨q.y, q.y, q.x, q.x⟩ = some [worldToCell v.scale q] := by
  obtain ⟨n, rfl⟩ : ∃ n, fuel = n + 1 := ⟨fuel - 1, by omega⟩
  have hz : area (⟨q.y, q.y, q.x, q.x⟩ : Bounds ℝ) = 0 := by simp [area, vside]
  have hc : RState.create v.grid (.finite ⟨q.y, q.y, q.x, q.x⟩) true =
      ⟨worldToCell v.scale q, worldToCell v.scale q, (worldToCell v.scale q).x, (worldToCell v.scale q).y⟩ := by
    simp [RState.create, hz, View.grid, GridView.worldToCell]
  unfold View.cells
  rw [hc]
  generalize worldToCell v.scale q = c
  have h1 : RState.hasNext ⟨c, c, c.x, c.y⟩ = true := by simp [RState.hasNext]
  have h2 : RState.next ⟨c, c, c.x, c.y⟩ = (c, ⟨c, c, c.x + 1, c.y⟩) := by
    simp [RState.next]
  have h3 : RState.hasNext ⟨c, c, c.x + 1, c.y⟩ = false := by simp [RState.hasNext]
  unfold RState.toVector
  rw [if_pos h1]
  simp only [h2]
  unfold RState.toVector
  rw [if_neg (by rw [h3]; simp)]
  rfl

theorem pointProb_shown {C : Type} (k : Oope) (v : View C) (imp : Point ℝ → C → Option ℝ) (prob : Point ℝ → Coord → ℝ)
    (h : Shows v imp prob) (hs : 0 < v.scale) (fuel : Nat) (hf : 0 < fuel) (q : Point ℝ) :
    pointProb k imp fuel v q (moveCenter ⟨0, 0, 0, 0⟩ q) = some (prob q (worldToCell v.scale q)) := by
  have hm : moveCenter (⟨0, 0, 0, 0⟩ : Bounds ℝ) q = ⟨q.y, q.y, q.x, q.x⟩ := by
    simp [moveCenter, hside, vside]
  obtain ⟨cell, hr, hi⟩ := h (worldToCell v.scale q)
  have himp : v.impact imp q (worldToCell v.scale q) = some (prob q (worldToCell v.scale q)) := by
    simp [View.impact, hr, (hi q).1]
  have hu := (hi q).2
  have hk := checked_some himp hu
  rw [hm]
  cases k with
  | obstacle =>
    simp only [pointProb, obstaclePE, View.grid, GridView.worldToCell]
    exact hk
  | max => simp [pointProb, cells_point v fuel hf, maxPE, maxLoop, hk, max_eq_left hu.1]
  | mean => simp [pointProb, cells_point v fuel hf, meanPE, meanLoop, hk]
  | overlap =>
    have hz : area (⟨q.y, q.y, q.x, q.x⟩ : Bounds ℝ) = 0 := by simp [area, vside]
    have ho : overlap lessOrEqual areEqual (⟨q.y, q.y, q.x, q.x⟩ : Bounds ℝ)
        (worldCellBounds v.scale (worldToCell v.scale q)) = some 1 := by
      have hb := fun a b (h : a ≤ b) => lessOrEqual_of_le (K := ℝ) (a := a) (b := b) h
      have h1 := Int.floor_le (q.x / v.scale)
      have h2 := (Int.lt_floor_add_one (q.x / v.scale)).le
      have h3 := Int.floor_le (q.y / v.scale)
      have h4 := (Int.lt_floor_add_one (q.y / v.scale)).le
      rw [le_div_iff₀ hs] at h1 h3
      rw [div_le_iff₀ hs] at h2 h4
      have hbz : area (worldCellBounds v.scale (worldToCell v.scale q)) ≠ 0 := by
        have : area (worldCellBounds v.scale (worldToCell v.scale q)) = v.scale * v.scale := by
          simp only [area, vside, hside, worldCellBounds]; ring
        rw [this]; positivity
      have hc : contains lessOrEqual (worldCellBounds v.scale (worldToCell v.scale q)) q.x q.y = true := by
        simp only [contains, areOrdered, worldCellBounds, worldToCell, Bool.and_eq_true]
        exact ⟨⟨hb _ _ (by linarith), hb _ _ (by linarith)⟩, hb _ _ (by linarith), hb _ _ (by linarith)⟩
      unfold overlap
      rw [if_neg (by simp [hz]), if_pos hbz, if_pos hc]
    simp [pointProb, cells_point v fuel hf, overlapPE, overlapLoop, hk, ho]

theorem obstacleOf_seenAt (p : Poses.Pose ℝ) (sp : ScanPoint) :
    obstacleOf ⟨⟨0, 0, 0, 0⟩, false⟩ ⟨p.x, p.y, p.theta⟩ sp = seenAt p sp :=
  (obstacle_position ⟨0, 0, 0, 0⟩ ⟨p.x, p.y, p.theta⟩ sp).1

/-- The weighting strategies are usable: the histogram has bins. -/
def Spw.Ok (w : Spw) : Prop := ∀ h, w = .ahr h → h.WF ∧ 0 < h.n

/-- `ws` are the weights of `pts`: non-negative, positive for points off the sensor, equal for even weights. -/
structure Weights (w w' : Spw) (pts : List ScanPoint) (ws : List ℝ) : Prop where
  len : ws.length = pts.length
  reset : w.reset pts = some w'
  given : ∀ i, i < pts.length → w'.weight pts i = ws[i]?
  nonneg : ∀ x ∈ ws, 0 ≤ x
  pos : ∀ (i : Nat) (p : ScanPoint), pts[i]? = some p → 0 < p.range → ∃ x, ws[i]? = some x ∧ 0 < x
  even : (∃ c, w = .even c) → ∀ x ∈ ws, x = 1 / (pts.length : ℝ)

theorem weights_exist (w : Spw) (hw : Spw.Ok w) (pts : List ScanPoint) : ∃ w' ws, Weights w w' pts ws := by
  obtain ⟨w', h1, h2, h3, h4⟩ := weights_defined w hw pts
  refine ⟨w', (List.range pts.length).map fun i => (w'.weight pts i).getD 0, by simp, h1, ?_, ?_, ?_, ?_⟩
  · intro i hi
    obtain ⟨x, hx, -⟩ := h2 i hi
    simp [hi, hx]
  · intro x hx
    simp only [List.mem_map, List.mem_range] at hx
    obtain ⟨i, hi, rfl⟩ := hx
    obtain ⟨y, hy, h0⟩ := h2 i hi
    simpa [hy] using h0
  · intro i p hp hr
    obtain ⟨x, hx, h0⟩ := h3 i p hp hr
    have hi : i < pts.length := (List.getElem?_eq_some_iff.1 hp).1
    exact ⟨x, by simp [hi, hx], h0⟩
  · intro hc x hx
    simp only [List.mem_map, List.mem_range] at hx
    obtain ⟨i, hi, rfl⟩ := hx
    simp [h4 hc i hi]

theorem score_on_map {C : Type} (cfg : Cfg C) (v : View C) (prob : Point ℝ → Coord → ℝ)
    (h : Shows v cfg.imp prob) (hs : 0 < v.scale) (hf : 0 < cfg.cellFuel) (w w' : Spw) (pts : List ScanPoint)
    (ws : List ℝ) (hw : Weights w w' pts ws) (hfac : ∀ p ∈ pts, p.factor = 1) (p : Poses.Pose ℝ) :
    cfg.score v w' pts p = some (meanScore prob v.scale ws pts p) := by
  classical
  have hx : List.Forall₂ (fun sp x => pointProb cfg.oope cfg.imp cfg.cellFuel v
        (obstacleOf ⟨⟨0, 0, 0, 0⟩, false⟩ ⟨p.x, p.y, p.theta⟩ sp)
        (moveCenter ⟨0, 0, 0, 0⟩ (obstacleOf ⟨⟨0, 0, 0, 0⟩, false⟩ ⟨p.x, p.y, p.theta⟩ sp)) = some x) pts
      (pts.map fun sp => prob (seenAt p sp) (worldToCell v.scale (seenAt p sp))) := by
    rw [List.forall₂_map_right_iff, List.forall₂_same]
    intro sp _
    rw [obstacleOf_seenAt]
    exact pointProb_shown cfg.oope v cfg.imp prob h hs cfg.cellFuel hf _
  obtain ⟨h1, h2⟩ := score_is_weighted_mean (pointProb cfg.oope cfg.imp cfg.cellFuel v) w' ⟨⟨0, 0, 0, 0⟩, false⟩
    ⟨p.x, p.y, p.theta⟩ pts _ ws hfac hx hw.len hw.given
  unfold Cfg.score meanScore
  by_cases h0 : ws.sum = 0
  · rw [if_pos h0, h1 h0]
  · rw [if_neg h0, h2 h0]

theorem usable_subset (cfg : Score.Cfg) (scale : ℝ) (hasCell : Coord → Bool) (pose : Poses.Pose ℝ)
    (raw : List ScanPoint) : ∀ p ∈ usablePoints cfg scale hasCell pose raw, p ∈ raw := by
  classical
  intro p hp
  simp only [usablePoints, List.mem_map, List.mem_filter] at hp
  obtain ⟨q, ⟨hq, -⟩, rfl⟩ := hp
  exact List.fst_mem_of_mem_zipIdx hq

/-! ## C85 -/

/-- **A matching run is a search for the best mean probability (C85).** For every pose enumerator, every weighting and
every estimator of point probabilities, on every map that can be read: filtering and scoring never fail, and the run is the
search of C28 with the score `meanScore` of the usable points. -/
theorem matcher_on_map {C S : Type} (cfg : Cfg C) (E : Enumerator ℝ S) (v : View C) (prob : Point ℝ → Coord → ℝ)
    (h : Shows v cfg.imp prob) (hs : 0 < v.scale) (hf : 0 < cfg.cellFuel) (w : Spw) (hw : Spw.Ok w)
    (raw : List ScanPoint) (hfac : ∀ p ∈ raw, p.factor = 1) (init : Poses.Pose ℝ) :
    ∃ w' ws, Weights w w' (usablePoints cfg.filter v.scale v.hasCell init raw) ws ∧ ∀ fuel e,
      cfg.processScan E v fuel w e raw init =
        (processScan E (meanScore prob v.scale ws (usablePoints cfg.filter v.scale v.hasCell init raw)) fuel e init).map
          fun r => (w', r) := by
  obtain ⟨w', ws, hws⟩ := weights_exist w hw (usablePoints cfg.filter v.scale v.hasCell init raw)
  refine ⟨w', ws, hws, fun fuel e => ?_⟩
  unfold Cfg.processScan
  rw [filterScan_usable, hws.reset]
  simp only [Option.map_some, Option.bind_some]
  rw [searchP_eq E _ _ (score_on_map cfg v prob h hs hf w w' _ ws hws
    fun p hp => hfac p (usable_subset _ _ _ _ _ p hp))]

theorem weights_sum_pos {w w' : Spw} {pts : List ScanPoint} {ws : List ℝ} (hw : Weights w w' pts ws)
    (h : ∃ p ∈ pts, 0 < p.range) : 0 < ws.sum := by
  obtain ⟨p, hp, hr⟩ := h
  obtain ⟨i, hi⟩ := List.mem_iff_getElem?.1 hp
  obtain ⟨x, hx, h0⟩ := hw.pos i p hi hr
  exact lt_of_lt_of_le h0 (List.single_le_sum hw.nonneg x (List.mem_of_getElem? hx))

theorem meanScore_unit {prob : Point ℝ → Coord → ℝ} (hp : ∀ q c, Unit01 (prob q c)) (scale : ℝ) {w w' : Spw}
    {pts : List ScanPoint} {ws : List ℝ} (hw : Weights w w' pts ws) (pose : Poses.Pose ℝ) (s : ℝ)
    (h : meanScore prob scale ws pts pose = some s) : Unit01 s := by
  unfold meanScore at h
  by_cases h0 : ws.sum = 0
  · rw [if_pos h0] at h; cases h
  · rw [if_neg h0, Option.some.injEq] at h
    rw [← h]
    refine weightedMean_between _ _ 0 1 (by simp [hw.len]) hw.nonneg h0 ?_
    intro x hx
    simp only [List.mem_map] at hx
    obtain ⟨p, -, rfl⟩ := hx
    exact hp _ _

theorem Shows.unit {C : Type} {v : View C} {imp : Point ℝ → C → Option ℝ} {prob : Point ℝ → Coord → ℝ}
    (h : Shows v imp prob) (q : Point ℝ) (c : Coord) : Unit01 (prob q c) := by
  obtain ⟨cell, -, h2⟩ := h c
  exact (h2 q).2

/-- **What a matching run returns (C85).** If a point off the sensor is usable, the probability returned is the highest
score of the tested poses, a number in `[0, 1]`, and the shift leads to the first tested pose that has it; the initial pose
is tested first. Without usable points the probability is NaN and the shift zero. -/
theorem matcher_returns_best {C S : Type} (cfg : Cfg C) (E : Enumerator ℝ S) (v : View C) (prob : Point ℝ → Coord → ℝ)
    (h : Shows v cfg.imp prob) (hs : 0 < v.scale) (hf : 0 < cfg.cellFuel) (w : Spw) (hw : Spw.Ok w)
    (raw : List ScanPoint) (hfac : ∀ p ∈ raw, p.factor = 1) (init : Poses.Pose ℝ) (fuel : Nat) (e : S)
    (w' : Spw) (e' : S) (delta : Poses.Delta ℝ) (best : Option ℝ) (events : List (Event ℝ))
    (hr : cfg.processScan E v fuel w e raw init = some (w', e', delta, best, events)) :
    ∃ ws, Weights w w' (usablePoints cfg.filter v.scale v.hasCell init raw) ws ∧
      (∃ rest, testedPoses events = init :: rest) ∧
      ((∃ p ∈ usablePoints cfg.filter v.scale v.hasCell init raw, 0 < p.range) → ∃ s, best = some s ∧ Unit01 s ∧
        FirstMax (meanScore prob v.scale ws (usablePoints cfg.filter v.scale v.hasCell init raw)) (testedPoses events)
          (init.add delta) s) ∧
      (usablePoints cfg.filter v.scale v.hasCell init raw = [] → best = none ∧ delta = Poses.Pose.zero) := by
  obtain ⟨w1, ws, hws, heq⟩ := matcher_on_map cfg E v prob h hs hf w hw raw hfac init
  rw [heq, Option.map_eq_some_iff] at hr
  obtain ⟨⟨e1, d1, b1, ev1⟩, hr, e⟩ := hr
  simp only [Prod.mk.injEq] at e
  obtain ⟨rfl, rfl, rfl, rfl, rfl⟩ := e
  refine ⟨ws, hws, ?_, ?_, ?_⟩
  · obtain ⟨tested, ht⟩ := enumeration_notifications E _ fuel e init _ _ _ _ hr
    rw [ht]
    exact ⟨_, rfl⟩
  · intro hpos
    have h0 := weights_sum_pos hws hpos
    obtain ⟨s0, hi⟩ : ∃ s0, meanScore prob v.scale ws (usablePoints cfg.filter v.scale v.hasCell init raw) init =
        some s0 := by
      unfold meanScore; rw [if_neg h0.ne']; exact ⟨_, rfl⟩
    obtain ⟨p, s, h1, h2, -, h3⟩ := enumeration_returns_first_maximum E _ fuel e init _ hi _ _ _ _ hr
    refine ⟨s, h1, meanScore_unit h.unit v.scale hws p s h3.1, ?_⟩
    rw [h2]; exact h3
  · intro hnil
    have hn : meanScore prob v.scale ws (usablePoints cfg.filter v.scale v.hasCell init raw) init = none := by
      have : ws = [] := by
        have := hws.len
        rw [hnil] at this
        exact List.length_eq_zero_iff.1 this
      simp [meanScore, this]
    exact enumeration_undefined_initial E _ fuel e init hn _ _ _ _ hr

/-- **Brute force on a map (C85)**: a fresh matcher ends, and with a usable point off the sensor it returns the first of
the best candidates of its window: no combination of the steps around the initial pose has a higher mean probability. -/
theorem brute_force_best_on_map {C : Type} (cfg : Cfg C) (P : BFParams ℝ) (hP : P.Ok) (v : View C)
    (prob : Point ℝ → Coord → ℝ) (h : Shows v cfg.imp prob) (hs : 0 < v.scale) (hf : 0 < cfg.cellFuel) (w : Spw)
    (hw : Spw.Ok w) (raw : List ScanPoint) (hfac : ∀ p ∈ raw, p.factor = 1) (init : Poses.Pose ℝ)
    (hu : ∃ p ∈ usablePoints cfg.filter v.scale v.hasCell init raw, 0 < p.range) :
    ∃ fuel w' e' delta s events ws,
      cfg.processScan (bruteForce P) v fuel w (BFState.init P) raw init = some (w', e', delta, some s, events) ∧
      Weights w w' (usablePoints cfg.filter v.scale v.hasCell init raw) ws ∧ Unit01 s ∧
      FirstMax (meanScore prob v.scale ws (usablePoints cfg.filter v.scale v.hasCell init raw))
        (init :: (searchGrid P).map (around init)) (init.add delta) s := by
  obtain ⟨w', ws, hws, heq⟩ := matcher_on_map cfg (bruteForce P) v prob h hs hf w hw raw hfac init
  obtain ⟨e', delta, best, events, fuel, h1, h2, -, -⟩ := brute_force_first_run P hP
    (meanScore prob v.scale ws (usablePoints cfg.filter v.scale v.hasCell init raw)) init
  have hr : cfg.processScan (bruteForce P) v fuel w (BFState.init P) raw init = some (w', e', delta, best, events) := by
    rw [heq, h1]; rfl
  have h0 := weights_sum_pos hws hu
  obtain ⟨s0, hi⟩ : ∃ s0, meanScore prob v.scale ws (usablePoints cfg.filter v.scale v.hasCell init raw) init =
      some s0 := by
    unfold meanScore; rw [if_neg h0.ne']; exact ⟨_, rfl⟩
  obtain ⟨p, s, h3, h4, -, h5⟩ := enumeration_returns_first_maximum _ _ fuel _ init _ hi _ _ _ _ h1
  subst h3
  refine ⟨fuel, w', e', delta, s, events, ws, hr, hws, meanScore_unit h.unit v.scale hws p s h5.1, ?_⟩
  rw [h4, ← h2]; exact h5

/-- The scores of a scan on a map with finitely many different probabilities are finitely many. -/
theorem finitely_many_scores (prob : Point ℝ → Coord → ℝ) (V : Finset ℝ) (hV : ∀ q c, prob q c ∈ V) (scale : ℝ)
    (ws : List ℝ) (pts : List ScanPoint) :
    ∃ W : Finset ℝ, ∀ pose s, meanScore prob scale ws pts pose = some s → s ∈ W := by
  classical
  have hfin : Set.Finite {l : List V | l.length = pts.length} := List.finite_length_eq V pts.length
  refine ⟨hfin.toFinset.image fun l => weightedMean (l.map Subtype.val) ws, ?_⟩
  intro pose s h
  unfold meanScore at h
  by_cases h0 : ws.sum = 0
  · rw [if_pos h0] at h; cases h
  · rw [if_neg h0, Option.some.injEq] at h
    simp only [Finset.mem_image, Set.Finite.mem_toFinset, Set.mem_ofPred_eq]
    refine ⟨pts.map fun p => ⟨prob (seenAt pose p) (worldToCell scale (seenAt pose p)), hV _ _⟩, by simp, ?_⟩
    rw [← h, List.map_map]
    rfl

/-- **Hill climbing ends on every such map (C85)**, and what it returns is the outcome of the rounds of C30. -/
theorem hill_climbing_ends_on_map {C : Type} (cfg : Cfg C) (F : Nat) (d r : ℝ) (v : View C)
    (prob : Point ℝ → Coord → ℝ) (h : Shows v cfg.imp prob) (V : Finset ℝ) (hV : ∀ q c, prob q c ∈ V)
    (hs : 0 < v.scale) (hf : 0 < cfg.cellFuel) (w : Spw) (hw : Spw.Ok w) (raw : List ScanPoint)
    (hfac : ∀ p ∈ raw, p.factor = 1) (init : Poses.Pose ℝ) (e : HCState ℝ) :
    ∃ fuel w' e' best s events ws tested,
      cfg.processScan (hillClimbing F d r) v fuel w e raw init =
        some (w', e', Poses.Pose.sub best init, s, events) ∧
      Weights w w' (usablePoints cfg.filter v.scale v.hasCell init raw) ws ∧
      Climb (meanScore prob v.scale ws (usablePoints cfg.filter v.scale v.hasCell init raw)) F d r init
        (meanScore prob v.scale ws (usablePoints cfg.filter v.scale v.hasCell init raw) init) tested best s := by
  obtain ⟨w', ws, hws, heq⟩ := matcher_on_map cfg (hillClimbing F d r) v prob h hs hf w hw raw hfac init
  obtain ⟨W, hW⟩ := finitely_many_scores prob V hV v.scale ws (usablePoints cfg.filter v.scale v.hasCell init raw)
  obtain ⟨⟨e', delta, s, events⟩, ho⟩ := hill_climbing_terminates F d r
    (meanScore prob v.scale ws (usablePoints cfg.filter v.scale v.hasCell init raw)) e init W (fun q x => hW q x)
  obtain ⟨tested, best, h1, h2, -⟩ := hill_climbing_follows_rounds F d r _ e init _ e' delta s events ho
  subst h2
  exact ⟨_, w', e', best, s, events, ws, tested, by rw [heq, ho]; rfl, hws, h1⟩

/-! ## C86: the scan matching runner -/

/-- Filtering once more at the same pose changes nothing, without a skip rate above one. -/
theorem usable_idempotent (cfg : Score.Cfg) (hk : cfg.skipRate ≤ 1) (scale : ℝ) (hasCell : Coord → Bool)
    (pose : Poses.Pose ℝ) (raw : List ScanPoint) :
    usablePoints cfg scale hasCell pose (usablePoints cfg scale hasCell pose raw) =
      usablePoints cfg scale hasCell pose raw := by
  classical
  have hu : ∀ i j p, Usable cfg scale hasCell ⟨pose.x, pose.y, pose.theta⟩ i p →
      Usable cfg scale hasCell ⟨pose.x, pose.y, pose.theta⟩ j p := by
    rintro i j p ⟨-, h2⟩
    refine ⟨?_, h2⟩
    rcases Nat.le_one_iff_eq_zero_or_eq_one.1 hk with h | h
    · exact .inl h
    · right; rw [h]; exact one_dvd _
  have hmem : ∀ p ∈ usablePoints cfg scale hasCell pose raw, ∀ j,
      Usable cfg scale hasCell ⟨pose.x, pose.y, pose.theta⟩ j p := by
    intro p hp j
    simp only [usablePoints, List.mem_map, List.mem_filter, decide_eq_true_eq] at hp
    obtain ⟨q, ⟨-, hq⟩, rfl⟩ := hp
    exact hu _ _ _ hq
  generalize usablePoints cfg scale hasCell pose raw = l at hmem
  unfold usablePoints
  rw [List.filter_eq_self.2, List.zipIdx_map_fst]
  intro q hq
  simp only [decide_eq_true_eq]
  exact hmem q.1 (List.fst_mem_of_mem_zipIdx hq) q.2

theorem addAll_keeps (ps : List ScanPoint) : ∀ (h h' : Hist) (i : Nat) (prev : ScanPoint),
    h.addAll i prev ps = some h' → h'.n = h.n ∧ h'.hist.length = h.hist.length ∧ h'.angSum.length = h.angSum.length ∧
      h'.driftDirs.length = h.driftDirs.length ∧ ∀ j, j < i → h'.driftDirs[j]? = h.driftDirs[j]? := by
  induction ps with
  | nil =>
    intro h h' i prev e
    simp only [Hist.addAll, Option.some.injEq] at e
    subst e
    exact ⟨rfl, rfl, rfl, rfl, fun _ _ => rfl⟩
  | cons p ps ih =>
    intro h h' i prev e
    simp only [Hist.addAll, Hist.add, Option.bind_eq_some_iff, Option.map_eq_some_iff] at e
    obtain ⟨h1, ⟨k, -, rfl⟩, e⟩ := e
    obtain ⟨a, b, c, d, f⟩ := ih _ _ _ _ e
    simp only [List.length_modify, List.length_set] at a b c d f
    refine ⟨a, b, c, d, fun j hj => ?_⟩
    rw [f j (by omega), List.getElem?_set_ne (by omega)]

theorem addAll_again (ps : List ScanPoint) : ∀ (h h' : Hist) (i : Nat) (prev : ScanPoint),
    i + ps.length ≤ h.driftDirs.length → h.addAll i prev ps = some h' →
    Hist.addAll ⟨h.n, h.hist, h.angSum, h'.driftDirs⟩ i prev ps = some h' := by
  induction ps with
  | nil =>
    intro h h' i prev _ e
    simp only [Hist.addAll, Option.some.injEq] at e
    subst e
    rfl
  | cons p ps ih =>
    intro h h' i prev hl e
    simp only [Hist.addAll, Hist.add, Option.bind_eq_some_iff, Option.map_eq_some_iff] at e
    obtain ⟨h1, ⟨k, hk, rfl⟩, e⟩ := e
    simp only [List.length_cons] at hl
    have hset : h'.driftDirs.set i (oxAngle prev p) = h'.driftDirs := by
      obtain ⟨-, -, -, -, f⟩ := addAll_keeps ps _ _ _ _ e
      have := f i (by omega)
      simp only at this
      rw [List.getElem?_set_self (by omega)] at this
      apply List.ext_getElem? 
      intro j
      by_cases hj : i = j
      · subst hj
        rw [this, List.getElem?_set_self]
        exact (List.getElem?_eq_some_iff.1 this).1
      · rw [List.getElem?_set_ne hj]
    have hk' : Hist.histIndex ⟨h.n, h.hist, h.angSum, h'.driftDirs⟩ (oxAngle prev p) = some k := hk
    simp only [Hist.addAll, Hist.add, hk', Option.map_some, Option.bind_some, hset]
    exact ih _ _ _ _ (by simp only [List.length_set]; omega) e

theorem zeros_of_length {α β γ : Type} (l : List α) (m : List β) (z : γ) (h : l.length = m.length) :
    l.map (fun _ => z) = m.map (fun _ => z) := by
  rw [List.map_const', List.map_const', h]

theorem reset_again (w w' : Spw) (pts : List ScanPoint) (h : w.reset pts = some w') : w'.reset pts = some w' := by
  cases w with
  | even c => simp only [Spw.reset, Option.some.injEq] at h; subst h; rfl
  | viny => simp only [Spw.reset, Option.some.injEq] at h; subst h; rfl
  | ahr hist =>
    simp only [Spw.reset, Option.map_eq_some_iff] at h
    obtain ⟨h', h, rfl⟩ := h
    simp only [Spw.reset, Option.map_eq_some_iff]
    refine ⟨h', ?_, rfl⟩
    have hres : ∀ (l : List ℝ), (resize l pts.length).length = pts.length := by
      intro l; simp [resize]; omega
    cases pts with
    | nil =>
      simp only [Hist.reset, Option.some.injEq] at h
      subst h
      simp [Hist.reset, resize]
    | cons p ps =>
      simp only [Hist.reset] at h ⊢
      obtain ⟨a, b, c, d, -⟩ := addAll_keeps ps _ _ _ _ h
      simp only [List.length_map] at a b c d
      rw [hres] at d
      have hr : resize h'.driftDirs (p :: ps).length = h'.driftDirs := by
        simp [resize, ← d]
      rw [hr, zeros_of_length _ _ _ b, zeros_of_length _ _ _ c, a]
      exact addAll_again ps _ _ 1 p (by rw [hres]; simp; omega) h

/-- **The runner does what the matcher does on the raw scan (C86)**, although it filters the scan itself and the matcher
filters it again: for every map, enumerator, weighting and estimator, if no more than every point is skipped (a skip rate
of zero or one). -/
theorem runner_same_as_matcher {C S : Type} (cfg : Cfg C) (hk : cfg.filter.skipRate ≤ 1) (E : Enumerator ℝ S) (v : View C)
    (fuel : Nat) (w : Spw) (e : S) (raw : List ScanPoint) (pose : Poses.Pose ℝ) :
    cfg.runOnce E v fuel w e raw pose =
      (cfg.processScan E v fuel w e raw pose).map fun r => (r.2.2.1, r.2.2.2.1) := by
  unfold Cfg.runOnce Cfg.processScan
  rw [filterScan_usable]
  cases hr : w.reset (usablePoints cfg.filter v.scale v.hasCell pose raw) with
  | none => rfl
  | some w' =>
    simp only [Option.map_some, Option.bind_some]
    rw [filterScan_usable, usable_idempotent cfg.filter hk, reset_again w w' _ hr]
    rfl

/-! ## Impacts of the program's cells -/

/-- Cells with a probability of their own (`AffineQualityMergeCell`, `MeanProbabilityCell`): both impact estimators yield
the occupancy probability. -/
theorem naive_impact (p : ℝ) (hp : Unit01 p) (obst : Point ℝ) :
    occupancyImpact p = some p ∧
    (∀ (q : ℝ) (u : Bool), discrepancyOie (AffineCell.discrepancy ⟨⟨p, q⟩, u⟩) obst = some p) ∧
    ∀ (q : ℝ) (u : Bool) (n : ℝ), discrepancyOie (MeanCell.discrepancy ⟨⟨p, q⟩, u, n⟩) obst = some p := by
  have h : 1 - |p - 1| = p := by
    rw [abs_of_nonpos (by linarith [hp.2])]; ring
  refine ⟨rfl, fun q u => ?_, fun q u n => ?_⟩
  · simp only [discrepancyOie, AffineCell.discrepancy, Option.map_some, discrepancyImpact, h]
  · simp only [discrepancyOie, MeanCell.discrepancy, Option.map_some, discrepancyImpact, h]

/-- So on a map of such cells that can be read everywhere and shows probabilities, the score is the weighted mean of the
occupancy probabilities of the cells the points fall into (`prob` does not depend on the observation). -/
theorem naive_shows (v : View (AffineCell ℝ)) (h : ∀ c, ∃ cell, v.read c = some cell ∧ Unit01 cell.occ.prob) :
    Shows v (fun obst cell => discrepancyOie cell.discrepancy obst) (fun _ c => ((v.read c).map (·.occ.prob)).getD 0) ∧
    Shows v (fun _ cell => occupancyImpact cell.occ.prob) (fun _ c => ((v.read c).map (·.occ.prob)).getD 0) := by
  constructor <;>
  · intro c
    obtain ⟨cell, h1, h2⟩ := h c
    refine ⟨cell, h1, fun obst => ?_⟩
    obtain ⟨a, b, -⟩ := naive_impact _ h2 obst
    simp only [h1, Option.map_some, Option.getD_some]
    exact ⟨by first | exact b _ _ | exact a, h2⟩

/-- The same for averaging cells. -/
theorem naive_shows_mean (v : View (MeanCell ℝ)) (h : ∀ c, ∃ cell, v.read c = some cell ∧ Unit01 cell.occ.prob) :
    Shows v (fun obst cell => discrepancyOie cell.discrepancy obst) (fun _ c => ((v.read c).map (·.occ.prob)).getD 0) ∧
    Shows v (fun _ cell => occupancyImpact cell.occ.prob) (fun _ c => ((v.read c).map (·.occ.prob)).getD 0) := by
  constructor <;>
  · intro c
    obtain ⟨cell, h1, h2⟩ := h c
    refine ⟨cell, h1, fun obst => ?_⟩
    obtain ⟨a, -, b⟩ := naive_impact _ h2 obst
    simp only [h1, Option.map_some, Option.getD_some]
    exact ⟨by first | exact b _ _ _ | exact a, h2⟩

/-! ## A concrete matcher -/

open Classical in
/-- A map with an obstacle in cell (1, 0), unknown elsewhere. -/
noncomputable def demoView : View (AffineCell ℝ) :=
  ⟨⟨10, 10⟩, ⟨5, 5⟩, 1, fun _ => true, fun c => some ⟨⟨if c = ⟨1, 0⟩ then 9 / 10 else 1 / 2, 1⟩, false⟩⟩

/-- A matcher with discrepancies, even weights and the given skip rate. -/
noncomputable def demoCfg (skip : Nat) : Cfg (AffineCell ℝ) :=
  ⟨⟨skip, -1⟩, .max, fun obst cell => discrepancyOie cell.discrepancy obst, 1⟩

theorem demo_unit (c : Coord) : ∃ cell, demoView.read c = some cell ∧ Unit01 cell.occ.prob := by
  refine ⟨_, rfl, ?_⟩
  simp only [Unit01]
  split <;> norm_num

/-- Four obstacles in different directions ahead. -/
noncomputable def demoScan : List ScanPoint :=
  [.polar (3 / 2) 0 true 1, .polar (5 / 2) 0 true 1, .polar (7 / 2) 0 true 1, .polar (9 / 2) 0 true 1]

theorem demo_usable (skip : Nat) (i : Nat) (r : ℝ) (pose : Score.Pose) :
    Usable ⟨skip, -1⟩ 1 (fun _ => true) pose i (.polar r 0 true 1) ↔ (skip = 0 ∨ skip ∣ i) := by
  have h : ¬ ((0 : ℝ) < -1 + 1 / 2 ^ 52) := by norm_num
  simp only [Usable, ScanPoint.occupied, h, false_and, not_false_eq_true, and_true]

/-- The hypotheses of the theorems about maps hold: brute force over a window of a metre finds the obstacle. -/
example : ∃ fuel w' e' delta s events,
    (demoCfg 0).processScan (bruteForce ⟨-1, 1, 1 / 2, -1, 1, 1 / 2, 0, 0, 1⟩) demoView fuel (.even 1)
      (BFState.init ⟨-1, 1, 1 / 2, -1, 1, 1 / 2, 0, 0, 1⟩) demoScan ⟨0, 0, 0⟩ = some (w', e', delta, some s, events) ∧
    Unit01 s := by
  classical
  obtain ⟨fuel, w', e', delta, s, events, ws, h1, -, h2, -⟩ := brute_force_best_on_map (demoCfg 0)
    ⟨-1, 1, 1 / 2, -1, 1, 1 / 2, 0, 0, 1⟩ (by constructor <;> norm_num) demoView _ (naive_shows demoView demo_unit).1
    (by norm_num [demoView]) (by norm_num [demoCfg]) (.even 1) (by intro h e; cases e) demoScan
    (by simp [demoScan, ScanPoint.factor]) ⟨0, 0, 0⟩
    ⟨.polar (3 / 2) 0 true 1, by
      simp only [usablePoints, List.mem_map, List.mem_filter, decide_eq_true_eq]
      exact ⟨(.polar (3 / 2) 0 true 1, 0), ⟨by simp [demoScan], (demo_usable 0 0 _ _).2 (.inl rfl)⟩, rfl⟩,
      by norm_num [ScanPoint.range]⟩
  exact ⟨fuel, w', e', delta, s, events, h1, h2⟩

/-- An enumerator without candidates (as that of a matcher allowed no attempts). -/
def idleEnumerator : Enumerator ℝ Unit := ⟨fun _ => false, fun s p => (p, s), id, fun s _ => s⟩

theorem demo_once : usablePoints ⟨2, -1⟩ 1 (fun _ => true) ⟨0, 0, 0⟩ demoScan =
    [.polar (3 / 2) 0 true 1, .polar (7 / 2) 0 true 1] := by
  classical
  simp [usablePoints, demoScan, demo_usable]

theorem demo_twice : usablePoints ⟨2, -1⟩ 1 (fun _ => true) ⟨0, 0, 0⟩
    [.polar (3 / 2) 0 true 1, .polar (7 / 2) 0 true 1] = [.polar (3 / 2) 0 true 1] := by
  classical
  simp [usablePoints, demo_usable]

theorem demo_prob (r : ℝ) (c : ℤ) (h1 : (c : ℝ) ≤ r) (h2 : r < c + 1) :
    ((demoView.read (worldToCell 1 (seenAt ⟨0, 0, 0⟩ (.polar r 0 true 1)))).map (·.occ.prob)).getD 0 =
      if c = 1 then 9 / 10 else 1 / 2 := by
  have hc : worldToCell 1 (seenAt ⟨0, 0, 0⟩ (.polar r 0 true 1)) = ⟨c, 0⟩ := by
    simp [worldToCell, seenAt, ScanPoint.x, ScanPoint.y, Int.floor_eq_iff, h1, h2]
  rw [hc]
  simp [demoView]

theorem idle_run (raw : List ScanPoint) (hfac : ∀ p ∈ raw, p.factor = 1) (c : ℝ) (pts : List ScanPoint)
    (hp : usablePoints ⟨2, -1⟩ 1 (fun _ => true) ⟨0, 0, 0⟩ raw = pts) (hne : pts ≠ []) :
    ∃ events, (demoCfg 2).processScan idleEnumerator demoView 1 (.even c) () raw ⟨0, 0, 0⟩ =
      some (.even (1 / (pts.length : ℝ)), (), ⟨0, 0, 0⟩, some (weightedMean (pts.map fun p =>
        ((demoView.read (worldToCell 1 (seenAt ⟨0, 0, 0⟩ p))).map (·.occ.prob)).getD 0)
        (List.replicate pts.length (1 / (pts.length : ℝ)))), events) := by
  classical
  obtain ⟨w', ws, hw, h⟩ := matcher_on_map (demoCfg 2) idleEnumerator demoView _ (naive_shows demoView demo_unit).1
    (by norm_num [demoView]) (by norm_num [demoCfg]) (.even c) (by intro h e; cases e) raw hfac ⟨0, 0, 0⟩
  have hu : usablePoints (demoCfg 2).filter demoView.scale demoView.hasCell ⟨0, 0, 0⟩ raw = pts := hp
  rw [hu] at hw h
  have hl : (0 : ℝ) < pts.length := by
    have := List.length_pos_iff.2 hne
    exact_mod_cast this
  have hws : ws = List.replicate pts.length (1 / (pts.length : ℝ)) := by
    rw [← hw.len, List.eq_replicate_iff]
    refine ⟨rfl, ?_⟩
    rw [hw.len]
    exact hw.even ⟨c, rfl⟩
  have hw' : w' = .even (1 / (pts.length : ℝ)) := by
    have := hw.reset
    simp only [Spw.reset, Option.some.injEq] at this
    exact this.symm
  have hsum : ws.sum ≠ 0 := by
    rw [hws, List.sum_replicate, nsmul_eq_mul, mul_one_div_cancel hl.ne']
    norm_num
  rw [h 1 ()]
  subst hw'
  rw [← hws]
  simp only [processScan, ScanMatch.loop, idleEnumerator, meanScore, if_neg hsum, Poses.Pose.sub, Bool.false_eq_true, if_false,
    Option.map_some, sub_zero]
  exact ⟨_, rfl⟩

/-- **The runner skips points twice (C86).** With a skip rate of two the matcher uses every second point of the scan, the
runner every second of those: here the runner reports a probability of 0.9, the matcher 0.7, for the same scan, map, pose
and enumerator. -/
theorem runner_skip_counterexample :
    (demoCfg 2).runOnce idleEnumerator demoView 1 (.even 0) () demoScan ⟨0, 0, 0⟩ = some (⟨0, 0, 0⟩, some (9 / 10)) ∧
    ∃ events, (demoCfg 2).processScan idleEnumerator demoView 1 (.even 0) () demoScan ⟨0, 0, 0⟩ =
      some (.even (1 / 2), (), ⟨0, 0, 0⟩, some (7 / 10), events) := by
  have hfac : ∀ p ∈ demoScan, p.factor = 1 := by simp [demoScan, ScanPoint.factor]
  have p1 := demo_prob (3 / 2) 1 (by norm_num) (by norm_num)
  have p3 := demo_prob (7 / 2) 3 (by norm_num) (by norm_num)
  constructor
  · obtain ⟨ev, h⟩ := idle_run [.polar (3 / 2) 0 true 1, .polar (7 / 2) 0 true 1] (by simp [ScanPoint.factor])
      (1 / 2) _ demo_twice (by simp)
    have hu : (demoCfg 2).filterScan demoView (.even 0) demoScan ⟨0, 0, 0⟩ =
        some ([.polar (3 / 2) 0 true 1, .polar (7 / 2) 0 true 1], .even (1 / 2)) := by
      have : usablePoints (demoCfg 2).filter demoView.scale demoView.hasCell ⟨0, 0, 0⟩ demoScan = _ := demo_once
      rw [filterScan_usable, this]
      simp [Spw.reset]
    unfold Cfg.runOnce
    rw [hu, Option.bind_some, h]
    simp only [Option.map_some, List.map_cons, List.map_nil, p1]
    norm_num [weightedMean]
  · obtain ⟨ev, h⟩ := idle_run demoScan hfac 0 _ demo_once (by simp)
    refine ⟨ev, ?_⟩
    rw [h]
    simp only [List.map_cons, List.map_nil, p1, p3]
    norm_num [weightedMean, List.replicate]

end Slam.Matcher
