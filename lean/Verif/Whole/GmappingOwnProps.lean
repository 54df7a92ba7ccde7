import Verif.Whole.GmappingOwn
import Verif.Whole.GmappingTotal
import Verif.Whole.OwnProps
import Verif.Matcher.StatefulClimb

/-!
# C90: GMapping with its own scan matcher
-/

set_option autoImplicit false
set_option linter.unusedSectionVars false

namespace Slam.Whole
open Slam.Grid Slam.Cells Slam.Poses Slam.Sensor Slam.Score Slam.ScanAdder Slam.Worlds Slam.Tbm
open Slam.ScanMatch (Enumerator Event HCState hillClimbing)
open Slam.Particle (Env setObj Reach)
open Slam.Matcher (seenAt usablePoints Weights Spw.Ok testsOf FirstBest ClimbT Scored)

variable {M : Type}

/-! ## Specification -/

/-- The agreement of an obstacle at `q` with a map: among the cells at most `window` away from the obstacle's cell whose
occupancy is not below `fullness`, the greatest Gaussian of the distance from the obstacle to the cell's mean obstacle; zero
if there are none. -/
def Agreement (read : Coord → Option (GmCell ℝ)) (scale fullness : ℝ) (window : Nat) (q : Grid.Point ℝ) (x : ℝ) : Prop :=
  let c := worldToCell scale q
  let near (d : Coord) (cell : GmCell ℝ) : Prop :=
    |d.x - c.x| ≤ window ∧ |d.y - c.y| ≤ window ∧ read d = some cell ∧ fullness ≤ cell.occ.prob
  let gauss (cell : GmCell ℝ) : ℝ := Real.exp (-20 * ((cell.obst.x - q.x) ^ 2 + (cell.obst.y - q.y) ^ 2))
  (∀ d cell, near d cell → gauss cell ≤ x) ∧ ((x = 0 ∧ ∀ d cell, ¬ near d cell) ∨ ∃ d cell, near d cell ∧ x = gauss cell)

/-- What the estimate gives for obstacles one after another: an obstacle in the same cell as the one before it gets the same
value, whatever the map is by now; any other gets its agreement with the map. The first and the last argument: the cell and the
value of the obstacle before. -/
inductive Agreements (read : Coord → Option (GmCell ℝ)) (scale fullness : ℝ) (window : Nat) :
    Option (Coord × ℝ) → List (Grid.Point ℝ) → List ℝ → Option (Coord × ℝ) → Prop
  | nil (l : Option (Coord × ℝ)) : Agreements read scale fullness window l [] [] l
  | same (c : Coord) (x : ℝ) (q : Grid.Point ℝ) (qs : List (Grid.Point ℝ)) (xs : List ℝ) (l' : Option (Coord × ℝ))
      (hq : worldToCell scale q = c) (h : Agreements read scale fullness window (some (c, x)) qs xs l') :
      Agreements read scale fullness window (some (c, x)) (q :: qs) (x :: xs) l'
  | fresh (l : Option (Coord × ℝ)) (x : ℝ) (q : Grid.Point ℝ) (qs : List (Grid.Point ℝ)) (xs : List ℝ) (l' : Option (Coord × ℝ))
      (hl : ∀ y, l ≠ some (worldToCell scale q, y)) (hx : Agreement read scale fullness window q x)
      (h : Agreements read scale fullness window (some (worldToCell scale q, x)) qs xs l') :
      Agreements read scale fullness window l (q :: qs) (x :: xs) l'

/-- The tests of a match: each pose scores the weighted mean (rounded) of what the estimate gives for the points seen from it;
NaN if the weights add up to zero. -/
inductive TestedOn (rnd : ℝ → ℝ) (read : Coord → Option (GmCell ℝ)) (scale fullness : ℝ) (window : Nat) (pts : List ScanPoint)
    (ws : List ℝ) : Option (Coord × ℝ) → List (Poses.Pose ℝ × Option ℝ) → Option (Coord × ℝ) → Prop
  | nil (l : Option (Coord × ℝ)) : TestedOn rnd read scale fullness window pts ws l [] l
  | cons (l l1 l' : Option (Coord × ℝ)) (p : Poses.Pose ℝ) (s : Option ℝ) (xs : List ℝ) (rest : List (Poses.Pose ℝ × Option ℝ))
      (hx : Agreements read scale fullness window l (pts.map (seenAt p)) xs l1)
      (h0 : ws.sum = 0 → s = none) (h1 : ws.sum ≠ 0 → s = some (rnd (weightedMean xs ws)))
      (h : TestedOn rnd read scale fullness window pts ws l1 rest l') :
      TestedOn rnd read scale fullness window pts ws l ((p, s) :: rest) l'

/-- The obstacle the estimate was asked about last: its cell and its value. -/
noncomputable def lastOf (e : GmPE ℝ) : Option (Coord × ℝ) := if e.cachedProb = -1 then none else some (e.cachedCoord, e.cachedProb)

/-- The estimate of a matcher configured with `fullness` and `window`. -/
structure PeOk (fullness : ℝ) (window : Nat) (e : GmPE ℝ) : Prop where
  fullness : e.fullness = fullness
  window : e.window = window
  value : e.cachedProb = -1 ∨ Unit01 e.cachedProb

/-- A configuration GMapping can be started with: a growing map of its own cells, estimators within `[0, 1]`, a positive scale;
rounding does not leave `[0, 1]`. -/
structure GStarted (cfg : GOwnCfg M) (init : M) : Prop where
  lawful : Lawful cfg.slam.api GmCell.observe GmCell.create init
  adder : SoundFor cfg.slam.adder cfg.slam.scale
  scale : 0 < cfg.slam.scale
  rounding : ∀ x, Unit01 x → Unit01 (cfg.rnd x)

/-- What holds of the matcher in every state. -/
structure GMatchOk (fullness : ℝ) (window : Nat) (g : GMatch) : Prop where
  weights : Spw.Ok g.weights
  pe : PeOk fullness window g.pe

/-- The usable points of a scan at the pose `p`. -/
noncomputable def GOwnCfg.usable (cfg : GOwnCfg M) (p : Poses.Pose ℝ) (scan : List ScanPoint) : List ScanPoint :=
  usablePoints cfg.filter cfg.slam.scale (fun _ => true) p scan

/-- **A match** of a scan from the pose `p` on the map `m`, the matcher going from the state `g` to `g'`; the answer is the shift
`a.1` and the probability `a.2`. Hill climbing from `p` tests poses. Unless the weights of the usable points add up to zero, the
answer leads to the first tested pose with the highest score, and the probability is that score, within `[0, 1]`; otherwise the
probability is NaN and the shift zero. The weights do not add up to zero if a point off the sensor is usable, and they do if no
point is. Every score is within `[0, 1]`. -/
def IsMatch (cfg : GOwnCfg M) (fullness : ℝ) (window : Nat) (g g' : GMatch) (scan : List ScanPoint) (p : Poses.Pose ℝ) (m : M)
    (a : Delta ℝ × Option ℝ) : Prop :=
  ∃ ws s0 rest, Weights g.weights g'.weights (cfg.usable p scan) ws ∧ ClimbT cfg.failed cfg.transl cfg.rot p s0 rest ∧
    TestedOn cfg.rnd (cfg.slam.api.read m) cfg.slam.scale fullness window (cfg.usable p scan) ws (lastOf g.pe) ((p, s0) :: rest)
      (lastOf g'.pe) ∧
    (ws.sum ≠ 0 → ∃ s, a.2 = some s ∧ Unit01 s ∧ FirstBest ((p, s0) :: rest) (p.add a.1) s) ∧
    (ws.sum = 0 → a = (⟨0, 0, 0⟩, none)) ∧
    ((∃ sp ∈ cfg.usable p scan, 0 < sp.range) → ws.sum ≠ 0) ∧ (cfg.usable p scan = [] → ws.sum = 0) ∧
    ∀ t ∈ (p, s0) :: rest, ∀ y, t.2 = some y → Unit01 y

/-! ## The estimate -/

/-- Every cell of the map can be read. -/
def Readable (v : Matcher.View (GmCell ℝ)) : Prop := ∀ c, ∃ cell, v.read c = some cell

theorem one_sub_gauss (q : Grid.Point ℝ) (cell : GmCell ℝ) :
    1 - (gmView q cell).discrepancy = Real.exp (-20 * ((cell.obst.x - q.x) ^ 2 + (cell.obst.y - q.y) ^ 2)) := by
  obtain ⟨-, -, -, -, g⟩ := gm_discrepancy_bounded cell ⟨true, some ⟨1, 1⟩, q, 1⟩ ⟨true, some ⟨1, 1⟩, q, 1⟩
  simp only [gmView, g, sub_sub_cancel]

theorem gmWindow_spec (v : Matcher.View (GmCell ℝ)) (hv : Readable v) (q : Grid.Point ℝ) (f : ℝ) (c : Coord) (offs : List Coord) :
    ∀ best, ∃ x, gmWindow v q f c offs best = some x ∧ best ≤ x ∧
      (∀ o ∈ offs, ∀ cell, v.read (c.add o) = some cell → f ≤ cell.occ.prob → 1 - (gmView q cell).discrepancy ≤ x) ∧
      (x = best ∨ ∃ o ∈ offs, ∃ cell, v.read (c.add o) = some cell ∧ f ≤ cell.occ.prob ∧ x = 1 - (gmView q cell).discrepancy) := by
  induction offs with
  | nil => intro best; exact ⟨best, rfl, le_rfl, by simp, .inl rfl⟩
  | cons o offs ih =>
    intro best
    obtain ⟨cell, hc⟩ := hv (c.add o)
    obtain ⟨x, h1, h2, h3, h4⟩ := ih (if (gmView q cell).occ < f then best else max best (1 - (gmView q cell).discrepancy))
    have hb : best ≤ (if (gmView q cell).occ < f then best else max best (1 - (gmView q cell).discrepancy)) := by
      split
      · exact le_rfl
      · exact le_max_left _ _
    refine ⟨x, by simp only [gmWindow, hc, Option.bind_some]; exact h1, hb.trans h2, ?_, ?_⟩
    · intro o' ho' cell' hc' hf
      rcases List.mem_cons.1 ho' with rfl | ho'
      · rw [hc, Option.some.injEq] at hc'
        subst hc'
        have : ¬ (gmView q cell).occ < f := not_lt.2 hf
        rw [if_neg this] at h2
        exact (le_max_right _ _).trans h2
      · exact h3 o' ho' cell' hc' hf
    · rcases h4 with h4 | ⟨o', ho', cell', k1, k2, k3⟩
      · by_cases hf : (gmView q cell).occ < f
        · rw [if_pos hf] at h4; exact .inl h4
        · rw [if_neg hf] at h4
          rcases max_choice best (1 - (gmView q cell).discrepancy) with hm | hm
          · exact .inl (h4.trans hm)
          · exact .inr ⟨o, by simp, cell, hc, not_lt.1 hf, h4.trans hm⟩
      · exact .inr ⟨o', by simp [ho'], cell', k1, k2, k3⟩

/-- The loops compute the agreement. -/
theorem gmWindow_agreement (v : Matcher.View (GmCell ℝ)) (hv : Readable v) (q : Grid.Point ℝ) (f : ℝ) (w : Nat) :
    ∃ x, gmWindow v q f (worldToCell v.scale q) (windowOffsets w) 0 = some x ∧ Agreement v.read v.scale f w q x ∧ Unit01 x := by
  obtain ⟨x, h1, h2, h3, h4⟩ := gmWindow_spec v hv q f (worldToCell v.scale q) (windowOffsets w) 0
  have hle : ∀ d cell, (|d.x - (worldToCell v.scale q).x| ≤ w ∧ |d.y - (worldToCell v.scale q).y| ≤ w ∧ v.read d = some cell ∧
      f ≤ cell.occ.prob) → Real.exp (-20 * ((cell.obst.x - q.x) ^ 2 + (cell.obst.y - q.y) ^ 2)) ≤ x := by
    rintro d cell ⟨d1, d2, d3, d4⟩
    have e : (worldToCell v.scale q).add ⟨d.x - (worldToCell v.scale q).x, d.y - (worldToCell v.scale q).y⟩ = d := by
      cases d; simp [Coord.add]
    have := h3 ⟨d.x - (worldToCell v.scale q).x, d.y - (worldToCell v.scale q).y⟩ ((windowOffsets_mem w _).2 ⟨d1, d2⟩) cell
      (by rw [e]; exact d3) d4
    rwa [one_sub_gauss] at this
  have hpos : ∀ cell : GmCell ℝ, 0 < Real.exp (-20 * ((cell.obst.x - q.x) ^ 2 + (cell.obst.y - q.y) ^ 2)) := fun _ => Real.exp_pos _
  refine ⟨x, h1, ⟨hle, ?_⟩, h2, ?_⟩
  · rcases h4 with h4 | ⟨o, ho, cell, k1, k2, k3⟩
    · refine .inl ⟨h4, fun d cell hn => ?_⟩
      have := hle d cell hn
      rw [h4] at this
      exact absurd (hpos cell) (not_lt.2 this)
    · obtain ⟨a, b⟩ := (windowOffsets_mem w o).1 ho
      refine .inr ⟨(worldToCell v.scale q).add o, cell, ⟨by simpa [Coord.add] using a, by simpa [Coord.add] using b, k1, k2⟩, ?_⟩
      rw [k3, one_sub_gauss]
  · rcases h4 with h4 | ⟨o, ho, cell, k1, k2, k3⟩
    · rw [h4]; exact zero_le_one
    · rw [k3, one_sub_gauss, Real.exp_le_one_iff]
      nlinarith [sq_nonneg (cell.obst.x - q.x), sq_nonneg (cell.obst.y - q.y)]

theorem grid_worldToCell (v : Matcher.View (GmCell ℝ)) (q : Grid.Point ℝ) : v.grid.worldToCell q = worldToCell v.scale q := by
  simp [Matcher.View.grid, Rect.GridView.worldToCell]

theorem gmPoint_spec (v : Matcher.View (GmCell ℝ)) (hv : Readable v) {f : ℝ} {w : Nat} {e : GmPE ℝ} (he : PeOk f w e)
    (q : Grid.Point ℝ) :
    ∃ x e1, gmPoint v e q = some (x, e1) ∧ PeOk f w e1 ∧ Unit01 x ∧ lastOf e1 = some (worldToCell v.scale q, x) ∧
      (lastOf e = some (worldToCell v.scale q, x) ∨
        ((∀ y, lastOf e ≠ some (worldToCell v.scale q, y)) ∧ Agreement v.read v.scale f w q x)) := by
  unfold gmPoint
  simp only [grid_worldToCell]
  by_cases hc : worldToCell v.scale q = e.cachedCoord ∧ e.cachedProb ≠ -1
  · rw [if_pos hc]
    have hl : lastOf e = some (worldToCell v.scale q, e.cachedProb) := by
      rw [lastOf, if_neg hc.2, hc.1]
    exact ⟨_, _, rfl, he, he.value.resolve_left hc.2, hl, .inl hl⟩
  · rw [if_neg hc]
    obtain ⟨x, h1, h2, h3⟩ := gmWindow_agreement v hv q f w
    rw [he.fullness, he.window, h1]
    have hx : x ≠ -1 := by have := h3.1; intro hx; rw [hx] at this; norm_num at this
    refine ⟨x, _, rfl, ⟨rfl, rfl, .inr h3⟩, h3, by simp [lastOf, hx], .inr ⟨?_, h2⟩⟩
    intro y hy
    unfold lastOf at hy
    by_cases h0 : e.cachedProb = -1
    · rw [if_pos h0] at hy; cases hy
    · rw [if_neg h0, Option.some.injEq, Prod.mk.injEq] at hy
      exact hc ⟨hy.1.symm, h0⟩

theorem gmScoreLoop_spec (v : Matcher.View (GmCell ℝ)) (hv : Readable v) {f : ℝ} {w : Nat} (weight : Nat → Option ℝ) (p : Poses.Pose ℝ)
    (pts : List ScanPoint) : ∀ (i : Nat) (e : GmPE ℝ) (t : Totals) (ws : List ℝ), PeOk f w e → ws.length = pts.length →
      (∀ j, j < pts.length → weight (i + j) = ws[j]?) → (∀ sp ∈ pts, sp.factor = 1) →
    ∃ xs e1, gmScoreLoop v weight ⟨p.x, p.y, p.theta⟩ i e t pts =
        some (⟨t.prob + (List.zipWith (· * ·) xs ws).sum, t.weight + ws.sum⟩, e1) ∧ PeOk f w e1 ∧
      Agreements v.read v.scale f w (lastOf e) (pts.map (seenAt p)) xs (lastOf e1) ∧ xs.length = pts.length ∧ ∀ x ∈ xs, Unit01 x := by
  induction pts with
  | nil =>
    intro i e t ws he hl _ _
    have : ws = [] := List.length_eq_zero_iff.1 hl
    subst this
    exact ⟨[], e, by simp [gmScoreLoop], he, .nil _, rfl, by simp⟩
  | cons sp pts ih =>
    intro i e t ws he hl hw hf
    match ws, hl with
    | wt :: ws, hl =>
      obtain ⟨x, e1, h1, h2, h3, h4, h5⟩ := gmPoint_spec v hv he (seenAt p sp)
      have hwi : weight i = some wt := by simpa using hw 0 (by simp)
      obtain ⟨xs, e2, g1, g2, g3, g4, g5⟩ := ih (i + 1) e1 ⟨t.prob + x * wt * sp.factor, t.weight + wt⟩ ws h2 (by simpa using hl)
        (by
          intro j hj
          have := hw (j + 1) (by simp; omega)
          rw [show i + 1 + j = i + (j + 1) by omega, this]
          simp)
        (fun s hs => hf s (by simp [hs]))
      refine ⟨x :: xs, e2, ?_, g2, ?_, by simp [g4], ?_⟩
      · simp only [gmScoreLoop, Matcher.obstacleOf_seenAt, h1, Option.bind_some, hwi, g1]
        simp only [Option.some.injEq, Prod.mk.injEq, and_true]
        rw [hf sp (by simp)]
        simp only [List.zipWith_cons_cons, List.sum_cons, mul_one, Totals.mk.injEq]
        exact ⟨by ring, by ring⟩
      · rw [List.map_cons]
        rw [h4] at g3
        rcases h5 with h5 | ⟨h5, h6⟩
        · rw [h5]; exact .same _ _ _ _ _ _ rfl g3
        · exact .fresh _ _ _ _ _ _ h5 h6 g3
      · intro y hy
        rcases List.mem_cons.1 hy with rfl | hy
        · exact h3
        · exact g5 y hy

/-- The score of a pose. -/
theorem gmScore_spec {rnd : ℝ → ℝ} (hr : ∀ x, Unit01 x → Unit01 (rnd x)) (v : Matcher.View (GmCell ℝ)) (hv : Readable v) {f : ℝ}
    {w : Nat} {sw sw' : Spw} {pts : List ScanPoint} {ws : List ℝ} (hw : Weights sw sw' pts ws) (hf : ∀ sp ∈ pts, sp.factor = 1)
    {e : GmPE ℝ} (he : PeOk f w e) (p : Poses.Pose ℝ) :
    ∃ s xs e1, gmScore rnd v sw' pts e p = some (s, e1) ∧ PeOk f w e1 ∧
      Agreements v.read v.scale f w (lastOf e) (pts.map (seenAt p)) xs (lastOf e1) ∧ (ws.sum = 0 → s = none) ∧
      (ws.sum ≠ 0 → s = some (rnd (weightedMean xs ws))) ∧ (∀ y, s = some y → ∃ x, Unit01 x ∧ y = rnd x) := by
  obtain ⟨xs, e1, g1, g2, g3, g4, g5⟩ := gmScoreLoop_spec v hv (sw'.weight pts) p pts 0 e ⟨0, 0⟩ ws he hw.len
    (by intro j hj; rw [zero_add]; exact hw.given j hj) hf
  simp only [zero_add] at g1
  unfold gmScore
  simp only [g1, Option.map_some]
  refine ⟨_, xs, e1, rfl, g2, g3, fun h => by rw [if_pos h], fun h => by rw [if_neg h]; rfl, ?_⟩
  intro y hy
  by_cases h0 : ws.sum = 0
  · rw [if_pos h0] at hy; cases hy
  · rw [if_neg h0, Option.some.injEq] at hy
    exact ⟨_, weightedMean_between xs ws 0 1 (by rw [hw.len, g4]) hw.nonneg h0 g5, hy.symm⟩

/-! ## The matcher -/

theorem sane_readable {cfg : GOwnCfg M} {init m : M} (hL : Lawful cfg.slam.api GmCell.observe GmCell.create init)
    (h : SaneTold cfg.slam.api init m) : Readable (cfg.view m) := by
  obtain ⟨us, h1, -⟩ := h
  obtain ⟨m', e1, e2⟩ := hL us
  rw [h1, Option.some.injEq] at e1
  subst e1
  intro c
  exact ⟨_, e2 c⟩

theorem scored_tested {cfg : GOwnCfg M} {init m : M} (hc : GStarted cfg init) (hm : SaneTold cfg.slam.api init m) {f : ℝ} {w : Nat}
    {sw sw' : Spw} {pts : List ScanPoint} {ws : List ℝ} (hw : Weights sw sw' pts ws) (hf : ∀ sp ∈ pts, sp.factor = 1)
    {t t' : GmPE ℝ} {tests : List (Poses.Pose ℝ × Option ℝ)} (h : Scored (gmScore cfg.rnd (cfg.view m) sw' pts) t tests t') :
    PeOk f w t → PeOk f w t' ∧
      TestedOn cfg.rnd (cfg.slam.api.read m) cfg.slam.scale f w pts ws (lastOf t) tests (lastOf t') ∧
      (∀ q ∈ tests, (ws.sum = 0 → q.2 = none) ∧ (ws.sum ≠ 0 → q.2 ≠ none)) ∧ ∀ q ∈ tests, ∀ y, q.2 = some y → Unit01 y := by
  induction h with
  | nil => intro ht; exact ⟨ht, .nil _, by simp, by simp⟩
  | cons t t1 t' p s l h _ ih =>
    intro ht
    obtain ⟨s', xs, e1, g1, g2, g3, g4, g5, g6⟩ := gmScore_spec hc.rounding (cfg.view m) (sane_readable hc.lawful hm) hw hf ht p
    rw [h, Option.some.injEq, Prod.mk.injEq] at g1
    obtain ⟨rfl, rfl⟩ := g1
    obtain ⟨i1, i2, i3, i4⟩ := ih g2
    refine ⟨i1, .cons _ _ _ _ _ _ _ g3 g4 g5 i2, ?_, ?_⟩
    · intro q hq
      rcases List.mem_cons.1 hq with rfl | hq
      · exact ⟨g4, fun h0 => by simp only [g5 h0]; simp⟩
      · exact i3 q hq
    · intro q hq y hy
      rcases List.mem_cons.1 hq with rfl | hq
      · obtain ⟨x, hx, rfl⟩ := g6 y hy
        exact hc.rounding x hx
      · exact i4 q hq y hy

theorem filterScan_gm (cfg : GOwnCfg M) (w : Spw) (raw : List ScanPoint) (p : Poses.Pose ℝ) :
    Score.filterScan cfg.filter w cfg.slam.scale (fun _ => true) ⟨p.x, p.y, p.theta⟩ raw =
      (w.reset (cfg.usable p raw)).map fun w' => (cfg.usable p raw, w') := by
  classical
  simp only [Score.filterScan, GOwnCfg.usable, usablePoints]
  rw [Matcher.filterLoop_usable]

/-- **Every call of the matcher is a match (C90)**, on every map built of sane observations. -/
theorem gm_matching_is_match {cfg : GOwnCfg M} {init m : M} (hc : GStarted cfg init) (hm : SaneTold cfg.slam.api init m) {f : ℝ}
    {w : Nat} {g g' : GMatch} (hg : GMatchOk f w g) {scan : List ScanPoint} (hf : ∀ sp ∈ scan, sp.factor = 1) {p : Poses.Pose ℝ}
    {a : Delta ℝ × Option ℝ} {events : List (Event ℝ)} (h : cfg.matching g scan p m = some (g', a, events)) :
    IsMatch cfg f w g g' scan p m a ∧ GMatchOk f w g' := by
  obtain ⟨w', ws, hw⟩ := Matcher.weights_exist g.weights hg.weights (cfg.usable p scan)
  have hfac : ∀ sp ∈ cfg.usable p scan, sp.factor = 1 := fun sp hsp => hf sp (Matcher.usable_subset _ _ _ _ _ sp hsp)
  unfold GOwnCfg.matching at h
  rw [filterScan_gm, hw.reset] at h
  simp only [Option.map_some, Option.bind_some, Option.map_eq_some_iff] at h
  obtain ⟨⟨t', e', delta, prob, ev⟩, h1, h2⟩ := h
  simp only [Prod.mk.injEq] at h2
  obtain ⟨rfl, rfl, rfl⟩ := h2
  obtain ⟨s0, rest, k1, k2, k3, k4⟩ := Matcher.searchS_spec h1
  obtain ⟨s0', rest', c1, c2⟩ := Matcher.searchS_climb h1
  rw [k1, List.cons.injEq, Prod.mk.injEq] at c1
  obtain ⟨⟨-, rfl⟩, rfl⟩ := c1
  obtain ⟨t1, t2, t3, t4⟩ := scored_tested hc hm hw hfac k2 hg.pe
  rw [k1] at t2 t3 t4
  rw [k1] at k4
  have hprob : ∀ s, prob = some s → Unit01 s := by
    intro s hs
    have hs0 : s0 ≠ none := by
      intro h0
      rw [(k3 h0).1] at hs; cases hs
    obtain ⟨s', e1, pre, post, e2, -, -⟩ := k4 hs0
    rw [hs, Option.some.injEq] at e1
    subst e1
    exact t4 (p.add delta, some s) (by rw [e2]; simp) s rfl
  refine ⟨⟨ws, s0, rest, hw, c2, t2, ?_, ?_, fun hu => (Matcher.weights_sum_pos hw hu).ne', ?_, t4⟩, ⟨reset_ok hg.weights hw.reset, t1⟩⟩
  · intro h0
    obtain ⟨s, e1, e2⟩ := k4 ((t3 (p, s0) (by simp)).2 h0)
    exact ⟨s, e1, hprob s e1, e2⟩
  · intro hz
    obtain ⟨e1, e2⟩ := k3 ((t3 (p, s0) (by simp)).1 hz)
    rw [e1, e2]
    rfl
  · intro hu
    have := hw.len
    rw [hu] at this
    rw [List.length_eq_zero_iff.1 this]; rfl

/-- The probability of a match, if it is a number, is one within `[0, 1]`. -/
theorem IsMatch.unit {cfg : GOwnCfg M} {f : ℝ} {w : Nat} {g g' : GMatch} {scan : List ScanPoint} {p : Poses.Pose ℝ} {m : M}
    {a : Delta ℝ × Option ℝ} (h : IsMatch cfg f w g g' scan p m a) (s : ℝ) (hs : a.2 = some s) : Unit01 s := by
  obtain ⟨ws, s0, rest, -, -, -, h1, h2, -⟩ := h
  by_cases h0 : ws.sum = 0
  · rw [h2 h0] at hs; cases hs
  · obtain ⟨s', e1, e2, -⟩ := h1 h0
    rw [hs, Option.some.injEq] at e1
    exact e1 ▸ e2

/-- The poses a pose enumerator gives in `n` calls from the same pose. -/
def calls {S : Type} (E : Enumerator ℝ S) (p : Poses.Pose ℝ) : Nat → S → List (Poses.Pose ℝ)
  | 0, _ => []
  | n + 1, s => (E.next s p).1 :: calls E p n (E.next s p).2

/-- **The matcher before its first use (C90)** is as after a reset: its first round moves by the translation step along the axes and
turns by the rotation step. -/
theorem created_first_round (w : Spw) (fullness : ℝ) (window failed : Nat) (transl rot : ℝ) (p : Poses.Pose ℝ) :
    let g := GMatch.create w fullness window transl rot
    let E := hillClimbing failed transl rot
    E.reset g.enum = g.enum ∧ calls E p 6 g.enum =
      [⟨p.x + transl, p.y, p.theta⟩, ⟨p.x, p.y - transl, p.theta⟩, ⟨p.x, p.y, p.theta + rot⟩,
       ⟨p.x - transl, p.y, p.theta⟩, ⟨p.x, p.y + transl, p.theta⟩, ⟨p.x, p.y, p.theta - rot⟩] ∧
    E.hasNext g.enum = decide (0 < failed) ∧ g.weights = w ∧ g.pe.fullness = fullness ∧ g.pe.window = window := by
  refine ⟨rfl, ?_, rfl, rfl, rfl, rfl⟩
  simp [calls, hillClimbing, GMatch.create, ScanMatch.D1State.next, sub_eq_add_neg]

end Slam.Whole
