import Verif.Sensor.Model
import Verif.Rect.Model
import Verif.Cells.Model
import Mathlib.Analysis.SpecialFunctions.Trigonometric.Inverse

/-!
# Model of the scan score

`src/core/features/angle_histogram.h`, `src/core/scan_matchers/weighted_mean_point_probability_spe.h`,
`src/core/scan_matchers/occupancy_observation_probability.h`, `src/core/scan_matchers/grid_scan_matcher.h:93-131`,
`src/core/scan_matchers/observation_impact_estimators.h`,
`src/slams/gmapping/gmapping_occupancy_observation_pe.h`. Exact arithmetic; failed assertions and undefined behaviour
are `none`.
-/

set_option autoImplicit false

namespace Slam.Score
open Slam.Grid Slam.Rect Slam.Sensor Slam.Cells

/-! ## Angle histogram (over the reals) -/

/-- `AngleHistogram`, angle_histogram.h:98-101. -/
structure Hist where
  n : Nat
  hist : List Nat
  angSum : List ℝ
  driftDirs : List ℝ

/-- The constructor, angle_histogram.h:15-17. -/
noncomputable def Hist.create (n : Nat) : Hist := ⟨n, List.replicate n 0, List.replicate n 0, []⟩

/-- `angle_step`, angle_histogram.h:59-61. -/
noncomputable def Hist.angleStep (h : Hist) : ℝ := Real.pi / h.n

open Classical in
/-- `hist_index`, angle_histogram.h:91-96; `none` is a failed assertion. -/
noncomputable def Hist.histIndex (h : Hist) (angle : ℝ) : Option Nat :=
  if 0 ≤ angle ∧ angle < Real.pi then
    let i := ⌊angle / h.angleStep⌋.toNat
    if i < h.hist.length then some i else none
  else none

open Classical in
/-- `estimate_ox_based_angle`, angle_histogram.h:71-88. -/
noncomputable def oxAngle (base sp : ScanPoint) : ℝ :=
  let dx := sp.x - base.x
  let dy := sp.y - base.y
  if dy = 0 then 0
  else
    let dd := Real.sqrt (dx * dx + dy * dy)
    let angle := Real.arccos (dx / dd)
    if dy < 0 ∧ dx ≠ 0 then Real.pi - angle else angle

/-- One iteration of the loop of `reset`, angle_histogram.h:27-33. -/
noncomputable def Hist.add (h : Hist) (i : Nat) (angle : ℝ) : Option Hist :=
  (h.histIndex angle).map fun k =>
    ⟨h.n, h.hist.modify k (· + 1), h.angSum.modify k (· + angle), h.driftDirs.set i angle⟩

/-- The loop of `reset`, angle_histogram.h:27-33, over the points from index `i` on, `prev` being point `i - 1`. -/
noncomputable def Hist.addAll (h : Hist) (i : Nat) (prev : ScanPoint) : List ScanPoint → Option Hist
  | [] => some h
  | p :: ps => (h.add i (oxAngle prev p)).bind fun h => h.addAll (i + 1) p ps

/-- `vector::resize`. -/
def resize (l : List ℝ) (n : Nat) : List ℝ := l.take n ++ List.replicate (n - l.length) 0

/-- `reset`, angle_histogram.h:17-33. -/
noncomputable def Hist.reset (h : Hist) (pts : List ScanPoint) : Option Hist :=
  let h0 : Hist := ⟨h.n, h.hist.map fun _ => 0, h.angSum.map fun _ => 0, resize h.driftDirs pts.length⟩
  match pts with
  | [] => some h0
  | p :: ps => h0.addAll 1 p ps

/-- `value`, angle_histogram.h:37-43. -/
noncomputable def Hist.value (h : Hist) (pts : List ScanPoint) (i : Nat) : Option Nat :=
  if i = 0 then some pts.length
  else (h.driftDirs[i]?).bind fun a => (h.histIndex a).bind fun k => h.hist[k]?

/-! ## Point weights -/

/-- The weighting strategies, weighted_mean_point_probability_spe.h:21-60. -/
inductive Spw where
  | even (common : ℝ)
  | ahr (hist : Hist)
  | viny

/-- `reset`, weighted_mean_point_probability_spe.h:16, 23-25, 36. -/
noncomputable def Spw.reset (w : Spw) (pts : List ScanPoint) : Option Spw :=
  match w with
  | .even _ => some (.even (1 / pts.length))
  | .ahr h => (h.reset pts).map .ahr
  | .viny => some .viny

open Classical in
/-- `weight`, weighted_mean_point_probability_spe.h:27-29, 38-42, 49-59. -/
noncomputable def Spw.weight (w : Spw) (pts : List ScanPoint) (i : Nat) : Option ℝ :=
  match w with
  | .even c => some c
  | .ahr h => (h.value pts i).bind fun v => if v ≠ 0 then some (1 / (v : ℝ)) else none
  | .viny => (pts[i]?).map fun sp =>
      let a := sp.angle
      let w := if 9 / 10 < |Real.cos a| then 3 else if 8 / 10 < |Real.cos a| then 2
        else |Real.sin a| + |Real.cos a|
      w * Real.sqrt sp.range

/-! ## The scan probability estimator -/

/-- Pose of the robot. -/
structure Pose where
  x : ℝ
  y : ℝ
  th : ℝ

/-- Parameters of `WeightedMeanPointProbabilitySPE`, weighted_mean_point_probability_spe.h:69-73. -/
structure Cfg where
  skipRate : Nat
  maxRange : ℝ

/-- `should_skip_point`, weighted_mean_point_probability_spe.h:136-141, with `are_strictly_ordered` of
math_utils.h:45-47. -/
noncomputable def shouldSkip (cfg : Cfg) (hasCell : Coord → Bool) (sp : ScanPoint) (areaId : Coord) : Bool :=
  !sp.occupied || !hasCell areaId || (less 0 cfg.maxRange && less cfg.maxRange sp.range)

/-- The loop of `filter_scan`, weighted_mean_point_probability_spe.h:83-91; the provider is a raw one based at the
pose's heading (line 79), the map has a finite scale. -/
noncomputable def filterLoop (cfg : Cfg) (scale : ℝ) (hasCell : Coord → Bool) (pose : Pose) :
    Nat → List ScanPoint → List ScanPoint
  | _, [] => []
  | i, sp :: rest =>
    if (cfg.skipRate != 0 && i % cfg.skipRate != 0) = true then filterLoop cfg scale hasCell pose (i + 1) rest
    else
      let wp := sp.moveBy pose.x pose.y (Raw.sin ⟨pose.th⟩) (Raw.cos ⟨pose.th⟩)
      let areaId := worldToCell scale ⟨wp.1, wp.2⟩
      if shouldSkip cfg hasCell sp areaId = true then filterLoop cfg scale hasCell pose (i + 1) rest
      else sp :: filterLoop cfg scale hasCell pose (i + 1) rest

/-- `filter_scan`, weighted_mean_point_probability_spe.h:75-95: the filtered points and the reset weighting. -/
noncomputable def filterScan (cfg : Cfg) (spw : Spw) (scale : ℝ) (hasCell : Coord → Bool) (pose : Pose)
    (pts : List ScanPoint) : Option (List ScanPoint × Spw) :=
  let f := filterLoop cfg scale hasCell pose 0 pts
  (spw.reset f).map fun w => (f, w)

/-- `SPEParams`, grid_scan_matcher.h:83-87. -/
structure Params where
  area : Bounds ℝ
  prerotated : Bool

/-- Where the estimator puts a point, weighted_mean_point_probability_spe.h:112-114. -/
noncomputable def obstacleOf (params : Params) (pose : Pose) (sp : ScanPoint) : Point ℝ :=
  let q := if params.prerotated then sp.move pose.x pose.y
    else sp.moveBy pose.x pose.y (Raw.sin ⟨pose.th⟩) (Raw.cos ⟨pose.th⟩)
  ⟨q.1, q.2⟩

/-- The accumulators `total_probability`, `total_weight`, weighted_mean_point_probability_spe.h:101-102. -/
structure Totals where
  prob : ℝ
  weight : ℝ

/-- The loop of `estimate_scan_probability`, weighted_mean_point_probability_spe.h:107-126. `oope` is the
probability of an obstacle there, given the area around it. -/
noncomputable def scoreLoop (oope : Point ℝ → Bounds ℝ → Option ℝ) (weight : Nat → Option ℝ) (params : Params)
    (pose : Pose) : Nat → Totals → List ScanPoint → Option Totals
  | _, t, [] => some t
  | i, t, sp :: rest =>
    let obst := obstacleOf params pose sp
    (oope obst (moveCenter params.area obst)).bind fun p =>
      (weight i).bind fun w =>
        scoreLoop oope weight params pose (i + 1) ⟨t.prob + p * w * sp.factor, t.weight + w⟩ rest

open Classical in
/-- `estimate_scan_probability`, weighted_mean_point_probability_spe.h:97-133. The inner `none` is
`unknown_probability()`, a NaN. -/
noncomputable def estimate (oope : Point ℝ → Bounds ℝ → Option ℝ) (spw : Spw) (params : Params) (pose : Pose)
    (pts : List ScanPoint) : Option (Option ℝ) :=
  (scoreLoop oope (spw.weight pts) params pose 0 ⟨0, 0⟩ pts).map fun t =>
    if t.weight = 0 then none else some (t.prob / t.weight)

/-- `==` on doubles, a NaN being `none`. -/
noncomputable def ieeeEq (a b : Option ℝ) : Prop :=
  match a, b with
  | some x, some y => x = y
  | _, _ => False

/-- `is_prob_unknown`, grid_scan_matcher.h:96-102. -/
noncomputable def isProbUnknown (p : Option ℝ) : Prop := ieeeEq p none

/-! ## Area observation estimates -/

section Oope
variable {K : Type*} [Field K] [LinearOrder K] [IsStrictOrderedRing K] [FloorRing K]

/-- `is_probality_bounded`, grid_scan_matcher.h:69-71. -/
def probBounded (v : K) : Bool := lessOrEqual 0 v && lessOrEqual v 1

/-- The impact of a cell after the assertion, occupancy_observation_probability.h:23-24, 42-43, 65-66, 90-91.
`impact c` is `none` when the cell can not be read. -/
def checked (impact : Coord → Option K) (c : Coord) : Option K :=
  (impact c).bind fun v => if probBounded v then some v else none

/-- `DiscrepancyOIE`, observation_impact_estimators.h:14-20, of a discrepancy. -/
def discrepancyImpact (d : K) : K := 1 - d

/-- `ObstacleBasedOccupancyObservationPE::probability`, occupancy_observation_probability.h:18-26. -/
def obstaclePE (g : GridView K) (impact : Coord → Option K) (obst : Point K) : Option K :=
  checked impact (g.worldToCell obst)

/-- The loop of `MaxOccupancyObservationPE`, occupancy_observation_probability.h:41-45. -/
def maxLoop (impact : Coord → Option K) : K → List Coord → Option K
  | m, [] => some m
  | m, c :: cs => (checked impact c).bind fun v => maxLoop impact (max v m) cs

/-- `MaxOccupancyObservationPE::probability` over the rasterised cells, occupancy_observation_probability.h:35-47. -/
def maxPE (impact : Coord → Option K) (cells : List Coord) : Option K := maxLoop impact 0 cells

/-- The loop of `MeanOccupancyObservationPE`, occupancy_observation_probability.h:64-69. -/
def meanLoop (impact : Coord → Option K) : K → Nat → List Coord → Option (K × Nat)
  | t, n, [] => some (t, n)
  | t, n, c :: cs => (checked impact c).bind fun v => meanLoop impact (t + v) (n + 1) cs

/-- `MeanOccupancyObservationPE::probability`, occupancy_observation_probability.h:57-71. -/
def meanPE (impact : Coord → Option K) (cells : List Coord) : Option K :=
  (meanLoop impact 0 0 cells).map fun t => if t.2 ≠ 0 then t.1 / (t.2 : K) else 1 / 2

/-- The loop of `OverlapWeightedOccupancyObservationPE`, occupancy_observation_probability.h:87-94. -/
def overlapLoop (impact : Coord → Option K) (weight : Coord → Option K) : K → K → List Coord → Option (K × K)
  | t, w, [] => some (t, w)
  | t, w, c :: cs => (checked impact c).bind fun v => (weight c).bind fun x =>
      overlapLoop impact weight (t + v * x) (w + x) cs

/-- `OverlapWeightedOccupancyObservationPE::probability`, occupancy_observation_probability.h:81-96; the weight is
`area.overlap(map.world_cell_bounds(area_id))`, for a map with a finite scale. -/
def overlapPE (impact : Coord → Option K) (scale : K) (area : Bounds K) (cells : List Coord) : Option K :=
  (overlapLoop impact (fun c => overlap lessOrEqual areEqual area (worldCellBounds scale c)) 0 0 cells).map fun t =>
    if t.2 ≠ 0 then t.1 / t.2 else 1 / 2

/-! ## GMapping's observation estimate -/

/-- What the estimate reads in a cell: the occupancy probability and the discrepancy to the observation. -/
structure GmView (K : Type*) where
  occ : K
  discrepancy : K

/-- `GmappingOccupancyObservationPE`, gmapping_occupancy_observation_pe.h:41-45. -/
structure GmPE (K : Type*) where
  fullness : K
  window : Nat
  cachedCoord : Coord
  cachedProb : K

/-- The constructor, gmapping_occupancy_observation_pe.h:14-16. -/
def GmPE.create (fullness : K) (window : Nat) : GmPE K := ⟨fullness, window, ⟨0, 0⟩, -1⟩

/-- Offsets of the two loops, gmapping_occupancy_observation_pe.h:27-28. -/
def windowOffsets (w : Nat) : List Coord :=
  (List.range (2 * w + 1)).flatMap fun (i : Nat) =>
    (List.range (2 * w + 1)).map fun (j : Nat) => (⟨(i : Int) - w, (j : Int) - w⟩ : Coord)

/-- Body of the loops, gmapping_occupancy_observation_pe.h:29-33 (`cell < Fullness_Th` compares the occupancy
probability, grid_cell.h). -/
def gmStep (fullness : K) (map : Coord → GmView K) (c : Coord) (best : K) (off : Coord) : K :=
  let cell := map (c.add off)
  if cell.occ < fullness then best else max best (1 - cell.discrepancy)

/-- `probability`, gmapping_occupancy_observation_pe.h:17-39, for a scan point in cell `c`. `map c'` is what the
estimate sees in cell `c'` of the map it is given, for the observation it is given. -/
def GmPE.probability (e : GmPE K) (map : Coord → GmView K) (c : Coord) : K × GmPE K :=
  if c = e.cachedCoord ∧ e.cachedProb ≠ -1 then (e.cachedProb, e)
  else
    let best := (windowOffsets e.window).foldl (gmStep e.fullness map c) 0
    (best, ⟨e.fullness, e.window, c, best⟩)

end Oope

end Slam.Score
