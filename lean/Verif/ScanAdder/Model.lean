import Verif.Line.Model
import Verif.Rect.Model
import Verif.Cells.Model
import Verif.PlainMap.Model
import Verif.Score.Model

/-!
# Model of scan insertion

`GridMapScanAdder`, `WallDistanceBlurringScanAdder`, the quality estimators,
src/core/maps/grid_map_scan_adders.h. Exact arithmetic. A map enters only through its scale (finite and positive) and
its `update`; its other state can not influence what is inserted.
-/

set_option autoImplicit false
set_option linter.unusedSectionVars false

namespace Slam.ScanAdder
open Slam.Grid Slam.Line Slam.Rect Slam.Cells

section
variable {K : Type} [Field K] [LinearOrder K] [IsStrictOrderedRing K] [FloorRing K]

/-- The operations of `world_to_cells` (regular_squares_grid.h:56-101) in exact arithmetic, for a map of scale
`scale`. -/
def exactFP (scale : K) : FP K where
  add a b := a + b
  sub a b := a - b
  mul a b := a * b
  neg a := -a
  abs a := |a|
  ofInt i := (i : K)
  half := 1 / 2
  pos a := decide (0 < a)
  eqZero a := areEqual a 0
  cell x y := worldToCell scale ⟨x, y⟩

/-- `Segment2D`, geometry_primitives.h:36-92: its ends. -/
structure Beam (K : Type) where
  beg : Point K
  fin : Point K

/-- `Segment2D::length_sq`, geometry_primitives.h:74-76. -/
def Beam.lengthSq (b : Beam K) : K := (b.fin.x - b.beg.x) ^ 2 + (b.fin.y - b.beg.y) ^ 2

/-- `DiscretePoint2D::dist_sq`, geometry_discrete_primitives.h:43-45. -/
def distSq (a b : Coord) : K := ((a.x - b.x : Int) : K) ^ 2 + ((a.y - b.y : Int) : K) ^ 2

/-- `WallDistanceBlurringScanAdder`: an occupancy estimator (cell_occupancy_estimator.h:12-14, arbitrary), the blur
distance and the usable range (`none` = infinity, the default, grid_map_scan_adders.h:117). -/
structure Adder (K : Type) where
  estimate : Beam K → Bounds K → Bool → Option (Occ K)
  blur : K
  maxRange : Option K

/-- `_max_usable_range_sq < beam.length_sq()`, grid_map_scan_adders.h:132, 140. -/
def Adder.tooLong (A : Adder K) (beam : Beam K) : Bool :=
  match A.maxRange with
  | none => false
  | some r => decide (r ^ 2 < beam.lengthSq)

/-- `blur_cell_dist`, grid_map_scan_adders.h:176-189. -/
def Adder.blurCellDist (A : Adder K) (scale : K) (beam : Beam K) (isOcc : Bool) : K :=
  if !isOcc then 0
  else
    let d := A.blur / scale
    if d < 0 then d * -beam.lengthSq else d

/-- Body of the loop, grid_map_scan_adders.h:157-170: the observation a cell before the obstacle gets. A product with
an invalid (NaN) factor is invalid. -/
def Adder.passed (A : Adder K) (scale : K) (beam : Beam K) (quality : K) (obstDistSq holeSq : K)
    (base : Option (Occ K)) (obst pt : Coord) : Aoo K :=
  let d : K := distSq pt obst
  let empty := A.estimate beam (worldCellBounds scale pt) false
  if d < holeSq ∧ holeSq < obstDistSq then
    ⟨true, base.bind fun b => empty.map fun e => ⟨b.prob * (1 - d / holeSq), e.qual⟩, beam.fin, quality⟩
  else ⟨false, empty, beam.fin, quality⟩

/-- `handle_scan_point`, grid_map_scan_adders.h:138-172: the calls of `map.update`, in order. `none`: undefined
behaviour of the traversal (`ok`, `fuel` as in `Line.worldToCells`). -/
def Adder.beamUpdates (A : Adder K) (ok : Int → Bool) (fuel : Nat) (scale : K) (isOcc : Bool) (quality : K)
    (beam : Beam K) : Option (List (Coord × Aoo K)) :=
  if A.tooLong beam then some []
  else
    let robot := worldToCell scale beam.beg
    let obst := worldToCell scale beam.fin
    let obstDistSq : K := distSq robot obst
    let holeSq := A.blurCellDist scale beam isOcc ^ 2
    (worldToCells ok (exactFP scale) fuel scale beam.beg.x beam.beg.y beam.fin.x beam.fin.y).bind fun pts =>
      pts.getLast?.map fun last =>
        let base := A.estimate beam (worldCellBounds scale last) isOcc
        (last, ⟨isOcc, base, beam.fin, quality⟩) ::
          pts.dropLast.map fun pt => (pt, A.passed scale beam quality obstDistSq holeSq base obst pt)

/-- A point of the scan, after `move_origin` (C43): where it is in the world, and whether it is an obstacle. -/
structure WPoint (K : Type) where
  at_ : Point K
  occ : Bool

/-- Conversion of a `double` to `size_t`: truncation; undefined for values not greater than -1. -/
def toSize (v : K) : Option Nat := if -1 < v then some ⌊v⌋.toNat else none

/-- The loop of `append_scan`, grid_map_scan_adders.h:66-73, over the indices `is`; `quality i` is the estimator's
answer for point `i` (`none`: failed assertion). -/
def Adder.insertAll (A : Adder K) (ok : Int → Bool) (fuel : Nat) (scale : K) (robot : Point K)
    (quality : Nat → Option K) (scanQuality : K) (pts : List (WPoint K)) : List Nat → Option (List (Coord × Aoo K))
  | [] => some []
  | i :: is =>
    (pts[i]?).bind fun p => (quality i).bind fun q =>
      (A.beamUpdates ok fuel scale p.occ (scanQuality * q) ⟨robot, p.at_⟩).bind fun us =>
        (A.insertAll ok fuel scale robot quality scanQuality pts is).map (us ++ ·)

/-- `append_scan`, grid_map_scan_adders.h:54-75: the calls of `map.update`, in order. -/
def Adder.appendScan (A : Adder K) (ok : Int → Bool) (fuel : Nat) (scale : K) (robot : Point K)
    (quality : Nat → Option K) (scanQuality margin : K) (pts : List (WPoint K)) : Option (List (Coord × Aoo K)) :=
  if pts.isEmpty then some []
  else
    (toSize ((pts.length : K) - margin - 1)).bind fun last =>
      (toSize margin).bind fun first =>
        A.insertAll ok fuel scale robot quality scanQuality pts (List.range' first (last + 1 - first))

/-- The updates as operations on a map. -/
def asOps (us : List (Coord × Aoo K)) {C : Type} : List (PlainMap.Op C (Aoo K)) := us.map fun u => .update u.1 u.2

end

/-! ## Quality estimators and scan points over the reals -/

open Slam.Sensor Slam.Score

/-- `IdleOMQE`, grid_map_scan_adders.h:25-30. -/
def idleQuality (_ : Nat) : Option ℝ := some 1

/-- `AngleHistogramResiprocalOMQE::quality`, grid_map_scan_adders.h:36-40, after `reset` (34). -/
noncomputable def ahrQuality (h : Hist) (pts : List ScanPoint) (i : Nat) : Option ℝ :=
  (h.value pts i).bind fun v => if v ≠ 0 then some (1 / (v : ℝ)) else none

/-- The world points of a scan seen from a pose: `sp.move_origin(rp, scan.trig_provider)` with the provider based at
the heading, grid_map_scan_adders.h:61, 69. -/
noncomputable def worldPoints (pose : Score.Pose) (pts : List ScanPoint) : List (WPoint ℝ) :=
  pts.map fun sp =>
    let q := sp.moveBy pose.x pose.y (Raw.sin ⟨pose.th⟩) (Raw.cos ⟨pose.th⟩)
    ⟨⟨q.1, q.2⟩, sp.occupied⟩

end Slam.ScanAdder
