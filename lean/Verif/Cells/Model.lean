import Mathlib.Algebra.Order.Field.Basic
import Verif.Grid.Model

/-!
# Models of the grid cells

`src/core/maps/grid_cell.h`, `src/core/maps/naive_grid_cells.h`, `src/slams/gmapping/gmapping_grid_cell.h`.
Exact arithmetic over a linearly ordered field `K`.
-/

set_option autoImplicit false

namespace Slam.Cells
open Slam.Grid

/-- A *valid* `Occupancy`, src/core/states/state_data.h:7-33. -/
structure Occ (K : Type*) where
  prob : K
  qual : K
  deriving DecidableEq

/-- `AreaOccupancyObservation`, src/core/states/state_data.h:42-47. `occ = none` stands for an occupancy
for which `is_valid()` (lines 23-25) is false (probability or estimation quality is NaN). -/
structure Aoo (K : Type*) where
  isOcc : Bool
  occ : Option (Occ K)
  obst : Point K
  quality : K

variable {K : Type*} [Field K] [LinearOrder K] [IsStrictOrderedRing K]

/-- `GridCell`, src/core/maps/grid_cell.h:53-55 (`_occupancy` may be invalid: NaN). -/
structure BaseCell (K : Type*) where
  occ : Option (Occ K)
  unknown : Bool

/-- `GridCell(const Occupancy&)`, src/core/maps/grid_cell.h:11. -/
def BaseCell.create (o : Option (Occ K)) : BaseCell K := ⟨o, true⟩

/-- `GridCell::operator+=`, src/core/maps/grid_cell.h:27-30 (`on_update`: 49-51). -/
def BaseCell.observe (_ : BaseCell K) (a : Aoo K) : BaseCell K := ⟨a.occ, false⟩

/-- `GridCell::discrepancy`, src/core/maps/grid_cell.h:33-35; `none` is NaN. -/
def BaseCell.discrepancy (c : BaseCell K) (a : Aoo K) : Option K :=
  match c.occ, a.occ with
  | some p, some o => some |p.prob - o.prob|
  | _, _ => none

/-- `AffineQualityMergeCell`, src/core/maps/naive_grid_cells.h:6-21; its occupancy is always valid. -/
structure AffineCell (K : Type*) where
  occ : Occ K
  unknown : Bool

/-- Constructor, naive_grid_cells.h:8. -/
def AffineCell.create : AffineCell K := ⟨⟨1 / 2, 1⟩, true⟩

/-- `operator+=`, naive_grid_cells.h:14-20. -/
def AffineCell.observe (c : AffineCell K) (a : Aoo K) : AffineCell K :=
  match a.occ with
  | none => c
  | some o => ⟨⟨(1 - a.quality) * c.occ.prob + a.quality * o.prob, c.occ.qual⟩, false⟩

/-- Inherited `GridCell::discrepancy`, grid_cell.h:33-35. -/
def AffineCell.discrepancy (c : AffineCell K) (a : Aoo K) : Option K :=
  a.occ.map fun o => |c.occ.prob - o.prob|

/-- `MeanProbabilityCell`, naive_grid_cells.h:25-45 (`_n` is a `double`). -/
structure MeanCell (K : Type*) where
  occ : Occ K
  unknown : Bool
  n : K

/-- Constructor, naive_grid_cells.h:27. -/
def MeanCell.create : MeanCell K := ⟨⟨1 / 2, 1⟩, true, 0⟩

/-- `operator+=`, naive_grid_cells.h:33-40. -/
def MeanCell.observe (c : MeanCell K) (a : Aoo K) : MeanCell K :=
  match a.occ with
  | none => c
  | some o =>
    let n := c.n + 1
    let thatP := 1 / 2 + (o.prob - 1 / 2) * a.quality
    ⟨⟨(c.occ.prob * (n - 1) + thatP) / n, c.occ.qual⟩, false, n⟩

/-- Inherited `GridCell::discrepancy`, grid_cell.h:33-35. -/
def MeanCell.discrepancy (c : MeanCell K) (a : Aoo K) : Option K :=
  a.occ.map fun o => |c.occ.prob - o.prob|

/-- `GmappingBaseCell`, src/slams/gmapping/gmapping_grid_cell.h:9-43 (`int` counters do not overflow). -/
structure GmCell (K : Type*) where
  occ : Occ K
  unknown : Bool
  hits : Nat
  tries : Nat
  obst : Point K

/-- Constructor, gmapping_grid_cell.h:14 (`Point2D` is zero-initialised, geometry_primitives.h:12). -/
def GmCell.create : GmCell K := ⟨⟨-1, 1⟩, true, 0, 0, ⟨0, 0⟩⟩

/-- `operator+=`, gmapping_grid_cell.h:20-33. -/
def GmCell.observe (c : GmCell K) (a : Aoo K) : GmCell K :=
  match a.occ with
  | none => c
  | some o =>
    let tries := c.tries + 1
    let isFree : Bool := decide (o.prob ≤ 1 / 2)
    let p : K := if isFree then 0 else o.prob
    let c' : GmCell K :=
      { c with unknown := false, tries := tries
               occ := ⟨(c.occ.prob * ((tries : K) - 1) + p) / (tries : K), c.occ.qual⟩ }
    if isFree then c'
    else
      let hits := c.hits + 1
      { c' with hits := hits
                obst := ⟨(c.obst.x * ((hits : K) - 1) + a.obst.x) / (hits : K),
                         (c.obst.y * ((hits : K) - 1) + a.obst.y) / (hits : K)⟩ }

/-- `Point2D::dist_sq`, src/core/geometry_primitives.h:14-16. -/
def distSq (a b : Point K) : K := (a.x - b.x) ^ 2 + (a.y - b.y) ^ 2

end Slam.Cells
