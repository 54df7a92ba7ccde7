import Verif.Grid.Model
import Verif.Cells.Model

/-!
# What the estimator is to compute, in terms of plain geometry

Independent of the estimator's own definitions: only points, an axis-parallel rectangle, and the straight segment
between two points.
-/

set_option autoImplicit false

namespace Slam.Estimator
open Slam.Grid Slam.Cells

variable {K : Type*} [Field K] [LinearOrder K]

/-- The cell, boundary included. -/
def InCell (c : Bounds K) (p : Point K) : Prop := c.left ≤ p.x ∧ p.x ≤ c.right ∧ c.bot ≤ p.y ∧ p.y ≤ c.top

/-- The interior of the cell. -/
def Inside (c : Bounds K) (p : Point K) : Prop := c.left < p.x ∧ p.x < c.right ∧ c.bot < p.y ∧ p.y < c.top

/-- The boundary of the cell. -/
def OnBoundary (c : Bounds K) (p : Point K) : Prop := InCell c p ∧ ¬ Inside c p

/-- The point at parameter `t` of the line from `a` (`t = 0`) to `b` (`t = 1`). -/
def between (a b : Point K) (t : K) : Point K := ⟨a.x + t * (b.x - a.x), a.y + t * (b.y - a.y)⟩

/-- The straight segment from `a` to `b` has a point in the interior of the cell. -/
def MeetsInterior (c : Bounds K) (a b : Point K) : Prop := ∃ t, 0 ≤ t ∧ t ≤ 1 ∧ Inside c (between a b t)

/-- The segment lies on one of the lines that carry the cell's edges. -/
def AlongEdgeLine (c : Bounds K) (a b : Point K) : Prop :=
  (a.x = b.x ∧ (a.x = c.left ∨ a.x = c.right)) ∨ (a.y = b.y ∧ (a.y = c.bot ∨ a.y = c.top))

/-- Both numbers of an occupancy are in `[0, 1]`. -/
def UnitOcc (o : Occ K) : Prop := (0 ≤ o.prob ∧ o.prob ≤ 1) ∧ (0 ≤ o.qual ∧ o.qual ≤ 1)

end Slam.Estimator
