import Mathlib.Algebra.Order.Floor.Ring
import Mathlib.Algebra.Order.Field.Basic

/-!
# Model of `src/core/maps/regular_squares_grid.h` (coordinates part)

`double` is an arbitrary linearly ordered floor field `K` (exact arithmetic, no rounding, no overflow of
the `int(...)` conversion); `int` is `Int`.
-/

namespace Slam.Grid

/-- `DiscretePoint2D`, src/core/geometry_discrete_primitives.h:10-45. -/
structure Coord where
  x : Int
  y : Int
  deriving DecidableEq, Repr

/-- `DiscretePoint2D::operator+`, src/core/geometry_discrete_primitives.h:17-25. -/
def Coord.add (a b : Coord) : Coord := ⟨a.x + b.x, a.y + b.y⟩
/-- `DiscretePoint2D::operator-`, src/core/geometry_discrete_primitives.h:27-29. -/
def Coord.sub (a b : Coord) : Coord := ⟨a.x - b.x, a.y - b.y⟩

/-- `RegularSquaresGrid` size fields, src/core/maps/regular_squares_grid.h:19-20,151-153.
(`_m_per_cell` is passed separately to the functions that use it.) -/
structure Dims where
  width : Int
  height : Int
  deriving DecidableEq, Repr

/-- `RegularSquaresGrid::origin`, src/core/maps/regular_squares_grid.h:120-122.
C++ `int` division truncates towards zero: `Int.tdiv`. -/
def Dims.origin (d : Dims) : Coord := ⟨d.width.tdiv 2, d.height.tdiv 2⟩

/-- `has_internal_cell`, src/core/maps/regular_squares_grid.h:134-136. -/
def Dims.hasInternalCell (d : Dims) (c : Coord) : Bool :=
  (decide (0 ≤ c.x) && decide (c.x < d.width)) && (decide (0 ≤ c.y) && decide (c.y < d.height))

/-- `external2internal`, src/core/maps/regular_squares_grid.h:141-143; the origin is a parameter because
`origin()` is virtual (the unbounded maps override it). -/
def external2internal (origin c : Coord) : Coord := c.add origin
/-- `internal2external`, src/core/maps/regular_squares_grid.h:128-130. -/
def internal2external (origin c : Coord) : Coord := c.sub origin

/-- `has_cell`, src/core/maps/regular_squares_grid.h:124-126. -/
def Dims.hasCell (d : Dims) (origin c : Coord) : Bool :=
  d.hasInternalCell (external2internal origin c)

section World
variable {K : Type*} [Field K] [LinearOrder K] [IsStrictOrderedRing K] [FloorRing K]

/-- `Point2D`, src/core/geometry_primitives.h:10-28. -/
structure Point (K : Type*) where
  x : K
  y : K
  deriving DecidableEq

/-- `Rectangle`/`LightWeightRectangle` sides, src/core/geometry_primitives.h:165-190. -/
structure Bounds (K : Type*) where
  bot : K
  top : K
  left : K
  right : K
  deriving DecidableEq

/-- `world_to_cell(double, double)`, src/core/maps/regular_squares_grid.h:40-46
(finite coordinates: the asserted precondition; conversion to `int` assumed in range). -/
def worldToCell (scale : K) (p : Point K) : Coord := ⟨⌊p.x / scale⌋, ⌊p.y / scale⌋⟩

/-- `cell_to_world`, src/core/maps/regular_squares_grid.h:103-105. -/
def cellToWorld (scale : K) (c : Coord) : Point K :=
  ⟨scale * ((c.x : K) + 1 / 2), scale * ((c.y : K) + 1 / 2)⟩

/-- `world_cell_bounds`, src/core/maps/regular_squares_grid.h:108-118 (finite scale). -/
def worldCellBounds (scale : K) (c : Coord) : Bounds K where
  bot := scale * (c.y : K)
  top := scale * ((c.y : K) + 1)
  left := scale * (c.x : K)
  right := scale * ((c.x : K) + 1)

end World
end Slam.Grid
