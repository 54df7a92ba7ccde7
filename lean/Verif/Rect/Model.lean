import Verif.Grid.Model

/-!
# Model of axis-aligned rectangles and of their rasterisation

`LightWeightRectangle`, src/core/geometry_primitives.h:165-314; the tolerant comparisons of
src/core/math_utils.h; `GridRasterizedRectangle`, src/core/maps/grid_rasterization.h.
Exact arithmetic over a linearly ordered (floor) field.
-/

set_option autoImplicit false

namespace Slam.Rect
open Slam.Grid

section Rect
variable {K : Type*} [Field K] [LinearOrder K] [IsStrictOrderedRing K]

/-- `are_equal(a, b)`, src/core/math_utils.h:10-20. -/
def areEqual (a b : K) : Bool := decide (|a - b| ≤ 1 / 10 ^ 7 * max 1 (max |a| |b|))
/-- `less(a, b)`, src/core/math_utils.h:22-25; `numeric_limits<double>::epsilon()` is `2^-52`. -/
def less (a b : K) : Bool := decide (a < b + 1 / 2 ^ 52)
/-- `less_or_equal(a, b)`, src/core/math_utils.h:37-39. -/
def lessOrEqual (a b : K) : Bool := areEqual a b || less a b

/-- `are_ordered(a, b, c)`, src/core/math_utils.h:49-51, over an arbitrary comparison. -/
def areOrdered (le : K → K → Bool) (a b c : K) : Bool := le a b && le b c

/-- `vside_len`, geometry_primitives.h:183. -/
def vside (r : Bounds K) : K := r.top - r.bot
/-- `hside_len`, geometry_primitives.h:184. -/
def hside (r : Bounds K) : K := r.right - r.left
/-- `area`, geometry_primitives.h:187. -/
def area (r : Bounds K) : K := vside r * hside r
/-- `center`, geometry_primitives.h:188-190. -/
def center (r : Bounds K) : Point K := ⟨r.left + hside r / 2, r.bot + vside r / 2⟩

/-- `is_point`, geometry_primitives.h:193. -/
def isPoint (r : Bounds K) : Bool := decide (vside r = 0) && decide (hside r = 0)

/-- `operator==`, geometry_primitives.h:195-198, over an arbitrary equality. -/
def rectEq (eq : K → K → Bool) (a b : Bounds K) : Bool :=
  eq a.top b.top && eq a.bot b.bot && eq a.left b.left && eq a.right b.right

/-- `move_center`, geometry_primitives.h:205-209. -/
def moveCenter (r : Bounds K) (c : Point K) : Bounds K :=
  ⟨c.y - vside r / 2, c.y + vside r / 2, c.x - hside r / 2, c.x + hside r / 2⟩

/-- `shrink`, geometry_primitives.h:211-218. -/
def shrink (r : Bounds K) (factor : K) : Bounds K :=
  ⟨(center r).y - vside r / (factor * 2), (center r).y + vside r / (factor * 2),
   (center r).x - hside r / (factor * 2), (center r).x + hside r / (factor * 2)⟩

/-- `split_vert`, geometry_primitives.h:220-226. -/
def splitVert (r : Bounds K) : List (Bounds K) :=
  [⟨r.bot, (center r).y, r.left, r.right⟩, ⟨(center r).y, r.top, r.left, r.right⟩]

/-- `split_horz`, geometry_primitives.h:228-234. -/
def splitHorz (r : Bounds K) : List (Bounds K) :=
  [⟨r.bot, r.top, r.left, (center r).x⟩, ⟨r.bot, r.top, (center r).x, r.right⟩]

/-- `split4_evenly`, geometry_primitives.h:236-244. -/
def split4 (r : Bounds K) : List (Bounds K) :=
  [⟨r.bot, (center r).y, r.left, (center r).x⟩, ⟨(center r).y, r.top, r.left, (center r).x⟩,
   ⟨r.bot, (center r).y, (center r).x, r.right⟩, ⟨(center r).y, r.top, (center r).x, r.right⟩]

/-- `contains(x, y)`, geometry_primitives.h:246-250. The comparison is a parameter: the code's one is
`lessOrEqual`, the exact one is `≤`. -/
def contains (le : K → K → Bool) (r : Bounds K) (x y : K) : Bool :=
  areOrdered le r.left x r.right && areOrdered le r.bot y r.top

/-- Local variables of `intersect_internal`: the counter and `cleft, cright, ctop, cbot`, lines 276-277. -/
structure Acc (K : Type*) where
  nm : Nat
  r : Bounds K

/-- `PROCESS_CORNER` for the four corners, lines 279-291. -/
def corners (le : K → K → Bool) (this that : Bounds K) : Acc K :=
  let a0 : Acc K := ⟨0, this⟩
  let a1 := if contains le this that.left that.bot then
    ⟨a0.nm + 1, { a0.r with left := that.left, bot := that.bot }⟩ else a0
  let a2 := if contains le this that.right that.bot then
    ⟨a1.nm + 1, { a1.r with right := that.right, bot := that.bot }⟩ else a1
  let a3 := if contains le this that.left that.top then
    ⟨a2.nm + 1, { a2.r with left := that.left, top := that.top }⟩ else a2
  if contains le this that.right that.top then
    ⟨a3.nm + 1, { a3.r with right := that.right, top := that.top }⟩ else a3

/-- `intersect_internal(that, true)`, lines 270-310. `none`: failed `assert` (also of the constructor,
lines 172-173). -/
def intersectRev (le : K → K → Bool) (this that : Bounds K) : Option (Bounds K) :=
  let a := corners le this that
  match a.nm with
  | 0 => some ⟨0, 0, 0, 0⟩
  | 3 => none
  | _ => if a.r.bot ≤ a.r.top ∧ a.r.left ≤ a.r.right then some a.r else none

/-- `intersect` = `intersect_internal(that, false)`, lines 252-254 and 270-310. -/
def intersect (le : K → K → Bool) (this that : Bounds K) : Option (Bounds K) :=
  let a := corners le this that
  match a.nm with
  | 0 => intersectRev le that this
  | 3 => none
  | _ => if a.r.bot ≤ a.r.top ∧ a.r.left ≤ a.r.right then some a.r else none

/-- `overlap`, lines 256-266. -/
def overlap (le eq : K → K → Bool) (this that : Bounds K) : Option K :=
  if area this ≠ 0 then (intersect le this that).map fun r => area r / area this
  else if area that ≠ 0 then some (if contains le that this.left this.bot then 1 else 0)
  else if isPoint this && isPoint that then some (if rectEq eq this that then 1 else 0)
  else none
end Rect

section Raster
variable {K : Type*} [Field K] [LinearOrder K] [IsStrictOrderedRing K] [FloorRing K]

/-- The rectangle passed to the rasteriser: finite sides, or an infinite area. (Half-infinite rectangles of
zero width, whose area is NaN, are not modelled.) -/
inductive Region (K : Type*) where
  | finite (r : Bounds K)
  | infinite

/-- The size and origin of the grid, its scale (`none` = infinite, the coarsest level). -/
structure GridView (K : Type*) where
  dims : Dims
  origin : Coord
  scale : Option K

/-- `world_to_cell` with a possibly infinite scale, regular_squares_grid.h:40-53: `x / ∞ = ±0`. -/
def GridView.worldToCell (g : GridView K) (p : Point K) : Coord :=
  match g.scale with
  | none => ⟨0, 0⟩
  | some s => Grid.worldToCell s p

/-- Iterator state: `_lb`, `_rt`, `_x`, `_y`, grid_rasterization.h:73-74. -/
structure RState where
  lb : Coord
  rt : Coord
  x : Int
  y : Int

/-- Constructor, grid_rasterization.h:26-48; `offset` is `1e-9` without the border. -/
def RState.create (g : GridView K) (r : Region K) (includeBorder : Bool) : RState :=
  let offset : K := if includeBorder then 0 else 1 / 10 ^ 9
  let mk (lb rt : Coord) : RState := ⟨lb, rt, lb.x, lb.y⟩
  match r with
  | .finite r =>
    if area r = 0 then mk (g.worldToCell ⟨r.left, r.bot⟩) (g.worldToCell ⟨r.left, r.bot⟩)
    else mk (g.worldToCell ⟨r.left + offset, r.bot + offset⟩) (g.worldToCell ⟨r.right - offset, r.top - offset⟩)
  | .infinite =>
    mk (internal2external g.origin ⟨0, 0⟩) (internal2external g.origin ⟨g.dims.width - 1, g.dims.height - 1⟩)

/-- `has_next`, grid_rasterization.h:50-54. -/
def RState.hasNext (s : RState) : Bool := decide (s.x ≤ s.rt.x) && decide (s.y ≤ s.rt.y)

/-- `next`, grid_rasterization.h:56-64. -/
def RState.next (s : RState) : Coord × RState :=
  (⟨s.x, s.y⟩, if s.rt.y < s.y + 1 then { s with y := s.lb.y, x := s.x + 1 } else { s with y := s.y + 1 })

/-- `to_vector`, grid_rasterization.h:66-70, at most `fuel` iterations (`none`: still running). -/
def RState.toVector : Nat → RState → Option (List Coord)
  | fuel, s =>
    if s.hasNext then
      match fuel with
      | 0 => none
      | fuel + 1 => (toVector fuel s.next.2).map fun l => s.next.1 :: l
    else some []

/-- Rasterisation of a region, as a terminating computation with result `l`. -/
def Rasterizes (g : GridView K) (r : Region K) (border : Bool) (l : List Coord) : Prop :=
  ∃ n, ∀ fuel, n ≤ fuel → (RState.create g r border).toVector fuel = some l
end Raster

end Slam.Rect
