import Verif.Grid.Model

/-!
# Model of segment rasterisation

* `DiscreteSegment2D` — src/core/geometry_discrete_primitives.h:55-104
* `RegularSquaresGrid::world_to_cells` — src/core/maps/regular_squares_grid.h:56-101
-/

namespace Slam.Line
open Slam.Grid (Coord)

/-- Values representable by the 32-bit `int` of the supported platforms. -/
def int32 (v : Int) : Bool := decide (-2147483648 ≤ v) && decide (v ≤ 2147483647)

/-- The `while (1)` loop of `gen_points_with_bresenham`, geometry_discrete_primitives.h:85-99.
The result lists `(primary, secondary)` pairs. `ok` tells which values an `int` can hold: a computed value
outside of it is undefined behaviour, outcome `none` (`ok := int32` for the real code).
`fuel` bounds the number of iterations; running out of it is `none` too. -/
def bresenhamLoop (ok : Int → Bool) (limit dP dS incP incS : Int) :
    Nat → Int → Int → Int → Option (List (Int × Int))
  | 0, _, _, _ => none
  | fuel + 1, primary, secondary, error =>
    if primary = limit then some [(primary, secondary)]
    else
      let errIncPrimary := error + incP * dS
      let errIncBoth := errIncPrimary - incS * dP
      if ok (incP * dS) && ok errIncPrimary && ok (incS * dP) && ok errIncBoth
          && ok |errIncPrimary| && ok |errIncBoth| && ok (primary + incP) then
        let rest :=
          if |errIncPrimary| < |errIncBoth| then
            bresenhamLoop ok limit dP dS incP incS fuel (primary + incP) secondary errIncPrimary
          else if ok (secondary + incS) then
            bresenhamLoop ok limit dP dS incP incS fuel (primary + incP) (secondary + incS) errIncBoth
          else none
        rest.map ((primary, secondary) :: ·)
      else none

/-- `0 < d ? 1 : -1`, geometry_discrete_primitives.h:77-78. -/
def incOf (d : Int) : Int := if 0 < d then 1 else -1

/-- `DiscreteSegment2D(beg, end)` converted to a vector of points,
geometry_discrete_primitives.h:57-104; `ok`, `fuel` as in `bresenhamLoop`.
(`reserve` at line 60 has no observable effect.) -/
def bresenham (ok : Int → Bool) (fuel : Nat) (b e : Coord) : Option (List Coord) :=
  let dx := e.x - b.x
  let dy := e.y - b.y
  if ok dx && ok dy && ok |dx| && ok |dy| then
    if |dx| < |dy| then
      (bresenhamLoop ok e.y dy dx (incOf dy) (incOf dx) fuel b.y b.x 0).map
        (List.map fun ps => ⟨ps.2, ps.1⟩)
    else
      (bresenhamLoop ok e.x dx dy (incOf dx) (incOf dy) fuel b.x b.y 0).map
        (List.map fun ps => ⟨ps.1, ps.2⟩)
  else none

/-- An *arbitrary* interpretation of the `double` operations used by `world_to_cells`. Nothing at all is
assumed about them, so the theorems cover IEEE-754 doubles with any rounding, NaNs and infinities. -/
structure FP (D : Type) where
  add : D → D → D
  sub : D → D → D
  mul : D → D → D
  neg : D → D
  abs : D → D
  ofInt : Int → D
  half : D
  /-- `0 < d` -/
  pos : D → Bool
  /-- `are_equal(d, 0)`, src/core/math_utils.h:17-28 -/
  eqZero : D → Bool
  /-- `world_to_cell(x, y)`, regular_squares_grid.h:40-46 -/
  cell : D → D → Coord

/-- Outcome of the walking loop. -/
inductive Walk where
  | done (cells : List Coord)
  | failover
  | outOfFuel
  deriving DecidableEq

/-- The `while (1)` loop of `world_to_cells`, regular_squares_grid.h:75-99. `acc` is `cells`. -/
def walk {D : Type} (fp : FP D) (cellsNm : Nat) (endc : Coord) (incX incY : Int) (exInc eyInc : D) :
    Nat → Coord → D → List Coord → Walk
  | 0, _, _, _ => .outOfFuel
  | fuel + 1, pnt, e, acc =>
    let cells := acc ++ [pnt]
    if pnt = endc then .done cells
    else if cellsNm < cells.length then .failover
    else
      let ex := fp.add e exInc
      let ey := fp.add e eyInc
      let absErrDiff := fp.sub (fp.abs ey) (fp.abs ex)
      if fp.eqZero absErrDiff then
        if pnt.x = endc.x then
          walk fp cellsNm endc incX incY exInc eyInc fuel ⟨pnt.x, pnt.y + incY⟩ (fp.ofInt 0) cells
        else if pnt.y = endc.y then
          walk fp cellsNm endc incX incY exInc eyInc fuel ⟨pnt.x + incX, pnt.y⟩ (fp.ofInt 0) cells
        else
          walk fp cellsNm endc incX incY exInc eyInc fuel ⟨pnt.x + incX, pnt.y + incY⟩ (fp.ofInt 0) cells
      else if fp.pos absErrDiff then
        walk fp cellsNm endc incX incY exInc eyInc fuel ⟨pnt.x + incX, pnt.y⟩ ex cells
      else
        walk fp cellsNm endc incX incY exInc eyInc fuel ⟨pnt.x, pnt.y + incY⟩ ey cells

/-- `RegularSquaresGrid::world_to_cells(Segment2D)`, regular_squares_grid.h:56-101.
`(bx, by_)`, `(ex, ey)` are the ends of the segment, `m` is `scale()`. `none` = not terminated in `fuel` or `int` overflow in the
fail-over rasterisation (overflow of `pnt.x += inc_x` itself is not checked). -/
def worldToCells {D : Type} (ok : Int → Bool) (fp : FP D) (fuel : Nat) (m bx by_ ex ey : D) : Option (List Coord) :=
  let dx := fp.sub ex bx
  let dy := fp.sub ey by_
  let incX : Int := if fp.pos dx then 1 else -1
  let incY : Int := if fp.pos dy then 1 else -1
  let pnt := fp.cell bx by_
  let endc := fp.cell ex ey
  let cellsNm := (endc.x - pnt.x).natAbs + (endc.y - pnt.y).natAbs + 1
  let midX := fp.mul (fp.add (fp.ofInt pnt.x) fp.half) m
  let midY := fp.mul (fp.add (fp.ofInt pnt.y) fp.half) m
  let midSegY := fp.add (fp.mul dx by_) (fp.mul (fp.sub midX bx) dy)
  let e := fp.sub midSegY (fp.mul midY dx)
  let exInc := fp.mul (fp.mul (fp.ofInt incX) m) dy
  let eyInc := fp.mul (fp.mul (fp.ofInt (-incY)) m) dx
  match walk fp cellsNm endc incX incY exInc eyInc fuel pnt e [] with
  | .done cells => some cells
  | .failover => bresenham ok fuel (fp.cell bx by_) endc
  | .outOfFuel => none

end Slam.Line
