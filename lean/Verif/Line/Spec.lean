import Verif.Grid.Model

/-! # Specification vocabulary for rasterised segments -/

namespace Slam.Line
open Slam.Grid (Coord)

/-- `q` is one of the eight neighbours of `p`. -/
def KingStep (p q : Coord) : Prop :=
  p ≠ q ∧ |q.x - p.x| ≤ 1 ∧ |q.y - p.y| ≤ 1

/-- `pts` is a digital straight segment from `b` to `e`. -/
structure IsDigitalLine (b e : Coord) (pts : List Coord) : Prop where
  first : pts.head? = some b
  last : pts.getLast? = some e
  /-- one cell per unit of the longer side, plus one -/
  length : (pts.length : Int) = max |e.x - b.x| |e.y - b.y| + 1
  /-- each cell is a king neighbour of the previous one -/
  steps : pts.IsChain KingStep
  nodup : pts.Nodup
  /-- Distance from the ideal line, measured along the minor axis, is at most half a cell:
  `|minor deviation| = |cross| / major ≤ 1/2`. -/
  close : ∀ p ∈ pts,
    2 * |(p.x - b.x) * (e.y - b.y) - (p.y - b.y) * (e.x - b.x)| ≤ max |e.x - b.x| |e.y - b.y|

/-- `pts` connects `b` to `e` by king steps without visiting a cell twice. -/
structure Connects (b e : Coord) (pts : List Coord) : Prop where
  first : pts.head? = some b
  last : pts.getLast? = some e
  steps : pts.IsChain KingStep
  nodup : pts.Nodup

end Slam.Line
