import Mathlib.Algebra.Order.Floor.Ring
import Mathlib.Data.Rat.Floor
import Verif.Grid.Model

/-!
# Model of the dumps of maps

`GridMapToPgmDumber` (src/utils/map_dumpers.h) and `OccupancyGridPublisher` (src/ros/occupancy_grid_publisher.h).
A file and a message are lists of values; `float` of `MapMetaData::resolution` is exact, and `width·height` does not
overflow.
-/

set_option autoImplicit false
set_option linter.unusedSectionVars false

namespace Slam.Dump

open Slam.Grid

variable {K : Type*} [Field K] [LinearOrder K] [IsStrictOrderedRing K] [FloorRing K]

/-- What the dumpers read from a map: `width()`, `height()`, `origin()`, `scale()`, `occupancy(coord)`
(src/core/maps/grid_map.h:48-50; `(double)map[coord]` is the same, src/core/maps/grid_cell.h:18). -/
structure MapView (K : Type*) where
  width : Int
  height : Int
  origin : Coord
  scale : K
  occ : Coord → K

/-- `for (i = from; to <= i; --i)`. -/
def down (from_ to_ : Int) : List Int :=
  if to_ ≤ from_ then from_ :: down (from_ - 1) to_ else []
termination_by (from_ + 1 - to_).toNat
decreasing_by omega

/-- `for (i = from; i < end; ++i)`. -/
def up (from_ end_ : Int) : List Int :=
  if from_ < end_ then from_ :: up (from_ + 1) end_ else []
termination_by (end_ - from_).toNat
decreasing_by omega

/-- `std::to_string` of an `int`. -/
def toStr (n : Int) : List Char := if 0 ≤ n then Nat.toDigits 10 n.toNat else '-' :: Nat.toDigits 10 (-n).toNat

/-- `PgmHeader::write`, map_dumpers.h:24-32, with `write_whitespace` and `write_integral`, 35-44. -/
def pgmHeader (w h maxVal : Int) : List Char :=
  ['P', '5'] ++ ['\n'] ++ toStr w ++ ['\n'] ++ toStr h ++ ['\n'] ++ toStr maxVal

/-- `bound_value`, src/core/math_utils.h:33-35. -/
def boundValue (left v right : K) : K := max left (min right v)

/-- Conversion of a `double` to an integer: towards zero. -/
def trunc (x : K) : Int := if 0 ≤ x then ⌊x⌋ else ⌈x⌉

/-- Body of the loops of `dump_map`, map_dumpers.h:80-83; the byte (modulo 256). -/
def intensity (occ : K) : Nat :=
  let value := 1 - (if occ = -1 then 1 / 2 else boundValue 0 occ 1)
  (trunc (255 * value) % 256).toNat

/-- The loops of `dump_map`, map_dumpers.h:78-87. -/
def raster (m : MapView K) : List Nat :=
  (down (m.height - m.origin.y - 1) (-m.origin.y)).flatMap fun y =>
    (up (-m.origin.x) (m.width - m.origin.x)).map fun x => intensity (m.occ ⟨x, y⟩)

/-- `dump_map`, map_dumpers.h:65-89: the bytes of the file. The sanity assertion on the number of samples is not part
of the model; it is proved. -/
def dumpMap (m : MapView K) : List Nat :=
  ((pgmHeader m.width m.height 255 ++ ['\n']).map Char.toNat) ++ raster m

/-- `GridMapToPgmDumber`'s state and files, map_dumpers.h:53-63: each update writes the next file. -/
structure Dumper (K : Type*) where
  base : List Char
  id : Nat
  files : List (List Char × List Nat)

/-- Constructor, map_dumpers.h:53-55. -/
def Dumper.make (K : Type*) (base : List Char) : Dumper K := ⟨base ++ ['_'], 0, []⟩

/-- `on_map_update`, map_dumpers.h:57-63. -/
def Dumper.onMapUpdate (d : Dumper K) (m : MapView K) : Dumper K :=
  ⟨d.base, d.id + 1, d.files ++ [(d.base ++ toStr d.id ++ ".pgm".toList, dumpMap m)]⟩

/-! ## Occupancy grid message -/

/-- `nav_msgs::OccupancyGrid` as far as it is filled. -/
structure GridMsg (K : Type*) where
  width : Int
  height : Int
  resolution : K
  originX : K
  originY : K
  data : List Int

/-- Conversion of an `int` to `int8_t`. -/
def toInt8 (v : Int) : Int := (v + 128) % 256 - 128

/-- `cell_value`, occupancy_grid_publisher.h:42-44. -/
def cellValue (value : K) : Int := toInt8 (if value = -1 then -1 else trunc (value * 100))

/-- The message, occupancy_grid_publisher.h:24-48. -/
def gridMsg (m : MapView K) : GridMsg K where
  width := m.width
  height := m.height
  resolution := m.scale
  originX := -m.scale * (m.origin.x : K)
  originY := -m.scale * (m.origin.y : K)
  data := (up (-m.origin.y) (m.height - m.origin.y)).flatMap fun y =>
    (up (-m.origin.x) (m.width - m.origin.x)).map fun x => cellValue (m.occ ⟨x, y⟩)

/-- The publisher: `_last_pub_time` and what was published, each with the time of the check. -/
structure Publisher (K : Type*) where
  last : K
  sent : List (K × GridMsg K)

/-- `on_map_update`, occupancy_grid_publisher.h:19-50: `checked` and `stored` are the values of `ros::Time::now()` in
the first and in the last statement. -/
def Publisher.onMapUpdate (interval : K) (p : Publisher K) (u : MapView K × K × K) : Publisher K :=
  let (m, checked, stored) := u
  if checked - p.last < interval then p else ⟨stored, p.sent ++ [(checked, gridMsg m)]⟩

end Slam.Dump
