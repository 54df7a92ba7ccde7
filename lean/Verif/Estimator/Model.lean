import Verif.Rect.Model
import Verif.Cells.Model

/-!
# Model of the area based occupancy estimator

`AreaOccupancyEstimator`, src/core/maps/area_occupancy_estimator.h, with `Segment2D`, `Ray`, `Intersection`, `Rectangle`
of src/core/geometry_primitives.h. Exact arithmetic. The comparisons of math_utils.h are a parameter: the code's are
tolerant (`codeCmp`), `exactCmp` are the ideal ones. The outer `none` is a failed assertion.
-/

set_option autoImplicit false
set_option linter.unusedSectionVars false

namespace Slam.Estimator
open Slam.Grid Slam.Rect Slam.Cells

variable {K : Type*} [Field K] [LinearOrder K] [IsStrictOrderedRing K]

/-- `are_equal` and `less_or_equal`. -/
structure Cmp (K : Type*) where
  eq : K → K → Bool
  le : K → K → Bool

/-- The comparisons of the code, math_utils.h:15-25, 37-39. -/
def codeCmp : Cmp K := ⟨areEqual, lessOrEqual⟩

/-- Ideal comparisons. -/
def exactCmp : Cmp K := ⟨fun a b => decide (a = b), fun a b => decide (a ≤ b)⟩

/-- `Segment2D`, geometry_primitives.h:88-92. -/
structure Seg (K : Type*) where
  beg : Point K
  fin : Point K

/-- `is_horiz`, geometry_primitives.h:46, 50. -/
def Seg.isHoriz (C : Cmp K) (s : Seg K) : Bool := C.eq s.beg.y s.fin.y
/-- `is_vert`, geometry_primitives.h:47, 51. -/
def Seg.isVert (C : Cmp K) (s : Seg K) : Bool := C.eq s.beg.x s.fin.x

/-- `Segment2D::contains`, geometry_primitives.h:59-68. -/
def Seg.contains (C : Cmp K) (s : Seg K) (p : Point K) : Option Bool :=
  if s.isHoriz C then some (C.eq p.y s.beg.y && areOrdered C.le s.beg.x p.x s.fin.x)
  else if s.isVert C then some (C.eq p.x s.beg.x && areOrdered C.le s.beg.y p.y s.fin.y)
  else none

/-- `contains_intersection`, geometry_primitives.h:70-72, 80-86. -/
def Seg.containsInters (C : Cmp K) (s : Seg K) (p : Point K) : Bool :=
  (areOrdered C.le s.beg.x p.x s.fin.x || areOrdered C.le s.fin.x p.x s.beg.x) &&
  (areOrdered C.le s.beg.y p.y s.fin.y || areOrdered C.le s.fin.y p.y s.beg.y)

/-- `Intersection::Location`, geometry_primitives.h:99-101. -/
inductive Loc where
  | bot | left | top | right
  deriving DecidableEq

/-- `Intersection`, geometry_primitives.h:99-112. -/
structure Inter (K : Type*) where
  loc : Loc
  pt : Point K

/-- `Intersection::is_horiz`, geometry_primitives.h:106-108. -/
def Inter.isHoriz (i : Inter K) : Bool := decide (i.loc = .bot) || decide (i.loc = .top)

/-- `Point2D::operator==`, geometry_primitives.h:18-20. -/
def ptEq (C : Cmp K) (a b : Point K) : Bool := C.eq a.x b.x && C.eq a.y b.y

/-- `Ray`, geometry_primitives.h:115-119, 161-162. -/
structure Ray (K : Type*) where
  beg : Point K
  delta : Point K

/-- `Ray{s}`, geometry_primitives.h:119. -/
def Ray.ofSeg (s : Seg K) : Ray K := ⟨s.beg, ⟨s.fin.x - s.beg.x, s.fin.y - s.beg.y⟩⟩

/-- `intersect_horiz_segm`, geometry_primitives.h:136-147. -/
def Ray.horiz (C : Cmp K) (r : Ray K) (stX endX y : K) (loc : Loc) : List (Inter K) :=
  if C.eq r.delta.y 0 then []
  else
    let x := r.beg.x + (y - r.beg.y) / r.delta.y * r.delta.x
    if x < stX ∨ endX < x then [] else [⟨loc, x, y⟩]

/-- `intersect_vert_segm`, geometry_primitives.h:149-160. -/
def Ray.vert (C : Cmp K) (r : Ray K) (stY endY x : K) (loc : Loc) : List (Inter K) :=
  if C.eq r.delta.x 0 then []
  else
    let y := r.beg.y + (x - r.beg.x) / r.delta.x * r.delta.y
    if y < stY ∨ endY < y then [] else [⟨loc, x, y⟩]

/-- `Ray::intersect`, geometry_primitives.h:122-133: what is appended to the consumer. -/
def Ray.intersect (C : Cmp K) (r : Ray K) (s : Seg K) (loc : Loc) : Option (List (Inter K)) :=
  if s.isHoriz C then some (r.horiz C s.beg.x s.fin.x s.beg.y loc)
  else if s.isVert C then some (r.vert C s.beg.y s.fin.y s.beg.x loc)
  else none

/-- Edges of a rectangle, geometry_primitives.h:333-338. -/
def botEdge (c : Bounds K) : Seg K := ⟨⟨c.left, c.bot⟩, ⟨c.right, c.bot⟩⟩
/-- See `botEdge`. -/
def topEdge (c : Bounds K) : Seg K := ⟨⟨c.left, c.top⟩, ⟨c.right, c.top⟩⟩
/-- See `botEdge`. -/
def leftEdge (c : Bounds K) : Seg K := ⟨⟨c.left, c.bot⟩, ⟨c.left, c.top⟩⟩
/-- See `botEdge`. -/
def rightEdge (c : Bounds K) : Seg K := ⟨⟨c.right, c.bot⟩, ⟨c.right, c.top⟩⟩

/-- `has_on_edge_line`, geometry_primitives.h:348-356. -/
def hasOnEdgeLine (C : Cmp K) (c : Bounds K) (s : Seg K) : Bool :=
  if s.isVert C then C.eq s.beg.x c.left || C.eq s.beg.x c.right
  else if s.isHoriz C then C.eq s.beg.y c.bot || C.eq s.beg.y c.top
  else false

/-- The loop of `find_containing_edge`, geometry_primitives.h:359-362: is there such an edge among the given ones? -/
def onSome (C : Cmp K) (p : Point K) : List (Seg K) → Option Bool
  | [] => some false
  | e :: es => (e.contains C p).bind fun b => if b then some true else onSome C p es

/-- `find_containing_edge`, geometry_primitives.h:358-364, as a truth value. -/
def onEdge (C : Cmp K) (c : Bounds K) (p : Point K) : Option Bool :=
  onSome C p [botEdge c, topEdge c, leftEdge c, rightEdge c]

/-- `std::unique` after the kept element `last`. -/
def uniqueFrom (C : Cmp K) (last : Inter K) : List (Inter K) → List (Inter K)
  | [] => []
  | i :: is => if ptEq C last.pt i.pt then uniqueFrom C last is else i :: uniqueFrom C i is

/-- `std::unique`. -/
def unique (C : Cmp K) : List (Inter K) → List (Inter K)
  | [] => []
  | i :: is => i :: uniqueFrom C i is

/-- Removal of duplicates, geometry_primitives.h:387-391. -/
def dedup (C : Cmp K) (l : List (Inter K)) : List (Inter K) :=
  let l :=
    match l.head?, l.getLast? with
    | some a, some b => if decide (1 < l.length) && ptEq C a.pt b.pt then l.dropLast else l
    | _, _ => l
  unique C l

/-- `find_intersections(Ray)`, geometry_primitives.h:376-394. -/
def rayInters (C : Cmp K) (c : Bounds K) (r : Ray K) : Option (List (Inter K)) :=
  (r.intersect C (topEdge c) .top).bind fun a => (r.intersect C (leftEdge c) .left).bind fun b =>
    (r.intersect C (botEdge c) .bot).bind fun d => (r.intersect C (rightEdge c) .right).bind fun e =>
      let l := dedup C (a ++ b ++ d ++ e)
      if l.length < 3 then some l else none

/-- `find_intersections(Segment2D)`, geometry_primitives.h:368-374. -/
def segInters (C : Cmp K) (c : Bounds K) (s : Seg K) : Option (List (Inter K)) :=
  (rayInters C c (Ray.ofSeg s)).map fun l => l.filter fun i => s.containsInters C i.pt

/-- `AreaOccupancyEstimator`, area_occupancy_estimator.h:18-25, 237-239, cell_occupancy_estimator.h:17-22. -/
structure Est (K : Type*) where
  occ : Occ K
  empty : Occ K
  lowQual : K
  unknownQual : K

/-- `ensure_segment_not_on_edge`, area_occupancy_estimator.h:68-86; `shift` is the value of the static
`Shift_Amount`. -/
def notOnEdge (C : Cmp K) (shift : K) (s : Seg K) (c : Bounds K) : Option (Seg K) :=
  if !hasOnEdgeLine C c s then some s
  else
    let d : Option (Point K) :=
      if s.isHoriz C then some ⟨0, (if C.eq s.beg.y c.top then -1 else 1) * shift⟩
      else if s.isVert C then some ⟨(if C.eq s.beg.x c.right then -1 else 1) * shift, 0⟩
      else none
    d.bind fun d =>
      let s' : Seg K := ⟨⟨s.beg.x + d.x, s.beg.y + d.y⟩, ⟨s.fin.x + d.x, s.fin.y + d.y⟩⟩
      if hasOnEdgeLine C c s' then none else some s'

/-- `SegmentPositionType`, area_occupancy_estimator.h:14-16. -/
inductive Position where
  | unrelated | liesInside | stopsInside | startsInside | pierces | touches
  deriving DecidableEq

/-- `modified_is_inside`, area_occupancy_estimator.h:118-142. -/
def isInside (C : Cmp K) (s : Seg K) (c : Bounds K) : Option (Bool × Bool) :=
  (onEdge C c s.beg).bind fun begEdge => (onEdge C c s.fin).map fun endEdge =>
    if begEdge && endEdge then (false, false)
    else
      let begIn := contains C.le c s.beg.x s.beg.y
      let endIn := contains C.le c s.fin.x s.fin.y
      if !begEdge && !endEdge then (begIn, endIn)
      else if begEdge then (false, endIn) else (begIn, !begIn)

/-- `classify_segment`, area_occupancy_estimator.h:88-111. -/
def classify (C : Cmp K) (s : Seg K) (c : Bounds K) : Option Position :=
  (isInside C s c).bind fun io =>
    if io.1 != io.2 then some (if io.1 then .startsInside else .stopsInside)
    else if io.1 then some .liesInside
    else (segInters C c s).bind fun l =>
      match l.length with
      | 0 => some .unrelated
      | 1 => some .touches
      | 2 => some .pierces
      | _ => none

/-- `find_intersections(beam, bnds, is_occ)`, area_occupancy_estimator.h:144-165. -/
def chunkInters (C : Cmp K) (beam : Seg K) (c : Bounds K) (isOcc : Bool) : Option (List (Inter K)) :=
  if isOcc then rayInters C c ⟨beam.fin, ⟨beam.beg.y - beam.fin.y, beam.fin.x - beam.beg.x⟩⟩
  else (rayInters C c ⟨beam.beg, ⟨beam.fin.x - beam.beg.x, beam.fin.y - beam.beg.y⟩⟩).map fun l =>
    l.filter fun i => beam.containsInters C i.pt

/-- `are_on_the_same_side`, area_occupancy_estimator.h:217-222. -/
def sameSide (l1 l2 p1 p2 : Point K) : Bool :=
  let dx := l2.x - l1.x
  let dy := l2.y - l1.y
  decide (0 < (dy * p1.y - dx * p1.x + dy * p1.x - dx * p1.y) * (dy * p2.y - dx * p2.x + dy * p2.x - dx * p2.y))

/-- The corner chosen by the intersections' locations, area_occupancy_estimator.h:181-189. -/
def cornerOf (c : Bounds K) (l : List (Inter K)) : Point K :=
  l.foldl (fun p i =>
    match i.loc with
    | .bot => ⟨p.x, c.bot⟩
    | .top => ⟨p.x, c.top⟩
    | .left => ⟨c.left, p.y⟩
    | .right => ⟨c.right, p.y⟩) ⟨0, 0⟩

/-- Distance of an intersection from the corner along its edge. -/
def Inter.away (i : Inter K) (corner : Point K) : K :=
  if i.isHoriz then |i.pt.x - corner.x| else |i.pt.y - corner.y|

/-- `compute_chunk_area`, area_occupancy_estimator.h:162-216. -/
def chunkArea (beam : Seg K) (c : Bounds K) (isOcc : Bool) (l : List (Inter K)) : Option K :=
  match l with
  | [] => some (area c / 2)
  | [i, j] =>
    let triangle := i.isHoriz != j.isHoriz
    let corner : Point K := if triangle then cornerOf c l else ⟨c.left, c.bot⟩
    let a : K :=
      if triangle then 1 / 2 * i.away corner * j.away corner
      else 1 / 2 * (c.top - c.bot) * (i.away corner + j.away corner)
    if 0 ≤ a ∧ a ≤ area c then
      some (if isOcc && sameSide i.pt j.pt beam.beg corner then area c - a else a)
    else none
  | _ => none

/-- The private `estimate_occupancy`, area_occupancy_estimator.h:224-236. -/
def Est.byArea (E : Est K) (chunk total : K) (isOcc : Bool) : Occ K :=
  let rate := chunk / total
  if isOcc then ⟨max rate E.empty.prob, E.occ.qual⟩
  else
    let rate := if 1 / 2 < rate then 1 - rate else rate
    ⟨E.empty.prob, E.empty.qual * rate⟩

/-- The part of `estimate_occupancy` after the switch, area_occupancy_estimator.h:46-65. -/
def Est.byChunk (E : Est K) (C : Cmp K) (beam : Seg K) (c : Bounds K) (isOcc : Bool) : Option (Occ K) :=
  (chunkInters C beam c isOcc).bind fun l =>
    if l.length = 1 then
      if !isOcc then some ⟨E.empty.prob, E.unknownQual⟩
      else (segInters C c beam).bind fun raw =>
        match raw.length with
        | 0 => none
        | 1 => some (E.byArea (area c) (area c) true)
        | 2 => (chunkArea beam c false raw).map fun a => E.byArea a (area c) false
        | _ => (chunkArea beam c true l).map fun a => E.byArea a (area c) true
    else (chunkArea beam c isOcc l).map fun a => E.byArea a (area c) isOcc

/-- `estimate_occupancy`, area_occupancy_estimator.h:27-66, for a given value of the static shift. The inner `none` is
`Occupancy::invalid()`. -/
def Est.estimateWith (E : Est K) (C : Cmp K) (shift : K) (beam : Seg K) (c : Bounds K) (isOcc : Bool) :
    Option (Option (Occ K)) :=
  (notOnEdge C shift beam c).bind fun b =>
    (classify C b c).bind fun pos =>
      match pos with
      | .unrelated => some none
      | .touches => some none
      | .pierces => if isOcc then some none else (E.byChunk C b c isOcc).map some
      | .startsInside => if isOcc then some none else (E.byChunk C b c isOcc).map some
      | .liesInside => if isOcc then some none else some (some ⟨E.empty.prob, E.unknownQual⟩)
      | .stopsInside => (E.byChunk C b c isOcc).map some

/-- A call of `estimate_occupancy` in a program: `static` is the static `Shift_Amount` of
area_occupancy_estimator.h:71 (`none` before its initialisation). -/
def Est.call (E : Est K) (C : Cmp K) (static : Option K) (beam : Seg K) (c : Bounds K) (isOcc : Bool) :
    Option (Option (Occ K)) × Option K :=
  let shift := static.getD (E.lowQual * vside c)
  (E.estimateWith C shift beam c isOcc, some shift)

end Slam.Estimator
