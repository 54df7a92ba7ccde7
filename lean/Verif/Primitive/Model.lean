import Mathlib.Algebra.Order.Floor.Ring
import Mathlib.Data.Rat.Floor
import Verif.Grid.Model

/-!
# Model of generated maps

`CecumTextRasterMapPrimitive` (src/utils/data_generation/map_primitives.h) and `GridMapPatcher`
(src/utils/data_generation/grid_map_patcher.h).
-/

set_option autoImplicit false
set_option linter.unusedSectionVars false

namespace Slam.Primitive

open Slam.Grid

/-- `BoundPosition`, map_primitives.h:66. -/
inductive Side where
  | left | right | top | bot
  deriving DecidableEq

/-- `generate_horizontally_bounded_cecum`, map_primitives.h:104-124. -/
def horizontal (side : Side) (w h : Nat) : List Char :=
  (List.range h).flatMap fun (row : Nat) =>
    if (row = 0 ∧ side = .top) ∨ (row = h - 1 ∧ side = .bot) then List.replicate w '+' ++ ['\n']
    else '+' :: (List.range' 1 (w - 1)).map (fun (col : Nat) => if col = w - 1 then '+' else ' ') ++ ['\n']

/-- `generate_vertically_bounded_cecum`, map_primitives.h:126-148. -/
def vertical (side : Side) (w h : Nat) : List Char :=
  List.replicate w '+' ++ ['\n'] ++
    ((List.range' 1 (h - 1)).flatMap fun (row : Nat) =>
      if row = h - 1 then List.replicate w '+'
      else
        (List.range w).map (fun (col : Nat) =>
          if w = 1 ∨ (col = 0 ∧ side = .left) ∨ (col = w - 1 ∧ side = .right) then '+' else ' ') ++ ['\n']) ++
    ['\n']

/-- Constructor of the primitive, map_primitives.h:70-82; `none`: the assertion on the size. -/
def cecum (side : Side) (w h : Nat) : Option (List Char) :=
  if 0 < w ∧ 0 < h then
    some (if side = .top ∨ side = .bot then horizontal side w h else vertical side w h)
  else none

/-- `free_space`, map_primitives.h:86-102; the sides in the order of `Rectangle`'s constructor: bottom, top, left,
right. -/
def freeSpace (side : Side) (w h : Nat) : Bounds Int :=
  if h ≤ 2 ∨ w ≤ 2 then ⟨0, 0, 0, 0⟩
  else
    match side with
    | .top => ⟨-(h : Int) + 1, 0, 1, (w : Int) - 1⟩
    | .bot => ⟨-(h : Int) + 2, 1, 1, (w : Int) - 1⟩
    | .left => ⟨-(h : Int) + 2, 0, 1, (w : Int)⟩
    | .right => ⟨-(h : Int) + 2, 0, 0, (w : Int) - 1⟩

/-! ## Patcher -/

/-- Rows read by `getline` while the stream is good, until an empty one, grid_map_patcher.h:62-66: `cur` is the
row read so far, in reverse. -/
def rowsFrom (cur : List Char) : List Char → List (List Char)
  | [] => if cur = [] then [] else [cur.reverse]
  | c :: cs =>
    if c = '\n' then (if cur = [] then [] else cur.reverse :: rowsFrom [] cs) else rowsFrom (c :: cur) cs

/-- `GridMapPatch`: a cell and whether its occupancy is 1 (else 0), grid_map_patcher.h:14-20. -/
abbrev Patch := Coord × Bool

/-- `char_to_occupancy`, grid_map_patcher.h:41-43; the estimation quality is always 1. -/
def charOcc (ch : Char) : Bool := if ch = ' ' then false else true

/-- The loops over the characters and `w_scale`, grid_map_patcher.h:70-76, from the column `x` of the map. -/
def patchCols (wScale : Nat) (y : Int) : Int → List Char → List Patch
  | _, [] => []
  | x, ch :: cs =>
    (List.range wScale).map (fun (i : Nat) => ((⟨x + (i : Int), y⟩ : Coord), charOcc ch)) ++
      patchCols wScale y (x + wScale) cs

/-- The loops over the rows and `h_scale`, grid_map_patcher.h:62-82, from the row `y` of the map. -/
def patchRows (wScale hScale : Nat) : Int → List (List Char) → List Patch
  | _, [] => []
  | y, r :: rs =>
    (List.range hScale).flatMap (fun (i : Nat) => patchCols wScale (y - (i : Int)) 0 r) ++
      patchRows wScale hScale (y - hScale) rs

/-- `_curr_raster_w` after the rows, grid_map_patcher.h:79-81. -/
def rasterWidth (rows : List (List Char)) : Nat := rows.foldl (fun w r => max w r.length) 0

/-- Offset of the raster: the given one or the automatic alignment, grid_map_patcher.h:53-55 (`-w_zoom * w / 2` is
`((-w_zoom) * w) / 2`, towards zero). -/
def offsetOf (given : Option Coord) (wZoom hZoom : Nat) (rows : List (List Char)) : Coord :=
  match given with
  | some o => o
  | none => ⟨(-(wZoom : Int) * (rasterWidth rows : Int)).tdiv 2, ((hZoom : Int) * (rows.length : Int)).tdiv 2⟩

/-- `apply_patches`, grid_map_patcher.h:87-97: `upd` is the update of one cell with an observation of occupancy 1 or
0. The map is its cells by coordinate, all of them present (a map that grows, or a large enough one). -/
def applyPatches {C : Type*} (upd : C → Bool → C) (offset : Coord) (patches : List Patch) (cells : Coord → C) :
    Coord → C :=
  patches.foldl (fun cells p => fun c => if c = p.1.add offset then upd (cells c) p.2 else cells c) cells

/-- `apply_text_raster`, grid_map_patcher.h:46-57. -/
def applyTextRaster {C : Type*} (upd : C → Bool → C) (given : Option Coord) (wZoom hZoom : Nat) (text : List Char)
    (cells : Coord → C) : Option (Coord → C) :=
  if 0 < wZoom ∧ 0 < hZoom then
    let rows := rowsFrom [] text
    some (applyPatches upd (offsetOf given wZoom hZoom rows) (patchRows wZoom hZoom 0 rows) cells)
  else none

end Slam.Primitive
