import Verif.Grid.Model
import Mathlib.Data.Rat.Floor

/-!
# Model of `src/core/maps/plain_grid_map.h` and of the parts of `src/core/maps/grid_map.h` it uses

The cell type `C` and the effect of an observation on a cell (`upd`, i.e. `GridCell::operator+=`) are
parameters. Undefined behaviour and failed assertions are the outcome `none`. The prototype cell is a
value: mutation of the user-supplied prototype object after construction is not modelled.
-/

namespace Slam.PlainMap
open Slam.Grid

/-- `unsigned`-sized storage of a plain map: `_width`, `_height`, `origin()`, `_cells`,
`_cell_prototype` (= `_unknown_cell`); plain_grid_map.h:44,187-189, regular_squares_grid.h:151-153. -/
structure PMap (C : Type) where
  width : Nat
  height : Nat
  origin : Coord
  cells : List (List C)
  proto : C

variable {C O : Type}

/-- `PlainGridMap(prototype, params)`, plain_grid_map.h:16-25 with the default origin,
regular_squares_grid.h:120-122 (also `UnboundedPlainGridMap`'s, plain_grid_map.h:53-56).
Negative sizes (the vector constructor throws) are excluded by `Nat`. -/
def create (w h : Nat) (proto : C) : PMap C where
  width := w
  height := h
  origin := ⟨(w / 2 : Nat), (h / 2 : Nat)⟩
  cells := List.replicate h (List.replicate w proto)
  proto := proto

/-- `has_internal_cell`, regular_squares_grid.h:134-136. -/
def PMap.hasInternal (m : PMap C) (ic : Coord) : Bool :=
  (Dims.mk m.width m.height).hasInternalCell ic

/-- `_cells[i]`: indexing a vector with an `int`; out of range is undefined behaviour. -/
def idx {α : Type} (l : List α) (i : Int) : Option α := if 0 ≤ i then l[i.toNat]? else none

/-- `cell_internal`, plain_grid_map.h:40-42. -/
def PMap.cellInternal (m : PMap C) (ic : Coord) : Option C :=
  (idx m.cells ic.y).bind fun row => idx row ic.x

/-- Assignment to `_cells[ic.y][ic.x]`, plain_grid_map.h:35 and the target of `area += aoo`,
grid_map.h:41-46. -/
def PMap.setInternal (m : PMap C) (ic : Coord) (v : C) : Option (PMap C) :=
  (idx m.cells ic.y).bind fun row =>
    (idx row ic.x).map fun _ =>
      { m with cells := m.cells.set ic.y.toNat (row.set ic.x.toNat v) }

/-- `PlainGridMap::operator[]`, plain_grid_map.h:27-31 (failed assertion = `none`). -/
def PMap.readBounded (m : PMap C) (c : Coord) : Option C :=
  let ic := external2internal m.origin c
  if m.hasInternal ic then m.cellInternal ic else none

/-- `UnboundedPlainGridMap::operator[]`, plain_grid_map.h:69-73. -/
def PMap.readUnbounded (m : PMap C) (c : Coord) : Option C :=
  let ic := external2internal m.origin c
  if m.hasInternal ic then m.cellInternal ic else some m.proto

/-- `determine_cells_nm(0, val, max)`, plain_grid_map.h:175-185. -/
def determineCellsNm (val : Int) (max : Nat) : Nat × Nat :=
  if val < 0 then ((0 - val).toNat, 0)
  else if (max : Int) ≤ val then (0, (val - max + 1).toNat)
  else (0, 0)

/-- `UPDATE_DIM`, plain_grid_map.h:144-150. `rate d` is the value of the `double` product
`Expansion_Rate * d`; it is arbitrary (any rounding). The subtraction and addition of line 147 are exact in
binary64 for values below 2^53 (both operands are multiples of the ulp of `rate d` not exceeding it), and are
exact here; the conversion to `unsigned` truncates. Returns `(prep, new_dim)`; `app` is not used later. -/
def updateDim (rate : Nat → ℚ) (dim prep app : Nat) : Nat × Nat :=
  let newDim := prep + dim + app
  if dim < newDim ∧ (newDim : ℚ) < rate dim then
    let scale : Nat := prep / (newDim - dim)
    let prep' := ⌊(prep : ℚ) + (rate dim - newDim) * scale⌋.toNat
    (prep', ⌊rate dim⌋.toNat)
  else (prep, newDim)

/-- Sequencing of per-row results; one undefined row makes the whole thing undefined. -/
def allSome {α : Type} : List (Option α) → Option (List α)
  | [] => some []
  | none :: _ => none
  | some a :: l => (allSome l).map (a :: ·)

/-- `std::move(src.begin(), src.end(), &dst[off])`, plain_grid_map.h:162-163; writing past the end of `dst`
is undefined. -/
def blit {α : Type} (dst src : List α) (off : Nat) : Option (List α) :=
  if off + src.length ≤ dst.length then
    some (dst.take off ++ src ++ dst.drop (off + src.length))
  else none

/-- `UnboundedPlainGridMap::ensure_inside`, plain_grid_map.h:133-173 (the returned flag is unused by the
modelled callers). -/
def PMap.ensureInside (rate : Nat → ℚ) (m : PMap C) (c : Coord) : Option (PMap C) :=
  let coord := external2internal m.origin c
  if m.hasInternal coord then some m
  else
    let px := determineCellsNm coord.x m.width
    let py := determineCellsNm coord.y m.height
    let nx := updateDim rate m.width px.1 px.2
    let ny := updateDim rate m.height py.1 py.2
    let newRow := List.replicate nx.2 m.proto
    let rows := (List.range ny.2).map fun y =>
      if y < ny.1 ∨ ny.1 + m.height ≤ y then some newRow
      else (m.cells[y - ny.1]?).bind fun row => blit newRow row nx.1
    (allSome rows).bind fun newCells =>
      let m' : PMap C :=
        { m with width := nx.2, height := ny.2, cells := newCells,
                 origin := m.origin.add ⟨nx.1, ny.1⟩ }
      -- assert(PlainGridMap::has_cell(c)), line 171
      if m'.hasInternal (external2internal m'.origin c) then some m' else none

/-- Modifying operations of the map API. -/
inductive Op (C O : Type) where
  | update (c : Coord) (o : O)
  | reset (c : Coord) (v : C)

/-- The coordinate an operation is applied to. -/
def Op.coord : Op C O → Coord
  | .update c _ => c
  | .reset c _ => c

/-- `PlainGridMap::update` (= `GridMap::update`, grid_map.h:41-46) and `PlainGridMap::reset`,
plain_grid_map.h:33-36. `reset` does not check the coordinate. -/
def stepBounded (upd : C → O → C) (m : PMap C) : Op C O → Option (PMap C)
  | .update c o =>
    (m.readBounded c).bind fun v => m.setInternal (external2internal m.origin c) (upd v o)
  | .reset c v => m.setInternal (external2internal m.origin c) v

/-- `UnboundedPlainGridMap::update`/`reset`, plain_grid_map.h:58-67. (`GridMap::update` calls the virtual
`operator[]`, here `readUnbounded`; the reference it returns is inside the array after `ensure_inside`.) -/
def stepUnbounded (rate : Nat → ℚ) (upd : C → O → C) (m : PMap C) : Op C O → Option (PMap C)
  | .update c o =>
    (m.ensureInside rate c).bind fun m =>
      (m.readUnbounded c).bind fun v => m.setInternal (external2internal m.origin c) (upd v o)
  | .reset c v =>
    (m.ensureInside rate c).bind fun m => m.setInternal (external2internal m.origin c) v

/-- A history of operations on the bounded map. -/
def runBounded (upd : C → O → C) (m : PMap C) : List (Op C O) → Option (PMap C)
  | [] => some m
  | op :: ops => (stepBounded upd m op).bind fun m => runBounded upd m ops

/-- A history of operations on the unbounded map. -/
def runUnbounded (rate : Nat → ℚ) (upd : C → O → C) (m : PMap C) : List (Op C O) → Option (PMap C)
  | [] => some m
  | op :: ops => (stepUnbounded rate upd m op).bind fun m => runUnbounded rate upd m ops

end Slam.PlainMap
