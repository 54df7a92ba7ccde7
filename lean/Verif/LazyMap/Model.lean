import Verif.PlainMap.Model

/-!
# Model of `src/core/maps/lazy_tiled_grid_map.h`

Shared ownership is modelled by a heap of cells and of tiles identified by numbers; several map objects can
be alive at the same time and share tiles and cells. `use_count()` of a tile/cell is the number of
`shared_ptr`s owning it: entries of the `_tiles` vectors and `_unknown_tile` members of the live maps for a
tile; entries of the live tiles and `_unknown_cell` members of the live maps for a cell. (Temporaries inside
one operation are not counted; operations are not concurrent.) The tile size `S` is a parameter
(`Tile_Size = 128`, lines 20-22). Undefined behaviour is `none`.
-/

namespace Slam.LazyMap
open Slam.Grid Slam.PlainMap

/-- Fields of `LazyTiledGridMap` / `UnboundedLazyTiledGridMap`: sizes (regular_squares_grid.h:151-153),
lazy_tiled_grid_map.h:112-117,186. `unbounded` tells which of the two classes the object is. -/
structure LMap where
  unbounded : Bool
  width : Nat
  height : Nat
  tx : Nat
  ty : Nat
  origin : Coord
  tiles : List Nat
  unkCell : Nat
  unkTile : Nat

/-- The heap and the map objects (a destroyed object is `none`). -/
structure St (C : Type) where
  cells : List C
  tiles : List (List Nat)
  maps : List (Option LMap)

variable {C O : Type}

/-- `shared_ptr<Tile>`s held by a map object: `_unknown_tile` and `_tiles`, lines 114,117. -/
def tileRefs : Option LMap → List Nat
  | none => []
  | some m => m.unkTile :: m.tiles

/-- `shared_ptr<GridCell>`s held directly by a map object: `_unknown_cell`, line 113. -/
def unkRefs : Option LMap → List Nat
  | none => []
  | some m => [m.unkCell]

/-- `tile.use_count()`, line 63. -/
def tileUse (st : St C) (t : Nat) : Nat := (st.maps.flatMap tileRefs).count t

/-- `cell.use_count()`, line 68. Only tiles that are themselves owned are alive. -/
def cellUse (st : St C) (c : Nat) : Nat :=
  (st.maps.flatMap unkRefs).count c +
  ((List.range st.tiles.length).flatMap fun t =>
    if 0 < tileUse st t then (st.tiles[t]?).getD [] else []).count c

/-- Constructors, lines 26-33 and 123-126 (origin: regular_squares_grid.h:120-122). -/
def createMap (S : Nat) (unb : Bool) (w h : Nat) (proto : C) (st : St C) : St C where
  cells := st.cells ++ [proto]
  tiles := st.tiles ++ [List.replicate (S * S) st.cells.length]
  maps := st.maps ++ [some
    { unbounded := unb, width := w, height := h
      tx := (w + S - 1) / S, ty := (h + S - 1) / S
      origin := ⟨(w / 2 : Nat), (h / 2 : Nat)⟩
      tiles := List.replicate ((w + S - 1) / S * ((h + S - 1) / S)) st.tiles.length
      unkCell := st.cells.length, unkTile := st.tiles.length }]

/-- The implicitly defined copy constructor: copies every `shared_ptr`. -/
def copyMap (st : St C) (m : LMap) : St C := { st with maps := st.maps ++ [some m] }

/-- The implicitly defined destructor: drops every `shared_ptr`. -/
def destroyMap (st : St C) (i : Nat) : St C := { st with maps := st.maps.set i none }

/-- Index computation of `tile(c)`, lines 107-110: `>> Tile_Size_Bits` is the floor division by `S`.
A negative result (wrapped to a huge unsigned in C++) is out of range. -/
def tileIdx (S : Nat) (m : LMap) (ic : Coord) : Int := ic.y / S * m.tx + ic.x / S

/-- Index computation of `Tile::cell`, lines 98-101: `& Tile_Coord_Mask` is the remainder mod `S`. -/
def cellIdx (S : Nat) (ic : Coord) : Int := ic.x % S * S + ic.y % S

/-- `cell_internal`, lines 52-54: value of the cell at an internal coordinate. -/
def cellInternal (S : Nat) (st : St C) (m : LMap) (ic : Coord) : Option C :=
  (idx m.tiles (tileIdx S m ic)).bind fun t =>
    (st.tiles[t]?).bind fun es =>
      (idx es (cellIdx S ic)).bind fun c => st.cells[c]?

/-- `has_internal_cell`, regular_squares_grid.h:134-136. -/
def LMap.hasInternal (m : LMap) (ic : Coord) : Bool := (Dims.mk m.width m.height).hasInternalCell ic

/-- `operator[]` of both classes, lines 48-50 and 139-147. -/
def readMap (S : Nat) (st : St C) (m : LMap) (c : Coord) : Option C :=
  let ic := external2internal m.origin c
  if m.unbounded then
    if m.hasInternal ic then cellInternal S st m ic else st.cells[m.unkCell]?
  else cellInternal S st m ic

/-- First half of `ensure_sole_owning`, lines 57-65: make the slot the sole owner of its tile.
(`if (!tile)`, lines 60-62: the slots are never null, see the constructor and `ensure_inside`.)
`i` is the object the method is called on, `m` its current value. -/
def soleTile (S : Nat) (st : St C) (i : Nat) (m : LMap) (ic : Coord) : Option (St C × LMap) :=
  (idx m.tiles (tileIdx S m ic)).bind fun t =>
    if 1 < tileUse st t then
      (st.tiles[t]?).map fun es =>
        let m' := { m with tiles := m.tiles.set (tileIdx S m ic).toNat st.tiles.length }
        ({ st with tiles := st.tiles ++ [es], maps := st.maps.set i (some m') }, m')
    else some (st, m)

/-- Second half of `ensure_sole_owning`, lines 67-70: make the tile entry the sole owner of its cell. -/
def soleCell (S : Nat) (st : St C) (m : LMap) (ic : Coord) : Option (St C) :=
  (idx m.tiles (tileIdx S m ic)).bind fun t =>
    (st.tiles[t]?).bind fun es =>
      (idx es (cellIdx S ic)).bind fun c =>
        if 1 < cellUse st c then
          (st.cells[c]?).map fun v =>
            { st with cells := st.cells ++ [v]
                      tiles := st.tiles.set t (es.set (cellIdx S ic).toNat st.cells.length) }
        else some st

/-- `ensure_sole_owning`, lines 57-71. -/
def ensureSole (S : Nat) (st : St C) (i : Nat) (m : LMap) (ic : Coord) : Option (St C × LMap) :=
  (soleTile S st i m ic).bind fun r =>
    (soleCell S r.1 r.2 ic).map fun st2 => (st2, r.2)

/-- In-place modification of the cell object at `ic` (`area += aoo`, grid_map.h:41-46). -/
def modifyCell (S : Nat) (st : St C) (m : LMap) (ic : Coord) (g : C → C) : Option (St C) :=
  (idx m.tiles (tileIdx S m ic)).bind fun t =>
    (st.tiles[t]?).bind fun es =>
      (idx es (cellIdx S ic)).bind fun c =>
        (st.cells[c]?).map fun v => { st with cells := st.cells.set c (g v) }

/-- `tile(ic)->cell(ic).reset(new_area.clone().release())`, line 45: the entry gets a new cell object. -/
def replaceCell (S : Nat) (st : St C) (m : LMap) (ic : Coord) (v : C) : Option (St C) :=
  (idx m.tiles (tileIdx S m ic)).bind fun t =>
    (st.tiles[t]?).bind fun es =>
      (idx es (cellIdx S ic)).map fun _ =>
        { st with cells := st.cells ++ [v]
                  tiles := st.tiles.set t (es.set (cellIdx S ic).toNat st.cells.length) }

/-- `extra_tiles_nm(0, val, max)`, lines 76-86. -/
def extraTiles (S : Nat) (val : Int) (max : Nat) : Nat × Nat :=
  if val < 0 then (1 + ((0 - val) / S).toNat, 0)
  else if (max : Int) ≤ val then (0, 1 + ((val - max) / S).toNat)
  else (0, 0)

/-- The row-moving loop of `ensure_inside`, lines 166-170: after `n` iterations. -/
def moveRows (tiles : List Nat) (tx ntx prepX prepY : Nat) : Nat → List Nat → Option (List Nat)
  | 0, dst => some dst
  | r + 1, dst => (moveRows tiles tx ntx prepX prepY r dst).bind fun d =>
      blit d ((tiles.drop (r * tx)).take tx) ((prepY + r) * ntx + prepX)

/-- `UnboundedLazyTiledGridMap::ensure_inside`, lines 154-183. -/
def growMap (S : Nat) (m : LMap) (c : Coord) : Option LMap :=
  let coord := external2internal m.origin c
  if m.hasInternal coord then some m
  else
    let ex := extraTiles S coord.x m.width
    let ey := extraTiles S coord.y m.height
    let ntx := ex.1 + m.tx + ex.2
    let nty := ey.1 + m.ty + ey.2
    (moveRows m.tiles m.tx ntx ex.1 ey.1 m.ty (List.replicate (ntx * nty) m.unkTile)).bind fun nt =>
      let m' := { m with tx := ntx, ty := nty, tiles := nt, height := nty * S, width := ntx * S
                         origin := m.origin.add ⟨(ex.1 * S : Nat), (ey.1 * S : Nat)⟩ }
      -- assert(LazyTiledGridMap::has_cell(c)), line 181
      if m'.hasInternal (external2internal m'.origin c) then some m' else none

/-- `ensure_inside` as called by `update`/`reset` of the unbounded class only, lines 128-137. -/
def ensureInside (S : Nat) (st : St C) (i : Nat) (m : LMap) (c : Coord) : Option (St C × LMap) :=
  if m.unbounded then
    (growMap S m c).map fun m' => ({ st with maps := st.maps.set i (some m') }, m')
  else some (st, m)

/-- Operations on a family of map objects. -/
inductive LOp (C O : Type) where
  | create (unb : Bool) (w h : Nat) (proto : C)
  | copy (i : Nat)
  | destroy (i : Nat)
  | update (i : Nat) (c : Coord) (o : O)
  | reset (i : Nat) (c : Coord) (v : C)

/-- `update` lines 35-39,128-132; `reset` lines 41-46,134-137. Using a dead or missing object is undefined. -/
def stepL (S : Nat) (upd : C → O → C) (st : St C) : LOp C O → Option (St C)
  | .create unb w h p => some (createMap S unb w h p st)
  | .copy i => ((st.maps[i]?).getD none).map fun m => copyMap st m
  | .destroy i => ((st.maps[i]?).getD none).map fun _ => destroyMap st i
  | .update i c o => ((st.maps[i]?).getD none).bind fun m =>
      (ensureInside S st i m c).bind fun r =>
        (ensureSole S r.1 i r.2 (external2internal r.2.origin c)).bind fun q =>
          modifyCell S q.1 q.2 (external2internal q.2.origin c) (fun v => upd v o)
  | .reset i c v => ((st.maps[i]?).getD none).bind fun m =>
      (ensureInside S st i m c).bind fun r =>
        (ensureSole S r.1 i r.2 (external2internal r.2.origin c)).bind fun q =>
          replaceCell S q.1 q.2 (external2internal q.2.origin c) v

/-- A history. -/
def runL (S : Nat) (upd : C → O → C) (st : St C) : List (LOp C O) → Option (St C)
  | [] => some st
  | op :: ops => (stepL S upd st op).bind fun st => runL S upd st ops

/-- No objects. -/
def emptySt : St C := ⟨[], [], []⟩

/-- Reading through the API: `map_i[c]`. -/
def readL (S : Nat) (st : St C) (i : Nat) (c : Coord) : Option C :=
  ((st.maps[i]?).getD none).bind fun m => readMap S st m c

end Slam.LazyMap
