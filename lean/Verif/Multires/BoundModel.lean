import Verif.Rect.Model

/-!
# Model of the contents of a multi-resolution map

`M3RSMRescalableGridMap`, src/core/scan_matchers/m3rsm_engine.h:17-131, over
src/core/maps/rescalable_caching_grid_map.h:96-112. A backing map is a total function from coordinates to cells (that
is what C08 and C10 prove about the unbounded maps). The finest level is active, as `post_area_update` asserts
(m3rsm_engine.h:92).
-/

set_option autoImplicit false

namespace Slam.Multires
open Slam.Grid Slam.Rect

/-- How cells are observed and judged: `GridCell::operator+=`, `GridCell::is_unknown`, the impact of an obstacle
observation (`ObservationImpactEstimator::estimate_obstacle_impact`, grid_scan_matcher.h:40-42), and the prototype. -/
structure CellApi (K C O : Type*) where
  upd : C → O → C
  unknown : C → Bool
  impact : C → K
  proto : C

/-- A level: its scale (`none` = infinite) and its cells. -/
structure MLevel (K C : Type*) where
  scale : Option K
  cells : Coord → C

/-- `GridMap::reset` of a backing map. -/
def MLevel.set {K C : Type*} (l : MLevel K C) (c : Coord) (v : C) : MLevel K C :=
  ⟨l.scale, fun d => if d = c then v else l.cells d⟩

section
variable {K C O : Type*} [Field K] [LinearOrder K] [IsStrictOrderedRing K] [FloorRing K]

/-- Body of the inner loop of `update_coarser_maps`, m3rsm_engine.h:112-124: the level and
`coarser_area_is_updated`. -/
def visit (api : CellApi K C O) (v : C) (st : MLevel K C × Bool) (coord : Coord) : MLevel K C × Bool :=
  let area := st.1.cells coord
  if (!api.unknown area && lessOrEqual (api.impact v) (api.impact area)) = true then st
  else (st.1.set coord v, true)

/-- One level in `update_coarser_maps`, m3rsm_engine.h:107-124: the cells of the level met by the modified space,
without its border. `none`: rasterisation needs more than `fuel` iterations. -/
def processLevel (api : CellApi K C O) (fuel : Nat) (v : C) (space : Bounds K) (l : MLevel K C) :
    Option (MLevel K C × Bool) :=
  ((RState.create ⟨⟨0, 0⟩, ⟨0, 0⟩, l.scale⟩ (.finite space) false).toVector fuel).map fun cs =>
    cs.foldl (visit api v) (l, false)

/-- The loop of `update_coarser_maps` over the coarser levels, m3rsm_engine.h:105-126. -/
def propagate (api : CellApi K C O) (fuel : Nat) (v : C) (space : Bounds K) :
    List (MLevel K C) → Option (List (MLevel K C))
  | [] => some []
  | l :: ls => (processLevel api fuel v space l).bind fun r =>
      if r.2 then (propagate api fuel v space ls).map (r.1 :: ·) else some (r.1 :: ls)

/-- The map: the finest level and the coarser ones. -/
structure MMap (K C : Type*) where
  fine : MLevel K C
  coarse : List (MLevel K C)

/-- `n` new levels of unknown cells after a level of scale `s`, rescalable_caching_grid_map.h:184-193. -/
def freshLevels (api : CellApi K C O) (s : Option K) : Nat → List (MLevel K C)
  | 0 => []
  | n + 1 => ⟨s.map (· * 2), fun _ => api.proto⟩ :: freshLevels api (s.map (· * 2)) n

/-- Levels are inserted before the coarsest one, rescalable_caching_grid_map.h:192. The scale they continue is that of
the level below. -/
def MMap.addLevels (api : CellApi K C O) (m : MMap K C) (n : Nat) : MMap K C :=
  let pre := (m.fine :: m.coarse).dropLast
  let s := (pre.getLast?).bind (·.scale)
  ⟨m.fine, m.coarse.dropLast ++ freshLevels api s n ++ m.coarse.drop (m.coarse.length - 1)⟩

/-- Writing operations of the map API; `grow` is the number of levels that have to be added because of the growth the
operation causes. -/
inductive MOp (C O : Type*) where
  | update (c : Coord) (o : O) (grow : Nat)
  | reset (c : Coord) (v : C) (grow : Nat)

/-- The coordinate, the new value of its cell, and the number of added levels. -/
def MOp.effect (api : CellApi K C O) (m : MMap K C) : MOp C O → Coord × C × Nat
  | .update c o g => (c, api.upd (m.fine.cells c) o, g)
  | .reset c v g => (c, v, g)

/-- `update`/`reset`, rescalable_caching_grid_map.h:100-112, with `post_area_update`, m3rsm_engine.h:89-99, for a fine
level of finite scale `s`. In the code levels are added while the loop runs, immediately before it would reach the
coarsest level; adding them before the loop starts is the same whenever the loop gets there, and happens in no
execution of the code otherwise. -/
def MMap.step (api : CellApi K C O) (fuel : Nat) (s : K) (m : MMap K C) (op : MOp C O) : Option (MMap K C) :=
  let e := op.effect api m
  let m1 := MMap.addLevels api ⟨m.fine.set e.1 e.2.1, m.coarse⟩ e.2.2
  (propagate api fuel e.2.1 (worldCellBounds s e.1) m1.coarse).map fun ls => ⟨m1.fine, ls⟩

/-- A history of operations. -/
def MMap.run (api : CellApi K C O) (fuel : Nat) (s : K) (m : MMap K C) : List (MOp C O) → Option (MMap K C)
  | [] => some m
  | op :: ops => (m.step api fuel s op).bind fun m => m.run api fuel s ops

/-- A new map of scale `s` with `n` finite levels in all and the coarsest one,
rescalable_caching_grid_map.h:27-42. -/
def MMap.create (api : CellApi K C O) (s : K) (n : Nat) : MMap K C :=
  ⟨⟨some s, fun _ => api.proto⟩, freshLevels api (some s) (n - 1) ++ [⟨none, fun _ => api.proto⟩]⟩

end

end Slam.Multires
