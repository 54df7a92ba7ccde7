import Verif.Grid.Model
import Mathlib.Algebra.Order.Field.Basic

/-!
# Model of the levels of `src/core/maps/rescalable_caching_grid_map.h`

What the levels store is modelled in `Verif.Multires.Bound`; here a level is its size and its scale. Scales are exact;
an infinite scale is `none`. Sizes do not overflow.
-/

set_option autoImplicit false

namespace Slam.Multires
open Slam.Grid

/-- A level: width, height and scale of a backing map. -/
structure Level (K : Type*) where
  w : Nat
  h : Nat
  scale : Option K
  deriving DecidableEq

/-- `RescalableCachingGridMap`, rescalable_caching_grid_map.h:196-199: the levels, the stored `_scale_id`, and the
position of the map `_active_map` points to. -/
structure RMap (K : Type*) where
  levels : List (Level K)
  scaleId : Nat
  active : Nat

/-- The loop of `ge_pow<2>`, math_utils.h:61-68, with a bound on the iterations that `i` always meets. -/
def gePowLoop : Nat → Nat → Nat → Nat
  | 0, p, _ => p
  | fuel + 1, p, i => if p < i then gePowLoop fuel (p * 2) i else p

/-- `ge_pow<2>`, math_utils.h:61-68. -/
def gePow (i : Nat) : Nat := gePowLoop i 1 i

section
variable {K : Type*} [Field K] [LinearOrder K] [IsStrictOrderedRing K]

/-- The loop adding levels, rescalable_caching_grid_map.h:184-193. (`pc_w / Map_Scale_Factor` is an integer division.) -/
def newLevels (w h : Nat) (scale : K) : List (Level K) :=
  if 2 < w ∨ 2 < h then
    ⟨max 2 (w / 2), max 2 (h / 2), some (scale * 2)⟩ :: newLevels (max 2 (w / 2)) (max 2 (h / 2)) (scale * 2)
  else []
termination_by max w h
decreasing_by omega

/-- `_map_cache->insert((_map_cache->rbegin() + 1).base(), …)`, line 192: before the last level. -/
def insertBeforeLast (ls new : List (Level K)) : List (Level K) := ls.dropLast ++ new ++ ls.drop (ls.length - 1)

/-- `ensure_map_cache_is_continuous`, rescalable_caching_grid_map.h:171-194. `_active_map` is a pointer, so it keeps
designating the coarsest map if it did. -/
def RMap.ensure (m : RMap K) : RMap K :=
  if m.levels.length < 2 then m
  else
    match m.levels[m.levels.length - 2]? with
    | some ⟨w, h, some s⟩ =>
      if w ≤ 2 ∧ h ≤ 2 then m
      else
        let new := newLevels (gePow w) (gePow h) s
        ⟨insertBeforeLast m.levels new, m.scaleId,
         if m.active + 1 = m.levels.length then m.active + new.length else m.active⟩
    | _ => m

/-- `set_scale_id`, rescalable_caching_grid_map.h:62-66; `none` is a failed assertion. -/
def RMap.setScaleId (m : RMap K) (id : Nat) : Option (RMap K) :=
  let m := m.ensure
  if id < m.levels.length then some ⟨m.levels, id, id⟩ else none

/-- `target_scale <= scale`, line 84, with infinities. -/
def leScale (a b : Option K) : Bool :=
  match a, b with
  | _, none => true
  | none, some _ => false
  | some a, some b => decide (a ≤ b)

/-- The loop of `rescale`, lines 82-89, from level `i` on; `none` is running off the end of the levels. -/
def probe (target : Option K) : Nat → List (Level K) → Option Nat
  | _, [] => none
  | i, l :: ls => if leScale target l.scale then some i else probe target (i + 1) ls

/-- `rescale`, rescalable_caching_grid_map.h:79-91. -/
def RMap.rescale (m : RMap K) (target : Option K) : Option (RMap K) :=
  let m := m.ensure
  (probe target 0 m.levels).bind fun id => m.setScaleId id

/-- The constructor, rescalable_caching_grid_map.h:27-42. -/
def RMap.create (w h : Nat) (scale : K) : Option (RMap K) :=
  (RMap.ensure ⟨[⟨w, h, some scale⟩, ⟨1, 1, none⟩], 0, 0⟩).setScaleId 0

/-- The scale of the active level, line 74. -/
def RMap.scale (m : RMap K) : Option (Option K) := (m.levels[m.active]?).map (·.scale)

/-- What happens to the levels. -/
inductive ROp (K : Type*) where
  /-- `set_scale_id` -/
  | setScaleId (id : Nat)
  /-- `rescale` -/
  | rescale (target : Option K)
  /-- `scales_nm()`, `coarsest_scale_id()`: make the cache continuous, lines 50-53 -/
  | touch
  /-- an update or reset makes level `i` grow to at least its size (only unbounded backing maps do) -/
  | grow (i w h : Nat)

/-- One operation. -/
def RMap.step (m : RMap K) : ROp K → Option (RMap K)
  | .setScaleId id => m.setScaleId id
  | .rescale t => m.rescale t
  | .touch => some m.ensure
  | .grow i w h => some ⟨m.levels.modify i fun l => ⟨max l.w w, max l.h h, l.scale⟩, m.scaleId, m.active⟩

/-- A history. -/
def RMap.run (m : RMap K) : List (ROp K) → Option (RMap K)
  | [] => some m
  | op :: ops => (m.step op).bind fun m => m.run ops

end

end Slam.Multires
