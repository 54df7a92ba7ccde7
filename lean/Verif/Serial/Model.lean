import Verif.PlainMap.Model
import Verif.Cells.Model
import Verif.Tbm.Model

/-!
# Model of `src/core/serialization.h`, of the cells' `serialize`/`deserialize` and of map states

Memory is little endian (the code writes the object representation through `reinterpret_cast`, lines 31 and
82); `bool` is one byte, `int` four, `double` and `size_t` eight. A `double` is its 64-bit pattern.
Reading past the end of the buffer, or a byte other than 0/1 as a `bool`, is undefined: `none`.
`COMPRESSED_SERIALIZATION` (LZ4) is not modelled.
-/

set_option autoImplicit false

namespace Slam.Serial
open Slam.Grid Slam.PlainMap Slam.Cells Slam.Tbm

/-- `char` buffers. -/
abbrev Bytes := List (BitVec 8)

/-- The types the project passes to `operator<<`/`operator>>`. -/
inductive Ty where
  | bool | i32 | w64
  deriving DecidableEq

/-- Values of these types. -/
inductive Val where
  | bool (b : Bool)
  | i32 (v : BitVec 32)
  | w64 (v : BitVec 64)
  deriving DecidableEq

/-- The type of a value. -/
def Val.ty : Val → Ty
  | .bool _ => .bool
  | .i32 _ => .i32
  | .w64 _ => .w64

/-- `sizeof(Type)`. -/
def Ty.size : Ty → Nat
  | .bool => 1
  | .i32 => 4
  | .w64 => 8

/-- The `n` low bytes of `v`, lowest first. -/
def bytesLE : Nat → Nat → Bytes
  | 0, _ => []
  | n + 1, v => BitVec.ofNat 8 v :: bytesLE n (v / 256)

/-- The number stored in bytes, lowest first. -/
def natLE : Bytes → Nat
  | [] => 0
  | b :: bs => b.toNat + 256 * natLE bs

/-- Object representation of a value. -/
def Val.repr : Val → Bytes
  | .bool b => bytesLE 1 (if b then 1 else 0)
  | .i32 v => bytesLE 4 v.toNat
  | .w64 v => bytesLE 8 v.toNat

/-- `Serializer::add_value`, serialization.h:28-33. -/
def addValue (s : Bytes) (v : Val) : Bytes := s ++ v.repr

/-- `Serializer::append`, serialization.h:35-38. -/
def append (s d : Bytes) : Bytes := s ++ d

/-- `Deserializer::read_value`, serialization.h:81-86: the value and the new `ptr`. -/
def readValue (t : Ty) (data : Bytes) (ptr : Nat) : Option (Val × Nat) :=
  if ptr + t.size ≤ data.length then
    let n := natLE ((data.drop ptr).take t.size)
    match t with
    | .bool => if n = 0 then some (.bool false, ptr + 1) else if n = 1 then some (.bool true, ptr + 1) else none
    | .i32 => some (.i32 (BitVec.ofNat 32 n), ptr + 4)
    | .w64 => some (.w64 (BitVec.ofNat 64 n), ptr + 8)
  else none

/-- A chain `s << v1 << v2 …`. -/
def addAll (s : Bytes) (vs : List Val) : Bytes := vs.foldl addValue s

/-- A chain `d >> v1 >> v2 …`. -/
def readAll : List Ty → Bytes → Nat → Option (List Val × Nat)
  | [], _, p => some ([], p)
  | t :: ts, data, p =>
    (readValue t data p).bind fun (v, p) => (readAll ts data p).map fun (vs, p) => (v :: vs, p)

/-! ## Cells -/

/-- `serialize` and `deserialize` of a cell type; the receiver of `deserialize` is its first argument. -/
structure Codec (C : Type) where
  ser : C → Bytes
  des : C → Bytes → Nat → Option (C × Nat)

/-- `GridCell::serialize`, grid_cell.h:37-41. -/
def baseSer (o : Occ (BitVec 64)) (unknown : Bool) : Bytes :=
  addAll [] [.w64 o.prob, .w64 o.qual, .bool unknown]

/-- `GridCell::deserialize`, grid_cell.h:43-47. -/
def baseDes (data : Bytes) (pos : Nat) : Option ((Occ (BitVec 64) × Bool) × Nat) :=
  match readAll [.w64, .w64, .bool] data pos with
  | some ([.w64 p, .w64 q, .bool u], pos) => some ((⟨p, q⟩, u), pos)
  | _ => none

/-- `GridCell` and `AffineQualityMergeCell` (which inherits both functions, naive_grid_cells.h:6-21). -/
def affineCodec : Codec (AffineCell (BitVec 64)) where
  ser c := baseSer c.occ c.unknown
  des _ data pos := (baseDes data pos).map fun ((o, u), pos) => (⟨o, u⟩, pos)

/-- `MeanProbabilityCell` inherits both functions: `_n` is not stored, naive_grid_cells.h:25-45. -/
def meanCodec : Codec (MeanCell (BitVec 64)) where
  ser c := baseSer c.occ c.unknown
  des recv data pos := (baseDes data pos).map fun ((o, u), pos) => ({ recv with occ := o, unknown := u }, pos)

/-- `GmappingBaseCell` inherits both functions: counters and obstacle are not stored,
gmapping_grid_cell.h:9-43. -/
def gmCodec : Codec (GmCell (BitVec 64)) where
  ser c := baseSer c.occ c.unknown
  des recv data pos := (baseDes data pos).map fun ((o, u), pos) => ({ recv with occ := o, unknown := u }, pos)

/-- A belief cell whose doubles are bit patterns (so an invalid occupancy is a NaN pattern). -/
structure RawT (W : Type) where
  occ : Occ W
  unknown : Bool
  belief : TBM W

/-- `TbmBaseCell::serialize`/`deserialize`, tbm_grid_cells.h:37-51; `CredibilistCell`'s,
credibilist/grid_cell.h:42-56 (`TBM(u,e,o,c)` stores its arguments, transferable_belief_model.h:79-84). -/
def tbmCodec : Codec (RawT (BitVec 64)) where
  ser c := addAll (baseSer c.occ c.unknown)
    [.w64 c.belief.unknown, .w64 c.belief.empty, .w64 c.belief.occupied, .w64 c.belief.conflict]
  des _ data pos :=
    (baseDes data pos).bind fun ((oc, un), pos) =>
      match readAll [.w64, .w64, .w64, .w64] data pos with
      | some ([.w64 u, .w64 e, .w64 o, .w64 c], pos) => some (⟨oc, un, ⟨u, e, o, c⟩⟩, pos)
      | _ => none

/-! ## Maps -/

/-- An `UnboundedPlainGridMap` with its scale. -/
structure SMap (C : Type) where
  map : PMap C
  scale : BitVec 64

variable {C : Type}

/-- `UnboundedPlainGridMap::save_state`, plain_grid_map.h:79-98 (`int` sizes and coordinates). -/
def save (k : Codec C) (m : SMap C) : Bytes :=
  let s := addAll []
    [.i32 (BitVec.ofInt 32 m.map.height), .i32 (BitVec.ofInt 32 m.map.width), .w64 m.scale,
     .i32 (BitVec.ofInt 32 m.map.origin.x), .i32 (BitVec.ofInt 32 m.map.origin.y)]
  let ms := m.map.cells.foldl (fun ms row => row.foldl (fun ms c => append ms (k.ser c)) ms) []
  append s ms

/-- The inner loop of `load_state`, plain_grid_map.h:123-127: `n` more cells of a row. -/
def loadRow (k : Codec C) (proto : C) (data : Bytes) : Nat → Nat → Option (List C × Nat)
  | 0, pos => some ([], pos)
  | n + 1, pos =>
    (k.des proto data pos).bind fun (c, pos) =>
      (loadRow k proto data n pos).map fun (cs, pos) => (c :: cs, pos)

/-- The outer loop, plain_grid_map.h:121-128. -/
def loadRows (k : Codec C) (proto : C) (data : Bytes) (w : Nat) : Nat → Nat → Option (List (List C) × Nat)
  | 0, pos => some ([], pos)
  | h + 1, pos =>
    (loadRow k proto data w pos).bind fun (row, pos) =>
      (loadRows k proto data w h pos).map fun (rows, pos) => (row :: rows, pos)

/-- `UnboundedPlainGridMap::load_state`, plain_grid_map.h:100-129. Also returns the final `pos`. Negative
sizes (`resize`/`reserve` throw) are `none`. -/
def load (k : Codec C) (m : SMap C) (data : Bytes) : Option (SMap C × Nat) :=
  match readAll [.i32, .i32, .w64, .i32, .i32] data 0 with
  | some ([.i32 h, .i32 w, .w64 s, .i32 ox, .i32 oy], pos) =>
    if h.toInt < 0 ∨ w.toInt < 0 then none
    else
      (loadRows k m.map.proto data w.toInt.toNat h.toInt.toNat pos).map fun (rows, pos) =>
        (⟨{ m.map with width := w.toInt.toNat, height := h.toInt.toNat,
                       origin := ⟨ox.toInt, oy.toInt⟩, cells := rows }, s⟩, pos)
  | _ => none

/-- `GridMap::save_state` and `load_state` (defaults inherited by `PlainGridMap` and both lazily tiled maps),
grid_map.h:64-67. -/
def saveDefault {M : Type} (_ : M) : Bytes := []

/-- See `saveDefault`. -/
def loadDefault {M : Type} (m : M) (_ : Bytes) : M := m

/-! ## Rescalable maps -/

/-- `RescalableCachingGridMap::save_state`, rescalable_caching_grid_map.h:116-125, over unbounded plain
levels. -/
def saveLevels (k : Codec C) (levels : List (SMap C)) : Bytes :=
  levels.foldl (fun s m =>
    let d := save k m
    append (addValue s (.w64 (BitVec.ofNat 64 d.length))) d) []

/-- The loop of `RescalableCachingGridMap::load_state`, rescalable_caching_grid_map.h:130-142, at position
`pos`; a failed assertion or a read past the end is `none`. Every level is loaded into a fresh
`BackGridMap{cell_prototype(), {0, 0, 0}}`. -/
def loadLevelsFrom (k : Codec C) (proto : C) (data : Bytes) (pos : Nat) : Option (List (SMap C)) :=
  if pos = data.length then some []
  else
    match _hr : readValue .w64 data pos with
    | some (.w64 n, p) =>
      if p + n.toNat ≤ data.length then
        (load k ⟨create 0 0 proto, 0⟩ ((data.drop p).take n.toNat)).bind fun (m, _) =>
          (loadLevelsFrom k proto data (p + n.toNat)).map (m :: ·)
      else none
    | _ => none
termination_by data.length - pos
decreasing_by
  have hr := _hr; unfold readValue at hr
  by_cases h8 : pos + Ty.w64.size ≤ data.length
  · rw [if_pos h8] at hr
    simp only [Ty.size, Option.some.injEq, Prod.mk.injEq] at h8 hr
    omega
  · rw [if_neg h8] at hr
    simp at hr

/-- `RescalableCachingGridMap::load_state` up to the list of levels, lines 127-142. -/
def loadLevels (k : Codec C) (proto : C) (data : Bytes) : Option (List (SMap C)) :=
  loadLevelsFrom k proto data 0

end Slam.Serial
