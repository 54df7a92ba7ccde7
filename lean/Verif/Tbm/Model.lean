import Verif.Cells.Model

/-!
# Model of the transferable belief model and of the cells built on it

`src/core/maps/transferable_belief_model.h`, `src/core/maps/tbm_grid_cells.h`,
`src/slams/credibilist/TBM_prob_conversion.h`, `src/slams/credibilist/grid_cell.h`.
Exact arithmetic over a linearly ordered field; NaN (0/0) is `none`.
-/

set_option autoImplicit false

namespace Slam.Tbm
open Slam.Grid Slam.Cells

/-- `TBM::_beliefs`, transferable_belief_model.h:13-22: UNKNOWN = 0, EMPTY = 1, OCCUPIED = 2, CONFLICT = 3. -/
structure TBM (K : Type*) where
  unknown : K
  empty : K
  occupied : K
  conflict : K
  deriving DecidableEq

variable {K : Type*} [Field K] [LinearOrder K] [IsStrictOrderedRing K]

/-- `TBM::get`, transferable_belief_model.h:74-77 (the index is always below 4). -/
def TBM.get (t : TBM K) : Nat → K
  | 0 => t.unknown
  | 1 => t.empty
  | 2 => t.occupied
  | _ => t.conflict

/-- `set_to_default`, transferable_belief_model.h:67-72. -/
def TBM.dflt : TBM K := ⟨1, 0, 0, 0⟩

/-- `normalize`, transferable_belief_model.h:102-112. -/
def TBM.normalize (t : TBM K) : TBM K :=
  let tot := t.unknown + t.empty + t.occupied + t.conflict
  if tot = 0 then TBM.dflt
  else ⟨t.unknown / tot, t.empty / tot, t.occupied / tot, t.conflict / tot⟩

/-- `normalize_conflict`, transferable_belief_model.h:114-124. -/
def TBM.normalizeConflict (t : TBM K) : TBM K :=
  let w := t.unknown + t.empty + t.occupied
  if w = 0 then TBM.dflt
  else ⟨t.unknown / w, t.empty / w, t.occupied / w, 0⟩

/-- The double loop of both combination rules, lines 130-138 and 149-157: `tmp[op i j] += l[i] * r[j]`. -/
def accumulate (op : Nat → Nat → Nat) (l r : TBM K) : Nat → K :=
  (List.range 4).foldl (fun tmp i =>
    (List.range 4).foldl (fun tmp j =>
      fun k => if k = op i j then tmp k + l.get i * r.get j else tmp k) tmp) (fun _ => 0)

/-- `conjunctive`, transferable_belief_model.h:126-143. -/
def conjunctive (l r : TBM K) : TBM K :=
  let t := accumulate (fun i j => i ||| j) l r
  (TBM.mk (t 0) (t 1) (t 2) (t 3)).normalize

/-- `disjunctive`, transferable_belief_model.h:145-162. -/
def disjunctive (l r : TBM K) : TBM K :=
  let t := accumulate (fun i j => i &&& j) l r
  (TBM.mk (t 0) (t 1) (t 2) (t 3)).normalize

/-- `aoo2tbm`, tbm_grid_cells.h:57-67, and `AOO_to_TBM`, TBM_prob_conversion.h:13-22 (identical). -/
def aooToTbm (a : Aoo K) : TBM K :=
  match a.occ with
  | none => TBM.dflt
  | some oc =>
    let q := oc.qual * a.quality
    let o := oc.prob * q
    let e := (1 - oc.prob) * q
    ⟨1 - o - e, e, o, 0⟩

/-- The three offered conversions of a belief into an occupancy. -/
inductive Kind where
  /-- `TbmOccConsistentCell`, tbm_grid_cells.h:81-94 -/
  | consistent
  /-- `TbmUnknownEvenOccCell`, tbm_grid_cells.h:96-107 -/
  | unknownEven
  /-- `CredibilistCell`, src/slams/credibilist/grid_cell.h:10-68 -/
  | credibilist
  deriving DecidableEq

/-- `tbm2occ`, tbm_grid_cells.h:89-93 and 104-106; `TBM_to_O`, TBM_prob_conversion.h:8-10.
A zero `qual` gives 0/0 = NaN, an invalid occupancy: `none`. -/
def toOcc (k : Kind) (t : TBM K) : Option (Occ K) :=
  match k with
  | .consistent =>
    let qual := t.occupied + t.empty
    if qual = 0 then none else some ⟨t.occupied / qual, qual⟩
  | .unknownEven => some ⟨t.occupied + 1 / 2 * t.unknown, 1⟩
  | .credibilist => some ⟨t.occupied + 1 / 2 * t.unknown, 1⟩

/-- `TbmBaseCell` tbm_grid_cells.h:8-79, `CredibilistCell` credibilist/grid_cell.h:10-68. -/
structure TCell (K : Type*) where
  occ : Option (Occ K)
  unknown : Bool
  belief : TBM K

/-- Constructors: tbm_grid_cells.h:10 (occupancy 0.5), credibilist/grid_cell.h:13-16 (from the belief). -/
def TCell.create (k : Kind) : TCell K :=
  match k with
  | .credibilist => ⟨toOcc .credibilist TBM.dflt, true, TBM.dflt⟩
  | _ => ⟨some ⟨1 / 2, 1⟩, true, TBM.dflt⟩

/-- `operator+=`, tbm_grid_cells.h:12-19, credibilist/grid_cell.h:23-29. -/
def TCell.observe (k : Kind) (c : TCell K) (a : Aoo K) : TCell K :=
  match a.occ with
  | none => c
  | some _ =>
    let b := (conjunctive c.belief (aooToTbm a)).normalizeConflict
    ⟨toOcc k b, false, b⟩

/-- `TbmBaseCell::discrepancy`, tbm_grid_cells.h:21-35. -/
def tbmDiscrepancy (c : TCell K) (a : Aoo K) : K :=
  let that := aooToTbm a
  let totalUnknown := that.unknown + c.belief.unknown
  let dOcc := |that.occupied - c.belief.occupied|
  let comb := conjunctive that c.belief
  let unknown := totalUnknown / 2
  let known := 1 - unknown
  let knownD := known * (comb.conflict + dOcc) / 2
  unknown / 2 + knownD

/-- `CredibilistCell::score` and `discrepancy`, credibilist/grid_cell.h:31-40. -/
def credDiscrepancy (c : TCell K) (a : Aoo K) : K :=
  1 - (disjunctive (aooToTbm a) c.belief).occupied

/-- Observing a history. -/
def TCell.run (k : Kind) (as : List (Aoo K)) : TCell K := as.foldl (TCell.observe k) (TCell.create k)

end Slam.Tbm
