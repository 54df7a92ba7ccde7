import Verif.LazyMap.Model

/-! # Specification: a family of independent functions from coordinates to cells -/

namespace Slam.LazyMap
open Slam.Grid
variable {C O : Type}

/-- An abstract map: its extent (`none` = unbounded) and its value at each coordinate. -/
structure AMap (C : Type) where
  extent : Option (Nat × Nat)
  f : Coord → C

/-- The coordinates a map may be accessed at: all for an unbounded map, `has_cell` otherwise
(`w × h` cells with the origin in the middle). -/
def AMap.Covers (a : AMap C) (c : Coord) : Prop :=
  match a.extent with
  | none => True
  | some (w, h) => (Dims.mk w h).hasCell ⟨(w / 2 : Nat), (h / 2 : Nat)⟩ c = true

instance (a : AMap C) (c : Coord) : Decidable (a.Covers c) := by
  unfold AMap.Covers; split <;> infer_instance

/-- One operation. Copies are independent functions. Misuse (a dead object, a coordinate outside of a bounded
map) is `none`. -/
def specStepL (upd : C → O → C) (A : List (Option (AMap C))) : LOp C O → Option (List (Option (AMap C)))
  | .create unb w h p => some (A ++ [some ⟨if unb then none else some (w, h), fun _ => p⟩])
  | .copy i => ((A[i]?).getD none).map fun a => A ++ [some a]
  | .destroy i => ((A[i]?).getD none).map fun _ => A.set i none
  | .update i c o => ((A[i]?).getD none).bind fun a =>
      if a.Covers c then
        some (A.set i (some { a with f := fun d => if d = c then upd (a.f c) o else a.f d }))
      else none
  | .reset i c v => ((A[i]?).getD none).bind fun a =>
      if a.Covers c then
        some (A.set i (some { a with f := fun d => if d = c then v else a.f d }))
      else none

/-- A history. -/
def specRunL (upd : C → O → C) (A : List (Option (AMap C))) : List (LOp C O) →
    Option (List (Option (AMap C)))
  | [] => some A
  | op :: ops => (specStepL upd A op).bind fun A => specRunL upd A ops

end Slam.LazyMap
