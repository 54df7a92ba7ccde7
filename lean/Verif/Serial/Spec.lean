import Verif.Serial.Model

/-! # Specification for C24–C26 -/

set_option autoImplicit false

namespace Slam.Serial
open Slam.Grid Slam.PlainMap Slam.Cells Slam.Tbm

/-- What a cell is after being written and read back into a clone of `proto`. The fields are copied without
looking at them, hence over any number representation `W`. -/
def reloadAffine {W : Type*} (_proto c : AffineCell W) : AffineCell W := c

/-- Belief cells come back entirely. -/
def reloadTbm {W : Type} (_proto c : RawT W) : RawT W := c

/-- Mean cells lose the number of observations. -/
def reloadMean {W : Type*} (proto c : MeanCell W) : MeanCell W := { c with n := proto.n }

/-- GMapping cells lose the counters and the obstacle. -/
def reloadGm {W : Type*} (proto c : GmCell W) : GmCell W :=
  { c with hits := proto.hits, tries := proto.tries, obst := proto.obst }

/-- A codec restores cells up to `f` at any place of any buffer and consumes exactly what was written. -/
def Restores {C : Type} (k : Codec C) (f : C → C → C) : Prop :=
  ∀ (proto c : C) (pre post : Bytes),
    k.des proto (pre ++ k.ser c ++ post) pre.length = some (f proto c, (pre ++ k.ser c).length)

/-- A map reloaded into a receiver with prototype `proto`. -/
def reloadMap {C : Type} (f : C → C → C) (proto : C) (m : PMap C) : PMap C :=
  { m with cells := m.cells.map (List.map (f proto)), proto := proto }

/-- Sizes and origin fit into the `int`s of the program. -/
def FitsInt {C : Type} (m : PMap C) : Prop :=
  m.width < 2 ^ 31 ∧ m.height < 2 ^ 31 ∧
  -2 ^ 31 ≤ m.origin.x ∧ m.origin.x < 2 ^ 31 ∧ -2 ^ 31 ≤ m.origin.y ∧ m.origin.y < 2 ^ 31

/-- The storage has the reported shape. -/
def Shaped {C : Type} (m : PMap C) : Prop :=
  m.cells.length = m.height ∧ ∀ row ∈ m.cells, row.length = m.width

end Slam.Serial
