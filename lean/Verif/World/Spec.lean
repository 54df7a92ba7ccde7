import Verif.World.Model
import Mathlib.Data.Rat.Floor

/-! # Specification vocabulary for worlds -/

set_option autoImplicit false
set_option linter.unusedSectionVars false

namespace Slam.Worlds
open Slam.Poses

variable {K : Type*} [Field K] [LinearOrder K] [IsStrictOrderedRing K]

/-- Pose observers in order of subscription. -/
def poseSubscribers : List (Op K) → List Nat
  | [] => []
  | .subscribePose o :: h => o :: poseSubscribers h
  | _ :: h => poseSubscribers h

/-- Map observers in order of subscription. -/
def mapSubscribers : List (Op K) → List Nat
  | [] => []
  | .subscribeMap o :: h => o :: mapSubscribers h
  | _ :: h => mapSubscribers h

/-- The observer was destroyed. -/
def destroyed (o : Nat) : List (Op K) → Bool
  | [] => false
  | .destroy o' :: h => o' == o || destroyed o h
  | _ :: h => destroyed o h

/-- What converting the `i`-th range of a message must give. -/
def pointSpec (m : Msg K) (skipMax : Bool) (i : Nat) (r : Option K) : Option (Point K) :=
  let angle := m.angleMin + i * m.increment
  match r with
  | none => some ⟨none, angle, true⟩
  | some v =>
    if v < m.rangeMin then none
    else if v < m.rangeMax then some ⟨some v, angle, true⟩
    else if skipMax then none
    else some ⟨some m.rangeMax, angle, false⟩

/-- Value of a string of decimal digits. -/
def digitsValue (cs : List Char) : Nat := cs.foldl (fun v c => 10 * v + (c.toNat - 48)) 0

/-- Value of a decimal number `i.f` as any reader of the file understands it. -/
def readDecimal (cs : List Char) : ℚ :=
  let i := cs.takeWhile (· ≠ '.')
  let f := (cs.dropWhile (· ≠ '.')).drop 1
  digitsValue i + (digitsValue f : ℚ) / 10 ^ f.length

end Slam.Worlds
