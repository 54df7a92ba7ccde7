import Verif.Tbm.Model
import Verif.Cells.Spec
import Mathlib.Algebra.BigOperators.Group.Finset.Basic
import Mathlib.Data.Fintype.Powerset
import Mathlib.Data.Finset.Basic
import Mathlib.Data.Fintype.Prod

/-!
# Specification: belief functions over the two hypotheses "occupied" / "empty"

A mass function assigns masses to the *sets of hypotheses that remain possible*
(`true` = occupied, `false` = empty).
-/

set_option autoImplicit false

namespace Slam.Tbm
open Slam.Grid Slam.Cells
variable {K : Type*} [Field K] [LinearOrder K] [IsStrictOrderedRing K]

/-- A mass function on subsets of the frame `{occupied, empty}`. -/
def TBM.mass (t : TBM K) (s : Finset Bool) : K :=
  if true ∈ s then (if false ∈ s then t.unknown else t.occupied)
  else (if false ∈ s then t.empty else t.conflict)

/-- Non-negative masses adding up to one. -/
def IsMass (m : Finset Bool → K) : Prop := (∀ s, 0 ≤ m s) ∧ ∑ s, m s = 1

/-- The conjunctive rule of Smets: a pair of beliefs supports the intersection. -/
def conjRule (m n : Finset Bool → K) (s : Finset Bool) : K :=
  ∑ p : Finset Bool × Finset Bool, if p.1 ∩ p.2 = s then m p.1 * n p.2 else 0

/-- The disjunctive rule: a pair of beliefs supports the union. -/
def disjRule (m n : Finset Bool → K) (s : Finset Bool) : K :=
  ∑ p : Finset Bool × Finset Bool, if p.1 ∪ p.2 = s then m p.1 * n p.2 else 0

/-- All valid observations have probability, estimation quality and mapping quality in `[0,1]`. -/
def SaneT (as : List (Aoo K)) : Prop :=
  ∀ a ∈ as, ∀ o, a.occ = some o → Unit01 o.prob ∧ Unit01 o.qual ∧ Unit01 a.quality

/-- An observation that excludes emptiness completely. -/
def CertainOcc (a : Aoo K) : Prop := ∃ o, a.occ = some o ∧ o.prob = 1 ∧ o.qual * a.quality = 1
/-- An observation that excludes occupancy completely. -/
def CertainEmpty (a : Aoo K) : Prop := ∃ o, a.occ = some o ∧ o.prob = 0 ∧ o.qual * a.quality = 1

/-- Two observations of the history contradict each other with certainty. -/
def Contradictory (as : List (Aoo K)) : Prop :=
  (∃ a ∈ as, CertainOcc a) ∧ (∃ a ∈ as, CertainEmpty a)

/-- Weight of a valid observation. -/
def obsWeight (a : Aoo K) : K := match a.occ with | none => 0 | some o => o.qual * a.quality
/-- Weight given to "occupied". -/
def obsOcc (a : Aoo K) : K := match a.occ with | none => 0 | some o => o.prob * (o.qual * a.quality)

/-- Plausibility (up to a common factor) of "occupied" after the observations: every observation that says
"empty" with weight `w` leaves `1 - w`. -/
def plOcc (as : List (Aoo K)) : K := (as.map fun a => 1 - (obsWeight a - obsOcc a)).prod
/-- Plausibility (up to the same factor) of "empty". -/
def plEmpty (as : List (Aoo K)) : K := (as.map fun a => 1 - obsOcc a).prod
/-- Remaining ignorance (up to the same factor). -/
def ignorance (as : List (Aoo K)) : K := (as.map fun a => 1 - obsWeight a).prod

end Slam.Tbm
