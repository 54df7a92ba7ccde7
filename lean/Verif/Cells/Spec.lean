import Verif.Cells.Model
import Mathlib.Algebra.BigOperators.Group.List.Basic

/-! # Specification vocabulary for cells -/

set_option autoImplicit false

namespace Slam.Cells
open Slam.Grid
variable {K : Type*} [Field K] [LinearOrder K] [IsStrictOrderedRing K]

/-- What a valid observation tells: observed probability, mapping quality, obstacle position. -/
structure Valid (K : Type*) where
  p : K
  q : K
  obst : Point K

/-- The valid observations of a history, in order. -/
def valids (as : List (Aoo K)) : List (Valid K) :=
  as.filterMap fun a => a.occ.map fun o => ⟨o.prob, a.quality, a.obst⟩

/-- `x ∈ [0, 1]`. -/
def Unit01 (x : K) : Prop := 0 ≤ x ∧ x ≤ 1

/-- Every valid observation of the history has a probability and a quality in `[0, 1]`. -/
def Sane (as : List (Aoo K)) : Prop := ∀ v ∈ valids as, Unit01 v.p ∧ Unit01 v.q

/-- Arithmetic mean of a list. -/
def mean (l : List K) : K := l.sum / (l.length : K)

/-- Quality-discounted probability: `q = 1` keeps `p`, `q = 0` gives `1/2`. -/
def discounted (v : Valid K) : K := v.q * v.p + (1 - v.q) * (1 / 2)

/-- Thresholded probability used by GMapping: observations not above 1/2 count as 0. -/
def thresholded (v : Valid K) : K := if 1 / 2 < v.p then v.p else 0

/-- The hits: observations above 1/2. -/
def hitsOf (as : List (Aoo K)) : List (Valid K) := (valids as).filter fun v => decide (1 / 2 < v.p)

end Slam.Cells
