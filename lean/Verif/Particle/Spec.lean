import Verif.Particle.Model
import Mathlib.Algebra.BigOperators.Group.List.Basic
import Mathlib.Algebra.Order.BigOperators.Group.List

/-!
# Specification vocabulary for the particle filter
-/

set_option autoImplicit false
set_option linter.unusedSectionVars false

namespace Slam.Particle
open Slam.Poses

variable {K : Type*} [Field K] [LinearOrder K] [IsStrictOrderedRing K]

/-- A filter state some history of scans leads to, when `n` particles are configured: the scan matcher answers
non-negative or undefined probabilities and the resampler's `n` samples are in `[0, 1)`. -/
inductive Reach (sn cs : K → K) (n : Nat) : Filter K → Prop
  | create (steps : List (Delta K)) (f : Filter K) (hn : steps.length = n) (h : Filter.create steps = some f) :
      Reach sn cs n f
  | handle (f f' : Filter K) (hf : Reach sn cs n f) (delta : Delta K) (env : Nat → Env K) (samples : List K)
      (henv : ∀ i p a, ((env i).matcher p).2 = some a → 0 ≤ a)
      (hlen : samples.length = n) (hs : ∀ s ∈ samples, 0 ≤ s ∧ s < 1)
      (h : f.handle sn cs delta env samples = some f') : Reach sn cs n f'

/-- Weights that are a probability distribution. -/
def Distribution (ws : List K) : Prop := (∀ w ∈ ws, 0 ≤ w) ∧ ws.sum = 1

/-- Two particles that may differ only in the weight and the master mark. -/
def SameState (a b : World K) : Prop :=
  a.noisy = b.noisy ∧ a.scanFirst = b.scanFirst ∧ a.pose = b.pose ∧ a.rawOdom = b.rawOdom ∧
    a.deltaSince = b.deltaSince ∧ a.nextSm = b.nextSm ∧ a.mapRef = b.mapRef

end Slam.Particle
