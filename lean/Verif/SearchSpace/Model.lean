import Verif.PlainMap.Model
import Verif.ScanMatch.Model

/-!
# Model of the search space map of `src/utils/pose2D_search_space_evaluator.cpp`

An observer of the scan matcher that draws the score of every tested pose into a map. The auto-growing map is
`Slam.PlainMap`, the matcher `Slam.ScanMatch`. A score is `none` if it is NaN; the map stores it all the same.
The evaluator's test maps, its scan generator and its image dump are modelled in `Primitive`, `ScanGen` and `Dump`.
-/

set_option autoImplicit false
set_option linter.unusedSectionVars false

namespace Slam.SearchSpace
open Slam.Grid Slam.PlainMap Slam.ScanMatch

variable {K : Type} [Field K] [LinearOrder K] [IsStrictOrderedRing K] [FloorRing K]

/-- `Occupancy`, src/core/states/state_data.h:8-28; the probability may be NaN (`none`). -/
structure Occ (K : Type) where
  prob : Option K
  quality : K
  deriving DecidableEq

/-- `AreaOccupancyObservation`, src/core/states/state_data.h:34-49, without the obstacle's point and the quality,
which the cell ignores. -/
structure Aoo (K : Type) where
  isOccupied : Bool
  occupancy : Occ K

/-- `LastWriteWinsGridCell::operator+=`, pose2D_search_space_evaluator.cpp:27-29: the cell is its `_occupancy`. -/
def lastWriteWins (_cell : Occ K) (aoo : Aoo K) : Occ K := aoo.occupancy

/-- `LastWriteWinsGridCell(prob = 0.5)`, pose2D_search_space_evaluator.cpp:23. -/
def freshCell : Occ K := ⟨some (1 / 2), 0⟩

/-- `ScanMatcherSearchSpaceBuilder`, pose2D_search_space_evaluator.cpp:32-61. -/
structure Builder (K : Type) where
  map : PMap (Occ K)
  resolution : K

/-- The constructor, pose2D_search_space_evaluator.cpp:35-40. -/
def Builder.create (resolution : K) : Builder K := ⟨PlainMap.create 100 100 freshCell, resolution⟩

/-- `on_scan_test`, pose2D_search_space_evaluator.cpp:46-57; `none` is undefined behaviour or a failed assertion. -/
def Builder.onScanTest (rate : Nat → ℚ) (b : Builder K) (pose : Poses.Pose K) (score : Option K) : Option (Builder K) :=
  let coord := worldToCell b.resolution ⟨pose.x, pose.y⟩
  (stepUnbounded rate lastWriteWins b.map (.update coord ⟨true, ⟨score, 0⟩⟩)).map fun m => { b with map := m }

/-- The builder as an observer of the matcher, grid_scan_matcher.h:16-31: the other three notifications keep their
empty default bodies. -/
def Builder.notify (rate : Nat → ℚ) (b : Builder K) : Event K → Option (Builder K)
  | .test p s => b.onScanTest rate p s
  | .start _ => some b
  | .update _ _ => some b
  | .finish _ _ => some b

/-- The notifications of a matching run (or of several), one after another. -/
def Builder.observe (rate : Nat → ℚ) (b : Builder K) : List (Event K) → Option (Builder K)
  | [] => some b
  | e :: es => (b.notify rate e).bind fun b => b.observe rate es

/-- `run_evaluation`, pose2D_search_space_evaluator.cpp:155-184: a fresh builder subscribed to a fresh brute force
matcher, then one match. The half width of the window, the window of angles and the initial pose are parameters (the
program uses 1, (0, 0, 0.1) and (0.05, 0.05, 0)); `fuel` bounds the number of candidates. -/
def evaluate (rate : Nat → ℚ) (resolution half fromT toT stepT : K) (score : Poses.Pose K → Option K) (fuel : Nat)
    (init : Poses.Pose K) : Option (Builder K) :=
  let P : BFParams K := ⟨-half, half, resolution, -half, half, resolution, fromT, toT, stepT⟩
  (processScan (bruteForce P) score fuel (BFState.init P) init).bind fun r =>
    (Builder.create resolution).observe rate r.2.2.2

end Slam.SearchSpace
