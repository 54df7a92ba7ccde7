import Verif.Rect.Model
import Mathlib.Logic.Relation

/-!
# Model of the branch-and-bound search

`Match`, `M3RSMEngine`, src/core/scan_matchers/m3rsm_engine.h:133-365, and the search loop of
`BruteForceMultiResolutionScanMatcher::process_scan`, src/core/scan_matchers/bf_multi_res_scan_matcher.h:24-66.

Exact arithmetic. During a search maps, scans and poses do not change, so the bound of a match is a function of the
request, the rotation and the range of translations; it is never a NaN (scans with at least one usable point, C33).
-/

set_option autoImplicit false

namespace Slam.Multires
open Slam.Grid Slam.Rect

section
variable {K : Type*} [Field K] [LinearOrder K] [IsStrictOrderedRing K]

/-- `Match`, m3rsm_engine.h:133-149: the request (its estimator, scan, pose and map), the rotation, the range of
translations. -/
structure Match (K : Type*) where
  req : Nat
  rot : K
  drift : Bounds K

/-- `prob_upper_bound` as computed by the constructor, m3rsm_engine.h:156-180, and `_max_finest_prob_diff`,
m3rsm_engine.h:260-262, 360. -/
structure Search (K : Type*) where
  score : Nat → K → Bounds K → K
  diff : K

/-- `prob_upper_bound`. -/
def Search.ub (S : Search K) (m : Match K) : K := S.score m.req m.rot m.drift

/-- `_drift_amount`, m3rsm_engine.h:163. -/
def Match.driftAmount (m : Match K) : K := hside m.drift + vside m.drift

/-- `is_finest()`, m3rsm_engine.h:187-189. -/
def Match.finest (m : Match K) : Bool := decide (m.driftAmount ≤ 0)

/-- `operator<`, m3rsm_engine.h:192-203. -/
def Search.lt (S : Search K) (a b : Match K) : Bool :=
  if !areEqual (S.ub a) (S.ub b) then less (S.ub a) (S.ub b)
  else if !areEqual a.driftAmount b.driftAmount then decide (b.driftAmount < a.driftAmount)
  else decide (|b.rot| < |a.rot|)

/-- `_matches`, `_best_finest_probability`, m3rsm_engine.h:361-362. -/
structure Engine (K : Type*) where
  queue : List (Match K)
  best : K

/-- `reset_engine_state`, m3rsm_engine.h:265-268. -/
def Engine.init : Engine K := ⟨[], 0⟩

/-- `add_match`, m3rsm_engine.h:280-289. -/
def Engine.add (S : Search K) (e : Engine K) (m : Match K) : Engine K :=
  if S.ub m < e.best then e
  else ⟨m :: e.queue, if m.finest then max e.best (S.ub m - S.diff) else e.best⟩

/-- Several matches, one after another. -/
def Engine.addAll (S : Search K) (e : Engine K) (ms : List (Match K)) : Engine K := ms.foldl (Engine.add S) e

/-- The elements of `std::set<double>{r, -r}` in order, m3rsm_engine.h:305. -/
def plusMinus (r : K) : List K := if r = -r then [r] else if r < -r then [r, -r] else [-r, r]

/-- The rotations tried by a request, m3rsm_engine.h:300-315, starting from `r`. `none`: more than `fuel` turns of the
loop. -/
def rotations (sector res : K) : Nat → K → Option (List K)
  | 0, _ => none
  | f + 1, r => if lessOrEqual (2 * r) sector then (rotations sector res f (r + res)).map (plusMinus r ++ ·) else some []

/-- A rectangle of one point, geometry_primitives.h:175-176. -/
def pointRect (p : Point K) : Bounds K := ⟨p.y, p.y, p.x, p.x⟩

/-- `entire_trs_range`, m3rsm_engine.h:297-298. -/
def entireRange (X Y : K) : Bounds K := ⟨-Y, Y, -X, X⟩

/-- `add_scan_matching_request`, m3rsm_engine.h:291-316: for each rotation the zero translation and the entire
range. -/
def Engine.request (S : Search K) (X Y sector res : K) (fuel : Nat) (req : Nat) (e : Engine K) : Option (Engine K) :=
  (rotations sector res fuel 0).map fun rots =>
    e.addAll S (rots.flatMap fun r => [⟨req, r, pointRect ⟨0, 0⟩⟩, ⟨req, r, entireRange X Y⟩])

/-- The finer ranges of `branch`, m3rsm_engine.h:341-347, with the conditions of m3rsm_engine.h:323-330; `none`: the
range is fine enough. -/
def finer (step : K) (r : Bounds K) : Option (List (Bounds K)) :=
  match less step (hside r), less step (vside r) with
  | true, true => some (split4 r)
  | true, false => some (splitHorz r)
  | false, true => some (splitVert r)
  | false, false => none

/-- `top` and `pop`, m3rsm_engine.h:320-321: the queue gives some match which no other one exceeds by more than `δ`;
the rest remains in some order. -/
def Pop (S : Search K) (δ : K) (e : Engine K) (m : Match K) (e' : Engine K) : Prop :=
  e.queue.Perm (m :: e'.queue) ∧ e'.best = e.best ∧ ∀ m' ∈ e'.queue, S.ub m' ≤ S.ub m + δ

/-- The same range-narrowed match, `Match(tdrift, that)`, m3rsm_engine.h:182-184. -/
def Match.narrow (m : Match K) (r : Bounds K) : Match K := ⟨m.req, m.rot, r⟩

/-- One turn of the loop of `next_best_match` that branches, m3rsm_engine.h:319-331. -/
def BranchStep (S : Search K) (δ step : K) (e e' : Engine K) : Prop :=
  ∃ m e1 rs, Pop S δ e m e1 ∧ finer step m.drift = some rs ∧ e' = e1.addAll S (rs.map m.narrow)

/-- The turn that returns a match, m3rsm_engine.h:327-329. -/
def Returns (S : Search K) (δ step : K) (e : Engine K) (m : Match K) (e' : Engine K) : Prop :=
  Pop S δ e m e' ∧ finer step m.drift = none

/-- `next_best_match`, m3rsm_engine.h:318-333, when it returns a valid match. -/
def NextBest (S : Search K) (δ step : K) (e : Engine K) (m : Match K) (e' : Engine K) : Prop :=
  ∃ e1, Relation.ReflTransGen (BranchStep S δ step) e e1 ∧ Returns S δ step e1 m e'

/-- `corners` and the center, geometry_primitives.h:200-203, bf_multi_res_scan_matcher.h:59-60. -/
def crucialPoints (r : Bounds K) : List (Point K) :=
  [⟨r.left, r.bot⟩, ⟨r.left, r.top⟩, ⟨r.right, r.bot⟩, ⟨r.right, r.top⟩, center r]

/-- A turn of the loop of `process_scan` that goes on, bf_multi_res_scan_matcher.h:42-62, after the match has been
found. -/
def RefineStep (S : Search K) (δ step : K) (e e' : Engine K) : Prop :=
  ∃ m e1, Returns S δ step e m e1 ∧ m.finest = false ∧
    e' = e1.addAll S ((crucialPoints m.drift).map fun p => m.narrow (pointRect p))

/-- Any step of the search. -/
def SearchStep (S : Search K) (δ step : K) (e e' : Engine K) : Prop :=
  BranchStep S δ step e e' ∨ RefineStep S δ step e e'

/-- The last turn of `process_scan`, bf_multi_res_scan_matcher.h:45-51: a finest match is the result. -/
def Finishes (S : Search K) (δ step : K) (e : Engine K) (m : Match K) : Prop :=
  ∃ e', Returns S δ step e m e' ∧ m.finest = true

/-- `process_scan`, bf_multi_res_scan_matcher.h:42-62: from the engine `e` the search can end with the match `m`. -/
def Result (S : Search K) (δ step : K) (e : Engine K) (m : Match K) : Prop :=
  ∃ e1, Relation.ReflTransGen (SearchStep S δ step) e e1 ∧ Finishes S δ step e1 m

end

end Slam.Multires
