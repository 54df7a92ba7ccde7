import Verif.ScanMatch.Model
import Mathlib.Algebra.Order.Floor.Ring
import Mathlib.Algebra.Order.Floor.Semiring

/-! # Specification for C28–C31 -/

set_option autoImplicit false
set_option linter.unusedSectionVars false

namespace Slam.ScanMatch
open Slam.Poses

variable {K : Type*} [Field K] [LinearOrder K] [IsStrictOrderedRing K]

/-- `p` is the first pose of the list attaining the maximal score; NaN scores do not count. -/
def FirstMax (score : Pose K → Option K) (l : List (Pose K)) (p : Pose K) (s : K) : Prop :=
  score p = some s ∧ ∃ pre post, l = pre ++ p :: post ∧
    (∀ q ∈ pre, ∀ v, score q = some v → v < s) ∧ (∀ q ∈ post, ∀ v, score q = some v → v ≤ s)

/-- The notifications due when poses are tested one after another and `best` is the best score so far: every
pose is announced as tested and, right after, as an update iff it beats all earlier ones. -/
def announce (score : Pose K → Option K) : Option K → List (Pose K) → List (Event K)
  | _, [] => []
  | best, p :: ps =>
    if ltN best (score p) then .test p (score p) :: .update p (score p) :: announce score (score p) ps
    else .test p (score p) :: announce score best ps

/-- The poses announced as tested. -/
def testedPoses (es : List (Event K)) : List (Pose K) :=
  es.filterMap fun e => match e with
    | .test p _ => some p
    | _ => none

/-- An arithmetic progression of `n + 1` values. -/
def progression (from_ step : K) (n : Nat) : List K := (List.range (n + 1)).map fun (i : Nat) => from_ + (i : K) * step

section
variable [FloorRing K]

/-- The x, y and angle values of a brute force search, angles outermost. The x and y progressions run until the
limit is reached or passed, the angle progression stays within the limit. -/
def searchGrid (p : BFParams K) : List (K × K × K) :=
  (progression p.fromT p.stepT ⌊(p.toT - p.fromT) / p.stepT⌋₊).flatMap fun t =>
    (progression p.fromY p.stepY ⌈(p.toY - p.fromY) / p.stepY⌉₊).flatMap fun y =>
      (progression p.fromX p.stepX ⌈(p.toX - p.fromX) / p.stepX⌉₊).map fun x => (x, y, t)
end

/-- The grid around a pose. -/
def around (base : Pose K) (o : K × K × K) : Pose K := ⟨base.x + o.1, base.y + o.2.1, base.theta + o.2.2⟩

/-- The six single-axis neighbours of a pose. -/
def sixNeighbours (b : Pose K) (d r : K) : List (Pose K) :=
  [⟨b.x + d, b.y, b.theta⟩, ⟨b.x, b.y - d, b.theta⟩, ⟨b.x, b.y, b.theta + r⟩,
   ⟨b.x - d, b.y, b.theta⟩, ⟨b.x, b.y + d, b.theta⟩, ⟨b.x, b.y, b.theta - r⟩]

/-- Best of a pose and some candidates: a candidate replaces the best so far iff it scores higher. -/
def improve (score : Pose K → Option K) (bp : Pose K × Option K) (cands : List (Pose K)) : Pose K × Option K :=
  cands.foldl (fun bp q => if ltN bp.2 (score q) then (q, score q) else bp) bp

/-- Some candidate scores higher. -/
def Improves (score : Pose K → Option K) (p : Option K) (cands : List (Pose K)) : Prop :=
  ∃ q ∈ cands, ltN p (score q) = true

/-- Hill climbing with `F` failed rounds left and step sizes `d`, `r`, starting at pose `b` of score `p`; the
list of tested poses and the final pose and score. -/
inductive Climb (score : Pose K → Option K) :
    Nat → K → K → Pose K → Option K → List (Pose K) → Pose K → Option K → Prop
  /-- nothing is tested when no failures are allowed -/
  | none (d r : K) (b : Pose K) (p : Option K) : Climb score 0 d r b p [] b p
  /-- a round that improves: same steps, from the best pose found -/
  | success (F : Nat) (d r : K) (b : Pose K) (p : Option K) (rest : List (Pose K)) (b' : Pose K) (p' : Option K)
      (h : Improves score p (sixNeighbours b d r))
      (hr : Climb score (F + 1) d r (improve score (b, p) (sixNeighbours b d r)).1
        (improve score (b, p) (sixNeighbours b d r)).2 rest b' p') :
      Climb score (F + 1) d r b p (sixNeighbours b d r ++ rest) b' p'
  /-- a failed round, not the last one allowed: steps are halved -/
  | failure (F : Nat) (d r : K) (b : Pose K) (p : Option K) (rest : List (Pose K)) (b' : Pose K) (p' : Option K)
      (h : ¬ Improves score p (sixNeighbours b d r))
      (hr : Climb score (F + 1) (d / 2) (r / 2) b p rest b' p') :
      Climb score (F + 2) d r b p (sixNeighbours b d r ++ rest) b' p'
  /-- the last allowed failed round: one more pose is tested, then the search stops -/
  | last (d r : K) (b : Pose K) (p : Option K) (b' : Pose K) (p' : Option K)
      (h : ¬ Improves score p (sixNeighbours b d r))
      (hb : (b', p') = improve score (b, p) [⟨b.x + d / 2, b.y, b.theta⟩]) :
      Climb score 1 d r b p (sixNeighbours b d r ++ [⟨b.x + d / 2, b.y, b.theta⟩]) b' p'

/-- A stretch of accept/reject outcomes that ends in the acceptance at which the dispersion is halved: more
than `m / 3` rejections before it, and no earlier acceptance with that many rejections before it. -/
def ShrinkBlock (m : Nat) (l : List Bool) : Prop :=
  ∃ body, l = body ++ [true] ∧ m / 3 < body.count false ∧
    ∀ pre suf, body = pre ++ true :: suf → pre.count false ≤ m / 3

/-- A stretch without such an acceptance. -/
def NoShrink (m : Nat) (l : List Bool) : Prop :=
  ∀ pre suf, l = pre ++ true :: suf → pre.count false ≤ m / 3

end Slam.ScanMatch
