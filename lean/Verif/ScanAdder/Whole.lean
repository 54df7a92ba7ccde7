import Verif.ScanAdder.Props
import Verif.Score.Hist
import Verif.Sensor.Props

/-!
# C16, C17 for whole scans of the sensor
-/

set_option autoImplicit false
set_option linter.unusedSectionVars false

namespace Slam.ScanAdder
open Slam.Grid Slam.Line Slam.Rect Slam.Cells Slam.Sensor Slam.Score

section
variable {K : Type} [Field K] [LinearOrder K] [IsStrictOrderedRing K] [FloorRing K]

theorem insertAll_congr (A : Adder K) (ok : Int → Bool) (fuel : Nat) (scale : K) (robot : Point K)
    (q q' : Nat → Option K) (scanQuality : K) (pts : List (WPoint K)) (is : List Nat)
    (h : ∀ i, i < pts.length → q i = q' i) :
    A.insertAll ok fuel scale robot q scanQuality pts is = A.insertAll ok fuel scale robot q' scanQuality pts is := by
  induction is with
  | nil => rfl
  | cons i is ih =>
    unfold Adder.insertAll
    rw [ih]
    cases hp : pts[i]? with
    | none => rfl
    | some p =>
      have hi : i < pts.length := by
        by_contra hc
        rw [List.getElem?_eq_none (not_lt.1 hc)] at hp
        exact absurd hp (by simp)
      rw [h i hi]

/-- Only the qualities of the scan's points matter. -/
theorem appendScan_congr (A : Adder K) (ok : Int → Bool) (fuel : Nat) (scale : K) (robot : Point K)
    (q q' : Nat → Option K) (scanQuality margin : K) (pts : List (WPoint K))
    (h : ∀ i, i < pts.length → q i = q' i) :
    A.appendScan ok fuel scale robot q scanQuality margin pts =
      A.appendScan ok fuel scale robot q' scanQuality margin pts := by
  unfold Adder.appendScan
  simp only [fun is => insertAll_congr A ok fuel scale robot q q' scanQuality pts is h]

/-- C16, C17: appending a scan with a margin smaller than the number of points succeeds whenever the quality of each of
its points is defined, and changes a map exactly as the insertion of the beams of the inner points, one after another;
a cell which is on no beam of these keeps its value. -/
theorem scan_insertion (A : Adder K) (ok : Int → Bool) (M : Int) (hok : ∀ v, |v| ≤ 6 * M → ok v = true)
    (scale : K) (hs : 0 < scale) (robot : Point K) (fuel : Nat) (hrob : InRange M scale robot)
    (quality : Nat → Option K) (scanQuality : K) (m : Nat) (pts : List (WPoint K))
    (h : pts = [] ∨ m < pts.length)
    (hq : ∀ i, i < pts.length → ∃ q, quality i = some q)
    (hr : ∀ p ∈ pts, InRange M scale p.at_ ∧
      fuelFor (worldToCell scale robot) (worldToCell scale p.at_) ≤ fuel) :
    ∃ us, A.appendScan ok fuel scale robot quality scanQuality (m : K) pts = some us ∧
      ∀ {C : Type} (upd : C → Aoo K → C) (f : Coord → C),
        (tell upd f us =
          (pts.zipIdx.filter fun p => decide (m ≤ p.2 ∧ p.2 + m + 1 ≤ pts.length)).foldl (fun f p =>
            match (quality p.2).bind fun q =>
              A.beamUpdates ok fuel scale p.1.occ (scanQuality * q) ⟨robot, p.1.at_⟩ with
            | some u => tell upd f u
            | none => f) f) ∧
        ∀ c, (∀ i p, pts[i]? = some p → m ≤ i → i + m + 1 ≤ pts.length → ∀ cells,
            worldToCells ok (exactFP scale) fuel scale robot.x robot.y p.at_.x p.at_.y = some cells → c ∉ cells) →
          tell upd f us c = f c := by
  have hq' : ∀ i, i < pts.length → quality i = (fun i => some ((quality i).getD 0)) i := by
    intro i hi
    obtain ⟨q, e⟩ := hq i hi
    simp [e]
  rw [appendScan_congr A ok fuel scale robot _ _ scanQuality m pts hq', scan_margin A ok fuel scale robot
    (fun i => (quality i).getD 0) scanQuality m pts h]
  have hmem : ∀ x ∈ pts.zipIdx.filter (fun p => decide (m ≤ p.2 ∧ p.2 + m + 1 ≤ pts.length)),
      pts[x.2]? = some x.1 ∧ m ≤ x.2 ∧ x.2 + m + 1 ≤ pts.length := by
    intro x hx
    rw [List.mem_filter] at hx
    refine ⟨?_, of_decide_eq_true hx.2⟩
    have := List.mem_zipIdx_iff_getElem?.1 hx.1
    exact this
  obtain ⟨us, h1, h2⟩ := beams_insertion A ok M hok scale hs robot fuel hrob
    ((pts.zipIdx.filter fun p => decide (m ≤ p.2 ∧ p.2 + m + 1 ≤ pts.length)).map
      fun p => (p.1, scanQuality * (quality p.2).getD 0)) (by
        rintro p hp
        obtain ⟨x, hx, rfl⟩ := List.mem_map.1 hp
        exact hr _ (List.mem_of_getElem? (hmem x hx).1))
  refine ⟨us, h1, fun upd f => ⟨?_, fun c hc => (h2 upd f).2 c ?_⟩⟩
  · rw [(h2 upd f).1, List.foldl_map]
    apply List.foldl_ext
    intro g x hx
    obtain ⟨q, e⟩ := hq x.2 (by have := (hmem x hx).2.2; omega)
    simp only [e, Option.getD_some, Option.bind_some]
    rfl
  · rintro p hp cells hcells
    obtain ⟨x, hx, rfl⟩ := List.mem_map.1 hp
    obtain ⟨k1, k2, k3⟩ := hmem x hx
    exact hc x.2 x.1 k1 k2 k3 cells hcells

end

/-- The quality of a point by its direction's frequency is defined for each point of the scan, and within `(0,1]`. -/
theorem ahr_quality_defined (h : Hist) (hw : h.WF) (hn : 0 < h.n) (pts : List ScanPoint) :
    ∃ h', h.reset pts = some h' ∧ ∀ i, i < pts.length → ∃ q, ahrQuality h' pts i = some q ∧ 0 < q ∧ q ≤ 1 := by
  obtain ⟨h', e, hv, -, -⟩ := value_is_bin_count h hw hn pts
  refine ⟨h', e, fun i hi => ?_⟩
  obtain ⟨v, hv1, hv2⟩ := hv i hi
  refine ⟨1 / (v : ℝ), ?_, by positivity, ?_⟩
  · unfold ahrQuality
    rw [hv1, Option.bind_some, if_pos (by omega)]
  · rw [div_le_one (by exact_mod_cast hv2)]
    exact_mod_cast hv2

/-- C16: the world points of a scan are its points rotated by the heading and shifted to the robot's position, with
their occupancy flags. -/
theorem worldPoints_rigid (pose : Score.Pose) (pts : List ScanPoint) :
    worldPoints pose pts = pts.map fun sp =>
      (⟨⟨Real.cos pose.th * sp.x - Real.sin pose.th * sp.y + pose.x,
        Real.sin pose.th * sp.x + Real.cos pose.th * sp.y + pose.y⟩, sp.occupied⟩ : WPoint ℝ) := by
  unfold worldPoints
  apply List.map_congr_left
  intro sp _
  have h := (moves_agree sp pose.x pose.y pose.th).1
  rw [move_is_rigid] at h
  simp only [h]

/-- C16, C17 for a scan of the sensor at a pose, with the quality estimator by directions: it always succeeds. -/
theorem sensor_scan_insertion (A : Adder ℝ) (ok : Int → Bool) (M : Int) (hok : ∀ v, |v| ≤ 6 * M → ok v = true)
    (scale : ℝ) (hs : 0 < scale) (pose : Score.Pose) (fuel : Nat) (hrob : InRange M scale ⟨pose.x, pose.y⟩)
    (h : Hist) (hw : h.WF) (hn : 0 < h.n) (scanQuality : ℝ) (m : Nat) (pts : List ScanPoint)
    (hm : pts = [] ∨ m < pts.length)
    (hr : ∀ p ∈ worldPoints pose pts, InRange M scale p.at_ ∧
      fuelFor (worldToCell scale ⟨pose.x, pose.y⟩) (worldToCell scale p.at_) ≤ fuel) :
    ∃ h' us, h.reset pts = some h' ∧
      A.appendScan ok fuel scale ⟨pose.x, pose.y⟩ (ahrQuality h' pts) scanQuality (m : ℝ) (worldPoints pose pts) =
        some us ∧
      A.appendScan ok fuel scale ⟨pose.x, pose.y⟩ idleQuality scanQuality (m : ℝ) (worldPoints pose pts) ≠ none := by
  obtain ⟨h', e, hq⟩ := ahr_quality_defined h hw hn pts
  have hlen : (worldPoints pose pts).length = pts.length := by simp [worldPoints]
  have hm' : worldPoints pose pts = [] ∨ m < (worldPoints pose pts).length := by
    rw [hlen]; rcases hm with rfl | hm
    · left; rfl
    · right; exact hm
  obtain ⟨us, h1, -⟩ := scan_insertion A ok M hok scale hs ⟨pose.x, pose.y⟩ fuel hrob (ahrQuality h' pts) scanQuality m
    (worldPoints pose pts) hm' (fun i hi => by
      obtain ⟨q, hq, -⟩ := hq i (by rw [hlen] at hi; exact hi)
      exact ⟨q, hq⟩) hr
  obtain ⟨us', h2, -⟩ := scan_insertion A ok M hok scale hs ⟨pose.x, pose.y⟩ fuel hrob idleQuality scanQuality m
    (worldPoints pose pts) hm' (fun i _ => ⟨1, rfl⟩) hr
  exact ⟨h', us, e, h1, by rw [h2]; simp⟩

/-- The hypotheses about the histogram hold for the one the program makes (20 bins). -/
example : (Hist.create 20).WF ∧ 0 < (Hist.create 20).n := by
  refine ⟨?_, by simp [Hist.create]⟩
  constructor <;> simp [Hist.create]

/-- The hypotheses of `scan_insertion` hold for a scan of four points, of which the margin of one leaves two. -/
example :
    let pts : List (WPoint ℚ) := [⟨⟨7 / 2, 1 / 2⟩, true⟩, ⟨⟨1 / 2, 5 / 2⟩, true⟩, ⟨⟨-3 / 2, 1 / 2⟩, false⟩,
      ⟨⟨1 / 2, -9 / 2⟩, true⟩]
    InRange 300000000 (1 : ℚ) ⟨1 / 2, 1 / 2⟩ ∧ 1 < pts.length ∧
    (∀ p ∈ pts, InRange 300000000 (1 : ℚ) p.at_ ∧
      fuelFor (worldToCell (1 : ℚ) ⟨1 / 2, 1 / 2⟩) (worldToCell (1 : ℚ) p.at_) ≤ 100) := by
  unfold InRange
  simp only [List.mem_cons, forall_eq_or_imp, List.not_mem_nil, false_imp_iff, implies_true, and_true]
  decide +kernel

/-- The hypotheses of `sensor_scan_insertion` about the range hold for a beam of two metres. -/
example : ∀ p ∈ worldPoints ⟨0, 0, 0⟩ [ScanPoint.polar 2 0 true 1], InRange 300000000 (1 : ℝ) p.at_ ∧
      fuelFor (worldToCell (1 : ℝ) ⟨0, 0⟩) (worldToCell (1 : ℝ) p.at_) ≤ 100 := by
  intro p hp
  simp only [worldPoints, List.map_cons, List.map_nil, List.mem_singleton] at hp
  subst hp
  simp [ScanPoint.moveBy, ScanPoint.range, ScanPoint.angle, Raw.sin, Raw.cos, InRange, worldToCell, fuelFor]

end Slam.ScanAdder
