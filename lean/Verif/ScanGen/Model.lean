import Verif.Line.Exact
import Verif.Estimator.Model
import Verif.Sensor.Model
import Verif.Pose.Model
import Mathlib.Analysis.SpecialFunctions.Trigonometric.Basic

/-!
# Model of the laser scan generator

`src/utils/data_generation/laser_scan_generator.h`. Exact real arithmetic; the comparison of doubles (`are_equal`,
math_utils.h:15-20) is a parameter. A map enters through its scale and the occupancy probability of its cells. `none` is
a failed assertion, undefined behaviour or a loop that runs longer than `fuel`.
-/

set_option autoImplicit false

namespace Slam.ScanGen
open Slam.Grid Slam.Line Slam.Estimator Slam.Sensor Slam.Poses

/-- `LaserScannerParams`, laser_scan_generator.h:12-23. -/
structure Scanner where
  maxDist : ℝ
  angleInc : ℝ
  hsector : ℝ

/-- `to_lsp`, laser_scan_generator.h:26-29 (`deg2rad`, math_utils.h). -/
noncomputable def toLsp (maxDist fowDeg : ℝ) (ptsNm : Nat) : Scanner :=
  ⟨maxDist, fowDeg / (ptsNm : ℝ) * Real.pi / 180, fowDeg / 2 * Real.pi / 180⟩

open Classical in
/-- Angles of the loop over the beams, laser_scan_generator.h:47-48, from `a` on. -/
noncomputable def angles (h inc : ℝ) : Nat → ℝ → Option (List ℝ)
  | 0, _ => none
  | fuel + 1, a =>
    if a ≤ h then
      if 2 * Real.pi ≤ h + a then some []
      else (angles h inc fuel (a + inc)).map (a :: ·)
    else some []

/-- `beam_dir`, laser_scan_generator.h:49-50. -/
noncomputable def beamDir (S : Scanner) (pose : Pose ℝ) (a : ℝ) : Point ℝ :=
  ⟨S.maxDist * Real.cos (a + pose.theta), S.maxDist * Real.sin (a + pose.theta)⟩

open Classical in
/-- The loop over the cells of a beam, laser_scan_generator.h:52-80: `some none` — the beam adds no point. -/
noncomputable def cast (C : Cmp ℝ) (m : ℝ) (occ : Coord → ℝ) (thr : ℝ) (pose : Pose ℝ) (dir : Point ℝ) (a : ℝ) :
    List Coord → Option (Option ScanPoint)
  | [] => some none
  | c :: cs =>
    if occ c < thr then cast C m occ thr pose dir a cs
    else
      (rayInters C (worldCellBounds m c) ⟨⟨pose.x, pose.y⟩, dir⟩).bind fun inters =>
        if inters.length = 1 then cast C m occ thr pose dir a cs
        else
          match inters with
          | [i, j] =>
            let obst : Point ℝ := ⟨(i.pt.x + j.pt.x) / 2, (i.pt.y + j.pt.y) / 2⟩
            let range := Real.sqrt ((pose.x - obst.x) ^ 2 + (pose.y - obst.y) ^ 2)
            let sp := ScanPoint.polar range a true 1
            let wp := sp.moveRot pose.x pose.y pose.theta
            if c = worldToCell m ⟨wp.1, wp.2⟩ then some (some sp) else none
          | _ => none

/-- One pass of the loop over the beams, laser_scan_generator.h:49-81. -/
noncomputable def castBeam (C : Cmp ℝ) (ok : Int → Bool) (fuel : Nat) (S : Scanner) (m : ℝ) (occ : Coord → ℝ) (thr : ℝ)
    (pose : Pose ℝ) (a : ℝ) : Option (Option ScanPoint) :=
  let dir := beamDir S pose a
  (worldToCells ok (exactFP m fun d => C.eq d 0) fuel m pose.x pose.y (pose.x + dir.x) (pose.y + dir.y)).bind fun ids =>
    cast C m occ thr pose dir a ids

/-- The loop over the beams: the points it appends. -/
noncomputable def castAll (C : Cmp ℝ) (ok : Int → Bool) (fuel : Nat) (S : Scanner) (m : ℝ) (occ : Coord → ℝ) (thr : ℝ)
    (pose : Pose ℝ) : List ℝ → Option (List ScanPoint)
  | [] => some []
  | a :: as =>
    (castBeam C ok fuel S m occ thr pose a).bind fun o =>
      (castAll C ok fuel S m occ thr pose as).map fun ps => o.toList ++ ps

/-- `laser_scan_2D`, laser_scan_generator.h:35-84: the points of the scan. -/
noncomputable def laserScan (C : Cmp ℝ) (ok : Int → Bool) (fuel : Nat) (S : Scanner) (m : ℝ) (occ : Coord → ℝ)
    (pose : Pose ℝ) (thr : ℝ) : Option (List ScanPoint) :=
  let rc := worldToCell m ⟨pose.x, pose.y⟩
  if !C.eq pose.x ((rc.x : ℝ) * m) && !C.eq pose.y ((rc.y : ℝ) * m) then
    (angles S.hsector S.angleInc fuel (-S.hsector)).bind (castAll C ok fuel S m occ thr pose)
  else none

end Slam.ScanGen
