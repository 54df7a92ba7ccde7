import Verif.Whole.Total

/-!
# The configurations of the program satisfy the hypotheses of C80
-/

set_option autoImplicit false
set_option linter.unusedSectionVars false

namespace Slam.Whole
open Slam.Grid Slam.Cells Slam.Poses Slam.Sensor Slam.Score Slam.ScanAdder Slam.Worlds Slam.Line Slam.Tbm
open Slam.Estimator (UnitOcc Est Cmp)

/-- `ConstOccupancyEstimator`, src/core/maps/const_occupancy_estimator.h:6-16, with estimations within `[0,1]`. -/
theorem const_sound (occ empty : Occ ℝ) (h1 : UnitOcc occ) (h2 : UnitOcc empty) (blur : ℝ) (maxRange : Option ℝ) (scale : ℝ) :
    SoundFor ⟨constEstimate occ empty, blur, maxRange⟩ scale := by
  intro beam c isOcc o h
  simp only [constEstimate, Option.some.injEq] at h
  subst h
  by_cases hb : isOcc = true
  · rw [if_pos hb]; exact h1
  · rw [if_neg hb]; exact h2

/-- The estimations of `AreaOccupancyEstimator` as a scan adder's, src/core/maps/area_occupancy_estimator.h:27-66, for a
given value of its static shift. Where the estimator's behaviour is undefined (C49) nothing is said: any valid answer of
the model is the estimator's. -/
noncomputable def areaEstimate (E : Est ℝ) (cmp : Cmp ℝ) (shift : ℝ) (beam : Beam ℝ) (c : Bounds ℝ) (isOcc : Bool) :
    Option (Occ ℝ) :=
  (E.estimateWith cmp shift ⟨beam.beg, beam.fin⟩ c isOcc).getD none

theorem area_sound (E : Est ℝ) (hE : E.Unit) (cmp : Cmp ℝ) (shift blur : ℝ) (maxRange : Option ℝ) (scale : ℝ)
    (hs : 0 < scale) : SoundFor ⟨areaEstimate E cmp shift, blur, maxRange⟩ scale := by
  intro beam c isOcc o h
  simp only [areaEstimate] at h
  cases hr : E.estimateWith cmp shift ⟨beam.beg, beam.fin⟩ (worldCellBounds scale c) isOcc with
  | none => rw [hr] at h; simp at h
  | some r =>
    rw [hr] at h
    simp only [Option.getD_some] at h
    subst h
    refine Estimator.estimate_range E hE cmp shift _ (worldCellBounds scale c) isOcc ?_ ?_ o hr
    · simp only [worldCellBounds]
      nlinarith
    · simp only [Rect.vside, Rect.hside, worldCellBounds]
      ring

/-! ## A concrete program -/

/-- A growing plain map of a metre per cell with averaging cells, constant estimations and histogram weights. -/
noncomputable def demoCfg : Cfg (MeanCell ℝ) (PlainMap.PMap (MeanCell ℝ)) where
  api := plainApi (fun _ => 3 / 2) MeanCell.observe
  scale := 1
  adder := ⟨constEstimate ⟨95 / 100, 1⟩ ⟨1 / 100, 1⟩, 1 / 2, none⟩
  ok := fun v => decide (|v| ≤ 6000)
  fuel := 5000
  props := ⟨9 / 10, 6 / 10, 0⟩
  skipMax := false
  tol := 1 / 100

/-- It starts at the origin with an empty map. -/
noncomputable def demoStart : St (PlainMap.PMap (MeanCell ℝ)) :=
  ⟨⟨0, 0, 0⟩, ⟨0, 0, 0⟩, PlainMap.create 1 1 MeanCell.create, some (Hist.create 20)⟩

/-- The robot is two metres ahead, sees a wall in four metres, nothing up to thirty metres, and has one reading below the
minimum; the matcher moves it by a tenth of a metre. -/
noncomputable def demoDatum : Datum (PlainMap.PMap (MeanCell ℝ)) :=
  ⟨⟨2, 0, 0⟩, ⟨0, 2, 1, 1 / 10, 30, [some 4, some 50, some 0]⟩, fun _ _ _ => some ⟨1 / 10, 0, 0⟩⟩

theorem demo_lawful : Lawful demoCfg.api MeanCell.observe MeanCell.create demoStart.map :=
  plain_lawful (fun _ => 3 / 2) MeanCell.observe 1 1 MeanCell.create

theorem demo_message : msg2scan demoDatum.msg false (1 / 100) = some [⟨some 4, 0, true⟩, ⟨some 30, 1, false⟩] := by
  norm_num [msg2scan, convert, demoDatum]

/-- The hypotheses of `run_total` hold for a hundred such messages, so the program handles them. -/
theorem demo_runs : ∃ s', demoStart.run demoCfg (List.replicate 100 demoDatum) = some s' := by
  refine run_total demo_lawful (by norm_num [demoCfg]) 1000 ?_ (by norm_num [demoCfg]) 30 (1 / 10) 0 2 (by norm_num) (by norm_num)
    (List.replicate 100 demoDatum) (by norm_num [demoCfg]) ⟨[], rfl⟩ ?_ (by norm_num [demoStart]) ?_
  · intro v hv
    simp only [demoCfg, decide_eq_true_eq]
    exact hv
  · intro h' e
    simp only [demoStart, Option.some.injEq] at e
    subst e
    exact ⟨⟨by simp [Hist.create], by simp [Hist.create]⟩, by simp [Hist.create]⟩
  · intro d hd
    rw [List.mem_replicate] at hd
    rw [hd.2]
    refine ⟨⟨by simp [demoDatum], by norm_num [demoDatum, demoCfg], by norm_num [demoDatum], by norm_num [demoDatum], ?_⟩, ?_,
      by norm_num [demoDatum], by norm_num [demoDatum]⟩
    · intro pts h
      have h' : msg2scan demoDatum.msg false (1 / 100) = some pts := h
      rw [demo_message, Option.some.injEq] at h'
      subst h'
      right
      simp [demoCfg]
    · intro scan p m _
      exact ⟨⟨1 / 10, 0, 0⟩, rfl, by norm_num, by norm_num⟩

/-- So the other theorems speak about something: the map they leave holds probabilities only, and the robot is where the
odometry says, corrected by ten metres. -/
example : ∃ s', demoStart.run demoCfg (List.replicate 100 demoDatum) = some s' ∧ s'.pose.x = 12 ∧
    ∀ c, ∃ cell, demoCfg.api.read s'.map c = some cell ∧ Unit01 cell.occ.prob := by
  obtain ⟨s', h⟩ := demo_runs
  refine ⟨s', h, ?_, fun c => ?_⟩
  · obtain ⟨h0, cs, h1, ⟨h2, -, -⟩, h3⟩ := pose_is_odometry_and_corrections demoCfg _ h
    have hcs : cs = List.replicate 100 ⟨1 / 10, 0, 0⟩ := by
      rw [List.eq_replicate_iff]
      refine ⟨by simpa using h1, fun c hc => ?_⟩
      obtain ⟨i, hi⟩ := List.mem_iff_getElem?.1 hc
      have hi' : i < 100 := by
        by_contra hn
        rw [List.getElem?_eq_none (by rw [h1, List.length_replicate]; omega)] at hi
        exact absurd hi (by simp)
      obtain ⟨scan, p, m, -, e⟩ := h3 i demoDatum c (by rw [List.getElem?_replicate, if_pos hi']) hi
      simpa [demoDatum] using e.symm
    rw [h2, h0, hcs, show (100 : Nat) = 99 + 1 from rfl, List.map_replicate, List.replicate_succ' (n := 99) (a := demoDatum.odom)]
    norm_num [demoStart, demoDatum]
  · have := map_shows_probabilities .mean (cfg := demoCfg) demo_lawful
      (const_sound _ _ ⟨by norm_num [Unit01], by norm_num [Unit01]⟩ ⟨by norm_num [Unit01], by norm_num [Unit01]⟩ _ _ _)
      ⟨by norm_num [demoCfg, Unit01], by norm_num [demoCfg, Unit01]⟩ _ rfl h c
    obtain ⟨cell, h1, h2, -⟩ := this
    refine ⟨cell, h1, ?_⟩
    rcases h2 _ rfl with h | ⟨h, -⟩
    · exact h
    · exact absurd h (by simp)

end Slam.Whole
