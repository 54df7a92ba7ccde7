import Verif.Whole.StillClear
import Verif.Line.Box

/-!
# A robot that stands still between two walls
-/

set_option autoImplicit false
set_option linter.unusedSectionVars false

namespace Slam.Whole
open Slam.Grid Slam.Cells Slam.Poses Slam.Sensor Slam.Score Slam.ScanAdder Slam.Worlds Slam.Tbm Slam.Matcher Slam.Line Slam.ScanMatch

/-- One beam ahead and one behind, four metres each. -/
noncomputable def twoWalls : Msg ℝ := ⟨0, Real.pi, Real.pi, 1 / 10, 30, [some 4, some 4]⟩

noncomputable def twoBeams : List ScanPoint := [.polar 4 0 true 1, .polar 4 Real.pi true 1]

theorem two_walls_scan : msg2scan twoWalls false (1 / 100) = some [⟨some 4, 0, true⟩, ⟨some 4, Real.pi, true⟩] := by
  norm_num [msg2scan, convert, twoWalls]

/-- The robot in the middle of a cell of one metre, with an empty map. -/
noncomputable def stillStart {T : Type} (t : T) : Mach (PlainMap.PMap (MeanCell ℝ)) T :=
  ⟨⟨⟨0, 0, 0⟩, ⟨1 / 2, 1 / 2, 0⟩, PlainMap.create 1 1 MeanCell.create, none⟩, .even 1, t⟩

theorem seen_ahead : seenAt ⟨1 / 2, 1 / 2, 0⟩ (.polar 4 0 true 1) = ⟨9 / 2, 1 / 2⟩ := by
  simp [seenAt, ScanPoint.x, ScanPoint.y]
  norm_num

theorem seen_behind : seenAt ⟨1 / 2, 1 / 2, 0⟩ (.polar 4 Real.pi true 1) = ⟨-7 / 2, 1 / 2⟩ := by
  simp [seenAt, ScanPoint.x, ScanPoint.y]
  norm_num

theorem cell_here : worldToCell (1 : ℝ) ⟨1 / 2, 1 / 2⟩ = ⟨0, 0⟩ := by
  simp [worldToCell, Int.floor_eq_iff]; norm_num

theorem cell_ahead : worldToCell (1 : ℝ) ⟨9 / 2, 1 / 2⟩ = ⟨4, 0⟩ := by
  simp [worldToCell, Int.floor_eq_iff]; norm_num

theorem cell_behind : worldToCell (1 : ℝ) ⟨-7 / 2, 1 / 2⟩ = ⟨-4, 0⟩ := by
  simp [worldToCell, Int.floor_eq_iff]; norm_num

theorem two_beams_where {sp : ScanPoint} (h : sp ∈ twoBeams) : sp.occupied = true ∧
    (seenAt ⟨1 / 2, 1 / 2, 0⟩ sp = ⟨9 / 2, 1 / 2⟩ ∨ seenAt ⟨1 / 2, 1 / 2, 0⟩ sp = ⟨-7 / 2, 1 / 2⟩) := by
  simp only [twoBeams, List.mem_cons, List.not_mem_nil, or_false] at h
  rcases h with rfl | rfl
  · exact ⟨rfl, .inl seen_ahead⟩
  · exact ⟨rfl, .inr seen_behind⟩

theorem two_beams_range {sp : ScanPoint} (h : sp ∈ twoBeams) :
    InRange 1000 (1 : ℝ) (seenAt ⟨1 / 2, 1 / 2, 0⟩ sp) ∧
      fuelFor (worldToCell (1 : ℝ) ⟨1 / 2, 1 / 2⟩) (worldToCell (1 : ℝ) (seenAt ⟨1 / 2, 1 / 2, 0⟩ sp)) ≤ 5000 := by
  rcases (two_beams_where h).2 with e | e
  · rw [e, InRange, cell_here, cell_ahead]
    simp [fuelFor]
  · rw [e, InRange, cell_here, cell_behind]
    simp [fuelFor]

theorem two_beams_clear {T : Type} (machine : Machine (CellKind.Cell .mean) T) :
    ClearView (machCfg 5000 machine).slam ⟨1 / 2, 1 / 2, 0⟩ twoBeams ((machCfg 5000 machine).ends ⟨1 / 2, 1 / 2, 0⟩ twoBeams) := by
  have hends : ∀ c, (machCfg 5000 machine).ends ⟨1 / 2, 1 / 2, 0⟩ twoBeams c →
      ∃ sp ∈ twoBeams, worldToCell (1 : ℝ) (seenAt ⟨1 / 2, 1 / 2, 0⟩ sp) = c := by
    rintro c ⟨sp, hsp, rfl⟩
    exact ⟨sp, usable_subset _ _ _ _ _ sp hsp, rfl⟩
  constructor
  · intro c hc
    obtain ⟨sp, hsp, e⟩ := hends c hc
    obtain ⟨j, hj⟩ := List.mem_iff_getElem?.1 hsp
    refine ⟨sp, ⟨j, hj, Nat.zero_le _, ?_⟩, (two_beams_where hsp).1, e, by intro r hr; cases hr⟩
    have := (List.getElem?_eq_some_iff.1 hj).1
    change j + 0 + 1 ≤ _
    omega
  · rintro c hc sp cells ⟨j, hj, -⟩ hcells hin
    have hsp := List.mem_of_getElem? hj
    obtain ⟨sp', hsp', e'⟩ := hends c hc
    have hbox := world_to_cells_in_box (fun _ => true) 1000 (fun _ _ => rfl) (ScanAdder.exactFP (1 : ℝ)) (1 : ℝ) (1 / 2) (1 / 2)
      (seenAt ⟨1 / 2, 1 / 2, 0⟩ sp).x (seenAt ⟨1 / 2, 1 / 2, 0⟩ sp).y 5000
      (by change |(worldToCell (1 : ℝ) ⟨1 / 2, 1 / 2⟩).x| ≤ 1000; rw [cell_here]; simp)
      (by change |(worldToCell (1 : ℝ) ⟨1 / 2, 1 / 2⟩).y| ≤ 1000; rw [cell_here]; simp)
      (two_beams_range hsp).1.1 (two_beams_range hsp).1.2 (two_beams_range hsp).2 hcells c hin
    change Between (worldToCell (1 : ℝ) ⟨1 / 2, 1 / 2⟩) (worldToCell (1 : ℝ) (seenAt ⟨1 / 2, 1 / 2, 0⟩ sp)) c at hbox
    refine ⟨?_, (two_beams_where hsp).1⟩
    change worldToCell (1 : ℝ) (seenAt ⟨1 / 2, 1 / 2, 0⟩ sp) = c
    subst e'
    rw [cell_here] at hbox
    rcases (two_beams_where hsp).2 with e1 | e1 <;> rcases (two_beams_where hsp').2 with e2 | e2 <;>
      simp only [e1, e2, cell_ahead, cell_behind, Between] at hbox ⊢ <;> norm_num at hbox

theorem two_walls_good {T : Type} (machine : Machine (CellKind.Cell .mean) T) :
    GoodMsg (machCfg 5000 machine).slam 30 twoWalls := by
  refine ⟨by simp [twoWalls], ?_, by norm_num [twoWalls], by norm_num [twoWalls], ?_⟩
  · simp only [twoWalls, demoCfg, machCfg, List.length_cons, List.length_nil]
    norm_num
    rw [show 2 * Real.pi - Real.pi - Real.pi = 0 by ring]
    norm_num
  intro pts h
  have h' : msg2scan twoWalls false (1 / 100) = some pts := h
  rw [two_walls_scan, Option.some.injEq] at h'
  subst h'
  right
  simp [demoCfg, machCfg]

theorem still_started {T : Type} (machine : Machine (CellKind.Cell .mean) T) (hk : machine.Keeps demoSpe.imp)
    (t : T) : MachStarted .mean .discrepancy (machCfg 5000 machine) (stillStart t).st.map where
  fits := trivial
  impact := rfl
  lawful := plain_lawful (fun _ => 3 / 2) MeanCell.observe 1 1 MeanCell.create
  adder := const_sound _ _ ⟨by norm_num [Unit01], by norm_num [Unit01]⟩ ⟨by norm_num [Unit01], by norm_num [Unit01]⟩ _ _ _
  qualities := ⟨by norm_num [machCfg, demoCfg, Unit01], by norm_num [machCfg, demoCfg, Unit01]⟩
  scale := by norm_num [machCfg, demoCfg]
  fuel := by norm_num [machCfg]
  keeps := hk

/-- Between two walls, with any matcher that stays: the pose after any number of handled messages. -/
theorem two_walls_still {T : Type} (machine : Machine (CellKind.Cell .mean) T) (hk : machine.Keeps demoSpe.imp)
    (hm : machine.StaysPut demoSpe) (t : T) (n : Nat) {s' : Mach (PlainMap.PMap (MeanCell ℝ)) T}
    (h : (stillStart t).run (machCfg 5000 machine) (List.replicate n (⟨0, 0, 0⟩, twoWalls)) = some s') :
    s'.st.pose = ⟨1 / 2, 1 / 2, 0⟩ :=
  (standing_still_clear_view (still_started machine hk t) hm (occ := ⟨95 / 100, 1⟩) (empty := ⟨1 / 100, 1⟩) (blur := 1 / 2)
    (maxRange := none) rfl (by norm_num) (by norm_num) (by norm_num) (N := 1000) (fun _ _ => rfl) (s := stillStart t) rfl
    (by intro h e; cases e) rfl (scan := twoBeams) ⟨_, two_walls_scan, rfl⟩ (by simp [machCfg, demoCfg, twoBeams])
    (by
      change InRange 1000 (1 : ℝ) ⟨1 / 2, 1 / 2⟩
      rw [InRange, cell_here]; simp)
    (fun sp hsp => two_beams_range hsp) (two_beams_clear machine) n h).1

/-- With the drift detector around Monte Carlo matching, whatever numbers are drawn (within a centimetre): a hundred messages are
handled, and the robot has not moved. -/
example (sample : Nat → ℝ → ℝ → Delta ℝ) (hsam : ∀ n x y, WithinShift (1 / 100) (sample n x y)) (t : MCState ℝ) :
    let machine := driftMachine demoSpe 20 (enumMachine demoSpe (monteCarlo 5 20 (1 / 10) (1 / 10) sample) (20 + 1))
    ∃ s', (stillStart t).run (machCfg 5000 machine) (List.replicate 100 (⟨0, 0, 0⟩, twoWalls)) = some s' ∧
      s'.st.pose = ⟨1 / 2, 1 / 2, 0⟩ := by
  intro machine
  have hf : 0 < demoSpe.cellFuel := by norm_num [demoSpe]
  have hk : machine.Keeps demoSpe.imp := drift_keeps _ (enum_keeps _ _)
  have hs : machine.StaysPut demoSpe := drift_stays_put hf _ (by norm_num) (enum_keeps _ _) (enum_stays_put hf _ _)
  have hin : (enumMachine demoSpe (monteCarlo 5 20 (1 / 10) (1 / 10) sample) (20 + 1)).Safe demoSpe.imp 1 :=
    Machine.Safe.mono (monte_carlo_safe hf 5 20 (1 / 10) (1 / 10) sample (1 / 100) (by norm_num) hsam) (by norm_num)
  have hsafe : machine.Safe demoSpe.imp 2 := Machine.Safe.mono (drift_safe hf 20 (by norm_num) (enum_keeps _ _) hin) (by norm_num)
  obtain ⟨s', h⟩ : ∃ s', (stillStart t).run (machCfg 5000 machine) (List.replicate 100 (⟨0, 0, 0⟩, twoWalls)) = some s' := by
    refine mach_total (still_started machine hk t) 2 (by norm_num) hsafe 1000 (fun _ _ => rfl)
      (by norm_num [machCfg]) 30 1 2 (by norm_num) _ (by
        simp only [List.length_replicate, machCfg, demoCfg]; norm_num)
      (mach_start_sound _ _ (by intro h e; cases e)) (by intro h e; cases e) (by norm_num [stillStart]) ?_
    intro d hd
    rw [List.mem_replicate] at hd
    rw [hd.2]
    exact ⟨two_walls_good _, by norm_num, by norm_num⟩
  exact ⟨s', h, two_walls_still machine hk hs t 100 h⟩

end Slam.Whole
