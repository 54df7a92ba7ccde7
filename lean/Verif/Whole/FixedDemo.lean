import Verif.Whole.FixedLaunch
import Verif.Whole.MachineShipped

/-!
# C96: instances
-/

set_option autoImplicit false
set_option linter.unusedSectionVars false

namespace Slam.Config

/-- TinySLAM with the idle matcher on a plain map of fixed size. -/
theorem tiny_idle_plain_world {r : ℝ → ℝ} (F : Fair r) (rad : ℝ) (rnd : Nat) :
    ∃ n : Int, 1000 ≤ n ∧ n ≤ 1001 ∧ init1h (stodDec r) rad rnd (listed ((chars% "slam/mapping/grid/type", chars% "plain") ::
        (withMatcher (chars% "idle")).filter fun kv => kv.1 ≠ (chars% "slam/mapping/grid/type"))) =
      some ({ tinyWorld r rnd n with
        map := { (tinyWorld r rnd n).map with kind := .plain }
        matcher := ⟨.idle, ⟨.std .obstacle .discrepancy, .even, 0, -1⟩, false⟩ }) := by
  obtain ⟨m0, m1, m2, m3, m4, m5, m6, m7, m8, m9, m10, m11⟩ := F.numbers
  obtain ⟨n, c1, c2, hp⟩ := params_of F (t := listed ((chars% "slam/mapping/grid/type", chars% "plain") ::
        (withMatcher (chars% "idle")).filter fun kv => kv.1 ≠ (chars% "slam/mapping/grid/type"))) (m := 100) (.inr rfl) m11 (by decide +kernel) (by decide +kernel)
    (by decide +kernel)
  have c1 : (1000 : ℤ) ≤ n := by exact_mod_cast (by linarith : (1000 : ℝ) ≤ n)
  have c2 : n ≤ (1001 : ℤ) := by exact_mod_cast (by linarith : (n : ℝ) ≤ 1001)
  refine ⟨n, c1, c2, (assembled_as_configured _ _ _ _ _).2 ?_⟩
  refine ⟨Or.inr ⟨chars% "0.9", by decide +kernel, m8⟩, Or.inr ⟨chars% "0.6", by decide +kernel, m7⟩, rfl, ⟨("mean_probability", .mean), by simp, Or.inr (by decide +kernel), rfl⟩,
    ⟨⟨("plain", .plain), by simp, Or.inr (by decide +kernel), rfl⟩, Or.inr ⟨?_, rfl⟩, hp⟩,
    ⟨⟨.obstacle, .discrepancy, rfl, ⟨("discrepancy", .discrepancy), by simp, Or.inl ⟨by decide +kernel, rfl⟩, rfl⟩,
        ("obstacle", .obstacle), by simp, Or.inl ⟨by decide +kernel, rfl⟩, rfl⟩,
      ⟨Or.inr (by decide +kernel), ⟨("even", .even), by simp, Or.inr (by decide +kernel), rfl⟩, Or.inl ⟨by decide +kernel, rfl⟩,
        Or.inl ⟨by decide +kernel, rfl⟩⟩,
      .idle (Or.inr (by decide +kernel)),
      Or.inl ⟨by decide +kernel, rfl⟩⟩,
    ⟨⟨("const", false), by simp, Or.inr (by decide +kernel), rfl⟩, Or.inr ⟨chars% "0.95", by decide +kernel, m9⟩, Or.inl ⟨by decide +kernel, rfl⟩,
      Or.inr ⟨chars% "0.01", by decide +kernel, m1⟩, Or.inl ⟨by decide +kernel, rfl⟩, ⟨("idle", false), by simp, Or.inl ⟨by decide +kernel, rfl⟩, rfl⟩,
      Or.inr ⟨chars% "0.5", by decide +kernel, m6⟩, Or.inl ⟨by decide +kernel, rfl⟩⟩⟩
  rintro (⟨h, -⟩ | h) <;> revert h <;> decide +kernel

end Slam.Config

namespace Slam.Whole
open Slam.Grid Slam.Cells Slam.Poses Slam.Sensor Slam.Score Slam.Matcher Slam.ScanMatch Slam.Worlds Slam.Line
open Slam.Config (stodDec)

/-- The program of `machCfg` on a plain map of fixed size. -/
noncomputable def fixedDemo {T : Type} (machine : Machine (CellKind.Cell .mean) T) :
    MachCfg (CellKind.Cell .mean) (PlainMap.PMap (MeanCell ℝ)) T :=
  { machCfg 5000 machine with slam := { (machCfg 5000 machine).slam with api := boundedApi MeanCell.observe } }

/-- Its start on a map of `w` by `w` cells. -/
noncomputable def fixedDemoStart {T : Type} (w : Nat) (t : T) : Mach (PlainMap.PMap (MeanCell ℝ)) T :=
  ⟨{ demoStart with map := PlainMap.create w w MeanCell.create }, .even 1, t⟩

theorem fixed_demo_holds {T : Type} (machine : Machine (CellKind.Cell .mean) T) (w : Nat) :
    Holds (fixedDemo machine) MeanCell.observe MeanCell.create w w (PlainMap.create w w MeanCell.create) := by
  intro us hu
  obtain ⟨m, h1, h2, h3, h4, h5⟩ := bounded_holds MeanCell.observe w w MeanCell.create us hu
  exact ⟨m, h1, ⟨by simp only [fixedDemo, machCfg, h2, h3], h4⟩, h5⟩

theorem fixed_demo_refuses {T : Type} (machine : Machine (CellKind.Cell .mean) T) (w : Nat) :
    Refuses (fixedDemo machine) w w (PlainMap.create w w MeanCell.create) :=
  fun us _ hm => bounded_refuses MeanCell.observe w w MeanCell.create us hm

/-- With the Monte Carlo matcher behind the drift detector, on 2001 by 2001 cells of a metre: four hundred messages are handled as
on the growing map. -/
example (sample : Nat → ℝ → ℝ → Delta ℝ) (hsam : ∀ n x y, WithinShift (1 / 100) (sample n x y)) :
    let machine := driftMachine demoSpe 7 (enumMachine demoSpe (monteCarlo 20 100 (1 / 10) (1 / 10) sample) 101)
    ∃ s1 s1', (machStart ⟨0, 0, 0, 0, 0⟩).run (machCfg 5000 machine) (List.replicate 400 (demoDatum.odom, demoDatum.msg)) = some s1 ∧
      (fixedDemoStart 2001 ⟨0, 0, 0, 0, 0⟩).runFixed (fixedDemo machine) (List.replicate 400 (demoDatum.odom, demoDatum.msg)) =
        some s1' ∧
      Alike (machCfg 5000 machine) (fixedDemo machine) MeanCell.create 2001 2001 s1 s1' := by
  intro machine
  have hf : 0 < demoSpe.cellFuel := by norm_num [demoSpe]
  have hin : (enumMachine demoSpe (monteCarlo 20 100 (1 / 10) (1 / 10) sample) 101).Keeps demoSpe.imp := enum_keeps _ _
  have hsafe : machine.Safe demoSpe.imp (5 / 4) :=
    Machine.Safe.mono (drift_safe hf 7 le_rfl hin
      (monte_carlo_safe hf 20 100 (1 / 10) (1 / 10) sample (1 / 100) (by norm_num) hsam)) (by norm_num)
  obtain ⟨l1, l2⟩ := monte_carlo_local hf 20 100 (1 / 10) (1 / 10) sample (1 / 100) (by norm_num) hsam 101
  have hread : machine.Reads (Matcher.Near (5 / 4)) := by
    have := (drift_near hf 7 l1 l2).1
    rwa [show ((100 : ℕ) : ℝ) * (1 / 100) + 1 / 4 = 5 / 4 by norm_num] at this
  have hstart := mach_demo_started 5000 machine (drift_keeps 7 hin) ⟨0, 0, 0, 0, 0⟩
  obtain ⟨s1, s1', h1, h2, h3⟩ := fixed_as_growing (cfg' := fixedDemo machine) hstart ⟨rfl, rfl, rfl, rfl, rfl, rfl, rfl, rfl, rfl⟩
    (fixed_demo_holds machine 2001) (5 / 4) (by norm_num) hsafe hread 1000 (fun _ _ => rfl) (by norm_num [machCfg]) (by norm_num)
    (by norm_num) 30 0 2 (by norm_num) (List.replicate 400 (demoDatum.odom, demoDatum.msg))
    (by simp only [List.length_replicate, machCfg, demoCfg]; norm_num)
    (s := machStart ⟨0, 0, 0, 0, 0⟩) (s' := fixedDemoStart 2001 ⟨0, 0, 0, 0, 0⟩)
    (mach_start_sound _ _ (by intro h e; cases e)) (same_start (fixed_demo_holds machine 2001) rfl rfl rfl rfl rfl rfl rfl)
    mach_demo_hist (by norm_num [machStart, demoStart]) (by
      intro d hd
      rw [List.mem_replicate] at hd
      rw [hd.2]
      exact ⟨mach_demo_good _ _, by norm_num [demoDatum], by norm_num [demoDatum]⟩)
  exact ⟨s1, s1', h1, h2, same_alike hstart.lawful (fixed_demo_holds machine 2001) h3⟩

/-- On nine by nine cells the same message, with a wall six cells from the middle, stops the program at once. -/
example : (fixedDemoStart 9 ()).handleFixed (fixedDemo (idleMachine _)) (demoDatum.odom, demoDatum.msg) = none := by
  cases h : (fixedDemoStart 9 ()).handleFixed (fixedDemo (idleMachine _)) (demoDatum.odom, demoDatum.msg) with
  | none => rfl
  | some s2 =>
    exfalso
    obtain ⟨scan, ⟨pts, e1, e2⟩, h1⟩ := fixed_stops_outside (fixed_demo_refuses (idleMachine _) 9) [] (s := fixedDemoStart 9 ()) rfl rfl _ h
    have e1' : msg2scan demoDatum.msg false (1 / 100) = some pts := e1
    rw [demo_message, Option.some.injEq] at e1'
    subst e1'
    simp only [scanOf, Option.bind_some, Option.map_some, Option.some.injEq] at e2
    subst e2
    have hp : s2.st.pose = ⟨2, 0, 0⟩ := by
      simp only [Mach.handleFixed, Mach.handleSeeing, Option.bind_eq_some_iff, Option.map_eq_some_iff] at h
      obtain ⟨pts, -, scan, -, r, e, a, -, rfl⟩ := h
      simp only [fixedDemo, machCfg, idleMachine, Option.some.injEq] at e
      subst e
      simp [fixedDemoStart, demoStart, demoDatum, observerStep, Poses.Pose.add, Poses.Pose.sub]
    obtain ⟨cells, c1, c2⟩ := h1 0 _ rfl (by simp [fixedDemo, machCfg, demoCfg]) (by simp [fixedDemo, machCfg, demoCfg])
      (by intro R hR; simp [fixedDemo, machCfg, demoCfg] at hR)
    rw [hp] at c1
    obtain ⟨cells', d1, d2, -⟩ := world_to_cells_connects (fun _ => true) 6 (fun _ _ => rfl) (ScanAdder.exactFP (1 : ℝ)) 1 2 0 6 0 5000
      (by norm_num [ScanAdder.exactFP, worldToCell]) (by norm_num [ScanAdder.exactFP, worldToCell])
      (by norm_num [ScanAdder.exactFP, worldToCell]) (by norm_num [ScanAdder.exactFP, worldToCell])
      (by norm_num [ScanAdder.exactFP, worldToCell, fuelFor])
    have e6 : (seenAt ⟨2, 0, 0⟩ (ScanPoint.polar 4 0 true 1)).x = (6 : ℝ) ∧ (seenAt ⟨2, 0, 0⟩ (ScanPoint.polar 4 0 true 1)).y = (0 : ℝ) := by
      norm_num [seenAt, ScanPoint.x, ScanPoint.y]
    rw [e6.1, e6.2] at c1
    have hcells : cells' = cells := Option.some.inj (d1.symm.trans c1)
    subst hcells
    have hl := d2.last
    have := c2 _ (List.mem_of_getLast? hl)
    norm_num [ScanAdder.exactFP, worldToCell, Within] at this

/-- TinySLAM with the idle matcher on a plain map of 1000 (1001) by 1000 (1001) cells of ten centimetres: while the robot and what it
sees are within 49.8 metres, it is as good as on the growing map; and it never answers differently. -/
example : ∃ (T : Type) (cfg cfg' : MachCfg (CellKind.Cell .mean) (AnyMap (CellKind.Cell .mean)) T)
      (s s' : Mach (AnyMap (CellKind.Cell .mean)) T),
    launchFixed (stodDec id) (1 / 60) 7 exampleEnv (fun _ _ _ _ => ⟨1, -1, 1⟩)
      (Config.listed ((chars% "slam/mapping/grid/type", chars% "plain") ::
        (Config.withMatcher (chars% "idle")).filter fun kv => kv.1 ≠ (chars% "slam/mapping/grid/type"))) =
        some ⟨.mean, .discrepancy, T, cfg', s'⟩ ∧
    ∀ ds : List (Poses.Pose ℝ × Msg ℝ), (∀ d ∈ ds, |d.1.x| ≤ 20 ∧ |d.1.y| ≤ 20 ∧ GoodMsg cfg'.slam (298 / 10) d.2) →
      ∃ s1 s1', s.run cfg ds = some s1 ∧ s'.runFixed cfg' ds = some s1' ∧ s1'.st.pose = s1.st.pose := by
  obtain ⟨n, hn, hn', hw⟩ := Config.tiny_idle_plain_world Config.fair_id (1 / 60) 7
  have := tiny_sensible Config.fair_id 7 n (by omega)
  obtain ⟨T, cfg, cfg', s, s', h1, -, h2⟩ := launched_fixed_as_growing (env := exampleEnv) (sample := fun _ _ _ _ => ⟨1, -1, 1⟩) hw
    (.inl rfl) ⟨.inl rfl, this.single, this.size, this.scale, this.occupied, this.empty, this.qualities⟩ rfl trivial (by decide) 0
    le_rfl (.inl ⟨rfl, rfl⟩) (by norm_num [exampleEnv]) 499 (by intro v hv; simp only [exampleEnv, decide_eq_true_eq]; omega)
    (by decide) (by simp only [Config.tinyWorld]; omega) (by simp only [Config.tinyWorld]; omega) (298 / 10) 20 (by norm_num)
  refine ⟨T, cfg, cfg', s, s', h1, fun ds hd => ?_⟩
  obtain ⟨s1, s1', g1, g2, g3⟩ := h2 ds (by norm_num [driftReach, Config.tinyWorld]) hd
  exact ⟨s1, s1', g1, g2, g3.pose⟩

end Slam.Whole
