import Verif.Whole.FixedRoam
import Verif.Whole.FixedDemo

/-!
# C111: instances
-/

set_option autoImplicit false
set_option linter.unusedSectionVars false

namespace Slam.Config

/-- TinySLAM with hill climbing on a plain map of fixed size. -/
theorem tiny_hc_plain_world {r : ℝ → ℝ} (F : Fair r) (rad : ℝ) (rnd : Nat) :
    ∃ n : Int, 1000 ≤ n ∧ n ≤ 1001 ∧ init1h (stodDec r) rad rnd (listed ((chars% "slam/mapping/grid/type", chars% "plain") ::
        (withMatcher (chars% "HC")).filter fun kv => kv.1 ≠ (chars% "slam/mapping/grid/type"))) =
      some ({ tinyWorld r rnd n with
        map := { (tinyWorld r rnd n).map with kind := .plain }
        matcher := ⟨.hillClimbing 6 (1 / 10) (1 / 10) false, ⟨.std .obstacle .discrepancy, .even, 0, -1⟩, false⟩ }) := by
  obtain ⟨m0, m1, m2, m3, m4, m5, m6, m7, m8, m9, m10, m11⟩ := F.numbers
  obtain ⟨n, c1, c2, hp⟩ := params_of F (t := listed ((chars% "slam/mapping/grid/type", chars% "plain") ::
        (withMatcher (chars% "HC")).filter fun kv => kv.1 ≠ (chars% "slam/mapping/grid/type"))) (m := 100) (.inr rfl) m11 (by decide +kernel) (by decide +kernel)
    (by decide +kernel)
  have c1 : (1000 : ℤ) ≤ n := by exact_mod_cast (by linarith : (1000 : ℝ) ≤ n)
  have c2 : n ≤ (1001 : ℤ) := by exact_mod_cast (by linarith : (n : ℝ) ≤ 1001)
  refine ⟨n, c1, c2, (assembled_as_configured _ _ _ _ _).2 ?_⟩
  refine ⟨Or.inr ⟨chars% "0.9", by decide +kernel, m8⟩, Or.inr ⟨chars% "0.6", by decide +kernel, m7⟩, rfl, ⟨("mean_probability", .mean), by simp, Or.inr (by decide +kernel), rfl⟩,
    ⟨⟨("plain", .plain), by simp, Or.inr (by decide +kernel), rfl⟩, Or.inr ⟨?_, rfl⟩, hp⟩,
    ⟨⟨.obstacle, .discrepancy, rfl, ⟨("discrepancy", .discrepancy), by simp, Or.inl ⟨by decide +kernel, rfl⟩, rfl⟩,
        ("obstacle", .obstacle), by simp, Or.inl ⟨by decide +kernel, rfl⟩, rfl⟩,
      ⟨Or.inr (by decide +kernel), ⟨("even", .even), by simp, Or.inr (by decide +kernel), rfl⟩, Or.inl ⟨by decide +kernel, rfl⟩,
        Or.inl ⟨by decide +kernel, rfl⟩⟩,
      .hillClimbing _ _ _ _ (Or.inr (by decide +kernel)) (Or.inl ⟨by decide +kernel, rfl⟩) (Or.inl ⟨by decide +kernel, rfl⟩) (Or.inl ⟨by decide +kernel, rfl⟩) (Or.inl ⟨by decide +kernel, rfl⟩),
      Or.inl ⟨by decide +kernel, rfl⟩⟩,
    ⟨⟨("const", false), by simp, Or.inr (by decide +kernel), rfl⟩, Or.inr ⟨chars% "0.95", by decide +kernel, m9⟩, Or.inl ⟨by decide +kernel, rfl⟩,
      Or.inr ⟨chars% "0.01", by decide +kernel, m1⟩, Or.inl ⟨by decide +kernel, rfl⟩, ⟨("idle", false), by simp, Or.inl ⟨by decide +kernel, rfl⟩, rfl⟩,
      Or.inr ⟨chars% "0.5", by decide +kernel, m6⟩, Or.inl ⟨by decide +kernel, rfl⟩⟩⟩
  rintro (⟨h, -⟩ | h) <;> revert h <;> decide +kernel

end Slam.Config

namespace Slam.Whole
open Slam.Grid Slam.Cells Slam.Poses Slam.Sensor Slam.Score Slam.Matcher Slam.ScanMatch Slam.Worlds Slam.Line
open Slam.Config (stodDec)

/-- With hill climbing behind the drift detector, on 2001 by 2001 cells of a metre: nine messages are handled as on the growing map. -/
example (t : HCState ℝ) : ∃ F s1 s1', ∀ f, F ≤ f →
    let machine := driftMachine demoSpe f (enumMachine demoSpe (hillClimbing 6 (1 / 10) (1 / 10)) f)
    (machStart t).run (machCfg 5000 machine)
        ((⟨0, 0, 0⟩, demoDatum.msg) :: List.replicate 8 (demoDatum.odom, demoDatum.msg)) = some s1 ∧
      (fixedDemoStart 2001 t).runFixed (fixedDemo machine)
        ((⟨0, 0, 0⟩, demoDatum.msg) :: List.replicate 8 (demoDatum.odom, demoDatum.msg)) = some s1' ∧
      Alike (machCfg 5000 machine) (fixedDemo machine) MeanCell.create 2001 2001 s1 s1' := by
  have hf : 0 < demoSpe.cellFuel := by norm_num [demoSpe]
  have hin : ∀ f, (enumMachine demoSpe (hillClimbing 6 (1 / 10) (1 / 10)) f).Keeps demoSpe.imp := fun f => enum_keeps _ _
  have hroam := drift_roams hf hin (hill_climbing_roams hf 6 (1 / 10) (1 / 10))
  have hlook := drift_looks hf (enum_steady _) (hill_climbing_roams hf 6 (1 / 10) (1 / 10)) (hill_climbing_looks hf 6 (1 / 10) (1 / 10))
  obtain ⟨F, s1, s1', h1, h2⟩ := fixed_roam_total
    (m := fun f => driftMachine demoSpe f (enumMachine demoSpe (hillClimbing 6 (1 / 10) (1 / 10)) f))
    (cfg := machCfg 5000 (driftMachine demoSpe 0 (enumMachine demoSpe (hillClimbing 6 (1 / 10) (1 / 10)) 0)))
    (cfg' := fixedDemo (driftMachine demoSpe 0 (enumMachine demoSpe (hillClimbing 6 (1 / 10) (1 / 10)) 0)))
    (fun f => mach_demo_started 5000 _ (drift_keeps f (hin f)) t)
    ⟨rfl, rfl, rfl, rfl, rfl, rfl, rfl, rfl, rfl⟩ (fixed_demo_holds _ 2001) hroam hlook (fun _ e => by cases e)
    (by norm_num) (by positivity) 1000 (fun _ _ => rfl) (by norm_num [machCfg]) (by norm_num) (by norm_num)
    (R := 30) (D := 2) (by norm_num) (by norm_num)
    ((⟨0, 0, 0⟩, demoDatum.msg) :: List.replicate 8 (demoDatum.odom, demoDatum.msg)) 31
    (by
      rw [abs_of_pos (by norm_num : (0 : ℝ) < 1 / 10)]
      simp only [List.length_replicate, List.length_cons, machCfg, demoCfg, spread]; norm_num)
    (machStart t) (fixedDemoStart 2001 t)
    ⟨by norm_num [PoseWithin, machStart, demoStart], ⟨[], rfl, by simp [Tbm.SaneT], by simp⟩, trivial, (by intro h e; cases e), mach_demo_hist⟩
    (same_start (fixed_demo_holds _ 2001) rfl rfl rfl rfl rfl rfl rfl)
    (by
      simp only [Strides, List.map_cons, List.map_replicate, List.replicate, List.isChain_cons_cons, demoDatum, machStart, demoStart]
      norm_num)
    (by
      intro d hd
      rw [List.mem_cons, List.mem_replicate] at hd
      rcases hd with rfl | ⟨-, rfl⟩
      · exact mach_demo_good _ _
      · exact mach_demo_good _ _)
  refine ⟨F, s1, s1', fun f hle => ⟨(h1 f hle).1, (h1 f hle).2, ?_⟩⟩
  exact same_alike (upd := MeanCell.observe)
    (mach_demo_started 5000 _ (drift_keeps f (hin f)) t).lawful
    (fixed_demo_holds _ 2001) (h2.withMachine _)

/-- TinySLAM with hill climbing on a plain map of 1000 (1001) by 1000 (1001) cells of ten centimetres: thirteen messages with strides of up to
ten centimetres and ranges of up to a metre are handled as on the growing map. -/
example (ds : List (Poses.Pose ℝ × Msg ℝ)) (hlen : ds.length ≤ 13) (hstr : Strides (1 / 10) ⟨0, 0, 0⟩ ds) (t : Config.Table)
    (ht : t = Config.listed ((chars% "slam/mapping/grid/type", chars% "plain") ::
        (Config.withMatcher (chars% "HC")).filter fun kv => kv.1 ≠ (chars% "slam/mapping/grid/type")))
    (hd : ∀ d ∈ ds, Ready (skipExceeding t) exampleEnv.tol 0 1 d.2) :
    ∃ (F : Nat) (T : Type) (cfg cfg' : Nat → MachCfg (CellKind.Cell .mean) (AnyMap (CellKind.Cell .mean)) T)
      (s s' s1 s1' : Mach (AnyMap (CellKind.Cell .mean)) T),
      (∀ f, launchFixed (stodDec id) (1 / 60) 7 { exampleEnv with fuel := f } (fun _ _ _ _ => ⟨1, -1, 1⟩) t =
        some ⟨.mean, .discrepancy, T, cfg' f, s'⟩) ∧
      ∀ f, F ≤ f → s.run (cfg f) ds = some s1 ∧ s'.runFixed (cfg' f) ds = some s1' ∧ s1'.st.pose = s1.st.pose := by
  subst ht
  obtain ⟨n, hn, hn', hw⟩ := Config.tiny_hc_plain_world Config.fair_id (1 / 60) 7
  have := tiny_sensible Config.fair_id 7 n (by omega)
  obtain ⟨F, T, cfg, cfg', s, s', s1, s1', h1, -, h2⟩ := launched_fixed_roams (env := exampleEnv) (sample := fun _ _ _ _ => ⟨1, -1, 1⟩)
    (b := 1 / 10) hw
    (.inl rfl) ⟨.inl rfl, this.single, this.size, this.scale, this.occupied, this.empty, this.qualities⟩ rfl trivial (by decide)
    (by
      change (1 / 10 : ℝ) = |1 / 10|
      rw [abs_of_pos (by norm_num)])
    (fun _ e => by cases e) 499 (by intro v hv; simp only [exampleEnv, decide_eq_true_eq]; omega)
    (by decide) (by simp only [Config.tinyWorld]; omega) (by simp only [Config.tinyWorld]; omega) (R := 1) (D := 1 / 10) (by norm_num)
    (by norm_num) ds hstr hd (by
      have : (ds.length : ℝ) ≤ 13 := by exact_mod_cast hlen
      simp only [spread, driftReach, Config.tinyWorld, id]
      norm_num
      linarith)
  exact ⟨F, T, cfg, cfg', s, s', s1, s1', h1, fun f hle => ⟨(h2 f hle).1, (h2 f hle).2.1, (h2 f hle).2.2.pose⟩⟩

end Slam.Whole
