import Verif.Whole.MachineLaunch
import Verif.Whole.Shipped

/-!
# C93 on configurations: TinySLAM with the idle matcher, the fixed hill climbing and the drift detector
-/

set_option autoImplicit false
set_option linter.unusedSectionVars false

namespace Slam.Config

/-- The idle matcher behind the drift detector. -/
theorem tiny_idle_drift_world {r : ℝ → ℝ} (F : Fair r) (rad : ℝ) (rnd : Nat) :
    ∃ n : Int, 1000 ≤ n ∧ n ≤ 1001 ∧ init1h (stodDec r) rad rnd (listed ((chars% "slam/scmtch/use_amb_drift_detector", chars% "true") :: withMatcher (chars% "idle"))) = some ({ tinyWorld r rnd n with matcher := ⟨.idle, ⟨.std .obstacle .discrepancy, .even, 0, -1⟩, true⟩ }) := by
  obtain ⟨m0, m1, m2, m3, m4, m5, m6, m7, m8, m9, m10, m11⟩ := F.numbers
  obtain ⟨n, c1, c2, hp⟩ := params_of F (t := listed ((chars% "slam/scmtch/use_amb_drift_detector", chars% "true") :: withMatcher (chars% "idle"))) (m := 100) (.inr rfl) m11 (by decide +kernel) (by decide +kernel)
    (by decide +kernel)
  have c1 : (1000 : ℤ) ≤ n := by exact_mod_cast (by linarith : (1000 : ℝ) ≤ n)
  have c2 : n ≤ (1001 : ℤ) := by exact_mod_cast (by linarith : (n : ℝ) ≤ 1001)
  refine ⟨n, c1, c2, (assembled_as_configured _ _ _ _ _).2 ?_⟩
  refine ⟨Or.inr ⟨chars% "0.9", by decide +kernel, m8⟩, Or.inr ⟨chars% "0.6", by decide +kernel, m7⟩, rfl, ⟨("mean_probability", .mean), by simp, Or.inr (by decide +kernel), rfl⟩,
    ⟨⟨("unbounded_plain", .unboundedPlain), by simp, Or.inr (by decide +kernel), rfl⟩, Or.inr ⟨?_, rfl⟩, hp⟩,
    ⟨⟨.obstacle, .discrepancy, rfl, ⟨("discrepancy", .discrepancy), by simp, Or.inl ⟨by decide +kernel, rfl⟩, rfl⟩,
        ("obstacle", .obstacle), by simp, Or.inl ⟨by decide +kernel, rfl⟩, rfl⟩,
      ⟨Or.inr (by decide +kernel), ⟨("even", .even), by simp, Or.inr (by decide +kernel), rfl⟩, Or.inl ⟨by decide +kernel, rfl⟩,
        Or.inl ⟨by decide +kernel, rfl⟩⟩,
      .idle (Or.inr (by decide +kernel)),
      Or.inr ⟨chars% "true", by decide +kernel, show true = false ↔ _ by decide +kernel⟩⟩,
    ⟨⟨("const", false), by simp, Or.inr (by decide +kernel), rfl⟩, Or.inr ⟨chars% "0.95", by decide +kernel, m9⟩, Or.inl ⟨by decide +kernel, rfl⟩,
      Or.inr ⟨chars% "0.01", by decide +kernel, m1⟩, Or.inl ⟨by decide +kernel, rfl⟩, ⟨("idle", false), by simp, Or.inl ⟨by decide +kernel, rfl⟩, rfl⟩,
      Or.inr ⟨chars% "0.5", by decide +kernel, m6⟩, Or.inl ⟨by decide +kernel, rfl⟩⟩⟩
  rintro (⟨h, -⟩ | h) <;> revert h <;> decide +kernel

/-- The fixed hill climbing. -/
theorem tiny_fixed_world {r : ℝ → ℝ} (F : Fair r) (rad : ℝ) (rnd : Nat) :
    ∃ n : Int, 1000 ≤ n ∧ n ≤ 1001 ∧ init1h (stodDec r) rad rnd (listed (withMatcher (chars% "HC_FIXED"))) = some ({ tinyWorld r rnd n with matcher := ⟨.hcFixed, ⟨.std .obstacle .discrepancy, .even, 0, -1⟩, false⟩ }) := by
  obtain ⟨m0, m1, m2, m3, m4, m5, m6, m7, m8, m9, m10, m11⟩ := F.numbers
  obtain ⟨n, c1, c2, hp⟩ := params_of F (t := listed (withMatcher (chars% "HC_FIXED"))) (m := 100) (.inr rfl) m11 (by decide +kernel) (by decide +kernel)
    (by decide +kernel)
  have c1 : (1000 : ℤ) ≤ n := by exact_mod_cast (by linarith : (1000 : ℝ) ≤ n)
  have c2 : n ≤ (1001 : ℤ) := by exact_mod_cast (by linarith : (n : ℝ) ≤ 1001)
  refine ⟨n, c1, c2, (assembled_as_configured _ _ _ _ _).2 ?_⟩
  refine ⟨Or.inr ⟨chars% "0.9", by decide +kernel, m8⟩, Or.inr ⟨chars% "0.6", by decide +kernel, m7⟩, rfl, ⟨("mean_probability", .mean), by simp, Or.inr (by decide +kernel), rfl⟩,
    ⟨⟨("unbounded_plain", .unboundedPlain), by simp, Or.inr (by decide +kernel), rfl⟩, Or.inr ⟨?_, rfl⟩, hp⟩,
    ⟨⟨.obstacle, .discrepancy, rfl, ⟨("discrepancy", .discrepancy), by simp, Or.inl ⟨by decide +kernel, rfl⟩, rfl⟩,
        ("obstacle", .obstacle), by simp, Or.inl ⟨by decide +kernel, rfl⟩, rfl⟩,
      ⟨Or.inr (by decide +kernel), ⟨("even", .even), by simp, Or.inr (by decide +kernel), rfl⟩, Or.inl ⟨by decide +kernel, rfl⟩,
        Or.inl ⟨by decide +kernel, rfl⟩⟩,
      .hcFixed (Or.inr (by decide +kernel)),
      Or.inl ⟨by decide +kernel, rfl⟩⟩,
    ⟨⟨("const", false), by simp, Or.inr (by decide +kernel), rfl⟩, Or.inr ⟨chars% "0.95", by decide +kernel, m9⟩, Or.inl ⟨by decide +kernel, rfl⟩,
      Or.inr ⟨chars% "0.01", by decide +kernel, m1⟩, Or.inl ⟨by decide +kernel, rfl⟩, ⟨("idle", false), by simp, Or.inl ⟨by decide +kernel, rfl⟩, rfl⟩,
      Or.inr ⟨chars% "0.5", by decide +kernel, m6⟩, Or.inl ⟨by decide +kernel, rfl⟩⟩⟩
  rintro (⟨h, -⟩ | h) <;> revert h <;> decide +kernel

/-- TinySLAM's matcher behind the drift detector. -/
theorem tiny_drift_world {r : ℝ → ℝ} (F : Fair r) (rad : ℝ) (rnd : Nat) :
    ∃ n : Int, 1000 ≤ n ∧ n ≤ 1001 ∧ init1h (stodDec r) rad rnd (listed ((chars% "slam/scmtch/use_amb_drift_detector", chars% "true") :: tinyProps)) = some ({ tinyWorld r rnd n with matcher := ⟨.monteCarlo (unsignedToInt rnd) (r (1 / 5)) (r (1 / 10)) 20 100, ⟨.std .obstacle .discrepancy, .even, 0, -1⟩, true⟩ }) := by
  obtain ⟨m0, m1, m2, m3, m4, m5, m6, m7, m8, m9, m10, m11⟩ := F.numbers
  obtain ⟨n, c1, c2, hp⟩ := params_of F (t := listed ((chars% "slam/scmtch/use_amb_drift_detector", chars% "true") :: tinyProps)) (m := 100) (.inr rfl) m11 (by decide +kernel) (by decide +kernel)
    (by decide +kernel)
  have c1 : (1000 : ℤ) ≤ n := by exact_mod_cast (by linarith : (1000 : ℝ) ≤ n)
  have c2 : n ≤ (1001 : ℤ) := by exact_mod_cast (by linarith : (n : ℝ) ≤ 1001)
  refine ⟨n, c1, c2, (assembled_as_configured _ _ _ _ _).2 ?_⟩
  refine ⟨Or.inr ⟨chars% "0.9", by decide +kernel, m8⟩, Or.inr ⟨chars% "0.6", by decide +kernel, m7⟩, rfl, ⟨("mean_probability", .mean), by simp, Or.inr (by decide +kernel), rfl⟩,
    ⟨⟨("unbounded_plain", .unboundedPlain), by simp, Or.inr (by decide +kernel), rfl⟩, Or.inr ⟨?_, rfl⟩, hp⟩,
    ⟨⟨.obstacle, .discrepancy, rfl, ⟨("discrepancy", .discrepancy), by simp, Or.inl ⟨by decide +kernel, rfl⟩, rfl⟩,
        ("obstacle", .obstacle), by simp, Or.inl ⟨by decide +kernel, rfl⟩, rfl⟩,
      ⟨Or.inr (by decide +kernel), ⟨("even", .even), by simp, Or.inr (by decide +kernel), rfl⟩, Or.inl ⟨by decide +kernel, rfl⟩,
        Or.inl ⟨by decide +kernel, rfl⟩⟩,
      .monteCarlo _ _ _ _ _ (Or.inr (by decide +kernel)) (Or.inr ⟨chars% "0.2", by decide +kernel, m4⟩) (Or.inr ⟨chars% "0.1", by decide +kernel, m3⟩)
        (Or.inr ⟨chars% "20", 20, by decide +kernel, by decide +kernel, rfl⟩)
        (Or.inr ⟨chars% "100", 100, by decide +kernel, by decide +kernel, rfl⟩) (Or.inl ⟨by decide +kernel, rfl⟩),
      Or.inr ⟨chars% "true", by decide +kernel, show true = false ↔ _ by decide +kernel⟩⟩,
    ⟨⟨("const", false), by simp, Or.inr (by decide +kernel), rfl⟩, Or.inr ⟨chars% "0.95", by decide +kernel, m9⟩, Or.inl ⟨by decide +kernel, rfl⟩,
      Or.inr ⟨chars% "0.01", by decide +kernel, m1⟩, Or.inl ⟨by decide +kernel, rfl⟩, ⟨("idle", false), by simp, Or.inl ⟨by decide +kernel, rfl⟩, rfl⟩,
      Or.inr ⟨chars% "0.5", by decide +kernel, m6⟩, Or.inl ⟨by decide +kernel, rfl⟩⟩⟩
  rintro (⟨h, -⟩ | h) <;> revert h <;> decide +kernel

end Slam.Config

namespace Slam.Whole
open Slam.Grid Slam.Cells Slam.Poses Slam.Sensor Slam.Score Slam.Matcher Slam.ScanMatch Slam.Worlds
open Slam.Config (stodDec)

/-- TinySLAM with the drift detector around its matcher handles every history of messages it is ready for. -/
example : ∃ P, launchAny (stodDec id) (1 / 60) 7 exampleEnv (fun _ _ _ _ => ⟨1, -1, 1⟩)
      (Config.listed ((chars% "slam/scmtch/use_amb_drift_detector", chars% "true") :: Config.tinyProps)) = some P ∧
    ∀ ds : List (Poses.Pose ℝ × Msg ℝ), ds.length * (100 + 1 / 4) + 1000 + 30 ≤ 1 / 10 * ((1000000 : ℝ) - 1) →
      (∀ d ∈ ds, |d.1.x| ≤ 1000 ∧ |d.1.y| ≤ 1000 ∧ GoodMsg P.cfg.slam 30 d.2) → ∃ s', P.start.run P.cfg ds = some s' := by
  obtain ⟨n, hn, -, hw⟩ := Config.tiny_drift_world Config.fair_id (1 / 60) 7
  have := tiny_sensible Config.fair_id 7 n (by omega)
  obtain ⟨P, h1, h2⟩ := launched_any_total (env := exampleEnv) (sample := fun _ _ _ _ => ⟨1, -1, 1⟩) hw
    ⟨this.growing, this.single, this.size, this.scale, this.occupied, this.empty, this.qualities⟩ rfl trivial (by decide) 100
    (by norm_num) (.inr ⟨_, _, _, _, _, 1, rfl, rfl, by norm_num, by intro n x y; constructor <;> norm_num, by norm_num⟩)
    (by norm_num [exampleEnv]) 1000000 (by intro v hv; simp only [exampleEnv, decide_eq_true_eq]; omega) (by decide) 30 1000
    (by norm_num)
  refine ⟨P, h1, fun ds h3 h4 => h2 ds ?_ h4⟩
  simpa [driftReach, Config.tinyWorld] using h3

/-- The idle matcher behind the drift detector. -/
example : ∃ P, launchAny (stodDec id) (1 / 60) 7 exampleEnv (fun _ _ _ _ => ⟨1, -1, 1⟩)
      (Config.listed ((chars% "slam/scmtch/use_amb_drift_detector", chars% "true") :: Config.withMatcher (chars% "idle"))) = some P ∧
    P.matching = ⟨Unit, driftMachine P.cfg.matcher 101 (idleMachine _), ()⟩ := by
  obtain ⟨n, hn, -, hw⟩ := Config.tiny_idle_drift_world Config.fair_id (1 / 60) 7
  have := tiny_sensible Config.fair_id 7 n (by omega)
  obtain ⟨P, h1⟩ := launched_any_starts (env := exampleEnv) (sample := fun _ _ _ _ => ⟨1, -1, 1⟩) hw
    ⟨this.growing, this.single, this.size, this.scale, this.occupied, this.empty, this.qualities⟩ rfl (by intro _ _ _ _ _; simp)
  refine ⟨P, h1, ?_⟩
  obtain ⟨b, -, h2, h3, -⟩ := launched_any_matcher hw h1
  rw [h2 rfl, h3 rfl]
  rfl

/-- The fixed hill climbing. -/
example : ∃ (k : CellKind) (i : Impact) (cfg : MachCfg k.Cell (AnyMap k.Cell) (BitVec 32)) (s : Mach (AnyMap k.Cell) (BitVec 32)),
    launchAny (stodDec id) (1 / 60) 7 exampleEnv (fun _ _ _ _ => ⟨1, -1, 1⟩)
      (Config.listed (Config.withMatcher (chars% "HC_FIXED"))) = some ⟨k, i, BitVec 32, cfg, s⟩ ∧ s.state = 5 := by
  obtain ⟨n, hn, -, hw⟩ := Config.tiny_fixed_world Config.fair_id (1 / 60) 7
  have := tiny_sensible Config.fair_id 7 n (by omega)
  obtain ⟨k, i, cfg, s, h1, -, h2, -⟩ := launched_fixed_ends (env := exampleEnv) (sample := fun _ _ _ _ => ⟨1, -1, 1⟩) hw
    ⟨this.growing, this.single, this.size, this.scale, this.occupied, this.empty, this.qualities⟩ rfl trivial (by decide) rfl rfl
    (by simp [Config.tinyWorld])
  exact ⟨k, i, cfg, s, h1, h2⟩

end Slam.Whole
