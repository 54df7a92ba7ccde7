import Verif.Whole.MultiresLaunch
import Verif.Whole.Shipped

/-!
# C95 on configurations: TinySLAM and the credibilist SLAM with config/common/bf_m3rsm.properties
-/

set_option autoImplicit false
set_option linter.unusedSectionVars false

namespace Slam.Config

/-- Specification: TinySLAM's configuration with config/common/bf_m3rsm.properties included. (The limits of that file have
names that the program does not ask for, `shipped_properties_ignored_counterexample`.) -/
def m3rsmProps : List (Str × Str) :=
  [(chars% "slam/scmtch/type", chars% "BF_M3RSM"),
    (chars% "slam/scmtch/oope/type", chars% "max"),
    (chars% "slam/scmtch/BF_M3RSM/accuracy/rotation", chars% "0.0017"),
    (chars% "slam/scmtch/BF_M3RSM/accuracy/translation", chars% "0.05"),
    (chars% "slam/scmtch/BF_M3RSM/limit/rotation", chars% "0.087"),
    (chars% "slam/scmtch/BF_M3RSM/limit/x_translation", chars% "1"),
    (chars% "slam/scmtch/BF_M3RSM/limit/y_translation", chars% "1")] ++ tinyProps

/-- Specification: the SLAM they describe. -/
noncomputable def m3rsmWorld (r : ℝ → ℝ) (rad : ℝ) (n : Int) (cell : CellModel) (loc raw : ℝ) : World ℝ where
  localizedQuality := loc
  rawQuality := raw
  margin := 0
  map := ⟨.unboundedPlain, some .discrepancy, cell, ⟨n, n, r (1 / 10)⟩⟩
  matcher := ⟨.m3rsm 1 1 (5 * rad) (r (17 / 10000)) (r (1 / 20)), ⟨.std .max .discrepancy, .even, 0, -1⟩, false⟩
  adder := ⟨false, r (19 / 20), 1, r (1 / 100), 1, false, r (1 / 2), none⟩

theorem m3rsm_parts {r : ℝ → ℝ} (F : Fair r) (rad : ℝ) (rnd : Nat) (cell : CellModel) (loc raw : ℝ) :
    ∃ n : Int, 1000 ≤ n ∧ n ≤ 1001 ∧ MapSpec (stodDec r) (listed m3rsmProps) (m3rsmWorld r rad n cell loc raw).map ∧
      MatcherSpec (stodDec r) rad rnd (listed m3rsmProps) (m3rsmWorld r rad n cell loc raw).matcher ∧
      AdderSpec (stodDec r) (listed m3rsmProps) (m3rsmWorld r rad n cell loc raw).adder := by
  obtain ⟨m0, m1, m2, m3, m4, m5, m6, m7, m8, m9, m10, m11⟩ := F.numbers
  have a1 : stodDec r (chars% "0.0017") = some (r (17 / 10000)) :=
    F.number (17 / 10000) _ (by decide +kernel) (by norm_num) (by norm_num [abs_of_pos])
  have a2 : stodDec r (chars% "0.05") = some (r (1 / 20)) :=
    F.number (1 / 20) _ (by decide +kernel) (by norm_num) (by norm_num [abs_of_pos])
  obtain ⟨n, c1, c2, hp⟩ := params_of F (t := listed m3rsmProps) (m := 100) (.inr rfl) m11 (by decide +kernel)
    (by decide +kernel) (by decide +kernel)
  have c1 : (1000 : ℤ) ≤ n := by exact_mod_cast (by linarith : (1000 : ℝ) ≤ n)
  have c2 : n ≤ (1001 : ℤ) := by exact_mod_cast (by linarith : (n : ℝ) ≤ 1001)
  refine ⟨n, c1, c2,
    ⟨⟨("unbounded_plain", .unboundedPlain), by simp, Or.inr (by decide +kernel), rfl⟩,
      Or.inl ⟨Or.inr (by decide +kernel), .discrepancy, rfl, ("discrepancy", .discrepancy), by simp,
        Or.inl ⟨by decide +kernel, rfl⟩, rfl⟩, hp⟩,
    ⟨⟨.max, .discrepancy, rfl, ⟨("discrepancy", .discrepancy), by simp, Or.inl ⟨by decide +kernel, rfl⟩, rfl⟩,
        ("max", .max), by simp, Or.inr (by decide +kernel), rfl⟩,
      ⟨Or.inr (by decide +kernel), ⟨("even", .even), by simp, Or.inr (by decide +kernel), rfl⟩, Or.inl ⟨by decide +kernel, rfl⟩,
        Or.inl ⟨by decide +kernel, rfl⟩⟩,
      .m3rsm _ _ _ _ _ (Or.inr (by decide +kernel)) (Or.inl ⟨by decide +kernel, rfl⟩) (Or.inl ⟨by decide +kernel, rfl⟩)
        (Or.inl ⟨by decide +kernel, rfl⟩) (Or.inr ⟨chars% "0.0017", by decide +kernel, a1⟩)
        (Or.inr ⟨chars% "0.05", by decide +kernel, a2⟩),
      Or.inl ⟨by decide +kernel, rfl⟩⟩,
    ⟨⟨("const", false), by simp, Or.inr (by decide +kernel), rfl⟩, Or.inr ⟨chars% "0.95", by decide +kernel, m9⟩,
      Or.inl ⟨by decide +kernel, rfl⟩, Or.inr ⟨chars% "0.01", by decide +kernel, m1⟩, Or.inl ⟨by decide +kernel, rfl⟩,
      ⟨("idle", false), by simp, Or.inl ⟨by decide +kernel, rfl⟩, rfl⟩, Or.inr ⟨chars% "0.5", by decide +kernel, m6⟩,
      Or.inl ⟨by decide +kernel, rfl⟩⟩⟩

theorem tiny_m3rsm_world {r : ℝ → ℝ} (F : Fair r) (rad : ℝ) (rnd : Nat) :
    ∃ n : Int, 1000 ≤ n ∧ n ≤ 1001 ∧ init1h (stodDec r) rad rnd (listed m3rsmProps) =
      some (m3rsmWorld r rad n .mean (r (9 / 10)) (r (3 / 5))) := by
  obtain ⟨m0, m1, m2, m3, m4, m5, m6, m7, m8, m9, m10, m11⟩ := F.numbers
  obtain ⟨n, c1, c2, h1, h2, h3⟩ := m3rsm_parts F rad rnd .mean (r (9 / 10)) (r (3 / 5))
  refine ⟨n, c1, c2, (assembled_as_configured _ _ _ _ _).2
    ⟨Or.inr ⟨chars% "0.9", by decide +kernel, m8⟩, Or.inr ⟨chars% "0.6", by decide +kernel, m7⟩, rfl,
    ⟨("mean_probability", .mean), by simp, Or.inr (by decide +kernel), rfl⟩, h1, h2, h3⟩⟩

theorem credibilist_m3rsm_world {r : ℝ → ℝ} (F : Fair r) (rad : ℝ) (rnd : Nat) :
    ∃ n : Int, 1000 ≤ n ∧ n ≤ 1001 ∧ initCredibilist (stodDec r) rad rnd (listed m3rsmProps) =
      some (m3rsmWorld r rad n .credibilist (9 / 10) (3 / 5)) := by
  obtain ⟨n, c1, c2, h1, h2, h3⟩ := m3rsm_parts F rad rnd .credibilist (9 / 10) (3 / 5)
  exact ⟨n, c1, c2, (credibilist_as_configured _ _ _ _ _).2 ⟨rfl, rfl, rfl, rfl, h1, h2, h3⟩⟩

end Slam.Config

namespace Slam.Whole
open Slam.Grid Slam.Cells Slam.Poses Slam.Sensor Slam.Score Slam.Matcher Slam.Worlds Slam.Tbm
open Slam.Multires (MMap)
open Slam.Config (stodDec Fair m3rsmProps m3rsmWorld)

theorem fair_near {r : ℝ → ℝ} (F : Fair r) {v : ℝ} (h1 : 1 / 1024 ≤ v) (h2 : v ≤ 1024) : v / 2 ≤ r v ∧ r v ≤ 2 * v := by
  have hp : 0 < v := lt_of_lt_of_le (by norm_num) h1
  have := F.rel v (by rw [abs_of_pos hp]; exact h1) (by rw [abs_of_pos hp]; exact h2)
  rw [abs_of_pos hp] at this
  have h3 : v / 2 ^ 50 ≤ v / 2 := div_le_div_of_nonneg_left hp.le (by norm_num) (by norm_num)
  have := abs_le.1 (this.trans h3)
  constructor <;> linarith

/-- Both configurations are sensible, if a degree is less than a tenth and there are 5000 rotations to spare. -/
theorem m3rsm_sensible {G : Type} {env : MrEnv G} {r : ℝ → ℝ} (F : Fair r) {rad : ℝ} (h0 : 0 ≤ rad) (h1 : rad ≤ 1 / 10) (n : Int)
    (hn : 0 ≤ n) (cell : Config.CellModel) (hc : cell = .mean ∨ cell = .credibilist) (loc raw : ℝ)
    (hq : Unit01 loc ∧ Unit01 raw) (hs : 0 ≤ env.slack) (hf : 5000 ≤ env.base.fuel) (hcf : 1 ≤ env.base.cellFuel) :
    SensibleMr env (m3rsmWorld r rad n cell loc raw) .discrepancy 1 1 (5 * rad) (r (17 / 10000)) (r (1 / 20)) where
  drift := rfl
  oope := rfl
  algo := rfl
  growing := .inl rfl
  size := ⟨hn, hn⟩
  scale := by
    have := (fair_near F (v := 1 / 10) (by norm_num) (by norm_num)).1
    show 2 / 10 ^ 9 < r (1 / 10)
    norm_num at this ⊢
    linarith
  occupied := ⟨fair_unit F (by norm_num) (by norm_num), by norm_num [m3rsmWorld, Unit01]⟩
  empty := ⟨fair_unit F (by norm_num) (by norm_num), by norm_num [m3rsmWorld, Unit01]⟩
  qualities := hq
  fits := trivial
  tells := .inl rfl
  window := ⟨one_pos, one_pos⟩
  turn := ⟨by linarith, by linarith [(fair_near F (v := 17 / 10000) (by norm_num) (by norm_num)).1]⟩
  step := by
    have := (fair_near F (v := 1 / 20) (by norm_num) (by norm_num)).1
    have h : (1 : ℝ) / 2 ^ 52 < 1 / 40 := by norm_num
    linarith
  slack := hs
  rotations := by
    have := (fair_near F (v := 17 / 10000) (by norm_num) (by norm_num)).1
    have hf' : (5000 : ℝ) ≤ env.base.fuel := by exact_mod_cast hf
    nlinarith
  cells := hcf

/-- **TinySLAM with the shipped multi-resolution configuration starts (C95)**, with everything as configured, and gets over
every history of messages it is ready for. -/
theorem tiny_m3rsm_runs {G : Type} {env : MrEnv G} {r : ℝ → ℝ} (F : Fair r) {rad : ℝ} (h0 : 0 ≤ rad) (h1 : rad ≤ 1 / 10) (rnd : Nat)
    (hs : 0 ≤ env.slack) (hf : 5000 ≤ env.base.fuel) (hcf : 1 ≤ env.base.cellFuel) (N : Int)
    (hok : ∀ v, |v| ≤ 6 * N → env.base.ok v = true) (hl : 4 * N + 2 ≤ env.base.lineFuel) :
    ∃ n P, 1000 ≤ n ∧ n ≤ 1001 ∧ launchMr false (stodDec r) rad rnd env (Config.listed m3rsmProps) = some P ∧
      MrAsConfigured (m3rsmWorld r rad n .mean (r (9 / 10)) (r (3 / 5))) .discrepancy 1 1 (5 * rad) (r (17 / 10000)) (r (1 / 20))
        false env.base.shift P ∧
      ∀ (R B : ℝ) (ds1 ds2 : List (Poses.Pose ℝ × Msg ℝ)), 0 ≤ R →
        (ds1 ++ ds2).length * 1 + B + R ≤ r (1 / 10) * (N - 1) →
        (∀ d ∈ ds1 ++ ds2, GoodMsg P.cfg.slam R d.2 ∧ Looks P.cfg d.2 ∧ |d.1.x| ≤ B ∧ |d.1.y| ≤ B) →
        ∀ s1, Mr.Runs P.cfg P.start ds1 s1 → ∃ s2, Mr.Runs P.cfg s1 ds2 s2 := by
  obtain ⟨n, c1, c2, hw⟩ := Config.tiny_m3rsm_world F rad rnd
  have hw' : assemble false (stodDec r) rad rnd (Config.listed m3rsmProps) =
      some (m3rsmWorld r rad n .mean (r (9 / 10)) (r (3 / 5))) := hw
  have hsen := m3rsm_sensible (env := env) F h0 h1 n (by omega) .mean (.inl rfl) (r (9 / 10)) (r (3 / 5))
    ⟨fair_unit F (by norm_num) (by norm_num), fair_unit F (by norm_num) (by norm_num)⟩ hs hf hcf
  obtain ⟨P, hP, hc⟩ := launched_mr_starts hw' hsen
  refine ⟨n, P, c1, c2, hP, ?_, ?_⟩
  · have e : Config.getBool (Config.listed m3rsmProps) "in/lscan2D/skip_exceeding_vals".toList false = false := by decide +kernel
    rw [e] at hc
    exact hc
  · intro R B ds1 ds2 hR hN hd s1 h1
    exact launched_mr_total hw' hsen hP N hok hl R B hR ds1 ds2 (by rw [max_self]; exact hN) hd h1

/-- **The credibilist SLAM with the shipped multi-resolution configuration (C95)**: it starts, and no assertion of the search
ever fails. -/
theorem credibilist_m3rsm_runs {G : Type} {env : MrEnv G} {r : ℝ → ℝ} (F : Fair r) {rad : ℝ} (h0 : 0 ≤ rad) (h1 : rad ≤ 1 / 10)
    (rnd : Nat) (hs : 0 ≤ env.slack) (hf : 5000 ≤ env.base.fuel) (hcf : 1 ≤ env.base.cellFuel) :
    ∃ P, launchMr true (stodDec r) rad rnd env (Config.listed m3rsmProps) = some P ∧ P.kind = .tbm .credibilist ∧
      (2 : ℝ) * P.cfg.xLimit ≤ P.cfg.slam.scale * 2 ^ (P.levels - 1) ∧
      ∀ ds s1, Mr.Runs P.cfg P.start ds s1 → ∀ scan p, ¬ P.cfg.Fails s1.weights scan p s1.st.map := by
  obtain ⟨n, c1, c2, hw⟩ := Config.credibilist_m3rsm_world F rad rnd
  have hw' : assemble true (stodDec r) rad rnd (Config.listed m3rsmProps) =
      some (m3rsmWorld r rad n .credibilist (9 / 10) (3 / 5)) := hw
  have hsen := m3rsm_sensible (env := env) F h0 h1 n (by omega) .credibilist (.inr rfl) (9 / 10) (3 / 5)
    ⟨by norm_num [Unit01], by norm_num [Unit01]⟩ hs hf hcf
  obtain ⟨P, hP, hc⟩ := launched_mr_starts hw' hsen
  have hwin : 4 * (1 : ℝ) ≤ (m3rsmWorld r rad n .credibilist (9 / 10) (3 / 5)).map.params.scale *
      ((max (m3rsmWorld r rad n .credibilist (9 / 10) (3 / 5)).map.params.width
        (m3rsmWorld r rad n .credibilist (9 / 10) (3 / 5)).map.params.height : Int) : ℝ) := by
    simp only [m3rsmWorld, max_self]
    have hn : (1000 : ℝ) ≤ n := by exact_mod_cast c1
    have := (fair_near F (v := 1 / 10) (by norm_num) (by norm_num)).1
    nlinarith
  refine ⟨P, hP, hc.cell.2.2.2.2 rfl, ?_, fun ds s1 hr scan p => launched_mr_never_fails hw' hsen hwin hwin ?_ hP hr scan p⟩
  · rw [hc.limits.1]
    exact window_fits hw' hsen hP hwin
  · simp only [m3rsmWorld]
    constructor <;> exact le_trans c2 (by norm_num)

/-! ## Non-vacuity -/

/-- An environment: no level is added when the map grows; equal matches in any order. -/
def mrExampleEnv : MrEnv Unit where
  base := { exampleEnv with fuel := 5000 }
  grow := fun _ _ => (0, ())
  g0 := ()
  slack := 0

/-- A wall in four metres, nothing up to thirty metres, a reading below the minimum. -/
noncomputable def mrExampleMsg : Msg ℝ := ⟨0, 2, 1, 1 / 10, 30, [some 4, some 50, some 0]⟩

theorem mr_example_good {C G : Type} (cfg : MrCfg C G) (h1 : cfg.slam.skipMax = false) (h2 : cfg.slam.tol = 0)
    (h3 : cfg.slam.props.margin = 0) : GoodMsg cfg.slam 30 mrExampleMsg := by
  refine ⟨by simp [mrExampleMsg], by norm_num [mrExampleMsg, h2], by norm_num [mrExampleMsg], by norm_num [mrExampleMsg], ?_⟩
  intro pts h
  rw [h3]
  rcases pts with _ | ⟨p, pts⟩
  · left; rfl
  · right; simp

theorem mr_example_looks {k : CellKind} {G : Type} (cfg : MrCfg k.Cell G) (h1 : cfg.slam.skipMax = false)
    (h2 : cfg.slam.tol = 0) (h3 : cfg.filter = ⟨0, -1⟩) : Looks cfg mrExampleMsg := by
  have hm : msg2scan mrExampleMsg false 0 = some [⟨some 4, 0, true⟩, ⟨some 30, 1, false⟩] := by
    norm_num [msg2scan, convert, mrExampleMsg]
  refine ⟨_, ⟨_, by rw [h1, h2]; exact hm, rfl⟩, .polar 4 0 true 1, ?_, by norm_num [ScanPoint.range]⟩
  classical
  unfold MrCfg.usable usablePoints
  rw [List.mem_map]
  refine ⟨(.polar 4 0 true 1, 0), ?_, rfl⟩
  rw [List.mem_filter]
  refine ⟨by simp, ?_⟩
  simp only [decide_eq_true_eq, h3, Usable]
  refine ⟨.inl trivial, rfl, ?_, trivial⟩
  norm_num

/-- A thousand messages, and one more of which `MrMessage` tells what it does. -/
example : ∃ P s1 s2 prob, launchMr false (stodDec Float.rne) (1 / 60) 7 mrExampleEnv (Config.listed m3rsmProps) = some P ∧
    Mr.Runs P.cfg P.start (List.replicate 1000 (⟨3, 0, 0⟩, mrExampleMsg)) s1 ∧
    s1.Step P.cfg (⟨5, 0, 0⟩, mrExampleMsg) prob s2 ∧
    MrMessage P.kind P.impact P.cfg P.levels s1 (⟨5, 0, 0⟩, mrExampleMsg) prob s2 := by
  have F := Config.fair_nearest Float.rne_nearest
  obtain ⟨n, P, c1, c2, hP, hc, htot⟩ := tiny_m3rsm_runs (env := mrExampleEnv) (rad := 1 / 60) F (by norm_num) (by norm_num) 7
    le_rfl (by decide) (by decide) 1000000
    (by intro v hv; simp only [mrExampleEnv, exampleEnv, decide_eq_true_eq]; omega) (by decide)
  have htol : P.cfg.slam.tol = 0 := by
    obtain ⟨n', c3, -, hw⟩ := Config.tiny_m3rsm_world F (1 / 60) 7
    have hw' : assemble false (stodDec Float.rne) (1 / 60) 7 (Config.listed m3rsmProps) = some _ := hw
    obtain ⟨m, -, -, e⟩ := launchMr_some (env := mrExampleEnv) hw' (m3rsm_sensible F (by norm_num) (by norm_num) n' (by omega) .mean
      (.inl rfl) _ _ ⟨fair_unit F (by norm_num) (by norm_num), fair_unit F (by norm_num) (by norm_num)⟩ le_rfl (by decide)
      (by decide))
    rw [hP, Option.some.injEq] at e
    subst e
    rfl
  have hms : ∀ x : ℝ, |x| ≤ 10 → ∀ d : Poses.Pose ℝ × Msg ℝ, d = (⟨x, 0, 0⟩, mrExampleMsg) →
      GoodMsg P.cfg.slam 30 d.2 ∧ Looks P.cfg d.2 ∧ |d.1.x| ≤ 10 ∧ |d.1.y| ≤ 10 := by
    rintro x hx d rfl
    exact ⟨mr_example_good _ hc.skip htol (by rw [hc.props]; rfl), mr_example_looks _ hc.skip htol hc.filter, hx,
      by norm_num⟩
  have hscale := (fair_near F (v := 1 / 10) (by norm_num) (by norm_num)).1
  have hN : ∀ m : Nat, m ≤ 1001 → (m : ℝ) * 1 + 10 + 30 ≤ Float.rne (1 / 10) * (((1000000 : Int) : ℝ) - 1) := by
    intro m hm
    have : (m : ℝ) ≤ 1001 := by exact_mod_cast hm
    push_cast
    nlinarith
  obtain ⟨s1, h1⟩ := htot 30 10 [] (List.replicate 1000 (⟨3, 0, 0⟩, mrExampleMsg)) (by norm_num)
    (hN _ (by rw [List.nil_append, List.length_replicate]; norm_num))
    (fun d hd => hms 3 (by norm_num) d (List.eq_of_mem_replicate (by rw [List.nil_append] at hd; exact hd))) _ (.nil _)
  obtain ⟨s2, h2⟩ := htot 30 10 (List.replicate 1000 (⟨3, 0, 0⟩, mrExampleMsg)) [(⟨5, 0, 0⟩, mrExampleMsg)] (by norm_num)
    (hN _ (by rw [List.length_append, List.length_replicate]; norm_num)) (fun d hd => by
      rcases List.mem_append.1 hd with hd | hd
      · exact hms 3 (by norm_num) d (List.eq_of_mem_replicate hd)
      · exact hms 5 (by norm_num) d (List.mem_singleton.1 hd)) s1 h1
  cases h2 with
  | @cons _ s3 _ _ _ prob h3 h4 =>
    obtain ⟨n', c3, -, hw⟩ := Config.tiny_m3rsm_world F (1 / 60) 7
    refine ⟨P, s1, s3, prob, hP, h1, h3, ?_⟩
    exact (launched_mr_behaves (cred := false) hw (m3rsm_sensible F (by norm_num) (by norm_num) n' (by omega) .mean (.inl rfl)
      _ _ ⟨fair_unit F (by norm_num) (by norm_num), fair_unit F (by norm_num) (by norm_num)⟩ le_rfl (by decide) (by decide))
      hP h1).2 _ _ _ h3

/-- The credibilist SLAM. -/
example : ∃ P, launchMr true (stodDec Float.rne) (1 / 60) 7 mrExampleEnv (Config.listed m3rsmProps) = some P ∧
    P.kind = .tbm .credibilist := by
  obtain ⟨P, h1, h2, -⟩ := credibilist_m3rsm_runs (env := mrExampleEnv) (rad := 1 / 60) (Config.fair_nearest Float.rne_nearest)
    (by norm_num) (by norm_num) 7 le_rfl (by decide) (by decide)
  exact ⟨P, h1, h2⟩

end Slam.Whole
