import Verif.Whole.ConfiguredProps
import Verif.Whole.OwnBrute
import Verif.Config.Shipped

/-!
# The shipped configurations run (C88)

From the text of the configuration files to the poses and maps: reading the files, the numbers, the assembly, the program.
-/

set_option autoImplicit false
set_option linter.unusedSectionVars false

namespace Slam.Whole
open Slam.Grid Slam.Cells Slam.Poses Slam.Sensor Slam.Score Slam.ScanAdder Slam.Worlds Slam.Tbm
open Slam.Matcher Slam.ScanMatch
open Slam.Config (Fair stodDec)

theorem fair_unit {r : ℝ → ℝ} (F : Fair r) {v : ℝ} (h0 : 0 ≤ v) (h1 : v ≤ 1) : Unit01 (r v) := by
  have a := F.mono h0
  have b := F.mono h1
  rw [F.zero] at a
  rw [F.one] at b
  exact ⟨a, b⟩

theorem tiny_sensible {r : ℝ → ℝ} (F : Fair r) (rnd : Nat) (n : Int) (hn : 0 ≤ n) : Sensible (Config.tinyWorld r rnd n) where
  growing := .inl rfl
  single := rfl
  size := ⟨hn, hn⟩
  scale := (F.ceil (.inl rfl)).1
  occupied := ⟨fair_unit F (by norm_num) (by norm_num), by norm_num [Unit01, Config.tinyWorld]⟩
  empty := ⟨fair_unit F (by norm_num) (by norm_num), by norm_num [Unit01, Config.tinyWorld]⟩
  qualities := ⟨fair_unit F (by norm_num) (by norm_num), fair_unit F (by norm_num) (by norm_num)⟩

theorem viny_sensible {r : ℝ → ℝ} (F : Fair r) (rnd : Nat) (n : Int) (hn : 0 ≤ n) : Sensible (Config.vinyWorld r rnd n) where
  growing := .inl rfl
  single := rfl
  size := ⟨hn, hn⟩
  scale := (F.ceil (.inl rfl)).1
  occupied := ⟨fair_unit F (by norm_num) (by norm_num), fair_unit F (by norm_num) (by norm_num)⟩
  empty := ⟨fair_unit F (by norm_num) (by norm_num), fair_unit F (by norm_num) (by norm_num)⟩
  qualities := ⟨fair_unit F (by norm_num) (by norm_num), fair_unit F (by norm_num) (by norm_num)⟩

/-- What a user of the program of the configuration `t` relies on: it starts with the robot at the origin, it handles every
sequence of messages that stays within the integers, and it behaves. -/
structure Runs (stod : Config.Str → Option ℝ) (rad : ℝ) (rnd : Nat) (env : Env) (sample : Int → Nat → ℝ → ℝ → Delta ℝ)
    (t : Config.Table) (k : CellKind) (cell b : ℝ) (N : Int) (P : Program) : Prop where
  started : launch stod rad rnd env sample t = some P
  /-- it is what the files say: `AsConfigured`, for the configuration read from them -/
  configured : ∃ w, Config.init1h stod rad rnd t = some w ∧ AsConfigured w .obstacle .discrepancy false env.shift P
  kind : P.kind = k
  impact : P.impact = .discrepancy
  scale : P.cfg.slam.scale = cell
  /-- measurements beyond the sensor's range are used -/
  skipMax : P.cfg.slam.skipMax = false
  origin : P.start.st.pose = ⟨0, 0, 0⟩ ∧ P.start.st.odom = ⟨0, 0, 0⟩
  total : ∀ (R B : ℝ) (ds : List (Poses.Pose ℝ × Msg ℝ)), 0 ≤ R → ds.length * (100 * b) + B + R ≤ cell * (N - 1) →
    (∀ d ∈ ds, |d.1.x| ≤ B ∧ |d.1.y| ≤ B ∧ GoodMsg P.cfg.slam R d.2) → ∃ s', P.start.run P.cfg ds = some s'
  behaves : ∀ ds s1 d s2, P.start.run P.cfg ds = some s1 → s1.handle P.cfg d = some s2 →
    Behaves P.kind P.impact P.cfg s1 s2 d

section
variable {r : ℝ → ℝ} {rad : ℝ} {rnd : Nat} {env : Env} {sample : Int → Nat → ℝ → ℝ → Delta ℝ}

theorem runs_of {stod : Config.Str → Option ℝ} {t : Config.Table} {w : Config.World ℝ} {transl rot : ℝ}
    (hw : Config.init1h stod rad rnd t = some w) (h : Sensible w) (ho : w.matcher.spe.oope = .std .obstacle .discrepancy)
    (hi : Fits (cellKind w.map.cell) .discrepancy) (hf : 0 < env.cellFuel) (hdr : w.matcher.drift = false)
    (ha : w.matcher.algo = .monteCarlo (Config.unsignedToInt rnd) transl rot 20 100) (hF : env.fuel = 101)
    (hs : skipExceeding t = false) (b : ℝ) (hb : 0 ≤ b)
    (hsam : ∀ n x y, WithinShift b (sample (Config.unsignedToInt rnd) n x y))
    (N : Int) (hok : ∀ v, |v| ≤ 6 * N → env.ok v = true) (hl : 4 * N + 2 ≤ env.lineFuel) :
    ∃ P, Runs stod rad rnd env sample t (cellKind w.map.cell) w.map.params.scale b N P := by
  obtain ⟨P, hP, -⟩ := launched_monte_carlo_total (rad := rad) (rnd := rnd) (env := env) (sample := sample) hw h ho hi hf hdr ha
    hF b hb hsam N hok hl 0 0 le_rfl
  obtain ⟨A, g11⟩ := launched_behaves hw h ho hi hf hP
  have hs' : Config.getBool t "in/lscan2D/skip_exceeding_vals".toList false = false := hs
  rw [hs'] at A
  have hk : P.kind = cellKind w.map.cell := by
    obtain ⟨c1, c2, c3, c4, c5, c6⟩ := A.cell
    cases hc : w.map.cell with
    | mean => exact c1 hc
    | affine => exact c2 hc
    | tbmConsistent => exact c3 hc
    | tbmUnknownEven => exact c4 hc
    | credibilist => exact c5 hc
    | gmapping => exact c6 hc
  refine ⟨P, hP, ⟨w, hw, A⟩, hk, A.impact.1 rfl, A.scale, A.skip, A.origin, ?_, g11⟩
  intro R B ds hR hN hd
  obtain ⟨P', hP', hT⟩ := launched_monte_carlo_total (rad := rad) (rnd := rnd) (env := env) (sample := sample) hw h ho hi hf hdr ha
    hF b hb hsam N hok hl R B hR
  rw [hP, Option.some.injEq] at hP'
  subst hP'
  exact hT ds (by exact_mod_cast hN) hd

theorem known_in {k : String} (h : k ∈ Config.knownProperties) : k ∈ Config.knownProperties ++ ["in/lscan2D/skip_exceeding_vals"] :=
  List.mem_append_left _ h

theorem skip_of_listed {t : Config.Table} {l : List (Config.Str × Config.Str)}
    (h : ∀ k ∈ Config.knownProperties ++ ["in/lscan2D/skip_exceeding_vals"], t k.toList = l.lookup k.toList)
    (hl : l.lookup "in/lscan2D/skip_exceeding_vals".toList = none) : skipExceeding t = false := by
  unfold skipExceeding Config.getBool
  rw [h _ (by simp), hl]

/-- **TinySLAM with the shipped configuration runs (C88).** Read from the files of the repository, with the numbers rounded by
any fair rounding: the map is of mean probability cells, of 10 cm; at most 100 poses are tried per message; it starts; it handles
all sequences of messages within the integers; its map shows only probabilities, and each pose is the best of the tested ones.
`sample` are the random shifts, each within `b` along the axes. -/
theorem tiny_mit_runs (F : Fair r) (hf : 0 < env.cellFuel) (hF : env.fuel = 101) (b : ℝ) (hb : 0 ≤ b)
    (hsam : ∀ n x y, WithinShift b (sample (Config.unsignedToInt rnd) n x y))
    (N : Int) (hok : ∀ v, |v| ≤ 6 * N → env.ok v = true) (hl : 4 * N + 2 ≤ env.lineFuel) :
    ∃ t, Config.append Config.shipped 9 (chars% "config/bag_runner/tiny_mit.properties") Config.Table.empty = some t ∧
      ∃ P, Runs (stodDec r) rad rnd env sample t .mean (r (1 / 10)) b N P := by
  obtain ⟨t, h1, h2⟩ := Config.tiny_mit_read
  obtain ⟨n, hn, -, hw⟩ := Config.tiny_world F rad rnd
  have hw' : Config.init1h (stodDec r) rad rnd t = some (Config.tinyWorld r rnd n) := by
    rw [← hw]
    exact Config.init1h_congr _ _ _ _ _ fun k hk => h2 k (known_in hk)
  have hs : skipExceeding t = false := skip_of_listed h2 (by decide +kernel)
  exact ⟨t, h1, runs_of hw' (tiny_sensible F rnd n (by omega)) rfl trivial hf rfl rfl hF hs b hb hsam N hok hl⟩

/-- **vinySLAM with the shipped configurations runs (C88)**, for either dataset. Its map has cells of consistent beliefs. -/
theorem viny_runs (F : Fair r) (hf : 0 < env.cellFuel) (hF : env.fuel = 101) (b : ℝ) (hb : 0 ≤ b)
    (hsam : ∀ n x y, WithinShift b (sample (Config.unsignedToInt rnd) n x y))
    (N : Int) (hok : ∀ v, |v| ≤ 6 * N → env.ok v = true) (hl : 4 * N + 2 ≤ env.lineFuel) (p : Config.Str)
    (hp : p = chars% "config/bag_runner/viny_mit.properties" ∨ p = chars% "config/bag_runner/viny_pr2.properties") :
    ∃ t, Config.append Config.shipped 9 p Config.Table.empty = some t ∧
      ∃ P, Runs (stodDec r) rad rnd env sample t (.tbm .consistent) (r (1 / 10)) b N P := by
  have h : ∃ t, Config.append Config.shipped 9 p Config.Table.empty = some t ∧
      ∀ k ∈ Config.knownProperties ++ ["in/lscan2D/skip_exceeding_vals"], t k.toList = Config.vinyProps.lookup k.toList := by
    rcases hp with rfl | rfl
    · exact Config.viny_mit_read
    · exact Config.viny_pr2_read
  obtain ⟨t, h1, h2⟩ := h
  obtain ⟨n, hn, -, hw⟩ := Config.viny_world F rad rnd
  have hw' : Config.init1h (stodDec r) rad rnd t = some (Config.vinyWorld r rnd n) := by
    rw [← hw]
    exact Config.init1h_congr _ _ _ _ _ fun k hk => h2 k (known_in hk)
  have hs : skipExceeding t = false := skip_of_listed h2 (by decide +kernel)
  exact ⟨t, h1, runs_of hw' (viny_sensible F rnd n (by omega)) rfl
    trivial hf rfl rfl hF hs b hb hsam N hok hl⟩

end

/-- The switch for measurements beyond the sensor's range that TinySLAM's configuration sets has no effect: the program reads
another property. -/
theorem skip_exceeding_ignored_counterexample (t : Config.Table) (v : Config.Str) :
    skipExceeding (t.set "ros/skip_exceeding_lsr_vals".toList v) = skipExceeding t ∧
    (∃ t', Config.append Config.shipped 9 (chars% "config/bag_runner/tiny_mit.properties") Config.Table.empty = some t' ∧
      t' "ros/skip_exceeding_lsr_vals".toList = some "false".toList) := by
  constructor
  · unfold skipExceeding Config.getBool Config.Table.set
    rw [if_neg (by decide +kernel)]
  · have h : ((Config.append Config.shipped 9 (chars% "config/bag_runner/tiny_mit.properties") Config.Table.empty).map fun t =>
        t "ros/skip_exceeding_lsr_vals".toList) = some (some "false".toList) := by decide +kernel
    rw [Option.map_eq_some_iff] at h
    exact h

/-! ## Non-vacuity -/

/-- An environment that the theorems accept: rounding to the nearest double, shifts up to a metre, 32 bit integers. -/
def exampleEnv : Env where
  rate := fun _ => 2
  shift := 0
  ok := fun v => decide (|v| ≤ 6000000)
  lineFuel := 4000002
  cellFuel := 1
  fuel := 101
  tol := 0

example : ∃ t, Config.append Config.shipped 9 (chars% "config/bag_runner/tiny_mit.properties") Config.Table.empty = some t ∧
    ∃ P, Runs (stodDec Float.rne) 1 7 exampleEnv (fun _ _ _ _ => ⟨1, -1, 1⟩) t .mean (Float.rne (1 / 10)) 1 1000000 P := by
  refine tiny_mit_runs (Config.fair_nearest Float.rne_nearest) (by decide) rfl 1 (by norm_num) ?_ 1000000 ?_ (by decide)
  · intro n x y; constructor <;> norm_num
  · intro v hv; simp only [exampleEnv, decide_eq_true_eq]; omega

example : ∃ t, Config.append Config.shipped 9 (chars% "config/bag_runner/viny_pr2.properties") Config.Table.empty = some t ∧
    ∃ P, Runs (stodDec id) 1 7 exampleEnv (fun _ _ _ _ => ⟨1, -1, 1⟩) t (.tbm .consistent) (1 / 10) 1 1000000 P := by
  refine viny_runs Config.fair_id (by decide) rfl 1 (by norm_num) ?_ 1000000 ?_ (by decide) _ (.inr rfl)
  · intro n x y; constructor <;> norm_num
  · intro v hv; simp only [exampleEnv, decide_eq_true_eq]; omega

/-- A hill climbing configuration, for `launched_hill_climbing_ends`. -/
example : ∃ w, Config.init1h (stodDec id) (1 / 60) 7 (Config.listed (Config.withMatcher (chars% "HC"))) = some w ∧ Sensible w ∧
    w.matcher.spe.oope = .std .obstacle .discrepancy ∧ w.matcher.drift = false ∧
    w.matcher.algo = .hillClimbing 6 (1 / 10) (1 / 10) false ∧ w.map.cell = .mean := by
  obtain ⟨n, hn, -, hw⟩ := Config.tiny_hc_world Config.fair_id (1 / 60) 7
  have := tiny_sensible Config.fair_id 7 n (by omega)
  exact ⟨_, hw, ⟨this.growing, this.single, this.size, this.scale, this.occupied, this.empty, this.qualities⟩, rfl, rfl, rfl, rfl⟩

/-- A brute force configuration, for `launched_brute_force`. -/
example : ∃ w x, Config.init1h (stodDec id) (1 / 60) 7 (Config.listed (Config.withMatcher (chars% "BF"))) = some w ∧ Sensible w ∧
    w.matcher.spe.oope = .std .obstacle .discrepancy ∧ w.matcher.drift = false ∧
    w.matcher.algo = .bruteForce x x ⟨-(5 * (1 / 60)), 5 * (1 / 60), 1 / 60⟩ ∧ x.from_ ≤ x.to_ ∧ 0 < x.step := by
  obtain ⟨n, hn, -, hw⟩ := Config.tiny_bf_world Config.fair_id (1 / 60) 7
  have := tiny_sensible Config.fair_id 7 n (by omega)
  exact ⟨_, ⟨-(1 / 2), 1 / 2, 1 / 10⟩, hw,
    ⟨this.growing, this.single, this.size, this.scale, this.occupied, this.empty, this.qualities⟩, rfl, rfl, rfl, by norm_num,
    by norm_num⟩

end Slam.Whole
