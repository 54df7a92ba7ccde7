import Verif.Whole.Roam

/-!
# C100: every configured single-hypothesis SLAM, from its configuration

The programs are those of `Whole.MachineLaunch`, taken from a configuration (`Config.World`) wherever it comes from: `init_1h_slam`,
or the credibilist node's own assembly.
-/

set_option autoImplicit false
set_option linter.unusedSectionVars false

namespace Slam.Whole
open Slam.Grid Slam.Cells Slam.Poses Slam.Sensor Slam.Score Slam.ScanAdder Slam.Worlds Slam.Tbm Slam.Matcher Slam.ScanMatch

/-! ## Model -/

/-- The program of a configuration: what `init_1h_slam` (src/utils/init_slam.h:12-24) and the credibilist `init_slam`
(src/slams/credibilist/init_slam.h:13-24) build from the parts they made. -/
noncomputable def assembleAny (env : Env) (skip : Bool) (sample : Int → Nat → ℝ → ℝ → Delta ℝ) (w : Config.World ℝ) :
    Option MProgram :=
  match w.matcher.spe.oope with
  | .std oope oie => anyOf env skip w oope oie sample
  | _ => none

/-! ## Specification -/

/-- A message a SLAM is ready for: no NaN, angles that fit the number of ranges (the code asserts it, up to `tol`), ranges
between 0 and `R`, and, unless all its points are skipped, more points than the margin cuts off. -/
structure Ready (skip : Bool) (tol : ℝ) (margin : Nat) (R : ℝ) (msg : Msg ℝ) : Prop where
  nan : none ∉ msg.ranges
  angles : |msg.angleMin + (msg.ranges.length : ℝ) * msg.increment - msg.increment - msg.angleMax| ≤ tol
  min : 0 ≤ msg.rangeMin
  max : 0 ≤ msg.rangeMax ∧ msg.rangeMax ≤ R
  margin : ∀ pts, msg2scan msg skip tol = some pts → pts = [] ∨ margin < pts.length

/-- A matcher that climbs. -/
def Climbs : Config.Algo ℝ → Prop
  | .hillClimbing .. => True
  | .hcFixed => True
  | _ => False

/-- How far, along each axis, a configured matcher may leave the region of the poses it has seen and of those from where known cells can
be seen. Not at all, for the idle matcher; by the shifts it draws, for Monte Carlo; one step, for hill climbing; and for brute force
by the extent of its grid. The multi-resolution matcher is not among them. -/
def MatcherReach (sample : Int → Nat → ℝ → ℝ → Delta ℝ) (b : ℝ) : Config.Algo ℝ → Prop
  | .idle => b = 0
  | .monteCarlo seed _ _ _ total => ∃ c, 0 ≤ c ∧ (∀ n x y, WithinShift c (sample seed n x y)) ∧ b = total * c
  | .hillClimbing _ transl _ _ => b = |transl|
  | .hcFixed => b = 16 / 100
  | .bruteForce x y th => (bfParams x y th).Ok ∧ GridWithin (bfParams x y th) b ∧ 0 ≤ b
  | .m3rsm .. => False

/-! ## Proofs -/

section
variable {stod : Config.Str → Option ℝ} {rad : ℝ} {rnd : Nat} {env : Env} {sample : Int → Nat → ℝ → ℝ → Delta ℝ}
  {t : Config.Table} {skip : Bool} {w : Config.World ℝ} {oope : Config.Oope} {oie : Config.Oie} {b : ℝ}

theorem launchAny_assembles :
    launchAny stod rad rnd env sample t = (Config.init1h stod rad rnd t).bind (assembleAny env (skipExceeding t) sample) := by
  unfold launchAny assembleAny
  congr 1

theorem MatcherReach.nonneg {algo : Config.Algo ℝ} (h : MatcherReach sample b algo) : 0 ≤ b := by
  cases algo with
  | idle => exact h.symm.le
  | monteCarlo a c d e f => obtain ⟨c, h1, -, rfl⟩ := h; positivity
  | hillClimbing a c d e => rw [show b = |c| from h]; positivity
  | hcFixed => rw [show b = 16 / 100 from h]; norm_num
  | bruteForce x y th => exact h.2.2
  | m3rsm a b c d e => exact h.elim

theorem base_roams {C : Type} {cfg : Matcher.Cfg C} (hf : 0 < cfg.cellFuel) {algo : Config.Algo ℝ} (h : MatcherReach sample b algo) :
    ∃ (T : Type) (m : Nat → Machine C T) (st : T) (flat : Prop) (ok : ℝ → T → Prop),
      (∀ f, baseOf cfg f sample algo = some ⟨T, m f, st⟩) ∧ Roams m cfg.imp flat ok b ∧ ok 0 st ∧ (flat → Climbs algo) := by
  cases algo with
  | idle => rw [show b = 0 from h]; exact ⟨_, _, _, _, _, fun _ => rfl, idle_roams, trivial, fun h => h.elim⟩
  | monteCarlo seed tr rot failed total =>
    obtain ⟨c, h1, h2, rfl⟩ := h
    exact ⟨_, _, _, _, _, fun _ => rfl, monte_carlo_roams hf failed total tr rot (sample seed) c h1 h2, trivial, fun h => h.elim⟩
  | hillClimbing failed d r al =>
    rw [show b = |d| from h]
    exact ⟨_, _, _, _, _, fun _ => rfl, hill_climbing_roams hf failed d r, trivial, fun h => h⟩
  | hcFixed => rw [show b = 16 / 100 from h]; exact ⟨_, _, _, _, _, fun _ => rfl, fixed_roams hf, trivial, fun h => h⟩
  | bruteForce x y th =>
    exact ⟨_, _, _, _, _, fun _ => rfl, brute_force_roams hf _ h.1 h.2.2 h.2.1, (fun p hp => by cases hp), fun h => h.elim⟩
  | m3rsm a b c d e => exact h.elim

theorem matching_roams {C : Type} {cfg : Matcher.Cfg C} (hf : 0 < cfg.cellFuel) {mc : Config.Matcher ℝ} (h : MatcherReach sample b mc.algo) :
    ∃ (T : Type) (m : Nat → Machine C T) (st : T) (flat : Prop) (ok : ℝ → T → Prop),
      (∀ f, matchingOf cfg f sample mc = some ⟨T, m f, st⟩) ∧ Roams m cfg.imp flat ok (b + driftReach mc.drift) ∧ ok 0 st ∧
      (flat → Climbs mc.algo) := by
  obtain ⟨T, m, st, flat, ok, h1, h2, h3, h4⟩ := base_roams (sample := sample) hf h
  by_cases hd : mc.drift = true
  · refine ⟨T, fun f => driftMachine cfg f (m f), st, flat, ok, fun f => ?_, ?_, h3, h4⟩
    · simp only [matchingOf, h1 f, Option.map_some, if_pos hd]
    · rw [driftReach, if_pos hd]
      exact drift_roams hf (fun f => baseOf_keeps (h1 f)) h2
  · refine ⟨T, m, st, flat, ok, fun f => ?_, ?_, h3, h4⟩
    · simp only [matchingOf, h1 f, Option.map_some, if_neg hd]
    · rw [driftReach, if_neg hd, add_zero]
      exact h2

theorem assembleAny_some (ho : w.matcher.spe.oope = .std oope oie) {P : MProgram} (hP : assembleAny env skip sample w = some P) :
    ∃ s m, configuredStart env () w = some s ∧
      matchingOf (configured env skip idleEnumerator w oope oie).matcher env.fuel sample w.matcher = some m ∧
      P = ⟨cellKind w.map.cell, impactOf oie, m.T,
        ⟨(configured env skip idleEnumerator w oope oie).slam,
          (configured env skip idleEnumerator w oope oie).matcher, m.machine, AnyMap.dims, AnyMap.origin⟩,
        ⟨s.st, s.weights, m.state⟩⟩ := by
  rw [assembleAny, ho] at hP
  simp only [anyOf, Option.bind_eq_some_iff, Option.map_eq_some_iff] at hP
  obtain ⟨s, h1, m, h2, h3⟩ := hP
  exact ⟨s, m, h1, h2, h3.symm⟩

/-- What the theorems below need of an assembled program. -/
theorem assembleAny_started (h : Sensible w) (ho : w.matcher.spe.oope = .std oope oie)
    (hi : Fits (cellKind w.map.cell) (impactOf oie)) (hf : 0 < env.cellFuel) {P : MProgram}
    (hP : assembleAny env skip sample w = some P) :
    MachStarted P.kind P.impact P.cfg P.start.st.map ∧ Spw.Ok P.start.weights ∧ HistOk P.start.st.hist := by
  obtain ⟨s, m, h1, h2, rfl⟩ := assembleAny_some ho hP
  obtain ⟨s', g1, g2, g3, g4, -⟩ := configured_started env hf skip idleEnumerator () w h oope oie hi
  rw [h1, Option.some.injEq] at g1
  subst g1
  exact ⟨⟨g2.fits, g2.impact, g2.lawful, g2.adder, g2.qualities, g2.scale, g2.fuel, matchingOf_keeps h2⟩, g3, g4⟩

/-- **Every configuration behaves (C100)**, also a credibilist one: everything but the matcher is as configured, the map is empty
and the robot at the origin; and after every history of messages all numbers in the map are probabilities, or the quotient of
consistent beliefs that does not exist. -/
theorem assembled_any_behaves (h : Sensible w) (ho : w.matcher.spe.oope = .std oope oie)
    (hi : Fits (cellKind w.map.cell) (impactOf oie)) (hf : 0 < env.cellFuel) {P : MProgram}
    (hP : assembleAny env skip sample w = some P) :
    AsConfigured w oope oie skip env.shift P.scoring ∧
    ∀ ds s1, P.start.run P.cfg ds = some s1 → ∀ c, ∃ cell, P.cfg.slam.api.read s1.st.map c = some cell ∧
      (∀ v, P.kind.value cell = some v → Unit01 v ∨ (P.kind = .gmapping ∧ v = -1 ∧ P.kind.unknown cell = true)) ∧
      (P.kind.value cell = none → P.kind = .tbm .consistent ∧ P.kind.unknown cell = false) := by
  obtain ⟨hs, -, -⟩ := assembleAny_started h ho hi hf hP
  refine ⟨?_, fun ds s1 hr c => mach_map_probabilities hs ds rfl hr c⟩
  obtain ⟨s, m, h1, h2, rfl⟩ := assembleAny_some ho hP
  have := configured_as env hf skip idleEnumerator () w h oope oie hi h1
  exact ⟨this.cell, this.impact, this.imp, this.oope, this.filter, this.weights, this.scale, this.props, this.skip, this.blur,
    this.maxRange, this.const, this.area, this.quality, this.plain, this.lazy, this.dims, this.empty, this.origin⟩

/-- **A configured SLAM never gets stuck, whatever its matcher (C100).** Let `w` be a configuration with sensible numbers and an
impact estimator that fits the cells; a matcher that climbs needs cells other than GMapping's. Let messages `ds` be ready for it,
with ranges up to `R` and odometry in strides of at most `D`, and let the area that may be reached stay within the integers the
traversal copes with. Then all messages are handled: with every bound on iterations from some `F` on, with the same states; after the first message
the robot is within `spread …` of the origin along each axis, after the second within twice that, and so on. -/
theorem assembled_any_total (h : Sensible w) (ho : w.matcher.spe.oope = .std oope oie)
    (hi : Fits (cellKind w.map.cell) (impactOf oie)) (hf : 0 < env.cellFuel) (hm : MatcherReach sample b w.matcher.algo)
    (hk : Climbs w.matcher.algo → w.map.cell ≠ .gmapping)
    (N : Int) (hok : ∀ v, |v| ≤ 6 * N → env.ok v = true) (hl : 4 * N + 2 ≤ env.lineFuel) {R D : ℝ} (hR : 0 ≤ R) (hD : 0 ≤ D)
    (ds : List (Poses.Pose ℝ × Msg ℝ)) (hstr : Strides D ⟨0, 0, 0⟩ ds)
    (hd : ∀ d ∈ ds, Ready skip env.tol w.margin R d.2)
    (hN : ds.length * spread D (b + driftReach w.matcher.drift) R w.map.params.scale ≤ w.map.params.scale * (N - 1)) :
    ∃ (F : Nat) (T : Type) (cfg : Nat → MachCfg (cellKind w.map.cell).Cell (AnyMap (cellKind w.map.cell).Cell) T)
      (start : Mach (AnyMap (cellKind w.map.cell).Cell) T) (ss : List (Mach (AnyMap (cellKind w.map.cell).Cell) T)),
      (∀ f, assembleAny { env with fuel := f } skip sample w = some ⟨cellKind w.map.cell, impactOf oie, T, cfg f, start⟩) ∧
      (∀ f, F ≤ f → start.Visits (cfg f) ds ss) ∧
      ∀ (j : Nat) (s' : Mach (AnyMap (cellKind w.map.cell).Cell) T), ss[j]? = some s' →
        PoseWithin ((j + 1) * spread D (b + driftReach w.matcher.drift) R w.map.params.scale) s'.st.pose := by
  have hr0 : 0 ≤ driftReach w.matcher.drift := by unfold driftReach; by_cases e : w.matcher.drift = true <;> simp [e]
  obtain ⟨s, g1, g2, g3, g4, g5, g6, -, -⟩ := configured_started env hf skip idleEnumerator () w h oope oie hi
  obtain ⟨T, m, st, flat, ok, h1, h2, h3, h4⟩ :=
    matching_roams (sample := sample) (cfg := (configured env skip idleEnumerator w oope oie).matcher) hf hm
  set cfg0 : MachCfg (cellKind w.map.cell).Cell (AnyMap (cellKind w.map.cell).Cell) T :=
    ⟨(configured env skip idleEnumerator w oope oie).slam, (configured env skip idleEnumerator w oope oie).matcher, m 0,
      AnyMap.dims, AnyMap.origin⟩ with hcfg
  have hst : ∀ f, MachStarted (cellKind w.map.cell) (impactOf oie) (cfg0.withMachine (m f)) s.st.map := fun f =>
    ⟨g2.fits, g2.impact, g2.lawful, g2.adder, g2.qualities, g2.scale, g2.fuel, matchingOf_keeps (h1 f)⟩
  obtain ⟨F, ss, hF, -, hpo⟩ := roam_total (cfg := cfg0) hst h2
    (fun hfl => by
      have := hk (h4 hfl)
      intro e
      cases hc : w.map.cell <;> rw [hc] at e this <;> first | exact this rfl | cases e)
    (add_nonneg hm.nonneg hr0) N hok hl hR hD ds 0 (by rw [zero_add]; exact hN) ⟨s.st, s.weights, st⟩
    ⟨by rw [g5]; simp [PoseWithin], ⟨[], rfl, by simp [SaneT], by simp⟩, h3, g3, g4⟩ (by rw [g6]; exact hstr)
    fun d hd' => ⟨(hd d hd').nan, (hd d hd').angles, (hd d hd').min, (hd d hd').max, (hd d hd').margin⟩
  refine ⟨F, T, fun f => cfg0.withMachine (m f), ⟨s.st, s.weights, st⟩, ss, fun f => ?_, hF, fun j s' hj => (hpo j s' hj).mono (le_of_eq (zero_add _))⟩
  rw [assembleAny, ho]
  have e1 : configuredStart { env with fuel := f } () w = some s := g1
  have e2 := h1 f
  simp only [anyOf, e1, Option.bind_some]
  have e3 : (configured { env with fuel := f } skip idleEnumerator w oope oie).matcher =
    (configured env skip idleEnumerator w oope oie).matcher := rfl
  rw [e3, e2]
  rfl

/-- The properties a bag runner reads, as `assembled_any_total`. -/
theorem launched_roam_total (hw : Config.init1h stod rad rnd t = some w) (h : Sensible w) (ho : w.matcher.spe.oope = .std oope oie)
    (hi : Fits (cellKind w.map.cell) (impactOf oie)) (hf : 0 < env.cellFuel) (hm : MatcherReach sample b w.matcher.algo)
    (hk : Climbs w.matcher.algo → w.map.cell ≠ .gmapping)
    (N : Int) (hok : ∀ v, |v| ≤ 6 * N → env.ok v = true) (hl : 4 * N + 2 ≤ env.lineFuel) {R D : ℝ} (hR : 0 ≤ R) (hD : 0 ≤ D)
    (ds : List (Poses.Pose ℝ × Msg ℝ)) (hstr : Strides D ⟨0, 0, 0⟩ ds)
    (hd : ∀ d ∈ ds, Ready (skipExceeding t) env.tol w.margin R d.2)
    (hN : ds.length * spread D (b + driftReach w.matcher.drift) R w.map.params.scale ≤ w.map.params.scale * (N - 1)) :
    ∃ (F : Nat) (T : Type) (cfg : Nat → MachCfg (cellKind w.map.cell).Cell (AnyMap (cellKind w.map.cell).Cell) T)
      (start : Mach (AnyMap (cellKind w.map.cell).Cell) T) (ss : List (Mach (AnyMap (cellKind w.map.cell).Cell) T)),
      (∀ f, launchAny stod rad rnd { env with fuel := f } sample t =
        some ⟨cellKind w.map.cell, impactOf oie, T, cfg f, start⟩) ∧
      (∀ f, F ≤ f → start.Visits (cfg f) ds ss) ∧
      ∀ (j : Nat) (s' : Mach (AnyMap (cellKind w.map.cell).Cell) T), ss[j]? = some s' →
        PoseWithin ((j + 1) * spread D (b + driftReach w.matcher.drift) R w.map.params.scale) s'.st.pose := by
  obtain ⟨F, T, cfg, start, ss, h1, h2⟩ := assembled_any_total h ho hi hf hm hk N hok hl hR hD ds hstr hd hN
  refine ⟨F, T, cfg, start, ss, fun f => ?_, h2⟩
  rw [launchAny_assembles, hw]
  exact h1 f

end

end Slam.Whole
