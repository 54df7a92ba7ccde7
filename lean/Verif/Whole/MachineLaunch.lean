import Verif.Whole.Machine

/-!
# C93: the single-hypothesis SLAM with any scan matcher, from its configuration

As `Whole.Configured`, with every matcher `init_scan_matcher` makes except the multi-resolution one (`Whole.MultiresLaunch`).
-/

set_option autoImplicit false
set_option linter.unusedSectionVars false

namespace Slam.Whole
open Slam.Grid Slam.Cells Slam.Poses Slam.Sensor Slam.Score Slam.ScanAdder Slam.Worlds Slam.Tbm Slam.Matcher Slam.ScanMatch

/-! ## Model -/

/-- A scan matcher with its state. -/
structure Matching (C : Type) where
  T : Type
  machine : Machine C T
  state : T

/-- The matcher `init_scan_matcher` makes before it is wrapped, src/utils/init_scan_matching.h:195-211, in its state after
construction (as `launch`; the limit of `HillClimbingSMFixed` is 5, src/core/scan_matchers/hcsm_fixed.h:14). `none`: the
multi-resolution matcher, which is in `Whole.MultiresLaunch`. -/
noncomputable def baseOf {C : Type} (cfg : Matcher.Cfg C) (fuel : Nat) (sample : Int → Nat → ℝ → ℝ → Delta ℝ) :
    Config.Algo ℝ → Option (Matching C)
  | .monteCarlo seed transl rot failed total =>
    some ⟨MCState ℝ, enumMachine cfg (monteCarlo failed total transl rot (sample seed)) fuel, ⟨0, 0, transl, rot, 0⟩⟩
  | .hillClimbing failed transl rot _ =>
    some ⟨HCState ℝ, enumMachine cfg (hillClimbing failed transl rot) fuel, ⟨0, transl, rot, ⟨0, transl, rot, none⟩, true⟩⟩
  | .bruteForce x y th =>
    some ⟨BFState ℝ, enumMachine cfg (bruteForce (bfParams x y th)) fuel, BFState.init (bfParams x y th)⟩
  | .m3rsm .. => none
  | .idle => some ⟨Unit, idleMachine C, ()⟩
  | .hcFixed => some ⟨BitVec 32, fixedMachine cfg fuel, 5⟩

/-- `init_scan_matcher`, init_scan_matching.h:189-219: the drift detector is put around the matcher if it is asked for. -/
noncomputable def matchingOf {C : Type} (cfg : Matcher.Cfg C) (fuel : Nat) (sample : Int → Nat → ℝ → ℝ → Delta ℝ)
    (m : Config.Matcher ℝ) : Option (Matching C) :=
  (baseOf cfg fuel sample m.algo).map fun b => if m.drift then ⟨b.T, driftMachine cfg fuel b.machine, b.state⟩ else b

/-- A program with its start. -/
structure MProgram where
  kind : CellKind
  impact : Impact
  T : Type
  cfg : MachCfg kind.Cell (AnyMap kind.Cell) T
  start : Mach (AnyMap kind.Cell) T

/-- The assembled program; the configuration of everything but the matcher is that of `configured`. -/
noncomputable def anyOf (env : Env) (skipMax : Bool) (w : Config.World ℝ) (oope : Config.Oope) (oie : Config.Oie)
    (sample : Int → Nat → ℝ → ℝ → Delta ℝ) : Option MProgram :=
  let c := configured env skipMax idleEnumerator w oope oie
  (configuredStart env () w).bind fun s =>
    (matchingOf c.matcher env.fuel sample w.matcher).map fun m =>
      ⟨cellKind w.map.cell, impactOf oie, m.T, ⟨c.slam, c.matcher, m.machine, c.dims, c.origin⟩, ⟨s.st, s.weights, m.state⟩⟩

/-- The start of a single-hypothesis SLAM from the properties `t`, src/utils/init_slam.h:12-24,
src/ros/lslam2D_bag_runner.cpp:119-122. `env.fuel` bounds the iterations of a matcher. -/
noncomputable def launchAny (stod : Config.Str → Option ℝ) (rad : ℝ) (rnd : Nat) (env : Env)
    (sample : Int → Nat → ℝ → ℝ → Delta ℝ) (t : Config.Table) : Option MProgram :=
  (Config.init1h stod rad rnd t).bind fun w =>
    match w.matcher.spe.oope with
    | .std oope oie => anyOf env (skipExceeding t) w oope oie sample
    | _ => none

/-! ## Specification -/

/-- The matcher of a program, with its state. -/
def MProgram.matching (P : MProgram) : Matching P.kind.Cell := ⟨P.T, P.cfg.machine, P.start.state⟩

/-- A program without its matcher, as one of C88. -/
def MProgram.scoring (P : MProgram) : Program :=
  ⟨P.kind, P.impact, Unit, P.cfg.own, ⟨P.start.st, P.start.weights, ()⟩⟩

/-- A program of C88 as one of these. -/
noncomputable def Program.any (P : Program) : MProgram := ⟨P.kind, P.impact, P.S, P.cfg.toMach, P.start.toMach⟩

/-! ## Proofs -/

section
variable {stod : Config.Str → Option ℝ} {rad : ℝ} {rnd : Nat} {env : Env} {sample : Int → Nat → ℝ → ℝ → Delta ℝ}
  {t : Config.Table} {w : Config.World ℝ} {oope : Config.Oope} {oie : Config.Oie}

theorem baseOf_keeps {C : Type} {cfg : Matcher.Cfg C} {fuel : Nat} {algo : Config.Algo ℝ} {m : Matching C}
    (h : baseOf cfg fuel sample algo = some m) : m.machine.Keeps cfg.imp := by
  cases algo <;> simp only [baseOf, Option.some.injEq, reduceCtorEq] at h <;> subst h
  · exact enum_keeps _ _
  · exact enum_keeps _ _
  · exact enum_keeps _ _
  · exact idle_keeps
  · exact fixed_keeps _

theorem matchingOf_keeps {C : Type} {cfg : Matcher.Cfg C} {fuel : Nat} {mc : Config.Matcher ℝ} {m : Matching C}
    (h : matchingOf cfg fuel sample mc = some m) : m.machine.Keeps cfg.imp := by
  simp only [matchingOf, Option.map_eq_some_iff] at h
  obtain ⟨b, h1, h2⟩ := h
  by_cases hd : mc.drift = true
  · rw [if_pos hd] at h2
    subst h2
    exact drift_keeps _ (baseOf_keeps h1)
  · rw [if_neg hd] at h2
    subst h2
    exact baseOf_keeps h1

theorem launchAny_some (hw : Config.init1h stod rad rnd t = some w) (ho : w.matcher.spe.oope = .std oope oie) {P : MProgram}
    (hP : launchAny stod rad rnd env sample t = some P) :
    ∃ s m, configuredStart env () w = some s ∧
      matchingOf (configured env (skipExceeding t) idleEnumerator w oope oie).matcher env.fuel sample w.matcher = some m ∧
      P = ⟨cellKind w.map.cell, impactOf oie, m.T,
        ⟨(configured env (skipExceeding t) idleEnumerator w oope oie).slam,
          (configured env (skipExceeding t) idleEnumerator w oope oie).matcher, m.machine, AnyMap.dims, AnyMap.origin⟩,
        ⟨s.st, s.weights, m.state⟩⟩ := by
  rw [launchAny, hw, Option.bind_some, ho] at hP
  simp only [anyOf, Option.bind_eq_some_iff, Option.map_eq_some_iff] at hP
  obtain ⟨s, h1, m, h2, h3⟩ := hP
  exact ⟨s, m, h1, h2, h3.symm⟩

/-- What the theorems below need of a started program. -/
theorem launchAny_started (hw : Config.init1h stod rad rnd t = some w) (h : Sensible w)
    (ho : w.matcher.spe.oope = .std oope oie) (hi : Fits (cellKind w.map.cell) (impactOf oie)) (hf : 0 < env.cellFuel)
    {P : MProgram} (hP : launchAny stod rad rnd env sample t = some P) :
    MachStarted P.kind P.impact P.cfg P.start.st.map ∧ Spw.Ok P.start.weights ∧ HistOk P.start.st.hist := by
  obtain ⟨s, m, h1, h2, rfl⟩ := launchAny_some hw ho hP
  obtain ⟨s', g1, g2, g3, g4, -⟩ := configured_started env hf (skipExceeding t) idleEnumerator () w h oope oie hi
  rw [h1, Option.some.injEq] at g1
  subst g1
  exact ⟨⟨g2.fits, g2.impact, g2.lawful, g2.adder, g2.qualities, g2.scale, g2.fuel, matchingOf_keeps h2⟩, g3, g4⟩

/-- **Every configuration, with any matcher (C93).** Let the properties `t` be accepted and give the SLAM `w`, with sensible
numbers and an impact estimator that fits the cells, and let the program be started. Everything but the matcher is as
configured, the map is empty and the robot at the origin; and after every history of messages all numbers in the map are
probabilities. -/
theorem launched_any_behaves (hw : Config.init1h stod rad rnd t = some w) (h : Sensible w)
    (ho : w.matcher.spe.oope = .std oope oie) (hi : Fits (cellKind w.map.cell) (impactOf oie)) (hf : 0 < env.cellFuel)
    {P : MProgram} (hP : launchAny stod rad rnd env sample t = some P) :
    AsConfigured w oope oie (Config.getBool t "in/lscan2D/skip_exceeding_vals".toList false) env.shift P.scoring ∧
    ∀ ds s1, P.start.run P.cfg ds = some s1 → ∀ c, ∃ cell, P.cfg.slam.api.read s1.st.map c = some cell ∧
      (∀ v, P.kind.value cell = some v → Unit01 v ∨ (P.kind = .gmapping ∧ v = -1 ∧ P.kind.unknown cell = true)) ∧
      (P.kind.value cell = none → P.kind = .tbm .consistent ∧ P.kind.unknown cell = false) := by
  obtain ⟨hs, -, -⟩ := launchAny_started hw h ho hi hf hP
  refine ⟨?_, fun ds s1 hr c => mach_map_probabilities hs ds rfl hr c⟩
  obtain ⟨s, m, h1, h2, rfl⟩ := launchAny_some hw ho hP
  have := configured_as env hf (skipExceeding t) idleEnumerator () w h oope oie hi h1
  exact ⟨this.cell, this.impact, this.imp, this.oope, this.filter, this.weights, this.scale, this.props, this.skip, this.blur,
    this.maxRange, this.const, this.area, this.quality, this.plain, this.lazy, this.dims, this.empty, this.origin⟩

/-- **The matcher of the program is the configured one (C93)**, with the drift detector around it exactly if that is asked for. -/
theorem launched_any_matcher (hw : Config.init1h stod rad rnd t = some w) {P : MProgram}
    (hP : launchAny stod rad rnd env sample t = some P) :
    ∃ b : Matching P.kind.Cell,
      (w.matcher.drift = false → P.matching = b) ∧
      (w.matcher.drift = true → P.matching = ⟨b.T, driftMachine P.cfg.matcher env.fuel b.machine, b.state⟩) ∧
      (w.matcher.algo = .idle → b = ⟨Unit, idleMachine _, ()⟩) ∧
      (w.matcher.algo = .hcFixed → b = ⟨BitVec 32, fixedMachine P.cfg.matcher env.fuel, 5⟩) ∧
      (∀ seed transl rot failed total, w.matcher.algo = .monteCarlo seed transl rot failed total →
        b = ⟨MCState ℝ, enumMachine P.cfg.matcher (monteCarlo failed total transl rot (sample seed)) env.fuel,
          ⟨0, 0, transl, rot, 0⟩⟩) ∧
      (∀ failed transl rot align, w.matcher.algo = .hillClimbing failed transl rot align →
        ∃ e, b = ⟨HCState ℝ, enumMachine P.cfg.matcher (hillClimbing failed transl rot) env.fuel, e⟩) ∧
      (∀ x y th, w.matcher.algo = .bruteForce x y th → ∃ e : BFState ℝ, e.base = none ∧
        b = ⟨BFState ℝ, enumMachine P.cfg.matcher (bruteForce
          ⟨x.from_, x.to_, x.step, y.from_, y.to_, y.step, th.from_, th.to_, th.step⟩) env.fuel, e⟩) := by
  cases ho : w.matcher.spe.oope with
  | gmapping a b => rw [launchAny, hw, Option.bind_some, ho] at hP; cases hP
  | std oope oie =>
    obtain ⟨s, m, -, h2, rfl⟩ := launchAny_some hw ho hP
    simp only [matchingOf, Option.map_eq_some_iff] at h2
    obtain ⟨b, h3, h4⟩ := h2
    refine ⟨b, ?_, ?_, ?_, ?_, ?_, ?_, ?_⟩
    · intro hd
      rw [if_neg (by simp [hd])] at h4
      subst h4
      rfl
    · intro hd
      rw [if_pos hd] at h4
      subst h4
      rfl
    · intro ha
      rw [ha] at h3
      exact (Option.some.inj h3).symm
    · intro ha
      rw [ha] at h3
      exact (Option.some.inj h3).symm
    · intro seed transl rot failed total ha
      rw [ha] at h3
      exact (Option.some.inj h3).symm
    · intro failed transl rot align ha
      rw [ha] at h3
      exact ⟨_, (Option.some.inj h3).symm⟩
    · intro x y th ha
      rw [ha] at h3
      exact ⟨_, rfl, (Option.some.inj h3).symm⟩

/-- **The programs of C88 are among these (C93).** -/
theorem launch_is_any {P : Program} (hP : launch stod rad rnd env sample t = some P) :
    launchAny stod rad rnd env sample t = some P.any := by
  rw [launch, Option.bind_eq_some_iff] at hP
  obtain ⟨w, hw, hP⟩ := hP
  rw [launchAny, hw, Option.bind_some]
  cases hd : w.matcher.drift with
  | true => simp [hd] at hP
  | false =>
    cases ho : w.matcher.spe.oope with
    | gmapping a b => simp [ho] at hP
    | std oope oie =>
      rw [hd, ho] at hP
      simp only
      cases ha : w.matcher.algo with
      | monteCarlo a b c d e =>
        rw [ha] at hP
        obtain ⟨s, e1, rfl⟩ := programOf_some hP
        simp only [configuredStart, Option.map_eq_some_iff] at e1
        obtain ⟨m, e1, rfl⟩ := e1
        simp only [anyOf, configuredStart, e1, Option.map_some, Option.bind_some, matchingOf, ha, baseOf, hd]
        rfl
      | hillClimbing a b c d =>
        rw [ha] at hP
        obtain ⟨s, e1, rfl⟩ := programOf_some hP
        simp only [configuredStart, Option.map_eq_some_iff] at e1
        obtain ⟨m, e1, rfl⟩ := e1
        simp only [anyOf, configuredStart, e1, Option.map_some, Option.bind_some, matchingOf, ha, baseOf, hd]
        rfl
      | bruteForce a b c =>
        rw [ha] at hP
        obtain ⟨s, e1, rfl⟩ := programOf_some hP
        simp only [configuredStart, Option.map_eq_some_iff] at e1
        obtain ⟨m, e1, rfl⟩ := e1
        simp only [anyOf, configuredStart, e1, Option.map_some, Option.bind_some, matchingOf, ha, baseOf, hd]
        rfl
      | m3rsm a b c d e => rw [ha] at hP; simp at hP
      | idle => rw [ha] at hP; simp at hP
      | hcFixed => rw [ha] at hP; simp at hP

/-- **Which configurations give a program (C93)**: every accepted one with sensible numbers and a matcher other than the
multi-resolution one. -/
theorem launched_any_starts (hw : Config.init1h stod rad rnd t = some w) (h : Sensible w)
    (ho : w.matcher.spe.oope = .std oope oie) (hm : ∀ a b c d e, w.matcher.algo ≠ .m3rsm a b c d e) :
    ∃ P, launchAny stod rad rnd env sample t = some P := by
  obtain ⟨m, h1, -⟩ := mapOf_lawful env.rate w h
  rw [launchAny, hw, Option.bind_some, ho]
  simp only [anyOf, configuredStart, h1, Option.map_some, Option.bind_some, matchingOf]
  cases ha : w.matcher.algo with
  | m3rsm a b c d e => exact absurd ha (hm a b c d e)
  | monteCarlo a b c d e => exact ⟨_, rfl⟩
  | hillClimbing a b c d => exact ⟨_, rfl⟩
  | bruteForce a b c => exact ⟨_, rfl⟩
  | idle => exact ⟨_, rfl⟩
  | hcFixed => exact ⟨_, rfl⟩

/-- How far the configured drift detector may move the pose, along each axis. -/
noncomputable def driftReach (drift : Bool) : ℝ := if drift then 1 / 4 else 0

/-- **A configured SLAM handles all messages (C93)**: with the idle matcher or the Monte Carlo matcher, with or without the drift
detector; the shifts drawn are within `b` along each axis (for the idle matcher, `c` is zero), messages `ds` are ready for the
program with ranges up to `R`, and the odometry within `B` of the origin, as long as the area reached stays within the integers
the traversal copes with. -/
theorem launched_any_total (hw : Config.init1h stod rad rnd t = some w) (h : Sensible w)
    (ho : w.matcher.spe.oope = .std oope oie) (hi : Fits (cellKind w.map.cell) (impactOf oie)) (hf : 0 < env.cellFuel)
    (c : ℝ) (hc : 0 ≤ c)
    (ha : (w.matcher.algo = .idle ∧ c = 0) ∨ ∃ seed transl rot failed total b, w.matcher.algo = .monteCarlo seed transl rot failed total ∧
      env.fuel = total + 1 ∧ 0 ≤ b ∧ (∀ n x y, WithinShift b (sample seed n x y)) ∧ c = total * b)
    (hF : 7 ≤ env.fuel)
    (N : Int) (hok : ∀ v, |v| ≤ 6 * N → env.ok v = true) (hl : 4 * N + 2 ≤ env.lineFuel) (R B : ℝ) (hR : 0 ≤ R) :
    ∃ P, launchAny stod rad rnd env sample t = some P ∧
      ∀ ds : List (Poses.Pose ℝ × Msg ℝ),
        ds.length * (c + driftReach w.matcher.drift) + B + R ≤ w.map.params.scale * (N - 1) →
        (∀ d ∈ ds, |d.1.x| ≤ B ∧ |d.1.y| ≤ B ∧ GoodMsg P.cfg.slam R d.2) →
        ∃ s', P.start.run P.cfg ds = some s' := by
  obtain ⟨P, hP⟩ := launched_any_starts (env := env) (sample := sample) hw h ho (by
    rcases ha with ⟨e, -⟩ | ⟨_, _, _, _, _, _, e, -⟩ <;> rw [e] <;> intro _ _ _ _ _ <;> simp)
  refine ⟨P, hP, fun ds hN hd => ?_⟩
  obtain ⟨hs, hw', hh⟩ := launchAny_started hw h ho hi hf hP
  have hpose : P.start.st.pose = ⟨0, 0, 0⟩ ∧ P.start.st.odom = ⟨0, 0, 0⟩ :=
    (launched_any_behaves hw h ho hi hf hP).1.origin
  have hscale : P.cfg.slam.scale = w.map.params.scale := (launched_any_behaves hw h ho hi hf hP).1.scale
  have hr0 : 0 ≤ driftReach w.matcher.drift := by unfold driftReach; by_cases e : w.matcher.drift = true <;> simp [e]
  obtain ⟨s, m, h1, h2, rfl⟩ := launchAny_some hw ho hP
  have hsafe : m.machine.Safe (configured env (skipExceeding t) idleEnumerator w oope oie).matcher.imp
      (c + driftReach w.matcher.drift) := by
    simp only [matchingOf, Option.map_eq_some_iff] at h2
    obtain ⟨b0, h3, h4⟩ := h2
    have hb : b0.machine.Safe (configured env (skipExceeding t) idleEnumerator w oope oie).matcher.imp c := by
      rcases ha with ⟨e, rfl⟩ | ⟨seed, transl, rot, failed, total, b, e, hfu, hb, hsam, rfl⟩
      · rw [e] at h3
        rw [← Option.some.inj h3]
        exact idle_safe
      · rw [e] at h3
        rw [← Option.some.inj h3, hfu]
        exact monte_carlo_safe hf failed total transl rot (sample seed) b hb hsam
    by_cases hd' : w.matcher.drift = true
    · rw [if_pos hd'] at h4
      rw [← h4, driftReach, if_pos hd']
      exact drift_safe hf env.fuel hF (baseOf_keeps h3) hb
    · rw [if_neg hd'] at h4
      rw [← h4, driftReach, if_neg hd', add_zero]
      exact hb
  exact mach_total hs _ (add_nonneg hc hr0) hsafe N hok hl R 0 B hR ds (by rw [zero_add, hscale]; exact hN)
    (mach_start_sound _ _ hw') hh (by
      have e1 : s.st.pose = ⟨0, 0, 0⟩ := hpose.1
      have e2 : s.st.odom = ⟨0, 0, 0⟩ := hpose.2
      simp [e1, e2]) fun d hd' => ⟨(hd d hd').2.2, (hd d hd').1, (hd d hd').2.1⟩

/-- **A configured fixed hill climbing SLAM starts, and every matching ends (C93)**, however many messages were handled before. -/
theorem launched_fixed_ends (hw : Config.init1h stod rad rnd t = some w) (h : Sensible w)
    (ho : w.matcher.spe.oope = .std oope oie) (hi : Fits (cellKind w.map.cell) (impactOf oie)) (hf : 0 < env.cellFuel)
    (hdr : w.matcher.drift = false) (ha : w.matcher.algo = .hcFixed) (hk : w.map.cell ≠ .gmapping) :
    ∃ (k : CellKind) (i : Impact) (cfg : MachCfg k.Cell (AnyMap k.Cell) (BitVec 32)) (s : Mach (AnyMap k.Cell) (BitVec 32)),
      launchAny stod rad rnd env sample t = some ⟨k, i, BitVec 32, cfg, s⟩ ∧ cfg.machine = fixedMachine cfg.matcher env.fuel ∧
      s.state = 5 ∧
      ∀ ds s1, s.run cfg ds = some s1 → ∀ scan : List ScanPoint, (∀ p ∈ scan, p.factor = 1) → ∀ p,
        ∃ fuel r, ∀ fuel', fuel ≤ fuel' →
          (fixedMachine cfg.matcher fuel').process (cfg.view s1.st.map) s1.weights s1.state scan p = some r := by
  obtain ⟨P, hP⟩ := launched_any_starts (env := env) (sample := sample) hw h ho (by rw [ha]; intro _ _ _ _ _; simp)
  obtain ⟨hs, hw', -⟩ := launchAny_started hw h ho hi hf hP
  obtain ⟨b, hb, -, -, hb', -⟩ := launched_any_matcher hw hP
  have hb := (hb hdr).trans (hb' ha)
  have hkind : P.kind = cellKind w.map.cell := by
    obtain ⟨s, m, -, -, rfl⟩ := launchAny_some hw ho hP
    rfl
  have hk' : P.kind ≠ .gmapping := by
    rw [hkind]
    intro e
    cases hc : w.map.cell <;> rw [hc] at e hk <;> first | exact hk rfl | cases e
  obtain ⟨k, i, T, cfg, s⟩ := P
  simp only [MProgram.matching, Matching.mk.injEq] at hb
  obtain ⟨hT, hm, hst⟩ := hb
  subst hT
  rw [heq_eq_eq] at hm hst
  exact ⟨k, i, cfg, s, hP, hm, hst, fun ds s1 hr scan hfac p => fixed_ends hs hk' ds rfl hw' hr scan hfac p⟩

end

end Slam.Whole
