import Verif.Whole.FixedProps
import Verif.Whole.Roam

/-!
# C96: the program on a map of fixed size, from its configuration
-/

set_option autoImplicit false
set_option linter.unusedSectionVars false

namespace Slam.Whole
open Slam.Grid Slam.Cells Slam.Poses Slam.Sensor Slam.Score Slam.ScanAdder Slam.Worlds Slam.Tbm Slam.Matcher Slam.ScanMatch

/-! ## Model -/

/-- The map of fixed size `create_grid_map` makes, src/utils/init_occupancy_mapping.h:113-124, 132-133, 136-137. `none`: a growing
map (`mapOf`), or one with coarser levels; or a negative size (no memory). -/
noncomputable def fixedMapOf (m : Config.MapCfg ℝ) : Option (AnyMap (cellKind m.cell).Cell) :=
  if m.coarse.isSome then none
  else if m.params.width < 0 ∨ m.params.height < 0 then none
  else
    match m.kind with
    | .plain => some (.plain (PlainMap.create m.params.width.toNat m.params.height.toNat (cellKind m.cell).proto))
    | .lazyTiled =>
      (LazyMap.stepL 128 (cellKind m.cell).upd LazyMap.emptySt
        (.create false m.params.width.toNat m.params.height.toNat (cellKind m.cell).proto)).map .lazy
    | _ => none

/-- The assembled program, src/utils/init_slam.h:12-24, as `anyOf`; it handles messages by `Mach.handleFixed`. -/
noncomputable def fixedOf (env : Env) (skipMax : Bool) (w : Config.World ℝ) (oope : Config.Oope) (oie : Config.Oie)
    (sample : Int → Nat → ℝ → ℝ → Delta ℝ) : Option MProgram :=
  let c := configured env skipMax idleEnumerator w oope oie
  (fixedMapOf w.map).bind fun m =>
    (matchingOf c.matcher env.fuel sample w.matcher).map fun b =>
      ⟨cellKind w.map.cell, impactOf oie, b.T,
        ⟨{ c.slam with api := fixedApi (cellKind w.map.cell).upd }, c.matcher, b.machine, c.dims, c.origin⟩,
        ⟨⟨⟨0, 0, 0⟩, ⟨0, 0, 0⟩, m, histOf w.adder⟩, spwOf w.matcher.spe.spw, b.state⟩⟩

/-- The start of a single-hypothesis SLAM on a map of fixed size from the properties `t`, src/utils/init_slam.h:12-24,
src/ros/lslam2D_bag_runner.cpp:119-122. -/
noncomputable def launchFixed (stod : Config.Str → Option ℝ) (rad : ℝ) (rnd : Nat) (env : Env)
    (sample : Int → Nat → ℝ → ℝ → Delta ℝ) (t : Config.Table) : Option MProgram :=
  (Config.init1h stod rad rnd t).bind fun w =>
    match w.matcher.spe.oope with
    | .std oope oie => fixedOf env (skipExceeding t) w oope oie sample
    | _ => none

/-! ## Specification -/

/-- The same SLAM with the growing map of the same family. -/
def grown (w : Config.World ℝ) : Config.World ℝ :=
  { w with map := { w.map with kind := if w.map.kind = .plain then .unboundedPlain else .unboundedLazyTiled } }

/-! ## Proofs -/

section
variable {stod : Config.Str → Option ℝ} {rad : ℝ} {rnd : Nat} {env : Env} {sample : Int → Nat → ℝ → ℝ → Delta ℝ}
  {t : Config.Table} {w : Config.World ℝ} {oope : Config.Oope} {oie : Config.Oie}

theorem baseOf_reads {C : Type} {cfg : Matcher.Cfg C} (hf : 0 < cfg.cellFuel) {fuel : Nat} {algo : Config.Algo ℝ} {m : Matching C}
    (h : baseOf cfg fuel sample algo = some m) : m.machine.Reads fun _ _ => True := by
  cases algo <;> simp only [baseOf, Option.some.injEq, reduceCtorEq] at h <;> subst h
  · exact enum_reads hf _ _
  · exact enum_reads hf _ _
  · exact enum_reads hf _ _
  · exact idle_reads _
  · exact fixed_reads hf _

theorem matchingOf_reads {C : Type} {cfg : Matcher.Cfg C} (hf : 0 < cfg.cellFuel) {fuel : Nat} {mc : Config.Matcher ℝ}
    {m : Matching C} (h : matchingOf cfg fuel sample mc = some m) : m.machine.Reads fun _ _ => True := by
  simp only [matchingOf, Option.map_eq_some_iff] at h
  obtain ⟨b, h1, h2⟩ := h
  by_cases hd : mc.drift = true
  · rw [if_pos hd] at h2
    subst h2
    exact drift_reads hf _ (baseOf_reads hf h1)
  · rw [if_neg hd] at h2
    subst h2
    exact baseOf_reads hf h1

/-- The two programs, side by side, with any bound on the iterations. -/
theorem launched_pairs (hw : Config.init1h stod rad rnd t = some w) (hk : w.map.kind = .plain ∨ w.map.kind = .lazyTiled)
    (h : Sensible (grown w)) (ho : w.matcher.spe.oope = .std oope oie) (hi : Fits (cellKind w.map.cell) (impactOf oie))
    (hf : 0 < env.cellFuel) {b : Matching (cellKind w.map.cell).Cell}
    (hb : matchingOf (configured env (skipExceeding t) idleEnumerator w oope oie).matcher env.fuel sample w.matcher = some b) :
    ∃ (cfg cfg' : MachCfg (cellKind w.map.cell).Cell (AnyMap (cellKind w.map.cell).Cell) b.T)
      (s s' : Mach (AnyMap (cellKind w.map.cell).Cell) b.T),
      launchFixed stod rad rnd env sample t = some ⟨cellKind w.map.cell, impactOf oie, b.T, cfg', s'⟩ ∧
      anyOf env (skipExceeding t) (grown w) oope oie sample = some ⟨cellKind w.map.cell, impactOf oie, b.T, cfg, s⟩ ∧
      cfg.machine = b.machine ∧ cfg.matcher = (configured env (skipExceeding t) idleEnumerator w oope oie).matcher ∧
      cfg.slam.ok = env.ok ∧ cfg.slam.fuel = env.lineFuel ∧ cfg.slam.scale = w.map.params.scale ∧
      s.st.pose = ⟨0, 0, 0⟩ ∧ s.st.odom = ⟨0, 0, 0⟩ ∧
      MachStarted (cellKind w.map.cell) (impactOf oie) cfg s.st.map ∧ Spw.Ok s.weights ∧ HistOk s.st.hist ∧ Twin cfg cfg' ∧
      Holds cfg' (cellKind w.map.cell).upd (cellKind w.map.cell).proto w.map.params.width.toNat w.map.params.height.toNat s'.st.map ∧
      (w.map.kind = .plain → Refuses cfg' w.map.params.width.toNat w.map.params.height.toNat s'.st.map) ∧
      Same cfg cfg' s.st.map s'.st.map w.map.params.width.toNat w.map.params.height.toNat s s' ∧
      s.state = b.state ∧ cfg.slam.skipMax = skipExceeding t ∧ cfg.slam.tol = env.tol ∧ cfg.slam.props.margin = w.margin ∧
      ∀ f m, matchingOf (configured env (skipExceeding t) idleEnumerator w oope oie).matcher f sample w.matcher = some ⟨b.T, m, b.state⟩ →
        launchFixed stod rad rnd { env with fuel := f } sample t =
          some ⟨cellKind w.map.cell, impactOf oie, b.T, cfg'.withMachine m, s'⟩ ∧
        anyOf { env with fuel := f } (skipExceeding t) (grown w) oope oie sample =
          some ⟨cellKind w.map.cell, impactOf oie, b.T, cfg.withMachine m, s⟩ := by
  have hsz : ¬ (w.map.params.width < 0 ∨ w.map.params.height < 0) := by have := h.size; simp only [grown] at this; omega
  obtain ⟨s0, g1, g2, g3, g4, -⟩ := configured_started env hf (skipExceeding t) idleEnumerator () (grown w) h oope oie hi
  have g1' := g1
  simp only [configuredStart, Option.map_eq_some_iff] at g1'
  obtain ⟨m0, g5, rfl⟩ := g1'
  obtain ⟨m', hm', hplain⟩ : ∃ m', fixedMapOf w.map = some m' ∧
      ∀ cfg' : MachCfg (cellKind w.map.cell).Cell (AnyMap (cellKind w.map.cell).Cell) b.T,
        cfg'.slam.api = fixedApi (cellKind w.map.cell).upd → cfg'.dims = AnyMap.dims → cfg'.origin = AnyMap.origin →
        Holds cfg' (cellKind w.map.cell).upd (cellKind w.map.cell).proto w.map.params.width.toNat w.map.params.height.toNat m' ∧
        (w.map.kind = .plain → Refuses cfg' w.map.params.width.toNat w.map.params.height.toNat m') := by
    have hc : w.map.coarse = none := h.single
    unfold fixedMapOf
    rw [if_neg (by simp [hc]), if_neg hsz]
    rcases hk with e | e
    · rw [e]
      exact ⟨_, rfl, fun cfg' a1 a2 a3 => ⟨fixed_plain_holds a1 a2 a3 _ _ _, fun _ => fixed_plain_refuses a1 _ _ _⟩⟩
    · rw [e]
      exact ⟨_, rfl, fun cfg' a1 a2 a3 => ⟨fixed_lazy_holds a1 a2 a3 _ _ _, fun e' => by cases e'⟩⟩
  have hb' : matchingOf (configured env (skipExceeding t) idleEnumerator (grown w) oope oie).matcher env.fuel sample (grown w).matcher =
    some b := hb
  let cfg : MachCfg (cellKind w.map.cell).Cell (AnyMap (cellKind w.map.cell).Cell) b.T :=
    ⟨(configured env (skipExceeding t) idleEnumerator (grown w) oope oie).slam,
      (configured env (skipExceeding t) idleEnumerator (grown w) oope oie).matcher, b.machine, AnyMap.dims, AnyMap.origin⟩
  let cfg' : MachCfg (cellKind w.map.cell).Cell (AnyMap (cellKind w.map.cell).Cell) b.T :=
    ⟨{ (configured env (skipExceeding t) idleEnumerator w oope oie).slam with api := fixedApi (cellKind w.map.cell).upd },
      (configured env (skipExceeding t) idleEnumerator w oope oie).matcher, b.machine, AnyMap.dims, AnyMap.origin⟩
  obtain ⟨hH, hRf⟩ := hplain cfg' rfl rfl rfl
  refine ⟨cfg, cfg', ⟨⟨⟨0, 0, 0⟩, ⟨0, 0, 0⟩, m0, histOf w.adder⟩, spwOf w.matcher.spe.spw, b.state⟩,
    ⟨⟨⟨0, 0, 0⟩, ⟨0, 0, 0⟩, m', histOf w.adder⟩, spwOf w.matcher.spe.spw, b.state⟩, ?_, ?_, rfl, rfl, rfl, rfl, rfl, rfl, rfl, ?_, g3, g4,
    ⟨rfl, rfl, rfl, rfl, rfl, rfl, rfl, rfl, rfl⟩, hH, hRf, ?_, rfl, rfl, rfl, rfl, fun f m hm => ⟨?_, ?_⟩⟩
  · rw [launchFixed, hw, Option.bind_some, ho]
    simp only [fixedOf, hm', Option.bind_some, hb, Option.map_some]
    rfl
  · simp only [anyOf, g1, Option.bind_some, hb', Option.map_some]
    rfl
  · exact ⟨g2.fits, g2.impact, g2.lawful, g2.adder, g2.qualities, g2.scale, g2.fuel, matchingOf_keeps hb'⟩
  · exact same_start hH rfl rfl rfl rfl rfl rfl rfl
  · have e3 : (configured { env with fuel := f } (skipExceeding t) idleEnumerator w oope oie).matcher =
      (configured env (skipExceeding t) idleEnumerator w oope oie).matcher := rfl
    rw [launchFixed, hw, Option.bind_some, ho]
    simp only [fixedOf, hm', Option.bind_some]
    rw [e3, hm]
    rfl
  · have e1 : configuredStart { env with fuel := f } () (grown w) = configuredStart env () (grown w) := rfl
    have e3 : matchingOf (configured { env with fuel := f } (skipExceeding t) idleEnumerator (grown w) oope oie).matcher f sample
        (grown w).matcher = some ⟨b.T, m, b.state⟩ := hm
    simp only [anyOf, e1, g1, Option.bind_some, e3, Option.map_some]
    rfl

/-- The two programs, side by side. -/
theorem launched_pair (hw : Config.init1h stod rad rnd t = some w) (hk : w.map.kind = .plain ∨ w.map.kind = .lazyTiled)
    (h : Sensible (grown w)) (ho : w.matcher.spe.oope = .std oope oie) (hi : Fits (cellKind w.map.cell) (impactOf oie))
    (hf : 0 < env.cellFuel) {b : Matching (cellKind w.map.cell).Cell}
    (hb : matchingOf (configured env (skipExceeding t) idleEnumerator w oope oie).matcher env.fuel sample w.matcher = some b) :
    ∃ (cfg cfg' : MachCfg (cellKind w.map.cell).Cell (AnyMap (cellKind w.map.cell).Cell) b.T)
      (s s' : Mach (AnyMap (cellKind w.map.cell).Cell) b.T),
      launchFixed stod rad rnd env sample t = some ⟨cellKind w.map.cell, impactOf oie, b.T, cfg', s'⟩ ∧
      anyOf env (skipExceeding t) (grown w) oope oie sample = some ⟨cellKind w.map.cell, impactOf oie, b.T, cfg, s⟩ ∧
      cfg.machine = b.machine ∧ cfg.matcher = (configured env (skipExceeding t) idleEnumerator w oope oie).matcher ∧
      cfg.slam.ok = env.ok ∧ cfg.slam.fuel = env.lineFuel ∧ cfg.slam.scale = w.map.params.scale ∧
      s.st.pose = ⟨0, 0, 0⟩ ∧ s.st.odom = ⟨0, 0, 0⟩ ∧
      MachStarted (cellKind w.map.cell) (impactOf oie) cfg s.st.map ∧ Spw.Ok s.weights ∧ HistOk s.st.hist ∧ Twin cfg cfg' ∧
      Holds cfg' (cellKind w.map.cell).upd (cellKind w.map.cell).proto w.map.params.width.toNat w.map.params.height.toNat s'.st.map ∧
      (w.map.kind = .plain → Refuses cfg' w.map.params.width.toNat w.map.params.height.toNat s'.st.map) ∧
      Same cfg cfg' s.st.map s'.st.map w.map.params.width.toNat w.map.params.height.toNat s s' := by
  obtain ⟨cfg, cfg', s, s', e1, e2, e3, e4, e5, e6, e7, e8, e9, e10, e11, e12, e13, e14, e15, e16, -⟩ := launched_pairs hw hk h ho hi hf hb
  exact ⟨cfg, cfg', s, s', e1, e2, e3, e4, e5, e6, e7, e8, e9, e10, e11, e12, e13, e14, e15, e16⟩

/-- **A configured SLAM on a map of fixed size (C96)**, plain or lazily tiled, with the idle matcher or the Monte Carlo matcher, with
or without the drift detector. If what the robot can reach (as in C93) is within `N` cells and the map has at least `2 N + 1` cells
along each axis, it handles all messages, and ends as the SLAM configured with the growing map of the same family does: the same
pose, the same cells within the map; outside, the growing map has learnt nothing. -/
theorem launched_fixed_as_growing (hw : Config.init1h stod rad rnd t = some w)
    (hk : w.map.kind = .plain ∨ w.map.kind = .lazyTiled) (h : Sensible (grown w))
    (ho : w.matcher.spe.oope = .std oope oie) (hi : Fits (cellKind w.map.cell) (impactOf oie)) (hf : 0 < env.cellFuel)
    (c : ℝ) (hc : 0 ≤ c)
    (ha : (w.matcher.algo = .idle ∧ c = 0) ∨ ∃ seed transl rot failed total b, w.matcher.algo = .monteCarlo seed transl rot failed total ∧
      env.fuel = total + 1 ∧ 0 ≤ b ∧ (∀ n x y, WithinShift b (sample seed n x y)) ∧ c = total * b)
    (hF : 7 ≤ env.fuel)
    (N : Int) (hok : ∀ v, |v| ≤ 6 * N → env.ok v = true) (hl : 4 * N + 2 ≤ env.lineFuel)
    (hW : 2 * N + 1 ≤ w.map.params.width) (hH : 2 * N + 1 ≤ w.map.params.height) (R B : ℝ) (hR : 0 ≤ R) :
    ∃ (T : Type) (cfg cfg' : MachCfg (cellKind w.map.cell).Cell (AnyMap (cellKind w.map.cell).Cell) T)
      (s s' : Mach (AnyMap (cellKind w.map.cell).Cell) T),
      launchFixed stod rad rnd env sample t = some ⟨cellKind w.map.cell, impactOf oie, T, cfg', s'⟩ ∧
      anyOf env (skipExceeding t) (grown w) oope oie sample = some ⟨cellKind w.map.cell, impactOf oie, T, cfg, s⟩ ∧
      ∀ ds : List (Poses.Pose ℝ × Msg ℝ),
        ds.length * (c + driftReach w.matcher.drift) + B + R ≤ w.map.params.scale * (N - 1) →
        (∀ d ∈ ds, |d.1.x| ≤ B ∧ |d.1.y| ≤ B ∧ GoodMsg cfg'.slam R d.2) →
        ∃ s1 s1', s.run cfg ds = some s1 ∧ s'.runFixed cfg' ds = some s1' ∧
          Alike cfg cfg' (cellKind w.map.cell).proto w.map.params.width.toNat w.map.params.height.toNat s1 s1' := by
  have hr0 : 0 ≤ driftReach w.matcher.drift := by unfold driftReach; by_cases e : w.matcher.drift = true <;> simp [e]
  have hf' : 0 < (configured env (skipExceeding t) idleEnumerator w oope oie).matcher.cellFuel := hf
  obtain ⟨b0, h3⟩ : ∃ b0, baseOf (configured env (skipExceeding t) idleEnumerator w oope oie).matcher env.fuel sample w.matcher.algo =
      some b0 := by
    rcases ha with ⟨e, -⟩ | ⟨_, _, _, _, _, _, e, -⟩ <;> rw [e] <;> exact ⟨_, rfl⟩
  obtain ⟨hsafe0, hread0, hstay0⟩ : b0.machine.Safe (configured env (skipExceeding t) idleEnumerator w oope oie).matcher.imp c ∧
      b0.machine.Reads (Matcher.Near c) ∧ b0.machine.Stays c := by
    rcases ha with ⟨e, rfl⟩ | ⟨seed, transl, rot, failed, total, b, e, hfu, hb, hsam, rfl⟩
    · rw [e] at h3
      rw [← Option.some.inj h3]
      exact ⟨idle_safe, idle_near⟩
    · rw [e] at h3
      rw [← Option.some.inj h3]
      refine ⟨?_, monte_carlo_local hf' failed total transl rot (sample seed) b hb hsam env.fuel⟩
      rw [hfu]
      exact monte_carlo_safe hf failed total transl rot (sample seed) b hb hsam
  obtain ⟨b, hb, hsafe, hread⟩ : ∃ b, matchingOf (configured env (skipExceeding t) idleEnumerator w oope oie).matcher env.fuel sample
      w.matcher = some b ∧
      b.machine.Safe (configured env (skipExceeding t) idleEnumerator w oope oie).matcher.imp (c + driftReach w.matcher.drift) ∧
      b.machine.Reads (Matcher.Near (c + driftReach w.matcher.drift)) := by
    simp only [matchingOf, h3, Option.map_some, Option.some.injEq, exists_eq_left']
    by_cases hd' : w.matcher.drift = true
    · rw [driftReach, if_pos hd', if_pos hd']
      exact ⟨drift_safe hf env.fuel hF (baseOf_keeps h3) hsafe0, (drift_near hf' env.fuel hread0 hstay0).1⟩
    · rw [driftReach, if_neg hd', if_neg hd', add_zero]
      exact ⟨hsafe0, hread0⟩
  obtain ⟨cfg, cfg', s, s', e1, e2, e3, e4, e5, e6, e7, e8, e9, e10, e11, e12, e13, e14, -, e15⟩ :=
    launched_pair hw hk h ho hi hf hb
  refine ⟨b.T, cfg, cfg', s, s', e1, e2, fun ds hN hd => ?_⟩
  obtain ⟨s1, s1', k1, k2, k3⟩ := fixed_as_growing e10 e13 e14 _ (add_nonneg hc hr0) (by rw [e3, e4]; exact hsafe)
    (by rw [e3]; exact hread) N (by rw [e5]; exact hok) (by rw [e6]; exact hl) (by omega) (by omega) R 0 B hR ds
    (by rw [e7, zero_add]; exact hN) (mach_start_sound cfg s e11) e15 e12 (by simp [e8, e9]) (by
      intro d hd'
      obtain ⟨d1, d2, d3⟩ := hd d hd'
      refine ⟨⟨d3.nan, ?_, d3.min, d3.max, ?_⟩, d1, d2⟩
      · have := d3.angles
        rw [e13.tol] at this
        exact this
      · have := d3.margin
        rw [e13.tol, e13.skipMax, e13.props] at this
        exact this)
  exact ⟨s1, s1', k1, k2, same_alike e10.lawful e14 k3⟩

/-- **A configured SLAM on a plain map of fixed size never answers differently (C96)**, whatever its matcher (but the
multi-resolution one): if it handles messages whose points, seen from the poses the odometry predicts, are within the map, then the
SLAM configured with the growing map handles them, too, and ends alike. -/
theorem launched_plain_success (hw : Config.init1h stod rad rnd t = some w) (hk : w.map.kind = .plain) (h : Sensible (grown w))
    (ho : w.matcher.spe.oope = .std oope oie) (hi : Fits (cellKind w.map.cell) (impactOf oie)) (hf : 0 < env.cellFuel)
    (hm : ∀ a b c d e, w.matcher.algo ≠ .m3rsm a b c d e) :
    ∃ (T : Type) (cfg cfg' : MachCfg (cellKind w.map.cell).Cell (AnyMap (cellKind w.map.cell).Cell) T)
      (s s' : Mach (AnyMap (cellKind w.map.cell).Cell) T),
      launchFixed stod rad rnd env sample t = some ⟨cellKind w.map.cell, impactOf oie, T, cfg', s'⟩ ∧
      anyOf env (skipExceeding t) (grown w) oope oie sample = some ⟨cellKind w.map.cell, impactOf oie, T, cfg, s⟩ ∧
      ∀ (ds : List (Poses.Pose ℝ × Msg ℝ)) s1', s'.runFixed cfg' ds = some s1' →
        PointsWithin cfg' w.map.params.width.toNat w.map.params.height.toNat s' ds →
        ∃ s1, s.run cfg ds = some s1 ∧
          Alike cfg cfg' (cellKind w.map.cell).proto w.map.params.width.toNat w.map.params.height.toNat s1 s1' := by
  obtain ⟨b, hb⟩ : ∃ b, matchingOf (configured env (skipExceeding t) idleEnumerator w oope oie).matcher env.fuel sample w.matcher =
      some b := by
    simp only [matchingOf]
    cases ha : w.matcher.algo with
    | m3rsm a b c d e => exact absurd ha (hm a b c d e)
    | monteCarlo a b c d e => exact ⟨_, rfl⟩
    | hillClimbing a b c d => exact ⟨_, rfl⟩
    | bruteForce a b c => exact ⟨_, rfl⟩
    | idle => exact ⟨_, rfl⟩
    | hcFixed => exact ⟨_, rfl⟩
  obtain ⟨cfg, cfg', s, s', e1, e2, e3, e4, e5, e6, e7, e8, e9, e10, e11, e12, e13, e14, e15, e16⟩ :=
    launched_pair hw (.inl hk) h ho hi hf hb
  refine ⟨b.T, cfg, cfg', s, s', e1, e2, fun ds s1' hr hp => ?_⟩
  obtain ⟨s1, k1, k2⟩ := fixed_success_as_growing e13 e10.lawful e14 (e15 hk) (by rw [e3]; exact matchingOf_reads hf hb) ds e16 hr hp
  exact ⟨s1, k1, same_alike e10.lawful e14 k2⟩

end

end Slam.Whole
