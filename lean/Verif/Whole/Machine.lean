import Verif.Whole.ConfiguredProps
import Verif.Matcher.Machine

/-!
# C93: the single-hypothesis SLAM with any scan matcher

`Whole.Own` has a matcher that enumerates poses. Here the matcher is any of `Matcher.Machine`: also `NoActionScanMatcher`,
`HillClimbingSMFixed` and the drift detector around another one.
-/

set_option autoImplicit false
set_option linter.unusedSectionVars false

namespace Slam.Whole
open Slam.Grid Slam.Cells Slam.Poses Slam.Sensor Slam.Score Slam.ScanAdder Slam.Worlds Slam.Tbm Slam.Matcher
open Slam.ScanMatch (Enumerator FirstMax monteCarlo MCState ImprovesIn)

/-! ## Model -/

/-- The configuration: that of `Whole.Cfg`, the parameters of the probability estimator, and the matcher; `dims` and `origin`
are the extent and the origin of a map. -/
structure MachCfg (C M T : Type) where
  slam : Cfg C M
  matcher : Matcher.Cfg C
  machine : Machine C T
  dims : M → Dims
  origin : M → Coord

/-- What the matcher sees of the map, as `OwnCfg.view`. `has_cell` of the growing maps: src/core/maps/plain_grid_map.h:77,
lazy_tiled_grid_map.h:150. -/
def MachCfg.view {C M T : Type} (cfg : MachCfg C M T) (m : M) : Matcher.View C :=
  ⟨cfg.dims m, cfg.origin m, cfg.slam.scale, fun _ => true, cfg.slam.api.read m⟩

/-- The state of the program: the world, the weighting of the points, the matcher. -/
structure Mach (M T : Type) where
  st : St M
  weights : Spw
  state : T

/-- `sm->reset_state()` and `sm->process_scan(tr_scan, pose(), map(), pose_delta)`,
src/core/states/single_state_hypothesis_laser_scan_grid_world.h:53-57. -/
def MachCfg.matching {C M T : Type} (cfg : MachCfg C M T) (s : Mach M T) (scan : List ScanPoint) (p : Pose ℝ) (m : M) :
    Option (Spw × T × Delta ℝ × Option ℝ) :=
  cfg.machine.process (cfg.view m) s.weights (cfg.machine.reset s.state) scan p

/-- `handle_transformed_msg`, src/ros/laser_scan_observer.h:28-38, `handle_sensor_data`,
src/core/states/laser_scan_grid_world.h:26-32, and `handle_observation`,
single_state_hypothesis_laser_scan_grid_world.h:52-65: as `Own.handle`, with the matcher given. -/
noncomputable def Mach.handle {C M T : Type} (cfg : MachCfg C M T) (s : Mach M T) (d : Pose ℝ × Msg ℝ) : Option (Mach M T) :=
  (msg2scan d.2 cfg.slam.skipMax cfg.slam.tol).bind fun pts =>
    (scanOf pts).bind fun scan =>
      let p := s.st.pose.add (observerStep s.st.odom d.1).2
      (cfg.matching s scan p s.st.map).bind fun r =>
        let p' := p.add r.2.2.1
        let q := if r.2.2.1.toBool then cfg.slam.props.localizedQuality else cfg.slam.props.rawQuality
        (cfg.slam.append s.st.hist s.st.map p' scan q cfg.slam.props.margin).map fun a =>
          ⟨⟨(observerStep s.st.odom d.1).1, p', a.1, a.2⟩, r.1, r.2.1⟩

/-- A history of messages. -/
noncomputable def Mach.run {C M T : Type} (cfg : MachCfg C M T) (s : Mach M T) : List (Pose ℝ × Msg ℝ) → Option (Mach M T)
  | [] => some s
  | d :: ds => (s.handle cfg d).bind fun s => s.run cfg ds

/-! ## Relation to the other programs -/

variable {C M T S : Type}

/-- The program of C87 as one of these. -/
noncomputable def OwnCfg.toMach (cfg : OwnCfg C M S) : MachCfg C M S :=
  ⟨cfg.slam, cfg.matcher, enumMachine cfg.matcher cfg.enumerator cfg.fuel, cfg.dims, cfg.origin⟩

/-- Its state. -/
def Own.toMach (s : Own M S) : Mach M S := ⟨s.st, s.weights, s.enum⟩

/-- **The program of C87 is one of these (C93).** -/
theorem own_is_mach (cfg : OwnCfg C M S) (ds : List (Poses.Pose ℝ × Msg ℝ)) : ∀ s : Own M S,
    s.toMach.run cfg.toMach ds = (s.run cfg ds).map Own.toMach := by
  have hone : ∀ (s : Own M S) d, s.toMach.handle cfg.toMach d = (s.handle cfg d).map Own.toMach := by
    intro s d
    unfold Mach.handle Own.handle
    change (msg2scan d.2 cfg.slam.skipMax cfg.slam.tol).bind _ = _
    cases msg2scan d.2 cfg.slam.skipMax cfg.slam.tol with
    | none => rfl
    | some pts =>
      simp only [Option.bind_some]
      cases scanOf pts with
      | none => rfl
      | some scan =>
        simp only [Option.bind_some]
        have hm : cfg.toMach.matching s.toMach scan (s.toMach.st.pose.add (observerStep s.toMach.st.odom d.1).2) s.toMach.st.map =
            (cfg.matching s scan (s.st.pose.add (observerStep s.st.odom d.1).2) s.st.map).map fun r =>
              (r.1, r.2.1, r.2.2.1, r.2.2.2.1) := rfl
        rw [hm]
        cases cfg.matching s scan (s.st.pose.add (observerStep s.st.odom d.1).2) s.st.map with
        | none => rfl
        | some r =>
          simp only [Option.map_some, Option.bind_some, Option.map_map]
          rfl
  induction ds with
  | nil => intro s; rfl
  | cons d ds ih =>
    intro s
    change (s.toMach.handle cfg.toMach d).bind _ = ((s.handle cfg d).bind _).map _
    rw [hone]
    cases s.handle cfg d with
    | none => rfl
    | some s1 => exact ih s1

/-- The matcher's answers in a state of the program. -/
noncomputable def MachCfg.answer (cfg : MachCfg C M T) (s : Mach M T) (scan : List ScanPoint) (p : Poses.Pose ℝ) (m : M) :
    Option (Delta ℝ) :=
  (cfg.matching s scan p m).map fun r => r.2.2.1

theorem mach_handle_iff (cfg : MachCfg C M T) (s : Mach M T) (d : Poses.Pose ℝ × Msg ℝ) (t : St M) :
    s.st.handle cfg.slam ⟨d.1, d.2, cfg.answer s⟩ = some t ↔ ∃ s', s.handle cfg d = some s' ∧ s'.st = t := by
  unfold St.handle Mach.handle MachCfg.answer
  simp only [Option.bind_eq_some_iff, Option.map_eq_some_iff]
  constructor
  · rintro ⟨pts, h1, scan, h2, c, ⟨r, h3, rfl⟩, a, h4, rfl⟩
    exact ⟨_, ⟨pts, h1, scan, h2, r, h3, a, h4, rfl⟩, rfl⟩
  · rintro ⟨s', ⟨pts, h1, scan, h2, r, h3, a, h4, rfl⟩, rfl⟩
    exact ⟨pts, h1, scan, h2, _, ⟨r, h3, rfl⟩, a, h4, rfl⟩

/-- **Every execution is one of C80 (C93)**, with the messages given and the answers of the program's matcher. -/
theorem mach_run_is_run (cfg : MachCfg C M T) (ds : List (Poses.Pose ℝ × Msg ℝ)) {s s' : Mach M T} (h : s.run cfg ds = some s') :
    ∃ ds' : List (Datum M), ds'.map (fun d => (d.odom, d.msg)) = ds ∧ s.st.run cfg.slam ds' = some s'.st ∧
      ∀ d ∈ ds', ∃ t, d.matcher = cfg.answer t := by
  induction ds generalizing s with
  | nil =>
    simp only [Mach.run, Option.some.injEq] at h
    subst h
    exact ⟨[], rfl, rfl, by simp⟩
  | cons d ds ih =>
    simp only [Mach.run, Option.bind_eq_some_iff] at h
    obtain ⟨s1, h1, h2⟩ := h
    obtain ⟨ds', e1, e2, e3⟩ := ih h2
    refine ⟨⟨d.1, d.2, cfg.answer s⟩ :: ds', by simp [e1], ?_, ?_⟩
    · change (s.st.handle cfg.slam _).bind _ = _
      rw [(mach_handle_iff cfg s d s1.st).2 ⟨s1, h1, rfl⟩]
      exact e2
    · intro d' hd'
      rcases List.mem_cons.1 hd' with rfl | hd'
      · exact ⟨s, rfl⟩
      · exact e3 d' hd'

/-! ## Sound states -/

/-- A configuration the program can be started with, as `Started`; the matcher leaves the weighting usable. -/
structure MachStarted (k : CellKind) (i : Impact) (cfg : MachCfg k.Cell M T) (init : M) : Prop where
  fits : Fits k i
  impact : cfg.matcher.imp = k.impact i
  lawful : Lawful cfg.slam.api k.upd k.proto init
  adder : SoundFor cfg.slam.adder cfg.slam.scale
  qualities : SoundQualities cfg.slam.props
  scale : 0 < cfg.slam.scale
  fuel : 0 < cfg.matcher.cellFuel
  keeps : cfg.machine.Keeps cfg.matcher.imp

/-- What holds in every state of the program. -/
structure MachSound (cfg : MachCfg C M T) (init : M) (s : Mach M T) : Prop where
  map : SaneTold cfg.slam.api init s.st.map
  weights : Spw.Ok s.weights

variable {k : CellKind} {i : Impact} {cfg : MachCfg k.Cell M T} {init : M}

/-- The usable points of a scan at the pose `p`. -/
noncomputable def MachCfg.usable (cfg : MachCfg C M T) (p : Poses.Pose ℝ) (scan : List ScanPoint) : List ScanPoint :=
  usablePoints cfg.matcher.filter cfg.slam.scale (fun _ => true) p scan

/-- The configuration of the scoring, as one of C87. -/
def MachCfg.own (cfg : MachCfg C M T) : OwnCfg C M Unit := ⟨cfg.slam, cfg.matcher, idleEnumerator, cfg.dims, cfg.origin, 0⟩

theorem mach_shows (hc : MachStarted k i cfg init) {m : M} (h : SaneTold cfg.slam.api init m) :
    Shows (cfg.view m) cfg.matcher.imp (seenProb k i cfg.slam.api m) :=
  hc.impact ▸ sane_shows k i hc.fits cfg.own hc.lawful h

theorem mach_handle_sound (hc : MachStarted k i cfg init) {s s' : Mach M T} (hs : MachSound cfg init s)
    {d : Poses.Pose ℝ × Msg ℝ} (h : s.handle cfg d = some s') : MachSound cfg init s' := by
  constructor
  · have := (mach_handle_iff cfg s d s'.st).2 ⟨s', h, rfl⟩
    obtain ⟨us, h1, h2⟩ := handle_sane hc.adder hc.qualities this
    obtain ⟨vs, e1, e2⟩ := hs.map
    refine ⟨vs ++ us, by rw [tellAll_append, e1]; exact h1, ?_⟩
    rw [List.map_append]
    exact sane_append e2 h2
  · simp only [Mach.handle, Option.bind_eq_some_iff, Option.map_eq_some_iff] at h
    obtain ⟨pts, -, scan, -, ⟨w', t', delta, sc⟩, h3, a, -, rfl⟩ := h
    exact hc.keeps _ _ (mach_shows hc hs.map) hc.scale _ hs.weights _ _ _ _ _ _ _ h3

/-- Every reachable state is sound. -/
theorem mach_run_sound (hc : MachStarted k i cfg init) (ds : List (Poses.Pose ℝ × Msg ℝ)) {s s' : Mach M T}
    (hs : MachSound cfg init s) (h : s.run cfg ds = some s') : MachSound cfg init s' := by
  induction ds generalizing s with
  | nil =>
    simp only [Mach.run, Option.some.injEq] at h
    subst h
    exact hs
  | cons d ds ih =>
    simp only [Mach.run, Option.bind_eq_some_iff] at h
    obtain ⟨s1, h1, h2⟩ := h
    exact ih (mach_handle_sound hc hs h1) h2

/-- A fresh program is sound. -/
theorem mach_start_sound (cfg : MachCfg C M T) (s : Mach M T) (hw : Spw.Ok s.weights) : MachSound cfg s.st.map s :=
  ⟨⟨[], rfl, sane_nil⟩, hw⟩

/-- **The map shows probabilities only (C93)**, whatever the matcher. -/
theorem mach_map_probabilities (hc : MachStarted k i cfg init) (ds : List (Poses.Pose ℝ × Msg ℝ)) {s s' : Mach M T}
    (hs : s.st.map = init) (h : s.run cfg ds = some s') (c : Coord) :
    ∃ cell, cfg.slam.api.read s'.st.map c = some cell ∧
      (∀ v, k.value cell = some v → Unit01 v ∨ (k = .gmapping ∧ v = -1 ∧ k.unknown cell = true)) ∧
      (k.value cell = none → k = .tbm .consistent ∧ k.unknown cell = false) := by
  obtain ⟨ds', -, h', -⟩ := mach_run_is_run cfg ds h
  exact map_shows_probabilities k hc.lawful hc.adder hc.qualities ds' hs h' c

/-- **What a message does (C93)**: the matcher is asked once, at the pose the odometry predicts, on the map so far; the robot
moves by its answer; the scan enters the map at the new pose, with the quality configured for corrected poses exactly if the
answer is not zero. -/
theorem mach_message {cfg : MachCfg C M T} {s s' : Mach M T} {d : Poses.Pose ℝ × Msg ℝ} (h : s.handle cfg d = some s') :
    ∃ scan p delta best q us, ScanOf cfg.slam d.2 scan ∧
      (p.x = s.st.pose.x + (d.1.x - s.st.odom.x) ∧ p.y = s.st.pose.y + (d.1.y - s.st.odom.y) ∧
        p.theta = s.st.pose.theta + (d.1.theta - s.st.odom.theta)) ∧
      cfg.machine.process (cfg.view s.st.map) s.weights (cfg.machine.reset s.state) scan p =
        some (s'.weights, s'.state, delta, best) ∧
      s'.st.pose = p.add delta ∧ s'.st.odom = d.1 ∧
      (delta.toBool = true → q = cfg.slam.props.localizedQuality) ∧
      (delta.toBool = false → q = cfg.slam.props.rawQuality) ∧
      Inserted cfg.slam s'.st.pose scan q cfg.slam.props.margin us ∧ cfg.slam.api.tellAll s.st.map us = some s'.st.map := by
  simp only [Mach.handle, Option.bind_eq_some_iff, Option.map_eq_some_iff] at h
  obtain ⟨pts, h1, scan, h2, ⟨w', e', delta, best⟩, h3, a, h4, rfl⟩ := h
  obtain ⟨us, u1, u2⟩ := append_spec h4
  exact ⟨scan, _, delta, best, _, us, ⟨pts, h1, h2⟩, ⟨rfl, rfl, rfl⟩, h3, rfl, rfl, fun hb => by rw [if_pos hb],
    fun hb => by rw [if_neg (by simp [hb])], u1, u2⟩

/-! ## All messages are handled -/

theorem mach_handle_total (hc : MachStarted k i cfg init) (b : ℝ) (hm : cfg.machine.Safe cfg.matcher.imp b)
    (N : Int) (hok : ∀ v, |v| ≤ 6 * N → cfg.slam.ok v = true) (hf : 4 * N + 2 ≤ cfg.slam.fuel) (R X : ℝ)
    (hX : X + R ≤ cfg.slam.scale * (N - 1)) (hR : 0 ≤ R) {s : Mach M T} (hs : MachSound cfg init s)
    (hh : HistOk s.st.hist) (d : Poses.Pose ℝ × Msg ℝ) (hg : GoodMsg cfg.slam R d.2)
    (hx : |s.st.pose.x + (d.1.x - s.st.odom.x)| + b ≤ X) (hy : |s.st.pose.y + (d.1.y - s.st.odom.y)| + b ≤ X) :
    ∃ s', s.handle cfg d = some s' ∧ HistOk s'.st.hist ∧ s'.st.odom = d.1 ∧
      |s'.st.pose.x - s'.st.odom.x| ≤ |s.st.pose.x - s.st.odom.x| + b ∧
      |s'.st.pose.y - s'.st.odom.y| ≤ |s.st.pose.y - s.st.odom.y| + b := by
  obtain ⟨us, hus, -⟩ := hs.map
  obtain ⟨t, h1, -, h3, h4, h5, h6⟩ := handle_total_at (cfg := cfg.slam) hc.lawful hc.scale N hok hf R b X hX hR
    (s := s.st) (d := ⟨d.1, d.2, cfg.answer s⟩) ⟨us, hus⟩ hh hg (by
      rintro scan ⟨pts, e1, e2⟩
      obtain ⟨w', t', delta, sc, g1, g2, g3⟩ := hm _ _ (mach_shows hc hs.map) hc.scale s.weights hs.weights
        (cfg.machine.reset s.state) scan (scanOf_polar e2) (s.st.pose.add (d.1.sub s.st.odom))
      refine ⟨delta, ?_, g2, g3⟩
      simp only [MachCfg.answer, MachCfg.matching, g1, Option.map_some]) hx hy
  obtain ⟨s', e, rfl⟩ := (mach_handle_iff cfg s d t).1 h1
  exact ⟨s', e, h3, h4, h5, h6⟩

/-- **No message makes the program fail (C93)**: with a matcher that answers within `b` on every map, messages the program is
ready for, odometry within `B` of its origin and an initial offset within `A`, as long as the area reached stays within the
integers the traversal copes with (`N`). -/
theorem mach_total (hc : MachStarted k i cfg init) (b : ℝ) (hb : 0 ≤ b) (hm : cfg.machine.Safe cfg.matcher.imp b)
    (N : Int) (hok : ∀ v, |v| ≤ 6 * N → cfg.slam.ok v = true) (hf : 4 * N + 2 ≤ cfg.slam.fuel) (R A B : ℝ)
    (hR : 0 ≤ R) (ds : List (Poses.Pose ℝ × Msg ℝ)) (hN : A + ds.length * b + B + R ≤ cfg.slam.scale * (N - 1))
    {s : Mach M T} (hs : MachSound cfg init s) (hh : HistOk s.st.hist)
    (hA : |s.st.pose.x - s.st.odom.x| ≤ A ∧ |s.st.pose.y - s.st.odom.y| ≤ A)
    (hd : ∀ d ∈ ds, GoodMsg cfg.slam R d.2 ∧ |d.1.x| ≤ B ∧ |d.1.y| ≤ B) : ∃ s', s.run cfg ds = some s' := by
  induction ds generalizing s A with
  | nil => exact ⟨s, rfl⟩
  | cons d ds ih =>
    obtain ⟨g, b1, b2⟩ := hd d (by simp)
    simp only [List.length_cons, Nat.cast_add, Nat.cast_one] at hN
    have hlen : (0 : ℝ) ≤ ds.length * b := mul_nonneg (Nat.cast_nonneg _) hb
    have hx : |s.st.pose.x + (d.1.x - s.st.odom.x)| ≤ A + B := by
      have : s.st.pose.x + (d.1.x - s.st.odom.x) = (s.st.pose.x - s.st.odom.x) + d.1.x := by ring
      rw [this]; linarith [abs_add_le (s.st.pose.x - s.st.odom.x) d.1.x]
    have hy : |s.st.pose.y + (d.1.y - s.st.odom.y)| ≤ A + B := by
      have : s.st.pose.y + (d.1.y - s.st.odom.y) = (s.st.pose.y - s.st.odom.y) + d.1.y := by ring
      rw [this]; linarith [abs_add_le (s.st.pose.y - s.st.odom.y) d.1.y]
    obtain ⟨s1, h1, h3, h4, h5, h6⟩ := mach_handle_total hc b hm N hok hf R (A + B + b) (by nlinarith) hR hs hh d g (by linarith)
      (by linarith)
    obtain ⟨s', h'⟩ := ih (A + b) (by nlinarith) (mach_handle_sound hc hs h1) h3 ⟨by linarith, by linarith⟩
      fun d' hd' => hd d' (by simp [hd'])
    refine ⟨s', ?_⟩
    change (s.handle cfg d).bind _ = _
    rw [h1]
    exact h'

/-! ## The idle matcher -/

theorem zero_toBool : (⟨0, 0, 0⟩ : Delta ℝ).toBool = false := by
  simp [Poses.Pose.toBool, Rect.areEqual]

/-- **With the idle matcher the pose is the odometry's (C93)**: after every history the robot has moved exactly as the odometry
says, since the start; and every scan of the history has entered the map at such a pose, with the quality configured for
uncorrected poses. -/
theorem idle_dead_reckoning {cfg : MachCfg C M Unit} (hm : cfg.machine = idleMachine C) (ds : List (Poses.Pose ℝ × Msg ℝ))
    {s s' : Mach M Unit} (h : s.run cfg ds = some s') :
    s'.st.pose.x - s.st.pose.x = s'.st.odom.x - s.st.odom.x ∧ s'.st.pose.y - s.st.pose.y = s'.st.odom.y - s.st.odom.y ∧
    s'.st.pose.theta - s.st.pose.theta = s'.st.odom.theta - s.st.odom.theta ∧
    (∀ d, ds.getLast? = some d → s'.st.odom = d.1) ∧ s'.weights = s.weights := by
  induction ds generalizing s with
  | nil =>
    simp only [Mach.run, Option.some.injEq] at h
    subst h
    simp
  | cons d ds ih =>
    simp only [Mach.run, Option.bind_eq_some_iff] at h
    obtain ⟨s1, h1, h2⟩ := h
    obtain ⟨scan, p, delta, best, q, us, -, ⟨p1, p2, p3⟩, h3, h4, h5, -⟩ := mach_message h1
    rw [hm] at h3
    simp only [idleMachine, Option.some.injEq, Prod.mk.injEq] at h3
    obtain ⟨hw, -, rfl, -⟩ := h3
    obtain ⟨a1, a2, a3, a4, a5⟩ := ih h2
    have e1 : s1.st.pose.x = p.x := by rw [h4]; simp [Poses.Pose.add]
    have e2 : s1.st.pose.y = p.y := by rw [h4]; simp [Poses.Pose.add]
    have e3 : s1.st.pose.theta = p.theta := by rw [h4]; simp [Poses.Pose.add]
    rw [h5] at a1 a2 a3
    refine ⟨by linarith, by linarith, by linarith, ?_, by rw [a5, ← hw]⟩
    intro d' hd'
    cases ds with
    | nil =>
      simp only [List.getLast?_singleton, Option.some.injEq] at hd'
      subst hd'
      simp only [Mach.run, Option.some.injEq] at h2
      subst h2
      exact h5
    | cons x xs => exact a4 d' (by rw [List.getLast?_cons_cons] at hd'; exact hd')

/-- Every message, with the idle matcher. -/
theorem idle_message {cfg : MachCfg C M Unit} (hm : cfg.machine = idleMachine C) {s s' : Mach M Unit}
    {d : Poses.Pose ℝ × Msg ℝ} (h : s.handle cfg d = some s') :
    ∃ scan us, ScanOf cfg.slam d.2 scan ∧ s'.st.pose = s.st.pose.add (d.1.sub s.st.odom) ∧
      Inserted cfg.slam s'.st.pose scan cfg.slam.props.rawQuality cfg.slam.props.margin us ∧
      cfg.slam.api.tellAll s.st.map us = some s'.st.map := by
  obtain ⟨scan, p, delta, best, q, us, h1, ⟨p1, p2, p3⟩, h3, h4, h5, -, h7, h8, h9⟩ := mach_message h
  rw [hm] at h3
  simp only [idleMachine, Option.some.injEq, Prod.mk.injEq] at h3
  obtain ⟨-, -, rfl, -⟩ := h3
  refine ⟨scan, us, h1, ?_, h7 zero_toBool ▸ h8, h9⟩
  rw [h4]
  cases p
  simp_all [Poses.Pose.add, Poses.Pose.sub]

/-! ## The fixed hill climbing -/

/-- **What the fixed hill climbing does in the program (C93)**, after any history: it starts at the odometry's pose, scores by
the mean probability of the usable points on the map so far, and ends at a pose reached by `n` strict improvements, raising its
own limit by `n`; unless the limit has become zero, no pose one centimetre away along an axis or half a degree away scores
higher; without usable points the odometry's pose is kept. -/
theorem fixed_message {cfg : MachCfg k.Cell M (BitVec 32)} (hc : MachStarted k i cfg init) {fuel : Nat}
    (hm : cfg.machine = fixedMachine cfg.matcher fuel) (ds : List (Poses.Pose ℝ × Msg ℝ)) {s s1 s2 : Mach M (BitVec 32)}
    (hs : s.st.map = init) (hw : Spw.Ok s.weights) (h1 : s.run cfg ds = some s1) (d : Poses.Pose ℝ × Msg ℝ)
    (h2 : s1.handle cfg d = some s2) :
    ∃ scan p ws n, ScanOf cfg.slam d.2 scan ∧ p = s1.st.pose.add (d.1.sub s1.st.odom) ∧
      Weights s1.weights s2.weights (cfg.usable p scan) ws ∧
      ImprovesIn (meanScore (seenProb k i cfg.slam.api s1.st.map) cfg.slam.scale ws (cfg.usable p scan)) n p s2.st.pose ∧
      s2.state = s1.state + BitVec.ofNat 32 n ∧ (s1.state = 0 → n = 0) ∧
      (s2.state ≠ 0 → ∀ b, meanScore (seenProb k i cfg.slam.api s1.st.map) cfg.slam.scale ws (cfg.usable p scan) s2.st.pose = some b →
        ∀ q ∈ [(⟨s2.st.pose.x + 1 / 100, s2.st.pose.y, s2.st.pose.theta⟩ : Poses.Pose ℝ),
          ⟨s2.st.pose.x - 1 / 100, s2.st.pose.y, s2.st.pose.theta⟩,
          ⟨s2.st.pose.x, s2.st.pose.y + 1 / 100, s2.st.pose.theta⟩,
          ⟨s2.st.pose.x, s2.st.pose.y - 1 / 100, s2.st.pose.theta⟩,
          ⟨s2.st.pose.x, s2.st.pose.y, s2.st.pose.theta + Real.pi / 360⟩,
          ⟨s2.st.pose.x, s2.st.pose.y, s2.st.pose.theta - Real.pi / 360⟩], ∀ v,
          meanScore (seenProb k i cfg.slam.api s1.st.map) cfg.slam.scale ws (cfg.usable p scan) q = some v → v ≤ b) ∧
      (cfg.usable p scan = [] → s2.st.pose = p) := by
  subst hs
  have hs1 := mach_run_sound hc ds (mach_start_sound cfg s hw) h1
  simp only [Mach.handle, Option.bind_eq_some_iff, Option.map_eq_some_iff] at h2
  obtain ⟨pts, e1, scan, e2, ⟨w', t', delta, best⟩, e3, a, -, rfl⟩ := h2
  obtain ⟨w1, ws, g1, g2⟩ := fixed_on_map cfg.matcher (cfg.view s1.st.map) _ (mach_shows hc hs1.map) hc.scale hc.fuel s1.weights
    hs1.weights scan (scanOf_polar e2) (s1.st.pose.add (observerStep s1.st.odom d.1).2)
  have e3' := e3
  simp only [MachCfg.matching, hm] at e3'
  rw [g2, Option.map_eq_some_iff] at e3'
  obtain ⟨⟨d', b', m'⟩, g3, g4⟩ := e3'
  simp only [Prod.mk.injEq] at g4
  obtain ⟨rfl, rfl, rfl, rfl⟩ := g4
  obtain ⟨n, k1, k2, k3⟩ := ScanMatch.fixed_limit_drifts _ _ _ _ _ _ _ _ _ g3
  obtain ⟨n1, n2, n3⟩ := ScanMatch.fixed_never_worse _ _ _ _ _ _ _ _ _ g3
  refine ⟨scan, _, ws, n, ⟨pts, e1, e2⟩, rfl, g1, k1, k2, k3, ?_, ?_⟩
  · intro hne b hb
    have hb' := n1.trans hb
    subst hb'
    have := ScanMatch.fixed_local_optimum_neighbours _ _ _ _ _ _ _ _ _ hne g3
    have hpi : (1 : ℝ) / 2 * (Real.pi / 180) = Real.pi / 360 := by ring
    rw [hpi] at this
    exact this
  · intro hu
    have hn : meanScore (seenProb k i cfg.slam.api s1.st.map) cfg.slam.scale ws
        (cfg.usable (s1.st.pose.add (observerStep s1.st.odom d.1).2) scan) (s1.st.pose.add (observerStep s1.st.odom d.1).2) = none := by
      have : ws = [] := by
        have := g1.len
        change ws.length = (cfg.usable (s1.st.pose.add (observerStep s1.st.odom d.1).2) scan).length at this
        have hu' : cfg.usable (s1.st.pose.add (observerStep s1.st.odom d.1).2) scan = [] := hu
        rw [hu'] at this
        exact List.length_eq_zero_iff.1 this
      simp [meanScore, this]
    obtain ⟨hd0, -⟩ := n3 hn
    rw [hd0]
    simp [Poses.Pose.add, observerStep]

/-- **The fixed hill climbing always ends in the program (C93)**: in every reachable state and for every scan and pose, for
some number of iterations, and then for every larger one with the same answer. -/
theorem fixed_ends {cfg : MachCfg k.Cell M (BitVec 32)} (hc : MachStarted k i cfg init) (hk : k ≠ .gmapping)
    (ds : List (Poses.Pose ℝ × Msg ℝ)) {s s1 : Mach M (BitVec 32)} (hs : s.st.map = init) (hw : Spw.Ok s.weights)
    (h1 : s.run cfg ds = some s1) (scan : List ScanPoint) (hfac : ∀ p ∈ scan, p.factor = 1) (p : Poses.Pose ℝ) :
    ∃ fuel r, ∀ fuel', fuel ≤ fuel' →
      (fixedMachine cfg.matcher fuel').process (cfg.view s1.st.map) s1.weights s1.state scan p = some r := by
  subst hs
  have hs1 := mach_run_sound hc ds (mach_start_sound cfg s hw) h1
  obtain ⟨V, hV⟩ := finitely_many_probabilities (i := i) hk cfg.own hc.lawful hs1.map
  exact fixed_ends_on_map (cfg.view s1.st.map) _ (mach_shows hc hs1.map) V hV hc.scale hc.fuel s1.weights hs1.weights scan hfac p
    s1.state

/-! ## The drift detector -/

open Slam.Drift in
/-- **What the drift detector does in the program (C93)**, around any matcher, after any history. Let the wrapped matcher move
the robot from the odometry's pose `p` to `p + sm`. If no direction between neighbouring usable points makes up 40% of them, the
robot is there. Otherwise it is at the pose with the highest mean probability of the points off the dominant directions, among
`p + sm` and the six poses 5, 15 and 25 centimetres away from it along the dominant direction. In any case it is turned as the
wrapped matcher says and at most 25 centimetres off. -/
theorem drift_message {cfg : MachCfg k.Cell M T} (hc : MachStarted k i cfg init) {fuel : Nat} (hfuel : 7 ≤ fuel)
    {inner : Machine k.Cell T} (hin : inner.Keeps cfg.matcher.imp) (hm : cfg.machine = driftMachine cfg.matcher fuel inner)
    (ds : List (Poses.Pose ℝ × Msg ℝ)) {s s1 s2 : Mach M T} (hs : s.st.map = init) (hw : Spw.Ok s.weights)
    (h1 : s.run cfg ds = some s1) (d : Poses.Pose ℝ × Msg ℝ) (h2 : s1.handle cfg d = some s2) :
    ∃ scan p w1 sm prob kk wl, ScanOf cfg.slam d.2 scan ∧ p = s1.st.pose.add (d.1.sub s1.st.odom) ∧
      inner.process (cfg.view s1.st.map) s1.weights (inner.reset s1.state) scan p = some (w1, s2.state, sm, prob) ∧
      FirstFullest 20 (pairAngles (cfg.usable p scan)) kk ∧
      LeftOver w1 s2.weights (cfg.usable p scan) (offDrift (cfg.usable p scan) kk) wl ∧
      ((binCount 20 kk (pairAngles (cfg.usable p scan)) : ℝ) < 4 / 10 * ((cfg.usable p scan).length : ℝ) →
        s2.st.pose = p.add sm) ∧
      (4 / 10 * ((cfg.usable p scan).length : ℝ) ≤ (binCount 20 kk (pairAngles (cfg.usable p scan)) : ℝ) →
        let try_ := meanScore (seenProb k i cfg.slam.api s1.st.map) cfg.slam.scale wl (offDrift (cfg.usable p scan) kk)
        (∀ v0, try_ (p.add sm) = some v0 → ∃ v, FirstMax try_ (p.add sm ::
          [-25 / 100, -15 / 100, -5 / 100, 5 / 100, 15 / 100, 25 / 100].map
            (displaced (p.add sm) (((kk : ℝ) + 1 / 2) * (Real.pi / 20)))) s2.st.pose v) ∧
        (try_ (p.add sm) = none → s2.st.pose = p.add sm)) ∧
      s2.st.pose.theta = p.theta + sm.theta ∧
      (s2.st.pose.x - (p.x + sm.x)) ^ 2 + (s2.st.pose.y - (p.y + sm.y)) ^ 2 ≤ (1 / 4) ^ 2 := by
  subst hs
  have hs1 := mach_run_sound hc ds (mach_start_sound cfg s hw) h1
  simp only [Mach.handle, Option.bind_eq_some_iff, Option.map_eq_some_iff] at h2
  obtain ⟨pts, e1, scan, e2, ⟨w', t', delta, best⟩, e3, a, -, rfl⟩ := h2
  have e3' := e3
  simp only [MachCfg.matching, hm] at e3'
  have e4 := e3'
  simp only [driftMachine, Option.bind_eq_some_iff] at e4
  obtain ⟨⟨w1, t1, sm, prob⟩, g1, -⟩ := e4
  have hv := mach_shows hc hs1.map
  obtain ⟨w2, ws, kk, wl, r, d1, d2, d3, d4, d5, d6, d7, d8⟩ := drift_on_map cfg.matcher (cfg.view s1.st.map) _ hv hc.scale hc.fuel
    inner (scanOf_polar e2) (sm := (sm, prob)) g1 (hin _ _ hv hc.scale _ hs1.weights _ _ _ _ _ _ _ g1) fuel hfuel
  have e5 := d1.symm.trans e3'
  simp only [Option.some.injEq, Prod.mk.injEq] at e5
  obtain ⟨rfl, rfl, rfl⟩ := e5
  have back : ∀ (p q : Poses.Pose ℝ), p.add (q.sub p) = q := by
    intro p q; simp [Poses.Pose.add, Poses.Pose.sub]
  refine ⟨scan, _, w1, sm, prob, kk, wl, ⟨pts, e1, e2⟩, rfl, g1, d3, d4, ?_, ?_, ?_, ?_⟩
  · intro hlt
    have := d5 hlt
    simp only [Prod.mk.injEq] at this
    simp only [this.1]
    rfl
  · intro hle
    obtain ⟨p', hp, m1, m2⟩ := d6 hle
    simp only [Prod.mk.injEq] at hp
    obtain ⟨rfl, -⟩ := hp
    simp only [back]
    exact ⟨m1, m2⟩
  · change _ + delta.theta = _
    rw [d7]
    rfl
  · have : ∀ (u v w : ℝ), u + v - (u + w) = v - w := by intro u v w; ring
    change (_ + delta.x - (_ + sm.x)) ^ 2 + (_ + delta.y - (_ + sm.y)) ^ 2 ≤ _
    simp only [observerStep, this]
    exact d8

/-! ## Instances -/

/-- The program of `Whole.Instances` with a matcher; `lineFuel` bounds the cells of a beam. -/
noncomputable def machCfg {T : Type} (lineFuel : Nat) (machine : Machine (CellKind.Cell .mean) T) :
    MachCfg (CellKind.Cell .mean) (PlainMap.PMap (MeanCell ℝ)) T where
  slam := { demoCfg with ok := fun _ => true, fuel := lineFuel }
  matcher := ⟨⟨0, -1⟩, .obstacle, CellKind.impact .mean .discrepancy, 1⟩
  machine := machine
  dims := fun m => ⟨m.width, m.height⟩
  origin := fun m => m.origin

/-- The estimator of these programs. -/
noncomputable def demoSpe : Matcher.Cfg (CellKind.Cell .mean) := ⟨⟨0, -1⟩, .obstacle, CellKind.impact .mean .discrepancy, 1⟩

/-- Its start. -/
noncomputable def machStart {T : Type} (t : T) : Mach (PlainMap.PMap (MeanCell ℝ)) T := ⟨demoStart, .even 1, t⟩

theorem mach_demo_started {T : Type} (lineFuel : Nat) (machine : Machine (CellKind.Cell .mean) T) (hk : machine.Keeps demoSpe.imp)
    (t : T) : MachStarted .mean .discrepancy (machCfg lineFuel machine) (machStart t).st.map where
  fits := trivial
  impact := rfl
  lawful := demo_lawful
  adder := const_sound _ _ ⟨by norm_num [Unit01], by norm_num [Unit01]⟩ ⟨by norm_num [Unit01], by norm_num [Unit01]⟩ _ _ _
  qualities := ⟨by norm_num [machCfg, demoCfg, Unit01], by norm_num [machCfg, demoCfg, Unit01]⟩
  scale := by norm_num [machCfg, demoCfg]
  fuel := by norm_num [machCfg]
  keeps := hk

theorem mach_demo_hist : HistOk demoStart.hist := by
  intro h' e
  simp only [demoStart, Option.some.injEq] at e
  subst e
  exact ⟨⟨by simp [Hist.create], by simp [Hist.create]⟩, by simp [Hist.create]⟩

theorem mach_demo_good {T : Type} (lineFuel : Nat) (machine : Machine (CellKind.Cell .mean) T) :
    GoodMsg (machCfg lineFuel machine).slam 30 demoDatum.msg := by
  refine ⟨by simp [demoDatum], by norm_num [demoDatum, demoCfg, machCfg], by norm_num [demoDatum], by norm_num [demoDatum], ?_⟩
  intro pts h
  have h' : msg2scan demoDatum.msg false (1 / 100) = some pts := h
  rw [demo_message, Option.some.injEq] at h'
  subst h'
  right
  simp [demoCfg, machCfg]

/-- With a matcher that answers within two metres, four hundred messages are handled. -/
theorem mach_demo_runs {T : Type} (machine : Machine (CellKind.Cell .mean) T) (hk : machine.Keeps demoSpe.imp)
    (hsafe : machine.Safe demoSpe.imp 2) (t : T) (n : Nat) (hn : n ≤ 400) :
    ∃ s', (machStart t).run (machCfg 5000 machine) (List.replicate n (demoDatum.odom, demoDatum.msg)) = some s' := by
  have hn' : (n : ℝ) ≤ 400 := by exact_mod_cast hn
  refine mach_total (mach_demo_started 5000 machine hk t) 2 (by norm_num) hsafe 1000 (fun _ _ => rfl)
    (by norm_num [machCfg]) 30 0 2 (by norm_num) _ (by
      simp only [List.length_replicate, machCfg, demoCfg]; push_cast; linarith)
    (mach_start_sound _ _ (by intro h e; cases e)) mach_demo_hist (by norm_num [machStart, demoStart]) ?_
  intro d hd
  rw [List.mem_replicate] at hd
  rw [hd.2]
  exact ⟨mach_demo_good _ _, by norm_num [demoDatum], by norm_num [demoDatum]⟩

theorem Machine.Safe.mono {C' T : Type} {m : Machine C' T} {imp : Grid.Point ℝ → C' → Option ℝ} {b b' : ℝ} (h : m.Safe imp b)
    (hb : b ≤ b') : m.Safe imp b' := by
  intro v prob h1 h2 w hw t raw hr p
  obtain ⟨w', t', delta, s, e, e1, e2⟩ := h v prob h1 h2 w hw t raw hr p
  exact ⟨w', t', delta, s, e, e1.trans hb, e2.trans hb⟩

theorem mach_run_snoc {C' M' T' : Type} (cfg : MachCfg C' M' T') (x : Poses.Pose ℝ × Msg ℝ) (n : Nat) : ∀ (s s' : Mach M' T'),
    s.run cfg (List.replicate (n + 1) x) = some s' →
    ∃ s1, s.run cfg (List.replicate n x) = some s1 ∧ s1.handle cfg x = some s' := by
  induction n with
  | zero =>
    intro s s' h
    simp only [List.replicate, Mach.run, Option.bind_eq_some_iff, Option.some.injEq] at h
    obtain ⟨a, h, rfl⟩ := h
    exact ⟨s, rfl, h⟩
  | succ n ih =>
    intro s s' h
    rw [List.replicate_succ] at h
    simp only [Mach.run, Option.bind_eq_some_iff] at h
    obtain ⟨a, h1, h2⟩ := h
    obtain ⟨b, h3, h4⟩ := ih a s' h2
    refine ⟨b, ?_, h4⟩
    rw [List.replicate_succ]
    simp only [Mach.run, h1, Option.bind_some, h3]

/-- With the idle matcher: four hundred messages are handled, and the robot is where the odometry says. -/
example : ∃ s', (machStart ()).run (machCfg 5000 (idleMachine _)) (List.replicate 400 (demoDatum.odom, demoDatum.msg)) = some s' ∧
    s'.st.pose.x = 2 ∧ s'.st.pose.y = 0 ∧ s'.st.pose.theta = 0 := by
  obtain ⟨s', h⟩ := mach_demo_runs (idleMachine _) idle_keeps (Machine.Safe.mono idle_safe (by norm_num)) () 400 le_rfl
  obtain ⟨h1, h2, h3, h4, -⟩ := idle_dead_reckoning rfl _ h
  have := h4 (demoDatum.odom, demoDatum.msg) (by rw [show 400 = 399 + 1 from rfl, List.replicate_succ', List.getLast?_concat])
  rw [this] at h1 h2 h3
  norm_num [machStart, demoStart, demoDatum] at h1 h2 h3
  exact ⟨s', h, h1, h2, h3⟩

/-- With the drift detector around the Monte Carlo matcher: after fifty messages, the next one meets `drift_message`. -/
example (sample : Nat → ℝ → ℝ → Delta ℝ) (hsam : ∀ n x y, WithinShift (1 / 100) (sample n x y)) :
    let inner := enumMachine demoSpe (monteCarlo 20 100 (1 / 10) (1 / 10) sample) 101
    ∃ s1 s2, (machStart ⟨0, 0, 0, 0, 0⟩).run (machCfg 5000 (driftMachine demoSpe 7 inner))
        (List.replicate 50 (demoDatum.odom, demoDatum.msg)) = some s1 ∧
      s1.handle (machCfg 5000 (driftMachine demoSpe 7 inner)) (demoDatum.odom, demoDatum.msg) = some s2 ∧
      ∃ p w1 sm prob, inner.process ((machCfg 5000 (driftMachine demoSpe 7 inner)).view s1.st.map) s1.weights (inner.reset s1.state)
          [.polar 4 0 true 1, .polar 30 1 false 1] p = some (w1, s2.state, sm, prob) ∧ s2.st.pose.theta = p.theta + sm.theta := by
  intro inner
  have hin : inner.Keeps demoSpe.imp := enum_keeps _ _
  have hsafe : (driftMachine demoSpe 7 inner).Safe demoSpe.imp 2 :=
    Machine.Safe.mono (drift_safe (by norm_num [demoSpe]) 7 le_rfl hin
      (monte_carlo_safe (by norm_num [demoSpe]) 20 100 (1 / 10) (1 / 10) sample (1 / 100) (by norm_num) hsam)) (by norm_num)
  obtain ⟨s2, h⟩ := mach_demo_runs (driftMachine demoSpe 7 inner) (drift_keeps 7 hin) hsafe ⟨0, 0, 0, 0, 0⟩ 51 (by norm_num)
  obtain ⟨s1, h1, h2⟩ := mach_run_snoc _ _ 50 _ _ h
  refine ⟨s1, s2, h1, h2, ?_⟩
  obtain ⟨scan, p, w1, sm, prob, kk, wl, ⟨pts, e1, e2⟩, -, e3, -, -, -, -, e4, -⟩ := drift_message
    (mach_demo_started 5000 (driftMachine demoSpe 7 inner) (drift_keeps 7 hin) ⟨0, 0, 0, 0, 0⟩) le_rfl hin rfl _ rfl
    (by intro h e; cases e) h1 _ h2
  have e1' : msg2scan demoDatum.msg false (1 / 100) = some pts := e1
  rw [demo_message, Option.some.injEq] at e1'
  subst e1'
  simp only [scanOf, Option.bind_some, Option.map_some, Option.some.injEq] at e2
  subst e2
  exact ⟨p, w1, sm, prob, e3, e4⟩

/-- With the fixed hill climbing: for enough iterations and cells of a beam, the message is handled and meets `fixed_message`. -/
example : ∃ fuel lineFuel s2, (machStart (5 : BitVec 32)).handle (machCfg lineFuel (fixedMachine demoSpe fuel))
      (demoDatum.odom, demoDatum.msg) = some s2 ∧
    ∃ f n, ImprovesIn f n ⟨2, 0, 0⟩ s2.st.pose ∧ s2.state = 5 + BitVec.ofNat 32 n := by
  obtain ⟨fuel, ⟨w', t', delta, best⟩, hr⟩ := fixed_ends (mach_demo_started 0 (fixedMachine demoSpe 0) (fixed_keeps 0) 5) (by simp) []
    rfl (by intro h e; cases e) rfl [.polar 4 0 true 1, .polar 30 1 false 1] (by simp [ScanPoint.factor]) ⟨2, 0, 0⟩
  have hr := hr fuel le_rfl
  obtain ⟨N, hN⟩ := exists_nat_ge (max |Poses.Pose.x delta| |Poses.Pose.y delta| + 40)
  have hstart := mach_demo_started (4 * N + 2) (fixedMachine demoSpe fuel) (fixed_keeps fuel) 5
  obtain ⟨t, h1, -⟩ := handle_total_at (cfg := (machCfg (4 * N + 2) (fixedMachine demoSpe fuel)).slam) hstart.lawful hstart.scale N
    (fun _ _ => rfl) (by simp [machCfg]) 30 (max |Poses.Pose.x delta| |Poses.Pose.y delta|)
    (2 + max |Poses.Pose.x delta| |Poses.Pose.y delta|) (by simp only [machCfg, demoCfg]; push_cast; linarith) (by norm_num)
    (s := demoStart) (d := ⟨demoDatum.odom, demoDatum.msg, (machCfg (4 * N + 2) (fixedMachine demoSpe fuel)).answer (machStart 5)⟩)
    ⟨[], rfl⟩ mach_demo_hist (mach_demo_good _ _) (by
      rintro scan ⟨pts, e1, e2⟩
      have e1' : msg2scan demoDatum.msg false (1 / 100) = some pts := e1
      rw [demo_message, Option.some.injEq] at e1'
      subst e1'
      simp only [scanOf, Option.bind_some, Option.map_some, Option.some.injEq] at e2
      subst e2
      refine ⟨delta, ?_, le_max_left _ _, le_max_right _ _⟩
      have hp : demoStart.pose.add (demoDatum.odom.sub demoStart.odom) = ⟨2, 0, 0⟩ := by
        simp [demoStart, demoDatum, Poses.Pose.add, Poses.Pose.sub]
      simp only [hp]
      have : (machCfg (4 * N + 2) (fixedMachine demoSpe fuel)).matching (machStart 5) [.polar 4 0 true 1, .polar 30 1 false 1]
        ⟨2, 0, 0⟩ demoStart.map = some (w', t', delta, best) := hr
      simp only [MachCfg.answer, this, Option.map_some]) (by norm_num [demoStart, demoDatum]) (by norm_num [demoStart, demoDatum])
  obtain ⟨s2, h2, -⟩ := (mach_handle_iff (machCfg (4 * N + 2) (fixedMachine demoSpe fuel)) (machStart 5)
    (demoDatum.odom, demoDatum.msg) t).1 h1
  refine ⟨fuel, 4 * N + 2, s2, h2, ?_⟩
  obtain ⟨scan, p, ws, n, -, hp, -, k1, k2, -⟩ := fixed_message hstart rfl [] rfl (by intro h e; cases e) rfl _ h2
  have hp : p = ⟨2, 0, 0⟩ := by
    rw [hp]; simp [machStart, demoStart, demoDatum, Poses.Pose.add, Poses.Pose.sub]
  subst hp
  exact ⟨_, n, k1, k2⟩

end Slam.Whole
