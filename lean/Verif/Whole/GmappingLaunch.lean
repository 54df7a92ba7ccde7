import Verif.Whole.GmappingOwnTotal
import Verif.Whole.ConfiguredProps

/-!
# C91: GMapping from its configuration

`init_gmapping` (src/slams/gmapping/init_gmapping.h, topic Config) says which components are constructed with which arguments;
here the components are the models of the other topics.
-/

set_option autoImplicit false
set_option linter.unusedSectionVars false

namespace Slam.Whole
open Slam.Grid Slam.Cells Slam.Poses Slam.Sensor Slam.Score Slam.ScanAdder Slam.Worlds Slam.Tbm
open Slam.Matcher (Spw.Ok)
open Slam.Particle (Reach)

/-! ## The program -/

/-- GMapping ready to handle messages. -/
structure GProgram where
  cfg : GOwnCfg (AnyMap (GmCell ℝ))
  start : GOwn (AnyMap (GmCell ℝ))

/-- The components with their parameters, init_gmapping.h:49-64; `rnd` is the rounding of scores. -/
noncomputable def gConfigured (env : Env) (skipMax : Bool) (rnd : ℝ → ℝ) (w : Config.World ℝ) (failed : Nat) (transl rot : ℝ) :
    GOwnCfg (AnyMap (GmCell ℝ)) where
  slam :=
    { api := anyApi env.rate GmCell.observe
      scale := w.map.params.scale
      adder := adderOf env.shift w.adder
      ok := env.ok
      fuel := env.lineFuel
      props := ⟨w.localizedQuality, w.rawQuality, w.margin⟩
      skipMax := skipMax
      tol := env.tol }
  filter := ⟨w.matcher.spe.skipRate, w.matcher.spe.maxRange⟩
  failed := failed
  transl := transl
  rot := rot
  dims := AnyMap.dims
  origin := AnyMap.origin
  fuel := env.fuel
  rnd := rnd

/-- The map: a `GmappingWorld::MapType` of `GmappingBaseCell`s, init_gmapping.h:52-54, gmapping_world.h:42. -/
noncomputable def gMapOf (rate : Nat → ℚ) (p : Config.GridParams ℝ) : Option (AnyMap (GmCell ℝ)) :=
  mapOf rate ⟨.unboundedLazyTiled, none, .gmapping, p⟩

/-- The start of GMapping from the properties `t`: `init_gmapping`, init_gmapping.h:49-65, and the observer,
src/ros/lslam2D_bag_runner.cpp:119-122. `draws p k` is the `k`-th first scan matching step drawn with the parameters `p`
(gmapping_world.h:54, 116-119). `none`: a property is missing or wrong, the map has a negative size, or there are no particles
(gmapping_particle_filter.h:41-43). -/
noncomputable def launchGmapping (stod : Config.Str → Option ℝ) (env : Env) (rnd : ℝ → ℝ)
    (draws : Config.GmappingParams ℝ → Nat → Delta ℝ) (t : Config.Table) : Option GProgram :=
  (Config.initGmapping stod t).bind fun r =>
    match r.1.matcher.algo, r.1.matcher.spe.oope with
    | .hillClimbing failed transl rot _, .gmapping fullness window =>
      (gMapOf env.rate r.1.map.params).bind fun m =>
        (gStart ((List.range r.2.2).map (draws r.2.1)) m (histOf r.1.adder)).map fun st =>
          ⟨gConfigured env (skipExceeding t) rnd r.1 failed transl rot,
            st, GMatch.create (spwOf r.1.matcher.spe.spw) fullness window transl rot⟩
    | _, _ => none

/-! ## Specification -/

/-- A configuration of GMapping whose numbers make sense: cells have a size, probabilities and qualities are within `[0, 1]`,
there is a particle. -/
structure GSensible (w : Config.World ℝ) (n : Nat) : Prop where
  size : 0 ≤ w.map.params.width ∧ 0 ≤ w.map.params.height
  scale : 0 < w.map.params.scale
  occupied : Unit01 w.adder.occProb ∧ Unit01 w.adder.occQual
  empty : Unit01 w.adder.emptyProb ∧ Unit01 w.adder.emptyQual
  particles : 0 < n

/-- What the started program must have from the properties, read off them independently of how it is assembled. -/
structure GAsConfigured (stod : Config.Str → Option ℝ) (t : Config.Table) (w : Config.World ℝ) (n : Nat) (P : GProgram) : Prop where
  /-- hill climbing with the fixed parameters -/
  climb : P.cfg.failed = 6 ∧ P.cfg.transl = 1 / 10 ∧ P.cfg.rot = 1 / 10
  /-- the estimate, with the misspelt key of the window's size; nothing remembered -/
  fullness : Config.NumIs stod t "slam/scmtch/oope/custom/fullness_threshold" (1 / 10) P.start.matcher.pe.fullness
  window : Config.CountIs t "slam/scmtch/oope/cutrom/window_size" 1 P.start.matcher.pe.window
  fresh : lastOf P.start.matcher.pe = none
  filter : P.cfg.filter = ⟨w.matcher.spe.skipRate, w.matcher.spe.maxRange⟩
  weights : (w.matcher.spe.spw = .even → ∃ c, P.start.matcher.weights = .even c) ∧
    (w.matcher.spe.spw = .viny → P.start.matcher.weights = .viny) ∧
    (w.matcher.spe.spw = .ahr → ∃ h, P.start.matcher.weights = .ahr h ∧ h.n = 20)
  scale : P.cfg.slam.scale = w.map.params.scale
  skip : P.cfg.slam.skipMax = skipExceeding t
  blur : P.cfg.slam.adder.blur = w.adder.blur
  maxRange : P.cfg.slam.adder.maxRange = w.adder.maxRange
  const : w.adder.area = false → ∀ beam c, P.cfg.slam.adder.estimate beam c true = some ⟨w.adder.occProb, w.adder.occQual⟩ ∧
    P.cfg.slam.adder.estimate beam c false = some ⟨w.adder.emptyProb, w.adder.emptyQual⟩
  quality : (w.adder.ahr = false → P.start.st.hist = none) ∧ (w.adder.ahr = true → ∃ h, P.start.st.hist = some h ∧ h.n = 20)
  /-- the map has nothing in it -/
  empty : ∀ c, P.cfg.slam.api.read P.start.st.map c = some GmCell.create
  /-- as many particles as configured, all at the origin, on one map -/
  particles : P.start.st.filter.particles.length = n ∧ ∀ v ∈ P.start.st.filter.particles, v.pose.x = 0 ∧ v.pose.y = 0 ∧ v.mapRef = 0
  odom : P.start.st.odom = ⟨0, 0, 0⟩

/-! ## Proofs -/

variable {stod : Config.Str → Option ℝ} {env : Env} {rnd : ℝ → ℝ} {draws : Config.GmappingParams ℝ → Nat → Delta ℝ} {t : Config.Table}

theorem g_sensible {w : Config.World ℝ} {n : Nat} (h : GSensible w n) (p : Config.MapCfg ℝ)
    (hp : p = ⟨.unboundedLazyTiled, none, .gmapping, w.map.params⟩) :
    Sensible ⟨1, 1, 0, p, w.matcher, w.adder⟩ := by
  subst hp
  exact ⟨.inr rfl, rfl, h.size, h.scale, h.occupied, h.empty, ⟨by norm_num [Unit01], by norm_num [Unit01]⟩⟩

/-- **GMapping starts as configured (C91).** If the properties are accepted and sensible, the program starts, has all that is
configured, and is in a state the theorems about whole histories (C90) apply to. -/
theorem gmapping_launches (hrnd : ∀ x, Unit01 x → Unit01 (rnd x)) {w : Config.World ℝ} {p : Config.GmappingParams ℝ} {n : Nat}
    (hw : Config.initGmapping stod t = some (w, p, n)) (h : GSensible w n) :
    ∃ P, launchGmapping stod env rnd draws t = some P ∧ GAsConfigured stod t w n P ∧ GStarted P.cfg P.start.st.map ∧
      GSound P.cfg P.start.st.map P.start.matcher.pe.fullness P.start.matcher.pe.window n P.start ∧
      gStart ((List.range n).map (draws p)) P.start.st.map P.start.st.hist = some P.start.st ∧ HistOk P.start.st.hist ∧
      Near 0 P.start.st.filter := by
  have hspec := (Config.gmapping_as_configured (stod := stod) t w p n).1 hw
  obtain ⟨f, win, ho, hf, hwin⟩ := hspec.oope
  have hsens := g_sensible h _ rfl
  have hmL : ∃ m, gMapOf env.rate w.map.params = some m ∧
      Lawful (anyApi env.rate GmCell.observe) GmCell.observe (GmCell.create (K := ℝ)) m := mapOf_lawful env.rate _ hsens
  obtain ⟨m, hm, hL⟩ := hmL
  have hadd := adderOf_sound env.shift _ hsens
  obtain ⟨st, hst, hnear⟩ := gmapping_starts (M := AnyMap (GmCell ℝ)) (steps := (List.range n).map (draws p))
    (by simp [h.particles]) m (histOf w.adder)
  obtain ⟨hr, hmap, -, hod, hh⟩ := start_reach (n := n) (by simp) hst
  refine ⟨⟨gConfigured env (skipExceeding t) rnd w 6 (1 / 10) (1 / 10), st,
    GMatch.create (spwOf w.matcher.spe.spw) f win (1 / 10) (1 / 10)⟩, ?_, ?_, ?_, ?_, ?_, ?_, hnear⟩
  · unfold launchGmapping
    simp only [hw, Option.bind_some, hspec.matcher.1, ho]
    simp only [hm, Option.bind_some, hst, Option.map_some]
  · refine ⟨⟨rfl, rfl, rfl⟩, hf, hwin, by simp [lastOf, GMatch.create, GmPE.create], rfl, ?_, rfl, rfl, rfl, rfl, ?_, ?_, ?_, ?_, hod⟩
    · refine ⟨?_, ?_, ?_⟩ <;> intro e <;> simp only [GMatch.create, e, spwOf]
      · exact ⟨_, rfl⟩
      · exact ⟨_, rfl, rfl⟩
    · intro e beam c
      simp [gConfigured, adderOf, e, constEstimate]
    · simp only [hh]
      constructor <;> intro e <;> simp only [histOf, e]
      · simp
      · simp [Hist.create]
    · intro c
      obtain ⟨m', e1, e2⟩ := hL []
      have e1' : some m = some m' := e1
      rw [Option.some.injEq] at e1'
      subst e1'
      simp only [hmap]
      exact e2 c
    · obtain ⟨hlen, -⟩ := Particle.exactly_one_master _ _ _ _ hr
      refine ⟨hlen, ?_⟩
      intro v hv
      have hv' := hv
      unfold Particle.Filter.particles at hv'
      obtain ⟨i, hi, rfl⟩ := List.mem_map.1 hv'
      obtain ⟨n1, n2⟩ := hnear i hi
      exact ⟨abs_eq_zero.1 (le_antisymm n1 (abs_nonneg _)), abs_eq_zero.1 (le_antisymm n2 (abs_nonneg _)),
        Particle.particles_share_one_map _ _ _ _ hr _ hv⟩
  · simp only [hmap]
    exact ⟨hL, hadd, h.scale, hrnd⟩
  · simp only [hmap]
    exact gown_start (by simp) hst (spwOf_ok _) f win _ _
  · simp only [hmap, hh]
    exact hst
  · simp only [hh]
    exact histOf_ok _

/-- Without particles GMapping does not start. -/
theorem gmapping_needs_particles {w : Config.World ℝ} {p : Config.GmappingParams ℝ}
    (hw : Config.initGmapping stod t = some (w, p, 0)) : launchGmapping stod env rnd draws t = none := by
  unfold launchGmapping
  simp only [hw, Option.bind_some]
  split
  · rw [Option.bind_eq_none_iff]
    intro m _
    rfl
  · rfl

/-- **GMapping from its configuration (C91).** Whatever messages the started program has handled: there are as many particles as
configured, one of them the master; every cell shows a probability or the -1 of unknown ones; the map is the log of the scans
inserted; and each particle is where its last match put it (C90). -/
theorem launched_gmapping_behaves (hrnd : ∀ x, Unit01 x → Unit01 (rnd x)) {w : Config.World ℝ} {p : Config.GmappingParams ℝ} {n : Nat}
    (hw : Config.initGmapping stod t = some (w, p, n)) (h : GSensible w n) {P : GProgram}
    (hP : launchGmapping stod env rnd draws t = some P) (ds : List GMsg) (hd : ∀ d ∈ ds, SamplesOk n d) {s1 : GOwn (AnyMap (GmCell ℝ))}
    (hs : P.start.run P.cfg ds = some s1) :
    s1.st.filter.particles.length = n ∧ s1.st.filter.particles.countP Particle.World.master = 1 ∧
    (∀ c, ∃ cell, P.cfg.slam.api.read s1.st.map c = some cell ∧
      (Unit01 cell.occ.prob ∨ (cell.occ.prob = -1 ∧ cell.unknown = true))) ∧
    (∃ log : List Entry, (∀ e ∈ log, e.Ok P.cfg.slam ∧ ∃ d ∈ ds, ScanOf P.cfg.slam d.msg e.scan) ∧
      ∀ c, P.cfg.slam.api.read s1.st.map c = some ((about c (allUpdates log)).foldl GmCell.observe GmCell.create)) ∧
    ∀ d s2, SamplesOk n d → s1.handle P.cfg d = some s2 →
      ∃ scan, ScanOf P.cfg.slam d.msg scan ∧ ∀ v ∈ s2.st.filter.particles, ∃ i ∈ s1.st.filter.ids, ∃ x,
        x = (s1.st.filter.heap i).updatePose Real.sin Real.cos (d.odom.sub s1.st.odom) ∧
        (x.tooClose = true → v.pose = x.pose) ∧
        (x.tooClose = false → ∃ a, v.pose = (startPose x (d.guess i)).add a.1 ∧
          MatchedOn P.cfg P.start.st.map P.start.matcher.pe.fullness P.start.matcher.pe.window s1.st.map scan
            (startPose x (d.guess i)) a) := by
  obtain ⟨P', hP', -, hst, hsd, hg, -, -⟩ := gmapping_launches (env := env) (draws := draws) hrnd hw h
  rw [hP, Option.some.injEq] at hP'
  subst hP'
  obtain ⟨-, ds', e1, e2, e3⟩ := gown_run_is_run hst ds hd hsd hs
  obtain ⟨f1, f2, -⟩ := gmapping_filter_sound (cfg := P.cfg.slam) (n := n) (by simp) hg ds' e2 e3
  have hL : Lawful P.cfg.slam.api (CellKind.upd .gmapping) (CellKind.proto .gmapping) P.start.st.map := hst.lawful
  refine ⟨f1, f2, ?_, ?_, ?_⟩
  · intro c
    obtain ⟨cell, c1, c2, -⟩ := gmapping_map_shows_probabilities (cfg := P.cfg.slam) .gmapping hL hst.adder (n := n) (by simp) hg ds' e2 e3 c
    refine ⟨cell, c1, ?_⟩
    rcases c2 _ rfl with u | ⟨-, u, v⟩
    · exact .inl u
    · exact .inr ⟨u, v⟩
  · obtain ⟨log, l1, -, l3⟩ := gmapping_map_is_log (cfg := P.cfg.slam) hst.lawful (n := n) (by simp) hg ds' e2 e3
    refine ⟨log, fun e he => ⟨(l1 e he).1, ?_⟩, l3⟩
    obtain ⟨-, d', hd', hsc⟩ := l1 e he
    obtain ⟨k, hk, rfl⟩ := List.getElem_of_mem hd'
    have hlen := e1.length_eq
    obtain ⟨ans, ha⟩ := (List.forall₂_iff_get.1 e1).2 k (by omega) hk
    refine ⟨ds[k]'(by omega), List.getElem_mem _, ?_⟩
    simp only [List.get_eq_getElem] at ha
    rw [ha] at hsc
    exact hsc
  · intro d s2 hd' h2
    exact gown_particles hst ds hd hsd hs d hd' h2

/-- **The started GMapping does not fail (C91)**: as `gown_run_total`, from the configuration. -/
theorem launched_gmapping_total (hrnd : ∀ x, Unit01 x → Unit01 (rnd x)) {w : Config.World ℝ} {p : Config.GmappingParams ℝ} {n : Nat}
    (hw : Config.initGmapping stod t = some (w, p, n)) (h : GSensible w n) (V : Finset ℝ) (hV : ∀ x, Unit01 x → rnd x ∈ V)
    (h0 : rnd 0 = 0) (hfu : (V.card + 1) * 98 ≤ env.fuel) (N : Int) (hok : ∀ v, |v| ≤ 6 * N → env.ok v = true)
    (hlf : 4 * N + 2 ≤ env.lineFuel) {P : GProgram} (hP : launchGmapping stod env rnd draws t = some P)
    (hfull : -1 < P.start.matcher.pe.fullness) {R G D : ℝ} (hR : 0 ≤ R) (hG : 0 ≤ G) (hD : 0 ≤ D) (ds : List GMsg)
    (hd : ∀ d ∈ ds, SamplesOk n d ∧ GoodMsg P.cfg.slam R d.msg ∧ ∀ i, |(d.guess i).x| ≤ G ∧ |(d.guess i).y| ≤ G)
    (hN : ds.length * (D + G + n * growth R w.map.params.scale P.start.matcher.pe.window) + R ≤ w.map.params.scale * (N - 1))
    (hst : SmallMoves D ⟨0, 0, 0⟩ ds) : ∃ s', P.start.run P.cfg ds = some s' := by
  obtain ⟨P', hP', ha, hs, hsd, hg, hh, hnear⟩ := gmapping_launches (env := env) (draws := draws) hrnd hw h
  rw [hP, Option.some.injEq] at hP'
  subst hP'
  have hcfg : P.cfg = gConfigured env (skipExceeding t) rnd w 6 (1 / 10) (1 / 10) := by
    have hspec := (Config.gmapping_as_configured (stod := stod) t w p n).1 hw
    obtain ⟨f, win, ho, -⟩ := hspec.oope
    unfold launchGmapping at hP
    simp only [hw, Option.bind_some, hspec.matcher.1, ho, Option.bind_eq_some_iff, Option.map_eq_some_iff] at hP
    obtain ⟨m, -, st, -, rfl⟩ := hP
    rfl
  have hr : Rounded P.cfg V := by
    rw [hcfg]
    exact ⟨hV, h0, hfu, by norm_num [gConfigured]⟩
  have hsc : P.cfg.slam.scale = w.map.params.scale := ha.scale
  refine gown_run_total hs hr (N := N) (by rw [hcfg]; exact hok) (by rw [hcfg]; exact hlf) (A := 0) hR hG hD hfull ds hd
    (by rw [hsc]; linarith) hsd hh hnear ⟨[], rfl, sane_nil, by simp⟩ ?_ (by rw [ha.odom]; exact hst)
  intro c x hl
  rw [ha.fresh] at hl
  cases hl

/-! ## Non-vacuity -/

/-- The least configuration: the two properties without which GMapping does not start. -/
def gLeast : Config.Table :=
  (Config.Table.empty.set "slam/scmtch/spe/type".toList "wmpp".toList).set "slam/scmtch/spe/wmpp/weighting/type".toList "even".toList

/-- What it stands for. -/
noncomputable def gLeastWorld : Config.World ℝ :=
  ⟨1, 1, 0, ⟨.unboundedLazyTiled, none, .gmapping, ⟨100, 100, 1 / 10⟩⟩,
    ⟨.hillClimbing 6 (1 / 10) (1 / 10) false, ⟨.gmapping (1 / 10) 1, .even, 0, -1⟩, false⟩,
    ⟨false, 19 / 20, 1, 1 / 100, 1, false, 0, none⟩⟩

theorem gleast_read (stod : Config.Str → Option ℝ) :
    Config.initGmapping stod gLeast = some (gLeastWorld, ⟨0, 1 / 10, 0, 3 / 100, 3 / 5, 4 / 5, 3 / 10, 2 / 5⟩, 30) := by
  rw [Config.gmapping_as_configured]
  have hp : Config.gridParams stod gLeast = some ⟨100, 100, 1 / 10⟩ := by
    have h1 : ⌈(10 : ℝ) / (1 / 10)⌉ = 100 := by norm_num
    have n1 : gLeast "slam/map/height_in_meters".toList = none := by decide
    have n2 : gLeast "slam/map/width_in_meters".toList = none := by decide
    have n3 : gLeast "slam/map/meters_per_cell".toList = none := by decide
    simp only [Config.gridParams, Config.getDbl, n1, n2, n3, Option.bind_some, h1]
    rw [if_neg (by norm_num)]
    rfl
  exact
    { particles := Or.inl ⟨by decide, rfl⟩, meanXY := Or.inl ⟨by decide, rfl⟩, sigmaXY := Or.inl ⟨by decide, rfl⟩
      meanTh := Or.inl ⟨by decide, rfl⟩, sigmaTh := Or.inl ⟨by decide, rfl⟩, minXY := Or.inl ⟨by decide, rfl⟩
      maxXY := Or.inl ⟨by decide, rfl⟩, minTh := Or.inl ⟨by decide, rfl⟩, maxTh := Or.inl ⟨by decide, rfl⟩
      qualities := ⟨rfl, rfl, rfl⟩, map := ⟨rfl, rfl, rfl, hp⟩, oopeType := Or.inl ⟨by decide, rfl⟩
      oope := ⟨_, _, rfl, Or.inl ⟨by decide, rfl⟩, Or.inl ⟨by decide, rfl⟩⟩
      spe := ⟨Or.inr (by decide), ⟨("even", .even), by simp, Or.inr (by decide), rfl⟩, Or.inl ⟨by decide, rfl⟩, Or.inl ⟨by decide, rfl⟩⟩
      matcher := ⟨rfl, rfl⟩
      adder := ⟨⟨("const", false), by simp, Or.inl ⟨by decide, rfl⟩, rfl⟩, Or.inl ⟨by decide, rfl⟩, Or.inl ⟨by decide, rfl⟩,
        Or.inl ⟨by decide, rfl⟩, Or.inl ⟨by decide, rfl⟩, ⟨("idle", false), by simp, Or.inl ⟨by decide, rfl⟩, rfl⟩,
        Or.inl ⟨by decide, rfl⟩, Or.inl ⟨by decide, rfl⟩⟩ }

theorem gleast_sensible : GSensible gLeastWorld 30 where
  size := by norm_num [gLeastWorld]
  scale := by norm_num [gLeastWorld]
  occupied := by norm_num [gLeastWorld, Unit01]
  empty := by norm_num [gLeastWorld, Unit01]
  particles := by norm_num

/-- A message: a wall in four metres, straight ahead and to the left. -/
noncomputable def gLeastMsg (i : Nat) : GMsg :=
  ⟨⟨i, 0, 0⟩, ⟨0, 2, 1, 1 / 10, 30, [some 4, some 4, some 0]⟩, fun _ => ⟨1 / 10, 0, 0⟩, fun _ => ⟨7 / 10, 7 / 10, 3 / 10⟩,
    List.replicate 30 (1 / 2)⟩

/-- Integers and loops in the examples. -/
noncomputable def gLeastEnv : Env := ⟨fun _ => 2, 0, fun v => decide (|v| ≤ 2147483647), 20000000, 1, 101000, 1 / 100⟩

/-- The hypotheses hold: started from the least configuration, GMapping with its thirty particles handles fifty messages, and what
is true of every history is true of this one. -/
example (stod : Config.Str → Option ℝ) (draws : Config.GmappingParams ℝ → Nat → Delta ℝ) :
    ∃ P s, launchGmapping stod gLeastEnv (fun x => (⌊x * 1024⌋ : ℝ) / 1024) draws gLeast = some P ∧
      P.start.run P.cfg ((List.range 50).map gLeastMsg) = some s ∧ s.st.filter.particles.length = 30 ∧
      s.st.filter.particles.countP Particle.World.master = 1 ∧
      ∀ c, ∃ cell, P.cfg.slam.api.read s.st.map c = some cell ∧ (Unit01 cell.occ.prob ∨ (cell.occ.prob = -1 ∧ cell.unknown = true)) := by
  have hrnd : ∀ x : ℝ, Unit01 x → Unit01 ((⌊x * 1024⌋ : ℝ) / 1024) ∧
      (⌊x * 1024⌋ : ℝ) / 1024 ∈ (Finset.range 1025).image fun n : Nat => (n : ℝ) / 1024 := by
    intro x hx
    have h1 : 0 ≤ ⌊x * 1024⌋ := Int.floor_nonneg.2 (by linarith [hx.1])
    have h2 : ⌊x * 1024⌋ ≤ 1024 := by
      have : ((⌊x * 1024⌋ : Int) : ℝ) ≤ ((1024 : Int) : ℝ) := (Int.floor_le _).trans (by push_cast; linarith [hx.2])
      exact_mod_cast this
    obtain ⟨n, hn⟩ := Int.eq_ofNat_of_zero_le h1
    rw [hn, Int.cast_natCast]
    have h3 : (n : ℝ) ≤ 1024 := by exact_mod_cast (by omega : n ≤ 1024)
    exact ⟨⟨by positivity, by rw [div_le_one (by norm_num)]; exact h3⟩, Finset.mem_image.2 ⟨n, Finset.mem_range.2 (by omega), rfl⟩⟩
  obtain ⟨P, hP, hA, -⟩ := gmapping_launches (stod := stod) (env := gLeastEnv) (draws := draws) (fun x hx => (hrnd x hx).1)
    (gleast_read stod) gleast_sensible
  have hfull : P.start.matcher.pe.fullness = 1 / 10 := by
    rcases hA.fullness with ⟨-, h⟩ | ⟨v, h, -⟩
    · exact h
    · revert h
      have : gLeast "slam/scmtch/oope/custom/fullness_threshold".toList = none := by decide
      rw [this]
      simp
  have hwin : P.start.matcher.pe.window = 1 := by
    rcases hA.window with ⟨-, h⟩ | ⟨v, k, h, -⟩
    · exact h
    · revert h
      have : gLeast "slam/scmtch/oope/cutrom/window_size".toList = none := by decide
      rw [this]
      simp
  have hsam : ∀ d ∈ (List.range 50).map gLeastMsg, SamplesOk 30 d := by
    intro d hd
    obtain ⟨i, -, rfl⟩ := List.mem_map.1 hd
    refine ⟨by simp [gLeastMsg], ?_⟩
    intro x hx
    rw [List.eq_of_mem_replicate hx]
    norm_num
  obtain ⟨s, hs⟩ := launched_gmapping_total (stod := stod) (env := gLeastEnv) (draws := draws) (fun x hx => (hrnd x hx).1)
    (gleast_read stod) gleast_sensible _ (fun x hx => (hrnd x hx).2) (by norm_num)
    (by
      have : ((Finset.range 1025).image fun n : Nat => (n : ℝ) / 1024).card ≤ 1025 := Finset.card_image_le.trans (by simp)
      simp only [gLeastEnv]
      omega) 4000000
    (by intro v hv; simp only [gLeastEnv, decide_eq_true_eq]; omega) (by norm_num [gLeastEnv]) hP
    (by rw [hfull]; norm_num) (R := 30) (G := 1 / 10) (D := 1) (by norm_num) (by norm_num) (by norm_num)
    ((List.range 50).map gLeastMsg)
    (by
      intro d hd
      refine ⟨hsam d hd, ?_, ?_⟩
      · obtain ⟨i, -, rfl⟩ := List.mem_map.1 hd
        refine ⟨by simp [gLeastMsg], ?_, by norm_num [gLeastMsg], by norm_num [gLeastMsg], ?_⟩
        · have ht : P.cfg.slam.tol = 1 / 100 := by
            obtain ⟨P', hP', -⟩ := gmapping_launches (stod := stod) (env := gLeastEnv) (draws := draws) (fun x hx => (hrnd x hx).1)
              (gleast_read stod) gleast_sensible
            unfold launchGmapping at hP
            rw [gleast_read stod] at hP
            simp only [gLeastWorld, Option.bind_some, Option.bind_eq_some_iff, Option.map_eq_some_iff] at hP
            obtain ⟨m, -, st, -, rfl⟩ := hP
            rfl
          rw [ht]
          norm_num [gLeastMsg]
        · intro pts hp
          by_cases he : pts = []
          · exact .inl he
          · right
            have : P.cfg.slam.props.margin = 0 := by
              unfold launchGmapping at hP
              rw [gleast_read stod] at hP
              simp only [gLeastWorld, Option.bind_some, Option.bind_eq_some_iff, Option.map_eq_some_iff] at hP
              obtain ⟨m, -, st, -, rfl⟩ := hP
              rfl
            rw [this]
            exact List.length_pos_of_ne_nil he
      · obtain ⟨i, -, rfl⟩ := List.mem_map.1 hd
        intro k
        norm_num [gLeastMsg])
    (by
      rw [hwin]
      simp only [List.length_map, List.length_range, growth, gLeastWorld]
      norm_num)
    (by
      unfold SmallMoves
      rw [List.map_map]
      have : (GMsg.odom ∘ gLeastMsg : Nat → Poses.Pose ℝ) = fun i : Nat => (⟨i, 0, 0⟩ : Poses.Pose ℝ) := rfl
      rw [this, show (50 : Nat) = 49 + 1 from rfl, List.range_succ_eq_map, List.map_cons, List.isChain_cons_cons]
      refine ⟨by norm_num, ?_⟩
      rw [← List.map_cons (f := fun i : Nat => (⟨i, 0, 0⟩ : Poses.Pose ℝ)), ← List.range_succ_eq_map, List.isChain_map,
        List.isChain_range_succ]
      intro m _
      push_cast
      norm_num)
  obtain ⟨b1, b2, b3, -⟩ := launched_gmapping_behaves (stod := stod) (env := gLeastEnv) (draws := draws) (fun x hx => (hrnd x hx).1)
    (gleast_read stod) gleast_sensible hP _ hsam hs
  exact ⟨P, s, hP, hs, b1, b2, b3⟩

end Slam.Whole
