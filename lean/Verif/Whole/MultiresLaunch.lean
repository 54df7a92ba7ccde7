import Verif.Whole.MultiresProps
import Verif.Whole.ConfiguredProps
import Verif.Multires.Levels

/-!
# C95: the SLAM with the multi-resolution matcher, from its configuration

As `Whole.Configured`, with `init_bf_m3rsm` (src/utils/init_scan_matching.h:171-183) and the map with coarser levels
(src/utils/init_occupancy_mapping.h:113-124). Covered: the two growing maps, no drift detector, the estimator of the
probability of a point being `max` (as in config/common/bf_m3rsm.properties; the bounds of the search are bounds for that one
only).
-/

set_option autoImplicit false
set_option linter.unusedSectionVars false

namespace Slam.Whole
open Slam.Grid Slam.Cells Slam.Poses Slam.Sensor Slam.Score Slam.ScanAdder Slam.Worlds Slam.Tbm Slam.Matcher
open Slam.Multires (MMap kindApi RMap)

/-! ## Model -/

/-- What the properties do not determine: that of `Env`; how the map grows (any rule `grow`, in the state `g0` at first); how far the
match taken from the queue may be from the best (`Multires.comparator_top`: at most 1e-7). `base.cellFuel` bounds the number
of cells visited when a change is propagated to a coarser level. -/
structure MrEnv (G : Type) where
  base : Env
  grow : G → Coord → Nat × G
  g0 : G
  slack : ℝ

/-- A program with its start; `levels` is the number of finite levels at the start. -/
structure MrProgram (G : Type) where
  kind : CellKind
  impact : Impact
  cfg : MrCfg kind.Cell G
  start : Mr (MMap ℝ kind.Cell × G)
  levels : Nat

/-- The assembled program: `coarse` is the impact estimator the coarser levels are made with, init_occupancy_mapping.h:116-119,
`oie` that of the score, init_scan_matching.h:49-69. -/
noncomputable def mrConfigured {G : Type} (env : MrEnv G) (skipMax : Bool) (w : Config.World ℝ) (oie coarse : Config.Oie)
    (x y rot ang trl : ℝ) : MrCfg (cellKind w.map.cell).Cell G where
  slam :=
    { api := pyramidApi (kindApi (cellKind w.map.cell) (impactOf coarse)) env.grow w.map.params.scale env.base.cellFuel
      scale := w.map.params.scale
      adder := adderOf env.base.shift w.adder
      ok := env.base.ok
      fuel := env.base.lineFuel
      props := ⟨w.localizedQuality, w.rawQuality, w.margin⟩
      skipMax := skipMax
      tol := env.base.tol }
  cell := kindApi (cellKind w.map.cell) (impactOf oie)
  filter := ⟨w.matcher.spe.skipRate, w.matcher.spe.maxRange⟩
  xLimit := x
  yLimit := y
  rotLimit := rot
  angStep := ang
  translStep := trl
  slack := env.slack
  fuel := env.base.fuel

/-- The program with its start; `none`: what is not covered, or a negative size. -/
noncomputable def mrOf {G : Type} (env : MrEnv G) (skipMax : Bool) (w : Config.World ℝ) : Option (MrProgram G) :=
  match w.matcher.drift, w.matcher.spe.oope, w.matcher.algo, w.map.coarse with
  | false, .std .max oie, .m3rsm x y rot ang trl, some coarse =>
    if w.map.params.width < 0 ∨ w.map.params.height < 0 then none
    else if w.map.kind = .unboundedPlain ∨ w.map.kind = .unboundedLazyTiled then
      (RMap.create w.map.params.width.toNat w.map.params.height.toNat w.map.params.scale).map fun r =>
        ⟨cellKind w.map.cell, impactOf oie, mrConfigured env skipMax w oie coarse x y rot ang trl,
          ⟨⟨⟨0, 0, 0⟩, ⟨0, 0, 0⟩, (MMap.create (kindApi (cellKind w.map.cell) (impactOf coarse)) w.map.params.scale
            (r.levels.length - 1), env.g0), histOf w.adder⟩, spwOf w.matcher.spe.spw⟩, r.levels.length - 1⟩
    else none
  | _, _, _, _ => none

/-- The components of a SLAM from the properties: `init_1h_slam`, src/utils/init_slam.h:12-24, or `init_credibilist_slam`,
src/slams/credibilist/init_slam.h:13-24. -/
noncomputable def assemble (credibilist : Bool) (stod : Config.Str → Option ℝ) (rad : ℝ) (rnd : Nat) (t : Config.Table) :
    Option (Config.World ℝ) :=
  if credibilist then Config.initCredibilist stod rad rnd t else Config.init1h stod rad rnd t

/-- The start of the SLAM from the properties, with the observer of src/ros/lslam2D_bag_runner.cpp:119-122. -/
noncomputable def launchMr {G : Type} (credibilist : Bool) (stod : Config.Str → Option ℝ) (rad : ℝ) (rnd : Nat) (env : MrEnv G)
    (t : Config.Table) : Option (MrProgram G) :=
  (assemble credibilist stod rad rnd t).bind fun w => mrOf env (skipExceeding t) w

/-! ## Specification -/

/-- A configuration the theorems are about: the multi-resolution matcher with `max`, no drift detector, a growing map;
probabilities and qualities within `[0, 1]`; a window and steps of positive size; an estimator of occupancy that always says
something, unless the cells are credibilist ones; and enough fuel for the rotations. -/
structure SensibleMr {G : Type} (env : MrEnv G) (w : Config.World ℝ) (oie : Config.Oie) (x y rot ang trl : ℝ) : Prop where
  drift : w.matcher.drift = false
  oope : w.matcher.spe.oope = .std .max oie
  algo : w.matcher.algo = .m3rsm x y rot ang trl
  growing : w.map.kind = .unboundedPlain ∨ w.map.kind = .unboundedLazyTiled
  size : 0 ≤ w.map.params.width ∧ 0 ≤ w.map.params.height
  scale : 2 / 10 ^ 9 < w.map.params.scale
  occupied : Unit01 w.adder.occProb ∧ Unit01 w.adder.occQual
  empty : Unit01 w.adder.emptyProb ∧ Unit01 w.adder.emptyQual
  qualities : Unit01 w.localizedQuality ∧ Unit01 w.rawQuality
  fits : Fits (cellKind w.map.cell) (impactOf oie)
  tells : w.adder.area = false ∨ (w.map.cell = .credibilist ∧ oie = .discrepancy)
  window : 0 < x ∧ 0 < y
  turn : 0 ≤ rot ∧ 0 < ang
  step : 1 / 2 ^ 52 < trl
  slack : 0 ≤ env.slack
  rotations : 2 * rot + 1 ≤ ((env.base.fuel : ℝ) - 1) * ang
  cells : 1 ≤ env.base.cellFuel

/-- What the started program must have from the configuration, read off it independently of how it is assembled. -/
structure MrAsConfigured {G : Type} (w : Config.World ℝ) (oie : Config.Oie) (x y rot ang trl : ℝ) (skip : Bool) (shift : ℝ)
    (P : MrProgram G) : Prop where
  /-- the class of the cells -/
  cell : (w.map.cell = .mean → P.kind = .mean) ∧ (w.map.cell = .affine → P.kind = .affine) ∧
    (w.map.cell = .tbmConsistent → P.kind = .tbm .consistent) ∧ (w.map.cell = .tbmUnknownEven → P.kind = .tbm .unknownEven) ∧
    (w.map.cell = .credibilist → P.kind = .tbm .credibilist)
  /-- the impact of an observation, in the score and in the coarser levels -/
  impact : (oie = .discrepancy → P.impact = .discrepancy) ∧ (oie = .occupancy → P.impact = .occupancy)
  filter : P.cfg.filter = ⟨w.matcher.spe.skipRate, w.matcher.spe.maxRange⟩
  weights : (w.matcher.spe.spw = .even → ∃ c, P.start.weights = .even c) ∧ (w.matcher.spe.spw = .viny → P.start.weights = .viny) ∧
    (w.matcher.spe.spw = .ahr → ∃ h, P.start.weights = .ahr h ∧ h.n = 20)
  /-- the limits and the steps -/
  limits : P.cfg.xLimit = x ∧ P.cfg.yLimit = y ∧ P.cfg.rotLimit = rot
  steps : P.cfg.angStep = ang ∧ P.cfg.translStep = trl
  scale : P.cfg.slam.scale = w.map.params.scale
  props : P.cfg.slam.props = ⟨w.localizedQuality, w.rawQuality, w.margin⟩
  skip : P.cfg.slam.skipMax = skip
  blur : P.cfg.slam.adder.blur = w.adder.blur
  maxRange : P.cfg.slam.adder.maxRange = w.adder.maxRange
  const : w.adder.area = false → ∀ beam c, P.cfg.slam.adder.estimate beam c true = some ⟨w.adder.occProb, w.adder.occQual⟩ ∧
    P.cfg.slam.adder.estimate beam c false = some ⟨w.adder.emptyProb, w.adder.emptyQual⟩
  area : w.adder.area = true → P.cfg.slam.adder.estimate =
    areaEstimate ⟨⟨w.adder.occProb, w.adder.occQual⟩, ⟨w.adder.emptyProb, w.adder.emptyQual⟩, 1 / 100, 1 / 2⟩ Estimator.codeCmp shift
  quality : (w.adder.ahr = false → P.start.st.hist = none) ∧ (w.adder.ahr = true → ∃ h, P.start.st.hist = some h ∧ h.n = 20)
  /-- nothing in the map; as many levels as its size needs -/
  empty : ∀ c, P.cfg.slam.api.read P.start.st.map c = some P.kind.proto
  levels : 1 ≤ P.levels ∧ w.map.params.width ≤ 2 ^ P.levels ∧ w.map.params.height ≤ 2 ^ P.levels ∧
    ∀ k, 1 ≤ k → w.map.params.width ≤ 2 ^ k → w.map.params.height ≤ 2 ^ k → P.levels ≤ k
  /-- the robot is at the origin -/
  origin : P.start.st.pose = ⟨0, 0, 0⟩ ∧ P.start.st.odom = ⟨0, 0, 0⟩

/-! ## Proofs -/

section
variable {G : Type} {cred : Bool} {stod : Config.Str → Option ℝ} {rad : ℝ} {rnd : Nat} {env : MrEnv G} {t : Config.Table}
  {w : Config.World ℝ} {oie : Config.Oie} {x y rot ang trl : ℝ}

theorem assembled_spec (hw : assemble cred stod rad rnd t = some w) :
    Config.MapSpec stod t w.map ∧ Config.MatcherSpec stod rad rnd t w.matcher ∧ w.map.cell ≠ .gmapping := by
  unfold assemble at hw
  cases cred with
  | true =>
    rw [if_pos rfl] at hw
    have := (Config.credibilist_as_configured stod rad rnd t w).1 hw
    exact ⟨this.2.2.2.2.1, this.2.2.2.2.2.1, by rw [this.2.2.2.1]; decide⟩
  | false =>
    rw [if_neg (by decide)] at hw
    have := (Config.assembled_as_configured stod rad rnd t w).1 hw
    refine ⟨this.map, this.matcher, ?_⟩
    obtain ⟨o, ho, -, e⟩ := this.cell
    rw [e]
    simp only [List.mem_cons, List.not_mem_nil, or_false] at ho
    rcases ho with rfl | rfl | rfl | rfl <;> decide

theorem oie_unique {t : Config.Table} {a b : Config.Oie} (ha : Config.OieSpec t a) (hb : Config.OieSpec t b) : a = b := by
  obtain ⟨o, ho, h1, rfl⟩ := ha
  obtain ⟨o', ho', h1', rfl⟩ := hb
  have e := Config.textIs_unique h1 h1'
  simp only [List.mem_cons, List.not_mem_nil, or_false] at ho ho'
  rcases ho with rfl | rfl <;> rcases ho' with rfl | rfl <;> first | rfl | exact absurd e (by decide)

/-- **The score and the coarser levels use the same impact estimator (C95).** -/
theorem same_estimator (hw : assemble cred stod rad rnd t = some w) {oope : Config.Oope}
    (ho : w.matcher.spe.oope = .std oope oie) (ha : w.matcher.algo = .m3rsm x y rot ang trl) : w.map.coarse = some oie := by
  obtain ⟨hm, hs, -⟩ := assembled_spec hw
  obtain ⟨o, i, e, hi, -⟩ := hs.oope
  rw [ho] at e
  simp only [Config.OopeCfg.std.injEq] at e
  obtain ⟨-, rfl⟩ := e
  have hal := hs.algo
  rw [ha] at hal
  cases hal with
  | m3rsm _ _ _ _ _ type =>
    rcases hm.coarse with ⟨-, o, e, h⟩ | ⟨h, -⟩
    · rw [e, oie_unique h hi]
    · exact absurd type h

theorem launchMr_some (hw : assemble cred stod rad rnd t = some w) (h : SensibleMr env w oie x y rot ang trl) :
    ∃ n, 1 ≤ n ∧ (w.map.params.width ≤ 2 ^ n ∧ w.map.params.height ≤ 2 ^ n ∧
      ∀ k, 1 ≤ k → w.map.params.width ≤ 2 ^ k → w.map.params.height ≤ 2 ^ k → n ≤ k) ∧
    launchMr cred stod rad rnd env t = some
      ⟨cellKind w.map.cell, impactOf oie, mrConfigured env (skipExceeding t) w oie oie x y rot ang trl,
        ⟨⟨⟨0, 0, 0⟩, ⟨0, 0, 0⟩, (MMap.create (kindApi (cellKind w.map.cell) (impactOf oie)) w.map.params.scale n, env.g0),
          histOf w.adder⟩, spwOf w.matcher.spe.spw⟩, n⟩ := by
  obtain ⟨m, n, h1, h2, h3, h4, h5, h6⟩ := Multires.level_count w.map.params.width.toNat w.map.params.height.toNat
    w.map.params.scale
  have hsz := h.size
  have cast : ∀ (v : Int) (k : Nat), 0 ≤ v → (v.toNat ≤ 2 ^ k ↔ v ≤ 2 ^ k) := by
    intro v k hv
    rw [← Int.toNat_of_nonneg hv]
    simp only [Int.toNat_natCast]
    exact_mod_cast Iff.rfl
  refine ⟨n, h3, ⟨(cast _ _ hsz.1).1 h4, (cast _ _ hsz.2).1 h5, fun k hk a b => h6 k hk ((cast _ _ hsz.1).2 a)
    ((cast _ _ hsz.2).2 b)⟩, ?_⟩
  rw [launchMr, hw, Option.bind_some, mrOf, h.drift, h.oope, h.algo, same_estimator hw h.oope h.algo]
  simp only
  rw [if_neg (by omega), if_pos h.growing, h1, Option.map_some, h2, Nat.add_sub_cancel]

/-- What the theorems below need of a started program. -/
theorem launchMr_started (hw : assemble cred stod rad rnd t = some w) (h : SensibleMr env w oie x y rot ang trl)
    {P : MrProgram G} (hP : launchMr cred stod rad rnd env t = some P) :
    MrStarted P.kind P.impact P.cfg env.grow P.levels ∧
    P.start.st.map = (MMap.create (kindApi P.kind P.impact) P.cfg.slam.scale P.levels, env.g0) ∧
    Spw.Ok P.start.weights ∧ HistOk P.start.st.hist := by
  obtain ⟨n, hn, -, e⟩ := launchMr_some hw h
  rw [hP, Option.some.injEq] at e
  subst e
  obtain ⟨hm, hs, hg⟩ := assembled_spec hw
  have hkind : cellKind w.map.cell ≠ .gmapping := by
    intro e
    cases hc : w.map.cell <;> rw [hc] at e hg <;> first | exact hg rfl | cases e
  refine ⟨⟨h.fits, hkind, rfl, ⟨_, h.cells, rfl⟩, hn, ?_, ?_, h.qualities, h.scale, h.window, h.turn.1, h.turn.2, h.step,
    h.slack, ?_⟩, rfl, spwOf_ok _, histOf_ok _⟩
  · exact adderOf_sound _ { w with map := { w.map with coarse := none } }
      ⟨h.growing, rfl, h.size, lt_trans (by positivity) h.scale, h.occupied, h.empty, h.qualities⟩
  · rcases h.tells with ha | ⟨hc, ho⟩
    · left
      simp only [mrConfigured, adderOf]
      rw [if_neg (by simp [ha])]
      exact const_tells _ _ _ _ _
    · right
      simp only
      rw [hc, ho]
      exact ⟨rfl, rfl⟩
  · have hr := h.rotations
    obtain ⟨f, hf⟩ : ∃ f, env.base.fuel = f + 1 := by
      refine ⟨env.base.fuel - 1, ?_⟩
      by_contra hc
      have h0 : env.base.fuel = 0 := by omega
      rw [h0] at hr
      have := h.turn
      push_cast at hr
      linarith
    refine Multires.rotations_terminates (2 * rot) ang h.turn.2 f 0 ?_ env.base.fuel (by omega)
    rw [hf] at hr
    push_cast at hr
    rw [abs_of_nonneg (by linarith [h.turn.1])]
    linarith

/-- **A configured SLAM with the multi-resolution matcher starts (C95)**, with everything as configured. -/
theorem launched_mr_starts (hw : assemble cred stod rad rnd t = some w) (h : SensibleMr env w oie x y rot ang trl) :
    ∃ P, launchMr cred stod rad rnd env t = some P ∧ MrAsConfigured w oie x y rot ang trl
      (Config.getBool t "in/lscan2D/skip_exceeding_vals".toList false) env.base.shift P := by
  obtain ⟨n, hn, hlev, e⟩ := launchMr_some hw h
  refine ⟨_, e, ?_⟩
  refine ⟨⟨?_, ?_, ?_, ?_, ?_⟩, ⟨?_, ?_⟩, rfl, ⟨?_, ?_, ?_⟩, ⟨rfl, rfl, rfl⟩, ⟨rfl, rfl⟩, rfl, rfl, rfl, rfl, rfl, ?_, ?_, ⟨?_, ?_⟩,
    fun c => rfl, ⟨hn, hlev⟩, rfl, rfl⟩
  all_goals first
    | (intro hc; simp only; rw [hc]; rfl)
    | skip
  · intro hc; exact ⟨0, by simp only; rw [hc]; rfl⟩
  · intro hc; exact ⟨Hist.create 20, by simp only; rw [hc]; rfl, rfl⟩
  · intro ha beam c
    simp only [mrConfigured, adderOf]
    rw [if_neg (by simp [ha])]
    exact ⟨rfl, rfl⟩
  · intro ha
    simp only [mrConfigured, adderOf]
    rw [if_pos ha]
  · intro ha
    simp [histOf, ha]
  · intro ha
    exact ⟨Hist.create 20, by simp [histOf, ha], rfl⟩

/-- **Every message of every history (C95).** In a configured SLAM, after every history of messages all numbers in the map are
probabilities, and the next message does what `MrMessage` says. -/
theorem launched_mr_behaves (hw : assemble cred stod rad rnd t = some w) (h : SensibleMr env w oie x y rot ang trl)
    {P : MrProgram G} (hP : launchMr cred stod rad rnd env t = some P) {ds : List (Poses.Pose ℝ × Msg ℝ)}
    {s1 : Mr (MMap ℝ P.kind.Cell × G)} (hr : Mr.Runs P.cfg P.start ds s1) :
    (∀ c, ∃ cell, P.cfg.slam.api.read s1.st.map c = some cell ∧ (∀ v, P.kind.value cell = some v → Unit01 v) ∧
      (P.kind.value cell = none → P.kind = .tbm .consistent ∧ P.kind.unknown cell = false)) ∧
    ∀ d prob s2, s1.Step P.cfg d prob s2 → MrMessage P.kind P.impact P.cfg P.levels s1 d prob s2 := by
  obtain ⟨hs, hm, hwt, -⟩ := launchMr_started hw h hP
  refine ⟨fun c => mr_map_probabilities hs env.g0 hm hr c, fun d prob s2 hstep => ?_⟩
  exact mr_message hs (mr_run_sound hs hr (mr_start_sound hs env.g0 _ hm hwt)) hstep

/-- **A window of up to a quarter of the map's extent fits the levels (C95)**, which is what `MrMessage` and
`launched_mr_never_fails` ask for. -/
theorem window_fits (hw : assemble cred stod rad rnd t = some w) (h : SensibleMr env w oie x y rot ang trl)
    {P : MrProgram G} (hP : launchMr cred stod rad rnd env t = some P) {v : ℝ}
    (hv : 4 * v ≤ w.map.params.scale * max w.map.params.width w.map.params.height) :
    2 * v ≤ P.cfg.slam.scale * 2 ^ (P.levels - 1) := by
  obtain ⟨P', e, hc⟩ := launched_mr_starts hw h
  rw [hP, Option.some.injEq] at e
  subst e
  obtain ⟨l1, l2, l3, -⟩ := hc.levels
  rw [hc.scale]
  have hs : 0 < w.map.params.scale := lt_trans (by positivity) h.scale
  have hmax : (max (w.map.params.width : ℝ) w.map.params.height) ≤ 2 * 2 ^ (P.levels - 1) := by
    have e : (2 : ℝ) * 2 ^ (P.levels - 1) = 2 ^ P.levels := by
      rw [← pow_succ', Nat.sub_add_cancel l1]
    rw [e]
    exact max_le (by exact_mod_cast l2) (by exact_mod_cast l3)
  rw [Int.cast_max] at hv
  nlinarith [mul_le_mul_of_nonneg_left hmax hs.le]

/-- **The credibilist SLAM: no assertion of the search ever fails (C95)**, in a map of at most 2^101 by 2^101 cells with a
window of up to a quarter of its extent, whatever the history. -/
theorem launched_mr_never_fails (hw : assemble true stod rad rnd t = some w)
    (h : SensibleMr env w .discrepancy x y rot ang trl)
    (hx : 4 * x ≤ w.map.params.scale * max w.map.params.width w.map.params.height)
    (hy : 4 * y ≤ w.map.params.scale * max w.map.params.width w.map.params.height)
    (hsz : w.map.params.width ≤ 2 ^ 101 ∧ w.map.params.height ≤ 2 ^ 101)
    {P : MrProgram G} (hP : launchMr true stod rad rnd env t = some P) {ds : List (Poses.Pose ℝ × Msg ℝ)}
    {s1 : Mr (MMap ℝ P.kind.Cell × G)} (hr : Mr.Runs P.cfg P.start ds s1) (scan : List ScanPoint) (p : Poses.Pose ℝ) :
    ¬ P.cfg.Fails s1.weights scan p s1.st.map := by
  obtain ⟨hs, hm, hwt, -⟩ := launchMr_started hw h hP
  obtain ⟨P', e, hc⟩ := launched_mr_starts hw h
  rw [hP, Option.some.injEq] at e
  subst e
  have hn : P.levels ≤ 101 := hc.levels.2.2.2 101 (by norm_num) hsz.1 hsz.2
  have fx := window_fits hw h hP hx
  have fy := window_fits hw h hP hy
  rw [← hc.limits.1] at fx
  rw [← hc.limits.2.1] at fy
  have hcell : w.map.cell = .credibilist := by
    have hw' : Config.initCredibilist stod rad rnd t = some w := by
      unfold assemble at hw
      rw [if_pos rfl] at hw
      exact hw
    exact ((Config.credibilist_as_configured stod rad rnd t w).1 hw').2.2.2.1
  have hk := hc.cell.2.2.2.2 hcell
  have hi := hc.impact.1 rfl
  have hsound := mr_run_sound hs hr (mr_start_sound hs env.g0 _ hm hwt)
  obtain ⟨k, i, cfg, start, n⟩ := P
  obtain rfl : k = _ := hk
  obtain rfl : i = _ := hi
  exact mr_never_fails hs hn fx fy hsound scan p

/-- **A configured SLAM gets over every history (C95)**: messages it is ready for, each with a usable reading, odometry
within `B`, as long as the area reached stays within the integers the traversal copes with (`N`). Whatever the answers to the
first messages are, the rest can be handled. -/
theorem launched_mr_total (hw : assemble cred stod rad rnd t = some w) (h : SensibleMr env w oie x y rot ang trl)
    {P : MrProgram G} (hP : launchMr cred stod rad rnd env t = some P) (N : Int)
    (hok : ∀ v, |v| ≤ 6 * N → env.base.ok v = true) (hf : 4 * N + 2 ≤ env.base.lineFuel) (R B : ℝ) (hR : 0 ≤ R)
    (ds1 ds2 : List (Poses.Pose ℝ × Msg ℝ))
    (hN : (ds1 ++ ds2).length * max x y + B + R ≤ w.map.params.scale * (N - 1))
    (hd : ∀ d ∈ ds1 ++ ds2, GoodMsg P.cfg.slam R d.2 ∧ Looks P.cfg d.2 ∧ |d.1.x| ≤ B ∧ |d.1.y| ≤ B)
    {s1 : Mr (MMap ℝ P.kind.Cell × G)} (h1 : Mr.Runs P.cfg P.start ds1 s1) : ∃ s2, Mr.Runs P.cfg s1 ds2 s2 := by
  obtain ⟨hs, hm, hwt, hh⟩ := launchMr_started hw h hP
  have hsound := mr_start_sound hs env.g0 _ hm hwt
  rw [hm] at hsound
  obtain ⟨n, -, -, e⟩ := launchMr_some hw h
  rw [hP, Option.some.injEq] at e
  subst e
  exact mr_total hs env.g0 (max x y) (le_max_left _ _) (le_max_right _ _) N hok hf R 0 B hR ds1 ds2
    (by rw [zero_add]; exact hN) hsound hh (by simp) hd h1

end

end Slam.Whole
