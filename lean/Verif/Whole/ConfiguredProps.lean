import Verif.Whole.Configured
import Verif.Config.Assemble

/-!
# Every sensible configuration gives a sound program (C88)
-/

set_option autoImplicit false
set_option linter.unusedSectionVars false

namespace Slam.Whole
open Slam.Grid Slam.Cells Slam.Poses Slam.Sensor Slam.Score Slam.ScanAdder Slam.Worlds Slam.Tbm
open Slam.Matcher Slam.ScanMatch
open Slam.Estimator (UnitOcc Est Cmp)

/-! ## Specification -/

/-- A configuration whose numbers make sense: a growing map without coarser levels, whose cells have a size; probabilities
and qualities within `[0, 1]`. -/
structure Sensible (w : Config.World ℝ) : Prop where
  growing : w.map.kind = .unboundedPlain ∨ w.map.kind = .unboundedLazyTiled
  single : w.map.coarse = none
  size : 0 ≤ w.map.params.width ∧ 0 ≤ w.map.params.height
  scale : 0 < w.map.params.scale
  occupied : Unit01 w.adder.occProb ∧ Unit01 w.adder.occQual
  empty : Unit01 w.adder.emptyProb ∧ Unit01 w.adder.emptyQual
  qualities : Unit01 w.localizedQuality ∧ Unit01 w.rawQuality

/-- What the started program must have from the configuration `w`, read off it independently of how it is assembled. -/
structure AsConfigured (w : Config.World ℝ) (oope : Config.Oope) (oie : Config.Oie) (skip : Bool) (shift : ℝ) (P : Program) : Prop where
  /-- the class of the cells -/
  cell : (w.map.cell = .mean → P.kind = .mean) ∧ (w.map.cell = .affine → P.kind = .affine) ∧
    (w.map.cell = .tbmConsistent → P.kind = .tbm .consistent) ∧ (w.map.cell = .tbmUnknownEven → P.kind = .tbm .unknownEven) ∧
    (w.map.cell = .credibilist → P.kind = .tbm .credibilist) ∧ (w.map.cell = .gmapping → P.kind = .gmapping)
  /-- the impact of an observation -/
  impact : (oie = .discrepancy → P.impact = .discrepancy) ∧ (oie = .occupancy → P.impact = .occupancy)
  imp : P.cfg.matcher.imp = P.kind.impact P.impact
  /-- the probability of a point -/
  oope : (oope = .obstacle → P.cfg.matcher.oope = .obstacle) ∧ (oope = .max → P.cfg.matcher.oope = .max) ∧
    (oope = .mean → P.cfg.matcher.oope = .mean) ∧ (oope = .overlap → P.cfg.matcher.oope = .overlap)
  filter : P.cfg.matcher.filter = ⟨w.matcher.spe.skipRate, w.matcher.spe.maxRange⟩
  /-- the weights of the points -/
  weights : (w.matcher.spe.spw = .even → ∃ c, P.start.weights = .even c) ∧ (w.matcher.spe.spw = .viny → P.start.weights = .viny) ∧
    (w.matcher.spe.spw = .ahr → ∃ h, P.start.weights = .ahr h ∧ h.n = 20)
  scale : P.cfg.slam.scale = w.map.params.scale
  /-- the qualities of localized and raw poses -/
  props : P.cfg.slam.props = ⟨w.localizedQuality, w.rawQuality, w.margin⟩
  skip : P.cfg.slam.skipMax = skip
  /-- what is written into the map -/
  blur : P.cfg.slam.adder.blur = w.adder.blur
  maxRange : P.cfg.slam.adder.maxRange = w.adder.maxRange
  const : w.adder.area = false → ∀ beam c, P.cfg.slam.adder.estimate beam c true = some ⟨w.adder.occProb, w.adder.occQual⟩ ∧
    P.cfg.slam.adder.estimate beam c false = some ⟨w.adder.emptyProb, w.adder.emptyQual⟩
  area : w.adder.area = true → P.cfg.slam.adder.estimate =
    areaEstimate ⟨⟨w.adder.occProb, w.adder.occQual⟩, ⟨w.adder.emptyProb, w.adder.emptyQual⟩, 1 / 100, 1 / 2⟩ Estimator.codeCmp shift
  quality : (w.adder.ahr = false → P.start.st.hist = none) ∧ (w.adder.ahr = true → ∃ h, P.start.st.hist = some h ∧ h.n = 20)
  /-- the map: its class, its extent, nothing in it -/
  plain : w.map.kind = .unboundedPlain → ∃ m, P.start.st.map = .plain m
  lazy : w.map.kind = .unboundedLazyTiled → ∃ m, P.start.st.map = .lazy m
  dims : P.cfg.dims P.start.st.map = ⟨w.map.params.width, w.map.params.height⟩
  empty : ∀ c, P.cfg.slam.api.read P.start.st.map c = some P.kind.proto
  /-- the robot is at the origin -/
  origin : P.start.st.pose = ⟨0, 0, 0⟩ ∧ P.start.st.odom = ⟨0, 0, 0⟩

/-! ## Proofs -/

section
variable {C : Type}

theorem anyApi_plain (rate : Nat → ℚ) (upd : C → Aoo ℝ → C) (us : List (Coord × Aoo ℝ)) (m : PlainMap.PMap C) :
    (anyApi rate upd).tellAll (.plain m) us = ((plainApi rate upd).tellAll m us).map .plain := by
  induction us generalizing m with
  | nil => rfl
  | cons u us ih =>
    change ((anyApi rate upd).update (.plain m) u.1 u.2).bind _ = (((plainApi rate upd).update m u.1 u.2).bind _).map _
    change (((plainApi rate upd).update m u.1 u.2).map AnyMap.plain).bind _ = _
    cases (plainApi rate upd).update m u.1 u.2 with
    | none => rfl
    | some m' => exact ih m'

theorem anyApi_lazy (rate : Nat → ℚ) (upd : C → Aoo ℝ → C) (us : List (Coord × Aoo ℝ)) (m : LazyMap.St C) :
    (anyApi rate upd).tellAll (.lazy m) us = ((lazyApi 128 upd).tellAll m us).map .lazy := by
  induction us generalizing m with
  | nil => rfl
  | cons u us ih =>
    change (((lazyApi 128 upd).update m u.1 u.2).map AnyMap.lazy).bind _ = (((lazyApi 128 upd).update m u.1 u.2).bind _).map _
    cases (lazyApi 128 upd).update m u.1 u.2 with
    | none => rfl
    | some m' => exact ih m'

theorem anyApi_lawful_plain (rate : Nat → ℚ) (upd : C → Aoo ℝ → C) (proto : C) {m : PlainMap.PMap C}
    (h : Lawful (plainApi rate upd) upd proto m) : Lawful (anyApi rate upd) upd proto (.plain m) := by
  intro us
  obtain ⟨m', h1, h2⟩ := h us
  exact ⟨.plain m', by rw [anyApi_plain, h1]; rfl, h2⟩

theorem anyApi_lawful_lazy (rate : Nat → ℚ) (upd : C → Aoo ℝ → C) (proto : C) {m : LazyMap.St C}
    (h : Lawful (lazyApi 128 upd) upd proto m) : Lawful (anyApi rate upd) upd proto (.lazy m) := by
  intro us
  obtain ⟨m', h1, h2⟩ := h us
  exact ⟨.lazy m', by rw [anyApi_lazy, h1]; rfl, h2⟩

end

theorem mapOf_lawful (rate : Nat → ℚ) (w : Config.World ℝ) (h : Sensible w) :
    ∃ m, mapOf rate w.map = some m ∧
      Lawful (anyApi rate (cellKind w.map.cell).upd) (cellKind w.map.cell).upd (cellKind w.map.cell).proto m := by
  have hs : ¬ (w.map.params.width < 0 ∨ w.map.params.height < 0) := by have := h.size; omega
  unfold mapOf
  rw [if_neg (by simp [h.single]), if_neg hs]
  rcases h.growing with e | e <;> rw [e]
  · exact ⟨_, rfl, anyApi_lawful_plain _ _ _ (plain_lawful _ _ _ _ _)⟩
  · obtain ⟨st, h1, h2⟩ := lazy_lawful 128 (by norm_num) (cellKind w.map.cell).upd w.map.params.width.toNat
      w.map.params.height.toNat (cellKind w.map.cell).proto
    exact ⟨.lazy st, by simp only [h1, Option.map_some], anyApi_lawful_lazy _ _ _ h2⟩

theorem adderOf_sound (shift : ℝ) (w : Config.World ℝ) (h : Sensible w) :
    SoundFor (adderOf shift w.adder) w.map.params.scale := by
  have h1 : UnitOcc (⟨w.adder.occProb, w.adder.occQual⟩ : Occ ℝ) := h.occupied
  have h2 : UnitOcc (⟨w.adder.emptyProb, w.adder.emptyQual⟩ : Occ ℝ) := h.empty
  unfold adderOf
  by_cases ha : w.adder.area = true
  · rw [if_pos ha]
    exact area_sound _ ⟨h1, h2, by norm_num⟩ _ _ _ _ _ h.scale
  · rw [if_neg ha]
    exact const_sound _ _ h1 h2 _ _ _

theorem histOf_ok (a : Config.Adder ℝ) : HistOk (histOf a) := by
  intro h e
  unfold histOf at e
  by_cases ha : a.ahr = true
  · rw [if_pos ha, Option.some.injEq] at e
    subst e
    exact ⟨⟨by simp [Hist.create], by simp [Hist.create]⟩, by simp [Hist.create]⟩
  · rw [if_neg ha] at e
    cases e

theorem spwOf_ok (s : Config.Spw) : Spw.Ok (spwOf s) := by
  intro h e
  cases s with
  | even => cases e
  | viny => cases e
  | ahr =>
    simp only [spwOf, Spw.ahr.injEq] at e
    subst e
    exact ⟨⟨by simp [Hist.create], by simp [Hist.create]⟩, by simp [Hist.create]⟩

/-- **A sensible configuration gives a program that can be started (C88)**: the map can be made and shows the prototype
everywhere; the robot is at the origin; and the program meets all that C87's theorems ask for. -/
theorem configured_started {S : Type} (env : Env) (hf : 0 < env.cellFuel) (skipMax : Bool) (E : ScanMatch.Enumerator ℝ S) (e : S)
    (w : Config.World ℝ) (h : Sensible w) (oope : Config.Oope) (oie : Config.Oie)
    (hi : Fits (cellKind w.map.cell) (impactOf oie)) :
    ∃ s, configuredStart env e w = some s ∧
      Started (cellKind w.map.cell) (impactOf oie) (configured env skipMax E w oope oie) s.st.map ∧
      Spw.Ok s.weights ∧ HistOk s.st.hist ∧ s.st.pose = ⟨0, 0, 0⟩ ∧ s.st.odom = ⟨0, 0, 0⟩ ∧ s.enum = e ∧
      ∀ c, (configured env skipMax E w oope oie).slam.api.read s.st.map c = some (cellKind w.map.cell).proto := by
  obtain ⟨m, h1, h2⟩ := mapOf_lawful env.rate w h
  refine ⟨⟨⟨⟨0, 0, 0⟩, ⟨0, 0, 0⟩, m, histOf w.adder⟩, spwOf w.matcher.spe.spw, e⟩, by simp [configuredStart, h1], ?_,
    spwOf_ok _, histOf_ok _, rfl, rfl, rfl, ?_⟩
  · exact ⟨hi, rfl, h2, adderOf_sound _ w h, h.qualities, h.scale, hf⟩
  · intro c
    obtain ⟨m', e1, e2⟩ := h2 []
    simp only [MapApi.tellAll, Option.some.injEq] at e1
    subst e1
    have := e2 c
    simp only [about, List.filter_nil, List.map_nil, List.foldl_nil] at this
    exact this

/-! ## C88 -/

/-- What the user of an assembled SLAM relies on, for a history `ds` of messages followed by one more, `d`: in the map every
number shown is a probability, and the pose is the best one tested on the map so far. -/
structure Behaves {S : Type} (k : CellKind) (i : Impact) {M : Type} (cfg : OwnCfg k.Cell M S) (s1 s2 : Own M S)
    (d : Poses.Pose ℝ × Msg ℝ) : Prop where
  /-- every cell can be read, and the number it shows is a probability -/
  map : ∀ c, ∃ cell, cfg.slam.api.read s2.st.map c = some cell ∧
    (∀ v, k.value cell = some v → Unit01 v ∨ (k = .gmapping ∧ v = -1 ∧ k.unknown cell = true)) ∧
    (k.value cell = none → k = .tbm .consistent ∧ k.unknown cell = false)
  /-- the pose tested first is the one the odometry predicts; the one chosen has the highest mean probability -/
  pose : ∃ scan p, ScanOf cfg.slam d.2 scan ∧ p = s1.st.pose.add (d.1.sub s1.st.odom) ∧
    ((∃ sp ∈ cfg.usable p scan, 0 < sp.range) →
      ∃ ws rest score, Weights s1.weights s2.weights (cfg.usable p scan) ws ∧ Unit01 score ∧
        FirstMax (meanScore (seenProb k i cfg.slam.api s1.st.map) cfg.slam.scale ws (cfg.usable p scan)) (p :: rest)
          s2.st.pose score) ∧
    (cfg.usable p scan = [] → s2.st.pose = p)

theorem behaves_of_started {S : Type} {k : CellKind} {i : Impact} {M : Type} {cfg : OwnCfg k.Cell M S} {init : M}
    (hc : Started k i cfg init) (ds : List (Poses.Pose ℝ × Msg ℝ)) {s s1 s2 : Own M S} (hs : s.st.map = init)
    (hw : Spw.Ok s.weights) (h1 : s.run cfg ds = some s1) (d : Poses.Pose ℝ × Msg ℝ) (h2 : s1.handle cfg d = some s2) :
    Behaves k i cfg s1 s2 d where
  map := by
    intro c
    have hr : ∀ (ds : List (Poses.Pose ℝ × Msg ℝ)) (s : Own M S), s.run cfg ds = some s1 → s.run cfg (ds ++ [d]) = some s2 := by
      intro ds
      induction ds with
      | nil =>
        intro s e
        simp only [Own.run, Option.some.injEq] at e
        subst e
        simp [Own.run, h2]
      | cons d' ds ih =>
        intro s e
        simp only [Own.run, Option.bind_eq_some_iff] at e
        obtain ⟨a, e1, e2⟩ := e
        simp only [List.cons_append, Own.run, e1, Option.bind_some]
        exact ih a e2
    obtain ⟨ds', -, h, -⟩ := own_run_is_run cfg _ (hr ds s h1)
    exact map_shows_probabilities k hc.lawful hc.adder hc.qualities ds' hs h c
  pose := own_pose_is_best hc ds hs hw h1 d h2

theorem programOf_some {S : Type} {env : Env} {skipMax : Bool} {w : Config.World ℝ} {oope : Config.Oope} {oie : Config.Oie}
    {E : ScanMatch.Enumerator ℝ S} {e : S} {P : Program} (h : programOf env skipMax w oope oie E e = some P) :
    ∃ s, configuredStart env e w = some s ∧
      P = ⟨cellKind w.map.cell, impactOf oie, S, configured env skipMax E w oope oie, s⟩ := by
  simp only [programOf, Option.map_eq_some_iff] at h
  obtain ⟨s, h1, h2⟩ := h
  exact ⟨s, h1, h2.symm⟩

section
variable {stod : Config.Str → Option ℝ} {rad : ℝ} {rnd : Nat} {env : Env} {sample : Int → Nat → ℝ → ℝ → Delta ℝ}
  {t : Config.Table} {w : Config.World ℝ} {oope : Config.Oope} {oie : Config.Oie}

theorem launch_some (hw : Config.init1h stod rad rnd t = some w) {P : Program}
    (hP : launch stod rad rnd env sample t = some P) :
    w.matcher.drift = false ∧ ∃ oope oie, w.matcher.spe.oope = .std oope oie ∧
      ∃ (S : Type) (E : ScanMatch.Enumerator ℝ S) (e : S), programOf env (skipExceeding t) w oope oie E e = some P := by
  rw [launch, hw, Option.bind_some] at hP
  cases hd : w.matcher.drift with
  | true => simp [hd] at hP
  | false =>
    refine ⟨rfl, ?_⟩
    cases ho : w.matcher.spe.oope with
    | gmapping a b => simp [ho] at hP
    | std oope oie =>
      refine ⟨oope, oie, rfl, ?_⟩
      rw [hd, ho] at hP
      cases ha : w.matcher.algo with
      | monteCarlo a b c d e => rw [ha] at hP; exact ⟨_, _, _, hP⟩
      | hillClimbing a b c d => rw [ha] at hP; exact ⟨_, _, _, hP⟩
      | bruteForce a b c => rw [ha] at hP; exact ⟨_, _, _, hP⟩
      | m3rsm a b c d e => rw [ha] at hP; simp at hP
      | idle => rw [ha] at hP; simp at hP
      | hcFixed => rw [ha] at hP; simp at hP

theorem mapOf_shape (rate : Nat → ℚ) (w : Config.World ℝ) (h : Sensible w) {m : AnyMap (cellKind w.map.cell).Cell}
    (hm : mapOf rate w.map = some m) :
    (w.map.kind = .unboundedPlain → ∃ m', m = .plain m') ∧ (w.map.kind = .unboundedLazyTiled → ∃ m', m = .lazy m') ∧
      m.dims = ⟨w.map.params.width, w.map.params.height⟩ := by
  have hs : ¬ (w.map.params.width < 0 ∨ w.map.params.height < 0) := by have := h.size; omega
  unfold mapOf at hm
  rw [if_neg (by simp [h.single]), if_neg hs] at hm
  have h0 := h.size
  rcases h.growing with e | e <;> rw [e] at hm ⊢
  · simp only [Option.some.injEq] at hm
    subst hm
    refine ⟨fun _ => ⟨_, rfl⟩, by simp, ?_⟩
    simp only [AnyMap.dims, PlainMap.create, Dims.mk.injEq]
    omega
  · simp only [LazyMap.stepL, Option.map_some, Option.some.injEq] at hm
    subst hm
    refine ⟨by simp, fun _ => ⟨_, rfl⟩, ?_⟩
    simp only [AnyMap.dims, LazyMap.createMap, LazyMap.emptySt, List.nil_append, Dims.mk.injEq]
    omega

theorem configured_as {S : Type} (env : Env) (hf : 0 < env.cellFuel) (skip : Bool) (E : ScanMatch.Enumerator ℝ S) (e : S)
    (w : Config.World ℝ) (h : Sensible w) (oope : Config.Oope) (oie : Config.Oie)
    (hi : Fits (cellKind w.map.cell) (impactOf oie)) {s : Own (AnyMap (cellKind w.map.cell).Cell) S}
    (hs : configuredStart env e w = some s) :
    AsConfigured w oope oie skip env.shift
      ⟨cellKind w.map.cell, impactOf oie, S, configured env skip E w oope oie, s⟩ := by
  obtain ⟨s', h1, -, -, -, h5, h6, -, h8⟩ := configured_started env hf skip E e w h oope oie hi
  rw [hs, Option.some.injEq] at h1
  subst h1
  simp only [configuredStart, Option.map_eq_some_iff] at hs
  obtain ⟨m, hm, hs⟩ := hs
  obtain ⟨a1, a2, a3⟩ := mapOf_shape env.rate w h hm
  subst hs
  refine
    { cell := ?_, impact := ?_, imp := rfl, oope := ?_, filter := rfl, weights := ?_, scale := rfl, props := rfl, skip := rfl,
      blur := rfl, maxRange := rfl, const := ?_, area := ?_, quality := ?_, plain := a1, lazy := a2, dims := a3, empty := h8,
      origin := ⟨h5, h6⟩ }
  · refine ⟨?_, ?_, ?_, ?_, ?_, ?_⟩ <;> intro e <;> simp only [e, cellKind]
  · refine ⟨?_, ?_⟩ <;> intro e <;> simp only [e, impactOf]
  · refine ⟨?_, ?_, ?_, ?_⟩ <;> intro e <;> simp only [configured, e, oopeOf]
  · refine ⟨?_, ?_, ?_⟩ <;> intro e <;> simp only [e, spwOf]
    · exact ⟨_, rfl⟩
    · exact ⟨_, rfl, rfl⟩
  · intro e beam c
    simp [configured, adderOf, e, constEstimate]
  · intro e
    simp [configured, adderOf, e]
  · constructor <;> intro e <;> simp only [histOf, e]
    · simp
    · simp [Hist.create]

/-- **Every configuration (C88).** Let the properties `t` be accepted and give the SLAM `w`, with sensible numbers and an
impact estimator that fits the cells, and let the program be started. It has all that is configured, an empty map and the robot
at the origin; and whatever messages it has handled, the map shows probabilities only and every pose was the best of the tested
ones. -/
theorem launched_behaves (hw : Config.init1h stod rad rnd t = some w) (h : Sensible w)
    (ho : w.matcher.spe.oope = .std oope oie) (hi : Fits (cellKind w.map.cell) (impactOf oie)) (hf : 0 < env.cellFuel)
    {P : Program} (hP : launch stod rad rnd env sample t = some P) :
    AsConfigured w oope oie (Config.getBool t "in/lscan2D/skip_exceeding_vals".toList false) env.shift P ∧
    ∀ ds s1 d s2, P.start.run P.cfg ds = some s1 → s1.handle P.cfg d = some s2 → Behaves P.kind P.impact P.cfg s1 s2 d := by
  obtain ⟨-, oope', oie', ho', S, E, e, hE⟩ := launch_some hw hP
  rw [ho, Config.OopeCfg.std.injEq] at ho'
  obtain ⟨rfl, rfl⟩ := ho'
  obtain ⟨s, e1, rfl⟩ := programOf_some hE
  obtain ⟨s', h1, h2, h3, h4, h5, h6, -, h8⟩ := configured_started env hf (skipExceeding t) E e w h oope oie hi
  rw [e1, Option.some.injEq] at h1
  subst h1
  exact ⟨configured_as env hf (skipExceeding t) E e w h oope oie hi e1,
    fun ds s1 d s2 g1 g2 => behaves_of_started h2 ds rfl h3 g1 d g2⟩

/-- **The matcher of the program is the configured one (C88)**: what it enumerates, with which parameters, from which state. The
enumerators are those of C29-C31. -/
theorem launched_matcher (hw : Config.init1h stod rad rnd t = some w) {P : Program}
    (hP : launch stod rad rnd env sample t = some P) :
    (∀ seed transl rot failed total, w.matcher.algo = .monteCarlo seed transl rot failed total →
      ∃ k i cfg s, P = ⟨k, i, MCState ℝ, cfg, s⟩ ∧ cfg.enumerator = monteCarlo failed total transl rot (sample seed) ∧
        s.enum = ⟨0, 0, transl, rot, 0⟩) ∧
    (∀ failed transl rot align, w.matcher.algo = .hillClimbing failed transl rot align →
      ∃ k i cfg s, P = ⟨k, i, HCState ℝ, cfg, s⟩ ∧ cfg.enumerator = hillClimbing failed transl rot) ∧
    (∀ x y th, w.matcher.algo = .bruteForce x y th →
      ∃ k i cfg s, P = ⟨k, i, BFState ℝ, cfg, s⟩ ∧ s.enum.base = none ∧ cfg.enumerator =
        bruteForce ⟨x.from_, x.to_, x.step, y.from_, y.to_, y.step, th.from_, th.to_, th.step⟩) := by
  rw [launch, hw, Option.bind_some] at hP
  refine ⟨?_, ?_, ?_⟩
  · intro seed transl rot failed total ha
    cases hd : w.matcher.drift with
    | true => simp [hd] at hP
    | false =>
      cases ho : w.matcher.spe.oope with
      | gmapping a b => simp [ho] at hP
      | std oope oie =>
        rw [hd, ho, ha] at hP
        obtain ⟨s, e1, rfl⟩ := programOf_some hP
        simp only [configuredStart, Option.map_eq_some_iff] at e1
        obtain ⟨m, -, rfl⟩ := e1
        exact ⟨_, _, _, _, rfl, rfl, rfl⟩
  · intro failed transl rot align ha
    cases hd : w.matcher.drift with
    | true => simp [hd] at hP
    | false =>
      cases ho : w.matcher.spe.oope with
      | gmapping a b => simp [ho] at hP
      | std oope oie =>
        rw [hd, ho, ha] at hP
        obtain ⟨s, e1, rfl⟩ := programOf_some hP
        exact ⟨_, _, _, _, rfl, rfl⟩
  · intro x y th ha
    cases hd : w.matcher.drift with
    | true => simp [hd] at hP
    | false =>
      cases ho : w.matcher.spe.oope with
      | gmapping a b => simp [ho] at hP
      | std oope oie =>
        rw [hd, ho, ha] at hP
        obtain ⟨s, e1, rfl⟩ := programOf_some hP
        simp only [configuredStart, Option.map_eq_some_iff] at e1
        obtain ⟨m, -, rfl⟩ := e1
        exact ⟨_, _, _, _, rfl, rfl, rfl⟩

/-- **A configured Monte Carlo SLAM starts and handles all messages (C88)**: with the attempts, dispersions and seed configured,
for any random shifts within `b` along each axis, messages `ds` that are ready for the program with ranges up to `R`, and
odometry within `B` of the origin, as long as the area reached stays within the integers the traversal copes with. -/
theorem launched_monte_carlo_total (hw : Config.init1h stod rad rnd t = some w) (h : Sensible w)
    (ho : w.matcher.spe.oope = .std oope oie) (hi : Fits (cellKind w.map.cell) (impactOf oie)) (hf : 0 < env.cellFuel)
    (hdr : w.matcher.drift = false) {seed : Int} {transl rot : ℝ} {failed total : Nat}
    (ha : w.matcher.algo = .monteCarlo seed transl rot failed total) (hF : env.fuel = total + 1)
    (b : ℝ) (hb : 0 ≤ b) (hsam : ∀ n x y, WithinShift b (sample seed n x y))
    (N : Int) (hok : ∀ v, |v| ≤ 6 * N → env.ok v = true) (hl : 4 * N + 2 ≤ env.lineFuel) (R B : ℝ) (hR : 0 ≤ R) :
    ∃ P, launch stod rad rnd env sample t = some P ∧
      ∀ ds : List (Poses.Pose ℝ × Msg ℝ), ds.length * (total * b) + B + R ≤ w.map.params.scale * (N - 1) →
        (∀ d ∈ ds, |d.1.x| ≤ B ∧ |d.1.y| ≤ B ∧ GoodMsg P.cfg.slam R d.2) →
        ∃ s', P.start.run P.cfg ds = some s' := by
  obtain ⟨s, h1, h2, h3, h4, h5, h6, -⟩ := configured_started env hf (skipExceeding t)
    (monteCarlo failed total transl rot (sample seed)) ⟨0, 0, transl, rot, 0⟩ w h oope oie hi
  refine ⟨⟨cellKind w.map.cell, impactOf oie, MCState ℝ,
    configured env (skipExceeding t) (monteCarlo failed total transl rot (sample seed)) w oope oie, s⟩, ?_, ?_⟩
  · rw [launch, hw, Option.bind_some, hdr, ho, ha]
    simp [programOf, h1]
  · intro ds hN hd
    exact own_monte_carlo_total h2 failed total transl rot (sample seed) rfl hF b hb hsam N hok hl R 0 B hR ds
      (by rw [zero_add]; exact hN) (start_sound _ _ h3) h4 (by simp [h5, h6]) (fun d hd' => ⟨(hd d hd').2.2, (hd d hd').1, (hd d hd').2.1⟩)

/-- **A configured hill climbing SLAM starts, and every matching ends (C88)**, however many messages were handled before. -/
theorem launched_hill_climbing_ends (hw : Config.init1h stod rad rnd t = some w) (h : Sensible w)
    (ho : w.matcher.spe.oope = .std oope oie) (hi : Fits (cellKind w.map.cell) (impactOf oie)) (hf : 0 < env.cellFuel)
    (hdr : w.matcher.drift = false) {transl rot : ℝ} {failed : Nat} {align : Bool}
    (ha : w.matcher.algo = .hillClimbing failed transl rot align) (hk : w.map.cell ≠ .gmapping) :
    ∃ P, launch stod rad rnd env sample t = some P ∧
      ∀ ds s1, P.start.run P.cfg ds = some s1 → ∀ scan : List ScanPoint, (∀ p ∈ scan, p.factor = 1) → ∀ p,
        ∃ fuel r, OwnCfg.matching { P.cfg with fuel := fuel } s1 scan p s1.st.map = some r := by
  obtain ⟨s, h1, h2, h3, h4, h5, h6, -⟩ := configured_started env hf (skipExceeding t)
    (hillClimbing failed transl rot) ⟨0, transl, rot, ⟨0, transl, rot, none⟩, true⟩ w h oope oie hi
  refine ⟨⟨cellKind w.map.cell, impactOf oie, HCState ℝ,
    configured env (skipExceeding t) (hillClimbing failed transl rot) w oope oie, s⟩, ?_, ?_⟩
  · rw [launch, hw, Option.bind_some, hdr, ho, ha]
    simp [programOf, h1]
  · intro ds s1 hr scan hfac p
    have hk' : cellKind w.map.cell ≠ .gmapping := by
      intro e
      cases hc : w.map.cell <;> rw [hc] at e hk <;> first | exact hk rfl | cases e
    obtain ⟨fuel, w', e', best, score, events, ws, tested, g, -⟩ := own_hill_climbing_ends h2 hk' failed transl rot rfl ds rfl h3
      hr scan hfac p
    exact ⟨fuel, _, g⟩

end

end Slam.Whole
