import Verif.Whole.MachineLaunch
import Verif.Matcher.Local
import Verif.Line.Box

/-!
# C96: maps of fixed size

`PlainGridMap` and `LazyTiledGridMap` do not grow. The program on such a map is the program on the corresponding growing map, as
long as everything stays within the map; the plain one stops at an assertion when it does not.
-/

set_option autoImplicit false
set_option linter.unusedSectionVars false

namespace Slam.Whole
open Slam.Grid Slam.Cells Slam.Poses Slam.Sensor Slam.Score Slam.ScanAdder Slam.Worlds Slam.Tbm Slam.Matcher Slam.Line
open Slam.ScanMatch (Enumerator FirstMax monteCarlo MCState ImprovesIn)

/-! ## Model -/

/-- `PlainGridMap`, src/core/maps/plain_grid_map.h:13-46 (topic PlainMap): `operator[]` asserts that the cell is in the map,
`update` (src/core/maps/grid_map.h:41-46) goes through it. -/
def boundedApi {C : Type} (upd : C → Aoo ℝ → C) : MapApi C (PlainMap.PMap C) where
  read := PlainMap.PMap.readBounded
  update m c o := PlainMap.stepBounded upd m (.update c o)

/-- Either class of maps of fixed size, src/utils/init_occupancy_mapping.h:132-138. `LazyTiledGridMap`,
src/core/maps/lazy_tiled_grid_map.h:35-39, 48-50: as `lazyApi`, the object knows that it does not grow. -/
def fixedApi {C : Type} (upd : C → Aoo ℝ → C) : MapApi C (AnyMap C) where
  read
    | .plain m => (boundedApi upd).read m
    | .lazy st => (lazyApi 128 upd).read st
  update
    | .plain m => fun c o => ((boundedApi upd).update m c o).map .plain
    | .lazy st => fun c o => ((lazyApi 128 upd).update st c o).map .lazy

/-- What the matcher sees of a map of fixed size. `has_cell`: src/core/maps/regular_squares_grid.h:124-128. -/
def MachCfg.fixedView {C M T : Type} (cfg : MachCfg C M T) (m : M) : Matcher.View C :=
  ⟨cfg.dims m, cfg.origin m, cfg.slam.scale, fun c => (cfg.dims m).hasCell (cfg.origin m) c, cfg.slam.api.read m⟩

/-- As `Mach.handle`, with what the matcher sees of the map given. -/
noncomputable def Mach.handleSeeing {C M T : Type} (cfg : MachCfg C M T) (view : M → Matcher.View C) (s : Mach M T)
    (d : Pose ℝ × Msg ℝ) : Option (Mach M T) :=
  (msg2scan d.2 cfg.slam.skipMax cfg.slam.tol).bind fun pts =>
    (scanOf pts).bind fun scan =>
      let p := s.st.pose.add (observerStep s.st.odom d.1).2
      (cfg.machine.process (view s.st.map) s.weights (cfg.machine.reset s.state) scan p).bind fun r =>
        let p' := p.add r.2.2.1
        let q := if r.2.2.1.toBool then cfg.slam.props.localizedQuality else cfg.slam.props.rawQuality
        (cfg.slam.append s.st.hist s.st.map p' scan q cfg.slam.props.margin).map fun a =>
          ⟨⟨(observerStep s.st.odom d.1).1, p', a.1, a.2⟩, r.1, r.2.1⟩

/-- The program on a map of fixed size: as `Mach.handle`, src/ros/laser_scan_observer.h:28-38,
src/core/states/laser_scan_grid_world.h:26-32, single_state_hypothesis_laser_scan_grid_world.h:52-65. -/
noncomputable def Mach.handleFixed {C M T : Type} (cfg : MachCfg C M T) (s : Mach M T) (d : Pose ℝ × Msg ℝ) : Option (Mach M T) :=
  s.handleSeeing cfg cfg.fixedView d

/-- A history of messages. -/
noncomputable def Mach.runFixed {C M T : Type} (cfg : MachCfg C M T) (s : Mach M T) : List (Pose ℝ × Msg ℝ) → Option (Mach M T)
  | [] => some s
  | d :: ds => (s.handleFixed cfg d).bind fun s => s.runFixed cfg ds

theorem handle_seeing {C M T : Type} (cfg : MachCfg C M T) (s : Mach M T) (d : Pose ℝ × Msg ℝ) :
    s.handle cfg d = s.handleSeeing cfg cfg.view d := rfl

/-! ## Specification -/

/-- The cells of a map of `w` by `h` cells, whose origin is its cell `(w / 2, h / 2)`. -/
def Within (w h : Nat) (c : Coord) : Prop :=
  0 ≤ c.x + (w / 2 : Nat) ∧ c.x + (w / 2 : Nat) < w ∧ 0 ≤ c.y + (h / 2 : Nat) ∧ c.y + (h / 2 : Nat) < h

/-- The same program on maps of two classes. -/
structure Twin {C M M' T : Type} (cfg : MachCfg C M T) (cfg' : MachCfg C M' T) : Prop where
  scale : cfg'.slam.scale = cfg.slam.scale
  adder : cfg'.slam.adder = cfg.slam.adder
  ok : cfg'.slam.ok = cfg.slam.ok
  fuel : cfg'.slam.fuel = cfg.slam.fuel
  props : cfg'.slam.props = cfg.slam.props
  skipMax : cfg'.slam.skipMax = cfg.slam.skipMax
  tol : cfg'.slam.tol = cfg.slam.tol
  matcher : cfg'.matcher = cfg.matcher
  machine : cfg'.machine = cfg.machine

/-- The states of the two programs, the first on a growing map, the second on one of `w` by `h` cells, cannot be told apart
within the map; outside it, nothing was ever observed. -/
structure Alike {C M M' T : Type} (cfg : MachCfg C M T) (cfg' : MachCfg C M' T) (proto : C) (w h : Nat) (s : Mach M T)
    (s' : Mach M' T) : Prop where
  pose : s'.st.pose = s.st.pose
  odom : s'.st.odom = s.st.odom
  hist : s'.st.hist = s.st.hist
  weights : s'.weights = s.weights
  state : s'.state = s.state
  inside : ∀ c, Within w h c → ∃ cell, cfg'.slam.api.read s'.st.map c = some cell ∧ cfg.slam.api.read s.st.map c = some cell
  outside : ∀ c, ¬ Within w h c → cfg.slam.api.read s.st.map c = some proto
  dims : cfg'.dims s'.st.map = ⟨w, h⟩ ∧ cfg'.origin s'.st.map = ⟨(w / 2 : Nat), (h / 2 : Nat)⟩

/-! ## Maps of fixed size -/

section
variable {C M M' T : Type}

/-- A map of fixed size: it takes all observations within its extent and shows them there. -/
def Holds (cfg : MachCfg C M T) (upd : C → Aoo ℝ → C) (proto : C) (w h : Nat) (init : M) : Prop :=
  ∀ us, (∀ u ∈ us, Within w h u.1) → ∃ m, cfg.slam.api.tellAll init us = some m ∧
    (cfg.dims m = ⟨w, h⟩ ∧ cfg.origin m = ⟨(w / 2 : Nat), (h / 2 : Nat)⟩) ∧
    ∀ c, Within w h c → cfg.slam.api.read m c = some ((about c us).foldl upd proto)

/-- It refuses everything else. -/
def Refuses (cfg : MachCfg C M T) (w h : Nat) (init : M) : Prop :=
  ∀ us m, cfg.slam.api.tellAll init us = some m → (∀ u ∈ us, Within w h u.1) ∧
    ∀ c, ¬ Within w h c → cfg.slam.api.read m c = none

theorem within_iff (w h : Nat) (c : Coord) :
    (Dims.mk w h).hasCell ⟨(w / 2 : Nat), (h / 2 : Nat)⟩ c = true ↔ Within w h c := by
  simp only [Dims.hasCell, Dims.hasInternalCell, external2internal, Coord.add, Bool.and_eq_true, Within]
  constructor
  · rintro ⟨⟨a, b⟩, c, d⟩
    exact ⟨of_decide_eq_true a, of_decide_eq_true b, of_decide_eq_true c, of_decide_eq_true d⟩
  · rintro ⟨a, b, c, d⟩
    exact ⟨⟨decide_eq_true a, decide_eq_true b⟩, decide_eq_true c, decide_eq_true d⟩

theorem boundedApi_run (upd : C → Aoo ℝ → C) (us : List (Coord × Aoo ℝ)) : ∀ m,
    (boundedApi upd).tellAll m us = PlainMap.runBounded upd m (asOps us) := by
  induction us with
  | nil => intro m; rfl
  | cons u us ih =>
    intro m
    change (PlainMap.stepBounded upd m (.update u.1 u.2)).bind _ = (PlainMap.stepBounded upd m (.update u.1 u.2)).bind _
    congr 1
    funext m
    exact ih m

theorem bounded_update_extent {upd : C → Aoo ℝ → C} {m m' : PlainMap.PMap C} {c : Coord} {o : Aoo ℝ}
    (h : (boundedApi upd).update m c o = some m') : m'.width = m.width ∧ m'.height = m.height ∧ m'.origin = m.origin := by
  simp only [boundedApi, PlainMap.stepBounded, PlainMap.PMap.setInternal, Option.bind_eq_some_iff, Option.map_eq_some_iff] at h
  obtain ⟨_, -, _, -, _, -, rfl⟩ := h
  exact ⟨rfl, rfl, rfl⟩

theorem bounded_extent {upd : C → Aoo ℝ → C} (us : List (Coord × Aoo ℝ)) : ∀ {m m' : PlainMap.PMap C},
    (boundedApi upd).tellAll m us = some m' → m'.width = m.width ∧ m'.height = m.height ∧ m'.origin = m.origin := by
  induction us with
  | nil =>
    intro m m' h
    simp only [MapApi.tellAll, Option.some.injEq] at h
    subst h
    exact ⟨rfl, rfl, rfl⟩
  | cons u us ih =>
    intro m m' h
    simp only [MapApi.tellAll, Option.bind_eq_some_iff] at h
    obtain ⟨m1, h1, h2⟩ := h
    obtain ⟨a, b, c⟩ := bounded_update_extent h1
    obtain ⟨a', b', c'⟩ := ih h2
    exact ⟨a'.trans a, b'.trans b, c'.trans c⟩

/-- The plain map of fixed size. -/
theorem bounded_holds (upd : C → Aoo ℝ → C) (w h : Nat) (proto : C) (us : List (Coord × Aoo ℝ)) (hu : ∀ u ∈ us, Within w h u.1) :
    ∃ m, (boundedApi upd).tellAll (PlainMap.create w h proto) us = some m ∧ m.width = w ∧ m.height = h ∧
      m.origin = ⟨(w / 2 : Nat), (h / 2 : Nat)⟩ ∧
      ∀ c, Within w h c → (boundedApi upd).read m c = some ((about c us).foldl upd proto) := by
  obtain ⟨m, h1, h2⟩ := PlainMap.bounded_plain_map_refines upd w h proto (asOps us) (by
    intro op hop
    simp only [asOps, List.mem_map] at hop
    obtain ⟨u, hu', rfl⟩ := hop
    exact (within_iff w h u.1).2 (hu u hu'))
  rw [← boundedApi_run] at h1
  obtain ⟨a, b, c⟩ := bounded_extent us h1
  refine ⟨m, h1, a, b, c, fun d hd => ?_⟩
  rw [← tell_about upd (fun _ => proto)]
  refine (h2 d).trans ?_
  exact if_pos ((within_iff w h d).2 hd)

theorem bounded_refuses (upd : C → Aoo ℝ → C) (w h : Nat) (proto : C) (us : List (Coord × Aoo ℝ)) {m : PlainMap.PMap C}
    (hm : (boundedApi upd).tellAll (PlainMap.create w h proto) us = some m) :
    (∀ u ∈ us, Within w h u.1) ∧ ∀ c, ¬ Within w h c → (boundedApi upd).read m c = none := by
  have gen : ∀ (us : List (Coord × Aoo ℝ)) (m m' : PlainMap.PMap C),
      (boundedApi upd).tellAll m us = some m' → ∀ u ∈ us, (Dims.mk m.width m.height).hasCell m.origin u.1 = true := by
    intro us
    induction us with
    | nil => simp
    | cons u us ih =>
      intro m m' h
      simp only [MapApi.tellAll, Option.bind_eq_some_iff] at h
      obtain ⟨m1, h1, h2⟩ := h
      obtain ⟨a, b, c⟩ := bounded_update_extent h1
      have hh := ih m1 m' h2
      rw [a, b, c] at hh
      intro v hv
      rcases List.mem_cons.1 hv with rfl | hv
      · by_contra hc
        have := PlainMap.bounded_plain_map_rejects_update upd m v.1 v.2 (by simpa using hc)
        change PlainMap.stepBounded upd m (.update v.1 v.2) = some m1 at h1
        rw [this] at h1
        cases h1
      · exact hh v hv
  refine ⟨fun u hu => (within_iff w h u.1).1 (gen us _ _ hm u hu), fun c hc => ?_⟩
  obtain ⟨a, b, e⟩ := bounded_extent us hm
  have hc' : (Dims.mk m.width m.height).hasCell m.origin c = false := by
    rw [a, b, e]
    exact Bool.eq_false_iff.2 fun h' => hc ((within_iff w h c).1 h')
  have hc'' : m.hasInternal (external2internal m.origin c) = false := hc'
  simp [boundedApi, PlainMap.PMap.readBounded, hc'']

theorem lazy_update_extent (S : Nat) {upd : C → Aoo ℝ → C} {st st' : LazyMap.St C} {m : LazyMap.LMap} {c : Coord} {o : Aoo ℝ}
    (hm : st.maps = [some m]) (hu : m.unbounded = false) (h : (lazyApi S upd).update st c o = some st') :
    ∃ m', st'.maps = [some m'] ∧ m'.unbounded = false ∧ m'.width = m.width ∧ m'.height = m.height ∧ m'.origin = m.origin := by
  simp only [lazyApi, LazyMap.stepL, hm, List.getElem?_cons_zero, Option.getD_some, Option.bind_some, LazyMap.ensureInside, hu,
    Bool.false_eq_true, if_false, LazyMap.ensureSole, Option.bind_eq_some_iff, Option.map_eq_some_iff] at h
  obtain ⟨q, ⟨r, h1, st2, h2, rfl⟩, h3⟩ := h
  have e1 : r.1.maps = [some r.2] ∧ r.2.unbounded = false ∧ r.2.width = m.width ∧ r.2.height = m.height ∧ r.2.origin = m.origin := by
    simp only [LazyMap.soleTile, Option.bind_eq_some_iff] at h1
    obtain ⟨t, -, h1⟩ := h1
    by_cases hb : 1 < LazyMap.tileUse st t
    · rw [if_pos hb, Option.map_eq_some_iff] at h1
      obtain ⟨es, -, rfl⟩ := h1
      refine ⟨?_, hu, rfl, rfl, rfl⟩
      simp [hm]
    · rw [if_neg hb, Option.some.injEq] at h1
      subst h1
      exact ⟨hm, hu, rfl, rfl, rfl⟩
  have e2 : st2.maps = r.1.maps := by
    simp only [LazyMap.soleCell, Option.bind_eq_some_iff] at h2
    obtain ⟨t, -, es, -, c', -, h2⟩ := h2
    by_cases hb : 1 < LazyMap.cellUse r.1 c'
    · rw [if_pos hb, Option.map_eq_some_iff] at h2
      obtain ⟨v, -, rfl⟩ := h2
      rfl
    · rw [if_neg hb, Option.some.injEq] at h2
      subst h2
      rfl
  have e3 : st'.maps = st2.maps := by
    simp only [LazyMap.modifyCell, Option.bind_eq_some_iff, Option.map_eq_some_iff] at h3
    obtain ⟨t, -, es, -, c', -, v, -, rfl⟩ := h3
    rfl
  exact ⟨r.2, by rw [e3, e2]; exact e1.1, e1.2⟩

theorem lazy_extent (S : Nat) {upd : C → Aoo ℝ → C} (us : List (Coord × Aoo ℝ)) : ∀ {st st' : LazyMap.St C} {m : LazyMap.LMap},
    st.maps = [some m] → m.unbounded = false → (lazyApi S upd).tellAll st us = some st' →
    ∃ m', st'.maps = [some m'] ∧ m'.unbounded = false ∧ m'.width = m.width ∧ m'.height = m.height ∧ m'.origin = m.origin := by
  induction us with
  | nil =>
    intro st st' m hm hu h
    simp only [MapApi.tellAll, Option.some.injEq] at h
    subst h
    exact ⟨m, hm, hu, rfl, rfl, rfl⟩
  | cons u us ih =>
    intro st st' m hm hu h
    simp only [MapApi.tellAll, Option.bind_eq_some_iff] at h
    obtain ⟨m1, h1, h2⟩ := h
    obtain ⟨m', a, b, c, d, e⟩ := lazy_update_extent S hm hu h1
    obtain ⟨m'', a', b', c', d', e'⟩ := ih a b h2
    exact ⟨m'', a', b', c'.trans c, d'.trans d, e'.trans e⟩

/-- The lazily tiled map of fixed size. -/
theorem lazy_holds (S : Nat) (hS : 0 < S) (upd : C → Aoo ℝ → C) (w h : Nat) (proto : C) (us : List (Coord × Aoo ℝ))
    (hu : ∀ u ∈ us, Within w h u.1) :
    ∃ st m, (lazyApi S upd).tellAll (LazyMap.createMap S false w h proto LazyMap.emptySt) us = some st ∧ st.maps = [some m] ∧
      m.width = w ∧ m.height = h ∧ m.origin = ⟨(w / 2 : Nat), (h / 2 : Nat)⟩ ∧
      ∀ c, Within w h c → (lazyApi S upd).read st c = some ((about c us).foldl upd proto) := by
  have hspec : ∀ (us : List (Coord × Aoo ℝ)) (f : Coord → C), (∀ u ∈ us, Within w h u.1) →
      LazyMap.specRunL upd [some ⟨some (w, h), f⟩] (us.map fun u => .update 0 u.1 u.2) =
        some [some ⟨some (w, h), tell upd f us⟩] := by
    intro us
    induction us with
    | nil => intro f _; rfl
    | cons u us ih =>
      intro f hu
      rw [List.map_cons, LazyMap.specRunL]
      have hc : LazyMap.AMap.Covers ⟨some (w, h), f⟩ u.1 := (within_iff w h u.1).2 (hu u (by simp))
      have : LazyMap.specStepL upd [some ⟨some (w, h), f⟩] (.update 0 u.1 u.2) =
          some [some ⟨some (w, h), fun d => if d = u.1 then upd (f u.1) u.2 else f d⟩] := by
        simp [LazyMap.specStepL, hc]
      rw [this, Option.bind_some, ih _ fun v hv => hu v (by simp [hv])]
      rfl
  obtain ⟨st, h1, h2⟩ := LazyMap.lazy_maps_refine S hS upd
    (.create false w h proto :: us.map fun u => .update 0 u.1 u.2) [some ⟨some (w, h), tell upd (fun _ => proto) us⟩] (by
      rw [LazyMap.specRunL]
      simp only [LazyMap.specStepL, Option.bind_some, List.nil_append]
      exact hspec us _ hu)
  have e : ∀ (us : List (Coord × Aoo ℝ)) m,
      (lazyApi S upd).tellAll m us = LazyMap.runL S upd m (us.map fun u => .update 0 u.1 u.2) := by
    intro us
    induction us with
    | nil => intro m; rfl
    | cons u us ih =>
      intro m
      change (LazyMap.stepL S upd m (.update 0 u.1 u.2)).bind _ = (LazyMap.stepL S upd m (.update 0 u.1 u.2)).bind _
      congr 1
      funext m
      exact ih m
  have h1' : (lazyApi S upd).tellAll (LazyMap.createMap S false w h proto LazyMap.emptySt) us = some st := by rw [e]; exact h1
  obtain ⟨m, a, -, b, c, d⟩ := lazy_extent S us (m := _) rfl rfl h1'
  refine ⟨st, m, h1', a, b, c, d, fun c hc => ?_⟩
  rw [← tell_about upd (fun _ => proto)]
  exact h2 0 _ rfl c ((within_iff w h c).2 hc)

theorem fixedApi_plain (upd : C → Aoo ℝ → C) (us : List (Coord × Aoo ℝ)) (m : PlainMap.PMap C) :
    (fixedApi upd).tellAll (.plain m) us = ((boundedApi upd).tellAll m us).map .plain := by
  induction us generalizing m with
  | nil => rfl
  | cons u us ih =>
    change (((boundedApi upd).update m u.1 u.2).map AnyMap.plain).bind _ = (((boundedApi upd).update m u.1 u.2).bind _).map _
    cases (boundedApi upd).update m u.1 u.2 with
    | none => rfl
    | some m' => exact ih m'

theorem fixedApi_lazy (upd : C → Aoo ℝ → C) (us : List (Coord × Aoo ℝ)) (m : LazyMap.St C) :
    (fixedApi upd).tellAll (.lazy m) us = ((lazyApi 128 upd).tellAll m us).map .lazy := by
  induction us generalizing m with
  | nil => rfl
  | cons u us ih =>
    change (((lazyApi 128 upd).update m u.1 u.2).map AnyMap.lazy).bind _ = (((lazyApi 128 upd).update m u.1 u.2).bind _).map _
    cases (lazyApi 128 upd).update m u.1 u.2 with
    | none => rfl
    | some m' => exact ih m'

/-- **Both classes hold what is within them (C96).** -/
theorem fixed_plain_holds {cfg : MachCfg C (AnyMap C) T} {upd : C → Aoo ℝ → C} (ha : cfg.slam.api = fixedApi upd)
    (hd : cfg.dims = AnyMap.dims) (ho : cfg.origin = AnyMap.origin) (w h : Nat) (proto : C) :
    Holds cfg upd proto w h (.plain (PlainMap.create w h proto)) := by
  intro us hu
  obtain ⟨m, h1, h2, h3, h4, h5⟩ := bounded_holds upd w h proto us hu
  refine ⟨.plain m, by rw [ha, fixedApi_plain, h1]; rfl, ?_, fun c hc => by rw [ha]; exact h5 c hc⟩
  rw [hd, ho]
  subst h2 h3
  exact ⟨rfl, h4⟩

theorem fixed_plain_refuses {cfg : MachCfg C (AnyMap C) T} {upd : C → Aoo ℝ → C} (ha : cfg.slam.api = fixedApi upd)
    (w h : Nat) (proto : C) : Refuses cfg w h (.plain (PlainMap.create w h proto)) := by
  intro us m hm
  rw [ha, fixedApi_plain, Option.map_eq_some_iff] at hm
  obtain ⟨m', h1, rfl⟩ := hm
  obtain ⟨h2, h3⟩ := bounded_refuses upd w h proto us h1
  exact ⟨h2, fun c hc => by rw [ha]; exact h3 c hc⟩

theorem fixed_lazy_holds {cfg : MachCfg C (AnyMap C) T} {upd : C → Aoo ℝ → C} (ha : cfg.slam.api = fixedApi upd)
    (hd : cfg.dims = AnyMap.dims) (ho : cfg.origin = AnyMap.origin) (w h : Nat) (proto : C) :
    Holds cfg upd proto w h (.lazy (LazyMap.createMap 128 false w h proto LazyMap.emptySt)) := by
  intro us hu
  obtain ⟨st, m, h1, h2, h3, h4, h5, h6⟩ := lazy_holds 128 (by norm_num) upd w h proto us hu
  refine ⟨.lazy st, by rw [ha, fixedApi_lazy, h1]; rfl, ?_, fun c hc => by rw [ha]; exact h6 c hc⟩
  rw [hd, ho]
  subst h3 h4
  simp only [AnyMap.dims, AnyMap.origin, h2]
  exact ⟨trivial, h5⟩

end

end Slam.Whole
