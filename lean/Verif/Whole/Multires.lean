import Verif.Multires.OneMatch
import Verif.Whole.Machine

/-!
# C95: the single-hypothesis SLAM with the multi-resolution matcher

The world of src/core/states/single_state_hypothesis_laser_scan_grid_world.h with `BruteForceMultiResolutionScanMatcher`
(src/core/scan_matchers/bf_multi_res_scan_matcher.h) on an `M3RSMRescalableGridMap` (src/core/scan_matchers/m3rsm_engine.h),
as src/utils/init_scan_matching.h:172-191 and init_occupancy_mapping.h:110-121 put them together. The engine takes matches from
a queue whose order is not determined (`Multires.Pop`), so the program is a relation here, not a function.
-/

set_option autoImplicit false
set_option linter.unusedSectionVars false

namespace Slam.Whole
open Slam.Grid Slam.Cells Slam.Poses Slam.Sensor Slam.Score Slam.ScanAdder Slam.Worlds Slam.Tbm Slam.Matcher
open Slam.Rect (points center lessOrEqual)
open Slam.Multires (MMap MLevel CellApi MOp Search Match Engine Scores Result Trips SearchStep kindApi Reached Telling Inv
  IsRotation IsTranslation TurnedWeights pointRect Pyramid)

/-! ## Model -/

/-- A map with coarser copies: `operator[]` and `update` of `RescalableCachingGridMap`/`M3RSMRescalableGridMap`,
src/core/maps/rescalable_caching_grid_map.h:96-131, src/core/scan_matchers/m3rsm_engine.h:17-131 (`Multires.MMap`). How many
levels an update adds because the finest map has grown is up to `grow` (any rule, with any state of its own). -/
noncomputable def pyramidApi {C G : Type} (cell : CellApi ℝ C (Aoo ℝ)) (grow : G → Coord → Nat × G) (s : ℝ) (fuel : Nat) :
    MapApi C (MMap ℝ C × G) where
  read m c := some (m.1.fine.cells c)
  update m c o := (m.1.step cell fuel s (.update c o (grow m.2 c).1)).map fun m' => (m', (grow m.2 c).2)

/-- The configuration: that of `Whole.Cfg`, the impact of cells, the filter of the probability estimator, the limits and steps
of the matcher, bf_multi_res_scan_matcher.h:13-17; `slack` is how much less than the best bound a match taken from the queue
may have (`Multires.Pop`); `fuel` bounds the number of rotations. -/
structure MrCfg (C G : Type) where
  slam : Cfg C (MMap ℝ C × G)
  cell : CellApi ℝ C (Aoo ℝ)
  filter : Score.Cfg
  xLimit : ℝ
  yLimit : ℝ
  rotLimit : ℝ
  angStep : ℝ
  translStep : ℝ
  slack : ℝ
  fuel : Nat

/-- The state of the program: the world and the weighting of the points. -/
structure Mr (M : Type) where
  st : St M
  weights : Spw

/-- The search `process_scan` begins, bf_multi_res_scan_matcher.h:24-42 and `add_scan_matching_request`,
m3rsm_engine.h:291-316: the scan is filtered once, at the pose given, on the finest level (scans are turned beforehand, each
rotation anew); `S` scores as `Match` does; `e` is the engine after the request. The engine tolerates no difference of finest
matches, m3rsm_engine.h:258. -/
structure MrCfg.Begins {C G : Type} (cfg : MrCfg C G) (w : Spw) (scan : List ScanPoint) (p : Pose ℝ) (m : MMap ℝ C × G)
    (f : List ScanPoint) (w' : Spw) (S : Search ℝ) (e : Engine ℝ) : Prop where
  filtered : Score.filterScan cfg.filter w cfg.slam.scale (fun _ => true) ⟨p.x, p.y, p.theta⟩ scan = some (f, w')
  diff : S.diff = 0
  scores : Scores cfg.cell m.1 w' ⟨p.x, p.y, 0⟩ (fun rot => scanToCartesian f (rot + p.theta)) S
  begun : Engine.init.request S cfg.xLimit cfg.yLimit (2 * cfg.rotLimit) cfg.angStep cfg.fuel 0 = some e

/-- `process_scan` can return the shift `delta` and the probability `prob`, bf_multi_res_scan_matcher.h:43-63. -/
def MrCfg.Answers {C G : Type} (cfg : MrCfg C G) (w : Spw) (scan : List ScanPoint) (p : Pose ℝ) (m : MMap ℝ C × G) (w' : Spw)
    (delta : Delta ℝ) (prob : ℝ) : Prop :=
  ∃ f S e x, cfg.Begins w scan p m f w' S e ∧ Result S cfg.slack cfg.translStep e x ∧
    delta = ⟨(center x.drift).x, (center x.drift).y, x.rot⟩ ∧ prob = S.ub x

/-- A search on the way to an answer can fail the assertion of `branch`, m3rsm_engine.h:350-353. -/
def MrCfg.Fails {C G : Type} (cfg : MrCfg C G) (w : Spw) (scan : List ScanPoint) (p : Pose ℝ) (m : MMap ℝ C × G) : Prop :=
  ∃ f w' S e e', cfg.Begins w scan p m f w' S e ∧ Relation.ReflTransGen (SearchStep S cfg.slack cfg.translStep) e e' ∧
    Trips S cfg.slack cfg.translStep e'

/-- `handle_transformed_msg`, src/ros/laser_scan_observer.h:28-38, `handle_sensor_data`,
src/core/states/laser_scan_grid_world.h:26-32, and `handle_observation`,
single_state_hypothesis_laser_scan_grid_world.h:52-65: as `Mach.handle`, the answer being one the matcher can give. -/
def Mr.Step {C G : Type} (cfg : MrCfg C G) (s : Mr (MMap ℝ C × G)) (d : Pose ℝ × Msg ℝ) (prob : ℝ) (s' : Mr (MMap ℝ C × G)) :
    Prop :=
  ∃ pts scan w' delta a, msg2scan d.2 cfg.slam.skipMax cfg.slam.tol = some pts ∧ scanOf pts = some scan ∧
    cfg.Answers s.weights scan (s.st.pose.add (observerStep s.st.odom d.1).2) s.st.map w' delta prob ∧
    cfg.slam.append s.st.hist s.st.map ((s.st.pose.add (observerStep s.st.odom d.1).2).add delta) scan
      (if delta.toBool then cfg.slam.props.localizedQuality else cfg.slam.props.rawQuality) cfg.slam.props.margin = some a ∧
    s' = ⟨⟨(observerStep s.st.odom d.1).1, (s.st.pose.add (observerStep s.st.odom d.1).2).add delta, a.1, a.2⟩, w'⟩

/-- A history of messages. -/
inductive Mr.Runs {C G : Type} (cfg : MrCfg C G) : Mr (MMap ℝ C × G) → List (Pose ℝ × Msg ℝ) → Mr (MMap ℝ C × G) → Prop
  | nil (s : Mr (MMap ℝ C × G)) : Mr.Runs cfg s [] s
  | cons {s s1 s' : Mr (MMap ℝ C × G)} {d : Pose ℝ × Msg ℝ} {ds : List (Pose ℝ × Msg ℝ)} {prob : ℝ}
      (h : s.Step cfg d prob s1) (hs : Mr.Runs cfg s1 ds s') : Mr.Runs cfg s (d :: ds) s'

/-! ## The map -/

section
variable {C G : Type}

theorem pyramid_tell (cell : CellApi ℝ C (Aoo ℝ)) (grow : G → Coord → Nat × G) (s : ℝ) (hs : 2 / 10 ^ 9 < s) (fuel : Nat)
    (hf : 1 ≤ fuel) (us : List (Coord × Aoo ℝ)) : ∀ (N : Nat), 1 ≤ N → ∀ m : MMap ℝ C × G, Pyramid s N m.1 →
    ∃ m', (pyramidApi cell grow s fuel).tellAll m us = some m' ∧
      ∀ c, m'.1.fine.cells c = (about c us).foldl cell.upd (m.1.fine.cells c) := by
  induction us with
  | nil => intro N _ m _; exact ⟨m, rfl, fun c => rfl⟩
  | cons u us ih =>
    intro N hN m hp
    obtain ⟨m1, N1, h1, h2, h3⟩ := Multires.step_total cell s hs fuel hf N hN m.1 hp (.update u.1 u.2 (grow m.2 u.1).1)
    obtain ⟨m', e1, e2⟩ := ih N1 (by omega) (m1, (grow m.2 u.1).2) h3
    refine ⟨m', ?_, fun c => ?_⟩
    · change ((pyramidApi cell grow s fuel).update m u.1 u.2).bind _ = _
      have : (pyramidApi cell grow s fuel).update m u.1 u.2 = some (m1, (grow m.2 u.1).2) := by
        simp only [pyramidApi, h1, Option.map_some]
      rw [this]
      exact e1
    · have hfine := Multires.step_fine cell fuel s _ _ _ h1
      rw [e2 c, hfine]
      simp only [MLevel.set, MOp.effect]
      unfold about
      by_cases hc : u.1 = c
      · subst hc
        simp
      · have hc' : ¬ c = u.1 := fun e => hc e.symm
        simp [hc, hc']

/-- A map with coarser copies is an ordinary map to those who read its finest level. -/
theorem pyramid_lawful (cell : CellApi ℝ C (Aoo ℝ)) (grow : G → Coord → Nat × G) (s : ℝ) (hs : 2 / 10 ^ 9 < s) (fuel : Nat)
    (hf : 1 ≤ fuel) (n : Nat) (hn : 1 ≤ n) (g : G) :
    Lawful (pyramidApi cell grow s fuel) cell.upd cell.proto (MMap.create cell s n, g) := by
  intro us
  have hp : Pyramid s n (MMap.create cell s n) := by
    let api' : CellApi ℝ C (Aoo ℝ) := ⟨cell.upd, fun _ => true, cell.impact, cell.proto⟩
    have hfr : ∀ (t : Option ℝ) (n : Nat), Multires.freshLevels cell t n = Multires.freshLevels api' t n := by
      intro t n
      induction n generalizing t with
      | zero => rfl
      | succ n ih => simp only [Multires.freshLevels, ih]; rfl
    have he : MMap.create cell s n = MMap.create api' s n := by
      simp only [MMap.create, hfr]
      rfl
    obtain ⟨N, hN, hp⟩ := (Multires.create_inv api' rfl s n hn).pyr
    rw [← he] at hp
    have hlen := hp.length
    have hl2 : (MMap.create cell s n).levels.length = n + 1 := by
      have hfl : ∀ (t : Option ℝ) (n : Nat), (Multires.freshLevels cell t n).length = n := by
        intro t n
        induction n generalizing t with
        | zero => rfl
        | succ n ih => simp [Multires.freshLevels, ih]
      simp only [MMap.create, MMap.levels, List.length_cons, List.length_append, List.length_nil, hfl]
      omega
    obtain rfl : N = n := by omega
    exact hp
  obtain ⟨m', h1, h2⟩ := pyramid_tell cell grow s hs fuel hf us n hn (MMap.create cell s n, g) hp
  refine ⟨m', h1, fun c => ?_⟩
  have h3 := h2 c
  have h4 : (MMap.create cell s n).fine.cells c = cell.proto := rfl
  rw [h4] at h3
  show some (m'.1.fine.cells c) = _
  rw [h3]

end

/-! ## Observations that tell something -/

/-- The estimator's answers for cells of the grid are valid. -/
def AlwaysTells (A : Adder ℝ) (scale : ℝ) : Prop :=
  ∀ beam c isOcc, A.estimate beam (worldCellBounds scale c) isOcc ≠ none

theorem const_tells (occ empty : Occ ℝ) (blur : ℝ) (maxRange : Option ℝ) (scale : ℝ) :
    AlwaysTells ⟨constEstimate occ empty, blur, maxRange⟩ scale := by
  intro beam c isOcc
  simp [constEstimate]

theorem beam_tells {A : Adder ℝ} {scale : ℝ} (hA : AlwaysTells A scale) (ok : Int → Bool) (fuel : Nat) (isOcc : Bool)
    (quality : ℝ) (beam : Beam ℝ) (us : List (Coord × Aoo ℝ)) (h : A.beamUpdates ok fuel scale isOcc quality beam = some us) :
    ∀ u ∈ us, u.2.occ ≠ none := by
  unfold Adder.beamUpdates at h
  by_cases hl : A.tooLong beam = true
  · rw [if_pos hl, Option.some.injEq] at h
    subst h
    simp
  · rw [if_neg hl] at h
    simp only [Option.bind_eq_some_iff, Option.map_eq_some_iff] at h
    obtain ⟨pts, -, last, -, rfl⟩ := h
    intro u hu
    rcases List.mem_cons.1 hu with rfl | hu
    · exact hA _ _ _
    · obtain ⟨pt, -, rfl⟩ := List.mem_map.1 hu
      simp only
      unfold Adder.passed
      simp only
      obtain ⟨b, hb⟩ := Option.ne_none_iff_exists'.1 (hA beam last isOcc)
      obtain ⟨e, he⟩ := Option.ne_none_iff_exists'.1 (hA beam pt false)
      split
      · simp [hb, he]
      · exact hA _ _ _

theorem insertAll_tells {A : Adder ℝ} {scale : ℝ} (hA : AlwaysTells A scale) (ok : Int → Bool) (fuel : Nat)
    (robot : Grid.Point ℝ) (q : Nat → Option ℝ) (sq : ℝ) (pts : List (WPoint ℝ)) (is : List Nat) (us : List (Coord × Aoo ℝ))
    (h : A.insertAll ok fuel scale robot q sq pts is = some us) : ∀ u ∈ us, u.2.occ ≠ none := by
  induction is generalizing us with
  | nil =>
    simp only [Adder.insertAll, Option.some.injEq] at h
    subst h
    simp
  | cons i is ih =>
    simp only [Adder.insertAll, Option.bind_eq_some_iff, Option.map_eq_some_iff] at h
    obtain ⟨p, -, v, -, us1, h1, us2, h2, rfl⟩ := h
    intro u hu
    rcases List.mem_append.1 hu with hu | hu
    · exact beam_tells hA ok fuel _ _ _ _ h1 u hu
    · exact ih us2 h2 u hu

theorem inserted_tells {C M : Type} {cfg : Cfg C M} (hA : AlwaysTells cfg.adder cfg.scale) {pose : Poses.Pose ℝ}
    {scan : List ScanPoint} {q : ℝ} {margin : Nat} {us : List (Coord × Aoo ℝ)} (h : Inserted cfg pose scan q margin us) :
    ∀ u ∈ us, u.2.occ ≠ none := by
  rcases h with ⟨-, rfl⟩ | ⟨-, h0, h', k, hk, ha⟩
  · simp
  · unfold Adder.appendScan at ha
    by_cases he : (worldPoints ⟨pose.x, pose.y, pose.theta⟩ scan).isEmpty = true
    · rw [if_pos he, Option.some.injEq] at ha
      subst ha
      simp
    · rw [if_neg he] at ha
      simp only [Option.bind_eq_some_iff] at ha
      obtain ⟨last, -, first, -, ha⟩ := ha
      exact insertAll_tells hA _ _ _ _ _ _ _ us ha

/-! ## Sound states -/

/-- The impact of an obstacle does not depend on where in the cell it is, except for GMapping's cells. -/
theorem impact_place (k : CellKind) (hk : k ≠ .gmapping) (i : Impact) (q : Grid.Point ℝ) (c : k.Cell) :
    k.impact i q c = k.impact i ⟨0, 0⟩ c := by
  cases i with
  | occupancy =>
    cases k with
    | tbm t => cases t <;> rfl
    | _ => rfl
  | discrepancy =>
    cases k with
    | gmapping => exact absurd rfl hk
    | affine => rfl
    | mean => rfl
    | tbm t => cases t <;> rfl

/-- A configuration the program can be started with: cells other than GMapping's; `n` initial levels; an estimator that
always says something, or credibilist belief cells (which ignore what says nothing); a window and steps of positive size. -/
structure MrStarted {G : Type} (k : CellKind) (i : Impact) (cfg : MrCfg k.Cell G) (grow : G → Coord → Nat × G) (n : Nat) : Prop where
  fits : Fits k i
  kind : k ≠ .gmapping
  cell : cfg.cell = kindApi k i
  api : ∃ fuel, 1 ≤ fuel ∧ cfg.slam.api = pyramidApi (kindApi k i) grow cfg.slam.scale fuel
  levels : 1 ≤ n
  adder : SoundFor cfg.slam.adder cfg.slam.scale
  tells : AlwaysTells cfg.slam.adder cfg.slam.scale ∨ (k = .tbm .credibilist ∧ i = .discrepancy)
  qualities : SoundQualities cfg.slam.props
  scale : 2 / 10 ^ 9 < cfg.slam.scale
  window : 0 < cfg.xLimit ∧ 0 < cfg.yLimit
  sector : 0 ≤ cfg.rotLimit
  angle : 0 < cfg.angStep
  transl : 1 / 2 ^ 52 < cfg.translStep
  slack : 0 ≤ cfg.slack
  rotations : ∃ rots, Multires.rotations (2 * cfg.rotLimit) cfg.angStep cfg.fuel 0 = some rots

/-- What holds in every state of the program. -/
structure MrSound {G : Type} {k : CellKind} (i : Impact) (cfg : MrCfg k.Cell G) (n : Nat) (init : MMap ℝ k.Cell × G)
    (s : Mr (MMap ℝ k.Cell × G)) : Prop where
  told : SaneTold cfg.slam.api init s.st.map
  bounds : Inv (kindApi k i) cfg.slam.scale n s.st.map.1
  cells : ∀ l ∈ s.st.map.1.levels, ∀ c, Reached k (l.cells c)
  weights : Spw.Ok s.weights

section
variable {G : Type} {k : CellKind} {i : Impact} {cfg : MrCfg k.Cell G} {grow : G → Coord → Nat × G} {n : Nat}

theorem MrStarted.scale_pos (hc : MrStarted k i cfg grow n) : 0 < cfg.slam.scale := lt_trans (by positivity) hc.scale

theorem mr_lawful (hc : MrStarted k i cfg grow n) (g : G) :
    Lawful cfg.slam.api k.upd k.proto (MMap.create (kindApi k i) cfg.slam.scale n, g) := by
  obtain ⟨fuel, hf, e⟩ := hc.api
  rw [e]
  exact pyramid_lawful (kindApi k i) grow _ hc.scale fuel hf n hc.levels g

/-- One observation keeps the bounds. -/
theorem update_sound (hc : MrStarted k i cfg grow n) {m : MMap ℝ k.Cell × G} (hi : Inv (kindApi k i) cfg.slam.scale n m.1)
    (hr : ∀ l ∈ m.1.levels, ∀ c, Reached k (l.cells c)) (c : Coord) (o : Aoo ℝ) (ho : SaneT [o])
    (ht : o.occ ≠ none ∨ (k = .tbm .credibilist ∧ i = .discrepancy)) (m' : MMap ℝ k.Cell × G)
    (h : cfg.slam.api.update m c o = some m') :
    Inv (kindApi k i) cfg.slam.scale n m'.1 ∧ ∀ l ∈ m'.1.levels, ∀ c, Reached k (l.cells c) := by
  obtain ⟨fuel, hf, e⟩ := hc.api
  rw [e] at h
  simp only [pyramidApi, Option.map_eq_some_iff] at h
  obtain ⟨m1, h1, rfl⟩ := h
  have hcl := Multires.kind_closed k i hc.fits
  by_cases hv : o.occ ≠ none
  · obtain ⟨m2, g1, g2, g3⟩ := Multires.step_closed _ _ _ hcl _ hc.scale n hc.levels fuel hf m.1 hi hr
      (.update c o (grow m.2 c).1) ⟨ho, hv⟩
    rw [h1] at g1
    injection g1 with g1
    subst g1
    exact ⟨g2, g3⟩
  · rcases ht with ht | ⟨rfl, rfl⟩
    · exact absurd ht hv
    · have hnone : o.occ = none := by simpa using hv
      have hign : (kindApi (.tbm .credibilist) .discrepancy).upd (m.1.fine.cells c) o = m.1.fine.cells c := by
        show TCell.observe .credibilist (m.1.fine.cells c : TCell ℝ) o = _
        obtain ⟨a1, a2, a3, a4⟩ := o
        obtain rfl : a2 = none := hnone
        rfl
      have hfine : Reached (.tbm .credibilist) (m.1.fine.cells c) := hr _ (by simp [MMap.levels]) c
      cases hu : (kindApi (.tbm .credibilist) .discrepancy).unknown (m.1.fine.cells c) with
      | false =>
        obtain ⟨m2, g1, g2⟩ := Multires.step_inv _ hcl.protoUnknown _ hc.scale n hc.levels fuel hf m.1 hi
          (.update c o (grow m.2 c).1) (by
            show (kindApi (.tbm .credibilist) .discrepancy).unknown
              ((kindApi (.tbm .credibilist) .discrepancy).upd (m.1.fine.cells c) o) = false ∧ _
            have he : (MOp.update c o (grow m.2 c).1 : MOp (CellKind.tbm .credibilist).Cell (Aoo ℝ)).effect
                (kindApi (.tbm .credibilist) .discrepancy) m.1 = (c, m.1.fine.cells c, (grow m.2 c).1) := by
              show (c, (kindApi (.tbm .credibilist) .discrepancy).upd (m.1.fine.cells c) o, _) = _
              rw [hign]
            rw [he, hign]
            exact ⟨hu, hcl.range _ hfine⟩)
        rw [h1] at g1
        injection g1 with g1
        subst g1
        refine ⟨g2, ?_⟩
        refine Multires.step_cells _ _ hcl.proto _ _ _ _ _ h1 hr ?_
        show Reached _ ((kindApi (.tbm .credibilist) .discrepancy).upd (m.1.fine.cells c) o)
        rw [hign]
        exact hfine
      | true =>
        obtain ⟨N, hN, hp⟩ := hi.pyr
        have hunk : ∀ v, Reached (.tbm .credibilist) v → (kindApi (.tbm .credibilist) .discrepancy).unknown v = true →
            v = (kindApi (.tbm .credibilist) .discrepancy).proto := by
          rintro v ⟨as, hs, rfl⟩ hv
          have hv0 : valids as = [] := ((cell_kinds (.tbm .credibilist) as hs).2.1).1 hv
          have hfold : ∀ (as : List (Aoo ℝ)) (c : TCell ℝ), valids as = [] → as.foldl (TCell.observe .credibilist) c = c := by
            intro as
            induction as with
            | nil => intro c _; rfl
            | cons a as ih =>
              intro c h
              cases ho : a.occ with
              | some o => simp [valids, ho] at h
              | none =>
                have h' : valids as = [] := by simpa [valids, ho] using h
                rw [List.foldl_cons]
                have : TCell.observe .credibilist c a = c := by simp [TCell.observe, ho]
                rw [this]
                exact ih c h'
          exact hfold as _ hv0
        have hign2 := Multires.step_ignored (kindApi (.tbm .credibilist) .discrepancy) (Reached (.tbm .credibilist)) _ hc.scale
          fuel hf N (by have := hc.levels; omega) m.1 hp hcl.proto hr hunk
          (fun v hv => Multires.credibilist_unknown_least _ _ hcl.proto hv hcl.protoUnknown) c o (grow m.2 c).1 hign hu
        rw [h1] at hign2
        injection hign2 with hign2
        subst hign2
        refine ⟨(Multires.addLevels_inv _ hcl.protoUnknown _ n hc.levels m.1 hi _).1, ?_⟩
        intro l hl d
        simp only [MMap.levels, MMap.addLevels, List.mem_cons, List.mem_append] at hl
        rcases hl with rfl | (hl | hl) | hl
        · exact hr _ (by simp [MMap.levels]) d
        · exact hr l (by simp [MMap.levels, List.mem_of_mem_dropLast hl]) d
        · rw [Multires.freshLevels_cells _ _ _ l hl d]; exact hcl.proto
        · exact hr l (by simp [MMap.levels, List.mem_of_mem_drop hl]) d

theorem tellAll_sound (hc : MrStarted k i cfg grow n) (us : List (Coord × Aoo ℝ)) (hs : SaneT (us.map Prod.snd))
    (ht : (∀ u ∈ us, u.2.occ ≠ none) ∨ (k = .tbm .credibilist ∧ i = .discrepancy)) {m m' : MMap ℝ k.Cell × G}
    (hi : Inv (kindApi k i) cfg.slam.scale n m.1) (hr : ∀ l ∈ m.1.levels, ∀ c, Reached k (l.cells c))
    (h : cfg.slam.api.tellAll m us = some m') :
    Inv (kindApi k i) cfg.slam.scale n m'.1 ∧ ∀ l ∈ m'.1.levels, ∀ c, Reached k (l.cells c) := by
  induction us generalizing m with
  | nil =>
    simp only [MapApi.tellAll, Option.some.injEq] at h
    subst h
    exact ⟨hi, hr⟩
  | cons u us ih =>
    simp only [MapApi.tellAll, Option.bind_eq_some_iff] at h
    obtain ⟨m1, h1, h2⟩ := h
    obtain ⟨g1, g2⟩ := update_sound hc hi hr u.1 u.2
      (by intro a ha; rw [List.mem_singleton] at ha; rw [ha]; exact hs u.2 (by simp))
      (ht.imp (fun h => h u (by simp)) id) m1 h1
    exact ih (fun a ha => hs a (by simp only [List.map_cons, List.mem_cons]; exact .inr ha))
      (ht.imp (fun h v hv => h v (by simp [hv])) id) g1 g2 h2

/-- A fresh program is sound. -/
theorem mr_start_sound (hc : MrStarted k i cfg grow n) (g : G) (s : Mr (MMap ℝ k.Cell × G))
    (hm : s.st.map = (MMap.create (kindApi k i) cfg.slam.scale n, g)) (hw : Spw.Ok s.weights) :
    MrSound i cfg n s.st.map s := by
  have hcl := Multires.kind_closed k i hc.fits
  refine ⟨⟨[], rfl, sane_nil⟩, ?_, ?_, hw⟩
  · rw [hm]; exact Multires.create_inv _ hcl.protoUnknown _ n hc.levels
  · rw [hm]
    intro l hl c
    rw [Multires.create_cells _ _ n l hl c]
    exact hcl.proto

/-! ## Relation to the program with any matcher -/

theorem mr_step_handle {s s' : Mr (MMap ℝ k.Cell × G)} {d : Poses.Pose ℝ × Msg ℝ} {prob : ℝ} (h : s.Step cfg d prob s') :
    ∃ delta, s.st.handle cfg.slam ⟨d.1, d.2, fun _ _ _ => some delta⟩ = some s'.st := by
  obtain ⟨pts, scan, w', delta, a, h1, h2, -, h4, rfl⟩ := h
  refine ⟨delta, ?_⟩
  unfold St.handle
  simp only [h1, h2, Option.bind_some, h4, Option.map_some]

/-- **Every execution is one of C80 (C95)**, with the messages given. -/
theorem mr_run_is_run {s s' : Mr (MMap ℝ k.Cell × G)} {ds : List (Poses.Pose ℝ × Msg ℝ)} (h : Mr.Runs cfg s ds s') :
    ∃ ds' : List (Datum (MMap ℝ k.Cell × G)), ds'.map (fun d => (d.odom, d.msg)) = ds ∧
      s.st.run cfg.slam ds' = some s'.st := by
  induction h with
  | nil s => exact ⟨[], rfl, rfl⟩
  | @cons s s1 s' d ds prob h1 _ ih =>
    obtain ⟨ds', e1, e2⟩ := ih
    obtain ⟨delta, hd⟩ := mr_step_handle h1
    refine ⟨⟨d.1, d.2, fun _ _ _ => some delta⟩ :: ds', by simp [e1], ?_⟩
    change (s.st.handle cfg.slam _).bind _ = _
    rw [hd]
    exact e2

theorem mr_step_sound (hc : MrStarted k i cfg grow n) {init : MMap ℝ k.Cell × G} {s s' : Mr (MMap ℝ k.Cell × G)}
    (hs : MrSound i cfg n init s) {d : Poses.Pose ℝ × Msg ℝ} {prob : ℝ} (h : s.Step cfg d prob s') : MrSound i cfg n init s' := by
  obtain ⟨pts, scan, w', delta, a, h1, h2, ⟨f, S, e, x, hb, -⟩, h4, rfl⟩ := h
  obtain ⟨us, u1, u2⟩ := append_spec h4
  have hq : Unit01 (if delta.toBool then cfg.slam.props.localizedQuality else cfg.slam.props.rawQuality) := by
    by_cases hb : delta.toBool = true
    · rw [if_pos hb]; exact hc.qualities.1
    · rw [if_neg hb]; exact hc.qualities.2
  have hsane := u1.sane hc.adder hq
  obtain ⟨vs, e1, e2⟩ := hs.told
  obtain ⟨g1, g2⟩ := tellAll_sound hc us hsane (hc.tells.imp (fun h => inserted_tells h u1) id) hs.bounds hs.cells u2
  refine ⟨⟨vs ++ us, by rw [tellAll_append, e1]; exact u2, ?_⟩, g1, g2, ?_⟩
  · rw [List.map_append]
    exact sane_append e2 hsane
  · have := hb.filtered
    simp only [Score.filterScan, Option.map_eq_some_iff, Prod.mk.injEq] at this
    obtain ⟨w1, r1, -, rfl⟩ := this
    exact reset_ok hs.weights r1

/-- Every reachable state is sound. -/
theorem mr_run_sound (hc : MrStarted k i cfg grow n) {init : MMap ℝ k.Cell × G} {s s' : Mr (MMap ℝ k.Cell × G)}
    {ds : List (Poses.Pose ℝ × Msg ℝ)} (h : Mr.Runs cfg s ds s') (hs : MrSound i cfg n init s) : MrSound i cfg n init s' := by
  induction h with
  | nil s => exact hs
  | cons h1 _ ih => exact ih (mr_step_sound hc hs h1)

/-- **The map shows probabilities only (C95).** -/
theorem mr_map_probabilities (hc : MrStarted k i cfg grow n) (g : G) {s s' : Mr (MMap ℝ k.Cell × G)}
    (hm : s.st.map = (MMap.create (kindApi k i) cfg.slam.scale n, g)) {ds : List (Poses.Pose ℝ × Msg ℝ)}
    (h : Mr.Runs cfg s ds s') (c : Coord) :
    ∃ cell, cfg.slam.api.read s'.st.map c = some cell ∧
      (∀ v, k.value cell = some v → Unit01 v) ∧
      (k.value cell = none → k = .tbm .consistent ∧ k.unknown cell = false) := by
  obtain ⟨ds', -, h'⟩ := mr_run_is_run h
  obtain ⟨cell, h1, h2, h3⟩ := map_shows_probabilities k (mr_lawful hc g) hc.adder hc.qualities ds' hm h' c
  refine ⟨cell, h1, fun v hv => ?_, h3⟩
  rcases h2 v hv with h | ⟨h, -⟩
  · exact h
  · exact absurd h hc.kind

end

end Slam.Whole
