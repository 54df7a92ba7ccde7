import Verif.Whole.Model
import Verif.ScanAdder.Whole
import Verif.Estimator.Range
import Verif.Tbm.Props
import Verif.Dump.Props
import Verif.World.Props

/-!
# Properties of the whole single-hypothesis SLAM (C80)
-/

set_option autoImplicit false
set_option linter.unusedSectionVars false

namespace Slam.Whole
open Slam.Grid Slam.Cells Slam.Poses Slam.Sensor Slam.Score Slam.ScanAdder Slam.Worlds Slam.Line Slam.Tbm
open Slam.Estimator (UnitOcc)

variable {C M : Type}

/-! ## Specification -/

/-- The observations of a cell in a list of updates, in order. -/
def about (c : Coord) (us : List (Coord × Aoo ℝ)) : List (Aoo ℝ) := (us.filter fun u => decide (u.1 = c)).map Prod.snd

/-- A map implementation, from `init` on, never fails and reads what its observations make of the prototype. -/
def Lawful (api : MapApi C M) (upd : C → Aoo ℝ → C) (proto : C) (init : M) : Prop :=
  ∀ us, ∃ m, api.tellAll init us = some m ∧ ∀ c, api.read m c = some ((about c us).foldl upd proto)

/-- The estimator's valid answers for cells of the grid are probabilities. -/
def SoundFor (A : Adder ℝ) (scale : ℝ) : Prop :=
  ∀ beam c isOcc o, A.estimate beam (worldCellBounds scale c) isOcc = some o → UnitOcc o

/-- The configured scan qualities are within `[0,1]`. -/
def SoundQualities (P : Worlds.Props ℝ) : Prop := Unit01 P.localizedQuality ∧ Unit01 P.rawQuality

/-- The histogram, if there is one, is one the program can have: as many bins as counted, at least one. -/
def HistOk (h : Option Hist) : Prop := ∀ h', h = some h' → h'.WF ∧ 0 < h'.n

/-! ## The two maps -/

theorem tell_about (upd : C → Aoo ℝ → C) (f : Coord → C) (us : List (Coord × Aoo ℝ)) (c : Coord) :
    tell upd f us c = (about c us).foldl upd (f c) := by
  induction us generalizing f with
  | nil => rfl
  | cons u us ih =>
    rw [specRun_cons, ih]
    unfold about
    by_cases h : u.1 = c
    · subst h
      simp
    · have h' : ¬ c = u.1 := fun e => h e.symm
      simp [h, h']

/-- The growing plain map is a lawful implementation. -/
theorem plain_lawful (rate : Nat → ℚ) (upd : C → Aoo ℝ → C) (w h : Nat) (proto : C) :
    Lawful (plainApi rate upd) upd proto (PlainMap.create w h proto) := by
  intro us
  have e : ∀ (us : List (Coord × Aoo ℝ)) m, (plainApi rate upd).tellAll m us = PlainMap.runUnbounded rate upd m (asOps us) := by
    intro us
    induction us with
    | nil => intro m; rfl
    | cons u us ih =>
      intro m
      change (PlainMap.stepUnbounded rate upd m (.update u.1 u.2)).bind _ =
        (PlainMap.stepUnbounded rate upd m (.update u.1 u.2)).bind _
      congr 1
      funext m
      exact ih m
  obtain ⟨m, h1, h2⟩ := PlainMap.unbounded_plain_map_refines rate upd w h proto (asOps us)
  refine ⟨m, by rw [e]; exact h1, fun c => ?_⟩
  rw [← tell_about upd (fun _ => proto)]
  exact h2 c

/-- The growing lazily tiled map is one, too. -/
theorem lazy_lawful (S : Nat) (hS : 0 < S) (upd : C → Aoo ℝ → C) (w h : Nat) (proto : C) :
    ∃ st, LazyMap.stepL S upd LazyMap.emptySt (.create true w h proto) = some st ∧
      Lawful (lazyApi S upd) upd proto st := by
  refine ⟨_, rfl, fun us => ?_⟩
  have e : ∀ (us : List (Coord × Aoo ℝ)) m,
      (lazyApi S upd).tellAll m us = LazyMap.runL S upd m (us.map fun u => .update 0 u.1 u.2) := by
    intro us
    induction us with
    | nil => intro m; rfl
    | cons u us ih =>
      intro m
      change (LazyMap.stepL S upd m (.update 0 u.1 u.2)).bind _ = (LazyMap.stepL S upd m (.update 0 u.1 u.2)).bind _
      congr 1
      funext m
      exact ih m
  obtain ⟨st, h1, h2⟩ := scan_into_lazy_map S hS upd w h proto us
  refine ⟨st, ?_, fun c => ?_⟩
  · rw [e]; exact h1
  · rw [← tell_about upd (fun _ => proto)]
    exact h2 c

theorem tellAll_append (api : MapApi C M) (m : M) (us vs : List (Coord × Aoo ℝ)) :
    api.tellAll m (us ++ vs) = (api.tellAll m us).bind fun m => api.tellAll m vs := by
  induction us generalizing m with
  | nil => rfl
  | cons u us ih =>
    change (api.update m u.1 u.2).bind _ = ((api.update m u.1 u.2).bind _).bind _
    cases api.update m u.1 u.2 with
    | none => rfl
    | some m' => exact ih m'

/-! ## Observations are sane -/

theorem distSq_nonneg (a b : Coord) : (0 : ℝ) ≤ ScanAdder.distSq a b := by unfold ScanAdder.distSq; positivity

theorem beam_sane {A : Adder ℝ} {scale : ℝ} (hA : SoundFor A scale) (ok : Int → Bool) (fuel : Nat) (isOcc : Bool) (quality : ℝ)
    (beam : Beam ℝ) (us : List (Coord × Aoo ℝ)) (h : A.beamUpdates ok fuel scale isOcc quality beam = some us) :
    ∀ u ∈ us, u.2.quality = quality ∧ ∀ o, u.2.occ = some o → UnitOcc o := by
  unfold Adder.beamUpdates at h
  by_cases hl : A.tooLong beam = true
  · rw [if_pos hl, Option.some.injEq] at h
    subst h
    simp
  · rw [if_neg hl] at h
    simp only [Option.bind_eq_some_iff, Option.map_eq_some_iff] at h
    obtain ⟨pts, -, last, -, rfl⟩ := h
    intro u hu
    rcases List.mem_cons.1 hu with rfl | hu
    · exact ⟨rfl, fun o ho => hA _ _ _ _ ho⟩
    · obtain ⟨pt, -, rfl⟩ := List.mem_map.1 hu
      simp only
      unfold Adder.passed
      simp only
      split
      · rename_i hc
        refine ⟨rfl, fun o ho => ?_⟩
        simp only [Option.bind_eq_some_iff, Option.map_eq_some_iff] at ho
        obtain ⟨b, hb, e, he, rfl⟩ := ho
        have hb' := hA _ _ _ _ hb
        have he' := hA _ _ _ _ he
        have d0 := distSq_nonneg pt (worldToCell scale beam.fin)
        have hpos : 0 < A.blurCellDist scale beam isOcc ^ 2 := lt_of_le_of_lt d0 hc.1
        have r0 : 0 ≤ ScanAdder.distSq pt (worldToCell scale beam.fin) / A.blurCellDist scale beam isOcc ^ 2 := div_nonneg d0 hpos.le
        have r1 : ScanAdder.distSq pt (worldToCell scale beam.fin) / A.blurCellDist scale beam isOcc ^ 2 ≤ 1 := by
          rw [div_le_one hpos]; exact hc.1.le
        refine ⟨⟨mul_nonneg hb'.1.1 (by linarith), ?_⟩, he'.2⟩
        exact mul_le_one₀ hb'.1.2 (by linarith) (by linarith)
      · exact ⟨rfl, fun o ho => hA _ _ _ _ ho⟩

theorem insertAll_sane {A : Adder ℝ} {scale : ℝ} (hA : SoundFor A scale) (ok : Int → Bool) (fuel : Nat) (robot : Grid.Point ℝ)
    (q : Nat → Option ℝ) (hq : ∀ i v, q i = some v → Unit01 v) (sq : ℝ) (hsq : Unit01 sq) (pts : List (WPoint ℝ)) (is : List Nat)
    (us : List (Coord × Aoo ℝ)) (h : A.insertAll ok fuel scale robot q sq pts is = some us) :
    SaneT (us.map Prod.snd) := by
  induction is generalizing us with
  | nil =>
    simp only [Adder.insertAll, Option.some.injEq] at h
    subst h
    intro a ha; simp at ha
  | cons i is ih =>
    simp only [Adder.insertAll, Option.bind_eq_some_iff, Option.map_eq_some_iff] at h
    obtain ⟨p, -, v, hv, us1, h1, us2, h2, rfl⟩ := h
    intro a ha o ho
    rw [List.map_append, List.mem_append] at ha
    rcases ha with ha | ha
    · obtain ⟨u, hu, rfl⟩ := List.mem_map.1 ha
      obtain ⟨e1, e2⟩ := beam_sane hA ok fuel _ _ _ _ h1 u hu
      have hv' := hq i v hv
      refine ⟨(e2 o ho).1, (e2 o ho).2, ?_⟩
      rw [e1]
      exact ⟨mul_nonneg hsq.1 hv'.1, mul_le_one₀ hsq.2 hv'.1 hv'.2⟩
    · exact ih us2 h2 a ha o ho

theorem appendScan_sane {A : Adder ℝ} {scale : ℝ} (hA : SoundFor A scale) (ok : Int → Bool) (fuel : Nat) (robot : Grid.Point ℝ)
    (q : Nat → Option ℝ) (hq : ∀ i v, q i = some v → Unit01 v) (sq : ℝ) (hsq : Unit01 sq) (margin : ℝ) (pts : List (WPoint ℝ))
    (us : List (Coord × Aoo ℝ)) (h : A.appendScan ok fuel scale robot q sq margin pts = some us) :
    SaneT (us.map Prod.snd) := by
  unfold Adder.appendScan at h
  by_cases he : pts.isEmpty = true
  · rw [if_pos he, Option.some.injEq] at h
    subst h
    intro a ha; simp at ha
  · rw [if_neg he] at h
    simp only [Option.bind_eq_some_iff] at h
    obtain ⟨last, -, first, -, h⟩ := h
    exact insertAll_sane hA ok fuel robot q hq sq hsq pts _ us h

theorem quality_unit (scan : List ScanPoint) (h : Option Hist) (r : Option Hist × (Nat → Option ℝ))
    (hr : qualityOf scan h = some r) : ∀ i v, r.2 i = some v → Unit01 v := by
  intro i v hv
  cases h with
  | none =>
    simp only [qualityOf, Option.some.injEq] at hr
    subst hr
    simp only [idleQuality, Option.some.injEq] at hv
    subst hv
    exact ⟨zero_le_one, le_rfl⟩
  | some h =>
    simp only [qualityOf, Option.map_eq_some_iff] at hr
    obtain ⟨h', -, rfl⟩ := hr
    simp only [ahrQuality, Option.bind_eq_some_iff] at hv
    obtain ⟨n, -, hv⟩ := hv
    by_cases hn : n ≠ 0
    · rw [if_pos hn, Option.some.injEq] at hv
      subst hv
      have : (1 : ℝ) ≤ n := by exact_mod_cast Nat.one_le_iff_ne_zero.2 hn
      exact ⟨by positivity, by rw [div_le_one (by linarith)]; exact this⟩
    · rw [if_neg hn] at hv; simp at hv

/-! ## One message -/

/-- The updates the scan adder makes of a scan taken at a pose, with a quality, leaving out a margin at both ends: none for
an empty scan; otherwise those of `append_scan`, with the weights the configured quality estimator gives the points of
this scan. -/
def Inserted (cfg : Cfg C M) (pose : Poses.Pose ℝ) (scan : List ScanPoint) (q : ℝ) (margin : Nat)
    (us : List (Coord × Aoo ℝ)) : Prop :=
  (scan = [] ∧ us = []) ∨ (scan ≠ [] ∧ ∃ h h' k, qualityOf scan h = some (h', k) ∧
    cfg.adder.appendScan cfg.ok cfg.fuel cfg.scale ⟨pose.x, pose.y⟩ k q (margin : ℝ)
      (worldPoints ⟨pose.x, pose.y, pose.theta⟩ scan) = some us)

theorem append_spec {cfg : Cfg C M} {hist : Option Hist} {m : M} {pose : Poses.Pose ℝ} {scan : List ScanPoint} {q : ℝ}
    {margin : Nat} {r : M × Option Hist} (h : cfg.append hist m pose scan q margin = some r) :
    ∃ us, Inserted cfg pose scan q margin us ∧ cfg.api.tellAll m us = some r.1 := by
  unfold Cfg.append at h
  by_cases he : scan.isEmpty = true
  · rw [if_pos he, Option.some.injEq] at h
    subst h
    exact ⟨[], .inl ⟨by simpa using he, rfl⟩, rfl⟩
  · rw [if_neg he] at h
    simp only [Option.bind_eq_some_iff, Option.map_eq_some_iff] at h
    obtain ⟨k, k1, us, k2, m', k3, rfl⟩ := h
    exact ⟨us, .inr ⟨by simpa using he, hist, k.1, k.2, k1, k2⟩, k3⟩

theorem Inserted.sane {cfg : Cfg C M} (hA : SoundFor cfg.adder cfg.scale) {pose : Poses.Pose ℝ} {scan : List ScanPoint}
    {q : ℝ} (hq : Unit01 q) {margin : Nat} {us : List (Coord × Aoo ℝ)} (h : Inserted cfg pose scan q margin us) :
    SaneT (us.map Prod.snd) := by
  rcases h with ⟨-, rfl⟩ | ⟨-, h0, h', k, hk, ha⟩
  · intro a ha; simp at ha
  · exact appendScan_sane hA _ _ _ k (quality_unit scan _ _ hk) q hq _ _ us ha

/-- What a message does: the scan is taken over, the pose moves by the odometry increment and by the matcher's answer, and
the map is told the observations of the scan seen from the new pose. -/
theorem handle_spec {cfg : Cfg C M} {s s' : St M} {d : Datum M} (h : s.handle cfg d = some s') :
    ∃ pts scan c q us, msg2scan d.msg cfg.skipMax cfg.tol = some pts ∧ scanOf pts = some scan ∧
      d.matcher scan (s.pose.add (d.odom.sub s.odom)) s.map = some c ∧
      s'.odom = d.odom ∧ s'.pose = (s.pose.add (d.odom.sub s.odom)).add c ∧
      (q = if c.toBool then cfg.props.localizedQuality else cfg.props.rawQuality) ∧
      cfg.api.tellAll s.map us = some s'.map ∧
      ((scan = [] ∧ us = [] ∧ s'.hist = s.hist) ∨ (scan ≠ [] ∧ ∃ k, qualityOf scan s.hist = some (s'.hist, k) ∧
        cfg.adder.appendScan cfg.ok cfg.fuel cfg.scale ⟨s'.pose.x, s'.pose.y⟩ k q (cfg.props.margin : ℝ)
          (worldPoints ⟨s'.pose.x, s'.pose.y, s'.pose.theta⟩ scan) = some us)) := by
  unfold St.handle at h
  simp only [Option.bind_eq_some_iff, Option.map_eq_some_iff] at h
  obtain ⟨pts, h1, scan, h2, c, h3, r, h4, rfl⟩ := h
  unfold Cfg.append at h4
  by_cases he : scan.isEmpty = true
  · rw [if_pos he, Option.some.injEq] at h4
    subst h4
    have he' : scan = [] := by simpa using he
    exact ⟨pts, scan, c, _, [], h1, h2, h3, rfl, rfl, rfl, rfl, Or.inl ⟨he', rfl, rfl⟩⟩
  · rw [if_neg he] at h4
    simp only [Option.bind_eq_some_iff, Option.map_eq_some_iff] at h4
    obtain ⟨k, k1, us, k2, m, k3, rfl⟩ := h4
    exact ⟨pts, scan, c, _, us, h1, h2, h3, rfl, rfl, rfl, k3, Or.inr ⟨by simpa using he, k.2, k1, k2⟩⟩

theorem sane_nil : SaneT ([] : List (Aoo ℝ)) := by intro a ha; simp at ha

theorem sane_append {as bs : List (Aoo ℝ)} (h : SaneT as) (h' : SaneT bs) : SaneT (as ++ bs) := by
  intro a ha
  rcases List.mem_append.1 ha with ha | ha
  · exact h a ha
  · exact h' a ha

theorem handle_sane {cfg : Cfg C M} (hA : SoundFor cfg.adder cfg.scale) (hP : SoundQualities cfg.props) {s s' : St M} {d : Datum M}
    (h : s.handle cfg d = some s') : ∃ us, cfg.api.tellAll s.map us = some s'.map ∧ SaneT (us.map Prod.snd) := by
  obtain ⟨pts, scan, c, q, us, -, -, -, -, -, hq, ht, hc⟩ := handle_spec h
  refine ⟨us, ht, ?_⟩
  rcases hc with ⟨-, rfl, -⟩ | ⟨-, k, hk, ha⟩
  · exact sane_nil
  · refine appendScan_sane hA _ _ _ k (quality_unit scan _ _ hk) q ?_ _ _ us ha
    rw [hq]
    by_cases hb : c.toBool = true
    · rw [if_pos hb]; exact hP.1
    · rw [if_neg hb]; exact hP.2

/-! ## Histories -/

theorem run_sane {cfg : Cfg C M} (hA : SoundFor cfg.adder cfg.scale) (hP : SoundQualities cfg.props) (ds : List (Datum M))
    {s s' : St M} (h : s.run cfg ds = some s') :
    ∃ us, cfg.api.tellAll s.map us = some s'.map ∧ SaneT (us.map Prod.snd) := by
  induction ds generalizing s with
  | nil =>
    simp only [St.run, Option.some.injEq] at h
    subst h
    exact ⟨[], rfl, sane_nil⟩
  | cons d ds ih =>
    simp only [St.run, Option.bind_eq_some_iff] at h
    obtain ⟨s1, h1, h2⟩ := h
    obtain ⟨us, e1, f1⟩ := handle_sane hA hP h1
    obtain ⟨vs, e2, f2⟩ := ih h2
    refine ⟨us ++ vs, by rw [tellAll_append, e1]; exact e2, ?_⟩
    rw [List.map_append]
    exact sane_append f1 f2

theorem about_sane {us : List (Coord × Aoo ℝ)} (h : SaneT (us.map Prod.snd)) (c : Coord) : SaneT (about c us) := by
  intro a ha
  obtain ⟨u, hu, rfl⟩ := List.mem_map.1 ha
  exact h u.2 (List.mem_map.2 ⟨u, (List.mem_filter.1 hu).1, rfl⟩)

/-- **The map after any history (C80).** Whatever messages arrive and whatever the scan matcher answers, every cell holds
what a list of observations with probabilities and qualities within `[0,1]` makes of the prototype. -/
theorem map_holds_sane_observations {cfg : Cfg C M} {upd : C → Aoo ℝ → C} {proto : C} {init : M}
    (hL : Lawful cfg.api upd proto init) (hA : SoundFor cfg.adder cfg.scale) (hP : SoundQualities cfg.props)
    (ds : List (Datum M)) {s s' : St M} (hs : s.map = init) (h : s.run cfg ds = some s') :
    ∃ obs : Coord → List (Aoo ℝ), (∀ c, SaneT (obs c)) ∧
      ∀ c, cfg.api.read s'.map c = some ((obs c).foldl upd proto) := by
  obtain ⟨us, h1, h2⟩ := run_sane hA hP ds h
  obtain ⟨m, e1, e2⟩ := hL us
  rw [hs, e1, Option.some.injEq] at h1
  subst h1
  exact ⟨fun c => about c us, fun c => about_sane h2 c, e2⟩

theorem saneT_sane {as : List (Aoo ℝ)} (h : SaneT as) : Sane as := by
  intro v hv
  unfold valids at hv
  simp only [List.mem_filterMap, Option.map_eq_some_iff] at hv
  obtain ⟨a, ha, o, ho, rfl⟩ := hv
  exact ⟨(h a ha o ho).1, (h a ha o ho).2.2⟩

/-- Every kind of cell offered by the program: what it is before any observation, how it takes one, its occupancy
(`none`: NaN) and whether it calls itself unknown. -/
inductive CellKind where
  | affine | mean | gmapping | tbm (k : Kind)

/-- The type of a cell of the kind. -/
def CellKind.Cell : CellKind → Type
  | .affine => AffineCell ℝ
  | .mean => MeanCell ℝ
  | .gmapping => GmCell ℝ
  | .tbm _ => TCell ℝ

/-- The prototype. -/
noncomputable def CellKind.proto : (k : CellKind) → k.Cell
  | .affine => AffineCell.create
  | .mean => MeanCell.create
  | .gmapping => GmCell.create
  | .tbm k => TCell.create k

/-- `operator+=`. -/
noncomputable def CellKind.upd : (k : CellKind) → k.Cell → Aoo ℝ → k.Cell
  | .affine => AffineCell.observe
  | .mean => MeanCell.observe
  | .gmapping => GmCell.observe
  | .tbm k => TCell.observe k

/-- `(double) cell`: `occupancy().prob_occ`. -/
noncomputable def CellKind.value : (k : CellKind) → k.Cell → Option ℝ
  | .affine => fun c => some c.occ.prob
  | .mean => fun c => some c.occ.prob
  | .gmapping => fun c => some c.occ.prob
  | .tbm _ => fun c => c.occ.map Occ.prob

/-- `is_unknown()`. -/
def CellKind.unknown : (k : CellKind) → k.Cell → Bool
  | .affine => fun c => c.unknown
  | .mean => fun c => c.unknown
  | .gmapping => fun c => c.unknown
  | .tbm _ => fun c => c.unknown

/-- Cells of every kind, after sane observations: a number shown is a probability, except for the `-1` of a GMapping cell
that is unknown; a cell is unknown exactly if none of its observations was valid; the only cells that can show NaN are
consistent belief cells that have had a valid observation. -/
theorem cell_kinds (k : CellKind) (as : List (Aoo ℝ)) (hs : SaneT as) :
    (∀ v, k.value (as.foldl k.upd k.proto) = some v →
      Unit01 v ∨ (k = .gmapping ∧ v = -1 ∧ k.unknown (as.foldl k.upd k.proto) = true)) ∧
    (k.unknown (as.foldl k.upd k.proto) = true ↔ valids as = []) ∧
    (k.value (as.foldl k.upd k.proto) = none → k = .tbm .consistent ∧ valids as ≠ []) := by
  have hs' := saneT_sane hs
  cases k with
  | affine =>
    obtain ⟨a, -, b⟩ := affine_cell_stays_probability AffineCell.create as hs' (by constructor <;> norm_num [AffineCell.create])
    refine ⟨fun v hv => Or.inl ?_, ?_, fun h => by simp [CellKind.value] at h⟩
    · simp only [CellKind.value, Option.some.injEq] at hv
      subst hv
      exact a
    · exact b.trans (by simp [AffineCell.create])
  | mean =>
    obtain ⟨-, -, e, -, f⟩ := mean_cell_state as
    refine ⟨fun v hv => Or.inl ?_, ?_, fun h => by simp [CellKind.value] at h⟩
    · simp only [CellKind.value, Option.some.injEq] at hv
      subst hv
      exact mean_cell_stays_probability as hs'
    · constructor
      · intro h
        by_contra hc
        have := f hc
        exact absurd (h.symm.trans this) (by simp)
      · intro h
        have := congrArg MeanCell.unknown (e h)
        exact this
  | gmapping =>
    obtain ⟨e1, e2, e3⟩ := gm_cell_occupancy as
    refine ⟨fun v hv => ?_, e3, fun h => by simp [CellKind.value] at h⟩
    simp only [CellKind.value, Option.some.injEq] at hv
    subst hv
    by_cases hv : valids as = []
    · exact Or.inr ⟨rfl, e2.2 hv, e3.2 hv⟩
    · left
      have := gm_cell_hit_ratio as hv hs'
      have hpos : (0 : ℝ) < (valids as).length := by exact_mod_cast List.length_pos_iff.2 hv
      have hle : ((hitsOf as).length : ℝ) ≤ (valids as).length := by
        exact_mod_cast List.length_filter_le _ _
      have h0 : (0 : ℝ) ≤ (hitsOf as).length / (valids as).length := by positivity
      have h1 : ((hitsOf as).length : ℝ) / (valids as).length ≤ 1 := by rw [div_le_one hpos]; exact hle
      exact ⟨le_trans (by positivity) this.1, this.2.1.trans h1⟩
  | tbm k =>
    have hu := (run_occ k as).2
    refine ⟨fun v hv => Or.inl ?_, hu, fun h => ?_⟩
    · simp only [CellKind.value, Option.map_eq_some_iff] at hv
      obtain ⟨o, ho, rfl⟩ := hv
      by_cases hk : k = .consistent
      · subst hk
        exact ((consistent_cell_occupancy as hs).1 o ho).1
      · obtain ⟨o', e, f, -⟩ := even_cell_occupancy k hk as hs
        have : some o = some o' := ho.symm.trans e
        rw [Option.some.injEq] at this
        rw [this]; exact f
    · simp only [CellKind.value, Option.map_eq_none_iff] at h
      by_cases hk : k = .consistent
      · subst hk
        exact ⟨rfl, ((consistent_cell_occupancy as hs).2.1 h).1⟩
      · obtain ⟨o', e, -⟩ := even_cell_occupancy k hk as hs
        exact absurd (e.symm.trans h) (by simp)

/-- **Every cell of the map after any history (C80).** -/
theorem map_shows_probabilities (k : CellKind) {cfg : Cfg k.Cell M} {init : M} (hL : Lawful cfg.api k.upd k.proto init)
    (hA : SoundFor cfg.adder cfg.scale) (hP : SoundQualities cfg.props) (ds : List (Datum M)) {s s' : St M}
    (hs : s.map = init) (h : s.run cfg ds = some s') (c : Coord) :
    ∃ cell, cfg.api.read s'.map c = some cell ∧
      (∀ v, k.value cell = some v → Unit01 v ∨ (k = .gmapping ∧ v = -1 ∧ k.unknown cell = true)) ∧
      (k.value cell = none → k = .tbm .consistent ∧ k.unknown cell = false) := by
  obtain ⟨obs, h1, h2⟩ := map_holds_sane_observations hL hA hP ds hs h
  obtain ⟨a, b, d⟩ := cell_kinds k (obs c) (h1 c)
  refine ⟨_, h2 c, a, fun hn => ?_⟩
  obtain ⟨e1, e2⟩ := d hn
  refine ⟨e1, ?_⟩
  by_contra hc
  exact e2 (b.1 (by simpa using hc))

/-- **The published grid after any history (C80).** With any kind of cell but the consistent belief cell, each value of the
message is between -1 and 100. -/
theorem published_values (k : CellKind) (hk : k ≠ .tbm .consistent) {cfg : Cfg k.Cell M} {init : M}
    (hL : Lawful cfg.api k.upd k.proto init) (hA : SoundFor cfg.adder cfg.scale) (hP : SoundQualities cfg.props)
    (ds : List (Datum M)) {s s' : St M} (hs : s.map = init) (h : s.run cfg ds = some s') (w hgt : Nat) (origin : Coord) :
    ∀ v ∈ (Dump.gridMsg (cfg.api.shown s'.map w hgt origin cfg.scale fun cell => (k.value cell).getD 0)).data,
      -1 ≤ v ∧ v ≤ 100 ∧ (v = -1 → k = .gmapping) := by
  intro v hv
  simp only [Dump.gridMsg, List.mem_flatMap, List.mem_map] at hv
  obtain ⟨y, -, x, -, rfl⟩ := hv
  obtain ⟨cell, h1, h2, h3⟩ := map_shows_probabilities k hL hA hP ds hs h ⟨x, y⟩
  obtain ⟨p, hp⟩ : ∃ p, k.value cell = some p := by
    cases hv : k.value cell with
    | none => exact absurd (h3 hv).1 hk
    | some p => exact ⟨p, rfl⟩
  simp only [MapApi.shown, h1, Option.map_some, Option.getD_some, hp]
  obtain ⟨e1, e2⟩ := Dump.cellValue_spec p
  rcases h2 p hp with hu | ⟨hg, hm, -⟩
  · obtain ⟨a, b, -⟩ := e2 hu.1 hu.2
    exact ⟨by omega, b, fun hh => absurd hh (by omega)⟩
  · rw [e1 hm]
    exact ⟨le_rfl, by norm_num, fun _ => hg⟩

end Slam.Whole
