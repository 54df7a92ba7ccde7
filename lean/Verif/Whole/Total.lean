import Verif.Whole.Props
import Verif.ScanAdder.Exact

/-!
# The whole single-hypothesis SLAM: poses, untouched cells, and that it never fails (C80)
-/

set_option autoImplicit false
set_option linter.unusedSectionVars false

namespace Slam.Whole
open Slam.Grid Slam.Cells Slam.Poses Slam.Sensor Slam.Score Slam.ScanAdder Slam.Worlds Slam.Line Slam.Tbm

variable {C M : Type}

/-! ## Specification -/

/-- The scan a message is turned into. -/
def ScanOf (cfg : Cfg C M) (msg : Msg ℝ) (scan : List ScanPoint) : Prop :=
  ∃ pts, msg2scan msg cfg.skipMax cfg.tol = some pts ∧ scanOf pts = some scan

/-- A beam of the scan, seen from the pose, runs through the cell (on its traversal of the grid). -/
def SeenFrom (cfg : Cfg C M) (pose : Poses.Pose ℝ) (scan : List ScanPoint) (c : Coord) : Prop :=
  ∃ p ∈ worldPoints ⟨pose.x, pose.y, pose.theta⟩ scan, ∃ cells,
    worldToCells cfg.ok (ScanAdder.exactFP cfg.scale) cfg.fuel cfg.scale pose.x pose.y p.at_.x p.at_.y = some cells ∧ c ∈ cells

/-- A message the program is ready for: no range is NaN, the angles fit together, the ranges allowed for are within `R`,
and the points that remain are more than the margin. -/
structure GoodMsg (cfg : Cfg C M) (R : ℝ) (msg : Msg ℝ) : Prop where
  nan : none ∉ msg.ranges
  angles : |msg.angleMin + (msg.ranges.length : ℝ) * msg.increment - msg.increment - msg.angleMax| ≤ cfg.tol
  min : 0 ≤ msg.rangeMin
  max : 0 ≤ msg.rangeMax ∧ msg.rangeMax ≤ R
  margin : ∀ pts, msg2scan msg cfg.skipMax cfg.tol = some pts → pts = [] ∨ cfg.props.margin < pts.length

/-- A map that only ever was told observations. -/
def Told (api : MapApi C M) (init m : M) : Prop := ∃ us, api.tellAll init us = some m

/-- A scan matcher that always answers, with corrections of at most `e` along each axis. -/
def Answers (api : MapApi C M) (init : M) (e : ℝ) (d : Datum M) : Prop :=
  ∀ scan p m, Told api init m → ∃ c, d.matcher scan p m = some c ∧ |c.x| ≤ e ∧ |c.y| ≤ e

/-! ## Where the robot is -/

/-- **The pose after any history (C80).** It is the initial pose, moved by the displacement of the odometry and by the sum
of the corrections the scan matcher gave, one for each message. -/
theorem pose_is_odometry_and_corrections (cfg : Cfg C M) (ds : List (Datum M)) {s s' : St M} (h : s.run cfg ds = some s') :
    s'.odom = (ds.map Datum.odom).getLastD s.odom ∧
    ∃ cs : List (Delta ℝ), cs.length = ds.length ∧
      (s'.pose.x = s.pose.x + (s'.odom.x - s.odom.x) + (cs.map Poses.Pose.x).sum ∧
       s'.pose.y = s.pose.y + (s'.odom.y - s.odom.y) + (cs.map Poses.Pose.y).sum ∧
       s'.pose.theta = s.pose.theta + (s'.odom.theta - s.odom.theta) + (cs.map Poses.Pose.theta).sum) ∧
      ∀ (i : Nat) (d : Datum M) (c : Delta ℝ), ds[i]? = some d → cs[i]? = some c → ∃ scan p m, ScanOf cfg d.msg scan ∧ d.matcher scan p m = some c := by
  induction ds generalizing s with
  | nil =>
    simp only [St.run, Option.some.injEq] at h
    subst h
    exact ⟨rfl, [], rfl, by simp, by simp⟩
  | cons d ds ih =>
    simp only [St.run, Option.bind_eq_some_iff] at h
    obtain ⟨s1, h1, h2⟩ := h
    obtain ⟨pts, scan, c, q, us, e1, e2, e3, e4, e5, -⟩ := handle_spec h1
    obtain ⟨k0, cs, k1, ⟨k2, k3, k4⟩, k5⟩ := ih h2
    refine ⟨?_, c :: cs, by simp [k1], ⟨?_, ?_, ?_⟩, ?_⟩
    · rw [k0, e4]
      simp only [List.map_cons]
      cases ds with
      | nil => rfl
      | cons a as => simp [List.getLastD]
    · rw [k2, e5, e4]
      simp only [Pose.add, Pose.sub, List.map_cons, List.sum_cons]
      ring
    · rw [k3, e5, e4]
      simp only [Pose.add, Pose.sub, List.map_cons, List.sum_cons]
      ring
    · rw [k4, e5, e4]
      simp only [Pose.add, Pose.sub, List.map_cons, List.sum_cons]
      ring
    · intro i d' c' hd hc
      cases i with
      | zero =>
        simp only [List.getElem?_cons_zero, Option.some.injEq] at hd hc
        subst hd hc
        exact ⟨scan, _, _, ⟨pts, e1, e2⟩, e3⟩
      | succ i =>
        simp only [List.getElem?_cons_succ] at hd hc
        exact k5 i d' c' hd hc

/-! ## Cells no beam runs through -/

theorem beam_cells {A : Adder ℝ} {ok : Int → Bool} {fuel : Nat} {scale : ℝ} {isOcc : Bool} {q : ℝ} {beam : Beam ℝ}
    {us : List (Coord × Aoo ℝ)} (h : A.beamUpdates ok fuel scale isOcc q beam = some us) : ∀ u ∈ us, ∃ cells,
      worldToCells ok (ScanAdder.exactFP scale) fuel scale beam.beg.x beam.beg.y beam.fin.x beam.fin.y = some cells ∧ u.1 ∈ cells := by
  unfold Adder.beamUpdates at h
  by_cases hl : A.tooLong beam = true
  · rw [if_pos hl, Option.some.injEq] at h
    subst h
    simp
  · rw [if_neg hl] at h
    simp only [Option.bind_eq_some_iff, Option.map_eq_some_iff] at h
    obtain ⟨pts, hp, last, hlast, rfl⟩ := h
    intro u hu
    refine ⟨pts, hp, ?_⟩
    rcases List.mem_cons.1 hu with rfl | hu
    · exact List.mem_of_getLast? hlast
    · obtain ⟨pt, hpt, rfl⟩ := List.mem_map.1 hu
      exact List.mem_of_mem_dropLast hpt

theorem insertAll_cells {A : Adder ℝ} {ok : Int → Bool} {fuel : Nat} {scale : ℝ} {robot : Grid.Point ℝ}
    {q : Nat → Option ℝ} {sq : ℝ} {pts : List (WPoint ℝ)} (is : List Nat) {us : List (Coord × Aoo ℝ)}
    (h : A.insertAll ok fuel scale robot q sq pts is = some us) : ∀ u ∈ us, ∃ p ∈ pts, ∃ cells,
      worldToCells ok (ScanAdder.exactFP scale) fuel scale robot.x robot.y p.at_.x p.at_.y = some cells ∧ u.1 ∈ cells := by
  induction is generalizing us with
  | nil =>
    simp only [Adder.insertAll, Option.some.injEq] at h
    subst h
    simp
  | cons i is ih =>
    simp only [Adder.insertAll, Option.bind_eq_some_iff, Option.map_eq_some_iff] at h
    obtain ⟨p, hp, v, hv, us1, h1, us2, h2, rfl⟩ := h
    intro u hu
    rcases List.mem_append.1 hu with hu | hu
    · exact ⟨p, List.mem_of_getElem? hp, beam_cells h1 u hu⟩
    · exact ih h2 u hu

theorem appendScan_cells {A : Adder ℝ} {ok : Int → Bool} {fuel : Nat} {scale : ℝ} {robot : Grid.Point ℝ}
    {q : Nat → Option ℝ} {sq margin : ℝ} {pts : List (WPoint ℝ)} {us : List (Coord × Aoo ℝ)}
    (h : A.appendScan ok fuel scale robot q sq margin pts = some us) : ∀ u ∈ us, ∃ p ∈ pts, ∃ cells,
      worldToCells ok (ScanAdder.exactFP scale) fuel scale robot.x robot.y p.at_.x p.at_.y = some cells ∧ u.1 ∈ cells := by
  unfold Adder.appendScan at h
  by_cases he : pts.isEmpty = true
  · rw [if_pos he, Option.some.injEq] at h
    subst h
    simp
  · rw [if_neg he] at h
    simp only [Option.bind_eq_some_iff] at h
    obtain ⟨last, -, first, -, h⟩ := h
    exact insertAll_cells _ h

theorem run_seen {cfg : Cfg C M} (ds : List (Datum M)) {s s' : St M} (h : s.run cfg ds = some s') :
    ∃ us, cfg.api.tellAll s.map us = some s'.map ∧ ∀ u ∈ us, ∃ ds1 d ds2 s1 scan, ds = ds1 ++ d :: ds2 ∧
      s.run cfg (ds1 ++ [d]) = some s1 ∧ ScanOf cfg d.msg scan ∧ SeenFrom cfg s1.pose scan u.1 := by
  induction ds generalizing s with
  | nil =>
    simp only [St.run, Option.some.injEq] at h
    subst h
    exact ⟨[], rfl, by simp⟩
  | cons d ds ih =>
    simp only [St.run, Option.bind_eq_some_iff] at h
    obtain ⟨s1, h1, h2⟩ := h
    obtain ⟨pts, scan, c, q, us, e1, e2, -, -, -, -, ht, hc⟩ := handle_spec h1
    obtain ⟨vs, k1, k2⟩ := ih h2
    refine ⟨us ++ vs, by rw [tellAll_append, ht]; exact k1, fun u hu => ?_⟩
    rcases List.mem_append.1 hu with hu | hu
    · rcases hc with ⟨-, rfl, -⟩ | ⟨-, k, -, ha⟩
      · simp at hu
      · obtain ⟨p, hp, cells, hw, hm⟩ := appendScan_cells ha u hu
        exact ⟨[], d, ds, s1, scan, rfl, by simp [St.run, h1], ⟨pts, e1, e2⟩, p, hp, cells, hw, hm⟩
    · obtain ⟨ds1, d', ds2, s2, scan', f1, f2, f3, f4⟩ := k2 u hu
      refine ⟨d :: ds1, d', ds2, s2, scan', by rw [f1]; rfl, ?_, f3, f4⟩
      change (s.handle cfg d).bind _ = _
      rw [h1]
      exact f2

/-- **Cells never looked at (C80).** A cell that no beam of any message ran through, seen from the pose the world had after
the message, holds the prototype. -/
theorem unseen_cell_is_prototype {cfg : Cfg C M} {upd : C → Aoo ℝ → C} {proto : C} {init : M}
    (hL : Lawful cfg.api upd proto init) (ds : List (Datum M)) {s s' : St M} (hs : s.map = init)
    (h : s.run cfg ds = some s') (c : Coord)
    (hc : ∀ ds1 d ds2 s1 scan, ds = ds1 ++ d :: ds2 → s.run cfg (ds1 ++ [d]) = some s1 → ScanOf cfg d.msg scan →
      ¬ SeenFrom cfg s1.pose scan c) :
    cfg.api.read s'.map c = some proto := by
  obtain ⟨us, h1, h2⟩ := run_seen ds h
  obtain ⟨m, e1, e2⟩ := hL us
  rw [hs, e1, Option.some.injEq] at h1
  subst h1
  rw [e2 c]
  have : about c us = [] := by
    unfold about
    rw [List.map_eq_nil_iff, List.filter_eq_nil_iff]
    intro u hu hd
    obtain ⟨ds1, d, ds2, s1, scan, f1, f2, f3, f4⟩ := h2 u hu
    have hd' : u.1 = c := by simpa using hd
    exact hc ds1 d ds2 s1 scan f1 f2 f3 (hd' ▸ f4)
  rw [this]; rfl

/-! ## The program does not fail -/

/-- The points of a message without NaN: they are all defined, and not farther than `R`. -/
theorem good_scan {cfg : Cfg C M} {R : ℝ} {msg : Msg ℝ} (hg : GoodMsg cfg R msg) :
    ∃ pts scan, msg2scan msg cfg.skipMax cfg.tol = some pts ∧ scanOf pts = some scan ∧
      scan.length = pts.length ∧ ∀ sp ∈ scan, ∃ r a o, sp = .polar r a o 1 ∧ 0 ≤ r ∧ r ≤ R := by
  obtain ⟨pts, hp⟩ : ∃ pts, msg2scan msg cfg.skipMax cfg.tol = some pts := ⟨_, message_conversion msg cfg.skipMax cfg.tol hg.angles⟩
  have hpts := (message_points msg cfg.skipMax cfg.tol pts hp).1
  have hr : ∀ p ∈ pts, ∃ r, p.range = some r ∧ 0 ≤ r ∧ r ≤ R := by
    intro p hpm
    obtain ⟨i, r, hi, -, ho, hot, hof⟩ := hpts p hpm
    have hrn : r ≠ none := fun e => hg.nan (e ▸ List.mem_of_getElem? hi)
    cases hpo : p.occupied with
    | true =>
      rcases ho.1 hpo with e | ⟨v, rfl, h1, h2⟩
      · exact absurd e hrn
      · exact ⟨v, hot hpo, hg.min.trans h1, h2.le.trans hg.max.2⟩
    | false =>
      obtain ⟨-, e, -⟩ := hof hpo
      exact ⟨msg.rangeMax, e, hg.max.1, hg.max.2⟩
  have key : ∀ ps : List (Worlds.Point ℝ), (∀ p ∈ ps, ∃ r, p.range = some r ∧ 0 ≤ r ∧ r ≤ R) →
      ∃ scan, scanOf ps = some scan ∧ scan.length = ps.length ∧ ∀ sp ∈ scan, ∃ r a o, sp = .polar r a o 1 ∧ 0 ≤ r ∧ r ≤ R := by
    intro ps
    induction ps with
    | nil => intro _; exact ⟨[], rfl, rfl, by simp⟩
    | cons p ps ih =>
      intro h
      obtain ⟨scan, h1, h2, h3⟩ := ih fun q hq => h q (by simp [hq])
      obtain ⟨r, e, r0, r1⟩ := h p (by simp)
      refine ⟨.polar r p.angle p.occupied 1 :: scan, ?_, by simp [h2], ?_⟩
      · simp [scanOf, e, h1]
      · intro sp hsp
        rcases List.mem_cons.1 hsp with rfl | hsp
        · exact ⟨r, p.angle, p.occupied, rfl, r0, r1⟩
        · exact h3 sp hsp
  obtain ⟨scan, h1, h2, h3⟩ := key pts hr
  exact ⟨pts, scan, hp, h1, h2, h3⟩

theorem cell_in_range (scale : ℝ) (hs : 0 < scale) (N : Int) (p : Grid.Point ℝ) (hx : |p.x| ≤ scale * (N - 1))
    (hy : |p.y| ≤ scale * (N - 1)) : InRange N scale p := by
  have key : ∀ v : ℝ, |v| ≤ scale * (N - 1) → |⌊v / scale⌋| ≤ N := by
    intro v hv
    have hd : |v / scale| ≤ N - 1 := by
      rw [abs_div, abs_of_pos hs, div_le_iff₀ hs, mul_comm]
      exact hv
    rw [abs_le] at hd ⊢
    constructor
    · rw [Int.le_floor]; push_cast; linarith [hd.1]
    · have := (Int.floor_le (v / scale)).trans hd.2
      have h1 : ((⌊v / scale⌋ : Int) : ℝ) ≤ ((N - 1 : Int) : ℝ) := by push_cast; exact this
      have := Int.cast_le.1 h1
      omega
  exact ⟨key p.x hx, key p.y hy⟩

theorem fuel_in_range (scale : ℝ) (N : Int) (a b : Grid.Point ℝ) (ha : InRange N scale a) (hb : InRange N scale b) (fuel : Nat)
    (hf : 4 * N + 2 ≤ fuel) : fuelFor (worldToCell scale a) (worldToCell scale b) ≤ fuel := by
  obtain ⟨a1, a2⟩ := ha
  obtain ⟨b1, b2⟩ := hb
  rw [abs_le] at a1 a2 b1 b2
  unfold fuelFor
  omega

/-- A point at a distance of at most `R` from the robot is in reach. -/
theorem worldPoints_near (pose : Score.Pose) (scan : List ScanPoint) (R : ℝ)
    (h : ∀ sp ∈ scan, ∃ r a o, sp = .polar r a o 1 ∧ 0 ≤ r ∧ r ≤ R) :
    ∀ p ∈ worldPoints pose scan, |p.at_.x| ≤ |pose.x| + R ∧ |p.at_.y| ≤ |pose.y| + R := by
  intro p hp
  rw [worldPoints_rigid, List.mem_map] at hp
  obtain ⟨sp, hsp, rfl⟩ := hp
  obtain ⟨r, a, o, rfl, r0, r1⟩ := h sp hsp
  have ex : Real.cos pose.th * (ScanPoint.polar r a o 1).x - Real.sin pose.th * (ScanPoint.polar r a o 1).y = r * Real.cos (pose.th + a) := by
    rw [Real.cos_add]; simp only [ScanPoint.x, ScanPoint.y]; ring
  have ey : Real.sin pose.th * (ScanPoint.polar r a o 1).x + Real.cos pose.th * (ScanPoint.polar r a o 1).y = r * Real.sin (pose.th + a) := by
    rw [Real.sin_add]; simp only [ScanPoint.x, ScanPoint.y]; ring
  simp only [ex, ey]
  have hcos : |r * Real.cos (pose.th + a)| ≤ R := by
    rw [abs_mul, abs_of_nonneg r0]
    exact (mul_le_of_le_one_right r0 (Real.abs_cos_le_one _)).trans r1
  have hsin : |r * Real.sin (pose.th + a)| ≤ R := by
    rw [abs_mul, abs_of_nonneg r0]
    exact (mul_le_of_le_one_right r0 (Real.abs_sin_le_one _)).trans r1
  constructor
  · linarith [abs_add_le (r * Real.cos (pose.th + a)) pose.x]
  · linarith [abs_add_le (r * Real.sin (pose.th + a)) pose.y]

theorem quality_total (h : Option Hist) (hh : HistOk h) (scan : List ScanPoint) :
    ∃ h' k, qualityOf scan h = some (h', k) ∧ HistOk h' ∧ ∀ i, i < scan.length → ∃ q, k i = some q := by
  cases h with
  | none => exact ⟨none, idleQuality, rfl, by intro _ e; simp at e, fun i _ => ⟨1, rfl⟩⟩
  | some h =>
    obtain ⟨w, n⟩ := hh h rfl
    obtain ⟨h', e, w', n', -⟩ := reset_counts h w n scan
    obtain ⟨h'', e', q⟩ := ahr_quality_defined h w n scan
    rw [e, Option.some.injEq] at e'
    subst e'
    refine ⟨some h', ahrQuality h' scan, by simp [qualityOf, e], ?_, fun i hi => ?_⟩
    · intro x hx
      rw [Option.some.injEq] at hx
      subst hx
      exact ⟨w', by omega⟩
    · obtain ⟨q, hq, -⟩ := q i hi
      exact ⟨q, hq⟩

/-- Adding a scan taken within reach succeeds. -/
theorem append_total {cfg : Cfg C M} {upd : C → Aoo ℝ → C} {proto : C} {init : M} (hL : Lawful cfg.api upd proto init)
    (hs : 0 < cfg.scale) (N : Int) (hok : ∀ v, |v| ≤ 6 * N → cfg.ok v = true) (hf : 4 * N + 2 ≤ cfg.fuel) (R X : ℝ)
    (hX : X + R ≤ cfg.scale * (N - 1)) (hR : 0 ≤ R) {m : M} (hm : Told cfg.api init m) {hist : Option Hist} (hh : HistOk hist)
    {scan : List ScanPoint} (h4 : ∀ sp ∈ scan, ∃ r a o, sp = .polar r a o 1 ∧ 0 ≤ r ∧ r ≤ R) {p' : Poses.Pose ℝ}
    (bx : |p'.x| ≤ X) (by' : |p'.y| ≤ X) (q : ℝ) (margin : Nat) (hmg : scan = [] ∨ margin < scan.length) :
    ∃ m' hist', cfg.append hist m p' scan q margin = some (m', hist') ∧ Told cfg.api init m' ∧ HistOk hist' := by
  obtain ⟨us0, hm0⟩ := hm
  unfold Cfg.append
  by_cases he : scan.isEmpty = true
  · rw [if_pos he]
    exact ⟨_, _, rfl, ⟨us0, hm0⟩, hh⟩
  · rw [if_neg he]
    have hne : scan ≠ [] := by simpa using he
    obtain ⟨h', k, q1, q2, q3⟩ := quality_total hist hh scan
    have hrob : InRange N cfg.scale ⟨p'.x, p'.y⟩ := cell_in_range cfg.scale hs N _ (by simp only; linarith) (by simp only; linarith)
    have hlen : (worldPoints ⟨p'.x, p'.y, p'.theta⟩ scan).length = scan.length := by simp [worldPoints]
    obtain ⟨us, i1, -⟩ := scan_insertion cfg.adder cfg.ok N hok cfg.scale hs ⟨p'.x, p'.y⟩ cfg.fuel hrob k q margin
      (worldPoints ⟨p'.x, p'.y, p'.theta⟩ scan) (by
        right
        rw [hlen]
        exact hmg.resolve_left hne)
      (fun i hi => q3 i (by rw [hlen] at hi; exact hi))
      (fun p hp => by
        obtain ⟨n1, n2⟩ := worldPoints_near ⟨p'.x, p'.y, p'.theta⟩ scan R h4 p hp
        have hin : InRange N cfg.scale p.at_ := cell_in_range cfg.scale hs N _ (by simp only at n1; linarith) (by simp only at n2; linarith)
        exact ⟨hin, fuel_in_range cfg.scale N _ _ hrob hin cfg.fuel hf⟩)
    obtain ⟨m', t1, -⟩ := hL (us0 ++ us)
    have t2 : cfg.api.tellAll m us = some m' := by
      rw [tellAll_append, hm0] at t1
      exact t1
    refine ⟨m', h', ?_, ⟨us0 ++ us, t1⟩, q2⟩
    rw [q1, Option.bind_some]
    simp only [i1, Option.bind_some, t2, Option.map_some]

/-- One message, answered by the matcher: with the robot within reach afterwards, it is handled. -/
theorem handle_total_at {cfg : Cfg C M} {upd : C → Aoo ℝ → C} {proto : C} {init : M} (hL : Lawful cfg.api upd proto init)
    (hs : 0 < cfg.scale) (N : Int) (hok : ∀ v, |v| ≤ 6 * N → cfg.ok v = true) (hf : 4 * N + 2 ≤ cfg.fuel) (R e X : ℝ)
    (hX : X + R ≤ cfg.scale * (N - 1)) (hR : 0 ≤ R) {s : St M} {d : Datum M} (hm : Told cfg.api init s.map)
    (hh : HistOk s.hist) (hg : GoodMsg cfg R d.msg)
    (ha : ∀ scan, ScanOf cfg d.msg scan → ∃ c, d.matcher scan (s.pose.add (d.odom.sub s.odom)) s.map = some c ∧
      |c.x| ≤ e ∧ |c.y| ≤ e)
    (hx : |s.pose.x + (d.odom.x - s.odom.x)| + e ≤ X) (hy : |s.pose.y + (d.odom.y - s.odom.y)| + e ≤ X) :
    ∃ s', s.handle cfg d = some s' ∧ Told cfg.api init s'.map ∧ HistOk s'.hist ∧ s'.odom = d.odom ∧
      |s'.pose.x - s'.odom.x| ≤ |s.pose.x - s.odom.x| + e ∧ |s'.pose.y - s'.odom.y| ≤ |s.pose.y - s.odom.y| + e := by
  obtain ⟨pts, scan, h1, h2, h3, h4⟩ := good_scan hg
  obtain ⟨c, h5, cx, cy⟩ := ha scan ⟨pts, h1, h2⟩
  set p' := (s.pose.add (d.odom.sub s.odom)).add c with hp'
  have px : p'.x = s.pose.x + (d.odom.x - s.odom.x) + c.x := rfl
  have py : p'.y = s.pose.y + (d.odom.y - s.odom.y) + c.y := rfl
  have bx : |p'.x| ≤ X := by
    rw [px]; linarith [abs_add_le (s.pose.x + (d.odom.x - s.odom.x)) c.x]
  have by' : |p'.y| ≤ X := by
    rw [py]; linarith [abs_add_le (s.pose.y + (d.odom.y - s.odom.y)) c.y]
  have ox : |p'.x - d.odom.x| ≤ |s.pose.x - s.odom.x| + e := by
    have : p'.x - d.odom.x = (s.pose.x - s.odom.x) + c.x := by rw [px]; ring
    rw [this]; linarith [abs_add_le (s.pose.x - s.odom.x) c.x]
  have oy : |p'.y - d.odom.y| ≤ |s.pose.y - s.odom.y| + e := by
    have : p'.y - d.odom.y = (s.pose.y - s.odom.y) + c.y := by rw [py]; ring
    rw [this]; linarith [abs_add_le (s.pose.y - s.odom.y) c.y]
  obtain ⟨m', hist', hap, ht, hh'⟩ := append_total hL hs N hok hf R X hX hR hm hh h4 bx by'
    (if c.toBool then cfg.props.localizedQuality else cfg.props.rawQuality) cfg.props.margin (by
      rcases hg.margin pts h1 with rfl | hmg
      · rw [List.length_nil, List.length_eq_zero_iff] at h3
        exact .inl h3
      · exact .inr (by omega))
  refine ⟨⟨d.odom, p', m', hist'⟩, ?_, ht, hh', rfl, ox, oy⟩
  unfold St.handle
  rw [h1, Option.bind_some, h2, Option.bind_some]
  simp only [observerStep]
  rw [h5, Option.bind_some]
  simp only [← hp', hap, Option.map_some]

/-- One message: with the robot within reach afterwards, it is handled. -/
theorem handle_total {cfg : Cfg C M} {upd : C → Aoo ℝ → C} {proto : C} {init : M} (hL : Lawful cfg.api upd proto init)
    (hs : 0 < cfg.scale) (N : Int) (hok : ∀ v, |v| ≤ 6 * N → cfg.ok v = true) (hf : 4 * N + 2 ≤ cfg.fuel) (R e X : ℝ)
    (hX : X + R ≤ cfg.scale * (N - 1)) (hR : 0 ≤ R) {s : St M} {d : Datum M} (hm : Told cfg.api init s.map)
    (hh : HistOk s.hist) (hg : GoodMsg cfg R d.msg) (ha : Answers cfg.api init e d)
    (hx : |s.pose.x + (d.odom.x - s.odom.x)| + e ≤ X) (hy : |s.pose.y + (d.odom.y - s.odom.y)| + e ≤ X) :
    ∃ s', s.handle cfg d = some s' ∧ Told cfg.api init s'.map ∧ HistOk s'.hist ∧ s'.odom = d.odom ∧
      |s'.pose.x - s'.odom.x| ≤ |s.pose.x - s.odom.x| + e ∧ |s'.pose.y - s'.odom.y| ≤ |s.pose.y - s.odom.y| + e := by
  exact handle_total_at hL hs N hok hf R e X hX hR hm hh hg (fun scan _ => ha scan _ _ hm) hx hy

/-- **The program does not fail (C80).** Messages without NaN ranges, whose angles fit together and which leave more points
than the margin; a scan matcher that always answers with corrections of at most `e`; odometry within `B` of its origin,
an initial offset from it within `A`: as long as the area reached (`A + n·e + B + R` in cells, for `n` messages) stays
within integers the traversal copes with (`N`), all messages are handled. No assertion fails, and no loop runs on. -/
theorem run_total {cfg : Cfg C M} {upd : C → Aoo ℝ → C} {proto : C} {init : M} (hL : Lawful cfg.api upd proto init)
    (hs : 0 < cfg.scale) (N : Int) (hok : ∀ v, |v| ≤ 6 * N → cfg.ok v = true) (hf : 4 * N + 2 ≤ cfg.fuel) (R e A B : ℝ)
    (hR : 0 ≤ R) (he : 0 ≤ e) (ds : List (Datum M)) (hN : A + ds.length * e + B + R ≤ cfg.scale * (N - 1)) {s : St M}
    (hm : Told cfg.api init s.map) (hh : HistOk s.hist) (hA : |s.pose.x - s.odom.x| ≤ A ∧ |s.pose.y - s.odom.y| ≤ A)
    (hd : ∀ d ∈ ds, GoodMsg cfg R d.msg ∧ Answers cfg.api init e d ∧ |d.odom.x| ≤ B ∧ |d.odom.y| ≤ B) :
    ∃ s', s.run cfg ds = some s' := by
  induction ds generalizing s A with
  | nil => exact ⟨s, rfl⟩
  | cons d ds ih =>
    obtain ⟨g, a, b1, b2⟩ := hd d (by simp)
    simp only [List.length_cons, Nat.cast_add, Nat.cast_one] at hN
    have hlen : (0 : ℝ) ≤ ds.length * e := mul_nonneg (Nat.cast_nonneg _) he
    have hx : |s.pose.x + (d.odom.x - s.odom.x)| ≤ A + B := by
      have : s.pose.x + (d.odom.x - s.odom.x) = (s.pose.x - s.odom.x) + d.odom.x := by ring
      rw [this]; linarith [abs_add_le (s.pose.x - s.odom.x) d.odom.x]
    have hy : |s.pose.y + (d.odom.y - s.odom.y)| ≤ A + B := by
      have : s.pose.y + (d.odom.y - s.odom.y) = (s.pose.y - s.odom.y) + d.odom.y := by ring
      rw [this]; linarith [abs_add_le (s.pose.y - s.odom.y) d.odom.y]
    obtain ⟨s1, h1, h2, h3, h4, h5, h6⟩ := handle_total hL hs N hok hf R e (A + B + e) (by nlinarith) hR hm hh g a
      (by linarith) (by linarith)
    obtain ⟨s', h'⟩ := ih (A + e) (by nlinarith) h2 h3 ⟨by linarith, by linarith⟩ fun d' hd' => hd d' (by simp [hd'])
    refine ⟨s', ?_⟩
    change (s.handle cfg d).bind _ = _
    rw [h1]
    exact h'

end Slam.Whole
