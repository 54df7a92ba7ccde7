import Verif.Whole.Fixed

/-!
# C96: the program on a map of fixed size
-/

set_option autoImplicit false
set_option linter.unusedSectionVars false

namespace Slam.Whole
open Slam.Grid Slam.Cells Slam.Poses Slam.Sensor Slam.Score Slam.ScanAdder Slam.Worlds Slam.Tbm Slam.Matcher Slam.Line
open Slam.ScanMatch (Enumerator FirstMax monteCarlo MCState ImprovesIn)

variable {C M M' T : Type}

/-! ## What a scan writes does not depend on the map -/

/-- What `append_scan` writes. -/
noncomputable def Cfg.writes (cfg : Cfg C M) (hist : Option Hist) (pose : Poses.Pose ℝ) (scan : List ScanPoint) (quality : ℝ)
    (margin : Nat) : Option (List (Coord × Aoo ℝ) × Option Hist) :=
  if scan.isEmpty then some ([], hist)
  else
    (qualityOf scan hist).bind fun q =>
      (cfg.adder.appendScan cfg.ok cfg.fuel cfg.scale ⟨pose.x, pose.y⟩ q.2 quality (margin : ℝ)
        (worldPoints ⟨pose.x, pose.y, pose.theta⟩ scan)).map fun us => (us, q.1)

theorem append_writes (cfg : Cfg C M) (hist : Option Hist) (m : M) (pose : Poses.Pose ℝ) (scan : List ScanPoint) (quality : ℝ)
    (margin : Nat) : cfg.append hist m pose scan quality margin =
      (cfg.writes hist pose scan quality margin).bind fun r => (cfg.api.tellAll m r.1).map fun m => (m, r.2) := by
  unfold Cfg.append Cfg.writes
  by_cases he : scan.isEmpty = true
  · rw [if_pos he, if_pos he]
    rfl
  · rw [if_neg he, if_neg he]
    cases qualityOf scan hist with
    | none => rfl
    | some q =>
      simp only [Option.bind_some]
      cases cfg.adder.appendScan cfg.ok cfg.fuel cfg.scale ⟨pose.x, pose.y⟩ q.2 quality (margin : ℝ)
        (worldPoints ⟨pose.x, pose.y, pose.theta⟩ scan) with
      | none => rfl
      | some us => rfl

theorem writes_inserted {cfg : Cfg C M} {hist : Option Hist} {pose : Poses.Pose ℝ} {scan : List ScanPoint} {quality : ℝ}
    {margin : Nat} {r : List (Coord × Aoo ℝ) × Option Hist} (h : cfg.writes hist pose scan quality margin = some r) :
    Inserted cfg pose scan quality margin r.1 := by
  unfold Cfg.writes at h
  by_cases he : scan.isEmpty = true
  · rw [if_pos he, Option.some.injEq] at h
    subst h
    exact .inl ⟨by simpa using he, rfl⟩
  · rw [if_neg he] at h
    simp only [Option.bind_eq_some_iff, Option.map_eq_some_iff] at h
    obtain ⟨q, h1, us, h2, rfl⟩ := h
    exact .inr ⟨by simpa using he, hist, q.1, q.2, h1, h2⟩

theorem twin_writes {cfg : MachCfg C M T} {cfg' : MachCfg C M' T} (tw : Twin cfg cfg') (hist : Option Hist) (pose : Poses.Pose ℝ)
    (scan : List ScanPoint) (quality : ℝ) (margin : Nat) :
    cfg'.slam.writes hist pose scan quality margin = cfg.slam.writes hist pose scan quality margin := by
  unfold Cfg.writes
  rw [tw.adder, tw.ok, tw.fuel, tw.scale]

/-! ## Corresponding states -/

/-- The two programs have been through the same, all of it within the map. -/
structure Same (cfg : MachCfg C M T) (cfg' : MachCfg C M' T) (init : M) (init' : M') (w h : Nat) (s : Mach M T)
    (s' : Mach M' T) : Prop where
  pose : s'.st.pose = s.st.pose
  odom : s'.st.odom = s.st.odom
  hist : s'.st.hist = s.st.hist
  weights : s'.weights = s.weights
  state : s'.state = s.state
  maps : ∃ us, (∀ u ∈ us, Within w h u.1) ∧ cfg.slam.api.tellAll init us = some s.st.map ∧
    cfg'.slam.api.tellAll init' us = some s'.st.map

section
variable {cfg : MachCfg C M T} {cfg' : MachCfg C M' T} {init : M} {init' : M'} {w h : Nat} {upd : C → Aoo ℝ → C} {proto : C}
  {s : Mach M T} {s' : Mach M' T}

theorem same_alike (hL : Lawful cfg.slam.api upd proto init) (hF : Holds cfg' upd proto w h init')
    (hs : Same cfg cfg' init init' w h s s') : Alike cfg cfg' proto w h s s' := by
  obtain ⟨us, h1, h2, h3⟩ := hs.maps
  obtain ⟨m, e1, e2⟩ := hL us
  rw [h2, Option.some.injEq] at e1
  subst e1
  obtain ⟨m', f1, f2, f3⟩ := hF us h1
  rw [h3, Option.some.injEq] at f1
  subst f1
  refine ⟨hs.pose, hs.odom, hs.hist, hs.weights, hs.state, fun c hc => ⟨_, f3 c hc, e2 c⟩, fun c hc => ?_, f2⟩
  rw [e2 c]
  have : about c us = [] := by
    unfold about
    rw [List.map_eq_nil_iff, List.filter_eq_nil_iff]
    intro u hu
    have := h1 u hu
    simp only [decide_eq_true_eq]
    rintro rfl
    exact hc this
  rw [this]
  rfl

theorem same_start (hF : Holds cfg' upd proto w h init') (hm : s.st.map = init) (hm' : s'.st.map = init')
    (h1 : s'.st.pose = s.st.pose) (h2 : s'.st.odom = s.st.odom) (h3 : s'.st.hist = s.st.hist) (h4 : s'.weights = s.weights)
    (h5 : s'.state = s.state) : Same cfg cfg' init init' w h s s' :=
  ⟨h1, h2, h3, h4, h5, [], by simp, by rw [hm]; rfl, by rw [hm']; rfl⟩

/-- The cells the program looks up on the way. -/
theorem fixed_hasCell (ha : Alike cfg cfg' proto w h s s') (c : Coord) :
    (cfg'.fixedView s'.st.map).hasCell c = true ↔ Within w h c := by
  simp only [MachCfg.fixedView, ha.dims.1, ha.dims.2]
  exact within_iff w h c

/-- A message handled on the growing map is handled on that of fixed size if the matching is the same. -/
theorem handle_on_fixed_of (tw : Twin cfg cfg') (hF : Holds cfg' upd proto w h init')
    (hs : Same cfg cfg' init init' w h s s') {d : Poses.Pose ℝ × Msg ℝ} {s1 : Mach M T} (h1 : s.handle cfg d = some s1)
    (hmat : ∀ scan, ScanOf cfg.slam d.2 scan → ∀ r, cfg.machine.process (cfg.view s.st.map) s.weights (cfg.machine.reset s.state) scan
        (s.st.pose.add (d.1.sub s.st.odom)) = some r →
      cfg.machine.process (cfg'.fixedView s'.st.map) s.weights (cfg.machine.reset s.state) scan
        (s.st.pose.add (d.1.sub s.st.odom)) = some r)
    (hwr : ∀ scan quality us, ScanOf cfg.slam d.2 scan →
      Inserted cfg.slam s1.st.pose scan quality cfg.slam.props.margin us → ∀ u ∈ us, Within w h u.1) :
    ∃ s1', s'.handleFixed cfg' d = some s1' ∧ Same cfg cfg' init init' w h s1 s1' := by
  simp only [Mach.handle, Option.bind_eq_some_iff, Option.map_eq_some_iff] at h1
  obtain ⟨pts, e1, scan, e2, r, e3, a, e4, rfl⟩ := h1
  have hscan : ScanOf cfg.slam d.2 scan := ⟨pts, e1, e2⟩
  have e3' : cfg'.machine.process (cfg'.fixedView s'.st.map) s'.weights (cfg'.machine.reset s'.state) scan
      (s'.st.pose.add (observerStep s'.st.odom d.1).2) = some r := by
    rw [tw.machine, hs.weights, hs.state, hs.pose, hs.odom]
    exact hmat scan hscan r e3
  rw [append_writes, Option.bind_eq_some_iff] at e4
  obtain ⟨us, u1, u2⟩ := e4
  rw [Option.map_eq_some_iff] at u2
  obtain ⟨m1, u2, rfl⟩ := u2
  have hus := hwr scan _ us.1 hscan (writes_inserted u1)
  obtain ⟨vs, v1, v2, v3⟩ := hs.maps
  have hall : ∀ u ∈ vs ++ us.1, Within w h u.1 := by
    intro u hu
    rcases List.mem_append.1 hu with hu | hu
    · exact v1 u hu
    · exact hus u hu
  obtain ⟨m1', f1, -⟩ := hF (vs ++ us.1) hall
  have f1' := f1
  rw [tellAll_append, v3, Option.bind_some] at f1'
  refine ⟨⟨⟨(observerStep s'.st.odom d.1).1, (s'.st.pose.add (observerStep s'.st.odom d.1).2).add r.2.2.1, m1', us.2⟩, r.1, r.2.1⟩,
    ?_, ?_⟩
  · unfold Mach.handleFixed Mach.handleSeeing
    rw [tw.skipMax, tw.tol, e1, Option.bind_some, e2, Option.bind_some]
    simp only [e3', Option.bind_some, append_writes, twin_writes tw, tw.props, hs.hist]
    rw [hs.pose, hs.odom]
    change (Option.bind (cfg.slam.writes s.st.hist _ scan _ cfg.slam.props.margin) _).map _ = _
    rw [u1, Option.bind_some, f1', Option.map_some, Option.map_some]
  · refine ⟨by rw [hs.pose, hs.odom], rfl, rfl, rfl, rfl, vs ++ us.1, hall, ?_, f1⟩
    rw [tellAll_append, v2]
    exact u2

/-- **From the growing map to that of fixed size**: a message handled there is handled here. -/
theorem handle_on_fixed (tw : Twin cfg cfg') (hL : Lawful cfg.slam.api upd proto init) (hF : Holds cfg' upd proto w h init')
    {D : Poses.Pose ℝ → Poses.Pose ℝ → Prop} (hread : cfg.machine.Reads D) (hs : Same cfg cfg' init init' w h s s')
    {d : Poses.Pose ℝ × Msg ℝ} {s1 : Mach M T} (h1 : s.handle cfg d = some s1)
    (hseen : ∀ scan, ScanOf cfg.slam d.2 scan → ∀ q, q = s.st.pose.add (d.1.sub s.st.odom) ∨
      D (s.st.pose.add (d.1.sub s.st.odom)) q → ∀ sp ∈ scan, Within w h (worldToCell cfg.slam.scale (seenAt q sp)))
    (hwr : ∀ scan quality us, ScanOf cfg.slam d.2 scan →
      Inserted cfg.slam s1.st.pose scan quality cfg.slam.props.margin us → ∀ u ∈ us, Within w h u.1) :
    ∃ s1', s'.handleFixed cfg' d = some s1' ∧ Same cfg cfg' init init' w h s1 s1' := by
  have ha := same_alike hL hF hs
  refine handle_on_fixed_of tw hF hs h1 (fun scan hscan r hr => ?_) hwr
  have hin := hseen scan hscan
  refine hread (cfg.view s.st.map) _ _ _ _ _ _ tw.scale.symm ?_ ?_ hr
  · intro sp hsp
    exact ((fixed_hasCell ha _).2 (hin _ (.inl rfl) sp hsp)).symm
  · intro q hq sp hsp x hx
    obtain ⟨cell, c1, c2⟩ := ha.inside _ (hin q (.inr hq) sp hsp)
    change cfg.slam.api.read s.st.map _ = some x at hx
    rw [← hx]
    exact c1.trans c2.symm

/-- **From the map of fixed size to the growing one**, if the former refuses what is outside it. -/
theorem handle_on_growing (tw : Twin cfg cfg') (hL : Lawful cfg.slam.api upd proto init) (hF : Holds cfg' upd proto w h init')
    (hR : Refuses cfg' w h init') (hread : cfg.machine.Reads fun _ _ => True) (hs : Same cfg cfg' init init' w h s s')
    {d : Poses.Pose ℝ × Msg ℝ} {s1' : Mach M' T} (h1 : s'.handleFixed cfg' d = some s1')
    (hseen : ∀ scan, ScanOf cfg.slam d.2 scan → ∀ sp ∈ scan,
      Within w h (worldToCell cfg.slam.scale (seenAt (s.st.pose.add (d.1.sub s.st.odom)) sp))) :
    ∃ s1, s.handle cfg d = some s1 ∧ Same cfg cfg' init init' w h s1 s1' := by
  have ha := same_alike hL hF hs
  simp only [Mach.handleFixed, Mach.handleSeeing, Option.bind_eq_some_iff, Option.map_eq_some_iff] at h1
  obtain ⟨pts, e1, scan, e2, r, e3, a, e4, rfl⟩ := h1
  rw [tw.skipMax, tw.tol] at e1
  have hscan : ScanOf cfg.slam d.2 scan := ⟨pts, e1, e2⟩
  have hin := hseen scan hscan
  obtain ⟨vs, v1, v2, v3⟩ := hs.maps
  have e3' : cfg.machine.process (cfg.view s.st.map) s.weights (cfg.machine.reset s.state) scan
      (s.st.pose.add (observerStep s.st.odom d.1).2) = some r := by
    rw [tw.machine, hs.weights, hs.state, hs.pose, hs.odom] at e3
    refine hread (cfg'.fixedView s'.st.map) _ _ _ _ _ _ tw.scale ?_ ?_ e3
    · intro sp hsp
      refine (fixed_hasCell ha _).2 ?_
      have : (cfg'.fixedView s'.st.map).scale = cfg.slam.scale := tw.scale
      rw [this]
      exact hin sp hsp
    · intro q _ sp _ x hx
      change cfg'.slam.api.read s'.st.map _ = some x at hx
      by_cases hc : Within w h (worldToCell (cfg'.fixedView s'.st.map).scale (seenAt q sp))
      · obtain ⟨cell, c1, c2⟩ := ha.inside _ hc
        rw [← hx]
        exact c2.trans c1.symm
      · rw [(hR vs _ v3).2 _ hc] at hx
        cases hx
  rw [append_writes, Option.bind_eq_some_iff] at e4
  obtain ⟨us, u1, u2⟩ := e4
  rw [Option.map_eq_some_iff] at u2
  obtain ⟨m1, u2, rfl⟩ := u2
  have hall : cfg'.slam.api.tellAll init' (vs ++ us.1) = some m1 := by
    rw [tellAll_append, v3]
    exact u2
  have hin' := (hR _ _ hall).1
  obtain ⟨m1', f1, -⟩ := hL (vs ++ us.1)
  have f1' := f1
  rw [tellAll_append, v2, Option.bind_some] at f1'
  refine ⟨⟨⟨(observerStep s.st.odom d.1).1, (s.st.pose.add (observerStep s.st.odom d.1).2).add r.2.2.1, m1', us.2⟩, r.1, r.2.1⟩,
    ?_, ?_⟩
  · rw [handle_seeing]
    unfold Mach.handleSeeing
    rw [e1, Option.bind_some, e2, Option.bind_some]
    rw [twin_writes tw, tw.props, hs.hist, hs.pose, hs.odom] at u1
    simp only [e3', Option.bind_some, append_writes]
    rw [u1, Option.bind_some, f1', Option.map_some, Option.map_some]
  · refine ⟨by rw [hs.pose, hs.odom], rfl, rfl, rfl, rfl, vs ++ us.1, hin', f1, hall⟩

end

/-! ## Within reach -/

theorem within_square (N : Int) (w h : Nat) (hw : 2 * N + 1 ≤ w) (hh : 2 * N + 1 ≤ h) (c : Coord) (hx : |c.x| ≤ N) (hy : |c.y| ≤ N) :
    Within w h c := by
  rw [abs_le] at hx hy
  unfold Within
  omega

theorem within_between {w h : Nat} {a b c : Coord} (ha : Within w h a) (hb : Within w h b) (hc : Between a b c) :
    Within w h c := by
  unfold Within Between at *
  omega

theorem worldPoints_seenAt (p : Poses.Pose ℝ) (scan : List ScanPoint) {q : WPoint ℝ}
    (hq : q ∈ worldPoints ⟨p.x, p.y, p.theta⟩ scan) : ∃ sp ∈ scan, q.at_ = seenAt p sp := by
  rw [worldPoints_rigid, List.mem_map] at hq
  obtain ⟨sp, hsp, rfl⟩ := hq
  refine ⟨sp, hsp, ?_⟩
  simp only [seenAt, Grid.Point.mk.injEq]
  exact ⟨by ring, by ring⟩

/-- **Beams between cells of the map are within the map (C96).** -/
theorem inserted_within {cfg : Cfg C M} (N : Int) (hok : ∀ v, |v| ≤ 6 * N → cfg.ok v = true) (hf : 4 * N + 2 ≤ cfg.fuel)
    {w h : Nat} {p : Poses.Pose ℝ} {scan : List ScanPoint} {quality : ℝ} {margin : Nat} {us : List (Coord × Aoo ℝ)}
    (hi : Inserted cfg p scan quality margin us)
    (hr : InRange N cfg.scale ⟨p.x, p.y⟩) (hr' : Within w h (worldToCell cfg.scale ⟨p.x, p.y⟩))
    (hp : ∀ sp ∈ scan, InRange N cfg.scale (seenAt p sp)) (hp' : ∀ sp ∈ scan, Within w h (worldToCell cfg.scale (seenAt p sp))) :
    ∀ u ∈ us, Within w h u.1 := by
  rcases hi with ⟨-, rfl⟩ | ⟨-, h1, h1', k, -, hi⟩
  · simp
  · intro u hu
    obtain ⟨q, hq, cells, hc, hu⟩ := appendScan_cells hi u hu
    obtain ⟨sp, hsp, e⟩ := worldPoints_seenAt p scan hq
    rw [e] at hc
    have hin := hp sp hsp
    refine within_between hr' (hp' sp hsp) ?_
    exact world_to_cells_in_box cfg.ok N hok (ScanAdder.exactFP cfg.scale) cfg.scale p.x p.y (seenAt p sp).x (seenAt p sp).y cfg.fuel
      hr.1 hr.2 hin.1 hin.2 (fuel_in_range cfg.scale N _ _ hr hin cfg.fuel hf) hc u.1 hu

theorem point_seen_near {p : Poses.Pose ℝ} {scan : List ScanPoint} {R : ℝ}
    (h : ∀ sp ∈ scan, ∃ r a o, sp = .polar r a o 1 ∧ 0 ≤ r ∧ r ≤ R) :
    ∀ sp ∈ scan, |(seenAt p sp).x| ≤ |p.x| + R ∧ |(seenAt p sp).y| ≤ |p.y| + R := by
  intro sp hsp
  have := worldPoints_near ⟨p.x, p.y, p.theta⟩ scan R h
    ⟨⟨Real.cos p.theta * sp.x - Real.sin p.theta * sp.y + p.x, Real.sin p.theta * sp.x + Real.cos p.theta * sp.y + p.y⟩, sp.occupied⟩
    (by rw [worldPoints_rigid, List.mem_map]; exact ⟨sp, hsp, rfl⟩)
  have e : seenAt p sp = ⟨Real.cos p.theta * sp.x - Real.sin p.theta * sp.y + p.x,
      Real.sin p.theta * sp.x + Real.cos p.theta * sp.y + p.y⟩ := by
    simp only [seenAt, Grid.Point.mk.injEq]
    exact ⟨by ring, by ring⟩
  rw [e]
  exact this

/-! ## Histories -/

section
variable {k : CellKind} {i : Impact} {cfg : MachCfg k.Cell M T} {cfg' : MachCfg k.Cell M' T} {init : M} {init' : M'} {w h : Nat}

/-- **A map of fixed size is as good as a growing one while everything stays within it (C96).** Let the matcher look at the map,
and move the robot, by at most `b` along each axis; let the messages be ready for the program with ranges up to `R`, the odometry
within `B` of its origin, and the initial offset within `A`. If the area reached is within `N` cells, and the map has `N` cells in
each direction, both programs handle all messages and end alike. -/
theorem fixed_as_growing (hc : MachStarted k i cfg init) (tw : Twin cfg cfg') (hF : Holds cfg' k.upd k.proto w h init')
    (b : ℝ) (hb : 0 ≤ b) (hm : cfg.machine.Safe cfg.matcher.imp b) (hread : cfg.machine.Reads (Near b))
    (N : Int) (hok : ∀ v, |v| ≤ 6 * N → cfg.slam.ok v = true) (hf : 4 * N + 2 ≤ cfg.slam.fuel)
    (hw : 2 * N + 1 ≤ w) (hh : 2 * N + 1 ≤ h) (R A B : ℝ) (hR : 0 ≤ R) (ds : List (Poses.Pose ℝ × Msg ℝ))
    (hN : A + ds.length * b + B + R ≤ cfg.slam.scale * (N - 1))
    {s : Mach M T} {s' : Mach M' T} (hs : MachSound cfg init s) (hss : Same cfg cfg' init init' w h s s') (hhi : HistOk s.st.hist)
    (hA : |s.st.pose.x - s.st.odom.x| ≤ A ∧ |s.st.pose.y - s.st.odom.y| ≤ A)
    (hd : ∀ d ∈ ds, GoodMsg cfg.slam R d.2 ∧ |d.1.x| ≤ B ∧ |d.1.y| ≤ B) :
    ∃ s1 s1', s.run cfg ds = some s1 ∧ s'.runFixed cfg' ds = some s1' ∧ Same cfg cfg' init init' w h s1 s1' := by
  induction ds generalizing s s' A with
  | nil => exact ⟨s, s', rfl, rfl, hss⟩
  | cons d ds ih =>
    obtain ⟨g, b1, b2⟩ := hd d (by simp)
    simp only [List.length_cons, Nat.cast_add, Nat.cast_one] at hN
    have hlen : (0 : ℝ) ≤ ds.length * b := mul_nonneg (Nat.cast_nonneg _) hb
    have hx : |s.st.pose.x + (d.1.x - s.st.odom.x)| ≤ A + B := by
      have : s.st.pose.x + (d.1.x - s.st.odom.x) = (s.st.pose.x - s.st.odom.x) + d.1.x := by ring
      rw [this]; linarith [abs_add_le (s.st.pose.x - s.st.odom.x) d.1.x]
    have hy : |s.st.pose.y + (d.1.y - s.st.odom.y)| ≤ A + B := by
      have : s.st.pose.y + (d.1.y - s.st.odom.y) = (s.st.pose.y - s.st.odom.y) + d.1.y := by ring
      rw [this]; linarith [abs_add_le (s.st.pose.y - s.st.odom.y) d.1.y]
    have hX : A + B + b + R ≤ cfg.slam.scale * (N - 1) := by nlinarith
    obtain ⟨s1, h1, h3, h4, h5, h6⟩ := mach_handle_total hc b hm N hok hf R (A + B + b) hX hR hs hhi d g (by linarith)
      (by linarith)
    obtain ⟨pts, scan, g1, g2, -, g4⟩ := good_scan g
    have huniq : ∀ scan', ScanOf cfg.slam d.2 scan' → scan' = scan := by
      rintro scan' ⟨pts', k1, k2⟩
      rw [g1, Option.some.injEq] at k1
      subst k1
      rw [g2, Option.some.injEq] at k2
      exact k2.symm
    have hreach : ∀ q : Poses.Pose ℝ, |q.x| ≤ A + B + b → |q.y| ≤ A + B + b →
        (InRange N cfg.slam.scale ⟨q.x, q.y⟩ ∧ Within w h (worldToCell cfg.slam.scale ⟨q.x, q.y⟩)) ∧
        ∀ sp ∈ scan, InRange N cfg.slam.scale (seenAt q sp) ∧ Within w h (worldToCell cfg.slam.scale (seenAt q sp)) := by
      intro q q1 q2
      have hq : InRange N cfg.slam.scale ⟨q.x, q.y⟩ :=
        cell_in_range cfg.slam.scale hc.scale N _ (by simp only; linarith) (by simp only; linarith)
      refine ⟨⟨hq, within_square N w h hw hh _ hq.1 hq.2⟩, fun sp hsp => ?_⟩
      obtain ⟨n1, n2⟩ := point_seen_near (p := q) g4 sp hsp
      have hin : InRange N cfg.slam.scale (seenAt q sp) :=
        cell_in_range cfg.slam.scale hc.scale N _ (by linarith) (by linarith)
      exact ⟨hin, within_square N w h hw hh _ hin.1 hin.2⟩
    have hp1 : |s1.st.pose.x| ≤ A + B + b ∧ |s1.st.pose.y| ≤ A + B + b := by
      rw [h4] at h5 h6
      have e1 : s1.st.pose.x = (s1.st.pose.x - d.1.x) + d.1.x := by ring
      have e2 : s1.st.pose.y = (s1.st.pose.y - d.1.y) + d.1.y := by ring
      have a1 := abs_add_le (s1.st.pose.x - d.1.x) d.1.x
      have a2 := abs_add_le (s1.st.pose.y - d.1.y) d.1.y
      rw [← e1] at a1
      rw [← e2] at a2
      exact ⟨by linarith [hA.1], by linarith [hA.2]⟩
    obtain ⟨s1', f1, f2⟩ := handle_on_fixed tw hc.lawful hF hread hss h1 (by
        intro scan' hscan' q hq sp hsp
        rw [huniq scan' hscan'] at hsp
        have hp : ∀ q : Poses.Pose ℝ, Near b (s.st.pose.add (d.1.sub s.st.odom)) q → |q.x| ≤ A + B + b ∧ |q.y| ≤ A + B + b := by
          rintro q ⟨q1, q2⟩
          have e1 : q.x = (q.x - (s.st.pose.add (d.1.sub s.st.odom)).x) + (s.st.pose.x + (d.1.x - s.st.odom.x)) := by
            simp only [Poses.Pose.add, Poses.Pose.sub]; ring
          have e2 : q.y = (q.y - (s.st.pose.add (d.1.sub s.st.odom)).y) + (s.st.pose.y + (d.1.y - s.st.odom.y)) := by
            simp only [Poses.Pose.add, Poses.Pose.sub]; ring
          have a1 := abs_add_le (q.x - (s.st.pose.add (d.1.sub s.st.odom)).x) (s.st.pose.x + (d.1.x - s.st.odom.x))
          have a2 := abs_add_le (q.y - (s.st.pose.add (d.1.sub s.st.odom)).y) (s.st.pose.y + (d.1.y - s.st.odom.y))
          rw [← e1] at a1
          rw [← e2] at a2
          exact ⟨by linarith, by linarith⟩
        have hq' : Near b (s.st.pose.add (d.1.sub s.st.odom)) q := by
          rcases hq with rfl | hq
          · simp [Near, hb]
          · exact hq
        exact ((hreach q (hp q hq').1 (hp q hq').2).2 sp hsp).2)
      (by
        intro scan' quality us hscan' hins
        rw [huniq scan' hscan'] at hins
        obtain ⟨r1, r2⟩ := hreach s1.st.pose hp1.1 hp1.2
        exact inserted_within N hok hf hins r1.1 r1.2 (fun sp hsp => (r2 sp hsp).1) fun sp hsp => (r2 sp hsp).2)
    obtain ⟨s2, s2', k1, k2, k3⟩ := ih (A + b) (by nlinarith) (mach_handle_sound hc hs h1) f2 h3 ⟨by linarith [hA.1], by linarith [hA.2]⟩
      fun d' hd' => hd d' (by simp [hd'])
    refine ⟨s2, s2', ?_, ?_, k3⟩
    · change (s.handle cfg d).bind _ = _
      rw [h1]
      exact k1
    · change (s'.handleFixed cfg' d).bind _ = _
      rw [f1]
      exact k2

end

/-- The points of the scan of every message, seen from the pose the odometry predicts for it, are within the map. -/
def PointsWithin (cfg : MachCfg C M T) (w h : Nat) (s : Mach M T) (ds : List (Poses.Pose ℝ × Msg ℝ)) : Prop :=
  ∀ ds1 d ds2 s1, ds = ds1 ++ d :: ds2 → s.runFixed cfg ds1 = some s1 → ∀ scan, ScanOf cfg.slam d.2 scan → ∀ sp ∈ scan,
    Within w h (worldToCell cfg.slam.scale (seenAt (s1.st.pose.add (d.1.sub s1.st.odom)) sp))

/-- **The plain map of fixed size never gives another result than the growing one (C96).** Whatever the matcher: if the program on
a map that refuses what is outside it handles all messages, and their points, seen from the poses the odometry predicts, are
within the map, then the program on the growing map handles them, too, and ends alike. -/
theorem fixed_success_as_growing {cfg : MachCfg C M T} {cfg' : MachCfg C M' T} {init : M} {init' : M'} {w h : Nat}
    {upd : C → Aoo ℝ → C} {proto : C} (tw : Twin cfg cfg') (hL : Lawful cfg.slam.api upd proto init)
    (hF : Holds cfg' upd proto w h init') (hR : Refuses cfg' w h init') (hread : cfg.machine.Reads fun _ _ => True)
    (ds : List (Poses.Pose ℝ × Msg ℝ)) {s : Mach M T} {s' s1' : Mach M' T} (hss : Same cfg cfg' init init' w h s s')
    (hrun : s'.runFixed cfg' ds = some s1') (hpts : PointsWithin cfg' w h s' ds) :
    ∃ s1, s.run cfg ds = some s1 ∧ Same cfg cfg' init init' w h s1 s1' := by
  induction ds generalizing s s' with
  | nil =>
    simp only [Mach.runFixed, Option.some.injEq] at hrun
    subst hrun
    exact ⟨s, rfl, hss⟩
  | cons d ds ih =>
    simp only [Mach.runFixed, Option.bind_eq_some_iff] at hrun
    obtain ⟨t', h1, h2⟩ := hrun
    obtain ⟨t, k1, k2⟩ := handle_on_growing tw hL hF hR hread hss h1 (by
      rintro scan ⟨pts, e1, e2⟩ sp hsp
      have := hpts [] d ds s' rfl rfl scan ⟨pts, by rw [tw.skipMax, tw.tol]; exact e1, e2⟩ sp hsp
      rw [tw.scale, hss.pose, hss.odom] at this
      exact this)
    obtain ⟨s1, g1, g2⟩ := ih k2 h2 (by
      intro ds1 d' ds2 s1 e hr
      refine hpts (d :: ds1) d' ds2 s1 (by rw [e]; rfl) ?_
      change (s'.handleFixed cfg' d).bind _ = _
      rw [h1]
      exact hr)
    refine ⟨s1, ?_, g2⟩
    change (s.handle cfg d).bind _ = _
    rw [k1]
    exact g1

/-! ## Leaving the map -/

theorem insertAll_parts {A : Adder ℝ} {ok : Int → Bool} {fuel : Nat} {scale : ℝ} {robot : Grid.Point ℝ}
    {q : Nat → Option ℝ} {sq : ℝ} {pts : List (WPoint ℝ)} (is : List Nat) : ∀ {us : List (Coord × Aoo ℝ)},
    A.insertAll ok fuel scale robot q sq pts is = some us → ∀ i ∈ is, ∀ p, pts[i]? = some p →
      ∃ v vs, A.beamUpdates ok fuel scale p.occ v ⟨robot, p.at_⟩ = some vs ∧ ∀ u ∈ vs, u ∈ us := by
  induction is with
  | nil => simp
  | cons j is ih =>
    intro us h i hi p hp
    simp only [Adder.insertAll, Option.bind_eq_some_iff, Option.map_eq_some_iff] at h
    obtain ⟨p', hp', v, hv, us1, h1, us2, h2, rfl⟩ := h
    rcases List.mem_cons.1 hi with rfl | hi
    · rw [hp, Option.some.injEq] at hp'
      subst hp'
      exact ⟨_, us1, h1, fun u hu => List.mem_append_left _ hu⟩
    · obtain ⟨v', vs, g1, g2⟩ := ih h2 i hi p hp
      exact ⟨v', vs, g1, fun u hu => List.mem_append_right _ (g2 u hu)⟩

theorem beam_all_cells {A : Adder ℝ} {ok : Int → Bool} {fuel : Nat} {scale : ℝ} {isOcc : Bool} {q : ℝ} {beam : Beam ℝ}
    {us : List (Coord × Aoo ℝ)} (h : A.beamUpdates ok fuel scale isOcc q beam = some us) (hl : A.tooLong beam = false) :
    ∃ cells, worldToCells ok (ScanAdder.exactFP scale) fuel scale beam.beg.x beam.beg.y beam.fin.x beam.fin.y = some cells ∧
      ∀ c ∈ cells, ∃ u ∈ us, u.1 = c := by
  unfold Adder.beamUpdates at h
  rw [if_neg (by simp [hl])] at h
  simp only [Option.bind_eq_some_iff, Option.map_eq_some_iff] at h
  obtain ⟨pts, hp, last, hlast, rfl⟩ := h
  refine ⟨pts, hp, fun c hc => ?_⟩
  rw [← List.dropLast_append_getLast? last hlast, List.mem_append, List.mem_singleton] at hc
  rcases hc with hc | rfl
  · exact ⟨_, List.mem_cons_of_mem _ (List.mem_map_of_mem hc), rfl⟩
  · exact ⟨_, List.mem_cons_self, rfl⟩

/-- Only maps that were told observations are reached. -/
theorem fixed_run_told {cfg : MachCfg C M T} {init : M} (ds : List (Poses.Pose ℝ × Msg ℝ)) {s s1 : Mach M T}
    (hs : Told cfg.slam.api init s.st.map) (h : s.runFixed cfg ds = some s1) : Told cfg.slam.api init s1.st.map := by
  induction ds generalizing s with
  | nil =>
    simp only [Mach.runFixed, Option.some.injEq] at h
    subst h
    exact hs
  | cons d ds ih =>
    simp only [Mach.runFixed, Option.bind_eq_some_iff] at h
    obtain ⟨t, h1, h2⟩ := h
    refine ih ?_ h2
    simp only [Mach.handleFixed, Mach.handleSeeing, Option.bind_eq_some_iff, Option.map_eq_some_iff] at h1
    obtain ⟨pts, -, scan, -, r, -, a, e4, rfl⟩ := h1
    rw [append_writes, Option.bind_eq_some_iff] at e4
    obtain ⟨us, -, u2⟩ := e4
    rw [Option.map_eq_some_iff] at u2
    obtain ⟨m1, u2, rfl⟩ := u2
    obtain ⟨vs, hv⟩ := hs
    exact ⟨vs ++ us.1, by rw [tellAll_append, hv]; exact u2⟩

/-- **The plain map of fixed size stops the program when a beam leaves it (C96).** After any history: if a message is handled, then
every beam of its scan that is used (not in the margin, not longer than the range the scan adder is limited to) runs, from the
robot to its end, within the map. -/
theorem fixed_stops_outside {cfg : MachCfg C M T} {init : M} {w h : Nat} (hR : Refuses cfg w h init)
    (ds : List (Poses.Pose ℝ × Msg ℝ)) {s s1 s2 : Mach M T} (hs : s.st.map = init) (h1 : s.runFixed cfg ds = some s1)
    (d : Poses.Pose ℝ × Msg ℝ) (h2 : s1.handleFixed cfg d = some s2) :
    ∃ scan, ScanOf cfg.slam d.2 scan ∧ ∀ (n : Nat) (sp : ScanPoint), scan[n]? = some sp → cfg.slam.props.margin ≤ n →
      n + cfg.slam.props.margin < scan.length →
      (∀ R, cfg.slam.adder.maxRange = some R →
        ((seenAt s2.st.pose sp).x - s2.st.pose.x) ^ 2 + ((seenAt s2.st.pose sp).y - s2.st.pose.y) ^ 2 ≤ R ^ 2) →
      ∃ cells, worldToCells cfg.slam.ok (ScanAdder.exactFP cfg.slam.scale) cfg.slam.fuel cfg.slam.scale s2.st.pose.x s2.st.pose.y
          (seenAt s2.st.pose sp).x (seenAt s2.st.pose sp).y = some cells ∧ ∀ c ∈ cells, Within w h c := by
  obtain ⟨vs, hv⟩ := fixed_run_told (init := init) ds ⟨[], by rw [hs]; rfl⟩ h1
  simp only [Mach.handleFixed, Mach.handleSeeing, Option.bind_eq_some_iff, Option.map_eq_some_iff] at h2
  obtain ⟨pts, e1, scan, e2, r, -, a, e4, rfl⟩ := h2
  refine ⟨scan, ⟨pts, e1, e2⟩, ?_⟩
  rw [append_writes, Option.bind_eq_some_iff] at e4
  obtain ⟨us, u1, u2⟩ := e4
  rw [Option.map_eq_some_iff] at u2
  obtain ⟨m1, u2, rfl⟩ := u2
  have hin := (hR (vs ++ us.1) m1 (by rw [tellAll_append, hv]; exact u2)).1
  intro n sp hsp hn hn' hrange
  generalize hp : (s1.st.pose.add (observerStep s1.st.odom d.1).2).add r.2.2.1 = p at *
  rcases writes_inserted u1 with ⟨he, -⟩ | ⟨hne, hh, hh', k, -, hi⟩
  · rw [he] at hsp
    simp at hsp
  · unfold Adder.appendScan at hi
    have hlen : (worldPoints ⟨p.x, p.y, p.theta⟩ scan).length = scan.length := by simp [worldPoints]
    rw [if_neg (by rw [List.isEmpty_iff, ← List.length_eq_zero_iff, hlen, List.length_eq_zero_iff]; exact hne), hlen] at hi
    rw [toSize_eq ((scan.length : ℝ) - (cfg.slam.props.margin : ℝ) - 1) (scan.length - cfg.slam.props.margin - 1)
        (by
          have : cfg.slam.props.margin + 1 ≤ scan.length := by omega
          rw [Nat.sub_sub, Nat.cast_sub this]
          push_cast
          linarith)
        (by
          have : cfg.slam.props.margin + 1 ≤ scan.length := by omega
          rw [Nat.sub_sub, Nat.cast_sub this]
          push_cast
          linarith),
      toSize_eq (cfg.slam.props.margin : ℝ) cfg.slam.props.margin le_rfl (by linarith)] at hi
    simp only [Option.bind_some] at hi
    have hw : (worldPoints ⟨p.x, p.y, p.theta⟩ scan)[n]? = some ⟨seenAt p sp, sp.occupied⟩ := by
      rw [worldPoints_rigid, List.getElem?_map, hsp, Option.map_some, Option.some.injEq, WPoint.mk.injEq]
      refine ⟨?_, rfl⟩
      simp only [seenAt, Grid.Point.mk.injEq]
      exact ⟨by ring, by ring⟩
    obtain ⟨v, ws, w1, w2⟩ := insertAll_parts _ hi n (by rw [List.mem_range'_1]; omega) _ hw
    obtain ⟨cells, c1, c2⟩ := beam_all_cells w1 (by
      unfold Adder.tooLong
      cases hmr : cfg.slam.adder.maxRange with
      | none => rfl
      | some R =>
        exact decide_eq_false (not_lt.2 (hrange R hmr)))
    refine ⟨cells, c1, fun c hc => ?_⟩
    obtain ⟨u, hu, rfl⟩ := c2 c hc
    exact hin u (List.mem_append_right _ (w2 u hu))

end Slam.Whole
