import Verif.Whole.Still
import Verif.Whole.Instances

/-!
# A robot that stands still, in terms of the beams

The condition of `standing_still` on the updates of the scan, from the geometry of its beams, for constant estimations.
-/

set_option autoImplicit false
set_option linter.unusedSectionVars false

namespace Slam.Whole
open Slam.Grid Slam.Cells Slam.Poses Slam.Sensor Slam.Score Slam.ScanAdder Slam.Worlds Slam.Tbm Slam.Matcher Slam.Line

variable {C M T : Type}

/-! ## Specification -/

/-- The point `sp` of the scan enters the map: it is not within the margins. -/
def Enters (margin : Nat) (scan : List ScanPoint) (sp : ScanPoint) : Prop :=
  ∃ j, scan[j]? = some sp ∧ margin ≤ j ∧ j + margin + 1 ≤ scan.length

/-- Every cell of `ends` is hit by a beam that enters the map and is short enough, and every beam that enters the map and runs
through it ends there, at an obstacle. -/
structure ClearView (cfg : Cfg C M) (pose : Poses.Pose ℝ) (scan : List ScanPoint) (ends : Coord → Prop) : Prop where
  seen : ∀ c, ends c → ∃ sp, Enters cfg.props.margin scan sp ∧ sp.occupied = true ∧ worldToCell cfg.scale (seenAt pose sp) = c ∧
    ∀ r, cfg.adder.maxRange = some r → ((seenAt pose sp).x - pose.x) ^ 2 + ((seenAt pose sp).y - pose.y) ^ 2 ≤ r ^ 2
  free : ∀ c, ends c → ∀ sp cells, Enters cfg.props.margin scan sp →
    worldToCells cfg.ok (ScanAdder.exactFP cfg.scale) cfg.fuel cfg.scale pose.x pose.y (seenAt pose sp).x (seenAt pose sp).y =
      some cells → c ∈ cells → worldToCell cfg.scale (seenAt pose sp) = c ∧ sp.occupied = true

/-! ## Updates -/

theorem insertAll_mem {A : Adder ℝ} {ok : Int → Bool} {fuel : Nat} {scale : ℝ} {robot : Grid.Point ℝ}
    {quality : Nat → Option ℝ} {sq : ℝ} {pts : List (WPoint ℝ)} (is : List Nat) : ∀ {us : List (Coord × Aoo ℝ)},
    A.insertAll ok fuel scale robot quality sq pts is = some us →
    (∀ x ∈ us, ∃ i ∈ is, ∃ p q vs, pts[i]? = some p ∧ quality i = some q ∧
      A.beamUpdates ok fuel scale p.occ (sq * q) ⟨robot, p.at_⟩ = some vs ∧ x ∈ vs) ∧
    (∀ i ∈ is, ∃ p q vs, pts[i]? = some p ∧ quality i = some q ∧
      A.beamUpdates ok fuel scale p.occ (sq * q) ⟨robot, p.at_⟩ = some vs ∧ ∀ x ∈ vs, x ∈ us) := by
  induction is with
  | nil =>
    intro us h
    simp only [Adder.insertAll, Option.some.injEq] at h
    subst h
    simp
  | cons j is ih =>
    intro us h
    simp only [Adder.insertAll, Option.bind_eq_some_iff, Option.map_eq_some_iff] at h
    obtain ⟨p, h1, q, h2, vs, h3, ws, h4, rfl⟩ := h
    obtain ⟨g1, g2⟩ := ih h4
    constructor
    · intro x hx
      rcases List.mem_append.1 hx with hx | hx
      · exact ⟨j, by simp, p, q, vs, h1, h2, h3, hx⟩
      · obtain ⟨i, hi, r⟩ := g1 x hx
        exact ⟨i, by simp [hi], r⟩
    · intro i hi
      rcases List.mem_cons.1 hi with rfl | hi
      · exact ⟨p, q, vs, h1, h2, h3, fun x hx => by simp [hx]⟩
      · obtain ⟨p', q', vs', e1, e2, e3, e4⟩ := g2 i hi
        exact ⟨p', q', vs', e1, e2, e3, fun x hx => by simp [e4 x hx]⟩

/-- The updates of a scan are those of the beams that enter the map. -/
theorem appendScan_mem {A : Adder ℝ} {ok : Int → Bool} {fuel : Nat} {scale : ℝ} {robot : Grid.Point ℝ}
    {quality : Nat → Option ℝ} {sq : ℝ} {pts : List (WPoint ℝ)} {m : Nat} {us : List (Coord × Aoo ℝ)}
    (h : A.appendScan ok fuel scale robot quality sq (m : ℝ) pts = some us) :
    (∀ x ∈ us, ∃ i, (m ≤ i ∧ i + m + 1 ≤ pts.length) ∧ ∃ p q vs, pts[i]? = some p ∧ quality i = some q ∧
      A.beamUpdates ok fuel scale p.occ (sq * q) ⟨robot, p.at_⟩ = some vs ∧ x ∈ vs) ∧
    (∀ i, (m ≤ i ∧ i + m + 1 ≤ pts.length) → ∃ p q vs, pts[i]? = some p ∧ quality i = some q ∧
      A.beamUpdates ok fuel scale p.occ (sq * q) ⟨robot, p.at_⟩ = some vs ∧ ∀ x ∈ vs, x ∈ us) := by
  unfold Adder.appendScan at h
  by_cases he : pts.isEmpty = true
  · rw [if_pos he, Option.some.injEq] at h
    subst h
    have : pts = [] := by simpa using he
    subst this
    constructor
    · simp
    · intro i hi
      simp at hi
  · rw [if_neg he] at h
    simp only [Option.bind_eq_some_iff] at h
    obtain ⟨last, h1, first, h2, h3⟩ := h
    have hm : m < pts.length := by
      unfold toSize at h1
      by_contra hcon
      have : (pts.length : ℝ) ≤ (m : ℝ) := by exact_mod_cast not_lt.1 hcon
      rw [if_neg (by linarith)] at h1
      cases h1
    have hl : last = pts.length - m - 1 := by
      have e : (pts.length : ℝ) - m - 1 = ((pts.length - m - 1 : Nat) : ℝ) := by
        rw [Nat.sub_sub, Nat.cast_sub (by omega)]; push_cast; ring
      rw [e, toSize_eq _ (pts.length - m - 1) (le_refl _) (by linarith), Option.some.injEq] at h1
      exact h1.symm
    have hfst : first = m := by
      rw [toSize_eq _ m (le_refl _) (by linarith), Option.some.injEq] at h2
      exact h2.symm
    subst hl hfst
    obtain ⟨g1, g2⟩ := insertAll_mem _ h3
    constructor
    · intro x hx
      obtain ⟨i, hi, r⟩ := g1 x hx
      rw [List.mem_range'_1] at hi
      exact ⟨i, ⟨hi.1, by omega⟩, r⟩
    · intro i hi
      exact g2 i (by rw [List.mem_range'_1]; omega)

theorem level_mono {p p' q : ℝ} (hq : 0 ≤ q) (h : p ≤ p') : level p q ≤ level p' q := by
  unfold level
  nlinarith

theorem worldPoints_get (pose : Poses.Pose ℝ) (scan : List ScanPoint) (j : Nat) :
    (worldPoints ⟨pose.x, pose.y, pose.theta⟩ scan)[j]? = scan[j]?.map fun sp => (⟨seenAt pose sp, sp.occupied⟩ : WPoint ℝ) := by
  rw [worldPoints_rigid, List.getElem?_map]
  congr 1
  funext sp
  simp only [seenAt, WPoint.mk.injEq, Grid.Point.mk.injEq, and_true]
  constructor <;> ring

/-- What the beams of constant estimations say: the cell in which a beam ends is told first, the others nothing higher. -/
theorem const_beam {occ empty : Occ ℝ} (h0 : 0 ≤ empty.prob) (hle : empty.prob ≤ occ.prob) {blur : ℝ} {maxRange : Option ℝ}
    {ok : Int → Bool} {N : Int} (hok : ∀ v, |v| ≤ 6 * N → ok v = true) {scale : ℝ} (hs : 0 < scale) {fuel : Nat}
    {robot p : Grid.Point ℝ} (hb : InRange N scale robot) (he : InRange N scale p)
    (hf : fuelFor (worldToCell scale robot) (worldToCell scale p) ≤ fuel) {isOcc : Bool} {q : ℝ} {vs : List (Coord × Aoo ℝ)}
    (h : (⟨constEstimate occ empty, blur, maxRange⟩ : Adder ℝ).beamUpdates ok fuel scale isOcc q ⟨robot, p⟩ = some vs) :
    (∀ c a, (c, a) ∈ vs → a.quality = q ∧ (∃ o, a.occ = some o ∧ o.prob ≤ occ.prob ∧
        (c = worldToCell scale p → o.prob = if isOcc then occ.prob else empty.prob)) ∧
      ∃ cells, worldToCells ok (ScanAdder.exactFP scale) fuel scale robot.x robot.y p.x p.y = some cells ∧ c ∈ cells) ∧
    ((∀ r, maxRange = some r → (p.x - robot.x) ^ 2 + (p.y - robot.y) ^ 2 ≤ r ^ 2) → ∃ a o, (worldToCell scale p, a) ∈ vs ∧ a.occ = some o) := by
  obtain ⟨cells, k1, k2, -⟩ := world_to_cells_connects ok N hok (ScanAdder.exactFP scale) scale robot.x robot.y p.x p.y fuel
    hb.1 hb.2 he.1 he.2 hf
  have klast : cells.getLast? = some (worldToCell scale p) := k2.last
  unfold Adder.beamUpdates at h
  by_cases hlong : (⟨constEstimate occ empty, blur, maxRange⟩ : Adder ℝ).tooLong ⟨robot, p⟩ = true
  · rw [if_pos hlong, Option.some.injEq] at h
    subst h
    refine ⟨by simp, fun hr => ?_⟩
    exfalso
    unfold Adder.tooLong at hlong
    cases hmr : maxRange with
    | none => rw [hmr] at hlong; simp at hlong
    | some r =>
      rw [hmr] at hlong
      have hlong := of_decide_eq_true hlong
      simp only [Beam.lengthSq] at hlong
      have := hr r hmr
      linarith
  · rw [if_neg hlong] at h
    simp only [k1, Option.bind_some, klast, Option.map_some, Option.some.injEq] at h
    subst h
    constructor
    · intro c a hca
      rcases List.mem_cons.1 hca with hca | hca
      · simp only [Prod.mk.injEq] at hca
        obtain ⟨rfl, rfl⟩ := hca
        refine ⟨rfl, ⟨if isOcc then occ else empty, rfl, ?_, fun _ => ?_⟩, cells, k1, List.mem_of_getLast? klast⟩
        · cases isOcc
          · simpa using hle
          · simp
        · cases isOcc <;> simp
      · simp only [List.mem_map, Prod.mk.injEq] at hca
        obtain ⟨pt, hpt, rfl, rfl⟩ := hca
        have hne : pt ≠ worldToCell scale p := by
          intro e
          have hnd := k2.nodup
          rw [← List.dropLast_append_getLast? _ klast] at hnd
          rw [List.nodup_append] at hnd
          exact hnd.2.2 pt hpt _ (by simp) e
        refine ⟨?_, ?_, cells, k1, List.mem_of_mem_dropLast hpt⟩
        · unfold Adder.passed
          simp only
          split <;> rfl
        · unfold Adder.passed
          simp only [constEstimate]
          by_cases hc : (distSq pt (worldToCell scale p) : ℝ) < (⟨constEstimate occ empty, blur, maxRange⟩ : Adder ℝ).blurCellDist scale ⟨robot, p⟩ isOcc ^ 2 ∧
              (⟨constEstimate occ empty, blur, maxRange⟩ : Adder ℝ).blurCellDist scale ⟨robot, p⟩ isOcc ^ 2 < (distSq (worldToCell scale robot) (worldToCell scale p) : ℝ)
          · rw [if_pos hc]
            refine ⟨_, rfl, ?_, fun e => absurd e hne⟩
            have hd : (0 : ℝ) ≤ distSq pt (worldToCell scale p) := by unfold ScanAdder.distSq; positivity
            have hdd := div_nonneg hd (le_trans hd hc.1.le)
            simp only
            have hbase : 0 ≤ (if isOcc then occ else empty).prob ∧ (if isOcc then occ else empty).prob ≤ occ.prob := by
              cases isOcc
              · simpa using ⟨h0, hle⟩
              · simpa using le_trans h0 hle
            nlinarith [hbase.1, hbase.2, mul_nonneg hbase.1 hdd]
          · rw [if_neg hc]
            exact ⟨_, rfl, by simpa using hle, fun e => absurd e hne⟩
    · intro _
      exact ⟨_, _, List.mem_cons_self, rfl⟩

/-- **A clear view makes even levels.** -/
theorem clear_levels {cfg : Cfg C M} {occ empty : Occ ℝ} {blur : ℝ} {maxRange : Option ℝ}
    (hA : cfg.adder = ⟨constEstimate occ empty, blur, maxRange⟩) (h0 : 0 ≤ empty.prob) (hle : empty.prob ≤ occ.prob)
    (hhalf : 1 / 2 ≤ occ.prob) (hq : 0 ≤ cfg.props.rawQuality) {N : Int} (hok : ∀ v, |v| ≤ 6 * N → cfg.ok v = true)
    (hs : 0 < cfg.scale) {pose : Poses.Pose ℝ} {scan : List ScanPoint} (hb : InRange N cfg.scale ⟨pose.x, pose.y⟩)
    (hr : ∀ sp ∈ scan, InRange N cfg.scale (seenAt pose sp) ∧
      fuelFor (worldToCell cfg.scale ⟨pose.x, pose.y⟩) (worldToCell cfg.scale (seenAt pose sp)) ≤ cfg.fuel)
    {ends : Coord → Prop} (hv : ClearView cfg pose scan ends) {us : List (Coord × Aoo ℝ)}
    (hus : cfg.adder.appendScan cfg.ok cfg.fuel cfg.scale ⟨pose.x, pose.y⟩ idleQuality cfg.props.rawQuality
      (cfg.props.margin : ℝ) (worldPoints ⟨pose.x, pose.y, pose.theta⟩ scan) = some us) :
    Levels us ends (level occ.prob cfg.props.rawQuality) := by
  obtain ⟨g1, g2⟩ := appendScan_mem hus
  have hlen : (worldPoints ⟨pose.x, pose.y, pose.theta⟩ scan).length = scan.length := by simp [worldPoints]
  rw [hlen] at g1 g2
  have beams : ∀ (sp : ScanPoint) (q : ℝ) (vs : List (Coord × Aoo ℝ)), sp ∈ scan →
      cfg.adder.beamUpdates cfg.ok cfg.fuel cfg.scale sp.occupied q ⟨⟨pose.x, pose.y⟩, seenAt pose sp⟩ = some vs → _ :=
    fun sp q vs hsp hvs => const_beam (isOcc := sp.occupied) (q := q) (vs := vs) h0 hle (blur := blur) (maxRange := maxRange) hok hs hb
      (hr sp hsp).1 (hr sp hsp).2 (by rw [← hA]; exact hvs)
  have upd : ∀ c a, (c, a) ∈ us → ∃ sp vs, Enters cfg.props.margin scan sp ∧ sp ∈ scan ∧
      cfg.adder.beamUpdates cfg.ok cfg.fuel cfg.scale sp.occupied cfg.props.rawQuality ⟨⟨pose.x, pose.y⟩, seenAt pose sp⟩ = some vs ∧
      (c, a) ∈ vs := by
    intro c a hca
    obtain ⟨j, ⟨hj1, hj2⟩, p, q, vs, e1, e2, e3, e4⟩ := g1 _ hca
    rw [worldPoints_get, Option.map_eq_some_iff] at e1
    obtain ⟨sp, e1, rfl⟩ := e1
    simp only [idleQuality, Option.some.injEq] at e2
    subst e2
    rw [mul_one] at e3
    exact ⟨sp, vs, ⟨j, e1, hj1, hj2⟩, List.mem_of_getElem? e1, e3, e4⟩
  refine ⟨?_, ?_, ?_, ?_⟩
  · unfold level
    nlinarith
  · intro c hc
    obtain ⟨sp, ⟨j, hj, hj1, hj2⟩, -, e2, e3⟩ := hv.seen c hc
    obtain ⟨p, q, vs, f1, f2, f3, f4⟩ := g2 j ⟨hj1, hj2⟩
    rw [worldPoints_get, hj, Option.map_some, Option.some.injEq] at f1
    subst f1
    obtain ⟨a, o, k1, k2⟩ := (beams sp _ vs (List.mem_of_getElem? hj) f3).2 (by
      intro r hr'
      exact e3 r (by rw [hA]; exact hr'))
    exact ⟨a, o, f4 _ (e2 ▸ k1), k2⟩
  · intro c a o hca hc ho
    obtain ⟨sp, vs, hen, hsp, hvs, hin⟩ := upd c a hca
    obtain ⟨k1, ⟨o', k2, k3, k4⟩, cells, k5, k6⟩ := (beams sp _ vs hsp hvs).1 c a hin
    rw [ho, Option.some.injEq] at k2
    subst k2
    obtain ⟨l1, l2⟩ := hv.free c hc sp cells hen k5 k6
    rw [k1, k4 l1.symm, l2, if_pos rfl]
  · intro c a o hca ho
    obtain ⟨sp, vs, -, hsp, hvs, hin⟩ := upd c a hca
    obtain ⟨k1, ⟨o', k2, k3, -⟩, -⟩ := (beams sp _ vs hsp hvs).1 c a hin
    rw [ho, Option.some.injEq] at k2
    subst k2
    rw [k1]
    exact level_mono hq k3

/-- **A robot with a clear view that stands still is left alone (C112).** Averaging cells, constant estimations, any blur, any
matcher that stays, an empty map; the same message again and again while the odometry does not change. If every beam that
runs through a cell in which a usable point lies ends there at an obstacle, and every such cell is hit by a beam that enters the map,
the robot's pose never changes, however often the message comes. -/
theorem standing_still_clear_view {i : Impact} {init : M} {cfg : MachCfg (CellKind.Cell .mean) M T} (hc : MachStarted .mean i cfg init)
    (hm : cfg.machine.StaysPut cfg.matcher) {occ empty : Occ ℝ} {blur : ℝ} {maxRange : Option ℝ}
    (hA : cfg.slam.adder = ⟨constEstimate occ empty, blur, maxRange⟩) (h0 : 0 ≤ empty.prob) (hle : empty.prob ≤ occ.prob)
    (hhalf : 1 / 2 ≤ occ.prob) {N : Int} (hok : ∀ v, |v| ≤ 6 * N → cfg.slam.ok v = true)
    {s : Mach M T} (hs : s.st.map = init) (hw : Spw.Ok s.weights) (hh : s.st.hist = none)
    {msg : Msg ℝ} {scan : List ScanPoint} (hscan : ScanOf cfg.slam msg scan) (hmargin : cfg.slam.props.margin < scan.length)
    (hb : InRange N cfg.slam.scale ⟨s.st.pose.x, s.st.pose.y⟩)
    (hr : ∀ sp ∈ scan, InRange N cfg.slam.scale (seenAt s.st.pose sp) ∧
      fuelFor (worldToCell cfg.slam.scale ⟨s.st.pose.x, s.st.pose.y⟩) (worldToCell cfg.slam.scale (seenAt s.st.pose sp)) ≤ cfg.slam.fuel)
    (hv : ClearView cfg.slam s.st.pose scan (cfg.ends s.st.pose scan)) (n : Nat) {s' : Mach M T}
    (h : s.run cfg (List.replicate n (s.st.odom, msg)) = some s') :
    s'.st.pose = s.st.pose ∧ ∀ c, ∃ cell : MeanCell ℝ, cfg.slam.api.read s'.st.map c = some cell ∧
      cell.occ.prob ≤ level occ.prob cfg.slam.props.rawQuality ∧
      (0 < n → cfg.ends s.st.pose scan c → cell.occ.prob = level occ.prob cfg.slam.props.rawQuality) := by
  obtain ⟨us, hus, -⟩ := scan_insertion cfg.slam.adder cfg.slam.ok N hok cfg.slam.scale hc.scale ⟨s.st.pose.x, s.st.pose.y⟩ cfg.slam.fuel hb
    idleQuality cfg.slam.props.rawQuality cfg.slam.props.margin (worldPoints ⟨s.st.pose.x, s.st.pose.y, s.st.pose.theta⟩ scan)
    (Or.inr (by simpa [worldPoints] using hmargin)) (fun _ _ => ⟨1, rfl⟩) (by
      intro p hp
      obtain ⟨j, hj⟩ := List.mem_iff_getElem?.1 hp
      rw [worldPoints_get, Option.map_eq_some_iff] at hj
      obtain ⟨sp, hj, rfl⟩ := hj
      exact hr sp (List.mem_of_getElem? hj))
  exact standing_still hc hm hs hw hh hscan hus (clear_levels hA h0 hle hhalf hc.qualities.2.1 hok hc.scale hb hr hv hus) n h

end Slam.Whole
