import Verif.Whole.Multires

/-!
# C95: what a message does when the multi-resolution matcher is used, and that it is handled
-/

set_option autoImplicit false
set_option linter.unusedSectionVars false

namespace Slam.Whole
open Slam.Grid Slam.Cells Slam.Poses Slam.Sensor Slam.Score Slam.ScanAdder Slam.Worlds Slam.Tbm Slam.Matcher
open Slam.Rect (points center lessOrEqual)
open Slam.Multires (MMap MLevel CellApi MOp Search Match Engine Scores Result Trips SearchStep kindApi Reached Telling Inv
  IsRotation IsTranslation TurnedWeights pointRect Pyramid entireRange Weighable)

/-! ## Turned scans -/

theorem turned_point (f : List ScanPoint) (a : ℝ) (sp : ScanPoint) (h : sp ∈ scanToCartesian f a) :
    sp.factor = 1 ∧ ∃ p ∈ f, sp.x = Real.cos a * p.x - Real.sin a * p.y ∧ sp.y = Real.sin a * p.x + Real.cos a * p.y := by
  obtain ⟨i, hi⟩ := List.getElem?_of_mem h
  obtain ⟨hl, hp⟩ := scan_rotated f a
  have hif : i < f.length := by
    have := (List.getElem?_eq_some_iff.1 hi).1
    omega
  have := hp i f[i] (List.getElem?_eq_getElem hif)
  rw [hi, Option.some.injEq] at this
  subst this
  exact ⟨rfl, f[i], List.getElem_mem hif, rfl, rfl⟩

theorem turned_at (p : Poses.Pose ℝ) (t : Grid.Point ℝ) (rot : ℝ) (q : ScanPoint) :
    (⟨(Real.cos (rot + p.theta) * q.x - Real.sin (rot + p.theta) * q.y) + (p.x + t.x),
      (Real.sin (rot + p.theta) * q.x + Real.cos (rot + p.theta) * q.y) + (p.y + t.y)⟩ : Grid.Point ℝ) =
    seenAt (p.add ⟨t.x, t.y, rot⟩) q := by
  simp only [seenAt, Poses.Pose.add, Grid.Point.mk.injEq]
  rw [add_comm rot p.theta]
  constructor <;> ring

/-- What a turned scan is scored with, read off the unturned points. -/
theorem turned_map {β : Type} (g : Grid.Point ℝ → β) (p : Poses.Pose ℝ) (t : Grid.Point ℝ) (rot : ℝ) (f : List ScanPoint) :
    ((scanToCartesian f (rot + p.theta)).map fun sp => g ⟨sp.x + (p.x + t.x), sp.y + (p.y + t.y)⟩) =
      f.map fun q => g (seenAt (p.add ⟨t.x, t.y, rot⟩) q) := by
  apply List.ext_getElem?
  intro i
  obtain ⟨hl, hp⟩ := scan_rotated f (rot + p.theta)
  by_cases hi : i < f.length
  · rw [List.getElem?_map, hp i f[i] (List.getElem?_eq_getElem hi), List.getElem?_map, List.getElem?_eq_getElem hi]
    simp only [Option.map_some, Option.some.injEq, ScanPoint.x, ScanPoint.y]
    exact congrArg g (turned_at p t rot f[i])
  · rw [List.getElem?_eq_none (by rw [List.length_map, hl]; omega), List.getElem?_eq_none (by rw [List.length_map]; omega)]

theorem turned_range (f : List ScanPoint) (a : ℝ) (i : Nat) (p : ScanPoint) (h : f[i]? = some p) :
    ∃ sp, (scanToCartesian f a)[i]? = some sp ∧ sp.range = |p.range| := by
  refine ⟨_, (scan_rotated f a).2 i p h, ?_⟩
  obtain ⟨h1, h2⟩ := range_angle_coords p
  show Real.sqrt ((Real.cos a * p.x - Real.sin a * p.y) ^ 2 + (Real.sin a * p.x + Real.cos a * p.y) ^ 2) = |p.range|
  rw [← h1, ← h2, ← Real.sqrt_sq_eq_abs]
  congr 1
  have e1 := Real.sin_sq_add_cos_sq a
  have e2 := Real.sin_sq_add_cos_sq p.angle
  generalize p.range = r
  generalize Real.sin a = sa at *
  generalize Real.cos a = ca at *
  generalize Real.sin p.angle = sp at *
  generalize Real.cos p.angle = cp at *
  have : (ca * (r * cp) - sa * (r * sp)) ^ 2 + (sa * (r * cp) + ca * (r * sp)) ^ 2 = r ^ 2 * ((sa ^ 2 + ca ^ 2) * (sp ^ 2 + cp ^ 2)) := by
    ring
  rw [this, e1, e2]
  ring

/-! ## Weights of turned scans -/

theorem sum_pos_of {ws : List ℝ} (h0 : ∀ x ∈ ws, 0 ≤ x) (h : ∃ x ∈ ws, 0 < x) : 0 < ws.sum := by
  obtain ⟨x, hx, hp⟩ := h
  exact lt_of_lt_of_le hp (List.single_le_sum h0 x hx)

theorem turned_weights {w w' : Spw} (hw : Spw.Ok w) {f : List ScanPoint} (hr : w.reset f = some w') :
    ∃ W : ℝ → List ℝ, ∀ a, LeftOver w w' f (scanToCartesian f a) (W a) := by
  choose W hW using fun a => left_over w w' hw f (scanToCartesian f a) hr (by rw [(scan_rotated f a).1])
  exact ⟨W, hW⟩

theorem turned_weighable {w w' : Spw} {f : List ScanPoint} {W : ℝ → List ℝ}
    (hW : ∀ a, LeftOver w w' f (scanToCartesian f a) (W a)) (hp : ∃ p ∈ f, p.range ≠ 0) (a : ℝ) :
    TurnedWeights w' (scanToCartesian f a) (W a) := by
  have h := (hW a).weighed
  refine ⟨fun p hp => (turned_point f a p hp).1, h.len, h.given, h.nonneg, ?_⟩
  obtain ⟨p, hpf, hr⟩ := hp
  obtain ⟨i, hi⟩ := List.getElem?_of_mem hpf
  obtain ⟨sp, h1, h2⟩ := turned_range f a i p hi
  obtain ⟨x, x1, x2⟩ := h.pos i sp h1 (by rw [h2]; exact abs_pos.2 hr)
  exact (sum_pos_of h.nonneg ⟨x, List.mem_of_getElem? x1, x2⟩).ne'

/-- Where a search can be scored at all, the weights do not add up to zero. -/
theorem scored_weights {C O : Type} {api : CellApi ℝ C O} {P : C → Prop} (h01 : ∀ v, P v → Unit01 (api.impact v)) {s : ℝ}
    {n : Nat} {m : MMap ℝ C} (hi : Inv api s n m) (hP : ∀ l ∈ m.levels, ∀ d, P (l.cells d)) {w w' : Spw} {pose : Score.Pose}
    {f : List ScanPoint} {θ : ℝ} {S : Search ℝ} (hS : Scores api m w' pose (fun rot => scanToCartesian f (rot + θ)) S)
    {W : ℝ → List ℝ} (hW : ∀ a, LeftOver w w' f (scanToCartesian f a) (W a)) (rot : ℝ) :
    TurnedWeights w' (scanToCartesian f (rot + θ)) (W (rot + θ)) := by
  have h := (hW (rot + θ)).weighed
  have hfac : ∀ p ∈ scanToCartesian f (rot + θ), p.factor = 1 := fun p hp => (turned_point f _ p hp).1
  refine ⟨hfac, h.len, h.given, h.nonneg, ?_⟩
  intro hz
  obtain ⟨l, d, o, oope, e1, e2, e3⟩ := hS 0 rot (pointRect ⟨0, 0⟩)
  obtain ⟨N, hN, hp⟩ := hi.pyr
  obtain ⟨j, lj, g1, g2, -, -⟩ := Multires.levelFor_spec s N m hp (max (Rect.vside (pointRect (⟨0, 0⟩ : Grid.Point ℝ)))
    (Rect.hside (pointRect (⟨0, 0⟩ : Grid.Point ℝ))))
  rw [g1] at e1; injection e1 with e1; subst e1
  have ho : ∀ q a, ∃ x, oope q a = some x ∧ Unit01 x := by
    intro q a
    obtain ⟨cells, -, c2⟩ := e2 q a
    obtain ⟨x, x1, -, x3⟩ := max_estimate (fun c => some (api.impact (lj.cells c))) cells fun c _ =>
      ⟨_, rfl, h01 _ (hP lj (List.mem_of_getElem? g2) c)⟩
    exact ⟨x, by rw [c2]; exact x1, x3⟩
  choose val hv1 _ using ho
  have := (score_is_weighted_mean oope w' ⟨pointRect ⟨0, 0⟩, true⟩ (Multires.movedPose pose (center (pointRect ⟨0, 0⟩)))
    (scanToCartesian f (rot + θ)) ((scanToCartesian f (rot + θ)).map fun sp =>
      val (obstacleOf ⟨pointRect ⟨0, 0⟩, true⟩ (Multires.movedPose pose (center (pointRect ⟨0, 0⟩))) sp)
        (Rect.moveCenter (pointRect ⟨0, 0⟩) (obstacleOf ⟨pointRect ⟨0, 0⟩, true⟩
          (Multires.movedPose pose (center (pointRect ⟨0, 0⟩))) sp))) (W (rot + θ)) hfac (by
      rw [List.forall₂_map_right_iff, List.forall₂_same]
      intro sp _
      exact hv1 _ _) h.len h.given).1 hz
  unfold Multires.rangeBound at e3
  rw [this] at e3
  simp at e3

/-! ## What a message does -/

section
variable {G : Type} {k : CellKind} {i : Impact} {cfg : MrCfg k.Cell G} {grow : G → Coord → Nat × G} {n : Nat}

/-- The points of a scan the matcher looks at, in the position `p`. -/
noncomputable def MrCfg.usable (cfg : MrCfg k.Cell G) (p : Poses.Pose ℝ) (scan : List ScanPoint) : List ScanPoint :=
  usablePoints cfg.filter cfg.slam.scale (fun _ => true) p scan

theorem mr_filtered {w w' : Spw} {scan f : List ScanPoint} {p : Poses.Pose ℝ}
    (h : Score.filterScan cfg.filter w cfg.slam.scale (fun _ => true) ⟨p.x, p.y, p.theta⟩ scan = some (f, w')) :
    f = cfg.usable p scan ∧ w.reset (cfg.usable p scan) = some w' := by
  classical
  simp only [Score.filterScan] at h
  rw [filterLoop_usable] at h
  simp only [Option.map_eq_some_iff, Prod.mk.injEq] at h
  obtain ⟨w1, h1, h2, rfl⟩ := h
  exact ⟨h2.symm, h1⟩

theorem mr_filter_total (w : Spw) (hw : Spw.Ok w) (scan : List ScanPoint) (p : Poses.Pose ℝ) :
    ∃ w', Score.filterScan cfg.filter w cfg.slam.scale (fun _ => true) ⟨p.x, p.y, p.theta⟩ scan =
      some (cfg.usable p scan, w') := by
  classical
  obtain ⟨w', _, h⟩ := weights_exist w hw (cfg.usable p scan)
  refine ⟨w', ?_⟩
  simp only [Score.filterScan]
  rw [filterLoop_usable]
  have := h.reset
  unfold MrCfg.usable usablePoints at *
  rw [this]
  rfl

theorem mr_fine (hc : MrStarted k i cfg grow n) {m : MMap ℝ k.Cell × G}
    (hr : ∀ l ∈ m.1.levels, ∀ c, Reached k (l.cells c)) (q : Grid.Point ℝ) (c : Coord) :
    seenProb k i cfg.slam.api m q c = (kindApi k i).impact (m.1.fine.cells c) := by
  obtain ⟨fuel, -, e⟩ := hc.api
  unfold seenProb
  rw [e]
  simp only [pyramidApi, Option.bind_some, kindApi]
  rw [impact_place k hc.kind i q]

/-- The window, as a condition on a shift. -/
def InWindow (X Y : ℝ) (d : Delta ℝ) : Prop := |d.x| ≤ X ∧ |d.y| ≤ Y

/-- A rotation the matcher considers: a multiple of the angular step within the limit, with the comparison tolerance of
src/core/math_utils.h. -/
def IsTurn (limit step a : ℝ) : Prop :=
  ∃ j : Nat, (a = j * step ∨ a = -(j * step)) ∧ lessOrEqual (2 * (j * step)) (2 * limit) = true

theorem mr_matching (hc : MrStarted k i cfg grow n) {init : MMap ℝ k.Cell × G} {s : Mr (MMap ℝ k.Cell × G)}
    (hs : MrSound i cfg n init s) {scan : List ScanPoint} {p : Poses.Pose ℝ} {w' : Spw} {delta : Delta ℝ} {prob : ℝ}
    (h : cfg.Answers s.weights scan p s.st.map w' delta prob) :
    ∃ W : ℝ → List ℝ,
      (∀ a, LeftOver s.weights w' (cfg.usable p scan) (scanToCartesian (cfg.usable p scan) (a + p.theta)) (W a)) ∧
      InWindow cfg.xLimit cfg.yLimit delta ∧ IsTurn cfg.rotLimit cfg.angStep delta.theta ∧
      meanScore (seenProb k i cfg.slam.api s.st.map) cfg.slam.scale (W delta.theta) (cfg.usable p scan) (p.add delta) =
        some prob ∧
      (2 * cfg.xLimit ≤ cfg.slam.scale * 2 ^ (n - 1) → 2 * cfg.yLimit ≤ cfg.slam.scale * 2 ^ (n - 1) →
        ∀ a, IsRotation (2 * cfg.rotLimit) cfg.angStep a → ∀ t, IsTranslation cfg.xLimit cfg.yLimit cfg.translStep t →
        ((k = .tbm .credibilist ∧ i = .discrepancy) ∨ ∀ q ∈ cfg.usable p scan, ∃ cell, cfg.slam.api.read s.st.map
            (worldToCell cfg.slam.scale (seenAt (p.add ⟨t.x, t.y, a⟩) q)) = some cell ∧ k.unknown cell = false) →
        ∃ v, meanScore (seenProb k i cfg.slam.api s.st.map) cfg.slam.scale (W a) (cfg.usable p scan)
            (p.add ⟨t.x, t.y, a⟩) = some v ∧ v ≤ prob + cfg.slack + ((n - 1 : Nat) : ℝ) * (1 / 10 ^ 7)) := by
  obtain ⟨f, S, e, x, hb, hx, rfl, rfl⟩ := h
  obtain ⟨rfl, hreset⟩ := mr_filtered hb.filtered
  obtain ⟨W0, hW0⟩ := turned_weights hs.weights hreset
  have hcl := Multires.kind_closed k i hc.fits
  have hS := hb.scores
  rw [hc.cell] at hS
  have hTW := fun rot => scored_weights hcl.range hs.bounds hs.cells hS hW0 rot
  have hsec : (0 : ℝ) ≤ 2 * cfg.rotLimit := by linarith [hc.sector]
  obtain ⟨r1, ⟨t0, r2, r3, r4⟩, r5⟩ := Multires.search_result (kindApi k i) (Reached k) hcl.range cfg.slam.scale hc.scale_pos n
    hc.levels s.st.map.1 hs.bounds hs.cells w' ⟨p.x, p.y, 0⟩ _ S hS hb.diff (fun rot => W0 (rot + p.theta)) hTW cfg.xLimit
    cfg.yLimit (2 * cfg.rotLimit) cfg.angStep cfg.slack cfg.translStep hc.window.1 hc.window.2 hsec hc.angle hc.slack
    hc.transl.le cfg.fuel e x hb.begun hx
  have hscore : ∀ (rot : ℝ) (t : Grid.Point ℝ), meanScore (seenProb k i cfg.slam.api s.st.map) cfg.slam.scale
      (W0 (rot + p.theta)) (cfg.usable p scan) (p.add ⟨t.x, t.y, rot⟩) = some (S.score 0 rot (pointRect t)) := by
    intro rot t
    unfold meanScore
    rw [if_neg (hTW rot).sum, Multires.point_score (kindApi k i) (Reached k) hcl.range cfg.slam.scale hc.scale_pos n hc.levels
      s.st.map.1 hs.bounds hs.cells w' ⟨p.x, p.y, 0⟩ _ S hS 0 rot _ (hTW rot) t]
    have := turned_map (fun z => (kindApi k i).impact (s.st.map.1.fine.cells (worldToCell cfg.slam.scale z))) p t rot
      (cfg.usable p scan)
    simp only at this ⊢
    rw [this]
    congr 2
    apply List.map_congr_left
    intro q _
    exact mr_fine hc hs.cells _ _
  have hcen : center x.drift = t0 := by rw [r2, Multires.center_pointRect]
  refine ⟨fun a => W0 (a + p.theta), fun a => hW0 _, ?_, r1, ?_, ?_⟩
  · rw [hcen]
    obtain ⟨b1, b2, b3, b4⟩ := r3
    simp only [entireRange] at b1 b2 b3 b4
    exact ⟨abs_le.2 ⟨b1, b2⟩, abs_le.2 ⟨b3, b4⟩⟩
  · rw [hcen, r4]
    exact hscore x.rot t0
  · intro hwx hwy a ha t ht hk
    refine ⟨_, hscore a t, r5 hwx hwy a ha t ht ?_⟩
    rcases hk with ⟨rfl, rfl⟩ | hk
    · exact .inl Multires.credibilist_unknown_least
    · refine .inr fun sp hsp => ?_
      have hall := turned_map (fun z => (kindApi k i).unknown (s.st.map.1.fine.cells (worldToCell cfg.slam.scale z))) p t a
        (cfg.usable p scan)
      have hm : (kindApi k i).unknown (s.st.map.1.fine.cells (worldToCell cfg.slam.scale
          ⟨sp.x + (p.x + t.x), sp.y + (p.y + t.y)⟩)) ∈ (cfg.usable p scan).map fun q =>
          (kindApi k i).unknown (s.st.map.1.fine.cells (worldToCell cfg.slam.scale (seenAt (p.add ⟨t.x, t.y, a⟩) q))) := by
        rw [← hall]
        exact List.mem_map.2 ⟨sp, hsp, rfl⟩
      obtain ⟨q, hq, e⟩ := List.mem_map.1 hm
      obtain ⟨cell, c1, c2⟩ := hk q hq
      obtain ⟨fuel, -, ea⟩ := hc.api
      rw [ea] at c1
      simp only [pyramidApi, Option.some.injEq] at c1
      rw [c1] at e
      rw [← e]
      exact c2

/-- What a message does: the specification. The matcher is asked once, at the pose the odometry predicts, on the map so far. Its answer is
within the limits; the probability it reports is the mean probability, over the usable points, of the cells of the finest map
the points get to; and no rotation and translation it was to consider is better (up to the order in which equal matches are
taken and a tolerance for each level), as long as the points get to known cells there — whatever the cells, if they are
credibilist ones — and the window fits into a cell of the coarsest initial level. The robot moves by the answer; the scan enters
the map at the new pose, with the quality configured for corrected poses exactly if the answer is not zero. -/
def MrMessage (k : CellKind) (i : Impact) (cfg : MrCfg k.Cell G) (n : Nat) (s : Mr (MMap ℝ k.Cell × G))
    (d : Poses.Pose ℝ × Msg ℝ) (prob : ℝ) (s' : Mr (MMap ℝ k.Cell × G)) : Prop :=
    ∃ scan p delta q us, ∃ W : ℝ → List ℝ, ScanOf cfg.slam d.2 scan ∧
      (p.x = s.st.pose.x + (d.1.x - s.st.odom.x) ∧ p.y = s.st.pose.y + (d.1.y - s.st.odom.y) ∧
        p.theta = s.st.pose.theta + (d.1.theta - s.st.odom.theta)) ∧
      (∀ a, LeftOver s.weights s'.weights (cfg.usable p scan) (scanToCartesian (cfg.usable p scan) (a + p.theta)) (W a)) ∧
      InWindow cfg.xLimit cfg.yLimit delta ∧ IsTurn cfg.rotLimit cfg.angStep delta.theta ∧
      meanScore (seenProb k i cfg.slam.api s.st.map) cfg.slam.scale (W delta.theta) (cfg.usable p scan) s'.st.pose =
        some prob ∧
      (2 * cfg.xLimit ≤ cfg.slam.scale * 2 ^ (n - 1) → 2 * cfg.yLimit ≤ cfg.slam.scale * 2 ^ (n - 1) →
        ∀ a, IsRotation (2 * cfg.rotLimit) cfg.angStep a → ∀ t, IsTranslation cfg.xLimit cfg.yLimit cfg.translStep t →
        ((k = .tbm .credibilist ∧ i = .discrepancy) ∨ ∀ q ∈ cfg.usable p scan, ∃ cell, cfg.slam.api.read s.st.map
            (worldToCell cfg.slam.scale (seenAt (p.add ⟨t.x, t.y, a⟩) q)) = some cell ∧ k.unknown cell = false) →
        ∃ v, meanScore (seenProb k i cfg.slam.api s.st.map) cfg.slam.scale (W a) (cfg.usable p scan)
            (p.add ⟨t.x, t.y, a⟩) = some v ∧ v ≤ prob + cfg.slack + ((n - 1 : Nat) : ℝ) * (1 / 10 ^ 7)) ∧
      s'.st.pose = p.add delta ∧ s'.st.odom = d.1 ∧
      (delta.toBool = true → q = cfg.slam.props.localizedQuality) ∧
      (delta.toBool = false → q = cfg.slam.props.rawQuality) ∧
      Inserted cfg.slam s'.st.pose scan q cfg.slam.props.margin us ∧ cfg.slam.api.tellAll s.st.map us = some s'.st.map

/-- **What a message does (C95).** -/
theorem mr_message (hc : MrStarted k i cfg grow n) {init : MMap ℝ k.Cell × G} {s s' : Mr (MMap ℝ k.Cell × G)}
    (hs : MrSound i cfg n init s) {d : Poses.Pose ℝ × Msg ℝ} {prob : ℝ} (h : s.Step cfg d prob s') :
    MrMessage k i cfg n s d prob s' := by
  obtain ⟨pts, scan, w', delta, a, h1, h2, h3, h4, rfl⟩ := h
  obtain ⟨us, u1, u2⟩ := append_spec h4
  obtain ⟨W, m1, m2, m3, m4, m5⟩ := mr_matching hc hs h3
  exact ⟨scan, _, delta, _, us, W, ⟨pts, h1, h2⟩, ⟨rfl, rfl, rfl⟩, m1, m2, m3, m4, m5, rfl, rfl, fun hb => by rw [if_pos hb],
    fun hb => by rw [if_neg (by simp [hb])], u1, u2⟩

/-- Which points are usable does not depend on the pose: the map has cells everywhere. -/
theorem usable_anywhere (cfg : MrCfg k.Cell G) (p p' : Poses.Pose ℝ) (scan : List ScanPoint) :
    cfg.usable p scan = cfg.usable p' scan := by
  unfold MrCfg.usable usablePoints
  congr 1

/-- **A message without usable points is never got over (C95).** (The program is stopped by an assertion,
`Multires.empty_scan_aborts`.) -/
theorem mr_needs_points (hc : MrStarted k i cfg grow n) {init : MMap ℝ k.Cell × G} {s s' : Mr (MMap ℝ k.Cell × G)}
    (hs : MrSound i cfg n init s) {d : Poses.Pose ℝ × Msg ℝ} {prob : ℝ} {scan : List ScanPoint}
    (hscan : ScanOf cfg.slam d.2 scan) (p : Poses.Pose ℝ) (hu : cfg.usable p scan = []) : ¬ s.Step cfg d prob s' := by
  intro h
  obtain ⟨scan', p', delta, q, us, W, ⟨pts, e1, e2⟩, -, m1, -, -, m4, -⟩ := mr_message hc hs h
  obtain ⟨pts', e1', e2'⟩ := hscan
  obtain rfl : pts = pts' := Option.some.inj (e1.symm.trans e1')
  obtain rfl : scan' = scan := Option.some.inj (e2.symm.trans e2')
  rw [usable_anywhere cfg p' p, hu] at m1 m4
  have hl := (m1 delta.theta).weighed.len
  simp only [scanToCartesian, List.map_nil, List.length_nil, List.length_eq_zero_iff] at hl
  rw [hl] at m4
  simp [meanScore] at m4

/-! ## Messages are handled -/

/-- A message the matcher can work with: some usable reading is not zero. -/
def Looks (cfg : MrCfg k.Cell G) (msg : Msg ℝ) : Prop :=
  ∃ scan, ScanOf cfg.slam msg scan ∧ ∃ q ∈ cfg.usable ⟨0, 0, 0⟩ scan, q.range ≠ 0

theorem looks_at {msg : Msg ℝ} (h : Looks cfg msg) {scan : List ScanPoint} (hs : ScanOf cfg.slam msg scan)
    (p : Poses.Pose ℝ) : ∃ q ∈ cfg.usable p scan, q.range ≠ 0 := by
  obtain ⟨scan', ⟨pts', e1', e2'⟩, q, hq, hr⟩ := h
  obtain ⟨pts, e1, e2⟩ := hs
  obtain rfl : pts = pts' := Option.some.inj (e1.symm.trans e1')
  obtain rfl : scan' = scan := Option.some.inj (e2'.symm.trans e2)
  exact ⟨q, by rw [usable_anywhere cfg p ⟨0, 0, 0⟩]; exact hq, hr⟩

/-- The matcher can begin, in every sound state. -/
theorem mr_begins (hc : MrStarted k i cfg grow n) {init : MMap ℝ k.Cell × G} {s : Mr (MMap ℝ k.Cell × G)}
    (hs : MrSound i cfg n init s) {scan : List ScanPoint} {p : Poses.Pose ℝ} (hq : ∃ q ∈ cfg.usable p scan, q.range ≠ 0) :
    ∃ f w' S e, cfg.Begins s.weights scan p s.st.map f w' S e := by
  obtain ⟨w', hw'⟩ := mr_filter_total (cfg := cfg) s.weights hs.weights scan p
  obtain ⟨-, hreset⟩ := mr_filtered hw'
  obtain ⟨W, hW⟩ := turned_weights hs.weights hreset
  have hcl := Multires.kind_closed k i hc.fits
  obtain ⟨S, s1, s2, -⟩ := Multires.scores_exist (kindApi k i) (Reached k) hcl.range cfg.slam.scale n s.st.map.1 hs.bounds
    hs.cells w' ⟨p.x, p.y, 0⟩ (fun rot => scanToCartesian (cfg.usable p scan) (rot + p.theta)) (fun rot => by
      have h := turned_weighable hW hq (rot + p.theta)
      exact ⟨h.plain, W (rot + p.theta), h.len, h.given, h.nonneg, h.sum⟩) 0
  obtain ⟨rots, hr⟩ := hc.rotations
  exact ⟨_, w', S, _, hw', s1, by rw [hc.cell]; exact s2, by simp only [Engine.request, hr, Option.map_some]; rfl⟩

/-- **Every search ends (C95)**: in every sound state, no search takes more than some number of turns, and whenever it can
not go on it has an answer. -/
theorem mr_search_ends (hc : MrStarted k i cfg grow n) {init : MMap ℝ k.Cell × G} {s : Mr (MMap ℝ k.Cell × G)}
    (hs : MrSound i cfg n init s) {scan : List ScanPoint} {p : Poses.Pose ℝ} {f : List ScanPoint} {w' : Spw} {S : Search ℝ}
    {e : Engine ℝ} (hb : cfg.Begins s.weights scan p s.st.map f w' S e) :
    (∃ N, ∀ (m : Nat) (g : Nat → Engine ℝ), g 0 = e →
      (∀ j < m, SearchStep S cfg.slack cfg.translStep (g j) (g (j + 1))) → m ≤ N) ∧
    (∀ e1, Relation.ReflTransGen (SearchStep S cfg.slack cfg.translStep) e e1 →
      (∃ e2, SearchStep S cfg.slack cfg.translStep e1 e2) ∨ ∃ m, Multires.Finishes S cfg.slack cfg.translStep e1 m) ∧
    ∃ x, Result S cfg.slack cfg.translStep e x := by
  obtain ⟨rfl, hreset⟩ := mr_filtered hb.filtered
  obtain ⟨W, hW⟩ := turned_weights hs.weights hreset
  have hcl := Multires.kind_closed k i hc.fits
  have hS := hb.scores
  rw [hc.cell] at hS
  have hTW := fun rot => scored_weights hcl.range hs.bounds hs.cells hS hW rot
  have h0 := Multires.scores_nonneg (kindApi k i) (Reached k) hcl.range cfg.slam.scale n s.st.map.1 hs.bounds hs.cells w' _ _ S
    hS _ hTW
  refine Multires.search_terminates S cfg.slack hc.slack hb.diff.ge h0 cfg.xLimit cfg.yLimit (2 * cfg.rotLimit) cfg.angStep
    cfg.translStep hc.window.1.le hc.window.2.le (by linarith [hc.sector]) hc.angle hc.transl cfg.fuel [0] (by simp) e ?_
  simp only [Engine.requests, hb.begun, Option.bind_some]

/-- **Credibilist belief cells: no assertion of the search fails (C95)**, in any sound state, for any scan. -/
theorem mr_never_fails {cfg : MrCfg (CellKind.tbm .credibilist).Cell G} (hc : MrStarted (.tbm .credibilist) .discrepancy cfg grow n)
    (hn : n ≤ 101) (hx : 2 * cfg.xLimit ≤ cfg.slam.scale * 2 ^ (n - 1)) (hy : 2 * cfg.yLimit ≤ cfg.slam.scale * 2 ^ (n - 1))
    {init : MMap ℝ (CellKind.tbm .credibilist).Cell × G} {s : Mr (MMap ℝ (CellKind.tbm .credibilist).Cell × G)}
    (hs : MrSound .discrepancy cfg n init s) (scan : List ScanPoint) (p : Poses.Pose ℝ) :
    ¬ cfg.Fails s.weights scan p s.st.map := by
  rintro ⟨f, w', S, e, e', hb, hreach, ht⟩
  obtain ⟨rfl, hreset⟩ := mr_filtered hb.filtered
  obtain ⟨W, hW⟩ := turned_weights hs.weights hreset
  have hcl := Multires.kind_closed (.tbm .credibilist) .discrepancy hc.fits
  have hS := hb.scores
  rw [hc.cell] at hS
  have hTW := fun rot => scored_weights hcl.range hs.bounds hs.cells hS hW rot
  exact Multires.branch_assertion_holds (kindApi (.tbm .credibilist) .discrepancy) (Reached (.tbm .credibilist)) hcl.range
    Multires.credibilist_unknown_least cfg.slam.scale hc.scale_pos n hc.levels hn s.st.map.1 hs.bounds hs.cells w' ⟨p.x, p.y, 0⟩ _
    S hS (fun rot => ⟨(hTW rot).plain, W (rot + p.theta), (hTW rot).len, (hTW rot).given, (hTW rot).nonneg, (hTW rot).sum⟩)
    cfg.xLimit cfg.yLimit (2 * cfg.rotLimit) cfg.angStep cfg.slack cfg.translStep hc.window.1 hc.window.2 ⟨hx, hy⟩ hc.transl.le
    cfg.fuel 0 e e' hb.begun hreach ht

/-- One message. -/
theorem mr_step_total (hc : MrStarted k i cfg grow n) (g : G) (b : ℝ) (hbx : cfg.xLimit ≤ b) (hby : cfg.yLimit ≤ b)
    (N : Int) (hok : ∀ v, |v| ≤ 6 * N → cfg.slam.ok v = true) (hf : 4 * N + 2 ≤ cfg.slam.fuel) (R X : ℝ)
    (hX : X + R ≤ cfg.slam.scale * (N - 1)) (hR : 0 ≤ R) {s : Mr (MMap ℝ k.Cell × G)}
    (hs : MrSound i cfg n (MMap.create (kindApi k i) cfg.slam.scale n, g) s) (hh : HistOk s.st.hist)
    (d : Poses.Pose ℝ × Msg ℝ) (hg : GoodMsg cfg.slam R d.2) (hl : Looks cfg d.2)
    (hx : |s.st.pose.x + (d.1.x - s.st.odom.x)| + b ≤ X) (hy : |s.st.pose.y + (d.1.y - s.st.odom.y)| + b ≤ X) :
    (∃ prob s', s.Step cfg d prob s') ∧ ∀ prob s', s.Step cfg d prob s' → HistOk s'.st.hist ∧ s'.st.odom = d.1 ∧
      |s'.st.pose.x - s'.st.odom.x| ≤ |s.st.pose.x - s.st.odom.x| + b ∧
      |s'.st.pose.y - s'.st.odom.y| ≤ |s.st.pose.y - s.st.odom.y| + b := by
  obtain ⟨us, hus, -⟩ := hs.told
  have key : ∀ delta : Delta ℝ, InWindow cfg.xLimit cfg.yLimit delta →
      ∃ t, s.st.handle cfg.slam ⟨d.1, d.2, fun _ _ _ => some delta⟩ = some t ∧ HistOk t.hist ∧ t.odom = d.1 ∧
      |t.pose.x - t.odom.x| ≤ |s.st.pose.x - s.st.odom.x| + b ∧ |t.pose.y - t.odom.y| ≤ |s.st.pose.y - s.st.odom.y| + b := by
    intro delta hd
    obtain ⟨t, h1, -, h3, h4, h5, h6⟩ := handle_total_at (cfg := cfg.slam) (mr_lawful hc g) hc.scale_pos N hok hf R b X hX hR
      (s := s.st) (d := ⟨d.1, d.2, fun _ _ _ => some delta⟩) ⟨us, hus⟩ hh hg
      (fun scan _ => ⟨delta, rfl, hd.1.trans hbx, hd.2.trans hby⟩) hx hy
    exact ⟨t, h1, h3, h4, h5, h6⟩
  constructor
  · obtain ⟨scan, hscan, -⟩ := id hl
    obtain ⟨f, w', S, e, hb⟩ := mr_begins hc hs (p := s.st.pose.add (observerStep s.st.odom d.1).2) (looks_at hl hscan _)
    obtain ⟨-, -, x, hxr⟩ := mr_search_ends hc hs hb
    have hans : cfg.Answers s.weights scan (s.st.pose.add (observerStep s.st.odom d.1).2) s.st.map w'
        ⟨(center x.drift).x, (center x.drift).y, x.rot⟩ (S.ub x) := ⟨f, S, e, x, hb, hxr, rfl, rfl⟩
    obtain ⟨W, -, m2, -⟩ := mr_matching hc hs hans
    obtain ⟨t, h1, -⟩ := key _ m2
    obtain ⟨pts, e1, e2⟩ := hscan
    unfold St.handle at h1
    simp only [e1, e2, Option.bind_some, Option.map_eq_some_iff] at h1
    obtain ⟨a, ha, rfl⟩ := h1
    exact ⟨S.ub x, _, pts, scan, w', _, a, e1, e2, hans, ha, rfl⟩
  · intro prob s' h
    obtain ⟨pts, scan, w', delta, a, h1, h2, h3, h4, rfl⟩ := h
    obtain ⟨W, -, m2, -⟩ := mr_matching hc hs h3
    obtain ⟨t, g1, g2, g3, g4, g5⟩ := key _ m2
    unfold St.handle at g1
    simp only [h1, h2, Option.bind_some, h4, Option.map_some, Option.some.injEq] at g1
    subst g1
    exact ⟨g2, g3, g4, g5⟩

/-- **The program gets over every history (C95)**: messages it is ready for, each with a usable reading, odometry within `B` of
its origin and an initial offset within `A`, as long as the area reached stays within the integers the traversal copes with
(`N`). Whatever the answers to the first messages `ds1` are, the rest can be handled. -/
theorem mr_total (hc : MrStarted k i cfg grow n) (g : G) (b : ℝ) (hbx : cfg.xLimit ≤ b) (hby : cfg.yLimit ≤ b)
    (N : Int) (hok : ∀ v, |v| ≤ 6 * N → cfg.slam.ok v = true) (hf : 4 * N + 2 ≤ cfg.slam.fuel) (R A B : ℝ)
    (hR : 0 ≤ R) (ds1 ds2 : List (Poses.Pose ℝ × Msg ℝ))
    (hN : A + (ds1 ++ ds2).length * b + B + R ≤ cfg.slam.scale * (N - 1)) {s : Mr (MMap ℝ k.Cell × G)}
    (hs : MrSound i cfg n (MMap.create (kindApi k i) cfg.slam.scale n, g) s) (hh : HistOk s.st.hist)
    (hA : |s.st.pose.x - s.st.odom.x| ≤ A ∧ |s.st.pose.y - s.st.odom.y| ≤ A)
    (hd : ∀ d ∈ ds1 ++ ds2, GoodMsg cfg.slam R d.2 ∧ Looks cfg d.2 ∧ |d.1.x| ≤ B ∧ |d.1.y| ≤ B)
    {s1 : Mr (MMap ℝ k.Cell × G)} (h1 : Mr.Runs cfg s ds1 s1) : ∃ s', Mr.Runs cfg s1 ds2 s' := by
  have hb : 0 ≤ b := hc.window.1.le.trans hbx
  have room : ∀ (A : ℝ) (m : Nat) (s : Mr (MMap ℝ k.Cell × G)) (d : Poses.Pose ℝ × Msg ℝ),
      A + ((m + 1 : Nat) : ℝ) * b + B + R ≤ cfg.slam.scale * (N - 1) →
      |s.st.pose.x - s.st.odom.x| ≤ A ∧ |s.st.pose.y - s.st.odom.y| ≤ A → |d.1.x| ≤ B ∧ |d.1.y| ≤ B →
      (A + B + b) + R ≤ cfg.slam.scale * (N - 1) ∧ |s.st.pose.x + (d.1.x - s.st.odom.x)| + b ≤ A + B + b ∧
      |s.st.pose.y + (d.1.y - s.st.odom.y)| + b ≤ A + B + b := by
    intro A m s d hN hA hB
    simp only [Nat.cast_add, Nat.cast_one] at hN
    have hlen : (0 : ℝ) ≤ m * b := mul_nonneg (Nat.cast_nonneg _) hb
    have hx : s.st.pose.x + (d.1.x - s.st.odom.x) = (s.st.pose.x - s.st.odom.x) + d.1.x := by ring
    have hy : s.st.pose.y + (d.1.y - s.st.odom.y) = (s.st.pose.y - s.st.odom.y) + d.1.y := by ring
    refine ⟨by nlinarith, ?_, ?_⟩
    · rw [hx]; linarith [abs_add_le (s.st.pose.x - s.st.odom.x) d.1.x, hA.1, hB.1]
    · rw [hy]; linarith [abs_add_le (s.st.pose.y - s.st.odom.y) d.1.y, hA.2, hB.2]
  induction h1 generalizing A with
  | nil s =>
    simp only [List.nil_append] at hN hd
    induction ds2 generalizing s A with
    | nil => exact ⟨s, .nil s⟩
    | cons d ds ih =>
      obtain ⟨g1, g2, g3⟩ := hd d (by simp)
      obtain ⟨r1, r2, r3⟩ := room A ds.length s d (by simpa using hN) hA g3
      obtain ⟨⟨prob, t, ht⟩, hall⟩ := mr_step_total hc g b hbx hby N hok hf R _ r1 hR hs hh d g1 g2 r2 r3
      obtain ⟨a1, a2, a3, a4⟩ := hall prob t ht
      simp only [List.length_cons, Nat.cast_add, Nat.cast_one] at hN
      obtain ⟨s', hs'⟩ := ih t (A + b) (by linarith) (mr_step_sound hc hs ht) a1 ⟨by linarith [hA.1], by linarith [hA.2]⟩
        (fun d' hd' => hd d' (by simp [hd']))
      exact ⟨s', .cons ht hs'⟩
  | @cons s t s1 d ds prob ht hrest ih =>
    obtain ⟨g1, g2, g3⟩ := hd d (by simp)
    obtain ⟨r1, r2, r3⟩ := room A (ds ++ ds2).length s d (by simpa using hN) hA g3
    obtain ⟨-, hall⟩ := mr_step_total hc g b hbx hby N hok hf R _ r1 hR hs hh d g1 g2 r2 r3
    obtain ⟨a1, a2, a3, a4⟩ := hall prob t ht
    simp only [List.cons_append, List.length_cons, Nat.cast_add, Nat.cast_one] at hN
    exact ih (A + b) (by linarith) (mr_step_sound hc hs ht) a1 ⟨by linarith [hA.1], by linarith [hA.2]⟩
      (fun d' hd' => hd d' (by simp only [List.cons_append, List.mem_cons]; exact .inr hd'))

end

end Slam.Whole
