import Verif.Whole.Own
import Verif.Whole.Instances
import Verif.Matcher.MonteCarlo

/-!
# C87: the SLAM with its own scan matcher
-/

set_option autoImplicit false
set_option linter.unusedSectionVars false

namespace Slam.Whole
open Slam.Grid Slam.Cells Slam.Poses Slam.Sensor Slam.Score Slam.ScanAdder Slam.Worlds Slam.Tbm Slam.Matcher
open Slam.ScanMatch (Enumerator Event testedPoses FirstMax monteCarlo MCState hillClimbing HCState Climb)

variable {C M S : Type}

/-! ## A special case of the program with an arbitrary matcher -/

/-- The matcher's answers in a state of the program. -/
noncomputable def OwnCfg.answer (cfg : OwnCfg C M S) (s : Own M S) (scan : List ScanPoint) (p : Poses.Pose ℝ) (m : M) :
    Option (Delta ℝ) :=
  (cfg.matching s scan p m).map fun r => r.2.2.1

theorem own_handle_iff (cfg : OwnCfg C M S) (s : Own M S) (d : Poses.Pose ℝ × Msg ℝ) (t : St M) :
    s.st.handle cfg.slam ⟨d.1, d.2, cfg.answer s⟩ = some t ↔ ∃ s', s.handle cfg d = some s' ∧ s'.st = t := by
  unfold St.handle Own.handle OwnCfg.answer
  simp only [Option.bind_eq_some_iff, Option.map_eq_some_iff]
  constructor
  · rintro ⟨pts, h1, scan, h2, c, ⟨r, h3, rfl⟩, a, h4, rfl⟩
    exact ⟨_, ⟨pts, h1, scan, h2, r, h3, a, h4, rfl⟩, rfl⟩
  · rintro ⟨s', ⟨pts, h1, scan, h2, r, h3, a, h4, rfl⟩, rfl⟩
    exact ⟨pts, h1, scan, h2, _, ⟨r, h3, rfl⟩, a, h4, rfl⟩

/-- **Every execution is one of C80 (C87)**: with the messages given and the answers of the program's own matcher. So all
theorems about `St.run` (poses, maps, published grids) hold for the program with its matcher. -/
theorem own_run_is_run (cfg : OwnCfg C M S) (ds : List (Poses.Pose ℝ × Msg ℝ)) {s s' : Own M S} (h : s.run cfg ds = some s') :
    ∃ ds' : List (Datum M), ds'.map (fun d => (d.odom, d.msg)) = ds ∧ s.st.run cfg.slam ds' = some s'.st ∧
      ∀ d ∈ ds', ∃ t, d.matcher = cfg.answer t := by
  induction ds generalizing s with
  | nil =>
    simp only [Own.run, Option.some.injEq] at h
    subst h
    exact ⟨[], rfl, rfl, by simp⟩
  | cons d ds ih =>
    simp only [Own.run, Option.bind_eq_some_iff] at h
    obtain ⟨s1, h1, h2⟩ := h
    obtain ⟨ds', e1, e2, e3⟩ := ih h2
    refine ⟨⟨d.1, d.2, cfg.answer s⟩ :: ds', by simp [e1], ?_, ?_⟩
    · change (s.st.handle cfg.slam _).bind _ = _
      rw [(own_handle_iff cfg s d s1.st).2 ⟨s1, h1, rfl⟩]
      exact e2
    · intro d' hd'
      rcases List.mem_cons.1 hd' with rfl | hd'
      · exact ⟨s, rfl⟩
      · exact e3 d' hd'

/-! ## What the matcher sees -/

/-- The estimator of impacts fits the cells: `occupancy` may not be used with consistent belief cells, whose occupancy can
be NaN, nor with GMapping's, which say -1 before the first observation. -/
def Fits (k : CellKind) : Impact → Prop
  | .discrepancy => True
  | .occupancy => k ≠ .gmapping ∧ k ≠ .tbm .consistent

theorem expected_sane (obst : Grid.Point ℝ) : SaneT [(⟨true, some ⟨1, 1⟩, obst, 1⟩ : Aoo ℝ)] := by
  intro a ha o ho
  rw [List.mem_singleton] at ha
  subst ha
  simp only [Option.some.injEq] at ho
  subst ho
  refine ⟨⟨?_, ?_⟩, ⟨?_, ?_⟩, ⟨?_, ?_⟩⟩ <;> norm_num

theorem unit_compl {d : ℝ} (h : Unit01 d) : Unit01 (1 - d) := ⟨by linarith [h.2], by linarith [h.1]⟩

/-- Whatever a cell has observed, the impact of an obstacle on it is a probability. -/
theorem impact_unit (k : CellKind) (i : Impact) (hf : Fits k i) (as : List (Aoo ℝ)) (hs : SaneT as) (obst : Grid.Point ℝ) :
    ∃ v, k.impact i obst (as.foldl k.upd k.proto) = some v ∧ Unit01 v := by
  obtain ⟨h1, -, h3⟩ := cell_kinds k as hs
  cases i with
  | occupancy =>
    have he : ∀ cell, k.impact .occupancy obst cell = k.value cell := by
      intro cell
      cases k with
      | tbm k => cases k <;> rfl
      | _ => rfl
    rw [he]
    obtain ⟨hf1, hf2⟩ := hf
    cases hv : k.value (as.foldl k.upd k.proto) with
    | none => exact absurd (h3 hv).1 hf2
    | some v =>
      rcases h1 v hv with h | ⟨h, -⟩
      · exact ⟨v, rfl, h⟩
      · exact absurd h hf1
  | discrepancy =>
    cases k with
    | affine =>
      rcases h1 _ rfl with h | ⟨h, -⟩
      · exact ⟨_, (naive_impact _ h obst).2.1 _ _, h⟩
      · exact absurd h (by simp)
    | mean =>
      rcases h1 _ rfl with h | ⟨h, -⟩
      · exact ⟨_, (naive_impact _ h obst).2.2 _ _ _, h⟩
      · exact absurd h (by simp)
    | gmapping =>
      obtain ⟨g1, g2, -⟩ := gm_discrepancy_bounded (as.foldl GmCell.observe GmCell.create) ⟨true, some ⟨1, 1⟩, obst, 1⟩
        ⟨true, some ⟨1, 1⟩, obst, 1⟩
      exact ⟨_, rfl, unit_compl ⟨g1, g2.le⟩⟩
    | tbm t =>
      have e1 := (tbm_discrepancy_bounded t as hs _ (expected_sane obst)).1
      have e2 := (credibilist_discrepancy_bounded t as hs _ (expected_sane obst)).1
      cases t with
      | credibilist => exact ⟨_, rfl, unit_compl e2⟩
      | consistent => exact ⟨_, rfl, unit_compl e1⟩
      | unknownEven => exact ⟨_, rfl, unit_compl e1⟩

/-- **What the impact is (C87)**, for cells that have observed `as`: the occupancy probability for affine and averaging
cells; the mass of "occupied" for credibilist cells; for the other belief cells, with the masses `o` of "occupied" and `u` of
"unknown", `1 - u/4 - (1 - u/2)(1 - u/2 - o)`: one if certainly occupied, zero if certainly empty, a half if unknown; for
GMapping's cells a Gaussian of the distance to their mean obstacle. The occupancy estimator always yields the occupancy. -/
theorem impact_meaning (as : List (Aoo ℝ)) (hs : SaneT as) (obst : Grid.Point ℝ) :
    (∀ c : AffineCell ℝ, c = as.foldl AffineCell.observe AffineCell.create →
      CellKind.impact .affine .discrepancy obst c = some c.occ.prob) ∧
    (∀ c : MeanCell ℝ, c = as.foldl MeanCell.observe MeanCell.create →
      CellKind.impact .mean .discrepancy obst c = some c.occ.prob) ∧
    (∀ c : GmCell ℝ, CellKind.impact .gmapping .discrepancy obst c =
      some (Real.exp (-20 * ((c.obst.x - obst.x) ^ 2 + (c.obst.y - obst.y) ^ 2)))) ∧
    (∀ c : TCell ℝ, c = TCell.run .credibilist as →
      CellKind.impact (.tbm .credibilist) .discrepancy obst c = some (c.belief.mass {true})) ∧
    (∀ t c, t ≠ .credibilist → c = TCell.run t as →
      CellKind.impact (.tbm t) .discrepancy obst c = some (1 - c.belief.mass {true, false} / 4 -
        (1 - c.belief.mass {true, false} / 2) * (1 - c.belief.mass {true, false} / 2 - c.belief.mass {true}))) ∧
    ∀ (k : CellKind) c, k.impact .occupancy obst c = k.value c := by
  refine ⟨?_, ?_, ?_, ?_, ?_, ?_⟩
  · rintro c rfl
    rcases (cell_kinds .affine as hs).1 _ rfl with h | ⟨h, -⟩
    · exact (naive_impact _ h obst).2.1 _ _
    · exact absurd h (by simp)
  · rintro c rfl
    rcases (cell_kinds .mean as hs).1 _ rfl with h | ⟨h, -⟩
    · exact (naive_impact _ h obst).2.2 _ _ _
    · exact absurd h (by simp)
  · intro c
    obtain ⟨-, -, -, -, g⟩ := gm_discrepancy_bounded c ⟨true, some ⟨1, 1⟩, obst, 1⟩ ⟨true, some ⟨1, 1⟩, obst, 1⟩
    simp only [CellKind.impact, discrepancyOie, Option.map_some, g, discrepancyImpact, sub_sub_cancel]
  · rintro c rfl
    have := (credibilist_discrepancy_bounded .credibilist as hs _ (expected_sane obst)).2
    simp only [CellKind.impact, discrepancyOie, Option.map_some, this, discrepancyImpact, obsOcc]
    norm_num
  · rintro t c ht rfl
    obtain ⟨h1, hcf⟩ := run_isMass t as hs
    have hd : tbmDiscrepancy (TCell.run t as) ⟨true, some ⟨1, 1⟩, obst, 1⟩ =
        (TCell.run t as).belief.mass {true, false} / 4 + (1 - (TCell.run t as).belief.mass {true, false} / 2) *
          (1 - (TCell.run t as).belief.mass {true, false} / 2 - (TCell.run t as).belief.mass {true}) := by
      have ht' := aoo_isMass (expected_sane obst) (List.mem_singleton.2 rfl)
      have hm1 : (TCell.run t as).belief.mass {true} = (TCell.run t as).belief.occupied := by simp [TBM.mass]
      have hm2 : (TCell.run t as).belief.mass {true, false} = (TCell.run t as).belief.unknown := by
        simp [TBM.mass]
      rw [hm1, hm2]
      unfold tbmDiscrepancy
      simp only
      rw [conj_eq _ _ ht'.sum h1.sum]
      obtain ⟨a1, a2, a3, -, a5⟩ := (isMass_iff _).1 h1
      rw [aoo_eq]
      simp only [obsOcc, obsWeight]
      rw [hcf] at a5 ⊢
      have ho : (TCell.run t as).belief.occupied ≤ 1 := by linarith
      rw [abs_of_nonneg (by linarith)]
      have he : (TCell.run t as).belief.empty = 1 - (TCell.run t as).belief.unknown - (TCell.run t as).belief.occupied := by
        linarith
      rw [he]
      ring
    have hi : CellKind.impact (.tbm t) .discrepancy obst (TCell.run t as) =
        some (1 - tbmDiscrepancy (TCell.run t as) ⟨true, some ⟨1, 1⟩, obst, 1⟩) := by
      cases t with
      | credibilist => exact absurd rfl ht
      | consistent => rfl
      | unknownEven => rfl
    rw [hi, hd]
    congr 1
    ring
  · intro k c
    cases k with
    | tbm k => cases k <;> rfl
    | _ => rfl

/-- The probability the matcher sees in a cell of the map, for an obstacle at `q`. -/
noncomputable def seenProb (k : CellKind) (i : Impact) (api : MapApi k.Cell M) (m : M) (q : Grid.Point ℝ) (c : Coord) : ℝ :=
  ((api.read m c).bind (k.impact i q)).getD 0

/-- A map that was told sane observations only. -/
def SaneTold (api : MapApi C M) (init m : M) : Prop := ∃ us, api.tellAll init us = some m ∧ SaneT (us.map Prod.snd)

theorem sane_shows (k : CellKind) (i : Impact) (hf : Fits k i) (cfg : OwnCfg k.Cell M S) {init m : M}
    (hL : Lawful cfg.slam.api k.upd k.proto init) (h : SaneTold cfg.slam.api init m) :
    Shows (cfg.view m) (k.impact i) (seenProb k i cfg.slam.api m) := by
  obtain ⟨us, h1, h2⟩ := h
  obtain ⟨m', e1, e2⟩ := hL us
  rw [h1, Option.some.injEq] at e1
  subst e1
  intro c
  refine ⟨_, e2 c, fun obst => ?_⟩
  obtain ⟨v, hv, hu⟩ := impact_unit k i hf (about c us) (about_sane h2 c) obst
  simp only [seenProb, e2 c, Option.bind_some, hv, Option.getD_some]
  exact ⟨trivial, hu⟩

theorem scanOf_polar {pts : List (Worlds.Point ℝ)} {scan : List ScanPoint} (h : scanOf pts = some scan) :
    ∀ p ∈ scan, p.factor = 1 := by
  induction pts generalizing scan with
  | nil =>
    simp only [scanOf, Option.some.injEq] at h
    subst h
    simp
  | cons q pts ih =>
    simp only [scanOf, Option.bind_eq_some_iff, Option.map_eq_some_iff] at h
    obtain ⟨r, -, rest, h2, rfl⟩ := h
    intro p hp
    rcases List.mem_cons.1 hp with rfl | hp
    · rfl
    · exact ih h2 p hp

theorem reset_ok {w w' : Spw} {pts : List ScanPoint} (hw : Spw.Ok w) (h : w.reset pts = some w') : Spw.Ok w' := by
  intro hist' e
  subst e
  cases w with
  | even c => simp [Spw.reset] at h
  | viny => simp [Spw.reset] at h
  | ahr hist =>
    obtain ⟨h1, h2⟩ := hw hist rfl
    obtain ⟨h', r1, r2, r3, -⟩ := reset_counts hist h1 h2 pts
    simp only [Spw.reset, r1, Option.map_some, Option.some.injEq, Spw.ahr.injEq] at h
    subst h
    exact ⟨r2, by omega⟩

/-- What holds in every state of the program. -/
structure Sound (cfg : OwnCfg C M S) (init : M) (s : Own M S) : Prop where
  map : SaneTold cfg.slam.api init s.st.map
  weights : Spw.Ok s.weights

/-- A configuration the program can be started with: a growing map of cells of kind `k`, impacts that fit them, estimators
and qualities within `[0, 1]`, a positive scale. -/
structure Started (k : CellKind) (i : Impact) (cfg : OwnCfg k.Cell M S) (init : M) : Prop where
  fits : Fits k i
  impact : cfg.matcher.imp = k.impact i
  lawful : Lawful cfg.slam.api k.upd k.proto init
  adder : SoundFor cfg.slam.adder cfg.slam.scale
  qualities : SoundQualities cfg.slam.props
  scale : 0 < cfg.slam.scale
  fuel : 0 < cfg.matcher.cellFuel

variable {k : CellKind} {i : Impact} {cfg : OwnCfg k.Cell M S} {init : M}

/-- The usable points of a scan at the pose `p`. -/
noncomputable def OwnCfg.usable (cfg : OwnCfg C M S) (p : Poses.Pose ℝ) (scan : List ScanPoint) : List ScanPoint :=
  usablePoints cfg.matcher.filter cfg.slam.scale (fun _ => true) p scan

theorem matching_spec (hc : Started k i cfg init) {s : Own M S} (hs : Sound cfg init s) (scan : List ScanPoint)
    (hfac : ∀ p ∈ scan, p.factor = 1) (p : Poses.Pose ℝ) :
    ∃ w' ws, Weights s.weights w' (cfg.usable p scan) ws ∧
      cfg.matching s scan p s.st.map =
        (ScanMatch.processScan cfg.enumerator (meanScore (seenProb k i cfg.slam.api s.st.map) cfg.slam.scale ws
          (cfg.usable p scan)) cfg.fuel (cfg.enumerator.reset s.enum) p).map fun r => (w', r) := by
  obtain ⟨w', ws, h1, h2⟩ := matcher_on_map cfg.matcher cfg.enumerator (cfg.view s.st.map) _
    (hc.impact ▸ sane_shows k i hc.fits cfg hc.lawful hs.map) hc.scale hc.fuel s.weights hs.weights scan hfac p
  exact ⟨w', ws, h1, h2 _ _⟩

theorem handle_sound (hc : Started k i cfg init) {s s' : Own M S} (hs : Sound cfg init s) {d : Poses.Pose ℝ × Msg ℝ}
    (h : s.handle cfg d = some s') : Sound cfg init s' := by
  constructor
  · have := (own_handle_iff cfg s d s'.st).2 ⟨s', h, rfl⟩
    obtain ⟨us, h1, h2⟩ := handle_sane hc.adder hc.qualities this
    obtain ⟨vs, e1, e2⟩ := hs.map
    refine ⟨vs ++ us, by rw [tellAll_append, e1]; exact h1, ?_⟩
    rw [List.map_append]
    exact sane_append e2 h2
  · simp only [Own.handle, Option.bind_eq_some_iff, Option.map_eq_some_iff] at h
    obtain ⟨pts, -, scan, h2, r, h3, a, -, rfl⟩ := h
    obtain ⟨w', ws, g1, g2⟩ := matching_spec hc hs scan (scanOf_polar h2) (s.st.pose.add (observerStep s.st.odom d.1).2)
    rw [g2, Option.map_eq_some_iff] at h3
    obtain ⟨r', -, rfl⟩ := h3
    exact reset_ok hs.weights g1.reset

/-- Every reachable state is sound. -/
theorem run_sound (hc : Started k i cfg init) (ds : List (Poses.Pose ℝ × Msg ℝ)) {s s' : Own M S} (hs : Sound cfg init s)
    (h : s.run cfg ds = some s') : Sound cfg init s' := by
  induction ds generalizing s with
  | nil =>
    simp only [Own.run, Option.some.injEq] at h
    subst h
    exact hs
  | cons d ds ih =>
    simp only [Own.run, Option.bind_eq_some_iff] at h
    obtain ⟨s1, h1, h2⟩ := h
    exact ih (handle_sound hc hs h1) h2

/-- A fresh program is sound. -/
theorem start_sound (cfg : OwnCfg C M S) (s : Own M S) (hw : Spw.Ok s.weights) : Sound cfg s.st.map s :=
  ⟨⟨[], rfl, sane_nil⟩, hw⟩

/-! ## C87 -/

/-- **What a message does (C87)**: the matcher starts from the pose the odometry predicts, on the map so far, in the state
the previous message left it in (so a random generator goes on where it stopped); the robot moves by its answer; the scan
enters the map at the new pose, with the quality configured for corrected poses exactly if the answer is not zero. -/
theorem own_message {cfg : OwnCfg C M S} {s s' : Own M S} {d : Poses.Pose ℝ × Msg ℝ} (h : s.handle cfg d = some s') :
    ∃ scan p delta best events q us, ScanOf cfg.slam d.2 scan ∧
      (p.x = s.st.pose.x + (d.1.x - s.st.odom.x) ∧ p.y = s.st.pose.y + (d.1.y - s.st.odom.y) ∧
        p.theta = s.st.pose.theta + (d.1.theta - s.st.odom.theta)) ∧
      cfg.matcher.processScan cfg.enumerator (cfg.view s.st.map) cfg.fuel s.weights (cfg.enumerator.reset s.enum) scan p =
        some (s'.weights, s'.enum, delta, best, events) ∧
      s'.st.pose = p.add delta ∧ s'.st.odom = d.1 ∧
      (delta.toBool = true → q = cfg.slam.props.localizedQuality) ∧
      (delta.toBool = false → q = cfg.slam.props.rawQuality) ∧
      Inserted cfg.slam s'.st.pose scan q cfg.slam.props.margin us ∧ cfg.slam.api.tellAll s.st.map us = some s'.st.map := by
  simp only [Own.handle, Option.bind_eq_some_iff, Option.map_eq_some_iff] at h
  obtain ⟨pts, h1, scan, h2, ⟨w', e', delta, best, events⟩, h3, a, h4, rfl⟩ := h
  obtain ⟨us, u1, u2⟩ := append_spec h4
  exact ⟨scan, _, delta, best, events, _, us, ⟨pts, h1, h2⟩, ⟨rfl, rfl, rfl⟩, h3, rfl, rfl, fun hb => by rw [if_pos hb],
    fun hb => by rw [if_neg (by simp [hb])], u1, u2⟩

/-- **The pose of every message is the best of the poses tested on the map built so far (C87).** After any history `ds`, let
a message be handled; `p` is the pose according to the odometry. The scan that enters the map does so at the pose that,
among the tested ones (the first of which is `p`), has the highest weighted mean of the probabilities the map shows in the
cells the usable points fall into; if no point is usable, at `p`. -/
theorem own_pose_is_best (hc : Started k i cfg init) (ds : List (Poses.Pose ℝ × Msg ℝ)) {s s1 s2 : Own M S}
    (hs : s.st.map = init) (hw : Spw.Ok s.weights) (h1 : s.run cfg ds = some s1) (d : Poses.Pose ℝ × Msg ℝ)
    (h2 : s1.handle cfg d = some s2) :
    ∃ scan p, ScanOf cfg.slam d.2 scan ∧ p = s1.st.pose.add (d.1.sub s1.st.odom) ∧
      ((∃ sp ∈ cfg.usable p scan, 0 < sp.range) →
        ∃ ws rest score, Weights s1.weights s2.weights (cfg.usable p scan) ws ∧ Unit01 score ∧
          FirstMax (meanScore (seenProb k i cfg.slam.api s1.st.map) cfg.slam.scale ws (cfg.usable p scan)) (p :: rest)
            s2.st.pose score) ∧
      (cfg.usable p scan = [] → s2.st.pose = p) := by
  subst hs
  have hs1 := run_sound hc ds (start_sound cfg s hw) h1
  simp only [Own.handle, Option.bind_eq_some_iff, Option.map_eq_some_iff] at h2
  obtain ⟨pts, e1, scan, e2, r, e3, a, -, rfl⟩ := h2
  refine ⟨scan, _, ⟨pts, e1, e2⟩, rfl, ?_, ?_⟩
  · intro hu
    obtain ⟨w', e', delta, best, events⟩ := r
    obtain ⟨ws, g1, ⟨rest, g2⟩, g3, -⟩ := matcher_returns_best cfg.matcher cfg.enumerator (cfg.view s1.st.map) _
      (hc.impact ▸ sane_shows k i hc.fits cfg hc.lawful hs1.map) hc.scale hc.fuel s1.weights hs1.weights scan
      (scanOf_polar e2) _ _ _ _ _ _ _ _ e3
    obtain ⟨score, -, g5, g6⟩ := g3 hu
    rw [g2] at g6
    exact ⟨ws, rest, score, g1, g5, g6⟩
  · intro hu
    obtain ⟨w', e', delta, best, events⟩ := r
    obtain ⟨ws, -, -, -, g4⟩ := matcher_returns_best cfg.matcher cfg.enumerator (cfg.view s1.st.map) _
      (hc.impact ▸ sane_shows k i hc.fits cfg hc.lawful hs1.map) hc.scale hc.fuel s1.weights hs1.weights scan
      (scanOf_polar e2) _ _ _ _ _ _ _ _ e3
    obtain ⟨-, g⟩ := g4 hu
    simp [g, Poses.Pose.add, Poses.Pose.zero, observerStep]

/-- One message, matched by Monte Carlo search. -/
theorem own_monte_carlo_handle {cfg : OwnCfg k.Cell M (MCState ℝ)} (hc : Started k i cfg init) (maxFailed maxPoses : Nat)
    (trans rot : ℝ) (sample : Nat → ℝ → ℝ → Delta ℝ) (hE : cfg.enumerator = monteCarlo maxFailed maxPoses trans rot sample)
    (hF : cfg.fuel = maxPoses + 1) (b : ℝ) (hb : 0 ≤ b) (hsam : ∀ n x y, WithinShift b (sample n x y))
    (N : Int) (hok : ∀ v, |v| ≤ 6 * N → cfg.slam.ok v = true) (hf : 4 * N + 2 ≤ cfg.slam.fuel) (R X : ℝ)
    (hX : X + R ≤ cfg.slam.scale * (N - 1)) (hR : 0 ≤ R) {s : Own M (MCState ℝ)} (hs : Sound cfg init s)
    (hh : HistOk s.st.hist) (d : Poses.Pose ℝ × Msg ℝ) (hg : GoodMsg cfg.slam R d.2)
    (hx : |s.st.pose.x + (d.1.x - s.st.odom.x)| + maxPoses * b ≤ X)
    (hy : |s.st.pose.y + (d.1.y - s.st.odom.y)| + maxPoses * b ≤ X) :
    ∃ s', s.handle cfg d = some s' ∧ HistOk s'.st.hist ∧ s'.st.odom = d.1 ∧
      |s'.st.pose.x - s'.st.odom.x| ≤ |s.st.pose.x - s.st.odom.x| + maxPoses * b ∧
      |s'.st.pose.y - s'.st.odom.y| ≤ |s.st.pose.y - s.st.odom.y| + maxPoses * b := by
  obtain ⟨us, hus, -⟩ := hs.map
  obtain ⟨t, h1, -, h3, h4, h5, h6⟩ := handle_total_at (cfg := cfg.slam) hc.lawful hc.scale N hok hf R (maxPoses * b) X hX hR
    (s := s.st) (d := ⟨d.1, d.2, cfg.answer s⟩) ⟨us, hus⟩ hh hg (by
      rintro scan ⟨pts, e1, e2⟩
      obtain ⟨w', e', delta, best, events, g1, -, g3⟩ := monte_carlo_on_map cfg.matcher maxFailed maxPoses trans rot sample
        (cfg.view s.st.map) _ (hc.impact ▸ sane_shows k i hc.fits cfg hc.lawful hs.map) hc.scale hc.fuel s.weights hs.weights
        scan (scanOf_polar e2) (s.st.pose.add (d.1.sub s.st.odom)) (cfg.enumerator.reset s.enum)
      obtain ⟨b1, b2, -⟩ := g3 b hb hsam
      refine ⟨delta, ?_, b1, b2⟩
      simp only [OwnCfg.answer, OwnCfg.matching, hE, hF]
      rw [hE] at g1
      rw [g1]
      rfl) hx hy
  obtain ⟨s', e, rfl⟩ := (own_handle_iff cfg s d t).1 h1
  exact ⟨s', e, h3, h4, h5, h6⟩

/-- **The program with its own Monte Carlo matcher does not fail (C87).** Messages without NaN ranges, whose angles fit
together and which leave more points than the margin; random shifts within `b` along each axis; odometry within `B` of its
origin, an initial offset from it within `A`: as long as the area reached (`A + n·maxPoses·b + B + R` in cells, for `n`
messages) stays within integers the traversal copes with (`N`), all messages are handled: no assertion fails in the
filtering, the weighting, the scoring, the search or the map, and no loop runs on. -/
theorem own_monte_carlo_total {cfg : OwnCfg k.Cell M (MCState ℝ)} (hc : Started k i cfg init) (maxFailed maxPoses : Nat)
    (trans rot : ℝ) (sample : Nat → ℝ → ℝ → Delta ℝ) (hE : cfg.enumerator = monteCarlo maxFailed maxPoses trans rot sample)
    (hF : cfg.fuel = maxPoses + 1) (b : ℝ) (hb : 0 ≤ b) (hsam : ∀ n x y, WithinShift b (sample n x y))
    (N : Int) (hok : ∀ v, |v| ≤ 6 * N → cfg.slam.ok v = true) (hf : 4 * N + 2 ≤ cfg.slam.fuel) (R A B : ℝ)
    (hR : 0 ≤ R) (ds : List (Poses.Pose ℝ × Msg ℝ))
    (hN : A + ds.length * (maxPoses * b) + B + R ≤ cfg.slam.scale * (N - 1)) {s : Own M (MCState ℝ)}
    (hs : Sound cfg init s) (hh : HistOk s.st.hist) (hA : |s.st.pose.x - s.st.odom.x| ≤ A ∧ |s.st.pose.y - s.st.odom.y| ≤ A)
    (hd : ∀ d ∈ ds, GoodMsg cfg.slam R d.2 ∧ |d.1.x| ≤ B ∧ |d.1.y| ≤ B) :
    ∃ s', s.run cfg ds = some s' := by
  induction ds generalizing s A with
  | nil => exact ⟨s, rfl⟩
  | cons d ds ih =>
    obtain ⟨g, b1, b2⟩ := hd d (by simp)
    simp only [List.length_cons, Nat.cast_add, Nat.cast_one] at hN
    have he : 0 ≤ (maxPoses : ℝ) * b := by positivity
    generalize hE' : (maxPoses : ℝ) * b = e at hN he
    have hlen : (0 : ℝ) ≤ ds.length * e := mul_nonneg (Nat.cast_nonneg _) he
    have hx : |s.st.pose.x + (d.1.x - s.st.odom.x)| ≤ A + B := by
      have : s.st.pose.x + (d.1.x - s.st.odom.x) = (s.st.pose.x - s.st.odom.x) + d.1.x := by ring
      rw [this]; linarith [abs_add_le (s.st.pose.x - s.st.odom.x) d.1.x]
    have hy : |s.st.pose.y + (d.1.y - s.st.odom.y)| ≤ A + B := by
      have : s.st.pose.y + (d.1.y - s.st.odom.y) = (s.st.pose.y - s.st.odom.y) + d.1.y := by ring
      rw [this]; linarith [abs_add_le (s.st.pose.y - s.st.odom.y) d.1.y]
    obtain ⟨s1, h1, h3, h4, h5, h6⟩ := own_monte_carlo_handle hc maxFailed maxPoses trans rot sample hE hF b hb hsam N hok hf
      R (A + B + e) (by nlinarith) hR hs hh d g (by rw [hE']; linarith) (by rw [hE']; linarith)
    rw [hE'] at h5 h6
    obtain ⟨s', h'⟩ := ih (A + e) (by rw [hE']; nlinarith) (handle_sound hc hs h1) h3 ⟨by linarith, by linarith⟩
      fun d' hd' => hd d' (by simp [hd'])
    refine ⟨s', ?_⟩
    change (s.handle cfg d).bind _ = _
    rw [h1]
    exact h'

/-- On a map that was told finitely much, only finitely many different probabilities are seen, unless the impact depends on
where in its cell the obstacle is (GMapping's cells). -/
theorem finitely_many_probabilities (hk : k ≠ .gmapping) (cfg : OwnCfg k.Cell M S) {m : M}
    (hL : Lawful cfg.slam.api k.upd k.proto init) (h : SaneTold cfg.slam.api init m) :
    ∃ V : Finset ℝ, ∀ q c, seenProb k i cfg.slam.api m q c ∈ V := by
  classical
  obtain ⟨us, h1, -⟩ := h
  obtain ⟨m', e1, e2⟩ := hL us
  rw [h1, Option.some.injEq] at e1
  subst e1
  have hq : ∀ (q q' : Grid.Point ℝ) cell, k.impact i q cell = k.impact i q' cell := by
    intro q q' cell
    cases i with
    | occupancy =>
      cases k with
      | tbm k => cases k <;> rfl
      | _ => rfl
    | discrepancy =>
      cases k with
      | gmapping => exact absurd rfl hk
      | tbm k => cases k <;> rfl
      | _ => rfl
  refine ⟨insert (((k.impact i ⟨0, 0⟩ k.proto)).getD 0)
    ((us.map fun u => seenProb k i cfg.slam.api m ⟨0, 0⟩ u.1).toFinset), fun q c => ?_⟩
  rw [Finset.mem_insert, List.mem_toFinset]
  by_cases hc : c ∈ us.map Prod.fst
  · right
    obtain ⟨u, hu, rfl⟩ := List.mem_map.1 hc
    refine List.mem_map.2 ⟨u, hu, ?_⟩
    simp only [seenProb, e2 u.1, Option.bind_some]
    rw [hq]
  · left
    have ha : about c us = [] := by
      unfold about
      rw [List.map_eq_nil_iff, List.filter_eq_nil_iff]
      intro u hu
      simp only [decide_eq_true_eq]
      rintro rfl
      exact hc (List.mem_map.2 ⟨u, hu, rfl⟩)
    simp only [seenProb, e2 c, ha, List.foldl_nil, Option.bind_some]
    rw [hq]

/-- **Hill climbing always ends in the program (C87)**: in every reachable state and for every scan and pose, the matching on
the map built so far ends (for some number of candidates), with the outcome of the rounds of C30. -/
theorem own_hill_climbing_ends {cfg : OwnCfg k.Cell M (HCState ℝ)} (hc : Started k i cfg init) (hk : k ≠ .gmapping) (F : Nat)
    (t r : ℝ) (hE : cfg.enumerator = hillClimbing F t r) (ds : List (Poses.Pose ℝ × Msg ℝ)) {s s1 : Own M (HCState ℝ)}
    (hs : s.st.map = init) (hw : Spw.Ok s.weights) (h1 : s.run cfg ds = some s1) (scan : List ScanPoint)
    (hfac : ∀ p ∈ scan, p.factor = 1) (p : Poses.Pose ℝ) :
    ∃ fuel w' e' best score events ws tested,
      OwnCfg.matching { cfg with fuel := fuel } s1 scan p s1.st.map = some (w', e', Poses.Pose.sub best p, score, events) ∧
      Weights s1.weights w' (cfg.usable p scan) ws ∧
      Climb (meanScore (seenProb k i cfg.slam.api s1.st.map) cfg.slam.scale ws (cfg.usable p scan)) F t r p
        (meanScore (seenProb k i cfg.slam.api s1.st.map) cfg.slam.scale ws (cfg.usable p scan) p) tested best score := by
  subst hs
  have hs1 := run_sound hc ds (start_sound cfg s hw) h1
  obtain ⟨V, hV⟩ := finitely_many_probabilities (i := i) hk cfg hc.lawful hs1.map
  obtain ⟨fuel, w', e', best, score, events, ws, tested, g1, g2, g3⟩ := hill_climbing_ends_on_map cfg.matcher F t r
    (cfg.view s1.st.map) _ (hc.impact ▸ sane_shows k i hc.fits cfg hc.lawful hs1.map) V hV hc.scale hc.fuel s1.weights
    hs1.weights scan hfac p (cfg.enumerator.reset s1.enum)
  refine ⟨fuel, w', e', best, score, events, ws, tested, ?_, g2, g3⟩
  simp only [OwnCfg.matching, hE]
  rw [hE] at g1
  exact g1

/-! ## A concrete program -/

/-- The program of `Instances`, with Monte Carlo matching: at most 100 attempts, discrepancies, even weights. -/
noncomputable def ownCfg (sample : Nat → ℝ → ℝ → Delta ℝ) :
    OwnCfg (CellKind.Cell .mean) (PlainMap.PMap (MeanCell ℝ)) (MCState ℝ) where
  slam := demoCfg
  matcher := ⟨⟨0, -1⟩, .obstacle, CellKind.impact .mean .discrepancy, 1⟩
  enumerator := monteCarlo 20 100 (1 / 10) (1 / 10) sample
  dims := fun m => ⟨m.width, m.height⟩
  origin := fun m => m.origin
  fuel := 101

/-- Its start. -/
noncomputable def ownStart : Own (PlainMap.PMap (MeanCell ℝ)) (MCState ℝ) := ⟨demoStart, .even 1, ⟨0, 0, 0, 0, 0⟩⟩

theorem own_demo_started (sample : Nat → ℝ → ℝ → Delta ℝ) : Started .mean .discrepancy (ownCfg sample) ownStart.st.map where
  fits := trivial
  impact := rfl
  lawful := demo_lawful
  adder := const_sound _ _ ⟨by norm_num [Unit01], by norm_num [Unit01]⟩ ⟨by norm_num [Unit01], by norm_num [Unit01]⟩ _ _ _
  qualities := ⟨by norm_num [ownCfg, demoCfg, Unit01], by norm_num [ownCfg, demoCfg, Unit01]⟩
  scale := by norm_num [ownCfg, demoCfg]
  fuel := by norm_num [ownCfg]

theorem own_demo_runs (sample : Nat → ℝ → ℝ → Delta ℝ) (hsam : ∀ n x y, WithinShift (1 / 100) (sample n x y)) (n : Nat)
    (hn : n ≤ 100) : ∃ s', ownStart.run (ownCfg sample) (List.replicate n (demoDatum.odom, demoDatum.msg)) = some s' := by
  have hn' : (n : ℝ) ≤ 100 := by exact_mod_cast hn
  refine own_monte_carlo_total (own_demo_started sample) 20 100 (1 / 10) (1 / 10) sample rfl rfl (1 / 100) (by norm_num) hsam
    1000 ?_ (by norm_num [ownCfg, demoCfg]) 30 0 2 (by norm_num) _ (by
      simp only [List.length_replicate, ownCfg, demoCfg]; push_cast; linarith)
    (start_sound _ _ (by intro h e; cases e)) ?_ (by norm_num [ownStart, demoStart]) ?_
  · intro v hv
    simp only [ownCfg, demoCfg, decide_eq_true_eq]
    exact hv
  · intro h' e
    simp only [ownStart, demoStart, Option.some.injEq] at e
    subst e
    exact ⟨⟨by simp [Hist.create], by simp [Hist.create]⟩, by simp [Hist.create]⟩
  · intro d hd
    rw [List.mem_replicate] at hd
    rw [hd.2]
    refine ⟨⟨by simp [demoDatum], by norm_num [demoDatum, demoCfg, ownCfg], by norm_num [demoDatum], by norm_num [demoDatum], ?_⟩,
      by norm_num [demoDatum], by norm_num [demoDatum]⟩
    intro pts h
    have h' : msg2scan demoDatum.msg false (1 / 100) = some pts := h
    rw [demo_message, Option.some.injEq] at h'
    subst h'
    right
    simp [demoCfg, ownCfg]

/-- The hypotheses of the theorems hold: after fifty messages, the next one is matched on the map built so far. -/
example (sample : Nat → ℝ → ℝ → Delta ℝ) (hsam : ∀ n x y, WithinShift (1 / 100) (sample n x y)) :
    ∃ s1 s2, ownStart.run (ownCfg sample) (List.replicate 50 (demoDatum.odom, demoDatum.msg)) = some s1 ∧
      s1.handle (ownCfg sample) (demoDatum.odom, demoDatum.msg) = some s2 ∧
      ∃ f tested score, FirstMax f tested s2.st.pose score ∧ Unit01 score := by
  classical
  have split : ∀ (n : Nat) (s s' : Own (PlainMap.PMap (MeanCell ℝ)) (MCState ℝ)) (x : Poses.Pose ℝ × Msg ℝ),
      s.run (ownCfg sample) (List.replicate (n + 1) x) = some s' →
      ∃ s1, s.run (ownCfg sample) (List.replicate n x) = some s1 ∧ s1.handle (ownCfg sample) x = some s' := by
    intro n
    induction n with
    | zero =>
      intro s s' x h
      simp only [List.replicate, Own.run, Option.bind_eq_some_iff, Option.some.injEq] at h
      obtain ⟨a, h, rfl⟩ := h
      exact ⟨s, rfl, h⟩
    | succ n ih =>
      intro s s' x h
      rw [List.replicate_succ] at h
      simp only [Own.run, Option.bind_eq_some_iff] at h
      obtain ⟨a, h1, h2⟩ := h
      obtain ⟨b, h3, h4⟩ := ih a s' x h2
      refine ⟨b, ?_, h4⟩
      rw [List.replicate_succ]
      simp only [Own.run, h1, Option.bind_some, h3]
  obtain ⟨s2, h⟩ := own_demo_runs sample hsam 51 (by norm_num)
  obtain ⟨s1, h1, h2⟩ := split 50 _ _ _ h
  refine ⟨s1, s2, h1, h2, ?_⟩
  obtain ⟨scan, p, ⟨pts, e1, e2⟩, -, e3, -⟩ := own_pose_is_best (own_demo_started sample) _ rfl (by intro h e; cases e) h1 _ h2
  have e1' : msg2scan demoDatum.msg false (1 / 100) = some pts := e1
  rw [demo_message, Option.some.injEq] at e1'
  subst e1'
  simp only [scanOf, Option.bind_some, Option.map_some, Option.some.injEq] at e2
  subst e2
  obtain ⟨ws, rest, score, -, hu, hm⟩ := e3 ⟨.polar 4 0 true 1, by
    have hus := Matcher.demo_usable 0 0 4 ⟨p.x, p.y, p.theta⟩
    simp only [OwnCfg.usable, usablePoints, List.mem_map, List.mem_filter, decide_eq_true_eq]
    exact ⟨(.polar 4 0 true 1, 0), ⟨by simp, hus.2 (.inl rfl)⟩, rfl⟩, by norm_num [ScanPoint.range]⟩
  exact ⟨_, _, score, hm, hu⟩

end Slam.Whole
