import Verif.Matcher.Machine

/-!
# Which cells a scan matcher reads

A scan matcher looks at a map only in the cells where a point of the scan is when seen from a pose it tries (`has_cell` only from
the pose it starts at). Two maps that agree there get the same answer.
-/

set_option autoImplicit false
set_option linter.unusedSectionVars false

namespace Slam.Matcher
open Slam.Grid Slam.Rect Slam.Sensor Slam.Score Slam.ScanMatch Slam.Cells Slam.Drift
open Slam.Poses (Delta)

variable {C T S : Type}

/-! ## Specification -/

/-- What can be read in the cell of the first map is read in that of the second, too. -/
def Below (v v' : View C) (c : Coord) : Prop := ∀ x, v.read c = some x → v'.read c = some x

/-- The poses are at most `b` apart along each axis. -/
def Near (b : ℝ) (p q : Poses.Pose ℝ) : Prop := |q.x - p.x| ≤ b ∧ |q.y - p.y| ≤ b

/-- Called at pose `p`, the matcher depends on a map only in the cells in which points of the scan are when seen from poses `q`
with `D p q`; on `has_cell` only in those in which they are when seen from `p`. -/
def Machine.Reads (m : Machine C T) (D : Poses.Pose ℝ → Poses.Pose ℝ → Prop) : Prop :=
  ∀ (v v' : View C) (w : Spw) (t : T) (raw : List ScanPoint) (p : Poses.Pose ℝ) (r : Spw × T × Delta ℝ × Option ℝ),
    v.scale = v'.scale →
    (∀ sp ∈ raw, v.hasCell (worldToCell v.scale (seenAt p sp)) = v'.hasCell (worldToCell v.scale (seenAt p sp))) →
    (∀ q, D p q → ∀ sp ∈ raw, Below v v' (worldToCell v.scale (seenAt q sp))) →
    m.process v w t raw p = some r → m.process v' w t raw p = some r

/-- The matcher never answers with a shift of more than `b` along an axis. -/
def Machine.Stays (m : Machine C T) (b : ℝ) : Prop :=
  ∀ v w t raw p r, m.process v w t raw p = some r → |r.2.2.1.x| ≤ b ∧ |r.2.2.1.y| ≤ b

/-! ## The score -/

theorem pointProb_le (k : Oope) (imp : Point ℝ → C → Option ℝ) (fuel : Nat) (hf : 0 < fuel) {v v' : View C}
    (hs : v.scale = v'.scale) (q : Point ℝ) (hb : Below v v' (worldToCell v.scale q)) {x : ℝ}
    (h : pointProb k imp fuel v q (moveCenter ⟨0, 0, 0, 0⟩ q) = some x) :
    pointProb k imp fuel v' q (moveCenter ⟨0, 0, 0, 0⟩ q) = some x := by
  have hm : moveCenter (⟨0, 0, 0, 0⟩ : Bounds ℝ) q = ⟨q.y, q.y, q.x, q.x⟩ := by
    simp [moveCenter, hside, vside]
  rw [hm] at h ⊢
  have h1 := cells_point v fuel hf q
  have h2 := cells_point v' fuel hf q
  rw [← hs] at h2
  generalize hc : worldToCell v.scale q = c at *
  have hc' : worldToCell v'.scale q = c := by rw [← hs]; exact hc
  cases hr : v.read c with
  | none =>
    have hn : checked (v.impact imp q) c = none := by simp [checked, View.impact, hr]
    exfalso
    cases k with
    | obstacle =>
      simp only [pointProb, obstaclePE, View.grid, GridView.worldToCell, hc, hn] at h
      cases h
    | max => simp [pointProb, h1, maxPE, Score.maxLoop, hn] at h
    | mean => simp [pointProb, h1, meanPE, meanLoop, hn] at h
    | overlap => simp [pointProb, h1, overlapPE, overlapLoop, hn] at h
  | some y =>
    have hk : checked (v'.impact imp q) c = checked (v.impact imp q) c := by
      simp [checked, View.impact, hr, hb y hr]
    cases k with
    | obstacle =>
      simp only [pointProb, obstaclePE, View.grid, GridView.worldToCell, hc, hc'] at h ⊢
      rw [hk]; exact h
    | max =>
      simp only [pointProb, h1, h2, maxPE, Score.maxLoop, Option.bind_some, hk] at h ⊢
      exact h
    | mean =>
      simp only [pointProb, h1, h2, meanPE, meanLoop, Option.bind_some, hk] at h ⊢
      exact h
    | overlap =>
      simp only [pointProb, h1, h2, overlapPE, overlapLoop, Option.bind_some, hk, ← hs] at h ⊢
      exact h

theorem score_le (cfg : Cfg C) (hf : 0 < cfg.cellFuel) {v v' : View C} (hs : v.scale = v'.scale) (w : Spw)
    (pts : List ScanPoint) (p : Poses.Pose ℝ) (hb : ∀ sp ∈ pts, Below v v' (worldToCell v.scale (seenAt p sp)))
    {r : Option ℝ} (h : cfg.score v w pts p = some r) : cfg.score v' w pts p = some r := by
  unfold Cfg.score estimate at *
  rw [Option.map_eq_some_iff] at h ⊢
  obtain ⟨t, h, h'⟩ := h
  refine ⟨t, ?_, h'⟩
  clear h'
  generalize w.weight pts = wt at *
  have key : ∀ (l : List ScanPoint) (i : Nat) (t0 : Totals), (∀ sp ∈ l, Below v v' (worldToCell v.scale (seenAt p sp))) →
      scoreLoop (pointProb cfg.oope cfg.imp cfg.cellFuel v) wt ⟨⟨0, 0, 0, 0⟩, false⟩ ⟨p.x, p.y, p.theta⟩ i t0 l = some t →
      scoreLoop (pointProb cfg.oope cfg.imp cfg.cellFuel v') wt ⟨⟨0, 0, 0, 0⟩, false⟩ ⟨p.x, p.y, p.theta⟩ i t0 l = some t := by
    intro l
    induction l with
    | nil => intro i t0 _ h; exact h
    | cons sp l ih =>
      intro i t0 hb h
      simp only [scoreLoop, Option.bind_eq_some_iff] at h ⊢
      obtain ⟨x, h1, y, h2, h3⟩ := h
      rw [obstacleOf_seenAt] at h1 ⊢
      exact ⟨x, pointProb_le _ _ _ hf hs _ (hb sp (by simp)) h1, y, h2, ih _ _ (fun sp' hsp => hb sp' (by simp [hsp])) h3⟩
  exact key pts 0 _ hb h

theorem filterScan_le (cfg : Cfg C) {v v' : View C} (hs : v.scale = v'.scale) (w : Spw) (raw : List ScanPoint)
    (p : Poses.Pose ℝ) (hh : ∀ sp ∈ raw, v.hasCell (worldToCell v.scale (seenAt p sp)) = v'.hasCell (worldToCell v.scale (seenAt p sp))) :
    cfg.filterScan v w raw p = cfg.filterScan v' w raw p := by
  have key : ∀ (l : List ScanPoint) (i : Nat),
      (∀ sp ∈ l, v.hasCell (worldToCell v.scale (seenAt p sp)) = v'.hasCell (worldToCell v.scale (seenAt p sp))) →
      filterLoop cfg.filter v.scale v.hasCell ⟨p.x, p.y, p.theta⟩ i l =
        filterLoop cfg.filter v'.scale v'.hasCell ⟨p.x, p.y, p.theta⟩ i l := by
    intro l
    induction l with
    | nil => intro i _; rfl
    | cons sp l ih =>
      intro i hh
      have h1 := hh sp (by simp)
      have h2 := ih (i + 1) fun sp' hsp => hh sp' (by simp [hsp])
      have e := obstacleOf_seenAt p sp
      simp only [obstacleOf, Bool.false_eq_true, if_false] at e
      simp only [filterLoop, h2, e, shouldSkip, ← hs, h1]
  simp only [Cfg.filterScan, Score.filterScan, key raw 0 hh]

theorem filterScan_subset (cfg : Cfg C) {v : View C} {w : Spw} {raw : List ScanPoint} {p : Poses.Pose ℝ}
    {f : List ScanPoint × Spw} (h : cfg.filterScan v w raw p = some f) : ∀ sp ∈ f.1, sp ∈ raw := by
  rw [filterScan_usable, Option.map_eq_some_iff] at h
  obtain ⟨w', -, rfl⟩ := h
  exact usable_subset _ _ _ _ _

/-! ## The loops -/

theorem loopP_le (E : Enumerator ℝ S) {score score' : Poses.Pose ℝ → Option (Option ℝ)} (I : S → Poses.Pose ℝ → Prop)
    (hI : ∀ e best, I e best → E.hasNext e = true →
      (∀ s, score (E.next e best).1 = some s → score' (E.next e best).1 = some s) ∧
      I (E.feedback (E.next e best).2 true) (E.next e best).1 ∧ I (E.feedback (E.next e best).2 false) best)
    (fuel : Nat) : ∀ r r', I r.enum r.best → loopP E score fuel r = some r' →
      loopP E score' fuel r = some r' ∧ I r'.enum r'.best := by
  induction fuel with
  | zero => intro r r' _ h; cases h
  | succ fuel ih =>
    intro r r' hr h
    unfold loopP at h ⊢
    by_cases hn : E.hasNext r.enum = true
    · rw [if_pos hn] at h ⊢
      obtain ⟨h1, h2, h3⟩ := hI r.enum r.best hr hn
      simp only [Option.bind_eq_some_iff] at h ⊢
      obtain ⟨s, hs, h⟩ := h
      by_cases ha : ltN r.prob s = true
      · rw [if_pos ha] at h
        obtain ⟨g1, g2⟩ := ih _ r' (by exact h2) h
        exact ⟨⟨s, h1 s hs, by rw [if_pos ha]; exact g1⟩, g2⟩
      · rw [if_neg ha] at h
        obtain ⟨g1, g2⟩ := ih _ r' (by exact h3) h
        exact ⟨⟨s, h1 s hs, by rw [if_neg ha]; exact g1⟩, g2⟩
    · rw [if_neg hn] at h ⊢
      rw [Option.some.injEq] at h
      subst h
      exact ⟨rfl, hr⟩

theorem chooseP_le {score score' : Poses.Pose ℝ → Option (Option ℝ)} (hsc : ∀ q s, score q = some s → score' q = some s)
    (dt dO : ℝ) (cur : Poses.Pose ℝ) (best : Option ℝ) (as : List Nat) : ∀ d r,
    chooseP score dt dO cur best as d = some r → chooseP score' dt dO cur best as d = some r := by
  induction as with
  | nil => intro d r h; exact h
  | cons a as ih =>
    intro d r h
    simp only [chooseP, Option.bind_eq_some_iff] at h ⊢
    obtain ⟨s, h1, h2⟩ := h
    exact ⟨s, hsc _ _ h1, ih _ _ h2⟩

theorem lineSearchP_le {score score' : Poses.Pose ℝ → Option (Option ℝ)} (hsc : ∀ q s, score q = some s → score' q = some s)
    (cur : Poses.Pose ℝ) (best : Option ℝ) (action : Nat) (dd : ℝ) (k : Nat) : ∀ r,
    lineSearchP score cur best action dd k = some r → lineSearchP score' cur best action dd k = some r := by
  induction k with
  | zero => intro r h; exact h
  | succ k ih =>
    intro r h
    unfold lineSearchP at h ⊢
    simp only at h ⊢
    by_cases hd : dd < 2 ^ (k + 1) * dd
    · rw [if_pos hd] at h ⊢
      simp only [Option.bind_eq_some_iff] at h ⊢
      obtain ⟨s, h1, h2⟩ := h
      refine ⟨s, hsc _ _ h1, ?_⟩
      by_cases hl : ltN best s = true
      · rw [if_pos hl] at h2 ⊢; exact h2
      · rw [if_neg hl] at h2 ⊢; exact ih _ h2
    · rw [if_neg hd] at h ⊢
      exact h

theorem fixedLoopP_le {score score' : Poses.Pose ℝ → Option (Option ℝ)} (hsc : ∀ q s, score q = some s → score' q = some s)
    (dt dO : ℝ) (fuel : Nat) : ∀ limit best prob r,
    fixedLoopP score dt dO fuel limit best prob = some r → fixedLoopP score' dt dO fuel limit best prob = some r := by
  induction fuel with
  | zero => intro _ _ _ r h; exact h
  | succ fuel ih =>
    intro limit best prob r h
    unfold fixedLoopP at h ⊢
    by_cases hl : (0 : BitVec 32) < limit
    · rw [if_pos hl] at h ⊢
      simp only [Option.bind_eq_some_iff] at h ⊢
      obtain ⟨d, h1, l, h2, h3⟩ := h
      refine ⟨d, chooseP_le hsc _ _ _ _ _ _ _ h1, l, lineSearchP_le hsc _ _ _ _ _ _ h2, ?_⟩
      cases l with
      | some a => exact ih _ _ _ _ h3
      | none =>
        simp only at h3 ⊢
        by_cases hd : 0 ≤ d.diff
        · rw [if_pos hd] at h3 ⊢; exact h3
        · rw [if_neg hd] at h3 ⊢; exact ih _ _ _ _ h3
    · rw [if_neg hl] at h ⊢
      exact h

theorem dropDrift_subset (h : Hist) (all : List ScanPoint) (drift : Nat) (l : List ScanPoint) : ∀ (i : Nat) (r : List ScanPoint),
    dropDrift h all drift i l = some r → ∀ sp ∈ r, sp ∈ l := by
  induction l with
  | nil =>
    intro i r e
    simp only [dropDrift, Option.some.injEq] at e
    subst e
    simp
  | cons a l ih =>
    intro i r e sp hsp
    simp only [dropDrift, Option.bind_eq_some_iff, Option.map_eq_some_iff] at e
    obtain ⟨v, -, r', h1, rfl⟩ := e
    by_cases hd : drift = v
    · rw [if_pos hd] at hsp
      exact List.mem_cons_of_mem _ (ih _ _ h1 sp hsp)
    · rw [if_neg hd] at hsp
      rcases List.mem_cons.1 hsp with rfl | hsp
      · simp
      · exact List.mem_cons_of_mem _ (ih _ _ h1 sp hsp)

/-- The poses the drift detector tries are at most 25 centimetres off; the answer is one of them. -/
theorem detectP_le {score score' : List ScanPoint → Poses.Pose ℝ → Option (Option ℝ)} (fuel : Nat) (scan : List ScanPoint)
    (init : Poses.Pose ℝ) (sm : Delta ℝ × Option ℝ)
    (hsc : ∀ pts, (∀ sp ∈ pts, sp ∈ scan) → ∀ q, Near (1 / 4) (init.add sm.1) q → ∀ s, score pts q = some s → score' pts q = some s)
    {r : Delta ℝ × Option ℝ} (h : detectP fuel score scan init sm = some r) :
    detectP fuel score' scan init sm = some r ∧ Near (1 / 4) (init.add sm.1) (init.add r.1) := by
  have hself : Near (1 / 4) (init.add sm.1) (init.add sm.1) := by simp [Near]
  unfold detectP at h ⊢
  simp only [Option.bind_eq_some_iff] at h ⊢
  obtain ⟨hh, h1, di, h2, drift, h3, h⟩ := h
  by_cases hd : (drift : ℝ) < 4 / 10 * (scan.length : ℝ)
  · rw [if_pos hd, Option.some.injEq] at h
    subst h
    exact ⟨⟨hh, h1, di, h2, drift, h3, by rw [if_pos hd]⟩, hself⟩
  · rw [if_neg hd] at h
    simp only [Option.bind_eq_some_iff, Option.map_eq_some_iff] at h
    obtain ⟨rest, h4, s, h5, r', h6, s', h7, rfl⟩ := h
    have hrest : ∀ sp ∈ rest, sp ∈ scan := fun sp hsp => List.mem_of_mem_tail (dropDrift_subset _ _ _ _ _ _ h4 sp hsp)
    obtain ⟨g1, g2⟩ := loopP_le (score' := score' rest) (polar ⟨(di : ℝ) * hh.angleStep + hh.angleStep / 2,
        (di : ℝ) * hh.angleStep + hh.angleStep / 2, hh.angleStep, -25 / 100, 25 / 100, 10 / 100⟩)
      (fun e best => (e.base = none → best = init.add sm.1) ∧ (∀ b, e.base = some b → b = init.add sm.1) ∧ -1 / 4 ≤ e.dst ∧
        Near (1 / 4) (init.add sm.1) best) (by
        rintro e best ⟨i1, i2, i3, i4⟩ hn
        have hdst : e.dst ≤ 25 / 100 := by simpa [polar] using hn
        have hbase : e.base.getD best = init.add sm.1 := by
          cases hb : e.base with
          | none => exact i1 hb
          | some b => exact i2 b hb
        have hdabs : |e.dst| ≤ 1 / 4 := by rw [abs_le]; constructor <;> linarith
        have hnear : ∀ (Pm : PolarParams), Near (1 / 4) (init.add sm.1) ((polar Pm).next e best).1 := by
          intro Pm
          simp only [polar, hbase, Near, Poses.Pose.add]
          constructor
          · have : init.x + sm.1.x + Real.cos e.dir * e.dst - (init.x + sm.1.x) = Real.cos e.dir * e.dst := by ring
            rw [this, abs_mul]
            exact (mul_le_of_le_one_left (abs_nonneg _) (Real.abs_cos_le_one _)).trans hdabs
          · have : init.y + sm.1.y + Real.sin e.dir * e.dst - (init.y + sm.1.y) = Real.sin e.dir * e.dst := by ring
            rw [this, abs_mul]
            exact (mul_le_of_le_one_left (abs_nonneg _) (Real.abs_sin_le_one _)).trans hdabs
        have hfb : ∀ ok best', Near (1 / 4) (init.add sm.1) best' → ∀ (Pm : PolarParams), Pm.stepDst = 10 / 100 →
            ((((polar Pm).feedback ((polar Pm).next e best).2 ok).base = none → best' = init.add sm.1) ∧
            (∀ b, ((polar Pm).feedback ((polar Pm).next e best).2 ok).base = some b → b = init.add sm.1) ∧
            -1 / 4 ≤ ((polar Pm).feedback ((polar Pm).next e best).2 ok).dst ∧ Near (1 / 4) (init.add sm.1) best') := by
          intro ok best' hb' Pm hst
          simp only [polar, hbase]
          by_cases hlt : e.dir < Pm.toDir
          · rw [if_pos hlt]
            simp only [Option.some.injEq, reduceCtorEq, false_implies, true_and]
            exact ⟨fun b hb => hb.symm, i3, hb'⟩
          · rw [if_neg hlt, hst]
            simp only [Option.some.injEq, reduceCtorEq, false_implies, true_and]
            exact ⟨fun b hb => hb.symm, by linarith, hb'⟩
        exact ⟨fun s hs => hsc rest hrest _ (hnear _) s hs, hfb true _ (hnear _) _ rfl, hfb false _ i4 _ rfl⟩)
      fuel _ r' (by
        refine ⟨fun _ => rfl, fun b hb => ?_, ?_, hself⟩
        · simp [PolarState.init] at hb
        · simp [PolarState.init]; norm_num) h6
    refine ⟨⟨hh, h1, di, h2, drift, h3, ?_⟩, ?_⟩
    · rw [if_neg hd]
      simp only [Option.bind_eq_some_iff, Option.map_eq_some_iff]
      exact ⟨rest, h4, s, hsc rest hrest _ hself _ h5, r', g1, s', hsc scan (fun _ h => h) _ g2.2.2.2 _ h7, rfl⟩
    · have : init.add (r'.best.sub init) = r'.best := by simp [Poses.Pose.add, Poses.Pose.sub]
      rw [this]
      exact g2.2.2.2

/-! ## The matchers -/

variable {cfg : Cfg C}

theorem idle_reads (D : Poses.Pose ℝ → Poses.Pose ℝ → Prop) : (idleMachine C).Reads D := by
  intro v v' w t raw p r _ _ _ h
  exact h

theorem idle_stays : (idleMachine C).Stays 0 := by
  intro v w t raw p r h
  simp only [idleMachine, Option.some.injEq] at h
  subst h
  simp

/-- A matcher that enumerates poses: `I p e best` holds while it is called at `p`. -/
theorem enum_local (hf : 0 < cfg.cellFuel) (E : Enumerator ℝ S) (fuel : Nat) (I : Poses.Pose ℝ → S → Poses.Pose ℝ → Prop)
    (D : Poses.Pose ℝ → Poses.Pose ℝ → Prop) (h0 : ∀ p e, I p (E.reset e) p) (hD0 : ∀ p, D p p)
    (hI : ∀ p e best, I p e best → E.hasNext e = true →
      D p (E.next e best).1 ∧ I p (E.feedback (E.next e best).2 true) (E.next e best).1 ∧
        I p (E.feedback (E.next e best).2 false) best)
    (v v' : View C) (w : Spw) (t : S) (raw : List ScanPoint) (p : Poses.Pose ℝ) (r : Spw × S × Delta ℝ × Option ℝ)
    (hs : v.scale = v'.scale)
    (hh : ∀ sp ∈ raw, v.hasCell (worldToCell v.scale (seenAt p sp)) = v'.hasCell (worldToCell v.scale (seenAt p sp)))
    (hb : ∀ q, D p q → ∀ sp ∈ raw, Below v v' (worldToCell v.scale (seenAt q sp)))
    (h : (enumMachine cfg E fuel).process v w t raw p = some r) :
    (enumMachine cfg E fuel).process v' w t raw p = some r ∧ ∃ e, I p e (p.add r.2.2.1) := by
  simp only [enumMachine, Cfg.processScan, Option.map_eq_some_iff, Option.bind_eq_some_iff] at h ⊢
  obtain ⟨a, ⟨f, h1, b, h2, rfl⟩, rfl⟩ := h
  have hsub := filterScan_subset cfg h1
  have h1' := h1
  rw [filterScan_le cfg hs w raw p hh] at h1'
  have hsc : ∀ q, D p q → ∀ s, cfg.score v f.2 f.1 q = some s → cfg.score v' f.2 f.1 q = some s :=
    fun q hq s hsq => score_le cfg hf hs f.2 f.1 q (fun sp hsp => hb q hq sp (hsub sp hsp)) hsq
  simp only [searchP, Option.bind_eq_some_iff, Option.map_eq_some_iff] at h2
  obtain ⟨s, h3, r', h4, rfl⟩ := h2
  obtain ⟨g1, g2⟩ := loopP_le (score' := cfg.score v' f.2 f.1) E (I p) (fun e best hi hn => by
    obtain ⟨d1, d2, d3⟩ := hI p e best hi hn
    exact ⟨fun s hs' => hsc _ d1 s hs', d2, d3⟩) fuel _ r' (h0 p t) h4
  refine ⟨⟨_, ⟨f, h1', _, ?_, rfl⟩, rfl⟩, r'.enum, ?_⟩
  · simp only [searchP, Option.bind_eq_some_iff, Option.map_eq_some_iff]
    exact ⟨s, hsc p (hD0 p) s h3, r', g1, rfl⟩
  · have : p.add (r'.best.sub p) = r'.best := by simp [Poses.Pose.add, Poses.Pose.sub]
    simp only [this]
    exact g2

/-- Any matcher that enumerates poses depends on a map only where it can be read. -/
theorem enum_reads (hf : 0 < cfg.cellFuel) (E : Enumerator ℝ S) (fuel : Nat) : (enumMachine cfg E fuel).Reads fun _ _ => True := by
  intro v v' w t raw p r hs hh hb h
  exact (enum_local hf E fuel (fun _ _ _ => True) (fun _ _ => True) (fun _ _ => trivial) (fun _ => trivial)
    (fun _ _ _ _ _ => ⟨trivial, trivial, trivial⟩) v v' w t raw p r hs hh hb h).1

/-- **The Monte Carlo matcher reads the map only near the pose it is called at (C96)**: `maxPoses` times the largest random shift
along each axis. -/
theorem monte_carlo_local (hf : 0 < cfg.cellFuel) (maxFailed maxPoses : Nat) (trans rot : ℝ) (sample : Nat → ℝ → ℝ → Delta ℝ)
    (b : ℝ) (hb : 0 ≤ b) (hsam : ∀ n x y, WithinShift b (sample n x y)) (fuel : Nat) :
    (enumMachine cfg (monteCarlo maxFailed maxPoses trans rot sample) fuel).Reads (Near (maxPoses * b)) ∧
    (enumMachine cfg (monteCarlo maxFailed maxPoses trans rot sample) fuel).Stays (maxPoses * b) := by
  have hfp : ∀ (s : MCState ℝ) (ok : Bool),
      ((monteCarlo maxFailed maxPoses trans rot sample).feedback s ok).poses = s.poses + 1 := by
    intro s ok
    simp only [monteCarlo]
    by_cases h1 : (!ok) = true
    · simp [h1]
    · by_cases h2 : s.failed ≤ maxFailed / 3
      · simp [h1, h2]
      · simp [h1, h2]
  have hnn : ∀ n : Nat, 0 ≤ (n : ℝ) * b := fun n => mul_nonneg (Nat.cast_nonneg _) hb
  have key : ∀ (v v' : View C) w t raw p r, v.scale = v'.scale →
      (∀ sp ∈ raw, v.hasCell (worldToCell v.scale (seenAt p sp)) = v'.hasCell (worldToCell v.scale (seenAt p sp))) →
      (∀ q, Near (maxPoses * b) p q → ∀ sp ∈ raw, Below v v' (worldToCell v.scale (seenAt q sp))) →
      (enumMachine cfg (monteCarlo maxFailed maxPoses trans rot sample) fuel).process v w t raw p = some r →
      (enumMachine cfg (monteCarlo maxFailed maxPoses trans rot sample) fuel).process v' w t raw p = some r ∧
        Near (maxPoses * b) p (p.add r.2.2.1) := by
    intro v v' w t raw p r hs hh hbl h
    obtain ⟨g1, e, g2⟩ := enum_local hf (monteCarlo maxFailed maxPoses trans rot sample) fuel
      (fun p e best => e.poses ≤ maxPoses ∧ Near (e.poses * b) p best) (Near (maxPoses * b))
      (by intro p e; simp [monteCarlo, Near])
      (by intro p; simp [Near, hnn maxPoses])
      (by
        rintro p e best ⟨i1, i2, i3⟩ hn
        have hlt : e.poses < maxPoses := by
          simp [monteCarlo] at hn
          exact hn.2
        have hlt' : (e.poses : ℝ) + 1 ≤ maxPoses := by exact_mod_cast hlt
        have hmul : ((e.poses : ℝ) + 1) * b ≤ maxPoses * b := mul_le_mul_of_nonneg_right hlt' hb
        obtain ⟨s1, s2, -⟩ := hsam e.draws e.transDisp e.rotDisp
        have hstep : Near (((e.poses + 1 : Nat) : ℝ) * b) p ((monteCarlo maxFailed maxPoses trans rot sample).next e best).1 := by
          simp only [monteCarlo, Near, Poses.Pose.add]
          push_cast
          rw [abs_le] at s1 s2 i2 i3
          constructor <;> rw [abs_le] <;> constructor <;> linarith [s1.1, s1.2, s2.1, s2.2, i2.1, i2.2, i3.1, i3.2]
        have hnp : ((monteCarlo maxFailed maxPoses trans rot sample).next e best).2.poses = e.poses := rfl
        refine ⟨?_, ⟨by rw [hfp, hnp]; omega, by rw [hfp, hnp]; exact hstep⟩, ⟨by rw [hfp, hnp]; omega, ?_⟩⟩
        · obtain ⟨u1, u2⟩ := hstep
          push_cast at u1 u2
          exact ⟨u1.trans hmul, u2.trans hmul⟩
        · rw [hfp, hnp]
          push_cast
          exact ⟨i2.trans (by linarith), i3.trans (by linarith)⟩)
      v v' w t raw p r hs hh hbl h
    refine ⟨g1, ?_⟩
    obtain ⟨k1, k2, k3⟩ := g2
    have k1' : (e.poses : ℝ) ≤ maxPoses := by exact_mod_cast k1
    have := mul_le_mul_of_nonneg_right k1' hb
    exact ⟨k2.trans this, k3.trans this⟩
  refine ⟨fun v v' w t raw p r hs hh hbl h => (key v v' w t raw p r hs hh hbl h).1, ?_⟩
  intro v w t raw p r h
  have := (key v v w t raw p r rfl (fun _ _ => rfl) (fun _ _ _ _ x hx => hx) h).2
  simpa [Near, Poses.Pose.add] using this

theorem fixed_reads (hf : 0 < cfg.cellFuel) (fuel : Nat) : (fixedMachine cfg fuel).Reads fun _ _ => True := by
  intro v v' w t raw p r hs hh hb h
  simp only [fixedMachine, Option.map_eq_some_iff, Option.bind_eq_some_iff] at h ⊢
  obtain ⟨f, h1, s, h2, r', h3, rfl⟩ := h
  have hsub := filterScan_subset cfg h1
  rw [filterScan_le cfg hs w raw p hh] at h1
  have hsc : ∀ q s, cfg.score v f.2 f.1 q = some s → cfg.score v' f.2 f.1 q = some s :=
    fun q s hsq => score_le cfg hf hs f.2 f.1 q (fun sp hsp => hb q trivial sp (hsub sp hsp)) hsq
  exact ⟨f, h1, s, hsc _ _ h2, r', fixedLoopP_le hsc _ _ _ _ _ _ _ h3, rfl⟩

/-- The drift detector reads what the wrapped matcher reads, and 25 centimetres around its answer. -/
theorem drift_local (hf : 0 < cfg.cellFuel) (fuel : Nat) {inner : Machine C T} {D0 D : Poses.Pose ℝ → Poses.Pose ℝ → Prop}
    (h0 : inner.Reads D0) (hD : ∀ p q, D0 p q → D p q)
    (hd : ∀ v w t raw p r, inner.process v w t raw p = some r → ∀ q, Near (1 / 4) (p.add r.2.2.1) q → D p q) :
    (driftMachine cfg fuel inner).Reads D := by
  intro v v' w t raw p r hs hh hb h
  simp only [driftMachine, Option.map_eq_some_iff, Option.bind_eq_some_iff] at h ⊢
  obtain ⟨a, h1, f, h2, r', h3, rfl⟩ := h
  have hsub := filterScan_subset cfg h2
  rw [filterScan_le cfg hs a.1 raw p hh] at h2
  exact ⟨a, h0 v v' w t raw p a hs hh (fun q hq => hb q (hD p q hq)) h1, f, h2, r',
    (detectP_le fuel f.1 p (a.2.2.1, a.2.2.2) (fun pts hpts q hq s hsq => score_le cfg hf hs f.2 pts q
      (fun sp hsp => hb q (hd v w t raw p a h1 q hq) sp (hsub sp (hpts sp hsp))) hsq) h3).1, rfl⟩

theorem drift_reads (hf : 0 < cfg.cellFuel) (fuel : Nat) {inner : Machine C T} (h0 : inner.Reads fun _ _ => True) :
    (driftMachine cfg fuel inner).Reads fun _ _ => True :=
  drift_local hf fuel h0 (fun _ _ _ => trivial) fun _ _ _ _ _ _ _ _ _ => trivial

theorem drift_near (hf : 0 < cfg.cellFuel) (fuel : Nat) {inner : Machine C T} {b : ℝ} (h0 : inner.Reads (Near b))
    (h1 : inner.Stays b) : (driftMachine cfg fuel inner).Reads (Near (b + 1 / 4)) ∧ (driftMachine cfg fuel inner).Stays (b + 1 / 4) := by
  have hadd : ∀ (p : Poses.Pose ℝ) (d : Delta ℝ) q, |d.x| ≤ b ∧ |d.y| ≤ b → Near (1 / 4) (p.add d) q → Near (b + 1 / 4) p q := by
    rintro p d q ⟨d1, d2⟩ ⟨q1, q2⟩
    simp only [Poses.Pose.add] at q1 q2
    rw [abs_le] at d1 d2 q1 q2
    constructor <;> rw [abs_le] <;> constructor <;> linarith [d1.1, d1.2, d2.1, d2.2, q1.1, q1.2, q2.1, q2.2]
  constructor
  · refine drift_local hf fuel h0 ?_ ?_
    · rintro p q ⟨q1, q2⟩
      exact ⟨by linarith, by linarith⟩
    · intro v w t raw p r hr q hq
      exact hadd p _ q (h1 v w t raw p r hr) hq
  · intro v w t raw p r h
    simp only [driftMachine, Option.map_eq_some_iff, Option.bind_eq_some_iff] at h
    obtain ⟨a, g1, f, -, r', g3, rfl⟩ := h
    have := (detectP_le (score' := cfg.score v f.2) fuel f.1 p (a.2.2.1, a.2.2.2) (fun _ _ _ _ _ h => h) g3).2
    have := hadd p _ _ (h1 v w t raw p a g1) this
    simpa [Near, Poses.Pose.add] using this

theorem idle_near : (idleMachine C).Reads (Near 0) ∧ (idleMachine C).Stays 0 := ⟨idle_reads _, idle_stays⟩

end Slam.Matcher
