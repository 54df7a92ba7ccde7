import Verif.Matcher.RoamReads

/-!
# C111: how far from the origin the matchers look

A matcher that roams (C100) may take any number of iterations, but it looks at the map only so far beyond the poses from where known
cells can be seen.
-/

set_option autoImplicit false
set_option linter.unusedSectionVars false

namespace Slam.Matcher
open Slam.Grid Slam.Rect Slam.Sensor Slam.Score Slam.ScanMatch Slam.Cells Slam.Drift
open Slam.Poses (Delta)

variable {C S T : Type}

/-! ## Specification -/

/-- A matcher looks at the cells seen from poses within `Y + c`, and no others, if it is called within `Y`, beyond everything from where
known cells can be seen: what it answers on a map `v` it answers on any `v'` that has these cells, and agrees with `v` which of
the scan's points are on the map. (`imp`, `flat` and `ok` as in `Roams`.) -/
def LooksWithin (m : Nat → Machine C T) (imp : Point ℝ → C → Option ℝ) (flat : Prop) (ok : ℝ → T → Prop) (c : ℝ) : Prop :=
  ∀ (v v' : View C) (prob : Point ℝ → Coord → ℝ) (U R Y : ℝ), Shows v imp prob → 0 < v.scale → (flat → Flat v.scale U prob) →
    U + v.scale + R ≤ Y → ∀ w, Spw.Ok w → ∀ t, ok Y t → ∀ scan, Ranged R scan → ∀ p, PoseWithin Y p →
    v.scale = v'.scale →
    (∀ sp ∈ scan, v.hasCell (worldToCell v.scale (seenAt p sp)) = v'.hasCell (worldToCell v.scale (seenAt p sp))) →
    (∀ q, PoseWithin (Y + c) q → ∀ sp ∈ scan, Below v v' (worldToCell v.scale (seenAt q sp))) →
    ∀ fuel r, (m fuel).process v w t scan p = some r → (m fuel).process v' w t scan p = some r

/-! ## Proofs -/

theorem PoseWithin.near {X b : ℝ} {p q : Poses.Pose ℝ} (h : PoseWithin X p) (hq : Near b p q) : PoseWithin (X + b) q := by
  have h1 := abs_sub_abs_le_abs_sub q.x p.x
  have h2 := abs_sub_abs_le_abs_sub q.y p.y
  exact ⟨by linarith [h.1, hq.1], by linarith [h.2, hq.2]⟩

theorem LooksWithin.mono {m : Nat → Machine C T} {imp : Point ℝ → C → Option ℝ} {flat : Prop} {ok : ℝ → T → Prop} {c c' : ℝ}
    (h : LooksWithin m imp flat ok c) (hc : c ≤ c') : LooksWithin m imp flat ok c' :=
  fun v v' prob U R Y h1 h2 h3 h4 w h5 t h6 scan h7 p h8 h9 h10 h11 =>
    h v v' prob U R Y h1 h2 h3 h4 w h5 t h6 scan h7 p h8 h9 h10 fun q hq => h11 q (hq.mono (by linarith))

/-- A matcher that looks near the pose it is given. -/
theorem looks_of_reads {m : Nat → Machine C T} {imp : Point ℝ → C → Option ℝ} {flat : Prop} {ok : ℝ → T → Prop} {c : ℝ}
    (h : ∀ f, (m f).Reads (Near c)) : LooksWithin m imp flat ok c :=
  fun v v' _ _ _ _ _ _ _ _ w _ t _ scan _ p h8 h9 h10 h11 fuel r hr =>
    h fuel v v' w t scan p r h9 h10 (fun q hq => h11 q (h8.near hq)) hr

variable {cfg : Cfg C}

/-- An enumerating matcher looks from the poses it tests. -/
theorem enum_seen (hf : 0 < cfg.cellFuel) (E : Enumerator ℝ S) {v v' : View C} {prob : Point ℝ → Coord → ℝ}
    (hv : Shows v cfg.imp prob) (hs : 0 < v.scale) {w : Spw} (hw : Spw.Ok w) {t : S} {R : ℝ} {scan : List ScanPoint} (hR : Ranged R scan)
    {p : Poses.Pose ℝ} (hsc : v.scale = v'.scale)
    (hh : ∀ sp ∈ scan, v.hasCell (worldToCell v.scale (seenAt p sp)) = v'.hasCell (worldToCell v.scale (seenAt p sp))) {Z : ℝ}
    (hb : ∀ q, PoseWithin Z q → ∀ sp ∈ scan, Below v v' (worldToCell v.scale (seenAt q sp))) {fuel : Nat}
    (htest : ∀ w1 ws, Weights w w1 (usablePoints cfg.filter v.scale v.hasCell p scan) ws → ∀ e' d s events,
      processScan E (meanScore prob v.scale ws (usablePoints cfg.filter v.scale v.hasCell p scan)) fuel t p = some (e', d, s, events) →
      ∀ q ∈ testedPoses events, PoseWithin Z q) {r : Spw × S × Delta ℝ × Option ℝ}
    (h : (enumMachine cfg E fuel).process v w t scan p = some r) : (enumMachine cfg E fuel).process v' w t scan p = some r := by
  obtain ⟨w1, ws, hws, heq⟩ := matcher_on_map cfg E v prob hv hs hf w hw scan hR.factor p
  simp only [enumMachine] at h ⊢
  rw [Option.map_eq_some_iff] at h ⊢
  obtain ⟨o, h1, rfl⟩ := h
  refine ⟨o, ?_, rfl⟩
  have h2 := h1
  rw [heq, Option.map_eq_some_iff] at h2
  obtain ⟨⟨e', d, s, events⟩, h2, rfl⟩ := h2
  have hwithin := htest w1 ws hws e' d s events h2
  unfold Cfg.processScan at h1 ⊢
  rw [Option.bind_eq_some_iff] at h1
  obtain ⟨f, f1, f2⟩ := h1
  rw [Option.map_eq_some_iff] at f2
  obtain ⟨a, a1, a2⟩ := f2
  simp only [Prod.mk.injEq] at a2
  obtain ⟨hw1, rfl⟩ := a2
  have f3 := (filterScan_le cfg hsc w scan p hh).symm.trans f1
  have a3 : searchP E (cfg.score v' f.2 f.1) fuel t p = some (e', d, s, events) :=
    searchP_seen _ a1 fun q hq s' h => score_le cfg hf hsc _ _ _
      (fun sp hsp => hb q (hwithin q hq) sp (filterScan_subset cfg f1 sp hsp)) h
  rw [f3, Option.bind_some, a3, Option.map_some, hw1]

/-- Hill climbing looks at most two steps further. -/
theorem hill_climbing_looks (hf : 0 < cfg.cellFuel) (F : Nat) (d r : ℝ) :
    LooksWithin (fun fuel => enumMachine cfg (hillClimbing F d r) fuel) cfg.imp True (fun _ _ => True) (2 * |d|) := by
  intro v v' prob U R Y hv hs hflat hY w hw t _ scan hR p hp hsc hh hb fuel res hres
  obtain ⟨-, c0, hc0⟩ := hflat trivial
  refine enum_seen hf _ hv hs hw hR hsc hh hb ?_ hres
  intro w1 ws hws e' delta s events ho q hq
  obtain ⟨tested, best, h1, rfl, h3⟩ := hill_climbing_follows_rounds F d r _ t p _ e' delta s events ho
  have hfar : ∀ q s, ¬ PoseWithin Y q →
      meanScore prob v.scale ws (usablePoints cfg.filter v.scale v.hasCell p scan) q = some s → s = c0 :=
    fun q s hq => score_far hs hc0 hY (hR.usable _ _ _ _) hws.len hq
  rw [h3] at hq
  have : q = p ∨ q ∈ tested := by
    have e := tested_announce (meanScore prob v.scale ws (usablePoints cfg.filter v.scale v.hasCell p scan))
      (meanScore prob v.scale ws (usablePoints cfg.filter v.scale v.hasCell p scan) p) tested [.finish (best.sub p) s]
    simp only [testedPoses, List.filterMap_cons, List.filterMap_nil, List.mem_cons] at hq e
    rw [e] at hq
    simpa using hq
  rcases this with rfl | hq
  · exact hp.mono (by linarith [abs_nonneg d])
  · exact climb_tested hfar h1 rfl le_rfl (.inl hp) q hq

/-- Brute force looks as far as its grid reaches. -/
theorem brute_force_looks (hf : 0 < cfg.cellFuel) (P : BFParams ℝ) (hP : P.Ok) {b : ℝ} (hb0 : 0 ≤ b) (hg : GridWithin P b) :
    LooksWithin (fun fuel => enumMachine cfg (bruteForce P) fuel) cfg.imp False (fun Y e => ∀ p, e.base = some p → PoseWithin Y p) b := by
  intro v v' prob U R Y hv hs _ hY w hw t ht scan hR p hp hsc hh hb fuel res hres
  refine enum_seen hf _ hv hs hw hR hsc hh hb ?_ hres
  intro w1 ws hws e' delta s events ho q hq
  generalize meanScore prob v.scale ws (usablePoints cfg.filter v.scale v.hasCell p scan) = score at ho
  obtain ⟨eN, dN, pr, fN, -, b2⟩ := brute_force_run P hP score t p
  have e1 := processScan_more (le_max_left fuel fN) ho
  have e2 := processScan_more (le_max_right fuel fN) b2
  rw [e1, Option.some.injEq] at e2
  simp only [Prod.mk.injEq] at e2
  obtain ⟨-, -, -, rfl⟩ := e2
  have hbase : PoseWithin Y (t.base.getD p) := by
    cases h : t.base with
    | none => exact hp
    | some q => exact ht q h
  have hta := testedPoses_announce score ((searchGrid P).map (around (t.base.getD p))) (score p) [.finish dN pr]
  have hm' : q ∈ p :: (searchGrid P).map (around (t.base.getD p)) := by
    simp only [testedPoses] at hq hta
    simp only [List.filterMap_cons, hta] at hq
    simpa using hq
  rcases List.mem_cons.1 hm' with rfl | hm'
  · exact hp.mono (by linarith)
  · obtain ⟨o, ho, rfl⟩ := List.mem_map.1 hm'
    obtain ⟨g1, g2⟩ := hg o ho
    exact ⟨(abs_add_le _ _).trans (by linarith [hbase.1]), (abs_add_le _ _).trans (by linarith [hbase.2])⟩

/-! ### The fixed hill climbing -/

theorem chooseP_seen {score : Poses.Pose ℝ → Option (Option ℝ)} {f : Poses.Pose ℝ → Option ℝ} (dt dO : ℝ) (cur : Poses.Pose ℝ)
    (best : Option ℝ) (h : ∀ a, score (shiftPose cur dO dt a) = some (f (shiftPose cur dO dt a))) :
    chooseP score dt dO cur best (List.range 6) ⟨0, 0, 1⟩ = some (chooseDirection f dt dO cur best) := by
  unfold chooseDirection
  generalize (⟨0, 0, 1⟩ : Direction ℝ) = d
  generalize List.range 6 = l
  induction l generalizing d with
  | nil => rfl
  | cons a l ih =>
    simp only [chooseP, h, Option.bind_some, ih, List.foldl_cons]
    cases best with
    | none => rfl
    | some b =>
      cases f (shiftPose cur dO dt a) with
      | none => rfl
      | some s => rfl

theorem lineSearchP_seen {score : Poses.Pose ℝ → Option (Option ℝ)} {f : Poses.Pose ℝ → Option ℝ} (cur : Poses.Pose ℝ)
    (best : Option ℝ) (action : Nat) (dd : ℝ) (k : Nat)
    (h : ∀ j, j ≤ k → score (shiftPose cur (2 ^ j * dd) (2 ^ j * dd) action) = some (f (shiftPose cur (2 ^ j * dd) (2 ^ j * dd) action))) :
    lineSearchP score cur best action dd k = some (lineSearch f cur best action dd k) := by
  induction k with
  | zero => rfl
  | succ k ih =>
    simp only [lineSearchP, lineSearch, h (k + 1) le_rfl, Option.bind_some, ih fun j hj => h j (by omega)]
    by_cases h1 : dd < 2 ^ (k + 1) * dd
    · simp only [h1, if_true]
      by_cases h2 : ltN best (f (shiftPose cur (2 ^ (k + 1) * dd) (2 ^ (k + 1) * dd) action)) = true
      · simp [h2]
      · simp [h2]
    · simp [h1]

theorem fixedLoopP_seen {score : Poses.Pose ℝ → Option (Option ℝ)} {f : Poses.Pose ℝ → Option ℝ} (dt dO : ℝ)
    (I : Poses.Pose ℝ → Prop) (hI : ∀ b, I b → ∀ q, Near (16 * |dt|) b q → score q = some (f q))
    (hstep : ∀ b q, I b → Near (16 * |dt|) b q → ltN (f b) (f q) = true → I q) (fuel : Nat) : ∀ (m : BitVec 32) (best : Poses.Pose ℝ),
    I best → fixedLoopP score dt dO fuel m best (f best) = fixedLoop f dt dO fuel m best (f best) := by
  induction fuel with
  | zero => intro m best _; rfl
  | succ fuel ih =>
    intro m best hb
    unfold fixedLoopP fixedLoop
    by_cases hm : (0 : BitVec 32) < m
    · rw [if_pos hm, if_pos hm]
      have hc := chooseP_seen (f := f) dt dO best (f best) (score := score) (fun a => hI best hb _ (by
        have := shiftPose_close best dO dt a
        have hle : (if a % 3 = 2 then (0 : ℝ) else |dt|) ≤ 16 * |dt| := by
          by_cases ha : a % 3 = 2
          · rw [if_pos ha]; positivity
          · rw [if_neg ha]; linarith [abs_nonneg dt]
        exact ⟨this.1.trans hle, this.2.trans hle⟩))
      simp only [hc, Option.bind_some]
      have hgood := chooseDirection_spec f dt dO best (f best)
      generalize chooseDirection f dt dO best (f best) = d at hgood
      have hdd : (if d.action % 3 = 2 then (0 : ℝ) else 2 ^ 4 * |d.dd|) ≤ 16 * |dt| := by
        by_cases ha : d.action % 3 = 2
        · rw [if_pos ha]; positivity
        · rw [if_neg ha]
          rcases hgood with ⟨-, e⟩ | ⟨-, -, -, -, -, e⟩
          · rw [e]; simp
          · rw [e, if_neg ha]; norm_num
      have hnear : ∀ j, j ≤ 4 → Near (16 * |dt|) best (shiftPose best (2 ^ j * d.dd) (2 ^ j * d.dd) d.action) := by
        intro j hj
        have hc := shiftPose_close best (2 ^ j * d.dd) (2 ^ j * d.dd) d.action
        have hle : (if d.action % 3 = 2 then (0 : ℝ) else |2 ^ j * d.dd|) ≤ 16 * |dt| := by
          refine le_trans ?_ hdd
          by_cases ha : d.action % 3 = 2
          · rw [if_pos ha, if_pos ha]
          · rw [if_neg ha, if_neg ha, abs_mul, abs_of_nonneg (by positivity : (0 : ℝ) ≤ 2 ^ j)]
            exact mul_le_mul_of_nonneg_right (pow_le_pow_right₀ (by norm_num) hj) (abs_nonneg _)
        exact ⟨hc.1.trans hle, hc.2.trans hle⟩
      have hl := lineSearchP_seen (f := f) best (f best) d.action d.dd 4 (score := score) fun j hj => hI best hb _ (hnear j hj)
      simp only [hl, Option.bind_some]
      cases hls : lineSearch f best (f best) d.action d.dd 4 with
      | some r =>
        obtain ⟨rp, rs⟩ := r
        obtain ⟨h1, h2⟩ := lineSearch_spec _ _ _ _ _ _ _ _ hls
        obtain ⟨c1, c2⟩ := lineSearch_close _ _ _ _ _ _ hls
        subst h1
        exact ih _ _ (hstep best rp hb ⟨c1.trans hdd, c2.trans hdd⟩ h2)
      | none =>
        simp only
        by_cases h0 : 0 ≤ d.diff
        · rw [if_pos h0, if_pos h0]
        · rw [if_neg h0, if_neg h0]
          rcases hgood with ⟨e1, -⟩ | ⟨b, s, hb', hs, e1, e2⟩
          · exact absurd (by rw [e1]; exact zero_le_one) h0
          · have hsp : shiftPose best d.dd d.dd d.action = shiftPose best dO dt d.action := by
              rw [e2]; exact shiftPose_congr best dO dt d.action
            have hscore : (f best).map (fun p => p - d.diff) = f (shiftPose best d.dd d.dd d.action) := by
              rw [hsp, hs, hb', e1]; simp
            rw [hscore]
            refine ih _ _ (hstep best _ hb ?_ ?_)
            · have := hnear 0 (by norm_num)
              simpa using this
            · rw [hsp, hs, hb']
              have : b < s := by rw [e1] at h0; linarith [not_le.1 h0]
              simpa [ltN] using this
    · rw [if_neg hm, if_neg hm]

/-- The fixed hill climbing looks at most 32 centimetres further. -/
theorem fixed_looks (hf : 0 < cfg.cellFuel) :
    LooksWithin (fun fuel => fixedMachine cfg fuel) cfg.imp True (fun _ _ => True) (32 / 100) := by
  intro v v' prob U R Y hv hs hflat hY w hw t _ scan hR p hp hsc hh hb fuel res hres
  obtain ⟨-, c0, hc0⟩ := hflat trivial
  obtain ⟨w1, ws, hws⟩ := weights_exist w hw (usablePoints cfg.filter v.scale v.hasCell p scan)
  have hon := score_on_map cfg v prob hv hs hf w w1 _ ws hws fun q hq => hR.factor q (usable_subset _ _ _ _ _ q hq)
  have hfar : ∀ q s, ¬ PoseWithin Y q →
      meanScore prob v.scale ws (usablePoints cfg.filter v.scale v.hasCell p scan) q = some s → s = c0 :=
    fun q s hq => score_far hs hc0 hY (hR.usable _ _ _ _) hws.len hq
  have hfil : cfg.filterScan v w scan p = some (usablePoints cfg.filter v.scale v.hasCell p scan, w1) := by
    rw [filterScan_usable, hws.reset]; rfl
  have hfil' := (filterScan_le cfg hsc w scan p hh).symm.trans hfil
  simp only [fixedMachine] at hres ⊢
  rw [hfil, Option.bind_some] at hres
  rw [hfil', Option.bind_some]
  simp only [hon, Option.bind_some] at hres
  rw [fixedLoopP_eq _ _ hon] at hres
  generalize hme : meanScore prob v.scale ws (usablePoints cfg.filter v.scale v.hasCell p scan) = f at hon hfar hres
  have hsee : ∀ q, PoseWithin (Y + 32 / 100) q → cfg.score v' w1 (usablePoints cfg.filter v.scale v.hasCell p scan) q = some (f q) :=
    fun q hq => score_le cfg hf hsc _ _ _ (fun sp hsp => hb q hq sp (usable_subset _ _ _ _ _ sp hsp)) (hon q)
  rw [hsee p (hp.mono (by norm_num)), Option.bind_some]
  have hst : 16 * |(1 / 100 : ℝ)| = 16 / 100 := by rw [abs_of_pos (by norm_num)]; norm_num
  rw [fixedLoopP_seen (1 / 100) _ (fun b => PoseWithin Y b ∨ (PoseWithin (Y + 16 / 100) b ∧ f b = some c0)) ?_ ?_ fuel t p (.inl hp)]
  · exact hres
  · intro b hbI q hq
    rw [hst] at hq
    refine hsee q ?_
    have hb' : PoseWithin (Y + 16 / 100) b := by
      rcases hbI with h | h
      · exact h.mono (by norm_num)
      · exact h.1
    exact (hb'.near hq).mono (by linarith)
  · intro b q hbI hq hlt
    rw [hst] at hq
    obtain ⟨x, y, hx, hy, hxy⟩ := ltN_some hlt
    by_cases hqY : PoseWithin Y q
    · exact .inl hqY
    · have hyc := hfar q y hqY hy
      rcases hbI with hbI | hbI
      · exact .inr ⟨hbI.near hq, by rw [hy, hyc]⟩
      · rw [hx, Option.some.injEq] at hbI
        linarith [hbI.2]

/-! ### More iterations do not change an answer -/

/-- With more iterations the answer is the same. -/
def Steady (m : Nat → Machine C T) : Prop :=
  ∀ v w t scan p f f' r, f ≤ f' → (m f).process v w t scan p = some r → (m f').process v w t scan p = some r

theorem idle_steady : Steady fun _ => idleMachine C := fun _ _ _ _ _ _ _ _ _ h => h

theorem enum_steady (E : Enumerator ℝ S) : Steady fun fuel => enumMachine cfg E fuel := by
  intro v w t scan p f f' r hle h
  simp only [enumMachine, Cfg.processScan, searchP, Option.map_eq_some_iff, Option.bind_eq_some_iff] at h ⊢
  obtain ⟨a, ⟨g, h1, b, ⟨x, h2, y, h3, rfl⟩, rfl⟩, rfl⟩ := h
  exact ⟨_, ⟨g, h1, _, ⟨x, h2, y, loopP_more _ _ _ _ hle _ _ h3, rfl⟩, rfl⟩, rfl⟩

theorem fixedLoopP_more (score : Poses.Pose ℝ → Option (Option ℝ)) (dt dO : ℝ) (f : Nat) : ∀ (f' : Nat), f ≤ f' →
    ∀ (m : BitVec 32) (best : Poses.Pose ℝ) (p : Option ℝ) r, fixedLoopP score dt dO f m best p = some r →
      fixedLoopP score dt dO f' m best p = some r := by
  induction f with
  | zero => intro f' _ m best p r h; simp [fixedLoopP] at h
  | succ f ih =>
    intro f' hle m best p r h
    obtain ⟨g, rfl⟩ : ∃ g, f' = g + 1 := ⟨f' - 1, by omega⟩
    unfold fixedLoopP at h ⊢
    by_cases hm : (0 : BitVec 32) < m
    · rw [if_pos hm] at h ⊢
      simp only [Option.bind_eq_some_iff] at h ⊢
      obtain ⟨d, h1, l, h2, h3⟩ := h
      refine ⟨d, h1, l, h2, ?_⟩
      cases l with
      | some a => exact ih g (by omega) _ _ _ _ h3
      | none =>
        simp only at h3 ⊢
        by_cases hd : 0 ≤ d.diff
        · rw [if_pos hd] at h3 ⊢; exact h3
        · rw [if_neg hd] at h3 ⊢; exact ih g (by omega) _ _ _ _ h3
    · rw [if_neg hm] at h ⊢
      exact h

theorem fixed_steady : Steady fun fuel => fixedMachine cfg fuel := by
  intro v w t scan p f f' r hle h
  simp only [fixedMachine, Option.map_eq_some_iff, Option.bind_eq_some_iff] at h ⊢
  obtain ⟨a, h1, b, h2, c, h3, rfl⟩ := h
  exact ⟨a, h1, b, h2, c, fixedLoopP_more _ _ _ _ _ hle _ _ _ _ h3, rfl⟩

theorem drift_steady {m : Nat → Machine C T} (h : Steady m) : Steady fun fuel => driftMachine cfg fuel (m fuel) := by
  intro v w t scan p f f' r hle hr
  simp only [driftMachine, Option.map_eq_some_iff, Option.bind_eq_some_iff] at hr ⊢
  obtain ⟨a, h1, g, h2, r', h3, rfl⟩ := hr
  exact ⟨a, h _ _ _ _ _ _ _ _ hle h1, g, h2, r', detectP_more hle _ _ _ _ h3, rfl⟩

/-- The drift detector around a matcher looks 25 centimetres around its answer. -/
theorem drift_looks (hf : 0 < cfg.cellFuel) {m : Nat → Machine C T} {flat : Prop} {ok : ℝ → T → Prop} {b c : ℝ}
    (hmore : Steady m)
    (h : Roams m cfg.imp flat ok b)
    (hl : LooksWithin m cfg.imp flat ok c) :
    LooksWithin (fun fuel => driftMachine cfg fuel (m fuel)) cfg.imp flat ok (max c (b + 1 / 4)) := by
  intro v v' prob U R Y hv hs hflat hY w hw t ht scan hR p hp hsc hh hb fuel r hr
  simp only [driftMachine, Option.map_eq_some_iff, Option.bind_eq_some_iff] at hr ⊢
  obtain ⟨a, h1, f, h2, r', h3, rfl⟩ := hr
  have hsub := filterScan_subset cfg h2
  rw [filterScan_le cfg hsc a.1 scan p hh] at h2
  obtain ⟨F, w2, t2, d2, s2, g1, g2, -⟩ := h.2.2 v prob U R Y hv hs hflat hY w hw t ht scan hR p hp
  have hsame := hmore _ _ _ _ _ _ _ _ (le_max_left fuel F) h1
  rw [g1 _ (le_max_right _ _), Option.some.injEq] at hsame
  subst hsame
  refine ⟨_, hl v v' prob U R Y hv hs hflat hY w hw t ht scan hR p hp hsc hh
    (fun q hq => hb q (hq.mono (by linarith [le_max_left c (b + 1 / 4)]))) fuel _ h1, f, h2, r', ?_, rfl⟩
  refine (detectP_le fuel f.1 p (d2, s2) (fun pts hpts q hq s hsq => score_le cfg hf hsc f.2 pts q
      (fun sp hsp => hb q ?_ sp (hsub sp (hpts sp hsp))) hsq) h3).1
  exact (g2.near hq).mono (by linarith [le_max_right c (b + 1 / 4)])

end Slam.Matcher
