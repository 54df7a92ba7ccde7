import Verif.Matcher.Local
import Verif.Matcher.Roam

/-!
# Where hill climbing looks

Hill climbing (C100) may take any number of rounds, but it tries only poses within two steps of where known cells can be seen. So it
answers on a map of fixed size, too, if that is large enough.
-/

set_option autoImplicit false
set_option linter.unusedSectionVars false

namespace Slam.Matcher
open Slam.Grid Slam.Rect Slam.Sensor Slam.Score Slam.ScanMatch Slam.Cells Slam.Drift
open Slam.Poses (Delta)

variable {C S : Type}

/-- The loop asks for the scores of the poses it announces only. -/
theorem loopP_seen (E : Enumerator ℝ S) {score score' : Poses.Pose ℝ → Option (Option ℝ)} (fuel : Nat) : ∀ r r',
    loopP E score fuel r = some r' → (∃ l, r'.events = r.events ++ l) ∧
      ((∀ q ∈ testedPoses r'.events, ∀ s, score q = some s → score' q = some s) → loopP E score' fuel r = some r') := by
  induction fuel with
  | zero => intro r r' h; cases h
  | succ fuel ih =>
    intro r r' h
    unfold loopP at h ⊢
    by_cases hn : E.hasNext r.enum = true
    · rw [if_pos hn] at h ⊢
      simp only [Option.bind_eq_some_iff] at h ⊢
      obtain ⟨s, hs, h⟩ := h
      by_cases ha : ltN r.prob s = true
      · rw [if_pos ha] at h
        obtain ⟨⟨l, g1⟩, g2⟩ := ih _ r' h
        refine ⟨⟨_, by rw [g1, List.append_assoc]⟩, fun hq => ⟨s, hq _ ?_ s hs, by rw [if_pos ha]; exact g2 hq⟩⟩
        rw [g1]
        simp [testedPoses]
      · rw [if_neg ha] at h
        obtain ⟨⟨l, g1⟩, g2⟩ := ih _ r' h
        refine ⟨⟨_, by rw [g1, List.append_assoc]⟩, fun hq => ⟨s, hq _ ?_ s hs, by rw [if_neg ha]; exact g2 hq⟩⟩
        rw [g1]
        simp [testedPoses]
    · rw [if_neg hn] at h ⊢
      rw [Option.some.injEq] at h
      subst h
      exact ⟨⟨[], by simp⟩, fun _ => rfl⟩

theorem searchP_seen (E : Enumerator ℝ S) {score score' : Poses.Pose ℝ → Option (Option ℝ)} {fuel : Nat} {e e' : S}
    {p : Poses.Pose ℝ} {d : Delta ℝ} {s : Option ℝ} {events : List (Event ℝ)} (h : searchP E score fuel e p = some (e', d, s, events))
    (hq : ∀ q ∈ testedPoses events, ∀ s, score q = some s → score' q = some s) :
    searchP E score' fuel e p = some (e', d, s, events) := by
  unfold searchP at h ⊢
  simp only [Option.bind_eq_some_iff, Option.map_eq_some_iff] at h ⊢
  obtain ⟨x, hx, r, hr, h⟩ := h
  obtain ⟨⟨l, g1⟩, g2⟩ := loopP_seen E (score' := score') fuel _ _ hr
  simp only [Prod.mk.injEq] at h
  obtain ⟨rfl, rfl, rfl, rfl⟩ := h
  have hsub : ∀ q ∈ testedPoses r.events, q ∈ testedPoses (r.events ++ [.finish (r.best.sub p) r.prob]) := by
    intro q h
    simp only [testedPoses, List.filterMap_append, List.mem_append] at h ⊢
    exact .inl h
  refine ⟨x, hq _ (hsub _ ?_) _ hx, r, g2 fun q h => hq q (hsub q h), rfl⟩
  rw [g1]
  simp [testedPoses]

/-- All poses hill climbing tries are within two steps of `Y`. -/
theorem climb_tested {score : Poses.Pose ℝ → Option ℝ} {τ Y c0 : ℝ}
    (hfar : ∀ q s, ¬ PoseWithin Y q → score q = some s → s = c0) {F : Nat} {d r : ℝ} {b q : Poses.Pose ℝ} {p s : Option ℝ}
    {tested : List (Poses.Pose ℝ)} (h : Climb score F d r b p tested q s) : p = score b → |d| ≤ τ →
    (PoseWithin Y b ∨ (PoseWithin (Y + τ) b ∧ score b = some c0)) → ∀ x ∈ tested, PoseWithin (Y + 2 * τ) x := by
  have near : ∀ {b x : Poses.Pose ℝ} {d : ℝ}, |d| ≤ τ → (PoseWithin Y b ∨ (PoseWithin (Y + τ) b ∧ score b = some c0)) →
      |x.x - b.x| ≤ |d| ∧ |x.y - b.y| ≤ |d| → PoseWithin (Y + 2 * τ) x := by
    intro b x d hd hb hx
    have h0 := (abs_nonneg d).trans hd
    have hb' : PoseWithin (Y + τ) b := by
      rcases hb with h | h
      · exact h.mono (by linarith)
      · exact h.1
    constructor
    · have := abs_sub_abs_le_abs_sub x.x b.x
      linarith [hb'.1, hx.1]
    · have := abs_sub_abs_le_abs_sub x.y b.y
      linarith [hb'.2, hx.2]
  induction h with
  | none d r b p => intro _ _ _ x hx; simp at hx
  | success F d r b p rest b' p' hi hr ih =>
    intro hp hd hb x hx
    subst hp
    rcases List.mem_append.1 hx with hx | hx
    · exact near hd hb (sixNeighbours_close hx)
    · rcases (improve_of_improves score b (score b) (sixNeighbours b d r)).1 with e | ⟨e1, e2⟩
      · rw [e] at ih
        exact ih rfl hd hb x hx
      · refine ih e2 hd ?_ x hx
        obtain ⟨u, v, hu, hv, huv⟩ := ltN_some e1
        rw [e2] at hv
        by_cases hq : PoseWithin Y (improve score (b, score b) (sixNeighbours b d r)).1
        · exact .inl hq
        · have hc := hfar _ v hq hv
          right
          refine ⟨?_, by rw [hv, hc]⟩
          rcases hb with hb | hb
          · rcases improve_mem score (sixNeighbours b d r) b (score b) with e | hm
            · rw [e]; exact hb.mono (by linarith [(abs_nonneg d).trans hd])
            · have hcl := sixNeighbours_close hm
              constructor
              · have := abs_sub_abs_le_abs_sub (improve score (b, score b) (sixNeighbours b d r)).1.x b.x
                linarith [hb.1, hcl.1]
              · have := abs_sub_abs_le_abs_sub (improve score (b, score b) (sixNeighbours b d r)).1.y b.y
                linarith [hb.2, hcl.2]
          · rw [hu, Option.some.injEq] at hb
            linarith [hb.2]
  | failure F d r b p rest b' p' hi hr ih =>
    intro hp hd hb x hx
    rcases List.mem_append.1 hx with hx | hx
    · exact near hd hb (sixNeighbours_close hx)
    · refine ih hp ?_ hb x hx
      rw [abs_div, abs_two]
      linarith [abs_nonneg d]
  | last d r b p b' p' hi hb' =>
    intro hp hd hb x hx
    rcases List.mem_append.1 hx with hx | hx
    · exact near hd hb (sixNeighbours_close hx)
    · rw [List.mem_singleton] at hx
      subst hx
      refine near hd hb ?_
      simp only [add_sub_cancel_left, sub_self, abs_zero, abs_div, abs_two]
      constructor <;> linarith [abs_nonneg d]

theorem tested_announce (score : Poses.Pose ℝ → Option ℝ) (p : Option ℝ) (ts : List (Poses.Pose ℝ)) (tl : List (Event ℝ)) :
    testedPoses (announce score p ts ++ tl) = ts ++ testedPoses tl := by
  induction ts generalizing p with
  | nil => rfl
  | cons t ts ih =>
    simp only [announce]
    split
    · have := ih (score t)
      simp only [testedPoses] at this
      simp [testedPoses, this]
    · have := ih p
      simp only [testedPoses] at this
      simp [testedPoses, this]

/-- **Hill climbing looks only so far (C110)**: let cells be known within `U` of the origin, let ranges be at most `R`, and let the
matcher be called within `Y`, beyond everything from where known cells can be seen. On any map that has the cells seen from poses within
`Y` and two steps, the matcher answers after enough iterations, with a pose within one step of `Y`. -/
theorem hill_climbing_reads {cfg : Cfg C} (hf : 0 < cfg.cellFuel) (F : Nat) (d r : ℝ) {v v' : View C} {prob : Point ℝ → Coord → ℝ}
    {U R Y : ℝ} (hv : Shows v cfg.imp prob) (hs : 0 < v.scale) (hflat : Flat v.scale U prob) (hY : U + v.scale + R ≤ Y) {w : Spw}
    (hw : Spw.Ok w) (t : HCState ℝ) {scan : List ScanPoint} (hR : Ranged R scan) {p : Poses.Pose ℝ} (hp : PoseWithin Y p)
    (hsc : v.scale = v'.scale)
    (hh : ∀ sp ∈ scan, v.hasCell (worldToCell v.scale (seenAt p sp)) = v'.hasCell (worldToCell v.scale (seenAt p sp)))
    (hb : ∀ q, PoseWithin (Y + 2 * |d|) q → ∀ sp ∈ scan, Below v v' (worldToCell v.scale (seenAt q sp))) :
    ∃ G w' t' delta s, (∀ fuel, G ≤ fuel → (enumMachine cfg (hillClimbing F d r) fuel).process v' w t scan p = some (w', t', delta, s)) ∧
      (enumMachine cfg (hillClimbing F d r) G).process v w t scan p = some (w', t', delta, s) ∧ PoseWithin (Y + |d|) (p.add delta) := by
  obtain ⟨⟨V, hV⟩, c0, hc0⟩ := hflat
  obtain ⟨w1, ws, hws, heq⟩ := matcher_on_map cfg (hillClimbing F d r) v prob hv hs hf w hw scan hR.factor p
  obtain ⟨W, hW⟩ := finitely_many_scores prob V hV v.scale ws (usablePoints cfg.filter v.scale v.hasCell p scan)
  obtain ⟨⟨e', delta, s, events⟩, ho⟩ := hill_climbing_terminates F d r
    (meanScore prob v.scale ws (usablePoints cfg.filter v.scale v.hasCell p scan)) t p W (fun q x => hW q x)
  obtain ⟨tested, best, h1, rfl, h3⟩ := hill_climbing_follows_rounds F d r _ t p _ e' delta s events ho
  have hfar : ∀ q s, ¬ PoseWithin Y q →
      meanScore prob v.scale ws (usablePoints cfg.filter v.scale v.hasCell p scan) q = some s → s = c0 :=
    fun q s hq => score_far hs hc0 hY (hR.usable _ _ _ _) hws.len hq
  have hwithin : ∀ q ∈ testedPoses events, PoseWithin (Y + 2 * |d|) q := by
    intro q hq
    rw [h3] at hq
    have : q = p ∨ q ∈ tested := by
      have e := tested_announce (meanScore prob v.scale ws (usablePoints cfg.filter v.scale v.hasCell p scan))
        (meanScore prob v.scale ws (usablePoints cfg.filter v.scale v.hasCell p scan) p) tested [.finish (best.sub p) s]
      simp only [testedPoses, List.filterMap_cons, List.filterMap_nil, List.mem_cons] at hq e
      rw [e] at hq
      simpa using hq
    rcases this with rfl | hq
    · exact hp.mono (by linarith [abs_nonneg d])
    · exact climb_tested hfar h1 rfl le_rfl (.inl hp) q hq
  have key : ∀ fuel, (enumMachine cfg (hillClimbing F d r) fuel).process v w t scan p = some (w1, e', best.sub p, s) ∨
      processScan (hillClimbing F d r) (meanScore prob v.scale ws (usablePoints cfg.filter v.scale v.hasCell p scan)) fuel t p ≠
        some (e', best.sub p, s, events) := by
    intro fuel
    by_cases h : processScan (hillClimbing F d r) (meanScore prob v.scale ws (usablePoints cfg.filter v.scale v.hasCell p scan)) fuel t p =
        some (e', best.sub p, s, events)
    · left
      simp only [enumMachine, heq, h, Option.map_some]
    · exact .inr h
  refine ⟨_, w1, e', best.sub p, s, fun fuel hle => ?_, (key _).resolve_right (not_not.2 ho), ?_⟩
  · have h4 := processScan_more hle ho
    have h5 := heq fuel t
    rw [h4, Option.map_some] at h5
    unfold Cfg.processScan at h5
    rw [Option.bind_eq_some_iff] at h5
    obtain ⟨f, f1, f2⟩ := h5
    rw [Option.map_eq_some_iff] at f2
    obtain ⟨a, a1, a2⟩ := f2
    simp only [Prod.mk.injEq] at a2
    obtain ⟨rfl, rfl⟩ := a2
    have f3 := (filterScan_le cfg hsc w scan p hh).symm.trans f1
    have a3 : searchP (hillClimbing F d r) (cfg.score v' f.2 f.1) fuel t p = some (e', best.sub p, s, events) :=
      searchP_seen _ a1 fun q hq s' h => score_le cfg hf hsc _ _ _
        (fun sp hsp => hb q (hwithin q hq) sp (filterScan_subset cfg f1 sp hsp)) h
    simp only [enumMachine, Cfg.processScan, f3, Option.bind_some, a3, Option.map_some]
  · rw [add_sub_self]
    exact ascends_within (abs_nonneg d) hfar (climb_ascends h1 rfl le_rfl) (.inl hp)

end Slam.Matcher
