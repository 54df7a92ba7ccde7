import Verif.Matcher.Machine

/-!
# A pose that fits as well as any is kept

The matchers of `Matcher.Machine` leave the robot where it is, if no cell of the map shows more than `u` and all usable points
fall into cells that show `u`.
-/

set_option autoImplicit false
set_option linter.unusedSectionVars false

namespace Slam.Matcher
open Slam.Grid Slam.Rect Slam.Sensor Slam.Score Slam.ScanMatch Slam.Cells Slam.Drift
open Slam.Poses (Delta)

/-! ## Specification -/

/-- From the pose `p` the scan fits the map as well as it fits from any: no cell shows more than `u`, every usable point is in a
cell that shows `u`. -/
def PerfectFit (prob : Point ℝ → Coord → ℝ) (scale : ℝ) (usable : List ScanPoint) (p : Poses.Pose ℝ) (u : ℝ) : Prop :=
  (∀ q c, prob q c ≤ u) ∧ ∀ sp ∈ usable, prob (seenAt p sp) (worldToCell scale (seenAt p sp)) = u

/-- The matcher answers with the zero shift whenever the scan fits perfectly at the pose it is asked for. -/
def Machine.StaysPut {C T : Type} (m : Machine C T) (cfg : Cfg C) : Prop :=
  ∀ v prob, Shows v cfg.imp prob → 0 < v.scale → ∀ w, Spw.Ok w → ∀ t (raw : List ScanPoint), (∀ p ∈ raw, p.factor = 1) →
    ∀ p u, PerfectFit prob v.scale (usablePoints cfg.filter v.scale v.hasCell p raw) p u →
      ∀ w' t' delta s, m.process v w t raw p = some (w', t', delta, s) → delta = ⟨0, 0, 0⟩

/-! ## Scores -/

theorem PerfectFit.sublist {prob : Point ℝ → Coord → ℝ} {scale : ℝ} {us us' : List ScanPoint} {p : Poses.Pose ℝ} {u : ℝ}
    (h : PerfectFit prob scale us p u) (hs : us'.Sublist us) : PerfectFit prob scale us' p u :=
  ⟨h.1, fun sp hsp => h.2 sp (hs.subset hsp)⟩

/-- The score of the pose is the common value, or none is defined; no pose has a higher one. -/
theorem perfect_score {prob : Point ℝ → Coord → ℝ} {scale : ℝ} {pts : List ScanPoint} {p : Poses.Pose ℝ} {u : ℝ}
    (h : PerfectFit prob scale pts p u) {ws : List ℝ} (hl : ws.length = pts.length) (hn : ∀ x ∈ ws, 0 ≤ x) :
    (∀ s, meanScore prob scale ws pts p = some s → s = u) ∧
      ∀ q s, meanScore prob scale ws pts q = some s → s ≤ u := by
  classical
  have upper : ∀ q s, meanScore prob scale ws pts q = some s → s ≤ u := by
    intro q s hs
    unfold meanScore at hs
    by_cases h0 : ws.sum = 0
    · rw [if_pos h0] at hs; cases hs
    · rw [if_neg h0, Option.some.injEq] at hs
      rw [← hs]
      have hb := weightedMean_between (pts.map fun p => prob (seenAt q p) (worldToCell scale (seenAt q p))) ws
        (-(((pts.map fun p => |prob (seenAt q p) (worldToCell scale (seenAt q p))|).sum))) u (by simp [hl]) hn h0
      refine (hb ?_).2
      intro x hx
      simp only [List.mem_map] at hx
      obtain ⟨sp, hsp, rfl⟩ := hx
      refine ⟨?_, h.1 _ _⟩
      have h1 : |prob (seenAt q sp) (worldToCell scale (seenAt q sp))| ≤
          (pts.map fun p => |prob (seenAt q p) (worldToCell scale (seenAt q p))|).sum :=
        List.single_le_sum (by simp) _ (List.mem_map.2 ⟨sp, hsp, rfl⟩)
      have h2 := neg_abs_le (prob (seenAt q sp) (worldToCell scale (seenAt q sp)))
      linarith
  refine ⟨?_, upper⟩
  intro s hs
  unfold meanScore at hs
  by_cases h0 : ws.sum = 0
  · rw [if_pos h0] at hs; cases hs
  · rw [if_neg h0, Option.some.injEq] at hs
    rw [← hs]
    have hb := weightedMean_between (pts.map fun sp => prob (seenAt p sp) (worldToCell scale (seenAt p sp))) ws u u
      (by simp [hl]) hn h0 (by
        intro x hx
        simp only [List.mem_map] at hx
        obtain ⟨sp, hsp, rfl⟩ := hx
        rw [h.2 sp hsp]
        exact ⟨le_refl _, le_refl _⟩)
    exact le_antisymm hb.2 hb.1

/-- The first of the best is the first pose, if that is among the best. -/
theorem firstMax_head {score : Poses.Pose ℝ → Option ℝ} {p q : Poses.Pose ℝ} {l : List (Poses.Pose ℝ)} {s u : ℝ}
    (hp : score p = some u) (hu : ∀ r x, score r = some x → x ≤ u) (h : FirstMax score (p :: l) q s) : q = p := by
  obtain ⟨h1, pre, post, h2, h3, -⟩ := h
  cases pre with
  | nil =>
    simp only [List.nil_append, List.cons.injEq] at h2
    exact h2.1.symm
  | cons r pre =>
    simp only [List.cons_append, List.cons.injEq] at h2
    obtain ⟨rfl, -⟩ := h2
    have := h3 p (by simp) u hp
    have := hu q s h1
    linarith

theorem add_eq_self {p d : Poses.Pose ℝ} (h : p.add d = p) : d = ⟨0, 0, 0⟩ := by
  obtain ⟨a, b, c⟩ := d
  obtain ⟨x, y, z⟩ := p
  simp only [Poses.Pose.add, Poses.Pose.mk.injEq] at h ⊢
  exact ⟨by linarith [h.1], by linarith [h.2.1], by linarith [h.2.2]⟩

/-! ## The matchers -/

section
variable {C T S : Type} {cfg : Cfg C}

/-- **Enumerating matchers stay (C112)**, whatever the enumerator: brute force, hill climbing, Monte Carlo with any numbers. -/
theorem enum_stays_put (hf : 0 < cfg.cellFuel) (E : Enumerator ℝ S) (fuel : Nat) : (enumMachine cfg E fuel).StaysPut cfg := by
  intro v prob h hs w hw t raw hfac p u hp w' t' delta s hr
  simp only [enumMachine, Option.map_eq_some_iff, Prod.mk.injEq] at hr
  obtain ⟨⟨w1, t1, d1, s1, ev⟩, hr, rfl, rfl, rfl, rfl⟩ := hr
  obtain ⟨w2, ws, hws, heq⟩ := matcher_on_map cfg E v prob h hs hf w hw raw hfac p
  rw [heq, Option.map_eq_some_iff] at hr
  obtain ⟨⟨e1, d2, b1, ev1⟩, hr, e⟩ := hr
  simp only [Prod.mk.injEq] at e
  obtain ⟨rfl, rfl, rfl, rfl, rfl⟩ := e
  obtain ⟨hs1, hs2⟩ := perfect_score hp hws.len hws.nonneg
  cases hi : meanScore prob v.scale ws (usablePoints cfg.filter v.scale v.hasCell p raw) p with
  | none => exact (enumeration_undefined_initial E _ fuel t p hi _ _ _ _ hr).2
  | some s0 =>
    obtain rfl := hs1 _ hi
    obtain ⟨q, s, -, h2, -, h3⟩ := enumeration_returns_first_maximum E _ fuel t p _ hi _ _ _ _ hr
    obtain ⟨tested, ht⟩ := enumeration_notifications E _ fuel t p _ _ _ _ hr
    refine add_eq_self (p := p) ?_
    change p.add d2 = p
    rw [h2]
    rw [ht] at h3
    exact firstMax_head hi hs2 h3

theorem idle_stays_put : (idleMachine C).StaysPut cfg := by
  intro v prob _ _ w _ t raw _ p u _ w' t' delta s hr
  simp only [idleMachine, Option.some.injEq, Prod.mk.injEq] at hr
  exact hr.2.2.1.symm

/-- **The fixed hill climbing stays (C112).** -/
theorem fixed_stays_put (hf : 0 < cfg.cellFuel) (fuel : Nat) : (fixedMachine cfg fuel).StaysPut cfg := by
  intro v prob h hs w hw t raw hfac p u hp w' t' delta s hr
  obtain ⟨w1, ws, g1, g2⟩ := fixed_on_map cfg v prob h hs hf w hw raw hfac p
  rw [g2, Option.map_eq_some_iff] at hr
  obtain ⟨⟨d', b', m'⟩, g3, g4⟩ := hr
  simp only [Prod.mk.injEq] at g4
  obtain ⟨rfl, rfl, rfl, rfl⟩ := g4
  obtain ⟨hs1, hs2⟩ := perfect_score hp g1.len g1.nonneg
  obtain ⟨n, k1, -, -⟩ := ScanMatch.fixed_limit_drifts _ _ _ _ _ _ _ _ _ g3
  refine add_eq_self (p := p) ?_
  generalize p.add d' = q at k1
  cases k1 with
  | refl => rfl
  | step ha hb hab _ =>
    have := hs1 _ ha
    have := hs2 _ _ hb
    linarith

/-- **The drift detector stays (C112)** around a matcher that does. -/
theorem drift_stays_put {inner : Machine C T} (hf : 0 < cfg.cellFuel) (fuel : Nat) (hfuel : 7 ≤ fuel) (hk : inner.Keeps cfg.imp)
    (hi : inner.StaysPut cfg) : (driftMachine cfg fuel inner).StaysPut cfg := by
  intro v prob h hs w hw t raw hfac p u hp w' t' delta s hr
  have hr' := hr
  simp only [driftMachine, Option.bind_eq_some_iff] at hr'
  obtain ⟨⟨w1, t1, d1, s1⟩, e1, -⟩ := hr'
  have hd1 := hi v prob h hs w hw t raw hfac p u hp _ _ _ _ e1
  subst hd1
  obtain ⟨w2, ws, k, wl, r, g1, g2, -, g4, g5, g6, -⟩ := drift_on_map cfg v prob h hs hf inner hfac (sm := (⟨0, 0, 0⟩, s1)) e1
    (hk v prob h hs w hw t raw p _ _ _ _ e1) fuel hfuel
  rw [g1, Option.some.injEq, Prod.mk.injEq, Prod.mk.injEq] at hr
  obtain ⟨-, -, rfl⟩ := hr
  rcases lt_or_ge (binCount 20 k (pairAngles (usablePoints cfg.filter v.scale v.hasCell p raw)) : ℝ)
    (4 / 10 * ((usablePoints cfg.filter v.scale v.hasCell p raw).length : ℝ)) with hlt | hge
  · have := g5 hlt
    rw [Prod.mk.injEq] at this
    exact this.1
  · obtain ⟨q, e2, e3, e4⟩ := g6 hge
    rw [Prod.mk.injEq] at e2
    have hstart : p.add (⟨0, 0, 0⟩ : Delta ℝ) = p := by simp [Poses.Pose.add]
    simp only [hstart] at e3 e4
    have hfit := hp.sublist (offDrift_sublist (usablePoints cfg.filter v.scale v.hasCell p raw) k)
    obtain ⟨hs1, hs2⟩ := perfect_score hfit g4.weighed.len g4.weighed.nonneg
    have hq : q = p := by
      cases hi : meanScore prob v.scale wl (offDrift (usablePoints cfg.filter v.scale v.hasCell p raw) k) p with
      | none => exact e4 hi
      | some s0 =>
        obtain rfl := hs1 _ hi
        obtain ⟨s, h3⟩ := e3 _ hi
        exact firstMax_head hi hs2 h3
    rw [e2.1, hq]
    simp [Poses.Pose.sub]

end

end Slam.Matcher
