import Verif.Random.MonteCarlo
import Verif.Particle.Props

/-!
# Particles with their generators (C102)
-/

set_option autoImplicit false
set_option linter.unusedSectionVars false

namespace Slam.Random
open Slam.Poses (Delta Pose)

variable {E : Type} (N : Engine E)

/-! ## Model -/

/-- What happens to a particle at one message: the odometry's step and the answers of the scan matcher. -/
structure Happening where
  odom : Delta ℝ
  matcher : Pose ℝ → Delta ℝ × Option ℝ

/-- What a particle draws when it matches a scan: the noise it is moved by (none at its first scan), and the step after which it matches
again. -/
structure Draw where
  noise : Option (Delta ℝ)
  step : Delta ℝ

/-- The life of a particle, from one resampling to the next: `update_robot_pose` and `handle_observation` for each message
(src/slams/gmapping/gmapping_particle_filter.h:52-57 and 70-73), with what it draws. -/
noncomputable def RWorld.follow (sn cs : ℝ → ℝ) : RWorld E → List Happening → Option (RWorld E × List Draw)
  | w, [] => some (w, [])
  | w, d :: ds =>
    let u : RWorld E := ⟨w.world.updatePose sn cs d.odom, w.rng⟩
    (u.handleObservation N d.matcher).bind fun r =>
      (RWorld.follow sn cs r.1 ds).map fun r' =>
        (r'.1, if u.world.tooClose then r'.2 else ⟨r.2.1, r.1.world.nextSm⟩ :: r'.2)

/-! ## Specification -/

/-- The draws of `n` matchings, from the random part alone. -/
noncomputable def draws : Nat → Bool → Rng E → Option (List Draw × Rng E)
  | 0, _, g => some ([], g)
  | n + 1, first, g =>
    (if first then some (none, g) else (g.drawGuess N).map fun r => (some r.1, r.2)).bind fun a =>
      (a.2.drawStep N).bind fun st => (draws n false st.2).map fun r => (⟨a.1, st.1⟩ :: r.1, r.2)

/-- The random part of a particle that is not `noisy` is that of a master: its variables are zero. -/
structure Fits (noisy : Bool) (g : Rng E) : Prop where
  guess : g.guess.Ok
  step : g.step.Ok
  zero : noisy = false → (DeltaRV.normal 0 0 0 0).Same g.guess ∧ (DeltaRV.normal 0 0 0 0).Same g.step

/-! ## Proofs -/

section
variable {N}

theorem draws_prefix (n : Nat) : ∀ (m : Nat), n ≤ m → ∀ (first : Bool) (g : Rng E) {a b : List Draw × Rng E}, draws N n first g = some a →
    draws N m first g = some b → a.1 <+: b.1 := by
  induction n with
  | zero =>
    intro m _ first g a b ha _
    simp only [draws, Option.some.injEq] at ha
    subst ha
    exact List.nil_prefix
  | succ n ih =>
    intro m hm first g a b ha hb
    obtain ⟨m, rfl⟩ : ∃ k, m = k + 1 := ⟨m - 1, by omega⟩
    simp only [draws, Option.bind_eq_some_iff, Option.map_eq_some_iff] at ha hb
    obtain ⟨x, hx, y, hy, z, hz, rfl⟩ := ha
    obtain ⟨x', hx', y', hy', z', hz', rfl⟩ := hb
    obtain rfl : x = x' := Option.some.inj (hx.symm.trans hx')
    obtain rfl : y = y' := Option.some.inj (hy.symm.trans hy')
    exact List.prefix_cons_inj _ |>.2 (ih m (by omega) false _ hz hz')

theorem follow_draws (sn cs : ℝ → ℝ) (ds : List Happening) : ∀ (w : RWorld E) {r : RWorld E × List Draw}, w.follow N sn cs ds = some r →
    draws N r.2.length w.world.scanFirst w.rng = some (r.2, r.1.rng) := by
  induction ds with
  | nil =>
    intro w r h
    simp only [RWorld.follow, Option.some.injEq] at h
    subst h
    rfl
  | cons d ds ih =>
    intro w r h
    simp only [RWorld.follow, Option.bind_eq_some_iff, Option.map_eq_some_iff] at h
    obtain ⟨q, hq, q', hq', rfl⟩ := h
    have ih' := ih q.1 hq'
    by_cases ht : (w.world.updatePose sn cs d.odom).tooClose = true
    · simp only [RWorld.handleObservation, ht, if_true, Option.some.injEq] at hq
      subst hq
      simp only [ht, if_true]
      exact ih'
    · rw [Bool.not_eq_true] at ht
      simp only [RWorld.handleObservation, ht, Bool.false_eq_true, if_false, Option.bind_eq_some_iff, Option.map_eq_some_iff] at hq
      obtain ⟨n, hn, st, hst, rfl⟩ := hq
      simp only [ht, Bool.false_eq_true, if_false, List.length_cons, draws]
      have e1 : (w.world.updatePose sn cs d.odom).scanFirst = w.world.scanFirst := rfl
      rw [e1] at hn
      rw [hn, Option.bind_some, hst, Option.bind_some]
      have e2 : ∀ (u : Particle.World ℝ) (p : Option ℝ), (if (Particle.positive p || u.scanFirst) = true then false else u.scanFirst) = false := by
        intro u p
        cases u.scanFirst <;> cases Particle.positive p <;> rfl
      simp only [e2] at ih'
      rw [ih']
      rfl
/-- **Particles with the same random part draw the same (C102)**, whatever their odometry, maps and matchers: at their `k`-th matching they
are moved by the same noise and draw the same step, as long as both live. -/
theorem same_rng_draw_alike (sn cs : ℝ → ℝ) {a b : RWorld E} (hr : a.rng = b.rng) (hf : a.world.scanFirst = b.world.scanFirst)
    {da db : List Happening} {ra rb : RWorld E × List Draw} (ha : a.follow N sn cs da = some ra) (hb : b.follow N sn cs db = some rb) :
    ∀ (k : Nat) (x y : Draw), ra.2[k]? = some x → rb.2[k]? = some y → x = y := by
  have h1 := follow_draws sn cs da a ha
  have h2 := follow_draws sn cs db b hb
  rw [← hr, ← hf] at h2
  intro k x y hx hy
  rcases le_total ra.2.length rb.2.length with h | h
  · obtain ⟨t, ht⟩ := draws_prefix _ _ h _ _ h1 h2
    simp only at ht
    rw [← ht, List.getElem?_append_left (List.getElem?_eq_some_iff.1 hx).1] at hy
    exact Option.some.inj (hx.symm.trans hy)
  · obtain ⟨t, ht⟩ := draws_prefix _ _ h _ _ h2 h1
    simp only at ht
    rw [← ht, List.getElem?_append_left (List.getElem?_eq_some_iff.1 hy).1] at hx
    exact Option.some.inj (hx.symm.trans hy)

/-! ### The particle of C23 ff. with its draws -/

theorem zero_within {d : DeltaRV} (h : (DeltaRV.normal 0 0 0 0).Same d) {v : Delta ℝ} (hv : d.Within v) : v = ⟨0, 0, 0⟩ := by
  obtain ⟨h1, h2, h3⟩ := normal_within h hv
  simp only [sub_zero, abs_zero, mul_zero] at h1 h2 h3
  ext
  · exact abs_eq_zero.1 (le_antisymm h1 (abs_nonneg _))
  · exact abs_eq_zero.1 (le_antisymm h2 (abs_nonneg _))
  · exact abs_eq_zero.1 (le_antisymm h3 (abs_nonneg _))

theorem drawGuess_some {g : Rng E} (hok : g.guess.Ok) {r : Delta ℝ × Rng E} (h : g.drawGuess N = some r) :
    g.guess.Within r.1 ∧ g.guess.Same r.2.guess ∧ r.2.guess.Ok ∧ r.2.step = g.step ∧ ∃ k, r.2.engine = skip N g.engine k := by
  simp only [Rng.drawGuess, Option.map_eq_some_iff] at h
  obtain ⟨q, hq, rfl⟩ := h
  obtain ⟨h1, h2, h3, h4⟩ := delta_sample hok hq
  exact ⟨h1, h2, h3, rfl, h4⟩

theorem drawStep_some {g : Rng E} (hok : g.step.Ok) {r : Delta ℝ × Rng E} (h : g.drawStep N = some r) :
    g.step.Within r.1 ∧ g.step.Same r.2.step ∧ r.2.step.Ok ∧ r.2.guess = g.guess ∧ ∃ k, r.2.engine = skip N g.engine k := by
  simp only [Rng.drawStep, Option.map_eq_some_iff] at h
  obtain ⟨q, hq, rfl⟩ := h
  obtain ⟨h1, h2, h3, h4⟩ := delta_sample hok hq
  exact ⟨h1, h2, h3, rfl, h4⟩

/-- **A particle with its generator is a particle with these draws (C102)**: all that holds of particles for every noise and every step
holds for those that the generator hands out; a master's are zero. -/
theorem particle_with_draws {w : RWorld E} (h : Fits w.world.noisy w.rng) (matcher : Pose ℝ → Delta ℝ × Option ℝ) :
    w.handleObservation N matcher = (drawFor N w.world w.rng).map fun d =>
      let r := w.world.handleObservation ⟨d.1, matcher, d.2.1⟩
      (⟨r.1, d.2.2⟩, if w.world.tooClose || w.world.scanFirst then none else some d.1, r.2) := by
  obtain ⟨W, g⟩ := w
  simp only at h
  unfold RWorld.handleObservation drawFor
  by_cases ht : W.tooClose = true
  · simp only [ht, if_true, Option.map_some, Particle.World.handleObservation, Bool.true_or]
  rw [Bool.not_eq_true] at ht
  have hstep : ∀ (g' : Rng E), g'.step = g.step → ∀ st, g'.drawStep N = some st → (if W.noisy = true then st.1 else ⟨0, 0, 0⟩) = st.1 := by
    intro g' hg' st hst
    by_cases hn : W.noisy = true
    · rw [if_pos hn]
    · rw [if_neg hn]
      rw [Bool.not_eq_true] at hn
      exact (zero_within (h.zero hn).2 (hg' ▸ (drawStep_some (by rw [hg']; exact h.step) hst).1)).symm
  by_cases hf : W.scanFirst = true
  · simp only [ht, hf, Bool.false_eq_true, if_false, if_true, Option.bind_some, Bool.false_or]
    cases hst : g.drawStep N with
    | none => rfl
    | some st =>
      have := hstep g rfl st hst
      simp only [Option.map_some, Particle.World.handleObservation, ht, hf, Bool.false_eq_true, if_false, if_true, this]
  · rw [Bool.not_eq_true] at hf
    simp only [ht, hf, Bool.false_eq_true, if_false, Bool.or_false]
    cases hn : g.drawGuess N with
    | none => rfl
    | some n =>
      obtain ⟨k1, -, -, k4, -⟩ := drawGuess_some h.guess hn
      have hz : (if W.noisy = true then n.1 else ⟨0, 0, 0⟩) = n.1 := by
        by_cases hno : W.noisy = true
        · rw [if_pos hno]
        · rw [if_neg hno]
          rw [Bool.not_eq_true] at hno
          exact (zero_within (h.zero hno).1 k1).symm
      simp only [Option.map_some, Option.bind_some]
      cases hst : n.2.drawStep N with
      | none => rfl
      | some st =>
        have := hstep n.2 k4 st hst
        simp only [Option.map_some, Particle.World.handleObservation, ht, hf, Bool.false_eq_true, if_false, this, hz]

end

end Slam.Random
