import Verif.Random.Filter
import Verif.Random.Shipped

/-!
# Copies in a concrete filter (C102)
-/

set_option autoImplicit false
set_option linter.unusedSectionVars false

namespace Slam.Random
open Slam.Poses (Delta Pose)
open Slam.Particle (World)

/-- Three particles that have seen a scan, the last of which is nearly certain; the first is the master. -/
noncomputable def demoWorld (w : ℝ) (m : Bool) : World ℝ := ⟨some w, m, !m, false, ⟨0, 0, 0⟩, ⟨0, 0, 0⟩, ⟨0, 0, 0⟩, ⟨0, 0, 0⟩, 0⟩

/-- See `demoWorld`. -/
noncomputable def demoFilter : SFilter Unit where
  filter := ⟨fun i => if i = 0 then demoWorld (1 / 20) true else if i = 1 then demoWorld (1 / 20) false else demoWorld (9 / 10) false,
    [0, 1, 2], 3, fun _ => [], ⟨1, 0, 0⟩⟩
  rng := fun i => if i = 0 then (⟨(), guessRV 0 1 0 1, stepRV 1 2 1 2⟩ : Rng Unit).markMaster else ⟨(), guessRV 0 1 0 1, stepRV 1 2 1 2⟩

theorem demo_weights : demoFilter.filter.weights = [1 / 20, 1 / 20, (9 / 10 : ℝ)].map some := by
  simp [Particle.Filter.weights, Particle.Filter.particles, demoFilter, demoWorld]

theorem demo_required : Particle.resamplingRequired demoFilter.filter.weights = true := by
  rw [demo_weights]
  norm_num [Particle.resamplingRequired, Particle.sumN, Particle.mulN]

theorem constant_canonical (e : Unit) : 7 / 10 < (canonical constant e).1 ∧ (canonical constant e).1 < 8 / 10 := by
  simp only [canonical, constant]
  norm_num

theorem demo_chosen : demoFilter.chosen constant () = [2, 2, 2] := by
  have hs := uniform_draws_unit (N := constant) () 3
  have h := Particle.resample_indices_spec [1 / 20, 1 / 20, (9 / 10 : ℝ)] (by norm_num) (uniformDraws constant () 3) hs.2
  rw [← demo_weights] at h
  have hc : demoFilter.chosen constant () = Particle.resampleIndices demoFilter.filter.weights (uniformDraws constant () 3) := rfl
  rw [← hc] at h
  generalize demoFilter.chosen constant () = l at h
  have one : ∀ j : Nat, (∃ hj : j < [1 / 20, 1 / 20, (9 / 10 : ℝ)].length, 0 < [1 / 20, 1 / 20, (9 / 10 : ℝ)][j] ∧
      ([1 / 20, 1 / 20, (9 / 10 : ℝ)].take j).sum ≤ (canonical constant ()).1 * (1 - 0) + 0 ∧
      (canonical constant ()).1 * (1 - 0) + 0 < ([1 / 20, 1 / 20, (9 / 10 : ℝ)].take j).sum + [1 / 20, 1 / 20, (9 / 10 : ℝ)][j]) → j = 2 := by
    rintro j ⟨hj, -, -, h3⟩
    have hk := (constant_canonical ()).1
    simp only [List.length_cons, List.length_nil] at hj
    have : j = 0 ∨ j = 1 ∨ j = 2 := by omega
    rcases this with rfl | rfl | rfl
    · norm_num at h3; linarith
    · norm_num at h3; linarith
    · rfl
  simp only [uniformDraws] at h
  rcases h with _ | ⟨h1, _ | ⟨h2, _ | ⟨h3, h4⟩⟩⟩
  cases h4
  rw [one _ h1, one _ h2, one _ h3]


/-- The hypotheses of `copies_draw_alike` and `message_copies_alike` are met: the last particle is chosen three times. The second of its copies becomes
the master; the particle itself and its first copy draw alike. -/
theorem copies_spread_counterexample : ∃ s', demoFilter.gTryResample constant () = some s' ∧ s'.filter.ids = [2, 3, 4] ∧
    (s'.filter.heap 4).master = true ∧ DrawAlike constant (s'.particle 2) (s'.particle 3) := by
  have hch := demo_chosen
  have hidx : Particle.resampleIndices demoFilter.filter.weights (uniformDraws constant () demoFilter.filter.ids.length) = [2, 2, 2] := hch
  have hreb : ∃ h', Particle.rebuild demoFilter.filter.ids [2, 2, 2] [] [] demoFilter.filter.heap demoFilter.filter.next = some ([2, 3, 4], h', 5) ∧
      h' 2 = demoWorld (9 / 10) false ∧ h' 3 = (demoWorld (9 / 10) false).sample ∧ h' 4 = (demoWorld (9 / 10) false).sample := by
    refine ⟨_, rfl, ?_, ?_, ?_⟩ <;> simp [Particle.setObj, demoFilter]
  obtain ⟨h', hr, h2, h3, h4⟩ := hreb
  have ht : ∃ u, demoFilter.tryResample constant () = some (true, u) ∧ u.filter = ({ demoFilter.filter with
      ids := [2, 3, 4]
      heap := h'
      next := 5 } : Particle.Filter ℝ).normalize := by
    refine ⟨⟨({ demoFilter.filter with
      ids := [2, 3, 4]
      heap := h'
      next := 5 } : Particle.Filter ℝ).normalize, rebuildRng demoFilter.filter.ids [2, 2, 2] [] demoFilter.rng demoFilter.filter.next⟩, ?_, rfl⟩
    · simp only [SFilter.tryResample, Particle.Filter.tryResample, demo_required, hidx, hr, Bool.not_true, Bool.false_eq_true, if_false, Option.map_some, if_true]
  obtain ⟨u, hu, huf⟩ := ht
  have hd : ¬ (demoFilter.filter.traversed.sqDist ≤ 1 / 2 ∧ demoFilter.filter.traversed.theta ≤ 1 / 5) := by
    simp only [demoFilter, Poses.Pose.sqDist]
    norm_num
  have hheap : u.filter.heap 2 = { h' 2 with weight := some (1 / 3) } ∧ u.filter.heap 3 = { h' 3 with weight := some (1 / 3) } ∧
      u.filter.heap 4 = { h' 4 with weight := some (1 / 3) } ∧ u.filter.ids = [2, 3, 4] := by
    rw [huf]
    refine ⟨?_, ?_, ?_, rfl⟩ <;>
    · simp only [Particle.Filter.normalize, Particle.forEach, Particle.setObj, Particle.Filter.weights, Particle.Filter.particles, List.map_cons, List.map_nil,
        List.foldl_cons, List.foldl_nil, h2, h3, h4, demoWorld, World.sample, Particle.sumN, Particle.divN]
      norm_num
  obtain ⟨u2, u3, u4, ui⟩ := hheap
  have hm : (Particle.Filter.particles { u.filter with traversed := ⟨0, 0, 0⟩ }).any World.master = false := by
    simp only [Particle.Filter.particles, ui, List.map_cons, List.map_nil, u2, u3, u4, h2, h3, h4, demoWorld, World.sample]
    rfl
  have hh : Particle.heaviest u.filter.heap u.filter.ids none = some 4 := by
    rw [ui]
    simp only [Particle.heaviest, u2, u3, u4]
    norm_num [Particle.ltN]
  have hg : demoFilter.gTryResample constant () = some ⟨{ u.filter with
        traversed := ⟨0, 0, 0⟩
        heap := Particle.setObj u.filter.heap 4 (u.filter.heap 4).markMaster },
      fun j => if j = 4 then (u.rng 4).markMaster else u.rng j⟩ := by
    unfold SFilter.gTryResample
    rw [if_neg (by simpa using hd), hu, Option.bind_some]
    simp only [if_true, SFilter.ensureMaster, hm, Bool.false_eq_true, if_false, hh, Option.map_some]
  refine ⟨_, hg, ui, by simp [Particle.setObj, World.markMaster], ?_⟩
  refine message_copies_alike (k := 0) (l := 1) (i := 2) (y := 2) ?_ hd demo_required hg ?_ ?_ ?_ ?_ ?_ ?_ ?_ ?_
  · simp [demoFilter]
  · rw [hch]; rfl
  · rw [hch]; rfl
  · rfl
  · simp [ui]
  · simp [ui]
  · simp [Particle.setObj, u2, h2, demoWorld]
  · simp [Particle.setObj, u3, h3, demoWorld, World.sample]
  · right
    simp [demoFilter, guessRV, stepRV, DeltaRV.normal, DeltaRV.Fresh, RV.Fresh]

/-- What the copies draw alike is not zero: this generator's first noise moves the particle. -/
theorem demo_noise : ∃ r, (⟨(), guessRV 0 1 0 1, stepRV 1 2 1 2⟩ : Rng Unit).drawGuess constant = some r ∧ 0 < r.1.x := by
  obtain ⟨q, hq, -⟩ := delta_sample_lively (N := constant) (d := guessRV 0 1 0 1) (DeltaRV.normal_ok _ _ _ _) (constant_lively ())
  refine ⟨(q.1, ⟨q.2.2, q.2.1, stepRV 1 2 1 2⟩), by rw [Rng.drawGuess, hq]; rfl, ?_⟩
  simp only [guessRV, DeltaRV.normal, DeltaRV.sample, Option.bind_eq_some_iff, Option.map_eq_some_iff] at hq
  obtain ⟨a, ha, b, hb, c, hc, rfl⟩ := hq
  obtain ⟨n, u, v, huv, -, -, -, -, h1, -⟩ := gaussian_two_draws ha ()
  have hv : 1 / 2 - 1 / 10 < u ∧ u < 6 / 10 ∧ 4 / 10 < v ∧ v < 6 / 10 := by
    simp only [attempt, Prod.mk.injEq] at huv
    have k1 := constant_canonical (afterAttempts constant () n)
    have k2 := constant_canonical (canonical constant (afterAttempts constant () n)).2
    rw [huv.1, huv.2]
    refine ⟨?_, ?_, ?_, ?_⟩ <;> linarith [k1.1, k1.2, k2.1, k2.2]
  show 0 < a.1
  rw [h1]
  have h0 : 0 < u ^ 2 + v ^ 2 := by nlinarith [hv.1, hv.2.2.1]
  have hlt : u ^ 2 + v ^ 2 < 1 := by nlinarith [hv.1, hv.2.1, hv.2.2.1, hv.2.2.2]
  have hl := Real.log_neg h0 hlt
  have hs : 0 < Real.sqrt (-2 * Real.log (u ^ 2 + v ^ 2) / (u ^ 2 + v ^ 2)) := Real.sqrt_pos.2 (div_pos (by linarith) h0)
  have : 0 < v := by linarith [hv.2.2.1]
  have := mul_pos this hs
  linarith

/-- The seeded filter is made and runs: three particles, two messages. -/
example (e : Unit) : ∃ s s' s'', SFilter.create constant (guessRV 0 1 0 1) (stepRV 1 2 1 2) [(), (), ()] = some s ∧
    s.handle constant Real.sin Real.cos ⟨1, 0, 0⟩ (fun _ _ => (⟨0, 0, 0⟩, some (1 / 2))) e = some s' ∧
    s'.handle constant Real.sin Real.cos ⟨2, 1, 0⟩ (fun i _ => (⟨0, 0, 0⟩, some (i : ℝ))) e = some s'' ∧
    SReach constant Real.sin Real.cos (guessRV 0 1 0 1) (stepRV 1 2 1 2) 3 s'' := by
  obtain ⟨c1, c2⟩ := seeded_filter_total (N := constant) (guess := guessRV 0 1 0 1) (step := stepRV 1 2 1 2) Real.sin Real.cos (n := 3) (by norm_num)
  obtain ⟨s, hs⟩ := c1 [(), (), ()] rfl fun e _ => constant_lively e
  have r1 : SReach constant Real.sin Real.cos (guessRV 0 1 0 1) (stepRV 1 2 1 2) 3 s := .create _ s rfl (fun e _ => constant_lively e) hs
  have m1 : ∀ (i : Nat) (p : Pose ℝ) (a : ℝ), ((fun (_ : Nat) (_ : Pose ℝ) => ((⟨0, 0, 0⟩ : Delta ℝ), some (1 / 2 : ℝ))) i p).2 = some a → 0 ≤ a := by
    intro i p a h
    simp only [Option.some.injEq] at h
    rw [← h]; norm_num
  have m2 : ∀ (i : Nat) (p : Pose ℝ) (a : ℝ), ((fun (i : Nat) (_ : Pose ℝ) => ((⟨0, 0, 0⟩ : Delta ℝ), some (i : ℝ))) i p).2 = some a → 0 ≤ a := by
    intro i p a h
    simp only [Option.some.injEq] at h
    rw [← h]; positivity
  obtain ⟨s', -, -, -, h1, -⟩ := (c2 s r1).2.2 ⟨1, 0, 0⟩ _ e m1
  have r2 : SReach constant Real.sin Real.cos (guessRV 0 1 0 1) (stepRV 1 2 1 2) 3 s' := .handle s s' r1 _ _ e m1 h1
  obtain ⟨s'', -, -, -, h2, -⟩ := (c2 s' r2).2.2 ⟨2, 1, 0⟩ _ e m2
  exact ⟨s, s', s'', hs, h1, h2, .handle s' s'' r2 _ _ e m2 h2⟩

end Slam.Random
