import Verif.Whole.GmOwnStill

/-!
# An instance of C116: two particles, one of which handles a scan
-/

set_option autoImplicit false
set_option linter.unusedSectionVars false

namespace Slam.Whole
open Slam.Grid Slam.Cells Slam.Poses Slam.Sensor Slam.Score Slam.ScanAdder Slam.Worlds Slam.Matcher

/-- A message at `x` metres: a wall in four metres. -/
noncomputable def aheadMsg (x : ℝ) : GMsg :=
  ⟨⟨x, 0, 0⟩, ⟨0, 2, 1, 1 / 10, 30, [some 4, some 50, some 0]⟩, fun _ => ⟨1 / 10, 0, 0⟩, fun _ => ⟨7 / 10, 7 / 10, 3 / 10⟩, [1 / 4, 3 / 4]⟩

theorem ahead_sees (x : ℝ) : Sees gOwnDemoCfg (aheadMsg x) := by
  refine ⟨[.polar 4 0 true 1, .polar 30 1 false 1], ⟨[⟨some 4, 0, true⟩, ⟨some 30, 1, false⟩], ?_, rfl⟩, fun p => ?_⟩
  · norm_num [msg2scan, convert, aheadMsg, gOwnDemoCfg, gDemoCfg]
  · classical
    refine ⟨.polar 4 0 true 1, ?_, by norm_num [ScanPoint.range]⟩
    unfold GOwnCfg.usable usablePoints
    refine List.mem_map.2 ⟨(.polar 4 0 true 1, 0), List.mem_filter.2 ⟨by simp [List.zipIdx], ?_⟩, rfl⟩
    rw [decide_eq_true_iff]
    refine ⟨.inr (by simp), rfl, ?_, rfl⟩
    norm_num [gOwnDemoCfg]

/-- Two particles start; the robot goes 95 centimetres, which is as far as the step of the second, but not of the first; then it stands
still for up to a hundred scans. The second particle is matched with every one of them, and they are put into the map; GMapping shows
exactly what the odometry says. -/
example : ∃ init st s1, gStart [⟨7 / 10, 7 / 10, 3 / 10⟩, ⟨6 / 10, 7 / 10, 4 / 10⟩] init (some (Hist.create 20)) = some st ∧
    GOwn.handle gOwnDemoCfg ⟨st, GMatch.create (.even 1) (1 / 10) 1 (1 / 10) (1 / 10)⟩ (aheadMsg (95 / 100)) = some s1 ∧ Standing s1.st ∧
    ∀ k ≤ 100, ∃ s2, s1.run gOwnDemoCfg (List.replicate k (aheadMsg (95 / 100))) = some s2 ∧ s2.st.pose = some ⟨95 / 100, 0, 0⟩ := by
  obtain ⟨init, -, hL⟩ := lazy_lawful 128 (by norm_num) GmCell.observe 10 10 (GmCell.create (K := ℝ))
  have hL' : Lawful gDemoCfg.api GmCell.observe GmCell.create init := hL
  obtain ⟨st, hs, hA⟩ := gmapping_starts (steps := [⟨7 / 10, 7 / 10, 3 / 10⟩, ⟨6 / 10, 7 / 10, 4 / 10⟩]) (by simp) init
    (some (Hist.create 20))
  obtain ⟨hr, hm, -, ho, hh⟩ := start_reach (n := 2) rfl hs
  have hsound := gown_start (cfg := gOwnDemoCfg) (n := 2) rfl hs (sw := .even 1) (by intro h e; cases e) (1 / 10) 1 (1 / 10) (1 / 10)
  have hsam : ∀ x, SamplesOk 2 (aheadMsg x) := by
    intro x
    refine ⟨rfl, ?_⟩
    intro y hy
    simp only [aheadMsg, List.mem_cons, List.not_mem_nil, or_false] at hy
    rcases hy with rfl | rfl <;> norm_num
  have total : ∀ k : Nat, k ≤ 100 → ∃ s', GOwn.run gOwnDemoCfg ⟨st, GMatch.create (.even 1) (1 / 10) 1 (1 / 10) (1 / 10)⟩
      (aheadMsg (95 / 100) :: List.replicate k (aheadMsg (95 / 100))) = some s' := by
    intro k hk
    have hk' : (k : ℝ) ≤ 100 := by exact_mod_cast hk
    refine gown_run_total (gown_demo_started hL') gown_demo_rounded (N := 20000) ?_ (by norm_num [gOwnDemoCfg]) (R := 30) (G := 1 / 10)
      (D := 1) (A := 0) (by norm_num) (by norm_num) (by norm_num) (by norm_num) _ ?_ ?_ hsound ?_ hA ⟨[], by rw [hm]; rfl, sane_nil, by simp⟩ ?_ ?_
    · intro v hv
      simp only [gOwnDemoCfg, decide_eq_true_eq]
      omega
    · intro d hd
      obtain ⟨x, rfl⟩ : ∃ x, d = aheadMsg x := by
        rw [← List.replicate_succ] at hd
        exact ⟨_, (List.mem_replicate.1 hd).2⟩
      refine ⟨hsam x, ⟨by simp [aheadMsg], by norm_num [aheadMsg, gOwnDemoCfg, gDemoCfg], by norm_num [aheadMsg],
        by norm_num [aheadMsg], ?_⟩, fun _ => by norm_num [aheadMsg]⟩
      intro pts hp
      by_cases he : pts = []
      · exact .inl he
      · exact .inr (List.length_pos_of_ne_nil he)
    · simp only [List.length_cons, List.length_replicate, growth, gOwnDemoCfg, gDemoCfg]
      push_cast
      linarith
    · simp only [hh]
      intro h' e
      rw [Option.some.injEq] at e
      subst e
      exact ⟨⟨by simp [Hist.create], by simp [Hist.create]⟩, by simp [Hist.create]⟩
    · intro c x hl
      simp [lastOf, GMatch.create, GmPE.create] at hl
    · unfold SmallMoves
      simp only [ho, List.map_cons, List.map_replicate, List.isChain_cons_cons]
      refine ⟨by norm_num [aheadMsg], ?_⟩
      rw [← List.replicate_succ]
      exact List.isChain_replicate_of_rel _ (by norm_num [aheadMsg])
  obtain ⟨s1, h1⟩ := total 0 (by norm_num)
  simp only [List.replicate_zero, GOwn.run, Option.bind_eq_some_iff, Option.some.injEq] at h1
  obtain ⟨s1', h1, rfl⟩ := h1
  have hcold := cold_start_state hs
  have hz : gOwnDemoCfg.rnd 0 = 0 := by norm_num [gOwnDemoCfg]
  have hl : lastOf (GMatch.create (.even 1) (1 / 10) 1 (1 / 10) (1 / 10)).pe = none := by
    simp [lastOf, GMatch.create, GmPE.create]
  have hi : ∃ step, [(⟨7 / 10, 7 / 10, 3 / 10⟩ : Delta ℝ), ⟨6 / 10, 7 / 10, 4 / 10⟩][1]? = some step ∧
      ¬ Short ⟨0 + |(aheadMsg (95 / 100)).odom.x - 0|, 0 + |(aheadMsg (95 / 100)).odom.y - 0|, 0 + |(aheadMsg (95 / 100)).odom.theta - 0|⟩ step :=
    ⟨_, rfl, by norm_num [Short, aheadMsg]⟩
  have hothers : ∀ j, j ≠ 1 → ∀ step, [(⟨7 / 10, 7 / 10, 3 / 10⟩ : Delta ℝ), ⟨6 / 10, 7 / 10, 4 / 10⟩][j]? = some step →
      Short ⟨0 + |(aheadMsg (95 / 100)).odom.x - 0|, 0 + |(aheadMsg (95 / 100)).odom.y - 0|, 0 + |(aheadMsg (95 / 100)).odom.theta - 0|⟩ step := by
    intro j hj step hstep
    rcases j with _ | _ | j
    · simp only [List.getElem?_cons_zero, Option.some.injEq] at hstep
      subst hstep
      norm_num [Short, aheadMsg]
    · exact absurd rfl hj
    · simp at hstep
  have hnext : 0 < ((aheadMsg (95 / 100)).nextSm 1).x ^ 2 + ((aheadMsg (95 / 100)).nextSm 1).y ^ 2 ∧ 0 < ((aheadMsg (95 / 100)).nextSm 1).theta := by
    norm_num [aheadMsg]
  refine ⟨init, st, s1', hs, h1, ?_, fun k hk => ?_⟩
  · exact (gmapping_one_ahead (gown_demo_started hL') hz (f := 1 / 10) (w := 1) (by norm_num) (by simp) (le_refl _) hcold hsound.matcher hl
      rfl hi hothers (ahead_sees _) hnext h1).1
  · obtain ⟨s2, h2⟩ := total k hk
    simp only [GOwn.run, h1, Option.bind_some] at h2
    refine ⟨s2, h2, ?_⟩
    exact gmapping_one_ahead_shows (gown_demo_started hL') hz (f := 1 / 10) (w := 1) (n := 2) (by norm_num) (by simp) (le_refl _) hcold hsound hl
      (hsam _) rfl hi hothers (ahead_sees _) hnext h1 (fun e he => by
        rw [(List.mem_replicate.1 he).2]
        exact ⟨hsam _, rfl, ahead_sees _⟩) h2

end Slam.Whole
