import Verif.Whole.GmappingOwnTotal

/-!
# C90: a concrete GMapping with its own scan matcher, and what the remembered value does
-/

set_option autoImplicit false
set_option linter.unusedSectionVars false

namespace Slam.Whole
open Slam.Grid Slam.Cells Slam.Poses Slam.Sensor Slam.Score Slam.ScanAdder Slam.Worlds Slam.Tbm
open Slam.Particle (Env setObj Reach)
open Slam.Matcher (seenAt usablePoints Weights Spw.Ok testsOf FirstBest ClimbT Scored)

/-- GMapping as in `gDemoCfg`, integers of 32 bits; its matcher as init_gmapping.h:36-61 builds it by default, scores rounded
down to multiples of 1/1024. -/
noncomputable def gOwnDemoCfg : GOwnCfg (LazyMap.St (GmCell ℝ)) where
  slam := { gDemoCfg with ok := fun v => decide (|v| ≤ 2147483647), fuel := 100000 }
  filter := ⟨3, -1⟩
  failed := 6
  transl := 1 / 10
  rot := 1 / 10
  dims := fun _ => ⟨1, 1⟩
  origin := fun _ => ⟨0, 0⟩
  fuel := 101000
  rnd := fun x => (⌊x * 1024⌋ : ℝ) / 1024

/-- The messages of `gDemoDatum`. -/
noncomputable def gOwnDemoMsg (i : Nat) : GMsg :=
  ⟨⟨i, 0, 0⟩, ⟨0, 2, 1, 1 / 10, 30, [some 4, some 50, some 0]⟩, fun _ => ⟨1 / 10, 0, 0⟩, fun _ => ⟨7 / 10, 7 / 10, 3 / 10⟩, [1 / 4, 3 / 4]⟩

theorem gown_demo_started {init : LazyMap.St (GmCell ℝ)} (hL : Lawful gDemoCfg.api GmCell.observe GmCell.create init) :
    GStarted gOwnDemoCfg init where
  lawful := hL
  adder := const_sound _ _ ⟨by norm_num [Unit01], by norm_num [Unit01]⟩ ⟨by norm_num [Unit01], by norm_num [Unit01]⟩ _ _ _
  scale := by norm_num [gOwnDemoCfg, gDemoCfg]
  rounding := by
    intro x hx
    have h1 : 0 ≤ ⌊x * 1024⌋ := Int.floor_nonneg.2 (by linarith [hx.1])
    have h2 : ((⌊x * 1024⌋ : Int) : ℝ) ≤ x * 1024 := Int.floor_le _
    have h3 : (0 : ℝ) ≤ (⌊x * 1024⌋ : Int) := by exact_mod_cast h1
    have h4 := hx.2
    refine ⟨by simp only [gOwnDemoCfg]; positivity, ?_⟩
    simp only [gOwnDemoCfg]
    rw [div_le_one (by norm_num)]
    linarith

theorem gown_demo_rounded : Rounded gOwnDemoCfg ((Finset.range 1025).image fun n : Nat => (n : ℝ) / 1024) where
  values := by
    intro x hx
    have h1 : 0 ≤ ⌊x * 1024⌋ := Int.floor_nonneg.2 (by linarith [hx.1])
    have h2 : ⌊x * 1024⌋ ≤ 1024 := by
      have : ((⌊x * 1024⌋ : Int) : ℝ) ≤ ((1024 : Int) : ℝ) := (Int.floor_le _).trans (by push_cast; linarith [hx.2])
      exact_mod_cast this
    obtain ⟨n, hn⟩ := Int.eq_ofNat_of_zero_le h1
    refine Finset.mem_image.2 ⟨n, Finset.mem_range.2 (by omega), ?_⟩
    simp only [gOwnDemoCfg, hn, Int.cast_natCast]
  zero := by simp [gOwnDemoCfg]
  fuel := by
    have : ((Finset.range 1025).image fun n : Nat => (n : ℝ) / 1024).card ≤ 1025 :=
      Finset.card_image_le.trans (by simp)
    simp only [gOwnDemoCfg]
    omega
  step := by norm_num [gOwnDemoCfg]

theorem gown_demo_samples (i : Nat) : SamplesOk 2 (gOwnDemoMsg i) := by
  refine ⟨rfl, ?_⟩
  intro x hx
  simp only [gOwnDemoMsg, List.mem_cons, List.not_mem_nil, or_false] at hx
  rcases hx with rfl | rfl <;> norm_num

/-- The start of the program. -/
theorem gown_demo_start : ∃ init st, Lawful gDemoCfg.api GmCell.observe GmCell.create init ∧
    gStart [⟨7 / 10, 7 / 10, 3 / 10⟩, ⟨6 / 10, 7 / 10, 4 / 10⟩] init (some (Hist.create 20)) = some st ∧
    GSound gOwnDemoCfg init (1 / 10) 1 2 ⟨st, GMatch.create (.even 1) (1 / 10) 1 (1 / 10) (1 / 10)⟩ ∧
    ∀ n : Nat, n ≤ 100 → ∃ s', GOwn.run gOwnDemoCfg ⟨st, GMatch.create (.even 1) (1 / 10) 1 (1 / 10) (1 / 10)⟩
      ((List.range n).map gOwnDemoMsg) = some s' := by
  obtain ⟨init, -, hL⟩ := lazy_lawful 128 (by norm_num) GmCell.observe 10 10 (GmCell.create (K := ℝ))
  have hL' : Lawful gDemoCfg.api GmCell.observe GmCell.create init := hL
  obtain ⟨st, hs, hA⟩ := gmapping_starts (steps := [⟨7 / 10, 7 / 10, 3 / 10⟩, ⟨6 / 10, 7 / 10, 4 / 10⟩]) (by simp) init
    (some (Hist.create 20))
  obtain ⟨hr, hm, -, ho, hh⟩ := start_reach (n := 2) rfl hs
  have hsound := gown_start (cfg := gOwnDemoCfg) (n := 2) rfl hs (sw := .even 1) (by intro h e; cases e) (1 / 10) 1 (1 / 10) (1 / 10)
  refine ⟨init, st, hL', hs, hsound, ?_⟩
  intro n hn
  have hn' : (n : ℝ) ≤ 100 := by exact_mod_cast hn
  refine gown_run_total (gown_demo_started hL') gown_demo_rounded (N := 20000) ?_ (by norm_num [gOwnDemoCfg]) (R := 30) (G := 1 / 10)
    (D := 1) (A := 0) (by norm_num) (by norm_num) (by norm_num) (by norm_num) _ ?_ ?_ hsound ?_ hA ⟨[], by rw [hm]; rfl, sane_nil, by simp⟩ ?_ ?_
  · intro v hv
    simp only [gOwnDemoCfg, decide_eq_true_eq]
    omega
  · intro d hd
    obtain ⟨i, -, rfl⟩ := List.mem_map.1 hd
    refine ⟨gown_demo_samples i, ⟨by simp [gOwnDemoMsg], by norm_num [gOwnDemoMsg, gOwnDemoCfg, gDemoCfg], by norm_num [gOwnDemoMsg],
      by norm_num [gOwnDemoMsg], ?_⟩, fun _ => by norm_num [gOwnDemoMsg]⟩
    intro pts hp
    by_cases he : pts = []
    · exact .inl he
    · exact .inr (List.length_pos_of_ne_nil he)
  · simp only [List.length_map, List.length_range, growth, gOwnDemoCfg, gDemoCfg]
    push_cast
    linarith
  · simp only [hh]
    intro h' e
    rw [Option.some.injEq] at e
    subst e
    exact ⟨⟨by simp [Hist.create], by simp [Hist.create]⟩, by simp [Hist.create]⟩
  · intro c x hl
    simp [lastOf, GMatch.create, GmPE.create] at hl
  · unfold SmallMoves
    simp only [ho]
    rw [List.map_map]
    have : (GMsg.odom ∘ gOwnDemoMsg : Nat → Poses.Pose ℝ) = fun i : Nat => (⟨i, 0, 0⟩ : Poses.Pose ℝ) := rfl
    rw [this]
    cases n with
    | zero => simp
    | succ n =>
      rw [List.range_succ_eq_map, List.map_cons, List.isChain_cons_cons]
      refine ⟨by norm_num, ?_⟩
      rw [← List.map_cons (f := fun i : Nat => (⟨i, 0, 0⟩ : Poses.Pose ℝ)), ← List.range_succ_eq_map, List.isChain_map,
        List.isChain_range_succ]
      intro m _
      push_cast
      norm_num

theorem gown_run_snoc {M : Type} (cfg : GOwnCfg M) (ds : List GMsg) (d : GMsg) : ∀ s s' : GOwn M, s.run cfg (ds ++ [d]) = some s' →
    ∃ s1, s.run cfg ds = some s1 ∧ s1.handle cfg d = some s' := by
  induction ds with
  | nil =>
    intro s s' h
    simp only [List.nil_append, GOwn.run, Option.bind_eq_some_iff, Option.some.injEq] at h
    obtain ⟨a, h, rfl⟩ := h
    exact ⟨s, rfl, h⟩
  | cons a ds ih =>
    intro s s' h
    simp only [List.cons_append, GOwn.run, Option.bind_eq_some_iff] at h
    obtain ⟨b, h1, h2⟩ := h
    obtain ⟨s1, h3, h4⟩ := ih b s' h2
    exact ⟨s1, by simp only [GOwn.run, h1, Option.bind_some, h3], h4⟩

/-- The hypotheses of the theorems hold: a hundred messages are handled; the last one by matching on the map built so far; the map
shows probabilities and the -1 of unknown cells only; two particles, one of them the master. -/
example : ∃ init s s1 s2, s.st.map = init ∧ GSound gOwnDemoCfg init (1 / 10) 1 2 s ∧
    s.run gOwnDemoCfg ((List.range 99).map gOwnDemoMsg) = some s1 ∧ s1.handle gOwnDemoCfg (gOwnDemoMsg 99) = some s2 ∧
    (∃ scan, ScanOf gOwnDemoCfg.slam (gOwnDemoMsg 99).msg scan ∧ ∀ v ∈ s2.st.filter.particles, ∃ i ∈ s1.st.filter.ids, ∃ x,
      x = (s1.st.filter.heap i).updatePose Real.sin Real.cos ((gOwnDemoMsg 99).odom.sub s1.st.odom) ∧
      (x.tooClose = true → v.pose = x.pose) ∧ (x.tooClose = false → ∃ a, v.pose = (startPose x ⟨1 / 10, 0, 0⟩).add a.1 ∧
        MatchedOn gOwnDemoCfg init (1 / 10) 1 s1.st.map scan (startPose x ⟨1 / 10, 0, 0⟩) a)) ∧
    (∀ c, ∃ cell, gOwnDemoCfg.slam.api.read s2.st.map c = some cell ∧ (Unit01 cell.occ.prob ∨ cell.occ.prob = -1)) ∧
    s2.st.filter.particles.length = 2 ∧ s2.st.filter.particles.countP Particle.World.master = 1 := by
  obtain ⟨init, st, hL, hst, hs, hrun⟩ := gown_demo_start
  obtain ⟨s2, h⟩ := hrun 100 le_rfl
  rw [show (100 : Nat) = 99 + 1 from rfl, List.range_succ, List.map_append] at h
  obtain ⟨s1, h1, h2⟩ := gown_run_snoc _ _ _ _ _ h
  have hd : ∀ n : Nat, ∀ d ∈ (List.range n).map gOwnDemoMsg, SamplesOk 2 d := by
    intro n d hd
    obtain ⟨i, -, rfl⟩ := List.mem_map.1 hd
    exact gown_demo_samples i
  obtain ⟨-, ds', e1, e2, e3⟩ := gown_run_is_run (gown_demo_started hL) ((List.range 99).map gOwnDemoMsg ++ [gOwnDemoMsg 99]) (by
    intro d hd'
    rcases List.mem_append.1 hd' with hd' | hd'
    · exact hd 99 d hd'
    · rw [List.mem_singleton.1 hd']; exact gown_demo_samples 99) hs h
  have hmap := (start_reach (n := 2) rfl hst).2.1
  obtain ⟨f1, f2, -⟩ := gmapping_filter_sound (cfg := gOwnDemoCfg.slam) (n := 2) rfl hst ds' e2 e3
  refine ⟨init, _, s1, s2, hmap, hs, h1, h2, gown_particles (gown_demo_started hL) _ (hd 99) hs h1 _ (gown_demo_samples 99) h2, ?_, f1, f2⟩
  intro c
  have hL' : Lawful gOwnDemoCfg.slam.api (CellKind.upd .gmapping) (CellKind.proto .gmapping) init := hL
  obtain ⟨cell, c1, c2, -⟩ := gmapping_map_shows_probabilities (cfg := gOwnDemoCfg.slam) .gmapping hL' (gown_demo_started hL).adder
    (n := 2) rfl hst ds' e2 e3 c
  refine ⟨cell, c1, ?_⟩
  rcases c2 _ rfl with u | ⟨-, u, -⟩
  · exact .inl u
  · exact .inr u

/-! ## The remembered value -/

/-- **The remembered value is not that of the map (C90).** On an empty map an obstacle at `(1/2, 1/2)` agrees with nothing; when the
map is then told of exactly that obstacle, the same estimate still says zero, one that was not asked before says one. -/
theorem remembered_value_counterexample :
    ∃ (init m : LazyMap.St (GmCell ℝ)) (e e1 e2 : GmPE ℝ), Lawful gDemoCfg.api GmCell.observe GmCell.create init ∧
      gDemoCfg.api.tellAll init [(⟨0, 0⟩, ⟨true, some ⟨1, 1⟩, ⟨1 / 2, 1 / 2⟩, 1⟩)] = some m ∧
      gmPoint (gOwnDemoCfg.view init) (GmPE.create (1 / 10) 1) ⟨1 / 2, 1 / 2⟩ = some (0, e) ∧
      gmPoint (gOwnDemoCfg.view m) e ⟨1 / 2, 1 / 2⟩ = some (0, e1) ∧
      gmPoint (gOwnDemoCfg.view m) (GmPE.create (1 / 10) 1) ⟨1 / 2, 1 / 2⟩ = some (1, e2) := by
  obtain ⟨init, -, hL⟩ := lazy_lawful 128 (by norm_num) GmCell.observe 10 10 (GmCell.create (K := ℝ))
  have hL' : Lawful gOwnDemoCfg.slam.api GmCell.observe GmCell.create init := hL
  have hst := gown_demo_started hL
  have hcell : worldToCell (1 : ℝ) ⟨1 / 2, 1 / 2⟩ = ⟨0, 0⟩ := by
    have : ⌊((1 / 2 : ℝ)) / 1⌋ = 0 := by rw [Int.floor_eq_iff]; norm_num
    simp only [worldToCell, this]
  have hok : PeOk (1 / 10) 1 (GmPE.create (1 / 10) 1 : GmPE ℝ) := ⟨rfl, rfl, .inl rfl⟩
  have hnone : ∀ y : ℝ, lastOf (GmPE.create (1 / 10) 1) ≠ some (worldToCell (1 : ℝ) ⟨1 / 2, 1 / 2⟩, y) := by
    intro y
    simp [lastOf, GmPE.create]
  obtain ⟨m0, a1, a2⟩ := hL' []
  obtain ⟨m, b1, b2⟩ := hL' [(⟨0, 0⟩, ⟨true, some ⟨1, 1⟩, ⟨1 / 2, 1 / 2⟩, 1⟩)]
  have a1' : some init = some m0 := a1
  rw [Option.some.injEq] at a1'
  subst a1'
  have r0 : Readable (gOwnDemoCfg.view init) := fun c => ⟨_, a2 c⟩
  have r1 : Readable (gOwnDemoCfg.view m) := fun c => ⟨_, b2 c⟩
  obtain ⟨x, e, h1, h2, h3, h4, h5⟩ := gmPoint_spec (gOwnDemoCfg.view init) r0 hok ⟨1 / 2, 1 / 2⟩
  have hx : x = 0 := by
    rcases h5 with h5 | ⟨-, -, h5⟩
    · exact absurd h5 (hnone x)
    · rcases h5 with ⟨h5, -⟩ | ⟨d, cell, ⟨-, -, n3, n4⟩, -⟩
      · exact h5
      · have := a2 d
        rw [show (gOwnDemoCfg.view init).read d = gOwnDemoCfg.slam.api.read init d from rfl, this, Option.some.injEq] at n3
        rw [← n3] at n4
        simp only [about, List.filter_nil, List.map_nil, List.foldl_nil, GmCell.create] at n4
        norm_num at n4
  subst hx
  obtain ⟨y, e2, g1, -, g3, -, g5⟩ := gmPoint_spec (gOwnDemoCfg.view m) r1 hok ⟨1 / 2, 1 / 2⟩
  have hy : y = 1 := by
    rcases g5 with g5 | ⟨-, g5, -⟩
    · exact absurd g5 (hnone y)
    · have hr := b2 ⟨0, 0⟩
      simp only [about, List.filter_cons, List.filter_nil] at hr
      have := g5 ⟨0, 0⟩ _ ⟨by show |(0 : Int) - (worldToCell (1 : ℝ) ⟨1 / 2, 1 / 2⟩).x| ≤ _; rw [hcell]; simp,
        by show |(0 : Int) - (worldToCell (1 : ℝ) ⟨1 / 2, 1 / 2⟩).y| ≤ _; rw [hcell]; simp, hr, by
          norm_num [GmCell.observe, GmCell.create]⟩
      refine le_antisymm g3.2 ?_
      refine le_trans (le_of_eq ?_) this
      norm_num [GmCell.observe, GmCell.create]
  subst hy
  refine ⟨init, m, e, e, e2, hL, b1, h1, ?_, g1⟩
  have hl : e.cachedProb ≠ -1 ∧ e.cachedCoord = worldToCell (1 : ℝ) ⟨1 / 2, 1 / 2⟩ ∧ e.cachedProb = 0 := by
    unfold lastOf at h4
    by_cases h0 : e.cachedProb = -1
    · rw [if_pos h0] at h4; cases h4
    · rw [if_neg h0, Option.some.injEq, Prod.mk.injEq] at h4
      exact ⟨h0, h4.1, h4.2⟩
  unfold gmPoint
  simp only [grid_worldToCell]
  rw [if_pos ⟨hl.2.1.symm, hl.1⟩, hl.2.2]

end Slam.Whole
