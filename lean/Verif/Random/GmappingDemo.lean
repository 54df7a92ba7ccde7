import Verif.Random.Gmapping
import Verif.Random.Shipped

/-!
# GMapping with its generators: an example (C103)
-/

set_option autoImplicit false
set_option linter.unusedSectionVars false

namespace Slam.Random
open Slam.Poses (Delta Pose)
open Slam.Particle (World)
open Slam.Whole (gLeast gLeastWorld gLeastEnv gleast_read gleast_sensible)

/-- The hypotheses hold: started from the least configuration, GMapping with its thirty particles, all of whose generators hand out one number for
ever, handles fifty messages. -/
example (stod : Config.Str → Option ℝ) :
    ∃ S s, launchSeededGmapping constant stod gLeastEnv (fun x => (⌊x * 1024⌋ : ℝ) / 1024) (fun _ => ()) gLeast = some S ∧
      S.start.run constant S.cfg ((List.range 50).map demoMsg) = some s ∧ s.own.st.filter.particles.length = 30 ∧
      s.own.st.filter.particles.countP World.master = 1 ∧
      s.Sound constant (guessRV 0 (1 / 10) 0 (3 / 100)) (stepRV (3 / 5) (4 / 5) (3 / 10) (2 / 5)) 30 := by
  have hrnd : ∀ x : ℝ, Cells.Unit01 x → Cells.Unit01 ((⌊x * 1024⌋ : ℝ) / 1024) ∧
      (⌊x * 1024⌋ : ℝ) / 1024 ∈ (Finset.range 1025).image fun n : Nat => (n : ℝ) / 1024 := by
    intro x hx
    have h1 : 0 ≤ ⌊x * 1024⌋ := Int.floor_nonneg.2 (by linarith [hx.1])
    have h2 : ⌊x * 1024⌋ ≤ 1024 := by
      have : ((⌊x * 1024⌋ : Int) : ℝ) ≤ ((1024 : Int) : ℝ) := (Int.floor_le _).trans (by push_cast; linarith [hx.2])
      exact_mod_cast this
    obtain ⟨n, hn⟩ := Int.eq_ofNat_of_zero_le h1
    rw [hn, Int.cast_natCast]
    have h3 : (n : ℝ) ≤ 1024 := by exact_mod_cast (by omega : n ≤ 1024)
    exact ⟨⟨by positivity, by rw [div_le_one (by norm_num)]; exact h3⟩, Finset.mem_image.2 ⟨n, Finset.mem_range.2 (by omega), rfl⟩⟩
  obtain ⟨S, draws, P, hS, hP, hc, hst, htot⟩ := seeded_gmapping_total (N := constant) (engines := fun _ => ()) (stod := stod) (env := gLeastEnv)
    (fun x hx => (hrnd x hx).1) (gleast_read stod) gleast_sensible (fun _ => constant_lively _) _ (fun x hx => (hrnd x hx).2) (by norm_num)
    (by
      have : ((Finset.range 1025).image fun n : Nat => (n : ℝ) / 1024).card ≤ 1025 := Finset.card_image_le.trans (by simp)
      simp only [gLeastEnv]
      omega) 4000000
    (by intro v hv; simp only [gLeastEnv, decide_eq_true_eq]; omega) (by norm_num [gLeastEnv])
  obtain ⟨P', hP', hA, -⟩ := Whole.gmapping_launches (stod := stod) (env := gLeastEnv) (draws := draws) (fun x hx => (hrnd x hx).1)
    (gleast_read stod) gleast_sensible
  obtain rfl := Option.some.inj (hP.symm.trans hP')
  have hfull : P.start.matcher.pe.fullness = 1 / 10 := by
    rcases hA.fullness with ⟨-, h⟩ | ⟨v, h, -⟩
    · exact h
    · revert h
      have : gLeast "slam/scmtch/oope/custom/fullness_threshold".toList = none := by decide
      rw [this]
      simp
  have hwin : P.start.matcher.pe.window = 1 := by
    rcases hA.window with ⟨-, h⟩ | ⟨v, k, h, -⟩
    · exact h
    · revert h
      have : gLeast "slam/scmtch/oope/cutrom/window_size".toList = none := by decide
      rw [this]
      simp
  have hcfg : P.cfg.slam.tol = 1 / 100 ∧ P.cfg.slam.props.margin = 0 := by
    unfold Whole.launchGmapping at hP
    rw [gleast_read stod] at hP
    simp only [gLeastWorld, Option.bind_some, Option.bind_eq_some_iff, Option.map_eq_some_iff] at hP
    obtain ⟨m, -, st, -, rfl⟩ := hP
    exact ⟨rfl, rfl⟩
  obtain ⟨s, gs, hs, -, -⟩ := htot (by rw [hfull]; norm_num) (R := 30) (D := 1) (by norm_num) (by norm_num) ((List.range 50).map demoMsg)
    (by
      intro d hd
      obtain ⟨i, -, rfl⟩ := List.mem_map.1 hd
      refine ⟨by simp [demoMsg, Whole.gLeastMsg], ?_, by norm_num [demoMsg, Whole.gLeastMsg], by norm_num [demoMsg, Whole.gLeastMsg], ?_⟩
      · rw [hcfg.1]
        norm_num [demoMsg, Whole.gLeastMsg]
      · intro pts hp
        by_cases he : pts = []
        · exact .inl he
        · right
          rw [hcfg.2]
          exact List.length_pos_of_ne_nil he)
    (by
      rw [hwin]
      simp only [List.length_map, List.length_range, Whole.growth, gLeastWorld]
      rw [abs_of_pos (by norm_num : (0 : ℝ) < 1 / 10)]
      norm_num)
    (by
      rw [List.map_map]
      have : (SMsg.odom ∘ demoMsg : Nat → Pose ℝ) = fun i : Nat => (⟨i, 0, 0⟩ : Pose ℝ) := rfl
      rw [this, show (50 : Nat) = 49 + 1 from rfl, List.range_succ_eq_map, List.map_cons, List.isChain_cons_cons]
      refine ⟨by norm_num, ?_⟩
      rw [← List.map_cons (f := fun i : Nat => (⟨i, 0, 0⟩ : Pose ℝ)), ← List.range_succ_eq_map, List.isChain_map,
        List.isChain_range_succ]
      intro m _
      push_cast
      norm_num)
  obtain ⟨b1, b2, -, -, b5⟩ := seeded_gmapping_behaves (N := constant) (engines := fun _ => ()) (stod := stod) (env := gLeastEnv)
    (fun x hx => (hrnd x hx).1) (gleast_read stod) gleast_sensible (fun _ => constant_lively _) hS _ hs
  exact ⟨S, s, hS, hs, b1, b2, b5⟩

end Slam.Random
