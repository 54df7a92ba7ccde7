import Verif.Random.ColdStart
import Verif.Random.Shipped

/-!
# GMapping before the robot has moved: an example (C113)
-/

set_option autoImplicit false

namespace Slam.Random
open Slam.Poses (Delta Pose)
open Slam.Sensor
open Slam.Whole (GOwn GOwnCfg GMsg GProgram Cold ShortFor gone lastPose)
open Slam.Whole (gLeast gLeastWorld gLeastEnv gleast_read gleast_sensible)

/-- Thirty particles with the shipped steps, whose engines hand out one number for ever: after eighty centimetres straight ahead, in
nine messages, nothing is known yet. -/
example (stod : Config.Str → Option ℝ) :
    ∃ S s, launchSeededGmapping constant stod gLeastEnv (fun x => x) (fun _ => ()) gLeast = some S ∧
      S.start.run constant S.cfg ((List.range 9).map fun k : Nat => (⟨⟨k / 10, 0, 0⟩, (Whole.gLeastMsg 0).msg, ()⟩ : SMsg Unit)) = some s ∧
      s.own.st.pose = some ⟨8 / 10, 0, 0⟩ ∧ ∀ c, S.cfg.slam.api.read s.own.st.map c = some Cells.GmCell.create := by
  obtain ⟨S, draws, P, hS, hP, -, hc, -, -⟩ := gseeded_launches (N := constant) (engines := fun _ => ()) (stod := stod) (env := gLeastEnv)
    (rnd := fun x => x) (fun _ h => h) (gleast_read stod) gleast_sensible (fun _ => constant_lively _)
  have htol : S.cfg.slam.tol = 1 / 100 := by
    rw [hc]
    unfold Whole.launchGmapping at hP
    rw [gleast_read stod] at hP
    simp only [gLeastWorld, Option.bind_some, Option.bind_eq_some_iff, Option.map_eq_some_iff] at hP
    obtain ⟨m, -, st, -, rfl⟩ := hP
    rfl
  obtain ⟨s, k1, k2, k3, -⟩ := seeded_cold_start (N := constant) (engines := fun _ => ()) (stod := stod) (env := gLeastEnv)
    (rnd := fun x => x) (fun _ h => h) (gleast_read stod) gleast_sensible (fun _ => constant_lively _) hS (by norm_num) (by norm_num)
    (by norm_num) ((List.range 9).map fun k : Nat => (⟨⟨k / 10, 0, 0⟩, (Whole.gLeastMsg 0).msg, ()⟩ : SMsg Unit))
    (by
      intro d hd
      obtain ⟨k, -, rfl⟩ := List.mem_map.1 hd
      cases hb : S.cfg.slam.skipMax with
      | false =>
        refine ⟨_, [⟨some 4, 0, true⟩, ⟨some 4, 1, true⟩], ?_, rfl⟩
        rw [hb, htol]
        norm_num [Worlds.msg2scan, Worlds.convert, Whole.gLeastMsg]
      | true =>
        refine ⟨_, [⟨some 4, 0, true⟩, ⟨some 4, 1, true⟩], ?_, rfl⟩
        rw [hb, htol]
        norm_num [Worlds.msg2scan, Worlds.convert, Whole.gLeastMsg])
    (by
      simp only [List.map_map, Function.comp_def, ShortFor]
      norm_num [List.range_succ, gone, abs_of_nonneg, abs_of_neg])
  refine ⟨S, s, hS, k1, ?_, k3⟩
  rw [k2]
  simp [List.range_succ, lastPose]

end Slam.Random
