import Verif.Random.GmappingRunner
import Verif.Random.Shipped
import Verif.Config.AssembleKnown

/-!
# The bag runner with GMapping and its generators: an example (C97, C103)
-/

set_option autoImplicit false
set_option linter.unusedSectionVars false

namespace Slam.Random
open Slam.Config (Str Table parseArgs)
open Slam.Whole (gLeast gLeastWorld gLeastEnv gleast_read gleast_sensible)
open Slam.Runner (LaserMsg TransformMsg Env Fs Serves Setup Found reader TrajectoryOf main bytes chars Undisturbed After)

/-- The lines of the properties file of the example. -/
def gFileText : Str :=
  "in/lscan2D/ros/topic/enabled=true\nin/odometry/ros/tf/enabled=true\nslam/scmtch/spe/type=wmpp\nslam/scmtch/spe/wmpp/weighting/type=even".toList

/-- A scan. -/
noncomputable def gScan (sec : Nat) : LaserMsg := ⟨sec, 5, [], ⟨0, 2, 1, 1 / 10, 30, [some 4, some 4, some 0]⟩⟩

/-- Rounding of scores in the example. -/
noncomputable def gRnd (x : ℝ) : ℝ := (⌊x * 1024⌋ : ℝ) / 1024

/-- GMapping in the example. -/
noncomputable def gLaunch (stod : Str → Option ℝ) (t : Table) : Option (GSeededProgram Unit) :=
  launchSeededGmapping constant stod gLeastEnv gRnd (fun _ => ()) t

/-- Surroundings with GMapping, and a bag with two scans. -/
noncomputable def gEnv (mk : Table → Option Runner.Engine) : Env Unit Unit where
  writable := fun _ => true
  resolve := fun _ n => n
  depth := 3
  openBag := fun c => if c = [1] then some [⟨"/base_scan".toList, .laser (gScan 1)⟩, ⟨"/base_scan".toList, .laser (gScan 2)⟩] else none
  tf := ⟨(), fun _ _ => (), fun _ _ _ s _ => .ok ⟨(s : ℝ), 0, 0⟩⟩
  oneHypothesis := fun _ => none
  gmapping := mk

/-- GMapping with generators, in the runner. -/
noncomputable def gMake (stod : Str → Option ℝ) (t : Table) : Option Runner.Engine :=
  (gLaunch stod t).map (ofSeededGmapping constant fun _ => ())

/-- A properties file and a bag. -/
def gFs : Fs := fun p => if p = "p".toList then some (bytes gFileText) else if p = "b".toList then some [1] else none

/-- The command line of the example. -/
def gLine : List Str := ["gmapping".toList, "b".toList, "-t".toList, "t".toList, "-p".toList, "p".toList]

theorem gFs_props : gFs "p".toList = some (bytes gFileText) := by
  unfold gFs
  rw [if_pos rfl]

theorem g_undisturbed (mk : Table → Option Runner.Engine) : Undisturbed (gEnv mk) gFs gLine := by
  refine ⟨fun p => p = "p".toList, by decide, ?_, ?_⟩
  · rintro p c name rfl hc hn
    rw [gFs_props] at hc
    rw [← Option.some.inj hc, Runner.chars_bytes] at hn
    revert hn
    have : (Config.linesOf gFileText).map Config.readLine =
      [.entry "in/lscan2D/ros/topic/enabled".toList "true".toList, .entry "in/odometry/ros/tf/enabled".toList "true".toList,
        .entry "slam/scmtch/spe/type".toList "wmpp".toList, .entry "slam/scmtch/spe/wmpp/weighting/type".toList "even".toList] := by
      decide +kernel
    rw [this]
    simp
  · rintro f ⟨pre, post, h⟩ rfl
    have := Runner.after_zip ⟨pre, post, h⟩
    revert this
    decide

theorem g_props (mk : Table → Option Runner.Engine) :
    ∃ t, Config.appendAll ((gEnv mk).files gFs) (gEnv mk).depth (parseArgs gLine).props Table.empty = some t ∧
      (Config.getBool t "in/lscan2D/ros/topic/enabled".toList false = true ∧ Config.getBool t "in/odometry/ros/tf/enabled".toList false = true ∧
        Config.getStr t "in/lscan2D/ros/topic/name".toList "/base_scan".toList = "/base_scan".toList ∧
        Config.getStr t "in/odometry/ros/tf/name".toList "/tf".toList = "/tf".toList) ∧
      ∀ k ∈ Config.knownGmappingProperties, t k.toList = gLeast k.toList := by
  have h : (Config.appendAll ⟨fun p => (gFs p).map chars, fun _ n => n⟩ 3 (parseArgs gLine).props Table.empty).map (fun t =>
      decide ((Config.getBool t "in/lscan2D/ros/topic/enabled".toList false = true ∧ Config.getBool t "in/odometry/ros/tf/enabled".toList false = true ∧
        Config.getStr t "in/lscan2D/ros/topic/name".toList "/base_scan".toList = "/base_scan".toList ∧
        Config.getStr t "in/odometry/ros/tf/name".toList "/tf".toList = "/tf".toList) ∧
        ∀ k ∈ Config.knownGmappingProperties, t k.toList = gLeast k.toList)) = some true := by decide +kernel
  rw [Option.map_eq_some_iff] at h
  obtain ⟨t, h1, h2⟩ := h
  exact ⟨t, h1, of_decide_eq_true h2⟩

theorem gRnd_spec (x : ℝ) (hx : Cells.Unit01 x) : Cells.Unit01 (gRnd x) ∧ gRnd x ∈ (Finset.range 1025).image fun n : Nat => (n : ℝ) / 1024 := by
  have h1 : 0 ≤ ⌊x * 1024⌋ := Int.floor_nonneg.2 (by linarith [hx.1])
  have h2 : ⌊x * 1024⌋ ≤ 1024 := by
    have : ((⌊x * 1024⌋ : Int) : ℝ) ≤ ((1024 : Int) : ℝ) := (Int.floor_le _).trans (by push_cast; linarith [hx.2])
    exact_mod_cast this
  unfold gRnd
  obtain ⟨n, hn⟩ := Int.eq_ofNat_of_zero_le h1
  rw [hn, Int.cast_natCast]
  have h3 : (n : ℝ) ≤ 1024 := by exact_mod_cast (by omega : n ≤ 1024)
  exact ⟨⟨by positivity, by rw [div_le_one (by norm_num)]; exact h3⟩, Finset.mem_image.2 ⟨n, Finset.mem_range.2 (by omega), rfl⟩⟩

/-- The example can be set up. -/
theorem g_setup (stod : Str → Option ℝ) : ∃ props P, gLaunch stod props = some P ∧
    Config.initGmapping stod props = some (gLeastWorld, ⟨0, 1 / 10, 0, 3 / 100, 3 / 5, 4 / 5, 3 / 10, 2 / 5⟩, 30) ∧
    Setup (gEnv (gMake stod)) gFs gLine props (ofSeededGmapping constant (fun _ => ()) P) [.msg (gScan 1), .msg (gScan 2)] := by
  obtain ⟨t, h1, ⟨h2, h3, h4, h5⟩, h6⟩ := g_props (gMake stod)
  have hw := (Config.initGmapping_congr (stod := stod) t gLeast h6).trans (gleast_read stod)
  obtain ⟨P, -, -, hP, -⟩ := seeded_gmapping_total (N := constant) (engines := fun _ => ()) (stod := stod) (env := gLeastEnv)
    (fun x hx => (gRnd_spec x hx).1) hw gleast_sensible (fun _ => constant_lively _) _ (fun x hx => (gRnd_spec x hx).2) (by norm_num [gRnd])
    (by
      have : ((Finset.range 1025).image fun n : Nat => (n : ℝ) / 1024).card ≤ 1025 := Finset.card_image_le.trans (by simp)
      simp only [gLeastEnv]
      omega) 4000000
    (by intro v hv; simp only [gLeastEnv, decide_eq_true_eq]; omega) (by norm_num [gLeastEnv])
  refine ⟨t, P, hP, hw, by decide, g_undisturbed _, h1, .inr ⟨by decide, ?_⟩, h2, h3, fun h => ?_, [1], _, rfl, rfl, ?_⟩
  · show (gLaunch stod t).map _ = _
    rw [show gLaunch stod t = some P from hP]
    rfl
  · have := Runner.after_zip h
    revert this
    decide
  · rw [h4, h5]
    exact .cons (.inl ⟨rfl, _, rfl, rfl⟩) (.cons (.inl ⟨rfl, _, rfl, rfl⟩) .nil)

/-- The hypotheses hold: GMapping with its thirty particles and their generators runs over a bag of two scans; the runner ends normally, with
two entries in the trajectory. -/
example (stod : Str → Option ℝ) : (main (gEnv (gMake stod)) gFs gLine).exit = some 0 ∧ ∃ poses : List (Poses.Pose ℝ), poses.length = 2 ∧
    TrajectoryOf (gEnv (gMake stod)) gLine (main (gEnv (gMake stod)) gFs gLine).fs [gScan 1, gScan 2] poses := by
  obtain ⟨props, P, hP, hw, h⟩ := g_setup stod
  have hc : P.cfg.slam.tol = 1 / 100 ∧ P.cfg.slam.props.margin = 0 ∧ P.start.own.matcher.pe.fullness = 1 / 10 ∧
      P.start.own.matcher.pe.window = 1 := by
    have hP' := hP
    unfold gLaunch launchSeededGmapping at hP'
    rw [hw] at hP'
    simp only [gLeastWorld, Option.bind_some, Option.bind_eq_some_iff, Option.map_eq_some_iff] at hP'
    obtain ⟨m, -, st, -, rfl⟩ := hP'
    exact ⟨rfl, rfl, rfl, rfl⟩
  obtain ⟨hc1, hc2, hc3, hc4⟩ := hc
  obtain ⟨g1, hs, ss, poses, g2, -, g3, g4, g5⟩ := runner_seeded_gmapping_total h hP (fun x hx => (gRnd_spec x hx).1) hw gleast_sensible
    (fun _ => constant_lively _) _ (fun x hx => (gRnd_spec x hx).2) (by norm_num [gRnd])
    (by
      have : ((Finset.range 1025).image fun n : Nat => (n : ℝ) / 1024).card ≤ 1025 := Finset.card_image_le.trans (by simp)
      simp only [gLeastEnv]
      omega) 4000000
    (by intro v hv; simp only [gLeastEnv, decide_eq_true_eq]; omega) (by norm_num [gLeastEnv]) (by rw [hc3]; norm_num)
    (R := 30) (S := 1) (by norm_num) (by norm_num)
    (fun _ _ _ _ _ => ⟨fun (h : Bag.Outcome.ok _ = _) => (nomatch h), fun (h : Bag.Outcome.ok _ = _) => (nomatch h)⟩) (fun m _ => ⟨_, rfl⟩)
    (by
      intro hs h1 h2
      have h3 : ∀ p ∈ hs, p.2 = ⟨(p.1.sec : ℝ), 0, 0⟩ := by
        intro p hp
        obtain ⟨_, _, _, _, h4⟩ := h2 p hp
        exact (Bag.Outcome.ok.inj h4).symm
      have h5 : hs.map Prod.snd = (hs.map Prod.fst).map fun m => (⟨(m.sec : ℝ), 0, 0⟩ : Poses.Pose ℝ) := by
        rw [List.map_map]
        exact List.map_congr_left h3
      rw [h5, h1]
      show List.IsChain _ [(⟨0, 0, 0⟩ : Poses.Pose ℝ), ⟨((1 : Nat) : ℝ), 0, 0⟩, ⟨((2 : Nat) : ℝ), 0, 0⟩]
      rw [List.isChain_cons_cons, List.isChain_cons_cons]
      refine ⟨?_, ?_, .singleton _⟩ <;> norm_num)
    (by
      intro m hm
      have hm' : m = gScan 1 ∨ m = gScan 2 := by simpa [Bag.msgs] using hm
      have : m.body = (gScan 1).body := by rcases hm' with rfl | rfl <;> rfl
      rw [this]
      refine ⟨by simp [gScan], ?_, by norm_num [gScan], by norm_num [gScan], ?_⟩
      · rw [hc1]
        norm_num [gScan]
      · intro pts hp
        by_cases he : pts = []
        · exact .inl he
        · right
          rw [hc2]
          exact List.length_pos_of_ne_nil he)
    (by
      rw [hc4]
      rw [show (Bag.msgs ([.msg (gScan 1), .msg (gScan 2)] : List (Bag.Rec LaserMsg (TransformMsg Unit)))).length = 2 from rfl]
      simp only [Whole.growth, gLeastWorld]
      rw [abs_of_pos (by norm_num : (0 : ℝ) < 1 / 10)]
      norm_num)
  refine ⟨g1, poses, ?_, g5⟩
  have e1 : ss.length = hs.length := by
    clear g2 g4 g5
    generalize (ofSeededGmapping constant (fun _ => ()) P).start = s0 at g3
    induction g3 with
    | nil => rfl
    | cons _ _ _ _ _ _ _ _ ih => simp [ih]
  have e2 := congrArg List.length g4
  have e3 := congrArg List.length g2
  simp only [List.length_map] at e2 e3
  rw [← e2, e1, e3]
  rfl

/-- Random numbers. -/
noncomputable def gChance (_ : Nat) : Runner.Chance := ⟨fun _ => ⟨1 / 10, 0, 0⟩, fun _ => ⟨7 / 10, 7 / 10, 3 / 10⟩, List.replicate 30 (1 / 2)⟩

/-- GMapping with given random numbers. -/
noncomputable def gGiven (stod : Str → Option ℝ) (t : Table) : Option Whole.GProgram :=
  Whole.launchGmapping stod gLeastEnv gRnd (fun _ _ => ⟨7 / 10, 7 / 10, 3 / 10⟩) t

/-- It, in the runner. -/
noncomputable def gMakeGiven (stod : Str → Option ℝ) (t : Table) : Option Runner.Engine :=
  (gGiven stod t).map (Runner.ofGmapping gChance)

/-- The same with GMapping whose random numbers are given. -/
theorem g_setup_given (stod : Str → Option ℝ) : ∃ props P, gGiven stod props = some P ∧
    Config.initGmapping stod props = some (gLeastWorld, ⟨0, 1 / 10, 0, 3 / 100, 3 / 5, 4 / 5, 3 / 10, 2 / 5⟩, 30) ∧
    Setup (gEnv (gMakeGiven stod)) gFs gLine props (Runner.ofGmapping gChance P) [.msg (gScan 1), .msg (gScan 2)] := by
  obtain ⟨t, h1, ⟨h2, h3, h4, h5⟩, h6⟩ := g_props (gMakeGiven stod)
  have hw := (Config.initGmapping_congr (stod := stod) t gLeast h6).trans (gleast_read stod)
  obtain ⟨P, hP, -⟩ := Whole.gmapping_launches (stod := stod) (env := gLeastEnv) (draws := fun _ _ => ⟨7 / 10, 7 / 10, 3 / 10⟩)
    (fun x hx => (gRnd_spec x hx).1) hw gleast_sensible
  refine ⟨t, P, hP, hw, by decide, g_undisturbed _, h1, .inr ⟨by decide, ?_⟩, h2, h3, fun h => ?_, [1], _, rfl, rfl, ?_⟩
  · show (gGiven stod t).map _ = _
    rw [show gGiven stod t = some P from hP]
    rfl
  · have := Runner.after_zip h
    revert this
    decide
  · rw [h4, h5]
    exact .cons (.inl ⟨rfl, _, rfl, rfl⟩) (.cons (.inl ⟨rfl, _, rfl, rfl⟩) .nil)

/-- The hypotheses of `Runner.runner_gmapping_total` hold: GMapping with its thirty particles and given random numbers runs over a bag of two scans; the runner ends normally, with
two entries in the trajectory. -/
example (stod : Str → Option ℝ) : (main (gEnv (gMakeGiven stod)) gFs gLine).exit = some 0 ∧ ∃ poses : List (Poses.Pose ℝ), poses.length = 2 ∧
    TrajectoryOf (gEnv (gMakeGiven stod)) gLine (main (gEnv (gMakeGiven stod)) gFs gLine).fs [gScan 1, gScan 2] poses := by
  obtain ⟨props, P, hP, hw, h⟩ := g_setup_given stod
  have hc : P.cfg.slam.tol = 1 / 100 ∧ P.cfg.slam.props.margin = 0 ∧ P.start.matcher.pe.fullness = 1 / 10 ∧
      P.start.matcher.pe.window = 1 := by
    have hP' := hP
    unfold gGiven Whole.launchGmapping at hP'
    rw [hw] at hP'
    simp only [gLeastWorld, Option.bind_some, Option.bind_eq_some_iff, Option.map_eq_some_iff] at hP'
    obtain ⟨m, -, st, -, rfl⟩ := hP'
    exact ⟨rfl, rfl, rfl, rfl⟩
  obtain ⟨hc1, hc2, hc3, hc4⟩ := hc
  obtain ⟨g1, hs, ss, poses, g2, -, g3, g4, g5⟩ := Runner.runner_gmapping_total h hP (fun x hx => (gRnd_spec x hx).1) hw gleast_sensible _ (fun x hx => (gRnd_spec x hx).2) (by norm_num [gRnd])
    (by
      have : ((Finset.range 1025).image fun n : Nat => (n : ℝ) / 1024).card ≤ 1025 := Finset.card_image_le.trans (by simp)
      simp only [gLeastEnv]
      omega) 4000000
    (by intro v hv; simp only [gLeastEnv, decide_eq_true_eq]; omega) (by norm_num [gLeastEnv]) (by rw [hc3]; norm_num)
    (R := 30) (G := 1 / 10) (S := 1) (by norm_num) (by norm_num) (by norm_num)
    (fun k => ⟨by simp [gChance], fun s hs => by rw [List.eq_of_mem_replicate hs]; norm_num, fun i => by norm_num [gChance]⟩)
    (fun _ _ _ _ _ => ⟨fun (h : Bag.Outcome.ok _ = _) => (nomatch h), fun (h : Bag.Outcome.ok _ = _) => (nomatch h)⟩) (fun m _ => ⟨_, rfl⟩)
    (by
      intro hs h1 h2
      have h3 : ∀ p ∈ hs, p.2 = ⟨(p.1.sec : ℝ), 0, 0⟩ := by
        intro p hp
        obtain ⟨_, _, _, _, h4⟩ := h2 p hp
        exact (Bag.Outcome.ok.inj h4).symm
      have h5 : hs.map Prod.snd = (hs.map Prod.fst).map fun m => (⟨(m.sec : ℝ), 0, 0⟩ : Poses.Pose ℝ) := by
        rw [List.map_map]
        exact List.map_congr_left h3
      rw [h5, h1]
      show List.IsChain _ [(⟨0, 0, 0⟩ : Poses.Pose ℝ), ⟨((1 : Nat) : ℝ), 0, 0⟩, ⟨((2 : Nat) : ℝ), 0, 0⟩]
      rw [List.isChain_cons_cons, List.isChain_cons_cons]
      refine ⟨?_, ?_, .singleton _⟩ <;> norm_num)
    (by
      intro m hm
      have hm' : m = gScan 1 ∨ m = gScan 2 := by simpa [Bag.msgs] using hm
      have : m.body = (gScan 1).body := by rcases hm' with rfl | rfl <;> rfl
      rw [this]
      refine ⟨by simp [gScan], ?_, by norm_num [gScan], by norm_num [gScan], ?_⟩
      · rw [hc1]
        norm_num [gScan]
      · intro pts hp
        by_cases he : pts = []
        · exact .inl he
        · right
          rw [hc2]
          exact List.length_pos_of_ne_nil he)
    (by
      rw [hc4]
      rw [show (Bag.msgs ([.msg (gScan 1), .msg (gScan 2)] : List (Bag.Rec LaserMsg (TransformMsg Unit)))).length = 2 from rfl]
      simp only [Whole.growth, gLeastWorld]
      norm_num)
  refine ⟨g1, poses, ?_, g5⟩
  have e1 : ss.length = hs.length := by
    clear g2 g4 g5
    generalize (Runner.ofGmapping gChance P).start = s0 at g3
    induction g3 with
    | nil => rfl
    | cons _ _ _ _ _ _ _ _ ih => simp [ih]
  have e2 := congrArg List.length g4
  have e3 := congrArg List.length g2
  simp only [List.length_map] at e2 e3
  rw [← e2, e1, e3]
  rfl

end Slam.Random
