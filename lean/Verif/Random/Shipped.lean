import Verif.Random.Whole
import Verif.Online.Roam
import Verif.Whole.Shipped

/-!
# C101: the shipped configurations with the Mersenne twister, and runs of the bag runner
-/

set_option autoImplicit false
set_option linter.unusedSectionVars false

namespace Slam.Random
open Slam.Grid Slam.Poses Slam.Sensor Slam.Score Slam.Worlds Slam.Matcher Slam.ScanMatch Slam.Whole
open Slam.Config (Fair stodDec Str Table parseArgs)
open Slam.Runner (LaserMsg Serves ofProgram datum Found TrajectoryOf reader)
open Slam.Online (setup_with serves_of_visits)

/-! ## Model -/

/-- The same numbers, with another bound on the iterations of a matcher. -/
def limited (wenv : Whole.Env) (f : Nat) : Whole.Env :=
  { wenv with
    fuel := f }

/-- The bag runner with `init_1h_slam`, src/ros/lslam2D_bag_runner.cpp:163-164, and the seeded generator. -/
noncomputable def seededRunner {E D C : Type} (N : Engine E) (mk : Int → E) (stod : Str → Option ℝ) (rad : ℝ) (rnd : Nat) (wenv : Whole.Env)
    (env : Runner.Env D C) : Runner.Env D C :=
  { env with
    oneHypothesis := fun t => (launchSeeded N mk stod rad rnd wenv t).map ofProgram }

/-! ## Specification -/

/-- The properties `t` start a SLAM with cells of side `scale` that handles, for every `M` within what the traversal copes with, all histories
within the area of `M` cells in each direction: messages it is ready for, with ranges up to `R`, and odometry in strides of up to `D`. The
poses after each message are the same whatever the bound on iterations, from some bound on; and after message number `j + 1` the robot is
within `j + 1` times `spread …`, where `b` is the reach of the matcher. -/
def HandlesHistories {E : Type} (N : Engine E) (mk : Int → E) (stod : Str → Option ℝ) (rad : ℝ) (rnd : Nat) (env : Whole.Env) (t : Table)
    (scale b : ℝ) : Prop :=
  ∀ (M : Int), (∀ v, |v| ≤ 6 * M → env.ok v = true) → 4 * M + 2 ≤ env.lineFuel → ∀ (R D : ℝ), 0 ≤ R → 0 ≤ D →
    ∀ (ds : List (Poses.Pose ℝ × Msg ℝ)), Strides D ⟨0, 0, 0⟩ ds → (∀ d ∈ ds, Ready (skipExceeding t) env.tol 0 R d.2) →
      ds.length * spread D b R scale ≤ scale * (M - 1) →
      ∃ (F : Nat) (poses : List (Poses.Pose ℝ)), poses.length = ds.length ∧
        (∀ (j : Nat) (p : Poses.Pose ℝ), poses[j]? = some p → PoseWithin ((j + 1) * spread D b R scale) p) ∧
        ∀ f, F ≤ f → ∃ P, launchSeeded N mk stod rad rnd (limited env f) t = some P ∧
          ∃ ss, P.start.Visits P.cfg ds ss ∧ ss.map (fun s => s.st.pose) = poses

/-! ## Proofs -/

section
variable {E : Type} {N : Engine E} {mk : Int → E} {stod : Str → Option ℝ} {rad : ℝ} {rnd : Nat} {env : Whole.Env}
  {t : Table} {w : Config.World ℝ} {oope : Config.Oope} {oie : Config.Oie} {b : ℝ}

theorem launched_seeded_total (hw : Config.init1h stod rad rnd t = some w) (h : Sensible w) (ho : w.matcher.spe.oope = .std oope oie)
    (hi : Fits (cellKind w.map.cell) (impactOf oie)) (hf : 0 < env.cellFuel) (hm : SeededReach N mk b w.matcher.algo)
    (hk : Climbs w.matcher.algo → w.map.cell ≠ .gmapping)
    (M : Int) (hok : ∀ v, |v| ≤ 6 * M → env.ok v = true) (hl : 4 * M + 2 ≤ env.lineFuel) {R D : ℝ} (hR : 0 ≤ R) (hD : 0 ≤ D)
    (ds : List (Poses.Pose ℝ × Msg ℝ)) (hstr : Strides D ⟨0, 0, 0⟩ ds)
    (hd : ∀ d ∈ ds, Ready (skipExceeding t) env.tol w.margin R d.2)
    (hN : ds.length * spread D (b + driftReach w.matcher.drift) R w.map.params.scale ≤ w.map.params.scale * (M - 1)) :
    ∃ (F : Nat) (T : Type) (cfg : Nat → MachCfg (cellKind w.map.cell).Cell (AnyMap (cellKind w.map.cell).Cell) T)
      (start : Mach (AnyMap (cellKind w.map.cell).Cell) T) (ss : List (Mach (AnyMap (cellKind w.map.cell).Cell) T)),
      (∀ f, launchSeeded N mk stod rad rnd (limited env f) t =
        some ⟨cellKind w.map.cell, impactOf oie, T, cfg f, start⟩) ∧
      (∀ f, F ≤ f → start.Visits (cfg f) ds ss) ∧
      ∀ (j : Nat) (s' : Mach (AnyMap (cellKind w.map.cell).Cell) T), ss[j]? = some s' →
        PoseWithin ((j + 1) * spread D (b + driftReach w.matcher.drift) R w.map.params.scale) s'.st.pose := by
  obtain ⟨F, T, cfg, start, ss, h1, h2⟩ := seeded_slam_total h ho hi hf hm hk M hok hl hR hD ds hstr hd hN
  refine ⟨F, T, cfg, start, ss, fun f => ?_, h2⟩
  rw [launchSeeded, hw]
  exact h1 f

theorem handles_of (hw : Config.init1h stod rad rnd t = some w) (h : Sensible w) (ho : w.matcher.spe.oope = .std oope oie)
    (hi : Fits (cellKind w.map.cell) (impactOf oie)) (hf : 0 < env.cellFuel) (hm : SeededReach N mk b w.matcher.algo)
    (hk : Climbs w.matcher.algo → w.map.cell ≠ .gmapping) (hdr : w.matcher.drift = false) (hma : w.margin = 0) :
    HandlesHistories N mk stod rad rnd env t w.map.params.scale b := by
  intro M hok hl R D hR hD ds hstr hd hN
  have e : b + driftReach w.matcher.drift = b := by rw [hdr]; simp [driftReach]
  obtain ⟨F, T, cfg, start, ss, h1, h2, h3⟩ := launched_seeded_total hw h ho hi hf hm hk M hok hl hR hD ds hstr (by rw [hma]; exact hd)
    (by rw [e]; exact hN)
  rw [e] at h3
  refine ⟨F, ss.map fun s => s.st.pose, ?_, ?_, fun f hF => ⟨_, h1 f, ss, h2 f hF, rfl⟩⟩
  · rw [List.length_map, (h2 F le_rfl).run.2]
  · intro j p hj
    rw [List.getElem?_map, Option.map_eq_some_iff] at hj
    obtain ⟨s', e1, rfl⟩ := hj
    exact h3 j s' e1

/-- **The shipped TinySLAM and vinySLAM, with their generator (C101)**: read from the files of the repository, with the numbers
rounded by any fair rounding, and seeded by whatever `std::random_device` hands out (the shipped files give no seed). -/
theorem shipped_seeded {r : ℝ → ℝ} (F : Fair r) (hf : 0 < env.cellFuel) (hlive : Lively N (mk (Config.unsignedToInt rnd))) (p : Str)
    (hp : p = chars% "config/bag_runner/tiny_mit.properties" ∨ p = chars% "config/bag_runner/viny_mit.properties" ∨
      p = chars% "config/bag_runner/viny_pr2.properties") :
    ∃ t, Config.append Config.shipped 9 p Config.Table.empty = some t ∧
      HandlesHistories N mk (stodDec r) rad rnd env t (r (1 / 10)) (100 * (14 * max |r (1 / 5)| |r (1 / 10)|)) := by
  have tiny : p = chars% "config/bag_runner/tiny_mit.properties" → ∃ t, Config.append Config.shipped 9 p Config.Table.empty = some t ∧
      HandlesHistories N mk (stodDec r) rad rnd env t (r (1 / 10)) (100 * (14 * max |r (1 / 5)| |r (1 / 10)|)) := by
    rintro rfl
    obtain ⟨t, h1, h2⟩ := Config.tiny_mit_read
    obtain ⟨n, hn, -, hw⟩ := Config.tiny_world F rad rnd
    have hw' : Config.init1h (stodDec r) rad rnd t = some (Config.tinyWorld r rnd n) := by
      rw [← hw]
      exact Config.init1h_congr _ _ _ _ _ fun k hk => h2 k (known_in hk)
    exact ⟨t, h1, handles_of hw' (tiny_sensible F rnd n (by omega)) rfl trivial hf ⟨hlive, by norm_num⟩ (fun h => h.elim) rfl rfl⟩
  have viny : (p = chars% "config/bag_runner/viny_mit.properties" ∨ p = chars% "config/bag_runner/viny_pr2.properties") →
      ∃ t, Config.append Config.shipped 9 p Config.Table.empty = some t ∧
      HandlesHistories N mk (stodDec r) rad rnd env t (r (1 / 10)) (100 * (14 * max |r (1 / 5)| |r (1 / 10)|)) := by
    intro hp
    have h : ∃ t, Config.append Config.shipped 9 p Config.Table.empty = some t ∧
        ∀ k ∈ Config.knownProperties ++ ["in/lscan2D/skip_exceeding_vals"], t k.toList = Config.vinyProps.lookup k.toList := by
      rcases hp with rfl | rfl
      · exact Config.viny_mit_read
      · exact Config.viny_pr2_read
    obtain ⟨t, h1, h2⟩ := h
    obtain ⟨n, hn, -, hw⟩ := Config.viny_world F rad rnd
    have hw' : Config.init1h (stodDec r) rad rnd t = some (Config.vinyWorld r rnd n) := by
      rw [← hw]
      exact Config.init1h_congr _ _ _ _ _ fun k hk => h2 k (known_in hk)
    exact ⟨t, h1, handles_of hw' (viny_sensible F rnd n (by omega)) rfl trivial hf ⟨hlive, by norm_num⟩ (fun h => h.elim) rfl rfl⟩
  rcases hp with h | h
  · exact tiny h
  · exact viny h

variable {D C : Type} {S R : ℝ}

/-- **A whole run of the bag runner with the seeded generator (C101)**: as `Online.runner_roam_total`, but nothing is assumed of the
shifts of the Monte Carlo matcher. -/
theorem runner_seeded_total {renv : Runner.Env D C} {fs : Runner.Fs} {argv : List Str}
    {rs : List (Bag.Rec LaserMsg (Runner.TransformMsg D))}
    {G : Runner.Engine} (h : Runner.Setup (seededRunner N mk stod rad rnd env renv) fs argv t G rs)
    (hslam : (parseArgs argv).slamType ≠ "gmapping".toList)
    (hw : Config.init1h stod rad rnd t = some w) (hsen : Sensible w) (ho : w.matcher.spe.oope = .std oope oie)
    (hi : Fits (cellKind w.map.cell) (impactOf oie)) (hf : 0 < env.cellFuel) (hm : SeededReach N mk b w.matcher.algo)
    (hk : Climbs w.matcher.algo → w.map.cell ≠ .gmapping)
    (M : Int) (hMok : ∀ v, |v| ≤ 6 * M → env.ok v = true) (hl : 4 * M + 2 ≤ env.lineFuel) (hR : 0 ≤ R) (hS : 0 ≤ S)
    (hp : Bag.Patient (reader renv t) rs)
    (hok : ∀ m ∈ Bag.msgs rs, ∃ x, (reader renv t).lookup (Bag.cacheAfter (reader renv t) rs) m = .ok x)
    (hodo : ∀ hs : List (LaserMsg × Poses.Pose ℝ), hs.map Prod.fst = Bag.msgs rs → (∀ p ∈ hs, Found (reader renv t) rs p) →
      Strides S ⟨0, 0, 0⟩ (hs.map datum))
    (hmsg : ∀ m ∈ Bag.msgs rs, Ready (skipExceeding t) env.tol w.margin R m.body)
    (hN : (Bag.msgs rs).length * spread S (b + driftReach w.matcher.drift) R w.map.params.scale ≤ w.map.params.scale * (M - 1)) :
    ∃ F poses, ∀ f, F ≤ f →
      (Runner.main (seededRunner N mk stod rad rnd (limited env f) renv) fs argv).exit = some 0 ∧
      poses.length = (Bag.msgs rs).length ∧
      TrajectoryOf renv argv (Runner.main (seededRunner N mk stod rad rnd (limited env f) renv) fs argv).fs (Bag.msgs rs) poses := by
  have hall := Bag.no_message_lost (reader renv t) rs hp hok (rs.length + 1) (Nat.lt_succ_self _)
  have hfound := Runner.run_found (reader renv t) rs (rs.length + 1)
  set hs := (Bag.run (reader renv t) (rs.length + 1) rs (Bag.St.start (reader renv t))).1 with hhs
  have hlen : hs.length = (Bag.msgs rs).length := by rw [← hall, List.length_map]
  obtain ⟨F, T, cfg, start, ss, h1, h2, -⟩ := launched_seeded_total hw hsen ho hi hf hm hk M hMok hl hR hS (hs.map datum)
    (hodo hs hall hfound) (by
      intro d hd
      obtain ⟨p, hp', rfl⟩ := List.mem_map.1 hd
      exact hmsg p.1 (by rw [← hall]; exact List.mem_map_of_mem hp')) (by rw [List.length_map, hlen]; exact hN)
  refine ⟨F, ss.map fun s => s.st.pose, fun f hF => ?_⟩
  have hserve := serves_of_visits (i := impactOf oie) (start := start) hs start ss (h2 f hF)
  have hmade : (seededRunner N mk stod rad rnd (limited env f) renv).oneHypothesis t =
      some (ofProgram ⟨cellKind w.map.cell, impactOf oie, T, cfg f, start⟩) := by
    show (launchSeeded N mk stod rad rnd (limited env f) t).map ofProgram = _
    rw [h1 f]
    rfl
  have hset : Runner.Setup (seededRunner N mk stod rad rnd (limited env f) renv) fs argv t
      (ofProgram ⟨cellKind w.map.cell, impactOf oie, T, cfg f, start⟩) rs :=
    setup_with h hslam hmade
  obtain ⟨e1, e2⟩ := Runner.runner_followed hset hp hok hserve
    (Runner.some_poses (fun s : Mach (AnyMap (cellKind w.map.cell).Cell) T => s.st.pose) ss) rfl
  refine ⟨e1, ?_, e2⟩
  rw [List.length_map, (h2 f hF).run.2, List.length_map, hlen]

end

/-! ## Non-vacuity -/

/-- A generator that always hands out the same number. -/
def constant : Engine Unit := ⟨fun _ => (3 * 2 ^ 30, ()), fun _ => by norm_num⟩

theorem constant_lively (e : Unit) : Lively constant e := by
  intro k
  refine ⟨0, ?_⟩
  simp only [attempt, canonical, constant, Accepted]
  norm_num

/-- Three messages for the shipped TinySLAM. -/
example : ∃ t, Config.append Config.shipped 9 (chars% "config/bag_runner/tiny_mit.properties") Config.Table.empty = some t ∧
    ∃ (F : Nat) (poses : List (Poses.Pose ℝ)), poses.length = 3 ∧ ∀ f, F ≤ f →
      ∃ P, launchSeeded constant (fun _ => ()) (stodDec Float.rne) (1 / 60) 7 (limited exampleEnv f) t = some P ∧
        ∃ ss, P.start.Visits P.cfg [(⟨0, 0, 0⟩, ⟨0, 0, 1, 0, 30, [some 20]⟩), (⟨1, 0, 0⟩, ⟨0, 0, 1, 0, 30, [some 20]⟩),
          (⟨1, 1, 0⟩, ⟨0, 0, 1, 0, 30, [some 20]⟩)] ss ∧ ss.map (fun s => s.st.pose) = poses := by
  have Fr := Config.fair_nearest Float.rne_nearest
  obtain ⟨t, h1, h2⟩ := shipped_seeded (N := constant) (mk := fun _ => ()) (rad := 1 / 60) (rnd := 7) (env := exampleEnv) Fr (by decide)
    (constant_lively _) _ (.inl rfl)
  have bd : ∀ x : ℝ, 1 / 10 ≤ x → x ≤ 1 / 5 → 1 / 20 ≤ Float.rne x ∧ Float.rne x ≤ 1 := by
    intro x hx hx'
    have h := Fr.rel x (by rw [abs_of_pos (by linarith)]; norm_num; linarith) (by rw [abs_of_pos (by linarith)]; linarith)
    have h' := abs_le.1 h
    have e : |x| / 2 ^ 50 ≤ 1 / 20 := by
      rw [abs_of_pos (by linarith), div_le_iff₀ (by positivity)]
      norm_num
      linarith
    generalize |x| / 2 ^ 50 = u at h' e
    constructor <;> linarith [h'.1, h'.2]
  have b1 := bd (1 / 10) (by norm_num) (by norm_num)
  have b2 := bd (1 / 5) (by norm_num) (by norm_num)
  refine ⟨t, h1, ?_⟩
  obtain ⟨F, poses, e1, -, e2⟩ := h2 1000000 (by intro v hv; simp only [exampleEnv, decide_eq_true_eq]; omega) (by decide) 30 1
    (by norm_num) (by norm_num)
    [(⟨0, 0, 0⟩, ⟨0, 0, 1, 0, 30, [some 20]⟩), (⟨1, 0, 0⟩, ⟨0, 0, 1, 0, 30, [some 20]⟩), (⟨1, 1, 0⟩, ⟨0, 0, 1, 0, 30, [some 20]⟩)]
    (by simp [Strides]) (by
      intro d hd
      have hb : d.2 = ⟨0, 0, 1, 0, 30, [some 20]⟩ := by
        simp only [List.mem_cons, List.not_mem_nil, or_false] at hd
        rcases hd with rfl | rfl | rfl <;> rfl
      rw [hb]
      refine ⟨by simp, by norm_num [exampleEnv], by norm_num, by norm_num, fun pts _ => ?_⟩
      cases pts with
      | nil => exact .inl rfl
      | cons a l => exact .inr (by simp)) (by
      have hm : max |(Float.rne (1 / 5) : ℝ)| |(Float.rne (1 / 10) : ℝ)| ≤ 1 :=
        max_le (by rw [abs_of_pos (by linarith)]; exact b2.2) (by rw [abs_of_pos (by linarith)]; exact b1.2)
      simp only [List.length_cons, List.length_nil, spread]
      push_cast
      linarith)
  exact ⟨F, poses, e1, e2⟩


/-! ## The Mersenne twister is that of the library -/

/-- The state after `n` numbers. -/
def Mt.skip : Nat → Mt → Mt
  | 0, e => e
  | n + 1, e => Mt.skip n e.next.2

set_option maxRecDepth 100000 in
/-- The first numbers for the seed the standard uses by default. -/
example : ((Mt.create 5489).next.1, (Mt.skip 1 (Mt.create 5489)).next.1, (Mt.skip 2 (Mt.create 5489)).next.1,
    (Mt.skip 3 (Mt.create 5489)).next.1) = (3499211612, 581869302, 3890346734, 3586334585) := by decide +kernel

set_option maxRecDepth 100000 in
/-- [rand.predef] of the C++ standard: number 10000 is 4123659995. -/
example : (Mt.skip 9999 (Mt.create 5489)).next.1 = 4123659995 := by decide +kernel

set_option maxRecDepth 100000 in
/-- The first point the twister proposes to a normal distribution is accepted. -/
example : Accepted (attempt mt19937 (Mt.create 5489)).1 := by
  have h1 : (Mt.next (Mt.create 5489)).1 = 3499211612 := by decide +kernel
  have h2 : (Mt.next (Mt.next (Mt.create 5489)).2).1 = 581869302 := by decide +kernel
  have h3 : (Mt.next (Mt.next (Mt.next (Mt.create 5489)).2).2).1 = 3890346734 := by decide +kernel
  have h4 : (Mt.next (Mt.next (Mt.next (Mt.next (Mt.create 5489)).2).2).2).1 = 3586334585 := by decide +kernel
  simp only [attempt, canonical, mt19937, Accepted, h1, h2, h3, h4]
  norm_num

end Slam.Random
