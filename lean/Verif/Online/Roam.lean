import Verif.Online.Slams
import Verif.Whole.RoamLaunch

/-!
# C100: the bag runner, the single-hypothesis node and the credibilist node, whatever the matcher

The programs of `Whole.RoamLaunch` in the bag runner (C97) and in the online nodes (C99).
-/

set_option autoImplicit false
set_option linter.unusedSectionVars false

namespace Slam.Online
open Slam.Config (Str Table Server Provider parseArgs)
open Slam.Runner (Engine LaserMsg Serves ofProgram datum Found TrajectoryOf reader)
open Slam.Whole

/-! ## Model -/

/-- `init_credibilist_slam` (src/slams/credibilist/init_slam.h:13-24) and the observer of scans
(src/slams/credibilist/slam.cpp:42-45). -/
noncomputable def nodeCredibilist (rad : ℝ) (rnd : Nat) (wenv : Whole.Env) (sample : Int → Nat → ℝ → ℝ → Poses.Delta ℝ) (p : Provider ℝ)
    (skip : Bool) : Option MProgram :=
  (Provider.initCredibilist rad rnd p).bind (assembleAny wenv skip sample)

/-- The same numbers, with another bound on the iterations of a matcher. -/
def bounded (wenv : Whole.Env) (f : Nat) : Whole.Env :=
  { wenv with
    fuel := f }

/-- The bag runner with `init_1h_slam`, src/ros/lslam2D_bag_runner.cpp:163-164. -/
noncomputable def bagRunner {D C : Type} (stod : Str → Option ℝ) (rad : ℝ) (rnd : Nat) (wenv : Whole.Env)
    (sample : Int → Nat → ℝ → ℝ → Poses.Delta ℝ) (env : Runner.Env D C) : Runner.Env D C :=
  { env with
    oneHypothesis := fun t => (launchAny stod rad rnd wenv sample t).map ofProgram }

/-! ## Proofs -/

section
variable {D C : Type} {stod : Str → Option ℝ} {round : ℝ → Int} {rad : ℝ} {rnd : Nat} {wenv : Whole.Env}
  {sample : Int → Nat → ℝ → ℝ → Poses.Delta ℝ} {srv : Server ℝ} {t : Table} {w : Config.World ℝ} {oope : Config.Oope} {oie : Config.Oie}
  {b : ℝ}

/-- The states a program visits, as an engine. -/
theorem serves_of_visits {k : CellKind} {i : Impact} {T : Type} {cfg : MachCfg k.Cell (AnyMap k.Cell) T}
    {start : Mach (AnyMap k.Cell) T} (hs : List (LaserMsg × Poses.Pose ℝ)) : ∀ (s : Mach (AnyMap k.Cell) T) (ss : List (Mach (AnyMap k.Cell) T)),
    s.Visits cfg (hs.map datum) ss → Serves (ofProgram ⟨k, i, T, cfg, start⟩) s hs ss := by
  induction hs with
  | nil =>
    intro s ss h
    cases ss with
    | nil => exact Serves.nil (P := ofProgram ⟨k, i, T, cfg, start⟩) s
    | cons a l => exact h.elim
  | cons d hs ih =>
    intro s ss h
    cases ss with
    | nil => exact h.elim
    | cons a l => exact Serves.cons (P := ofProgram ⟨k, i, T, cfg, start⟩) s a d.1 d.2 hs l h.1 (ih a l h.2)

theorem setup_with {env : Runner.Env D C} {g g' : Table → Option Engine} {fs : Runner.Fs} {argv : List Str}
    {rs : List (Bag.Rec LaserMsg (Runner.TransformMsg D))} {E E' : Engine}
    (h : Runner.Setup { env with oneHypothesis := g } fs argv t E rs)
    (hslam : (parseArgs argv).slamType ≠ "gmapping".toList) (hg : g' t = some E') :
    Runner.Setup { env with oneHypothesis := g' } fs argv t E' rs :=
  ⟨h.valid, h.undisturbed, h.read, .inl ⟨h.made.elim (·.1) fun e => absurd e.1 hslam, hg⟩, h.scans, h.odometry, h.kept, h.bag⟩

/-- **A whole run of the bag runner, whatever the matcher (C100)**, on a growing map: the arguments are valid and the properties
configure a SLAM as in `launched_roam_total`; no lookup in the bag fails or speaks of the past, and the transforms suffice for every
scan; the odometry found moves in strides of at most `S`, the scans are ready for the SLAM with ranges up to `R`, and the area that may
be reached stays within the integers the traversal copes with. Then the runner ends normally and the trajectory file has one entry
for each scan of the bag; with every bound on iterations from some `F` on, with the same poses. -/
theorem runner_roam_total {env : Runner.Env D C} {fs : Runner.Fs} {argv : List Str} {rs : List (Bag.Rec LaserMsg (Runner.TransformMsg D))}
    {E : Engine} (h : Runner.Setup (bagRunner stod rad rnd wenv sample env) fs argv t E rs)
    (hslam : (parseArgs argv).slamType ≠ "gmapping".toList)
    (hw : Config.init1h stod rad rnd t = some w) (hsen : Sensible w) (ho : w.matcher.spe.oope = .std oope oie)
    (hi : Fits (cellKind w.map.cell) (impactOf oie)) (hf : 0 < wenv.cellFuel) (hm : MatcherReach sample b w.matcher.algo)
    (hk : Climbs w.matcher.algo → w.map.cell ≠ .gmapping)
    (N : Int) (hNok : ∀ v, |v| ≤ 6 * N → wenv.ok v = true) (hl : 4 * N + 2 ≤ wenv.lineFuel) {R S : ℝ} (hR : 0 ≤ R) (hS : 0 ≤ S)
    (hp : Bag.Patient (reader env t) rs)
    (hok : ∀ m ∈ Bag.msgs rs, ∃ x, (reader env t).lookup (Bag.cacheAfter (reader env t) rs) m = .ok x)
    (hodo : ∀ hs : List (LaserMsg × Poses.Pose ℝ), hs.map Prod.fst = Bag.msgs rs → (∀ p ∈ hs, Found (reader env t) rs p) →
      Strides S ⟨0, 0, 0⟩ (hs.map datum))
    (hmsg : ∀ m ∈ Bag.msgs rs, Ready (skipExceeding t) wenv.tol w.margin R m.body)
    (hN : (Bag.msgs rs).length * spread S (b + driftReach w.matcher.drift) R w.map.params.scale ≤ w.map.params.scale * (N - 1)) :
    ∃ F poses, ∀ f, F ≤ f →
      (Runner.main (bagRunner stod rad rnd (bounded wenv f) sample env) fs argv).exit = some 0 ∧
      poses.length = (Bag.msgs rs).length ∧
      TrajectoryOf env argv (Runner.main (bagRunner stod rad rnd (bounded wenv f) sample env) fs argv).fs (Bag.msgs rs) poses := by
  have hall := Bag.no_message_lost (reader env t) rs hp hok (rs.length + 1) (Nat.lt_succ_self _)
  have hfound := Runner.run_found (reader env t) rs (rs.length + 1)
  set hs := (Bag.run (reader env t) (rs.length + 1) rs (Bag.St.start (reader env t))).1 with hhs
  have hlen : hs.length = (Bag.msgs rs).length := by rw [← hall, List.length_map]
  obtain ⟨F, T, cfg, start, ss, h1, h2, -⟩ := launched_roam_total hw hsen ho hi hf hm hk N hNok hl hR hS (hs.map datum)
    (hodo hs hall hfound) (by
      intro d hd
      obtain ⟨p, hp', rfl⟩ := List.mem_map.1 hd
      exact hmsg p.1 (by rw [← hall]; exact List.mem_map_of_mem hp')) (by rw [List.length_map, hlen]; exact hN)
  refine ⟨F, ss.map fun s => s.st.pose, fun f hF => ?_⟩
  have hserve := serves_of_visits (i := impactOf oie) (start := start) hs start ss (h2 f hF)
  have hmade : (bagRunner stod rad rnd (bounded wenv f) sample env).oneHypothesis t =
      some (ofProgram ⟨cellKind w.map.cell, impactOf oie, T, cfg f, start⟩) := by
    show (launchAny stod rad rnd (bounded wenv f) sample t).map ofProgram = _
    have : launchAny stod rad rnd (bounded wenv f) sample t = _ := h1 f
    rw [this]
    rfl
  have hset : Runner.Setup (bagRunner stod rad rnd (bounded wenv f) sample env) fs argv t
      (ofProgram ⟨cellKind w.map.cell, impactOf oie, T, cfg f, start⟩) rs :=
    setup_with h hslam hmade
  obtain ⟨e1, e2⟩ := Runner.runner_followed hset hp hok hserve
    (Runner.some_poses (fun s : Mach (AnyMap (cellKind w.map.cell).Cell) T => s.st.pose) ss) rfl
  refine ⟨e1, ?_, e2⟩
  rw [List.length_map, (h2 f hF).run.2, List.length_map, hlen]

/-- What the single-hypothesis node and the credibilist node need of their SLAM. -/
theorem roam_node_total (hsen : Sensible w) (ho : w.matcher.spe.oope = .std oope oie)
    (hi : Fits (cellKind w.map.cell) (impactOf oie)) (hf : 0 < wenv.cellFuel) (hm : MatcherReach sample b w.matcher.algo)
    (hk : Climbs w.matcher.algo → w.map.cell ≠ .gmapping)
    (N : Int) (hNok : ∀ v, |v| ≤ 6 * N → wenv.ok v = true) (hl : 4 * N + 2 ≤ wenv.lineFuel) {R S : ℝ} (hR : 0 ≤ R) (hS : 0 ≤ S)
    (setup : Setup) (stamped : Bool) (ds : List Delivery)
    (hodo : Strides S ⟨0, 0, 0⟩ ((found setup.odomFrame ds).map fun p => datum (p.1.msg, planar p.2)))
    (hmsg : ∀ p ∈ found setup.odomFrame ds, Ready setup.skipExceeding wenv.tol w.margin R p.1.msg.body)
    (hN : (found setup.odomFrame ds).length * spread S (b + driftReach w.matcher.drift) R w.map.params.scale ≤
      w.map.params.scale * (N - 1)) :
    ∃ F, ∀ f, F ≤ f → ∃ P, assembleAny (bounded wenv f) setup.skipExceeding sample w = some P ∧
      ∃ n, (start (ofProgram P) stamped setup).run ds = some n := by
  obtain ⟨F, T, cfg, s0, ss, h1, h2, -⟩ := assembled_any_total hsen ho hi hf hm hk N hNok hl hR hS
    ((found setup.odomFrame ds).map fun p => datum (p.1.msg, planar p.2)) hodo (by
      intro d hd
      obtain ⟨p, hp, rfl⟩ := List.mem_map.1 hd
      exact hmsg p hp) (by rw [List.length_map]; exact hN)
  refine ⟨F, fun f hF => ⟨_, h1 f, ?_⟩⟩
  rw [node_goes_on]
  refine ⟨ss, serves_of_visits (i := impactOf oie) (start := s0) ((found setup.odomFrame ds).map fun p => (p.1.msg, planar p.2)) s0 ss ?_,
    fun s _ => ⟨⟨_, rfl⟩, _, rfl⟩⟩
  rw [List.map_map]
  exact h2 f hF

/-- **The single-hypothesis node handles every scan, whatever the matcher (C100)**: the properties of the node configure the SLAM `w`,
as in `assembled_any_total`; the odometry found moves in strides of at most `S`, the scans whose transform is found are ready for the SLAM,
with ranges up to `R`, and the area that may be reached stays within the integers the traversal copes with. Then `main` comes to its
loop, and the node goes on over all deliveries; with every bound on iterations from some `F` on. -/
theorem online_roam_total {G : Config.Files} {depth : Nat} {names : Table → List Str} {srv0 : Server ℝ}
    (hsrv : Config.nodeInit G depth names srv0 = some srv) (hw : Provider.init1h rad rnd (.ofServer round stod srv) = some w)
    (hsen : Sensible w) (ho : w.matcher.spe.oope = .std oope oie)
    (hi : Fits (cellKind w.map.cell) (impactOf oie)) (hf : 0 < wenv.cellFuel) (hm : MatcherReach sample b w.matcher.algo)
    (hk : Climbs w.matcher.algo → w.map.cell ≠ .gmapping)
    (N : Int) (hNok : ∀ v, |v| ≤ 6 * N → wenv.ok v = true) (hl : 4 * N + 2 ≤ wenv.lineFuel) {R S : ℝ} (hR : 0 ≤ R) (hS : 0 ≤ S)
    (ds : List Delivery) :
    let setup := setupOf round (.ofServer round stod srv) srv
    Strides S ⟨0, 0, 0⟩ ((found setup.odomFrame ds).map fun p => datum (p.1.msg, planar p.2)) →
    (∀ p ∈ found setup.odomFrame ds, Ready setup.skipExceeding wenv.tol w.margin R p.1.msg.body) →
    (found setup.odomFrame ds).length * spread S (b + driftReach w.matcher.drift) R w.map.params.scale ≤ w.map.params.scale * (N - 1) →
    ∃ F, ∀ f, F ≤ f → ∃ (E : Engine) (n0 n : Node E),
      mainOneHypothesis G depth names round stod (fun p skip => (nodeProgram rad rnd (bounded wenv f) sample p skip).map ofProgram) srv0 =
        some ⟨E, n0⟩ ∧ n0.run ds = some n := by
  intro setup h1 h2 h3
  obtain ⟨F, hF⟩ := roam_node_total hsen ho hi hf hm hk N hNok hl hR hS setup false ds h1 h2 h3
  refine ⟨F, fun f hle => ?_⟩
  obtain ⟨P, e1, n, e2⟩ := hF f hle
  refine ⟨ofProgram P, start (ofProgram P) false setup, n, ?_, e2⟩
  unfold mainOneHypothesis
  rw [hsrv, Option.bind_some]
  have e : nodeProgram rad rnd (bounded wenv f) sample (.ofServer round stod srv) setup.skipExceeding = some P := by
    rw [← e1]
    unfold nodeProgram
    rw [hw]
    rfl
  simp only
  rw [e]
  rfl

/-- **The credibilist node handles every scan, whatever the matcher (C100)**, as `online_roam_total`. -/
theorem online_credibilist_total (hw : Provider.initCredibilist rad rnd (.ofServer round stod srv) = some w)
    (hsen : Sensible w) (ho : w.matcher.spe.oope = .std oope oie)
    (hi : Fits (cellKind w.map.cell) (impactOf oie)) (hf : 0 < wenv.cellFuel) (hm : MatcherReach sample b w.matcher.algo)
    (hk : Climbs w.matcher.algo → w.map.cell ≠ .gmapping)
    (N : Int) (hNok : ∀ v, |v| ≤ 6 * N → wenv.ok v = true) (hl : 4 * N + 2 ≤ wenv.lineFuel) {R S : ℝ} (hR : 0 ≤ R) (hS : 0 ≤ S)
    (ds : List Delivery) :
    let setup := setupOf round (.ofServer round stod srv) srv
    Strides S ⟨0, 0, 0⟩ ((found setup.odomFrame ds).map fun p => datum (p.1.msg, planar p.2)) →
    (∀ p ∈ found setup.odomFrame ds, Ready setup.skipExceeding wenv.tol w.margin R p.1.msg.body) →
    (found setup.odomFrame ds).length * spread S (b + driftReach w.matcher.drift) R w.map.params.scale ≤ w.map.params.scale * (N - 1) →
    ∃ F, ∀ f, F ≤ f → ∃ (E : Engine) (n0 n : Node E),
      mainLaunched false round stod (fun p skip => (nodeCredibilist rad rnd (bounded wenv f) sample p skip).map ofProgram) srv =
        some ⟨E, n0⟩ ∧ n0.run ds = some n := by
  intro setup h1 h2 h3
  obtain ⟨F, hF⟩ := roam_node_total hsen ho hi hf hm hk N hNok hl hR hS setup false ds h1 h2 h3
  refine ⟨F, fun f hle => ?_⟩
  obtain ⟨P, e1, n, e2⟩ := hF f hle
  refine ⟨ofProgram P, start (ofProgram P) false setup, n, ?_, e2⟩
  unfold mainLaunched
  have e : nodeCredibilist rad rnd (bounded wenv f) sample (.ofServer round stod srv) setup.skipExceeding = some P := by
    rw [← e1]
    unfold nodeCredibilist
    rw [hw]
    rfl
  simp only
  rw [e]
  rfl

theorem credibilist_cell {p : Provider ℝ} (hw : Provider.initCredibilist rad rnd p = some w) : w.map.cell = .credibilist := by
  simp only [Provider.initCredibilist, Option.bind_eq_some_iff, Option.map_eq_some_iff] at hw
  obtain ⟨m, h1, a, -, b, -, rfl⟩ := hw
  have key : ∀ k, Provider.createMap p .credibilist k = some m → m.cell = .credibilist := by
    intro k h
    simp only [Provider.createMap, Option.bind_eq_some_iff] at h
    obtain ⟨q, -, h⟩ := h
    by_cases e : Config.isM3rsm (Provider.matcherType p) = true
    · rw [if_pos e, Option.map_eq_some_iff] at h
      obtain ⟨o, -, rfl⟩ := h
      rfl
    · rw [if_neg e, Option.some.injEq] at h
      subst h
      rfl
  unfold Provider.initMapWith at h1
  simp only at h1
  repeat' split at h1
  · exact key _ h1
  · exact key _ h1
  · exact key _ h1
  · exact key _ h1
  · cases h1

/-- **The credibilist cells show percentages (C100)**: every value of a map the credibilist node sends is between 0 and 100. -/
theorem online_credibilist_grids (hw : Provider.initCredibilist rad rnd (.ofServer round stod srv) = some w)
    (hsen : Sensible w) (ho : w.matcher.spe.oope = .std oope oie)
    (hi : Fits (cellKind w.map.cell) (impactOf oie)) (hf : 0 < wenv.cellFuel) {skip : Bool} {P : MProgram}
    (hP : nodeCredibilist rad rnd wenv sample (.ofServer round stod srv) skip = some P)
    {setup : Setup} {stamped : Bool} {ds : List Delivery} {n : Node (ofProgram P)} (h : (start (ofProgram P) stamped setup).run ds = some n)
    {m : Dump.GridMsg ℝ} (hm : m ∈ gridsOf n.sent) :
    m.resolution = w.map.params.scale ∧ ∀ v ∈ m.data, 0 ≤ v ∧ v ≤ 100 := by
  have hcell : w.map.cell = .credibilist := credibilist_cell hw
  rw [nodeCredibilist, hw, Option.bind_some] at hP
  obtain ⟨hconf, hbeh⟩ := assembled_any_behaves hsen ho hi hf hP
  have hkind : P.kind = .tbm .credibilist := by
    obtain ⟨s, m, -, -, rfl⟩ := assembleAny_some ho hP
    show cellKind w.map.cell = _
    rw [hcell]
    rfl
  obtain ⟨h1, h2⟩ := grids_of_behaves hconf.scale hbeh (by rw [hkind]; simp) h hm
  refine ⟨h1, fun v hv => ?_⟩
  rcases h2 v hv with e | ⟨e, -⟩
  · exact e
  · rw [hkind] at e; cases e

end

end Slam.Online
