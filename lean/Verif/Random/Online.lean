import Verif.Online.Roam
import Verif.Random.GmappingRunner
import Verif.Random.Shipped

/-!
# The online nodes with their generators (C105)
-/

set_option autoImplicit false
set_option linter.unusedSectionVars false

namespace Slam.Random
open Slam.Config (Str Table Server Provider)
open Slam.Whole
open Slam.Runner (LaserMsg Serves ofProgram datum)
open Slam.Online (Delivery Node found planar setupOf start mainLaunched mainOneHypothesis SameSkip)

variable {E : Type} (N : Engine E) (mk : Int → E)

/-! ## Model -/

/-- `init_gmapping` (src/slams/gmapping/init_gmapping.h:49-65), and the observer of scans (src/slams/gmapping/gmapping.cpp:22,45-46), as
`Online.nodeGmapping`, with the generators of the particles: `engines k` is the engine made for the `k`-th. -/
noncomputable def nodeSeededGmapping (wenv : Whole.Env) (rnd : ℝ → ℝ) (engines : Nat → E) (p : Provider ℝ) (skip : Bool) :
    Option (GSeededProgram E) :=
  (Provider.initGmapping p).bind fun r =>
    match r.1.matcher.algo, r.1.matcher.spe.oope with
    | .hillClimbing failed transl rot _, .gmapping fullness window =>
      (gMapOf wenv.rate r.1.map.params).bind fun m =>
        (SFilter.create N (guessRV r.2.1.meanXY r.2.1.sigmaXY r.2.1.meanTh r.2.1.sigmaTh)
            (stepRV r.2.1.minXY r.2.1.maxXY r.2.1.minTh r.2.1.maxTh) ((List.range r.2.2).map engines)).map fun s =>
          ⟨gConfigured wenv skip rnd r.1 failed transl rot,
            ⟨⟨⟨⟨0, 0, 0⟩, s.filter, m, histOf r.1.adder⟩, GMatch.create (spwOf r.1.matcher.spe.spw) fullness window transl rot⟩, s.rng⟩⟩
    | _, _ => none

/-- `init_1h_slam` (src/utils/init_slam.h:12-24) in the single-hypothesis node (src/ros/single_hypoth_slam_node.cpp:38,58-59), as
`Online.nodeProgram`, with the generator of the Monte Carlo matcher. -/
noncomputable def nodeSeeded (rad : ℝ) (rnd : Nat) (wenv : Whole.Env) (p : Provider ℝ) (skip : Bool) : Option MProgram :=
  (Provider.init1h rad rnd p).bind (assembleSeeded N mk wenv skip)

/-- The same in the credibilist node (src/slams/credibilist/init_slam.h:13-24, src/slams/credibilist/slam.cpp:42-45). -/
noncomputable def nodeSeededCredibilist (rad : ℝ) (rnd : Nat) (wenv : Whole.Env) (p : Provider ℝ) (skip : Bool) : Option MProgram :=
  (Provider.initCredibilist rad rnd p).bind (assembleSeeded N mk wenv skip)

/-! ## Proofs -/

section
variable {N mk} {res : Nat → E} {stod : Str → Option ℝ} {round : ℝ → Int} {wenv : Whole.Env} {rnd : ℝ → ℝ} {engines : Nat → E}
  {srv : Server ℝ} {t : Table} {w : Config.World ℝ} {p : Config.GmappingParams ℝ} {n : Nat}

/-- The GMapping node runs the program that the bag runner runs, if its launch file means what the properties file says. -/
theorem node_seeded_gmapping (h : Config.SameMeaning stod srv t) (hs : SameSkip srv t) :
    nodeSeededGmapping N wenv rnd engines (.ofServer round stod srv) (setupOf round (.ofServer round stod srv) srv).skipExceeding =
      launchSeededGmapping N stod wenv rnd engines t := by
  obtain ⟨-, -, h3⟩ := Config.launch_assembles round 0 0 h
  rw [Online.same_skip hs]
  unfold nodeSeededGmapping launchSeededGmapping
  rw [h3]
  congr 1

/-- **The GMapping node with its generators handles every scan (C105)**: as `Online.online_gmapping_total`, but nothing is assumed of the
random numbers, except that the generators are not stuck. -/
theorem online_seeded_gmapping_total {P : GSeededProgram E} (hsame : Config.SameMeaning stod srv t) (hskip : SameSkip srv t)
    (hP : launchSeededGmapping N stod wenv rnd engines t = some P) (hrnd : ∀ x, Cells.Unit01 x → Cells.Unit01 (rnd x))
    (hw : Config.initGmapping stod t = some (w, p, n)) (hsen : GSensible w n) (hlive : ∀ k, Lively N (engines k)) (V : Finset ℝ)
    (hV : ∀ x, Cells.Unit01 x → rnd x ∈ V) (h0 : rnd 0 = 0) (hfu : (V.card + 1) * 98 ≤ wenv.fuel) (B : Int)
    (hNok : ∀ v, |v| ≤ 6 * B → wenv.ok v = true) (hlf : 4 * B + 2 ≤ wenv.lineFuel) (hfull : -1 < P.start.own.matcher.pe.fullness)
    {R S : ℝ} (hR : 0 ≤ R) (hS : 0 ≤ S) :
    let setup := setupOf round (.ofServer round stod srv) srv
    mainLaunched true round stod (fun p skip => (nodeSeededGmapping N wenv rnd engines p skip).map (ofSeededGmapping N res)) srv =
        some ⟨ofSeededGmapping N res P, start (ofSeededGmapping N res P) true setup⟩ ∧
      ∀ ds : List Delivery,
        (⟨0, 0, 0⟩ :: (found setup.odomFrame ds).map fun q => planar q.2 : List (Poses.Pose ℝ)).IsChain
          (fun a b => |b.x - a.x| + |b.y - a.y| ≤ S) →
        (∀ q ∈ found setup.odomFrame ds, GoodMsg P.cfg.slam R q.1.msg.body) →
        (found setup.odomFrame ds).length *
            (S + (|p.meanXY| + 14 * |p.sigmaXY|) + n * growth R w.map.params.scale P.start.own.matcher.pe.window) + R ≤
          w.map.params.scale * (B - 1) →
        ∃ n, (start (ofSeededGmapping N res P) true setup).run ds = some n := by
  intro setup
  refine ⟨?_, fun ds hodo hmsg hN => ?_⟩
  · unfold mainLaunched
    simp only [node_seeded_gmapping hsame hskip, hP, Option.map_some]
    rfl
  · rw [Online.node_goes_on]
    obtain ⟨ss, h1, h2⟩ := seeded_gmapping_serves (res := res) hP hrnd hw hsen hlive V hV h0 hfu B hNok hlf hfull hR hS
      ((found setup.odomFrame ds).map fun q => (q.1.msg, planar q.2)) (by rw [List.map_map]; exact hodo) (by
        intro q hq
        obtain ⟨q', hq', rfl⟩ := List.mem_map.1 hq
        exact hmsg q' hq') (by rw [List.length_map]; exact hN)
    exact ⟨ss, h1, fun s hs => h2 s (List.mem_cons_of_mem _ hs)⟩

end

section
variable {N mk} {stod : Str → Option ℝ} {round : ℝ → Int} {rad : ℝ} {rnd : Nat} {wenv : Whole.Env} {srv : Server ℝ}
  {w : Config.World ℝ} {oope : Config.Oope} {oie : Config.Oie} {b R S : ℝ}

/-- The node with a SLAM assembled with its generator. -/
theorem seeded_node_total (hsen : Sensible w) (ho : w.matcher.spe.oope = .std oope oie)
    (hi : Whole.Fits (cellKind w.map.cell) (impactOf oie)) (hf : 0 < wenv.cellFuel) (hm : SeededReach N mk b w.matcher.algo)
    (hk : Climbs w.matcher.algo → w.map.cell ≠ .gmapping)
    (M : Int) (hMok : ∀ v, |v| ≤ 6 * M → wenv.ok v = true) (hl : 4 * M + 2 ≤ wenv.lineFuel) (hR : 0 ≤ R) (hS : 0 ≤ S)
    (setup : Online.Setup) (stamped : Bool) (ds : List Delivery)
    (hodo : Strides S ⟨0, 0, 0⟩ ((found setup.odomFrame ds).map fun p => datum (p.1.msg, planar p.2)))
    (hmsg : ∀ p ∈ found setup.odomFrame ds, Ready setup.skipExceeding wenv.tol w.margin R p.1.msg.body)
    (hN : (found setup.odomFrame ds).length * spread S (b + driftReach w.matcher.drift) R w.map.params.scale ≤
      w.map.params.scale * (M - 1)) :
    ∃ F, ∀ f, F ≤ f → ∃ P, assembleSeeded N mk (limited wenv f) setup.skipExceeding w = some P ∧
      ∃ n, (start (ofProgram P) stamped setup).run ds = some n := by
  obtain ⟨F, T, cfg, s0, ss, h1, h2, -⟩ := seeded_slam_total hsen ho hi hf hm hk M hMok hl hR hS
    ((found setup.odomFrame ds).map fun p => datum (p.1.msg, planar p.2)) hodo (by
      intro d hd
      obtain ⟨p, hp, rfl⟩ := List.mem_map.1 hd
      exact hmsg p hp) (by rw [List.length_map]; exact hN)
  refine ⟨F, fun f hF => ⟨_, h1 f, ?_⟩⟩
  rw [Online.node_goes_on]
  refine ⟨ss, Online.serves_of_visits (i := impactOf oie) (start := s0)
    ((found setup.odomFrame ds).map fun p => (p.1.msg, planar p.2)) s0 ss ?_, fun s _ => ⟨⟨_, rfl⟩, _, rfl⟩⟩
  rw [List.map_map]
  exact h2 f hF

/-- **The single-hypothesis node with its generator handles every scan (C105)**, as `Online.online_roam_total`; nothing is assumed of
the shifts of the Monte Carlo matcher. -/
theorem online_seeded_total {G : Config.Files} {depth : Nat} {names : Table → List Str} {srv0 : Server ℝ}
    (hsrv : Config.nodeInit G depth names srv0 = some srv) (hw : Provider.init1h rad rnd (.ofServer round stod srv) = some w)
    (hsen : Sensible w) (ho : w.matcher.spe.oope = .std oope oie)
    (hi : Whole.Fits (cellKind w.map.cell) (impactOf oie)) (hf : 0 < wenv.cellFuel) (hm : SeededReach N mk b w.matcher.algo)
    (hk : Climbs w.matcher.algo → w.map.cell ≠ .gmapping)
    (M : Int) (hMok : ∀ v, |v| ≤ 6 * M → wenv.ok v = true) (hl : 4 * M + 2 ≤ wenv.lineFuel) (hR : 0 ≤ R) (hS : 0 ≤ S)
    (ds : List Delivery) :
    let setup := setupOf round (.ofServer round stod srv) srv
    Strides S ⟨0, 0, 0⟩ ((found setup.odomFrame ds).map fun p => datum (p.1.msg, planar p.2)) →
    (∀ p ∈ found setup.odomFrame ds, Ready setup.skipExceeding wenv.tol w.margin R p.1.msg.body) →
    (found setup.odomFrame ds).length * spread S (b + driftReach w.matcher.drift) R w.map.params.scale ≤ w.map.params.scale * (M - 1) →
    ∃ F, ∀ f, F ≤ f → ∃ (G' : Runner.Engine) (n0 n : Node G'),
      mainOneHypothesis G depth names round stod (fun p skip => (nodeSeeded N mk rad rnd (limited wenv f) p skip).map ofProgram) srv0 =
        some ⟨G', n0⟩ ∧ n0.run ds = some n := by
  intro setup h1 h2 h3
  obtain ⟨F, hF⟩ := seeded_node_total hsen ho hi hf hm hk M hMok hl hR hS setup false ds h1 h2 h3
  refine ⟨F, fun f hle => ?_⟩
  obtain ⟨P, e1, n, e2⟩ := hF f hle
  refine ⟨ofProgram P, start (ofProgram P) false setup, n, ?_, e2⟩
  unfold mainOneHypothesis
  rw [hsrv, Option.bind_some]
  have e : nodeSeeded N mk rad rnd (limited wenv f) (.ofServer round stod srv) setup.skipExceeding = some P := by
    rw [← e1]
    unfold nodeSeeded
    rw [hw]
    rfl
  simp only
  rw [e]
  rfl

/-- **The credibilist node with its generator handles every scan (C105)**, as `Online.online_credibilist_total`. -/
theorem online_seeded_credibilist_total (hw : Provider.initCredibilist rad rnd (.ofServer round stod srv) = some w)
    (hsen : Sensible w) (ho : w.matcher.spe.oope = .std oope oie)
    (hi : Whole.Fits (cellKind w.map.cell) (impactOf oie)) (hf : 0 < wenv.cellFuel) (hm : SeededReach N mk b w.matcher.algo)
    (M : Int) (hMok : ∀ v, |v| ≤ 6 * M → wenv.ok v = true) (hl : 4 * M + 2 ≤ wenv.lineFuel) (hR : 0 ≤ R) (hS : 0 ≤ S)
    (ds : List Delivery) :
    let setup := setupOf round (.ofServer round stod srv) srv
    Strides S ⟨0, 0, 0⟩ ((found setup.odomFrame ds).map fun p => datum (p.1.msg, planar p.2)) →
    (∀ p ∈ found setup.odomFrame ds, Ready setup.skipExceeding wenv.tol w.margin R p.1.msg.body) →
    (found setup.odomFrame ds).length * spread S (b + driftReach w.matcher.drift) R w.map.params.scale ≤ w.map.params.scale * (M - 1) →
    ∃ F, ∀ f, F ≤ f → ∃ (G' : Runner.Engine) (n0 n : Node G'),
      mainLaunched false round stod (fun p skip => (nodeSeededCredibilist N mk rad rnd (limited wenv f) p skip).map ofProgram) srv =
        some ⟨G', n0⟩ ∧ n0.run ds = some n := by
  intro setup h1 h2 h3
  have hk : Climbs w.matcher.algo → w.map.cell ≠ .gmapping := by
    intro _
    rw [Online.credibilist_cell hw]
    intro e
    cases e
  obtain ⟨F, hF⟩ := seeded_node_total hsen ho hi hf hm hk M hMok hl hR hS setup false ds h1 h2 h3
  refine ⟨F, fun f hle => ?_⟩
  obtain ⟨P, e1, n, e2⟩ := hF f hle
  refine ⟨ofProgram P, start (ofProgram P) false setup, n, ?_, e2⟩
  unfold mainLaunched
  have e : nodeSeededCredibilist N mk rad rnd (limited wenv f) (.ofServer round stod srv) setup.skipExceeding = some P := by
    rw [← e1]
    unfold nodeSeededCredibilist
    rw [hw]
    rfl
  simp only
  rw [e]
  rfl

end

end Slam.Random
