import Verif.Runner.Multires
import Verif.Online.Slams

/-!
# C104: the online nodes with the multi-resolution matcher
-/

set_option autoImplicit false
set_option linter.unusedSectionVars false

namespace Slam.Online
open Slam.Config (Str Table Server Provider)
open Slam.Pub (Tr)
open Slam.Runner (Engine LaserMsg Serves Chooser ofMultires)
open Slam.Grid (Coord)
open Slam.Multires (MMap)
open Slam.Whole

variable {G H : Type}

/-! ## Model -/

/-- `init_credibilist_slam` (src/slams/credibilist/init_slam.h:13-24) or `init_1h_slam` (src/utils/init_slam.h:12-24). -/
noncomputable def nodeAssemble (cred : Bool) (rad : ℝ) (rnd : Nat) (p : Provider ℝ) : Option (Config.World ℝ) :=
  if cred then Provider.initCredibilist rad rnd p else Provider.init1h rad rnd p

/-- The SLAM of a node with the multi-resolution matcher, and the observer of scans with its flag (single_hypoth_slam_node.cpp:38,58-59;
credibilist/slam.cpp:23,42-45). -/
noncomputable def nodeMultires (cred : Bool) (rad : ℝ) (rnd : Nat) (menv : MrEnv G) (p : Provider ℝ) (skip : Bool) : Option (MrProgram G) :=
  (nodeAssemble cred rad rnd p).bind (mrOf menv skip)

/-- How a node makes its SLAM; `K` is the way the program chooses among equal matches. -/
noncomputable def makeMultires (cred : Bool) (rad : ℝ) (rnd : Nat) (menv : MrEnv G) (extent : G → Int × Int × Coord)
    (K : (P : MrProgram G) → Chooser P H) (p : Provider ℝ) (skip : Bool) : Option Engine :=
  (nodeMultires cred rad rnd menv p skip).map fun P => ofMultires extent P (K P)

/-! ## Proofs -/

section
variable {stod : Str → Option ℝ} {round : ℝ → Int} {cred : Bool} {rad : ℝ} {rnd : Nat} {menv : MrEnv G} {extent : G → Int × Int × Coord}
  {K : (P : MrProgram G) → Chooser P H} {asserts : Prop} {srv : Server ℝ} {t : Table} {w : Config.World ℝ} {oie : Config.Oie}
  {x y rot ang trl : ℝ} {P : MrProgram G}

/-- If a launch file means what a properties file says, then a node runs the program of the file. -/
theorem node_multires (h : Config.SameMeaning stod srv t) (hs : SameSkip srv t) :
    nodeMultires cred rad rnd menv (.ofServer round stod srv) (setupOf round (.ofServer round stod srv) srv).skipExceeding =
      launchMr cred stod rad rnd menv t := by
  obtain ⟨h1, h2, -⟩ := Config.launch_assembles round rad rnd h
  rw [same_skip hs]
  unfold nodeMultires launchMr nodeAssemble assemble
  rw [h1, h2]

/-- A node with the multi-resolution matcher goes on over all deliveries. -/
theorem multires_goes_on (hw : assemble cred stod rad rnd t = some w) (h : SensibleMr menv w oie x y rot ang trl)
    (hP : launchMr cred stod rad rnd menv t = some P) (hK : (K P).Faithful asserts)
    (hno : asserts → ∀ ds s, Mr.Runs P.cfg P.start ds s → ∀ scan p, ¬ P.cfg.Fails s.weights scan p s.st.map)
    (N : Int) (hNok : ∀ v, |v| ≤ 6 * N → menv.base.ok v = true) (hl : 4 * N + 2 ≤ menv.base.lineFuel) {R B : ℝ} (hR : 0 ≤ R)
    (stamped : Bool) (setup : Setup) (ds : List Delivery)
    (hds : ∀ p ∈ found setup.odomFrame ds, |p.2.origin 0| ≤ B ∧ |p.2.origin 1| ≤ B ∧ GoodMsg P.cfg.slam R p.1.msg.body ∧
      Looks P.cfg p.1.msg.body)
    (hN : (found setup.odomFrame ds).length * max x y + B + R ≤ w.map.params.scale * (N - 1)) :
    ∃ n, (start (ofMultires extent P (K P)) stamped setup).run ds = some n := by
  rw [node_goes_on]
  obtain ⟨ss, h1⟩ := Runner.multires_serves (extent := extent) hw h hP hK hno N hNok hl hR
    ((found setup.odomFrame ds).map fun p => (p.1.msg, planar p.2)) (by
      intro q hq
      obtain ⟨p, hp, rfl⟩ := List.mem_map.1 hq
      exact ⟨(hds p hp).1, (hds p hp).2.1⟩) (by
      intro q hq
      obtain ⟨p, hp, rfl⟩ := List.mem_map.1 hq
      exact (hds p hp).2.2) (by rw [List.length_map]; exact hN)
  exact ⟨ss, h1, fun s _ => ⟨⟨_, rfl⟩, _, rfl⟩⟩

/-- **The single-hypothesis node with the multi-resolution matcher handles every scan (C104)**: `main` comes to its loop with the program
of the file `t` that the launch file, with the properties file it names, is equal to in meaning; then it goes on over all deliveries, under
the conditions of `runner_multires_total`, whichever of the possible answers the matcher gives. -/
theorem online_multires_total {F : Config.Files} {fuel : Nat} {names : Table → List Str} {srv0 : Server ℝ}
    (hsrv : Config.nodeInit F fuel names srv0 = some srv) (hsame : Config.SameMeaning stod srv t) (hskip : SameSkip srv t)
    (hw : assemble false stod rad rnd t = some w) (h : SensibleMr menv w oie x y rot ang trl)
    (hK : ∀ P, launchMr false stod rad rnd menv t = some P → (K P).Faithful asserts)
    (hno : asserts → ∀ P, launchMr false stod rad rnd menv t = some P → ∀ ds s, Mr.Runs P.cfg P.start ds s → ∀ scan p,
      ¬ P.cfg.Fails s.weights scan p s.st.map)
    (N : Int) (hNok : ∀ v, |v| ≤ 6 * N → menv.base.ok v = true) (hl : 4 * N + 2 ≤ menv.base.lineFuel) (R B : ℝ) (hR : 0 ≤ R) :
    let setup := setupOf round (.ofServer round stod srv) srv
    ∃ P, mainOneHypothesis F fuel names round stod (makeMultires false rad rnd menv extent K) srv0 =
        some ⟨ofMultires extent P (K P), start (ofMultires extent P (K P)) false setup⟩ ∧
      launchMr false stod rad rnd menv t = some P ∧
      ∀ ds : List Delivery, (∀ p ∈ found setup.odomFrame ds, |p.2.origin 0| ≤ B ∧ |p.2.origin 1| ≤ B ∧ GoodMsg P.cfg.slam R p.1.msg.body ∧
          Looks P.cfg p.1.msg.body) →
        (found setup.odomFrame ds).length * max x y + B + R ≤ w.map.params.scale * (N - 1) →
        ∃ n, (start (ofMultires extent P (K P)) false setup).run ds = some n := by
  intro setup
  obtain ⟨P, hP, -⟩ := launched_mr_starts hw h
  refine ⟨P, ?_, hP, fun ds hds hN => multires_goes_on hw h hP (hK P hP) (fun a => hno a P hP) N hNok hl hR false setup ds hds hN⟩
  unfold mainOneHypothesis makeMultires
  rw [hsrv, Option.bind_some]
  simp only [node_multires (round := round) (cred := false) (rad := rad) (rnd := rnd) (menv := menv) hsame hskip, hP, Option.map_some]
  rfl

/-- **The credibilist node with the multi-resolution matcher handles every scan, with assertions on (C104)**: the window is up to a quarter
of the map's extent, and the map has at most 2^101 by 2^101 cells; the rest as in `online_multires_total`. -/
theorem online_credibilist_multires_total (hsame : Config.SameMeaning stod srv t) (hskip : SameSkip srv t)
    (hw : assemble true stod rad rnd t = some w) (h : SensibleMr menv w .discrepancy x y rot ang trl)
    (hx : 4 * x ≤ w.map.params.scale * max w.map.params.width w.map.params.height)
    (hy : 4 * y ≤ w.map.params.scale * max w.map.params.width w.map.params.height)
    (hsz : w.map.params.width ≤ 2 ^ 101 ∧ w.map.params.height ≤ 2 ^ 101)
    (hK : ∀ P, launchMr true stod rad rnd menv t = some P → (K P).Faithful asserts)
    (N : Int) (hNok : ∀ v, |v| ≤ 6 * N → menv.base.ok v = true) (hl : 4 * N + 2 ≤ menv.base.lineFuel) (R B : ℝ) (hR : 0 ≤ R) :
    let setup := setupOf round (.ofServer round stod srv) srv
    ∃ P, mainLaunched false round stod (makeMultires true rad rnd menv extent K) srv =
        some ⟨ofMultires extent P (K P), start (ofMultires extent P (K P)) false setup⟩ ∧
      launchMr true stod rad rnd menv t = some P ∧ P.kind = .tbm .credibilist ∧
      ∀ ds : List Delivery, (∀ p ∈ found setup.odomFrame ds, |p.2.origin 0| ≤ B ∧ |p.2.origin 1| ≤ B ∧ GoodMsg P.cfg.slam R p.1.msg.body ∧
          Looks P.cfg p.1.msg.body) →
        (found setup.odomFrame ds).length * max x y + B + R ≤ w.map.params.scale * (N - 1) →
        ∃ n, (start (ofMultires extent P (K P)) false setup).run ds = some n := by
  intro setup
  obtain ⟨P, hP, hc⟩ := launched_mr_starts hw h
  have hcell : w.map.cell = .credibilist := by
    have hw' : Config.initCredibilist stod rad rnd t = some w := by
      unfold assemble at hw
      rw [if_pos rfl] at hw
      exact hw
    exact ((Config.credibilist_as_configured stod rad rnd t w).1 hw').2.2.2.1
  refine ⟨P, ?_, hP, hc.cell.2.2.2.2 hcell, fun ds hds hN => multires_goes_on hw h hP (hK P hP)
    (fun _ ds s hr scan p => launched_mr_never_fails hw h hx hy hsz hP hr scan p) N hNok hl hR false setup ds hds hN⟩
  unfold mainLaunched makeMultires
  simp only [node_multires (round := round) (cred := true) (rad := rad) (rnd := rnd) (menv := menv) hsame hskip, hP, Option.map_some]
  rfl

/-- **Every value of a map that is sent is a percentage (C104)**, and the map has the configured scale and the extent it has grown to. -/
theorem online_multires_grids (hw : assemble cred stod rad rnd t = some w) (h : SensibleMr menv w oie x y rot ang trl)
    (hP : launchMr cred stod rad rnd menv t = some P) (hK : (K P).Faithful asserts) {setup : Setup} {stamped : Bool} {ds : List Delivery}
    {n : Node (ofMultires extent P (K P))} (hr : (start (ofMultires extent P (K P)) stamped setup).run ds = some n)
    {m : Dump.GridMsg ℝ} (hm : m ∈ gridsOf n.sent) :
    m.resolution = w.map.params.scale ∧ ∀ v ∈ m.data, 0 ≤ v ∧ v ≤ 100 := by
  obtain ⟨rows, hrow, -, hs⟩ := node_run hr
  rw [hs] at hm
  obtain ⟨o, ho1, ho2⟩ := List.mem_filterMap.1 hm
  cases o with
  | transform => cases ho2
  | grid f l m' =>
    simp only [Option.some.injEq] at ho2
    subst ho2
    obtain ⟨r, hr1, hr2⟩ := List.mem_flatMap.1 ho1
    obtain ⟨-, -, view, hv, rfl⟩ := maps_are_current hrow hr1 hr2
    obtain ⟨h1, -, h2⟩ := Runner.runner_multires_probabilities hw h hP hK hrow.served (List.mem_cons_of_mem _ (List.mem_map_of_mem hr1)) hv
    refine ⟨h1, fun v hv => ?_⟩
    simp only [Dump.gridMsg, List.mem_flatMap, List.mem_map] at hv
    obtain ⟨b, -, a, -, rfl⟩ := hv
    obtain ⟨a1, a2, -⟩ := (Dump.cellValue_spec (view.occ ⟨a, b⟩)).2 (h2 _).1 (h2 _).2
    exact ⟨a1, a2⟩

end

end Slam.Online
