import Verif.Config.ProviderShipped
import Verif.Online.Props
import Verif.Runner.Slams

/-!
# The online nodes with the configured SLAM (C99)

The programs of the topics Whole and Runner put into the nodes.
-/

set_option autoImplicit false
set_option linter.unusedSectionVars false

namespace Slam.Online
open Slam.Config (Str Table Server Provider)
open Slam.Pub (Tr)
open Slam.Runner (Engine LaserMsg Serves ofProgram ofFixed ofGmapping Chance)
open Slam.Whole

/-! ## Model -/

/-- `init_1h_slam` (src/utils/init_slam.h:12-24) for a growing map, and the observer of scans with its flag
(single_hypoth_slam_node.cpp:38,58-59). -/
noncomputable def nodeProgram (rad : ℝ) (rnd : Nat) (wenv : Whole.Env) (sample : Int → Nat → ℝ → ℝ → Poses.Delta ℝ) (p : Provider ℝ)
    (skip : Bool) : Option MProgram :=
  (Provider.init1h rad rnd p).bind fun w =>
    match w.matcher.spe.oope with
    | .std oope oie => anyOf wenv skip w oope oie sample
    | _ => none

/-- `init_gmapping` (src/slams/gmapping/init_gmapping.h), and the observer of scans (gmapping.cpp:22,45-46). -/
noncomputable def nodeGmapping (wenv : Whole.Env) (rnd : ℝ → ℝ) (draws : Config.GmappingParams ℝ → Nat → Poses.Delta ℝ) (p : Provider ℝ)
    (skip : Bool) : Option GProgram :=
  (Provider.initGmapping p).bind fun r =>
    match r.1.matcher.algo, r.1.matcher.spe.oope with
    | .hillClimbing failed transl rot _, .gmapping fullness window =>
      (gMapOf wenv.rate r.1.map.params).bind fun m =>
        (gStart ((List.range r.2.2).map (draws r.2.1)) m (histOf r.1.adder)).map fun st =>
          ⟨gConfigured wenv skip rnd r.1 failed transl rot, st, GMatch.create (spwOf r.1.matcher.spe.spw) fullness window transl rot⟩
    | _, _ => none

/-! ## Specification -/

/-- The flag for measurements beyond the sensor's range is the same in a launch file and in a properties file. -/
def SameSkip (srv : Server ℝ) (t : Table) : Prop :=
  Config.SameText srv t "in/lscan2D/skip_exceeding_vals".toList ∨
    ∃ b v, srv "in/lscan2D/skip_exceeding_vals".toList = some (.bool b) ∧ t "in/lscan2D/skip_exceeding_vals".toList = some v ∧
      (b = false ↔ v = "false".toList ∨ v = "0".toList)

/-- The identity. -/
def Tr.one : Tr := ⟨1, 0⟩

/-! ## Proofs -/

section
variable {stod : Str → Option ℝ} {round : ℝ → Int} {rad : ℝ} {rnd : Nat} {wenv : Whole.Env} {sample : Int → Nat → ℝ → ℝ → Poses.Delta ℝ}
  {srv : Server ℝ} {t : Table} {w : Config.World ℝ} {oope : Config.Oope} {oie : Config.Oie}

theorem same_skip (h : SameSkip srv t) : (setupOf round (.ofServer round stod srv) srv).skipExceeding = skipExceeding t := by
  show Config.launchBool srv _ false = Config.getBool t _ false
  rcases h with h | ⟨b, v, h1, h2, h3⟩
  · exact (Config.launch_agrees_with_file round stod srv t _ h).2.2.2 false
  · rw [((Config.launch_typed round stod srv _).2.2.1 b false h1), Config.getBool, h2]
    cases b with
    | false =>
      have := h3.1 rfl
      show false = _
      rcases this with rfl | rfl <;> rfl
    | true =>
      have : ¬ (v = "false".toList ∨ v = "0".toList) := fun e => by simpa using h3.2 e
      rw [not_or] at this
      show true = !(decide (v = "false".toList) || decide (v = "0".toList))
      rw [decide_eq_false this.1, decide_eq_false this.2]
      rfl

/-- **The node runs the SLAM of the file (C99)**: if a launch file means what a properties file says, then the single-hypothesis node
and the GMapping node run the program that the bag runner runs with that file. -/
theorem node_programs (h : Config.SameMeaning stod srv t) (hs : SameSkip srv t) (rnd' : ℝ → ℝ)
    (draws : Config.GmappingParams ℝ → Nat → Poses.Delta ℝ) :
    nodeProgram rad rnd wenv sample (.ofServer round stod srv) (setupOf round (.ofServer round stod srv) srv).skipExceeding =
      launchAny stod rad rnd wenv sample t ∧
    nodeGmapping wenv rnd' draws (.ofServer round stod srv) (setupOf round (.ofServer round stod srv) srv).skipExceeding =
      launchGmapping stod wenv rnd' draws t := by
  obtain ⟨h1, -, h3⟩ := Config.launch_assembles round rad rnd h
  rw [same_skip hs]
  constructor
  · unfold nodeProgram launchAny
    rw [h1]
    congr 1
  · unfold nodeGmapping launchGmapping
    rw [h3]
    congr 1

/-- **The single-hypothesis node handles every scan (C99)**: the properties of the node, from the launch file and from the file it
names, give the SLAM that the file `t` gives (`node_programs`); then, with the conditions of `launched_any_total` on the configuration, the odometry found is
within `B`, the scans whose transform is found are well-formed with ranges up to `R`, and the area reached stays within the integers the
traversal copes with. Then `main` comes to its loop, and the node goes on over all deliveries. -/
theorem online_single_total {F : Config.Files} {fuel : Nat} {names : Table → List Str} {srv0 : Server ℝ}
    (hsrv : Config.nodeInit F fuel names srv0 = some srv) (hsame : Provider.init1h rad rnd (.ofServer round stod srv) = Config.init1h stod rad rnd t)
    (hskip : (setupOf round (.ofServer round stod srv) srv).skipExceeding = skipExceeding t)
    (hw : Config.init1h stod rad rnd t = some w) (hsen : Sensible w)
    (ho : w.matcher.spe.oope = .std oope oie) (hi : Fits (cellKind w.map.cell) (impactOf oie)) (hf : 0 < wenv.cellFuel)
    (c : ℝ) (hc : 0 ≤ c)
    (ha : (w.matcher.algo = .idle ∧ c = 0) ∨ ∃ seed transl rot failed total b, w.matcher.algo = .monteCarlo seed transl rot failed total ∧
      wenv.fuel = total + 1 ∧ 0 ≤ b ∧ (∀ n x y, Matcher.WithinShift b (sample seed n x y)) ∧ c = total * b)
    (hF : 7 ≤ wenv.fuel) (N : Int) (hNok : ∀ v, |v| ≤ 6 * N → wenv.ok v = true) (hl : 4 * N + 2 ≤ wenv.lineFuel)
    (R B : ℝ) (hR : 0 ≤ R) :
    let setup := setupOf round (.ofServer round stod srv) srv
    ∃ P, mainOneHypothesis F fuel names round stod (fun p skip => (nodeProgram rad rnd wenv sample p skip).map ofProgram) srv0 =
        some ⟨ofProgram P, start (ofProgram P) false setup⟩ ∧ launchAny stod rad rnd wenv sample t = some P ∧
      ∀ ds : List Delivery, (∀ p ∈ found setup.odomFrame ds, |p.2.origin 0| ≤ B ∧ |p.2.origin 1| ≤ B ∧ GoodMsg P.cfg.slam R p.1.msg.body) →
        (found setup.odomFrame ds).length * (c + driftReach w.matcher.drift) + B + R ≤ w.map.params.scale * (N - 1) →
        ∃ n, (start (ofProgram P) false setup).run ds = some n := by
  intro setup
  obtain ⟨P, hP, -⟩ := launched_any_total hw hsen ho hi hf c hc ha hF N hNok hl R B hR
  refine ⟨P, ?_, hP, fun ds hds hN => ?_⟩
  · unfold mainOneHypothesis
    rw [hsrv, Option.bind_some]
    have e : nodeProgram rad rnd wenv sample (.ofServer round stod srv) (setupOf round (.ofServer round stod srv) srv).skipExceeding =
        launchAny stod rad rnd wenv sample t := by
      unfold nodeProgram launchAny
      rw [hsame, hskip]
      congr 1
    simp only [e, hP, Option.map_some]
    rfl
  · rw [node_goes_on]
    obtain ⟨ss, h⟩ := Runner.single_serves hP hw hsen ho hi hf c hc ha hF N hNok hl R B hR
      ((found setup.odomFrame ds).map fun p => (p.1.msg, planar p.2)) (by
        intro q hq
        obtain ⟨p, hp, rfl⟩ := List.mem_map.1 hq
        exact ⟨(hds p hp).1, (hds p hp).2.1⟩) (by
        intro q hq
        obtain ⟨p, hp, rfl⟩ := List.mem_map.1 hq
        exact (hds p hp).2.2) (by rw [List.length_map]; exact hN)
    exact ⟨ss, h, fun s _ => ⟨⟨_, rfl⟩, _, rfl⟩⟩

/-- The values of the maps that are sent, for a program whose cells show probabilities. -/
theorem grids_of_behaves {P : MProgram} {scale : ℝ} (hsc : P.cfg.slam.scale = scale)
    (hbeh : ∀ ds s1, P.start.run P.cfg ds = some s1 → ∀ c, ∃ cell, P.cfg.slam.api.read s1.st.map c = some cell ∧
      (∀ v, P.kind.value cell = some v → Cells.Unit01 v ∨ (P.kind = .gmapping ∧ v = -1 ∧ P.kind.unknown cell = true)) ∧
      (P.kind.value cell = none → P.kind = .tbm .consistent ∧ P.kind.unknown cell = false)) (hk : P.kind ≠ .tbm .consistent)
    {setup : Setup} {stamped : Bool} {ds : List Delivery} {n : Node (ofProgram P)} (h : (start (ofProgram P) stamped setup).run ds = some n)
    {m : Dump.GridMsg ℝ} (hm : m ∈ gridsOf n.sent) :
    m.resolution = scale ∧ ∀ v ∈ m.data, (0 ≤ v ∧ v ≤ 100) ∨ (P.kind = .gmapping ∧ v = -1) := by
  obtain ⟨rows, hr, -, hs⟩ := node_run h
  rw [hs] at hm
  obtain ⟨o, ho1, ho2⟩ := List.mem_filterMap.1 hm
  cases o with
  | transform => cases ho2
  | grid f l m' =>
    simp only [Option.some.injEq] at ho2
    subst ho2
    obtain ⟨r, hr1, hr2⟩ := List.mem_flatMap.1 ho1
    obtain ⟨-, -, view, hv, rfl⟩ := maps_are_current hr hr1 hr2
    obtain ⟨l', -, hrun⟩ := Runner.serves_prefix (P := ofProgram P) (run := fun s l => Mach.run P.cfg s (l.map Runner.datum))
      (fun _ => rfl) (fun _ _ _ => rfl) hr.served r.s (List.mem_cons_of_mem _ (List.mem_map_of_mem hr1))
    cases hv
    refine ⟨hsc, fun v hv => ?_⟩
    simp only [Dump.gridMsg, List.mem_flatMap, List.mem_map] at hv
    obtain ⟨y, -, x, -, rfl⟩ := hv
    obtain ⟨cell, h1, h2, h3⟩ := hbeh _ _ hrun ⟨x, y⟩
    have e : (Runner.viewOf P r.s.st.map).occ ⟨x, y⟩ = (P.kind.value cell).getD 1 := by
      simp only [Runner.viewOf, MapApi.shown]
      rw [h1]
      rfl
    show (0 ≤ Dump.cellValue ((Runner.viewOf P r.s.st.map).occ ⟨x, y⟩) ∧ _) ∨ _ ∧ Dump.cellValue ((Runner.viewOf P r.s.st.map).occ ⟨x, y⟩) = -1
    rw [e]
    cases hc : P.kind.value cell with
    | none => exact absurd (h3 hc).1 hk
    | some v =>
      rw [Option.getD_some]
      rcases h2 v hc with hu | ⟨g1, rfl, -⟩
      · obtain ⟨a1, a2, -⟩ := (Dump.cellValue_spec v).2 hu.1 hu.2
        exact .inl ⟨a1, a2⟩
      · exact .inr ⟨g1, (Dump.cellValue_spec (-1)).1 rfl⟩

/-- **Every value of a map that is sent is a percentage (C99)**, or the `-1` of a cell that was never observed: for every
configuration, unless its cells are of consistent beliefs; and the map has the configured scale. -/
theorem online_single_grids {P : MProgram} (hw : Config.init1h stod rad rnd t = some w) (hsen : Sensible w)
    (ho : w.matcher.spe.oope = .std oope oie) (hi : Fits (cellKind w.map.cell) (impactOf oie)) (hf : 0 < wenv.cellFuel)
    (hP : launchAny stod rad rnd wenv sample t = some P) (hk : P.kind ≠ .tbm .consistent)
    {setup : Setup} {stamped : Bool} {ds : List Delivery} {n : Node (ofProgram P)} (h : (start (ofProgram P) stamped setup).run ds = some n)
    {m : Dump.GridMsg ℝ} (hm : m ∈ gridsOf n.sent) :
    m.resolution = w.map.params.scale ∧ ∀ v ∈ m.data, (0 ≤ v ∧ v ≤ 100) ∨ (P.kind = .gmapping ∧ v = -1) := by
  obtain ⟨hconf, hbeh⟩ := launched_any_behaves hw hsen ho hi hf hP
  exact grids_of_behaves hconf.scale hbeh hk h hm

/-- The yaw of a rotation in the plane. -/
theorem yaw_getYaw (θ : ℝ) (o : Fin 3 → ℝ) : Pub.yaw (getYaw ⟨Pub.yaw θ, o⟩) = Pub.yaw θ := by
  have h0 : (Pub.yaw θ) 2 0 = 0 := by simp [Pub.yaw]
  have e : getYaw ⟨Pub.yaw θ, o⟩ = Complex.arg ⟨Real.cos θ, Real.sin θ⟩ := by
    unfold getYaw
    simp only [h0, abs_zero, Real.arcsin_zero, neg_zero, Real.cos_zero, div_one]
    rw [if_neg (by norm_num)]
    simp [Pub.yaw]
  have hz : (⟨Real.cos θ, Real.sin θ⟩ : ℂ) = Complex.exp (θ * Complex.I) := by
    apply Complex.ext
    · rw [Complex.exp_ofReal_mul_I_re]
    · rw [Complex.exp_ofReal_mul_I_im]
  have hn : ‖(⟨Real.cos θ, Real.sin θ⟩ : ℂ)‖ = 1 := by rw [hz]; exact Complex.norm_exp_ofReal_mul_I θ
  have hne : (⟨Real.cos θ, Real.sin θ⟩ : ℂ) ≠ 0 := by
    intro e0
    rw [e0, norm_zero] at hn
    norm_num at hn
  have hcos : Real.cos (Complex.arg ⟨Real.cos θ, Real.sin θ⟩) = Real.cos θ := by
    rw [Complex.cos_arg hne, hn, div_one]
  have hsin : Real.sin (Complex.arg ⟨Real.cos θ, Real.sin θ⟩) = Real.sin θ := by
    rw [Complex.sin_arg, hn, div_one]
  rw [e]
  unfold Pub.yaw
  rw [hcos, hsin]

theorem one_of_mul {c a : Tr} (ha : a.IsRigid) (h : c.mul a = a) : c = Tr.one := by
  have hb : c.basis * a.basis = a.basis := congrArg Tr.basis h
  have ho : c.basis.mulVec a.origin + c.origin = a.origin := congrArg Tr.origin h
  have ha' : a.basis * a.basis.transpose = 1 := mul_eq_one_comm.1 ha
  have e1 : c.basis = 1 := by
    have := congrArg (· * a.basis.transpose) hb
    simp only [Matrix.mul_assoc, ha', Matrix.mul_one] at this
    exact this
  rw [e1, Matrix.one_mulVec] at ho
  have e2 : c.origin = 0 := by simpa using ho
  cases c
  simp only [Tr.one, Pub.Tr.mk.injEq]
  exact ⟨e1, e2⟩

/-- **Without a scan matcher there is nothing to correct (C99)**: if no matcher is configured, nor the drift detector, and the odometry
is horizontal, then every correction sent is the identity: the map frame is the odometry frame. -/
theorem online_odometry_only {P : MProgram} (hw : Config.init1h stod rad rnd t = some w) (hsen : Sensible w)
    (ho : w.matcher.spe.oope = .std oope oie) (hi : Fits (cellKind w.map.cell) (impactOf oie)) (hf : 0 < wenv.cellFuel)
    (hP : launchAny stod rad rnd wenv sample t = some P) (ha : w.matcher.algo = .idle) (hd : w.matcher.drift = false)
    {setup : Setup} {stamped : Bool} (hne : setup.robotFrame ≠ setup.odomFrame) {ds : List Delivery} {n : Node (ofProgram P)}
    (h : (start (ofProgram P) stamped setup).run ds = some n)
    (hflat : ∀ p ∈ found setup.odomFrame ds, ∃ x y z θ, p.2 = ⟨Pub.yaw θ, ![x, y, z]⟩) :
    (transformsTo setup.odomFrame n.sent).length = (found setup.odomFrame ds).length ∧
    ∀ c ∈ transformsTo setup.odomFrame n.sent, c.2 = Tr.one := by
  obtain ⟨rows, hr, -, hs⟩ := node_run h
  have hrigid : ∀ p ∈ found setup.odomFrame ds, p.2.IsRigid := by
    intro p hp
    obtain ⟨x, y, z, θ, e⟩ := hflat p hp
    rw [e]
    exact Pub.yaw_rigid θ
  have hposes := Runner.runner_odometry_only hw hsen ho hi hf hP ha hd hr.served
  have hcomp := corrections_compose hne hr hrigid
  rw [hs]
  have hp : ∀ r ∈ rows, ∀ pose, (ofProgram P).pose r.s = some pose → pose = planar r.t := by
    rw [List.map_map, List.map_map, List.map_map] at hposes
    intro r hr pose hpose
    have := List.map_inj_left.1 hposes r hr
    simp only [Function.comp_apply, hpose, Row.input, Option.some.injEq] at this
    exact this
  have hf' : ∀ r ∈ rows, ∃ x y z θ, r.t = ⟨Pub.yaw θ, ![x, y, z]⟩ := by
    intro r hm
    exact hflat (r.d, r.t) (by rw [← hr.all]; exact List.mem_map_of_mem hm)
  refine ⟨?_, fun c hc => ?_⟩
  · rw [← hcomp.length_eq, ← hr.all, List.length_map]
  · obtain ⟨r, hr1, -, pose, hr2, hr3⟩ : ∃ r ∈ rows, c.1 = r.d.clock.correction ∧ ∃ pose, (ofProgram P).pose r.s = some pose ∧
        c.2.mul r.t.flat = ⟨Pub.yaw pose.theta, ![pose.x, pose.y, 0]⟩ := by
      clear hp hf' hs hr hposes
      generalize transformsTo setup.odomFrame (rows.flatMap Row.out) = cs at hcomp hc
      induction hcomp with
      | nil => cases hc
      | cons h1 h2 ih =>
        rcases List.mem_cons.1 hc with rfl | hc
        · exact ⟨_, by simp, h1⟩
        · obtain ⟨r, g1, g2⟩ := ih hc
          exact ⟨r, by simp [g1], g2⟩
    obtain ⟨x, y, z, θ, e⟩ := hf' r hr1
    have e2 := hp r hr1 pose hr2
    refine one_of_mul (a := r.t.flat) (by rw [e]; exact Pub.yaw_rigid θ) (hr3.trans ?_)
    rw [e2, e]
    simp only [planar, Pub.Tr.flat, yaw_getYaw]
end

section
variable {stod : Str → Option ℝ} {round : ℝ → Int} {wenv : Whole.Env} {rnd : ℝ → ℝ} {draws : Config.GmappingParams ℝ → Nat → Poses.Delta ℝ}
  {srv : Server ℝ} {t : Table} {w : Config.World ℝ} {p : Config.GmappingParams ℝ} {k : Nat} {chance : Nat → Chance}

/-- **The GMapping node handles every scan (C99)**: its launch file means what the file `t` says; with the conditions of
`launched_gmapping_total` on the configuration and the random numbers, the odometry found moves by at most `S` between scans, the
scans whose transform is found are well-formed with ranges up to `R`, and the area reached stays within the integers the traversal
copes with. Then `main` comes to its loop, and the node goes on over all deliveries. -/
theorem online_gmapping_total {P : GProgram} (hsame : Config.SameMeaning stod srv t) (hskip : SameSkip srv t)
    (hP : launchGmapping stod wenv rnd draws t = some P) (hrnd : ∀ x, Cells.Unit01 x → Cells.Unit01 (rnd x))
    (hw : Config.initGmapping stod t = some (w, p, k)) (hsen : GSensible w k) (V : Finset ℝ) (hV : ∀ x, Cells.Unit01 x → rnd x ∈ V)
    (h0 : rnd 0 = 0) (hfu : (V.card + 1) * 98 ≤ wenv.fuel) (N : Int) (hNok : ∀ v, |v| ≤ 6 * N → wenv.ok v = true)
    (hlf : 4 * N + 2 ≤ wenv.lineFuel) (hfull : -1 < P.start.matcher.pe.fullness) {R G S : ℝ} (hR : 0 ≤ R) (hG : 0 ≤ G) (hS : 0 ≤ S)
    (hch : ∀ j, (chance j).samples.length = k ∧ (∀ s ∈ (chance j).samples, 0 ≤ s ∧ s < 1) ∧
      ∀ i, |((chance j).guess i).x| ≤ G ∧ |((chance j).guess i).y| ≤ G) :
    let setup := setupOf round (.ofServer round stod srv) srv
    mainLaunched true round stod (fun p skip => (nodeGmapping wenv rnd draws p skip).map (ofGmapping chance)) srv =
        some ⟨ofGmapping chance P, start (ofGmapping chance P) true setup⟩ ∧
      ∀ ds : List Delivery,
        (⟨0, 0, 0⟩ :: (found setup.odomFrame ds).map fun q => planar q.2 : List (Poses.Pose ℝ)).IsChain
          (fun a b => |b.x - a.x| + |b.y - a.y| ≤ S) →
        (∀ q ∈ found setup.odomFrame ds, GoodMsg P.cfg.slam R q.1.msg.body) →
        (found setup.odomFrame ds).length * (S + G + k * growth R w.map.params.scale P.start.matcher.pe.window) + R ≤
          w.map.params.scale * (N - 1) →
        ∃ n, (start (ofGmapping chance P) true setup).run ds = some n := by
  intro setup
  refine ⟨?_, fun ds hodo hmsg hN => ?_⟩
  · unfold mainLaunched
    simp only [(node_programs (round := round) (rad := 0) (rnd := 0) (wenv := wenv) (sample := fun _ _ _ _ => ⟨0, 0, 0⟩) hsame hskip rnd
      draws).2, hP, Option.map_some]
    rfl
  · rw [node_goes_on]
    obtain ⟨ss, h1, h2⟩ := Runner.gmapping_serves hP hrnd hw hsen V hV h0 hfu N hNok hlf hfull hR hG hS hch
      ((found setup.odomFrame ds).map fun q => (q.1.msg, planar q.2)) (by rw [List.map_map]; exact hodo) (by
        intro q hq
        obtain ⟨q', hq', rfl⟩ := List.mem_map.1 hq
        exact hmsg q' hq') (by rw [List.length_map]; exact hN)
    exact ⟨ss, h1, fun s hs => h2 s (List.mem_cons_of_mem _ hs)⟩
end

end Slam.Online
