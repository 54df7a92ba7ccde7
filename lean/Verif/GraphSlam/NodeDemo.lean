import Verif.Config.ProviderShipped
import Verif.GraphSlam.Demo
import Verif.GraphSlam.NodeProps

/-!
# C110: the node of the graph SLAM, with its launch file
-/

set_option autoImplicit false
set_option linter.unusedSectionVars false

namespace Slam.GraphSlam
open Slam.Config (Str Rows Provider SameMeaning stodDec)
open Slam.Pub (Tr)
open Slam.Online (Setup Delivery Stamp planar pubPose setupOf found)
open Slam.Sensor (ScanPoint)
open Slam.Score (Spw Hist)
open Slam.Worlds (Msg)
open Slam.Whole (Impact GoodMsg Env)
open Slam.Float (Nearest)
open Slam.Nodes (Pt AtPose)
open Matrix

variable {T : Type} {cfg : GraphCfg T} {setup : Setup}

/-- A transform that leads from a rigid one to one in the plane takes different points to different points. -/
theorem apply_inj {a b : Tr} {θ : ℝ} (h : a.basis * b.basis = Pub.yaw θ) (p q : Fin 3 → ℝ) (e : a.apply p = a.apply q) : p = q := by
  have hdet : (Pub.yaw θ).det = 1 := by
    have := Real.sin_sq_add_cos_sq θ
    simp [Pub.yaw, Matrix.det_fin_three]
    nlinarith
  have hu : IsUnit a.basis := by
    rw [Matrix.isUnit_iff_isUnit_det]
    have : a.basis.det * b.basis.det = 1 := by rw [← Matrix.det_mul, h, hdet]
    exact IsUnit.of_mul_eq_one _ this
  have e' : a.basis *ᵥ p = a.basis *ᵥ q := by
    have := congrArg (fun v => v - a.origin) e
    simpa [Tr.apply] using this
  exact Matrix.mulVec_injective_of_isUnit hu e'

/-- **Where a node is shown (C110)**: the points of the markers are poses of the robot in the frame of the map, but the markers say
`odom_combined`. If that is the odometry frame, the point of a node created with the scan `r`, taken to the frame of the map by the
correction sent with this scan, is where the robot is said to be exactly if the robot is where the odometry says. -/
theorem node_shown_at {start : GraphSt T} {ds : List Delivery} {rows : List GRow} (h : GRows cfg start setup ds rows)
    (hne : setup.robotFrame ≠ setup.odomFrame) {r : GRow} (hr : r ∈ rows) (ht : r.t.IsRigid) {st : Stamp} {f : Str} {corr robot : Tr}
    (hc : Out.transform st f setup.odomFrame corr ∈ r.out) {st' : Stamp} {f' : Str}
    (hrob : Out.transform st' f' setup.robotFrame robot ∈ r.out) {pt : Pt ℝ} (hpt : AtPose r.pose pt) :
    corr.apply ![pt.x, pt.y, pt.z] = robot.origin ↔ r.t.origin 0 = r.pose.x ∧ r.t.origin 1 = r.pose.y := by
  obtain ⟨pre, post, e⟩ := List.append_of_mem hr
  obtain ⟨corr', pts, h1, -, h2⟩ := h.sends pre r post e
  have ec : corr = corr' := by
    rw [h2] at hc
    by_cases hh : r.d.clock.checked.secs - lastShown pre < 3
    · rw [if_pos hh] at hc
      simp [hne.symm] at hc
      exact hc.2.2
    · rw [if_neg hh] at hc
      simp [hne.symm] at hc
      exact hc.2.2
  have er : robot = (pubPose r.pose).tr := by
    rw [h2] at hrob
    by_cases hh : r.d.clock.checked.secs - lastShown pre < 3
    · rw [if_pos hh] at hrob
      simp [hne] at hrob
      exact hrob.2.2
    · rw [if_neg hh] at hrob
      simp [hne] at hrob
      exact hrob.2.2
  subst ec er
  have h3 := h1 ht
  have hb : corr.basis * r.t.flat.basis = Pub.yaw r.pose.theta := congrArg Tr.basis h3
  have ho : corr.apply r.t.flat.origin = (pubPose r.pose).tr.origin := congrArg Tr.origin h3
  have ep : ![pt.x, pt.y, pt.z] = ![r.pose.x, r.pose.y, 0] := by rw [hpt.1, hpt.2.1, hpt.2.2]
  rw [ep, ← ho]
  constructor
  · intro h4
    have h5 := apply_inj hb _ _ h4
    have e0 := congrFun h5 0
    have e1 := congrFun h5 1
    simp [Tr.flat] at e0 e1
    exact ⟨e0.symm, e1.symm⟩
  · rintro ⟨e0, e1⟩
    simp only [Tr.flat, e0, e1]

/-- **The node handles every sequence of scans (C110)**, under the conditions of `graph_slam_total` on the scans whose transform is
found: however many there are, however far the robot gets, whatever the clocks say. -/
theorem graph_node_total {i : Impact} {b : ℝ} (hm : Suits cfg.machine i b) (hA : Whole.SoundFor cfg.adder (1 / 10))
    (hT : Whole.AlwaysTells cfg.adder (1 / 10)) (hok : ∀ v, |v| ≤ 2994 → cfg.ok v = true) (hf : 1998 ≤ cfg.fuel) {R D : ℝ} (hR : 0 ≤ R)
    (hD : D + R ≤ 498 / 10) (hbR : b + R ≤ 498 / 10) {hist : Option Hist} (hh : Whole.HistOk hist) {w : Spw} (hw : Matcher.Spw.Ok w) (t : T)
    (ds : List Delivery) (hg : ∀ p ∈ found setup.odomFrame ds, GoodMsg cfg.slam R p.1.msg.body)
    (hst : ∀ (j : Nat) p q, (found setup.odomFrame ds)[j]? = some p → (found setup.odomFrame ds)[j + 1]? = some q →
      |q.2.origin 0 - p.2.origin 0| ≤ D ∧ |q.2.origin 1 - p.2.origin 1| ≤ D) :
    ∃ n, (startNode setup (GraphSt.start hist w t)).run cfg ds = some n := by
  rw [graph_node_goes_on]
  obtain ⟨s, h, -⟩ := graph_slam_total hm hA hT hok hf hR hD hbR hh hw t
    ((found setup.odomFrame ds).map fun p => (planar p.2, p.1.msg.body))
    (by
      intro d hd
      obtain ⟨p, hp, rfl⟩ := List.mem_map.1 hd
      exact hg p hp)
    (by
      intro j a c ha hc
      rw [List.getElem?_map, Option.map_eq_some_iff] at ha hc
      obtain ⟨p, hp, rfl⟩ := ha
      obtain ⟨q, hq, rfl⟩ := hc
      exact hst j p q hp hq)
  exact ⟨s, h⟩

/-! ## The launch file -/

/-- The parameters of the node, launch/graph_demo_mit.launch:12-31; a `double` is the rounded value of the text. -/
noncomputable def graphRows (r : ℝ → ℝ) : Rows :=
  [("in/lscan2D/ros/topic/name", .str (chars% "/base_scan"), chars% "/base_scan"),
    ("in/odometry/ros/tf/odom_frame_id", .str (chars% "odom_combined"), chars% "odom_combined"),
    ("ros/skip_exceeding_lsr_vals", .bool false, chars% "false"),
    ("slam/scmtch/type", .str (chars% "HC"), chars% "HC"),
    ("slam/scmtch/HC/distortion/translation", .dbl (r (1 / 10)), chars% "0.1"),
    ("slam/scmtch/HC/distortion/rotation", .dbl (r (1 / 10)), chars% "0.1"),
    ("slam/scmtch/MC/dispersion/failed_attempts_limit", .int 6, chars% "6"),
    ("slam/scmtch/spe/type", .str (chars% "wmpp"), chars% "wmpp"),
    ("slam/scmtch/spe/wmpp/weighting/type", .str (chars% "even"), chars% "even")]

/-- Its texts. -/
def graphTexts : List (Str × Str) :=
  [(chars% "in/lscan2D/ros/topic/name", chars% "/base_scan"),
    (chars% "in/odometry/ros/tf/odom_frame_id", chars% "odom_combined"),
    (chars% "ros/skip_exceeding_lsr_vals", chars% "false"),
    (chars% "slam/scmtch/type", chars% "HC"),
    (chars% "slam/scmtch/HC/distortion/translation", chars% "0.1"),
    (chars% "slam/scmtch/HC/distortion/rotation", chars% "0.1"),
    (chars% "slam/scmtch/MC/dispersion/failed_attempts_limit", chars% "6"),
    (chars% "slam/scmtch/spe/type", chars% "wmpp"),
    (chars% "slam/scmtch/spe/wmpp/weighting/type", chars% "even")]

theorem graph_texts (r : ℝ → ℝ) : (graphRows r).table = Config.listed graphTexts := by
  rw [Rows.table_listed]
  simp only [graphRows, List.map_cons, List.map_nil]
  rw [show graphTexts = _ from rfl]
  congr 1

theorem graph_same {r : ℝ → ℝ} (R : Nearest r) : SameMeaning (stodDec r) (graphRows r).server (graphRows r).table := by
  have F := Config.fair_nearest R
  obtain ⟨m0, m1, m2, m3, m4, m5, m6, m7, m8, m9, m10, m11⟩ := F.numbers
  apply Config.same_of_rows
  · simp only [graphRows, List.forall_mem_cons]
    repeat' apply And.intro
    all_goals first
      | exact fun h => absurd h (by decide)
      | exact fun _ => ⟨rfl, by decide⟩
      | simp
  · simp only [graphRows, List.forall_mem_cons]
    repeat' apply And.intro
    all_goals first
      | exact fun h => absurd h (by decide)
      | exact fun _ => ⟨_, .inl rfl, by assumption⟩
      | simp
  · simp only [graphRows, List.forall_mem_cons]
    repeat' apply And.intro
    all_goals first
      | exact fun h => absurd h (by decide)
      | exact fun _ => ⟨6, by norm_num, rfl, by decide, by decide +kernel, by decide +kernel⟩
      | simp
  · simp only [graphRows, List.forall_mem_cons]
    repeat' apply And.intro
    all_goals first
      | decide
      | simp

/-- Specification: hill climbing with steps of 0.1, six failures allowed (the limit of six is the default: the launch file gives it for
another matcher), points scored evenly by the cell they hit. -/
noncomputable def graphMatcher (r : ℝ → ℝ) : Config.Matcher ℝ :=
  ⟨.hillClimbing 6 (r (1 / 10)) (r (1 / 10)) false, ⟨.std .obstacle .discrepancy, .even, 0, -1⟩, false⟩

/-- Specification: the default estimator of occupancy. -/
noncomputable def graphAdder : Config.Adder ℝ := ⟨false, 19 / 20, 1, 1 / 100, 1, false, 0, none⟩

theorem graph_parts {r : ℝ → ℝ} (R : Nearest r) (round : ℝ → Int) (rad : ℝ) (rnd : Nat) :
    Provider.initMatcher rad rnd (.ofServer round (stodDec r) (graphRows r).server) = some (graphMatcher r) ∧
    Provider.initAdder (.ofServer round (stodDec r) (graphRows r).server) = some graphAdder ∧
    Provider.gridParams (.ofServer round (stodDec r) (graphRows r).server) = some ⟨100, 100, 1 / 10⟩ := by
  have F := Config.fair_nearest R
  obtain ⟨m0, m1, m2, m3, m4, m5, m6, m7, m8, m9, m10, m11⟩ := F.numbers
  have ha := Config.alike_of_same round (graph_same R)
  refine ⟨?_, ?_, ?_⟩
  · rw [Config.matcher_alike ha, graph_texts]
    refine (Config.initMatcher_iff (stodDec r) rad rnd (Config.listed graphTexts) (graphMatcher r)).2 ?_
    exact ⟨⟨.obstacle, .discrepancy, rfl, ⟨("discrepancy", .discrepancy), by simp, Or.inl ⟨by decide +kernel, rfl⟩, rfl⟩,
        ("obstacle", .obstacle), by simp, Or.inl ⟨by decide +kernel, rfl⟩, rfl⟩,
      ⟨Or.inr (by decide +kernel), ⟨("even", .even), by simp, Or.inr (by decide +kernel), rfl⟩, Or.inl ⟨by decide +kernel, rfl⟩,
        Or.inl ⟨by decide +kernel, rfl⟩⟩,
      .hillClimbing _ _ _ _ (Or.inr (by decide +kernel)) (Or.inr ⟨chars% "0.1", by decide +kernel, m3⟩)
        (Or.inr ⟨chars% "0.1", by decide +kernel, m3⟩) (Or.inl ⟨by decide +kernel, rfl⟩) (Or.inl ⟨by decide +kernel, rfl⟩),
      Or.inl ⟨by decide +kernel, rfl⟩⟩
  · rw [Config.adder_alike ha, graph_texts]
    refine (Config.initAdder_iff (stodDec r) (Config.listed graphTexts) graphAdder).2 ?_
    exact ⟨⟨("const", false), by simp, Or.inl ⟨by decide +kernel, rfl⟩, rfl⟩, Or.inl ⟨by decide +kernel, rfl⟩, Or.inl ⟨by decide +kernel, rfl⟩,
      Or.inl ⟨by decide +kernel, rfl⟩, Or.inl ⟨by decide +kernel, rfl⟩, ⟨("idle", false), by simp, Or.inl ⟨by decide +kernel, rfl⟩, rfl⟩,
      Or.inl ⟨by decide +kernel, rfl⟩, Or.inl ⟨by decide +kernel, rfl⟩⟩
  · rw [Config.grid_params_alike ha, graph_texts]
    have e1 : Config.listed graphTexts "slam/map/height_in_meters".toList = none := by decide +kernel
    have e2 : Config.listed graphTexts "slam/map/width_in_meters".toList = none := by decide +kernel
    have e3 : Config.listed graphTexts "slam/map/meters_per_cell".toList = none := by decide +kernel
    have e4 : ⌈(10 : ℝ) / (1 / 10)⌉ = 100 := by norm_num
    simp only [Provider.gridParams, Provider.ofTable, Config.getDbl, e1, e2, e3, Option.bind_some, e4]
    rw [if_neg (by norm_num)]
    rfl

/-- The program of the launch file: hill climbing on the cells a beam hits. -/
noncomputable def graphShipped (r : ℝ → ℝ) (env : Env) : GraphProgram :=
  ⟨ScanMatch.HCState ℝ,
    ⟨⟨ScanAdder.constEstimate ⟨19 / 20, 1⟩ ⟨1 / 100, 1⟩, 0, none⟩, env.ok, env.lineFuel, 0,
      Matcher.enumMachine ⟨⟨0, -1⟩, .obstacle, baseImpact .discrepancy, env.cellFuel⟩
        (ScanMatch.hillClimbing 6 (r (1 / 10)) (r (1 / 10))) env.fuel, false, env.tol⟩,
    GraphSt.start none (.even 0) ⟨0, r (1 / 10), r (1 / 10), ⟨0, r (1 / 10), r (1 / 10), none⟩, true⟩⟩

/-- The names the node works with. -/
theorem graph_io (r : ℝ → ℝ) (round : ℝ → Int) (stod : Str → Option ℝ) :
    let srv := (graphRows r).server
    let setup := setupOf round (.ofServer round stod srv) srv
    setup.topic = "/base_scan".toList ∧ setup.odomFrame = "odom_combined".toList ∧ setup.mapFrame = "map".toList ∧
      setup.robotFrame = "robot_pose".toList ∧ setup.skipExceeding = false := by
  intro srv
  have at_ : ∀ k : String, srv k.toList = ((graphRows r).find? fun r => decide (r.1 = k)).map fun r => r.2.1 :=
    fun k => Config.Rows.server_at _ k
  have e1 := at_ "in/lscan2D/ros/topic/name"
  have e2 := at_ "in/odometry/ros/tf/odom_frame_id"
  have e3 := at_ "ros/tf/map_frame_id"
  have e4 := at_ "ros/tf/robot_pose_frame_id"
  have e7 := at_ "in/lscan2D/skip_exceeding_vals"
  simp only [graphRows, List.find?_cons, List.find?_nil, decide_true, Option.map_some, Option.map_none,
    String.reduceEq, decide_false] at e1 e2 e3 e4 e7
  refine ⟨?_, ?_, ?_, ?_, ?_⟩
  · show Config.launchStr srv "in/lscan2D/ros/topic/name".toList "/base_scan".toList = _
    rw [Config.launchStr, Config.paramStr, e1]
    rfl
  · show Config.launchStr srv "in/odometry/ros/tf/odom_frame_id".toList "odom_combined".toList = _
    rw [Config.launchStr, Config.paramStr, e2]
    rfl
  · show Config.paramStr srv _ _ = _
    rw [Config.paramStr, e3]
  · show Config.paramStr srv _ _ = _
    rw [Config.paramStr, e4]
  · exact ((Config.launch_typed round stod srv _).2.2.2 (.inl e7)).2.2.1 false

/-- **What the launch file starts (C110)**: `main` comes to its loop, listening to `/base_scan`, with the frames `map`, `odom_combined`
and `robot_pose`, and the SLAM above. The parameter of the launch file about ranges beyond that of the sensor is not the one that is read,
but it agrees with the default. -/
theorem graph_main_shipped {r : ℝ → ℝ} (R : Nearest r) (round : ℝ → Int) (rad : ℝ) (rnd : Nat) (env : Env)
    (sample : Int → Nat → ℝ → ℝ → Poses.Delta ℝ) :
    ∃ setup : Setup, setup.topic = "/base_scan".toList ∧ setup.odomFrame = "odom_combined".toList ∧ setup.mapFrame = "map".toList ∧
      setup.robotFrame = "robot_pose".toList ∧
      mainGraph round (stodDec r) rad rnd env sample (graphRows r).server =
        some ⟨graphShipped r env, startNode setup (graphShipped r env).start⟩ := by
  obtain ⟨hm, ha, hg⟩ := graph_parts R round rad rnd
  obtain ⟨i1, i2, i3, i4, i5⟩ := graph_io r round (stodDec r)
  refine ⟨setupOf round (.ofServer round (stodDec r) (graphRows r).server) (graphRows r).server, i1, i2, i3, i4, ?_⟩
  have hP : nodeGraph rad rnd env sample (.ofServer round (stodDec r) (graphRows r).server) false = some (graphShipped r env) := by
    unfold nodeGraph
    rw [hm, ha, hg]
    rfl
  unfold mainGraph
  simp only
  rw [i5, hP]
  rfl

/-! ## Examples -/

/-- The transform of a robot that has driven so far along the x axis. -/
noncomputable def driveTr (n : Nat) : Tr := ⟨Pub.yaw 0, ![3 / 10 * (n + 1), 0, 0]⟩

/-- Its scans: every other one comes before its transform is known. -/
noncomputable def driveDelivery (n : Nat) : Delivery :=
  ⟨⟨n, 0, "laser".toList, demoMsg⟩, fun _ _ _ _ => if n % 2 = 0 then some (driveTr n) else none,
    ⟨(n, 0), (n, 0), (n, 0), (n, 0), (n, 0)⟩⟩

theorem drive_found (f : Str) (n : Nat) : found f ((List.range (2 * n)).map driveDelivery) =
    (List.range n).map fun k => (driveDelivery (2 * k), driveTr (2 * k)) := by
  induction n with
  | zero => rfl
  | succ n ih =>
    rw [Nat.mul_succ, List.range_succ, List.range_succ, List.map_append, List.map_append, Online.found_append, Online.found_append, ih,
      List.range_succ, List.map_append, List.append_assoc]
    congr 1
    have e1 : (driveDelivery (2 * n)).lookup f (driveDelivery (2 * n)).msg.frame (driveDelivery (2 * n)).msg.sec
        (driveDelivery (2 * n)).msg.nsec = some (driveTr (2 * n)) := if_pos (by omega)
    have e2 : (driveDelivery (2 * n + 1)).lookup f (driveDelivery (2 * n + 1)).msg.frame (driveDelivery (2 * n + 1)).msg.sec
        (driveDelivery (2 * n + 1)).msg.nsec = none := if_neg (by omega)
    simp only [found, List.map_cons, List.map_nil, List.filterMap_cons, List.filterMap_nil, e1, e2, Option.map_some, Option.map_none,
      List.append_nil]

/-- The theorem applies: a robot that drives away for ever is tracked by the node. -/
theorem demo_node_total (setup : Setup) (sample : Nat → ℝ → ℝ → Poses.Delta ℝ)
    (hsam : ∀ n x y, Matcher.WithinShift (1 / 2) (sample n x y)) (e : ScanMatch.MCState ℝ) (n : Nat) :
    ∃ m, (startNode setup (GraphSt.start none (.even 0) e)).run (demoCfg sample) ((List.range (2 * n)).map driveDelivery) = some m := by
  have hmsg : GoodMsg (demoCfg sample).slam 30 demoMsg := by
    refine ⟨by simp [demoMsg], by norm_num [demoMsg, GraphCfg.slam, demoCfg], by norm_num [demoMsg], by norm_num [demoMsg], ?_⟩
    intro pts h
    rcases pts with _ | ⟨p, pts⟩
    · left; rfl
    · right; simp [GraphCfg.slam, demoCfg]
  refine graph_node_total (cfg := demoCfg sample) (i := .discrepancy) (b := (10 : Nat) * (1 / 2 : ℝ)) (R := 30) (D := 1)
    (monte_carlo_suits .discrepancy ⟨⟨0, -1⟩, .obstacle, baseImpact .discrepancy, 1⟩ rfl Nat.one_pos 5 10 (1 / 10) (1 / 10)
      sample (1 / 2) (by norm_num) hsam)
    (Whole.const_sound _ _ ⟨⟨by norm_num, by norm_num⟩, ⟨by norm_num, by norm_num⟩⟩ ⟨⟨by norm_num, by norm_num⟩, ⟨by norm_num, by norm_num⟩⟩
      _ _ _)
    (Whole.const_tells _ _ _ _ _)
    (fun v hv => by simp only [demoCfg, decide_eq_true_eq]; omega) (by simp [demoCfg]) (by norm_num) (by norm_num) (by norm_num)
    (hist := none) (by intro _ h; cases h) (w := .even 0) (by intro _ h; cases h) e _ ?_ ?_
  · rw [drive_found]
    intro p hp
    obtain ⟨i, -, rfl⟩ := List.mem_map.1 hp
    exact hmsg
  · rw [drive_found]
    intro i a b ha hb
    rw [List.getElem?_map, Option.map_eq_some_iff] at ha hb
    obtain ⟨j, j1, rfl⟩ := ha
    obtain ⟨k, k1, rfl⟩ := hb
    obtain ⟨l1, e1⟩ := List.getElem?_eq_some_iff.1 j1
    obtain ⟨l2, e2⟩ := List.getElem?_eq_some_iff.1 k1
    rw [List.getElem_range] at e1 e2
    subst e1 e2
    have e : (3 / 10 * (((2 * (i + 1) : Nat) : ℝ) + 1) - 3 / 10 * (((2 * i : Nat) : ℝ) + 1)) = 3 / 5 := by push_cast; ring
    constructor
    · show |(3 / 10 * (((2 * (i + 1) : Nat) : ℝ) + 1) - 3 / 10 * (((2 * i : Nat) : ℝ) + 1))| ≤ 1
      rw [e]; norm_num
    · show |(0 : ℝ) - 0| ≤ 1
      norm_num

end Slam.GraphSlam
