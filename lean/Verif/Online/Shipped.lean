import Verif.Online.Slams
import Verif.Runner.Shipped

/-!
# The node of launch/1h_config_common.launch (C99)
-/

set_option autoImplicit false
set_option linter.unusedSectionVars false

namespace Slam.Online
open Slam.Config (Str Table Server Provider Fair commonRows)
open Slam.Pub (Tr)
open Slam.Runner (Engine LaserMsg Serves ofProgram countingEngine)
open Slam.Whole

/-- The parameters of the input and output of a node. -/
def ioKeys : List String :=
  ["in/lscan2D/ros/topic/name", "in/odometry/ros/tf/odom_frame_id", "ros/tf/map_frame_id", "ros/tf/robot_pose_frame_id",
    "ros/tf/async_correction", "ros/rviz/map_publishing_rate", "in/lscan2D/skip_exceeding_vals"]

/-- What the launch file and the properties file it names say about the input and output of the node. -/
theorem common_io {srv : Server ℝ} {t : Table} (ht : Config.append Config.shipped 9 (chars% "config/slams/viny_slam_base.properties") Table.empty = some t)
    (hs : ∀ k, srv k = match t k with
        | some v => some (.str v)
        | none => commonRows.server k) (round : ℝ → Int) (stod : Str → Option ℝ) :
    let setup := setupOf round (.ofServer round stod srv) srv
    setup.topic = "/base_scan".toList ∧ setup.odomFrame = "odom_combined".toList ∧ setup.mapFrame = "map".toList ∧
      setup.robotFrame = "robot_pose".toList ∧ setup.async = false ∧ setup.interval = 5 ∧ setup.skipExceeding = false := by
  have key : ∀ k ∈ ioKeys, t k.toList = none := by
    have h : ((Config.append Config.shipped 9 (chars% "config/slams/viny_slam_base.properties") Table.empty).map fun t =>
        ioKeys.map fun k => t k.toList) = some (ioKeys.map fun _ => none) := by decide +kernel
    rw [ht, Option.map_some, Option.some.injEq, List.map_inj_left] at h
    exact h
  have at_ : ∀ k ∈ ioKeys, srv k.toList = (commonRows.find? fun r => decide (r.1 = k)).map fun r => r.2.1 := by
    intro k hk
    rw [hs, key k hk]
    exact Config.Rows.server_at _ k
  have e1 := at_ "in/lscan2D/ros/topic/name" (by decide)
  have e2 := at_ "in/odometry/ros/tf/odom_frame_id" (by decide)
  have e3 := at_ "ros/tf/map_frame_id" (by decide)
  have e4 := at_ "ros/tf/robot_pose_frame_id" (by decide)
  have e5 := at_ "ros/tf/async_correction" (by decide)
  have e6 := at_ "ros/rviz/map_publishing_rate" (by decide)
  have e7 := at_ "in/lscan2D/skip_exceeding_vals" (by decide)
  simp only [commonRows, List.find?_cons, List.find?_nil, decide_true, Option.map_some, Option.map_none,
    String.reduceEq, decide_false] at e1 e2 e3 e4 e5 e6 e7
  refine ⟨?_, ?_, ?_, ?_, ?_, ?_, ?_⟩
  · show Config.launchStr srv _ _ = _
    rw [Config.launchStr, Config.paramStr, e1]
    rfl
  · show Config.launchStr srv _ _ = _
    rw [Config.launchStr, Config.paramStr, e2]
    rfl
  · show Config.paramStr srv _ _ = _
    rw [Config.paramStr, e3]
  · show Config.paramStr srv _ _ = _
    rw [Config.paramStr, e4]
  · show Config.paramBool srv _ _ = _
    rw [Config.paramBool, e5]
  · show Config.paramDbl srv _ _ = _
    rw [Config.paramDbl, e6]
  · exact ((Config.launch_typed round stod srv _).2.2.2 (.inl e7)).2.2.1 false

/-- **The node of launch/1h_config_common.launch as a whole (C99).** Started with this launch file and the configuration it names, the
node listens to `/base_scan` and runs vinySLAM. Let scans be delivered in any order, with any clock; for those whose transform to
`odom_combined` is known, let it be within `B` of the origin along each axis and rigid, and the scan well-formed with ranges up to `R`.
Let the random shifts be within `b` and everything reached within the integers the traversal copes with. Then the node is not aborted;
each of these scans, and no other, is given to the SLAM, in order; for each, the correction from `map` to `odom_combined` is sent, which
chained with the odometry gives the SLAM's pose, and the pose as the transform from `map` to `robot_pose`; and the map, exactly if
five seconds have passed since the last. -/
theorem online_common {r : ℝ → ℝ} (F : Fair r) (round : ℝ → Int) {rad : ℝ} {rnd : Nat} {wenv : Whole.Env}
    {sample : Int → Nat → ℝ → ℝ → Poses.Delta ℝ} (hcf : 0 < wenv.cellFuel) (hF : wenv.fuel = 101) (b : ℝ) (hb : 0 ≤ b)
    (hsam : ∀ n x y, Matcher.WithinShift b (sample (Config.unsignedToInt rnd) n x y))
    (N : Int) (hNok : ∀ v, |v| ≤ 6 * N → wenv.ok v = true) (hl : 4 * N + 2 ≤ wenv.lineFuel)
    (names : Table → List Str) (hnames : ∀ p t, Config.append Config.shipped 9 p Table.empty = some t → ∀ k, k ∈ names t ↔ t k ≠ none)
    (R B : ℝ) (hR : 0 ≤ R) :
    ∃ (P : MProgram) (setup : Setup),
      mainOneHypothesis Config.shipped 9 names round (Config.stodDec r)
        (fun p skip => (nodeProgram rad rnd wenv sample p skip).map ofProgram) commonRows.server =
          some ⟨ofProgram P, start (ofProgram P) false setup⟩ ∧
      setup.topic = "/base_scan".toList ∧ P.kind = .tbm .consistent ∧ P.cfg.slam.scale = r (1 / 10) ∧
      ∀ ds : List Delivery,
        (∀ p ∈ found "odom_combined".toList ds, |p.2.origin 0| ≤ B ∧ |p.2.origin 1| ≤ B ∧ p.2.IsRigid ∧
          none ∉ p.1.msg.body.ranges ∧ |p.1.msg.body.angleMin + (p.1.msg.body.ranges.length : ℝ) * p.1.msg.body.increment -
            p.1.msg.body.increment - p.1.msg.body.angleMax| ≤ wenv.tol ∧
          0 ≤ p.1.msg.body.rangeMin ∧ 0 ≤ p.1.msg.body.rangeMax ∧ p.1.msg.body.rangeMax ≤ R) →
        (found "odom_combined".toList ds).length * (100 * b) + B + R ≤ r (1 / 10) * (N - 1) →
        ∃ n, ∃ rows : List (Row (ofProgram P)), (start (ofProgram P) false setup).run ds = some n ∧ n.sent = rows.flatMap Row.out ∧
          rows.map (fun r => (r.d, r.t)) = found "odom_combined".toList ds ∧
          Serves (ofProgram P) P.start (rows.map fun r => (r.d.msg, planar r.t)) (rows.map Row.s) ∧
          ∀ pre (row : Row (ofProgram P)) post, rows = pre ++ row :: post → ∃ corr,
            corr.mul row.t.flat = ⟨Pub.yaw row.s.st.pose.theta, ![row.s.st.pose.x, row.s.st.pose.y, 0]⟩ ∧
            row.out = .transform row.d.clock.correction "map".toList "odom_combined".toList corr ::
              .transform row.d.clock.pose "map".toList "robot_pose".toList
                ⟨Pub.yaw row.s.st.pose.theta, ![row.s.st.pose.x, row.s.st.pose.y, 0]⟩ ::
              (if row.d.clock.checked.secs - lastMap pre < 5 then []
                else [.grid "map".toList row.d.clock.loaded (Dump.gridMsg (Runner.viewOf P row.s.st.map))]) := by
  obtain ⟨srv, t, h1, h2, h3, h4⟩ := Config.common_node (r := r) round rad rnd names hnames
  obtain ⟨i1, i2, i3, i4, -, i6, i7⟩ := common_io h2 h3 round (Config.stodDec r)
  obtain ⟨m, hm, -, hw⟩ := Config.viny_world F rad rnd
  have hsk : skipExceeding (Config.listed Config.vinyProps) = false := by decide +kernel
  obtain ⟨P, g1, g2, g3⟩ := online_single_total (sample := sample) h1 h4 (i7.trans hsk.symm) hw (viny_sensible F rnd m (by omega)) rfl trivial hcf (100 * b)
    (by positivity) (.inr ⟨_, _, _, _, 100, b, rfl, hF, hb, hsam, by norm_num⟩) (by omega) N hNok hl R B hR
  have hconf := (launched_any_behaves hw (viny_sensible F rnd m (by omega)) rfl trivial hcf g2).1
  set setup := setupOf round (.ofServer round (Config.stodDec r) srv) srv with hsetup
  refine ⟨P, setup, g1, i1, hconf.cell.2.2.1 rfl, hconf.scale, fun ds hds hN => ?_⟩
  have hprops : P.cfg.slam.props.margin = 0 := by
    rw [show P.cfg.slam.props = _ from hconf.props]
    rfl
  rw [← i2] at hds hN ⊢
  obtain ⟨n, hn⟩ := g3 ds (fun p hp => by
    obtain ⟨a1, a2, -, m1, m2, m3, m4, m5⟩ := hds p hp
    refine ⟨a1, a2, m1, ?_, m3, ⟨m4, m5⟩, fun pts _ => ?_⟩
    · rw [show P.cfg.slam.tol = wenv.tol from Runner.tol_of hw g2]
      exact m2
    · rw [hprops]
      cases pts with
      | nil => exact .inl rfl
      | cons a l => exact .inr (by simp)) (by
    have e : driftReach (Config.vinyWorld r rnd m).matcher.drift = 0 := by simp [driftReach, Config.vinyWorld]
    rw [e, add_zero]
    exact hN)
  obtain ⟨rows, hr, -, hs⟩ := node_run hn
  refine ⟨n, rows, hn, hs, hr.all, hr.served, fun pre row post e => ?_⟩
  obtain ⟨pose, view, corr, k1, k2, k3, k4⟩ := hr.sends pre row post e
  cases k1
  cases k2
  have hrig : row.t.IsRigid := (hds (row.d, row.t) (by rw [← hr.all]; exact List.mem_map_of_mem (by rw [e]; simp))).2.2.1
  refine ⟨corr, k3 hrig, ?_⟩
  rw [k4, i3, i4, i6]
  rfl

/-! ## Non-vacuity -/

/-- A transform and a scan. -/
noncomputable def exampleTr : Tr := ⟨Pub.yaw 0, ![1 / 2, 0, 0]⟩

def exampleMsg (sec : Nat) : LaserMsg := ⟨sec, 0, "laser".toList, ⟨0, 0, 1, 0, 30, [some 20]⟩⟩

noncomputable def exampleClock (sec : Nat) : Clock := ⟨(sec, 0), (sec, 0), (sec, 0), (sec, 0), (sec, 1)⟩

/-- The transform from `laser` to `odom_combined` is known, at any time. -/
noncomputable def exampleTf (target source : Str) (_sec _nsec : Nat) : Option Tr :=
  if target = "odom_combined".toList ∧ source = "laser".toList then some exampleTr else none

/-- Four scans: for one, the transform is not known. -/
noncomputable def exampleDeliveries : List Delivery :=
  [⟨exampleMsg 99, fun _ _ _ _ => none, exampleClock 100⟩,
    ⟨exampleMsg 100, exampleTf, exampleClock 101⟩,
    ⟨exampleMsg 102, exampleTf, exampleClock 103⟩,
    ⟨exampleMsg 106, exampleTf, exampleClock 107⟩]

theorem example_found : found "odom_combined".toList exampleDeliveries = exampleDeliveries.tail.map fun d => (d, exampleTr) := by
  have one : ∀ n, exampleTf "odom_combined".toList "laser".toList n 0 = some exampleTr := fun n => if_pos ⟨rfl, rfl⟩
  set f : Delivery → Option (Delivery × Tr) := fun d =>
    (d.lookup "odom_combined".toList d.msg.frame d.msg.sec d.msg.nsec).map fun t => (d, t) with hf
  have step : ∀ n c, f ⟨exampleMsg n, exampleTf, c⟩ = some (⟨exampleMsg n, exampleTf, c⟩, exampleTr) := fun n c =>
    congrArg (Option.map fun t => ((⟨exampleMsg n, exampleTf, c⟩ : Delivery), t)) (one n)
  show List.filterMap f _ = _
  rw [exampleDeliveries, List.filterMap_cons_none rfl, List.filterMap_cons_some (step _ _), List.filterMap_cons_some (step _ _),
    List.filterMap_cons_some (step _ _)]
  rfl

/-- The node of the launch file handles three of the scans, and sends the map with the first and the third of them. -/
example : ∃ (P : MProgram) (setup : Setup) (n : Node (ofProgram P)),
    (start (ofProgram P) false setup).run exampleDeliveries = some n ∧
    (transformsTo "odom_combined".toList n.sent).length = 3 ∧ (gridsOf n.sent).length = 2 := by
  obtain ⟨names, hnames⟩ := Config.names_exist Config.shipped 9
  have hr := (Config.fair_nearest Float.rne_nearest).rel (1 / 10) (by norm_num [abs_of_pos]) (by norm_num [abs_of_pos])
  obtain ⟨P, setup, -, -, -, -, h⟩ := online_common (rnd := 7) (rad := 1) (wenv := exampleEnv) (sample := fun _ _ _ _ => ⟨1, -1, 1⟩)
    (Config.fair_nearest Float.rne_nearest) (fun _ => 0) (by decide) rfl 1 (by norm_num) (by intro n x y; constructor <;> norm_num) 1000000
    (by intro v hv; simp only [exampleEnv, decide_eq_true_eq]; omega) (by decide) names hnames 30 1 (by norm_num)
  obtain ⟨n, rows, h1, h2, h3, -, h5⟩ := h exampleDeliveries (by
    rw [example_found]
    intro p hp
    obtain ⟨d, hd, rfl⟩ := List.mem_map.1 hp
    have hb : d.msg.body = ⟨0, 0, 1, 0, 30, [some 20]⟩ := by
      simp only [exampleDeliveries, List.tail_cons, List.mem_cons, List.not_mem_nil, or_false] at hd
      rcases hd with rfl | rfl | rfl <;> rfl
    simp only [hb]
    refine ⟨by norm_num [exampleTr], by norm_num [exampleTr], Pub.yaw_rigid 0, by simp, by norm_num [exampleEnv], by norm_num, by norm_num,
      by norm_num⟩) (by
    rw [example_found]
    have := abs_le.1 hr
    norm_num [exampleDeliveries] at this ⊢
    linarith)
  refine ⟨P, setup, n, h1, ?_⟩
  rw [example_found] at h3
  obtain ⟨a, b, c, rfl⟩ := List.length_eq_three.1 (show rows.length = 3 by
    rw [← List.length_map (f := fun r : Row (ofProgram P) => (r.d, r.t)), h3]
    rfl)
  simp only [exampleDeliveries, List.tail_cons, List.map_cons, List.map_nil, List.cons.injEq, Prod.mk.injEq, and_true] at h3
  obtain ⟨⟨a1, -⟩, ⟨b1, -⟩, ⟨c1, -⟩⟩ := h3
  obtain ⟨ca, -, ea⟩ := h5 [] a [b, c] rfl
  obtain ⟨cb, -, eb⟩ := h5 [a] b [c] rfl
  obtain ⟨cc, -, ec⟩ := h5 [a, b] c [] rfl
  have l0 : lastMap ([] : List (Row (ofProgram P))) = 0 := rfl
  rw [l0, if_neg (by rw [a1]; norm_num [exampleClock, Stamp.secs])] at ea
  have la : lastMap [a] = a.d.clock.stored.secs := (lastMap_snoc [] a).1 
    ⟨_, _, _, by rw [ea]; exact .tail _ (.tail _ (.head _))⟩
  rw [la, if_pos (by rw [a1, b1]; norm_num [exampleClock, Stamp.secs])] at eb
  have lb : lastMap [a, b] = a.d.clock.stored.secs := ((lastMap_snoc [a] b).2 (by rw [Row.mapped, eb]; simp)).trans la
  rw [lb, if_neg (by rw [a1, c1]; norm_num [exampleClock, Stamp.secs])] at ec
  have hne : "robot_pose".toList ≠ "odom_combined".toList := by decide
  generalize "robot_pose".toList = x at *
  generalize "odom_combined".toList = y at *
  rw [h2]
  simp [ea, eb, ec, transformsTo, gridsOf, hne]

/-- The same with a SLAM that counts scans: what is sent. -/
example : ∃ n, (start countingEngine true ⟨[], "odom_combined".toList, "map".toList, "robot".toList, false, 5, 5, 9, 9, false, false⟩).run
      exampleDeliveries = some n ∧
    transformsTo "robot".toList n.sent = [((100, 0), ⟨Pub.yaw 0, ![1, 0, 0]⟩), ((102, 0), ⟨Pub.yaw 0, ![2, 0, 0]⟩),
      ((106, 0), ⟨Pub.yaw 0, ![3, 0, 0]⟩)] := by
  set setup : Setup := ⟨[], "odom_combined".toList, "map".toList, "robot".toList, false, 5, 5, 9, 9, false, false⟩
  have hf : (found setup.odomFrame exampleDeliveries).map (fun p => (p.1.msg, planar p.2)) =
      [(exampleMsg 100, planar exampleTr), (exampleMsg 102, planar exampleTr), (exampleMsg 106, planar exampleTr)] := by
    rw [show setup.odomFrame = "odom_combined".toList from rfl, example_found]
    rfl
  have hs : Serves countingEngine countingEngine.start
      ((found setup.odomFrame exampleDeliveries).map fun p => (p.1.msg, planar p.2)) [(1 : Nat), (2 : Nat), (3 : Nat)] := by
    rw [hf]
    exact .cons _ _ _ _ _ _ rfl (.cons _ _ _ _ _ _ rfl (.cons _ _ _ _ _ _ rfl (.nil _)))
  obtain ⟨n, hn⟩ := (node_goes_on (P := countingEngine) (setup := setup) (stamped := true) exampleDeliveries).2 ⟨_, hs, fun s hs => by
    refine ⟨⟨_, rfl⟩, ?_⟩
    have h0 : s ≠ (0 : Nat) := by
      rintro rfl
      revert hs
      show ¬ (0 : Nat) ∈ [1, 2, 3]
      decide
    exact ⟨_, if_neg h0⟩⟩
  have hne : setup.robotFrame ≠ setup.odomFrame := by decide
  obtain ⟨-, h2⟩ := poses_are_trajectory hne hn rfl hs (ls := [⟨100, 0, 1, 0, 0⟩, ⟨102, 0, 2, 0, 0⟩, ⟨106, 0, 3, 0, 0⟩]) (by
    rw [hf]
    unfold Runner.Logs
    refine .cons ⟨rfl, rfl, ?_⟩ (.cons ⟨rfl, rfl, ?_⟩ (.cons ⟨rfl, rfl, ?_⟩ .nil)) <;> simp [countingEngine])
  exact ⟨n, hn, h2⟩

end Slam.Online
