import Verif.Online.RoamShipped
import Verif.Random.GmappingRunnerDemo
import Verif.Random.Online

/-!
# The nodes of the launch files with their generators (C105)
-/

set_option autoImplicit false
set_option linter.unusedSectionVars false

namespace Slam.Random
open Slam.Config (Str Table Server Provider Fair fair_nearest mitRows mitTexts mitGmapping commonRows)
open Slam.Whole
open Slam.Float (Nearest)
open Slam.Runner (LaserMsg Serves ofProgram datum)
open Slam.Online (Delivery Node Row Rows Out found planar setupOf start mainLaunched mainOneHypothesis gridsOf lastMap)

variable {E : Type} {N : Engine E} {mk : Int → E} {res : Nat → E} {engines : Nat → E}

/-- **The maps of the GMapping node (C105)**: the configured scale, and values that are percentages or the `-1` of a cell that was never
observed. -/
theorem online_seeded_gmapping_grids {stod : Str → Option ℝ} {wenv : Whole.Env} {rnd : ℝ → ℝ} {t : Table} {w : Config.World ℝ}
    {p : Config.GmappingParams ℝ} {k : Nat} {P : GSeededProgram E} (hP : launchSeededGmapping N stod wenv rnd engines t = some P)
    (hrnd : ∀ x, Cells.Unit01 x → Cells.Unit01 (rnd x)) (hw : Config.initGmapping stod t = some (w, p, k)) (hsen : GSensible w k)
    (hlive : ∀ k, Lively N (engines k)) {setup : Online.Setup} {stamped : Bool} {ds : List Delivery}
    {n : Node (ofSeededGmapping N res P)} (h : (start (ofSeededGmapping N res P) stamped setup).run ds = some n)
    {m : Dump.GridMsg ℝ} (hm : m ∈ gridsOf n.sent) :
    m.resolution = P.cfg.slam.scale ∧ ∀ v ∈ m.data, (0 ≤ v ∧ v ≤ 100) ∨ v = -1 := by
  obtain ⟨rows, hr, -, hs⟩ := Online.node_run h
  rw [hs] at hm
  obtain ⟨o, ho1, ho2⟩ := List.mem_filterMap.1 hm
  cases o with
  | transform => cases ho2
  | grid f l m' =>
    simp only [Option.some.injEq] at ho2
    subst ho2
    obtain ⟨r, hr1, hr2⟩ := List.mem_flatMap.1 ho1
    obtain ⟨-, -, view, hv, rfl⟩ := Online.maps_are_current hr hr1 hr2
    obtain ⟨l', -, hrun⟩ := Runner.serves_prefix seeded_run_nil seeded_run_cons hr.served r.s
      (List.mem_cons_of_mem _ (List.mem_map_of_mem hr1))
    obtain ⟨t', h6, h7⟩ := Option.map_eq_some_iff.1 hrun
    obtain ⟨-, -, b3, -⟩ := seeded_gmapping_behaves (N := N) (env := wenv) hrnd hw hsen hlive hP (seededMsgs res 0 l') h6
    have e1 : r.s.1 = t' := by rw [← h7]
    change (r.s.1.own.st.filter.world.map fun _ => _) = some view at hv
    rw [e1, Option.map_eq_some_iff] at hv
    obtain ⟨u, -, rfl⟩ := hv
    refine ⟨rfl, fun v hv => ?_⟩
    simp only [Dump.gridMsg, List.mem_flatMap, List.mem_map] at hv
    obtain ⟨y, -, x, -, rfl⟩ := hv
    obtain ⟨cell, g1, g2⟩ := b3 ⟨x, y⟩
    simp only [MapApi.shown]
    rw [g1]
    simp only [Option.map_some, Option.getD_some]
    rcases g2 with hu | ⟨e, -⟩
    · obtain ⟨a1, a2, -⟩ := (Dump.cellValue_spec cell.occ.prob).2 hu.1 hu.2
      exact .inl ⟨a1, a2⟩
    · rw [e]
      exact .inr ((Dump.cellValue_spec (-1)).1 rfl)

theorem mit_gsensible {r : ℝ → ℝ} (n : Int) (hn : 0 ≤ n) (h0 : 0 < r (1 / 20)) : GSensible (mitGmapping r n).1 20 where
  size := ⟨hn, hn⟩
  scale := h0
  occupied := by norm_num [Cells.Unit01, mitGmapping]
  empty := by norm_num [Cells.Unit01, mitGmapping]
  particles := by norm_num

/-- What launch/gmapping_mit_run.launch says about the input and output of the node. -/
theorem mit_io {r : ℝ → ℝ} (R : Nearest r) (round : ℝ → Int) (stod : Str → Option ℝ) :
    let srv := (mitRows r).server
    let setup := setupOf round (.ofServer round stod srv) srv
    setup.topic = "/base_scan".toList ∧ setup.odomFrame = "odom_combined".toList ∧ setup.mapFrame = "map".toList ∧
      setup.robotFrame = "robot_pose".toList ∧ setup.async = true ∧ setup.interval = 5 ∧ setup.skipExceeding = true ∧
      setup.filterQueue = 10 ∧ setup.subscrQueue = 10 := by
  intro srv
  have at_ : ∀ k : String, srv k.toList = ((mitRows r).find? fun r => decide (r.1 = k)).map fun r => r.2.1 :=
    fun k => Config.Rows.server_at _ k
  have e1 := at_ "in/lscan2D/ros/topic/name"
  have e2 := at_ "in/odometry/ros/tf/odom_frame_id"
  have e3 := at_ "ros/tf/map_frame_id"
  have e4 := at_ "ros/tf/robot_pose_frame_id"
  have e5 := at_ "ros/tf/async_correction"
  have e6 := at_ "ros/rviz/map_publishing_rate"
  have e7 := at_ "in/lscan2D/skip_exceeding_vals"
  have e8 := at_ "ros/filter_queue_size"
  have e9 := at_ "ros/subscribers_queue_size"
  have h5 : r 5 = 5 := R.fix (x := (5 : ℝ)) (by simpa using Float.isDouble_nat (K := ℝ) (n := 5) (by norm_num))
  simp only [mitRows, List.find?_cons, List.find?_nil, decide_true, Option.map_some, Option.map_none,
    String.reduceEq, decide_false] at e1 e2 e3 e4 e5 e6 e7 e8 e9
  refine ⟨?_, ?_, ?_, ?_, ?_, ?_, ?_, ?_, ?_⟩
  · show Config.launchStr srv _ _ = _
    rw [Config.launchStr, Config.paramStr, e1]
    rfl
  · show Config.launchStr srv _ _ = _
    rw [Config.launchStr, Config.paramStr, e2]
    rfl
  · show Config.paramStr srv _ _ = _
    rw [Config.paramStr, e3]
  · show Config.paramStr srv _ _ = _
    rw [Config.paramStr, e4]
  · show Config.paramBool srv _ _ = _
    rw [Config.paramBool, e5]
  · show Config.paramDbl srv _ _ = _
    rw [Config.paramDbl, e6]
    exact h5
  · exact (Config.launch_typed round stod srv _).2.2.1 true false e7
  · show Config.paramInt round srv _ _ = _
    rw [Config.paramInt, e8]
  · show Config.paramInt round srv _ _ = _
    rw [Config.paramInt, e9]

theorem mit_skip (r : ℝ → ℝ) : Online.SameSkip (mitRows r).server (mitRows r).table ∧ skipExceeding (mitRows r).table = true := by
  have e1 : (mitRows r).server "in/lscan2D/skip_exceeding_vals".toList = some (.bool true) := by
    rw [Config.Rows.server_at]
    simp only [mitRows, List.find?_cons, decide_true, Option.map_some, String.reduceEq, decide_false]
  have e2 : (mitRows r).table "in/lscan2D/skip_exceeding_vals".toList = some "true".toList := by
    rw [Config.mit_texts]
    decide +kernel
  have hne : ¬ ("true".toList = "false".toList ∨ "true".toList = "0".toList) := by decide
  refine ⟨.inr ⟨true, _, e1, e2, ⟨fun h => (by cases h), fun h => absurd h hne⟩⟩, ?_⟩
  rw [skipExceeding, Config.getBool, e2]
  decide

/-- **The node of launch/gmapping_mit_run.launch as a whole (C105).** It listens to `/base_scan` and runs GMapping with 20 particles, each
with a generator of its own, on a growing map of cells of (about) five centimetres; the scores are rounded to finitely many values by
`rnd`, and no generator is stuck. Let scans be delivered in any order, with any clock; for those whose transform to `odom_combined` is
known, let it be rigid, the odometry move by at most `S` (sum of both axes) from each to the next, and the scan be well-formed with
ranges up to `R`; let everything that may be reached be within the integers the traversal copes with. Then the node is not aborted;
each of these scans, and no other, is given to the SLAM, in order; for each, the correction from `map` to `odom_combined` is sent,
which chained with the odometry gives the pose of the heaviest particle, and this pose as the transform from `map` to `robot_pose`,
with the stamp of the scan; and the map, exactly if five seconds have passed since the last; its values are percentages or `-1`. -/
theorem online_gmapping_mit {r : ℝ → ℝ} (Q : Nearest r) (round : ℝ → Int) {wenv : Whole.Env} {rnd : ℝ → ℝ}
    (hrnd : ∀ x, Cells.Unit01 x → Cells.Unit01 (rnd x)) (hlive : ∀ k, Lively N (engines k)) (V : Finset ℝ)
    (hV : ∀ x, Cells.Unit01 x → rnd x ∈ V) (h0 : rnd 0 = 0) (hfu : (V.card + 1) * 98 ≤ wenv.fuel) (B : Int)
    (hNok : ∀ v, |v| ≤ 6 * B → wenv.ok v = true) (hlf : 4 * B + 2 ≤ wenv.lineFuel) {R S : ℝ} (hR : 0 ≤ R) (hS : 0 ≤ S) :
    ∃ (P : GSeededProgram E) (setup : Online.Setup),
      mainLaunched true round (Config.stodDec r)
        (fun p skip => (nodeSeededGmapping N wenv rnd engines p skip).map (ofSeededGmapping N res)) (mitRows r).server =
          some ⟨ofSeededGmapping N res P, start (ofSeededGmapping N res P) true setup⟩ ∧
      setup.topic = "/base_scan".toList ∧ P.cfg.slam.scale = r (1 / 20) ∧ P.start.own.st.filter.particles.length = 20 ∧
      ∀ ds : List Delivery,
        (⟨0, 0, 0⟩ :: (found "odom_combined".toList ds).map fun q => planar q.2 : List (Poses.Pose ℝ)).IsChain
          (fun a b => |b.x - a.x| + |b.y - a.y| ≤ S) →
        (∀ p ∈ found "odom_combined".toList ds, p.2.IsRigid ∧
          none ∉ p.1.msg.body.ranges ∧ |p.1.msg.body.angleMin + (p.1.msg.body.ranges.length : ℝ) * p.1.msg.body.increment -
            p.1.msg.body.increment - p.1.msg.body.angleMax| ≤ wenv.tol ∧
          0 ≤ p.1.msg.body.rangeMin ∧ 0 ≤ p.1.msg.body.rangeMax ∧ p.1.msg.body.rangeMax ≤ R) →
        (found "odom_combined".toList ds).length * (S + 14 * r (1 / 10) + 20 * (3 * R + 5 * r (1 / 20))) + R ≤ r (1 / 20) * (B - 1) →
        ∃ (n : Node (ofSeededGmapping N res P)) (rows : List (Row (ofSeededGmapping N res P))),
          (start (ofSeededGmapping N res P) true setup).run ds = some n ∧ n.sent = rows.flatMap Row.out ∧
          rows.map (fun r => (r.d, r.t)) = found "odom_combined".toList ds ∧
          Serves (ofSeededGmapping N res P) (ofSeededGmapping N res P).start (rows.map fun r => (r.d.msg, planar r.t)) (rows.map Row.s) ∧
          (∀ m ∈ gridsOf n.sent, m.resolution = r (1 / 20) ∧ ∀ v ∈ m.data, (0 ≤ v ∧ v ≤ 100) ∨ v = -1) ∧
          ∀ pre (row : Row (ofSeededGmapping N res P)) post, rows = pre ++ row :: post → ∃ pose view corr,
            row.s.1.own.st.pose = some pose ∧ (ofSeededGmapping N res P).view row.s = some view ∧
            corr.mul row.t.flat = ⟨Pub.yaw pose.theta, ![pose.x, pose.y, 0]⟩ ∧
            row.out = .transform row.d.clock.correction "map".toList "odom_combined".toList corr ::
              .transform (row.d.msg.sec, row.d.msg.nsec) "map".toList "robot_pose".toList ⟨Pub.yaw pose.theta, ![pose.x, pose.y, 0]⟩ ::
              (if row.d.clock.checked.secs - lastMap pre < 5 then []
                else [.grid "map".toList row.d.clock.loaded (Dump.gridMsg view)]) := by
  have Fr := fair_nearest Q
  have hs0 : 0 < r (1 / 20) := (Fr.ceil20 (m := 100) (by norm_num)).1
  have h10 := Fr.rel (1 / 10) (by norm_num [abs_of_pos]) (by norm_num [abs_of_pos])
  have h10p : 0 < r (1 / 10) := by
    have := abs_le.1 h10
    norm_num at this
    linarith
  have hr0 : r 0 = 0 := Q.fix (x := (0 : ℝ)) (by simpa using Float.isDouble_nat (K := ℝ) (n := 0) (by norm_num))
  obtain ⟨m, hm1, -, hpw⟩ := Config.gmapping_mit_launch Q round
  have hw : Config.initGmapping (Config.stodDec r) (mitRows r).table =
      some ((mitGmapping r m).1, (mitGmapping r m).2.1, 20) := by
    rw [← (Config.launch_assembles round 0 0 (Config.mit_same Q)).2.2, hpw]
    rfl
  have hsen := mit_gsensible m (by omega) hs0
  obtain ⟨i1, i2, i3, i4, -, i6, i7, -⟩ := mit_io Q round (Config.stodDec r)
  obtain ⟨k1, k2⟩ := mit_skip r
  obtain ⟨P, draws, P', hP, hP', -, hc, hst, -⟩ := gseeded_launches (N := N) (engines := engines) (env := wenv) hrnd hw hsen hlive
  obtain ⟨P'', hP'', ha, -⟩ := gmapping_launches (env := wenv) (draws := draws) hrnd hw hsen
  obtain rfl := Option.some.inj (hP'.symm.trans hP'')
  obtain ⟨hfull, hwin, hcfg⟩ : P.start.own.matcher.pe.fullness = r (1 / 10) ∧ P.start.own.matcher.pe.window = 1 ∧
      P.cfg.slam.tol = wenv.tol ∧ P.cfg.slam.scale = r (1 / 20) ∧ P.cfg.slam.props.margin = 0 := by
    have h := hP
    unfold launchSeededGmapping at h
    rw [hw, Option.bind_some] at h
    simp only [mitGmapping, Option.bind_eq_some_iff, Option.map_eq_some_iff] at h
    obtain ⟨mm, -, s, -, rfl⟩ := h
    exact ⟨rfl, rfl, rfl, rfl, rfl⟩
  obtain ⟨g1, g2⟩ := online_seeded_gmapping_total (res := res) (round := round) (Config.mit_same Q) k1 hP hrnd hw hsen hlive V hV h0 hfu B hNok hlf
    (by rw [hfull]; linarith) hR hS
  set setup := setupOf round (.ofServer round (Config.stodDec r) (mitRows r).server) (mitRows r).server with hsetup
  refine ⟨P, setup, g1, i1, hcfg.2.1, ?_, fun ds hodo hds hN => ?_⟩
  · rw [hst]
    exact ha.particles.1
  rw [← i2] at hodo hds hN ⊢
  obtain ⟨n, hn⟩ := g2 ds hodo (fun p hp => by
    obtain ⟨-, m1, m2, m3, m4, m5⟩ := hds p hp
    refine ⟨m1, ?_, m3, ⟨m4, m5⟩, fun pts _ => ?_⟩
    · rw [hcfg.1]
      exact m2
    · rw [hcfg.2.2]
      cases pts with
      | nil => exact .inl rfl
      | cons a l => exact .inr (by simp)) (by
    rw [hwin]
    have e : |(mitGmapping r m).2.1.meanXY| + 14 * |(mitGmapping r m).2.1.sigmaXY| = 14 * r (1 / 10) := by
      show |r 0| + 14 * |r (1 / 10)| = _
      rw [hr0, abs_zero, zero_add, abs_of_pos h10p]
    rw [e]
    refine le_trans (le_of_eq ?_) hN
    show _ * (_ + _ + ((20 : Nat) : ℝ) * growth R (r (1 / 20)) 1) + R = _
    unfold growth
    push_cast
    ring)
  obtain ⟨rows, hr, -, hs⟩ := Online.node_run hn
  refine ⟨n, rows, hn, hs, hr.all, hr.served, fun g hg => ?_, fun pre row post e => ?_⟩
  · rw [← hcfg.2.1]
    exact online_seeded_gmapping_grids hP hrnd hw hsen hlive hn hg
  · obtain ⟨pose, view, corr, q1, q2, q3, q4⟩ := hr.sends pre row post e
    have hrig : row.t.IsRigid := (hds (row.d, row.t) (by rw [← hr.all]; exact List.mem_map_of_mem (by rw [e]; simp))).1
    refine ⟨pose, view, corr, q1, q2, q3 hrig, ?_⟩
    rw [q4, i3, i4, i6]
    rfl

/-- **The node of launch/1h_config_common.launch with its generator (C105)**: as `Online.online_common`, but nothing is assumed of the
shifts of the Monte Carlo matcher: its generator, made from whatever `std::random_device` hands out, is not stuck. With every bound on
iterations from some `F` on, the node handles all scans whose transform is known, sends for each the correction and the pose, and the
map every five seconds. -/
theorem online_seeded_common {r : ℝ → ℝ} (F : Fair r) (round : ℝ → Int) {rad : ℝ} {rnd : Nat} {wenv : Whole.Env}
    (hcf : 0 < wenv.cellFuel) (hlive : Lively N (mk (Config.unsignedToInt rnd)))
    (M : Int) (hMok : ∀ v, |v| ≤ 6 * M → wenv.ok v = true) (hl : 4 * M + 2 ≤ wenv.lineFuel)
    (names : Table → List Str) (hnames : ∀ p t, Config.append Config.shipped 9 p Table.empty = some t → ∀ k, k ∈ names t ↔ t k ≠ none)
    {R S : ℝ} (hR : 0 ≤ R) (hS : 0 ≤ S) (ds : List Delivery)
    (hodo : Strides S ⟨0, 0, 0⟩ ((found "odom_combined".toList ds).map fun p => (planar p.2, p.1.msg.body)))
    (hds : ∀ p ∈ found "odom_combined".toList ds, p.2.IsRigid ∧
      none ∉ p.1.msg.body.ranges ∧ |p.1.msg.body.angleMin + (p.1.msg.body.ranges.length : ℝ) * p.1.msg.body.increment -
        p.1.msg.body.increment - p.1.msg.body.angleMax| ≤ wenv.tol ∧
      0 ≤ p.1.msg.body.rangeMin ∧ 0 ≤ p.1.msg.body.rangeMax ∧ p.1.msg.body.rangeMax ≤ R)
    (hN : (found "odom_combined".toList ds).length *
      (S + 100 * (14 * max |r (1 / 5)| |r (1 / 10)|) + 3 * R + 4 * r (1 / 10)) ≤ r (1 / 10) * (M - 1)) :
    ∃ F, ∀ f, F ≤ f → ∃ (P : MProgram) (setup : Online.Setup) (n : Node (ofProgram P)) (rows : List (Row (ofProgram P))),
      mainOneHypothesis Config.shipped 9 names round (Config.stodDec r)
        (fun p skip => (nodeSeeded N mk rad rnd (limited wenv f) p skip).map ofProgram) commonRows.server =
          some ⟨ofProgram P, start (ofProgram P) false setup⟩ ∧
      setup.topic = "/base_scan".toList ∧ P.kind = .tbm .consistent ∧ P.cfg.slam.scale = r (1 / 10) ∧
      (start (ofProgram P) false setup).run ds = some n ∧ n.sent = rows.flatMap Row.out ∧
      rows.map (fun r => (r.d, r.t)) = found "odom_combined".toList ds ∧
      Serves (ofProgram P) P.start (rows.map fun r => (r.d.msg, planar r.t)) (rows.map Row.s) ∧
      ∀ pre (row : Row (ofProgram P)) post, rows = pre ++ row :: post → ∃ corr,
        corr.mul row.t.flat = ⟨Pub.yaw row.s.st.pose.theta, ![row.s.st.pose.x, row.s.st.pose.y, 0]⟩ ∧
        row.out = .transform row.d.clock.correction "map".toList "odom_combined".toList corr ::
          .transform row.d.clock.pose "map".toList "robot_pose".toList
            ⟨Pub.yaw row.s.st.pose.theta, ![row.s.st.pose.x, row.s.st.pose.y, 0]⟩ ::
          (if row.d.clock.checked.secs - lastMap pre < 5 then []
            else [.grid "map".toList row.d.clock.loaded (Dump.gridMsg (Runner.viewOf P row.s.st.map))]) := by
  obtain ⟨srv, t, h1, h2, h3, h4⟩ := Config.common_node (r := r) round rad rnd names hnames
  obtain ⟨i1, i2, i3, i4, -, i6, i7⟩ := Online.common_io h2 h3 round (Config.stodDec r)
  obtain ⟨m, hm, -, hw⟩ := Config.viny_world F rad rnd
  rw [hw] at h4
  have hsen := viny_sensible F rnd m (by omega)
  set setup := setupOf round (.ofServer round (Config.stodDec r) srv) srv with hsetup
  obtain ⟨F', hF⟩ := seeded_node_total (N := N) (mk := mk) (w := Config.vinyWorld r rnd m) (wenv := wenv)
    (b := 100 * (14 * max |r (1 / 5)| |r (1 / 10)|)) hsen rfl trivial hcf ⟨hlive, by norm_num⟩ (fun h => h.elim)
    M hMok hl hR hS setup false ds (by rw [i2]; exact hodo) (by
      rw [i2, i7]
      intro p hp
      obtain ⟨-, m1, m2, m3, m4, m5⟩ := hds p hp
      refine ⟨m1, m2, m3, ⟨m4, m5⟩, fun pts _ => ?_⟩
      cases pts with
      | nil => exact .inl rfl
      | cons a l => exact .inr (by simp [Config.vinyWorld])) (by
    have e : driftReach (Config.vinyWorld r rnd m).matcher.drift = 0 := by simp [driftReach, Config.vinyWorld]
    rw [e, add_zero, i2]
    exact hN)
  refine ⟨F', fun f hle => ?_⟩
  obtain ⟨P, hP, n, hn⟩ := hF f hle
  have hnode : nodeSeeded N mk rad rnd (limited wenv f) (.ofServer round (Config.stodDec r) srv) setup.skipExceeding = some P := by
    rw [nodeSeeded, h4]
    exact hP
  obtain ⟨hkind, hsc⟩ : P.kind = .tbm .consistent ∧ P.cfg.slam.scale = r (1 / 10) := by
    have h := hP
    unfold assembleSeeded at h
    simp only [Config.vinyWorld, Option.bind_eq_some_iff, Option.map_eq_some_iff] at h
    obtain ⟨s, -, mm, -, rfl⟩ := h
    exact ⟨rfl, rfl⟩
  obtain ⟨rows, hr, -, hs⟩ := Online.node_run hn
  have hall : rows.map (fun r => (r.d, r.t)) = found "odom_combined".toList ds := hr.all.trans (by rw [i2])
  refine ⟨P, setup, n, rows, ?_, i1, hkind, hsc, hn, hs, hall, hr.served, fun pre row post e => ?_⟩
  · unfold mainOneHypothesis
    rw [h1, Option.bind_some]
    simp only
    rw [hnode]
    rfl
  · obtain ⟨pose, view, corr, k1, k2, k3, k4⟩ := hr.sends pre row post e
    cases k1
    cases k2
    have hrig : row.t.IsRigid := (hds (row.d, row.t) (by rw [← hall]; exact List.mem_map_of_mem (by rw [e]; simp))).1
    refine ⟨corr, k3 hrig, ?_⟩
    rw [k4, i3, i4, i6, i2]
    rfl

/-! ## Non-vacuity -/

/-- The GMapping node with its twenty particles and their generators handles three of four scans, and sends at least six transforms. -/
example : ∃ (P : GSeededProgram Unit) (setup : Online.Setup) (n : Node (ofSeededGmapping constant (fun _ => ()) P)),
    mainLaunched true (fun _ => 0) (Config.stodDec Float.rne)
      (fun p skip => (nodeSeededGmapping constant gLeastEnv gRnd (fun _ => ()) p skip).map (ofSeededGmapping constant fun _ => ()))
        (mitRows Float.rne).server = some ⟨_, start (ofSeededGmapping constant (fun _ => ()) P) true setup⟩ ∧
    (start (ofSeededGmapping constant (fun _ => ()) P) true setup).run Online.exampleDeliveries = some n ∧ 6 ≤ n.sent.length := by
  have hr := (fair_nearest Float.rne_nearest).rel (1 / 20) (by norm_num [abs_of_pos]) (by norm_num [abs_of_pos])
  have hr' := (fair_nearest Float.rne_nearest).rel (1 / 10) (by norm_num [abs_of_pos]) (by norm_num [abs_of_pos])
  obtain ⟨P, setup, h1, -, -, -, h⟩ := online_gmapping_mit (N := constant) (engines := fun _ => ()) (res := fun _ => ()) (wenv := gLeastEnv)
    Float.rne_nearest (fun _ => 0) (fun x hx => (gRnd_spec x hx).1) (fun _ => constant_lively _) _ (fun x hx => (gRnd_spec x hx).2)
    (by norm_num [gRnd])
    (by
      have : ((Finset.range 1025).image fun n : Nat => (n : ℝ) / 1024).card ≤ 1025 := Finset.card_image_le.trans (by simp)
      simp only [gLeastEnv]
      omega) 4000000
    (by intro v hv; simp only [gLeastEnv, decide_eq_true_eq]; omega) (by norm_num [gLeastEnv]) (R := 30) (S := 1) (by norm_num) (by norm_num)
  obtain ⟨n, rows, h2, h3, h4, -, -, h5⟩ := h Online.exampleDeliveries (by
      rw [Online.example_found]
      simp only [Online.exampleDeliveries, List.tail_cons, List.map_cons, List.map_nil, List.isChain_cons_cons, List.isChain_singleton,
        planar, Online.exampleTr]
      norm_num) (by
      rw [Online.example_found]
      intro p hp
      obtain ⟨d, hd, rfl⟩ := List.mem_map.1 hp
      have hb : d.msg.body = ⟨0, 0, 1, 0, 30, [some 20]⟩ := by
        simp only [Online.exampleDeliveries, List.tail_cons, List.mem_cons, List.not_mem_nil, or_false] at hd
        rcases hd with rfl | rfl | rfl <;> rfl
      simp only [hb]
      refine ⟨Pub.yaw_rigid 0, by simp, by norm_num [gLeastEnv], by norm_num, by norm_num, by norm_num⟩) (by
      rw [Online.example_found]
      have := abs_le.1 hr
      have := abs_le.1 hr'
      norm_num [Online.exampleDeliveries] at *
      linarith)
  refine ⟨P, setup, n, h1, h2, ?_⟩
  rw [Online.example_found] at h4
  obtain ⟨a, b, c, rfl⟩ := List.length_eq_three.1 (show rows.length = 3 by
    rw [← List.length_map (f := fun r : Row (ofSeededGmapping constant (fun _ => ()) P) => (r.d, r.t)), h4]
    rfl)
  obtain ⟨pa, va, ca, -, -, -, ea⟩ := h5 [] a [b, c] rfl
  obtain ⟨pb, vb, cb, -, -, -, eb⟩ := h5 [a] b [c] rfl
  obtain ⟨pc, vc, cc, -, -, -, ec⟩ := h5 [a, b] c [] rfl
  rw [h3]
  simp only [List.flatMap_cons, List.flatMap_nil, List.length_append, ea, eb, ec, List.length_cons]
  omega

/-- The node of launch/1h_config_common.launch with the generator of the example. -/
example : ∃ names, ∃ F : Nat, ∀ f, F ≤ f → ∃ (P : MProgram) (setup : Online.Setup) (n : Node (ofProgram P)),
    mainOneHypothesis Config.shipped 9 names (fun _ => 0) (Config.stodDec Float.rne)
      (fun p skip => (nodeSeeded constant (fun _ => ()) 1 7 (limited exampleEnv f) p skip).map ofProgram) commonRows.server =
        some ⟨ofProgram P, start (ofProgram P) false setup⟩ ∧
    (start (ofProgram P) false setup).run Online.exampleDeliveries = some n ∧ 6 ≤ n.sent.length := by
  obtain ⟨names, hnames⟩ := Config.names_exist Config.shipped 9
  have hr := (fair_nearest Float.rne_nearest).rel (1 / 5) (by norm_num [abs_of_pos]) (by norm_num [abs_of_pos])
  have hr' := (fair_nearest Float.rne_nearest).rel (1 / 10) (by norm_num [abs_of_pos]) (by norm_num [abs_of_pos])
  obtain ⟨F, hF⟩ := online_seeded_common (N := constant) (mk := fun _ => ()) (rnd := 7) (rad := 1) (wenv := exampleEnv)
    (fair_nearest Float.rne_nearest) (fun _ => 0) (by decide) (constant_lively _) 1000000
    (by intro v hv; simp only [exampleEnv, decide_eq_true_eq]; omega) (by decide) names hnames (R := 30) (S := 1) (by norm_num) (by norm_num)
    Online.exampleDeliveries (by
      rw [Online.example_found]
      simp only [Strides, Online.exampleDeliveries, List.tail_cons, List.map_cons, List.map_nil, List.isChain_cons_cons,
        List.isChain_singleton, planar, Online.exampleTr]
      norm_num) (by
      rw [Online.example_found]
      intro p hp
      obtain ⟨d, hd, rfl⟩ := List.mem_map.1 hp
      have hb : d.msg.body = ⟨0, 0, 1, 0, 30, [some 20]⟩ := by
        simp only [Online.exampleDeliveries, List.tail_cons, List.mem_cons, List.not_mem_nil, or_false] at hd
        rcases hd with rfl | rfl | rfl <;> rfl
      simp only [hb]
      refine ⟨Pub.yaw_rigid 0, by simp, by norm_num [exampleEnv], by norm_num, by norm_num, by norm_num⟩) (by
      rw [Online.example_found]
      have e1 := abs_le.1 hr
      have e2 := abs_le.1 hr'
      norm_num at e1 e2
      rw [abs_of_pos (by linarith), abs_of_pos (by linarith), max_eq_left (by linarith)]
      norm_num [Online.exampleDeliveries]
      linarith)
  refine ⟨names, F, fun f hf => ?_⟩
  obtain ⟨P, setup, n, rows, h1, -, -, -, h2, h3, h4, -, h5⟩ := hF f hf
  refine ⟨P, setup, n, h1, h2, ?_⟩
  rw [Online.example_found] at h4
  obtain ⟨a, b, c, rfl⟩ := List.length_eq_three.1 (show rows.length = 3 by
    rw [← List.length_map (f := fun r : Row (ofProgram P) => (r.d, r.t)), h4]
    rfl)
  obtain ⟨ca, -, ea⟩ := h5 [] a [b, c] rfl
  obtain ⟨cb, -, eb⟩ := h5 [a] b [c] rfl
  obtain ⟨cc, -, ec⟩ := h5 [a, b] c [] rfl
  rw [h3]
  simp only [List.flatMap_cons, List.flatMap_nil, List.length_append, ea, eb, ec, List.length_cons]
  omega

end Slam.Random
