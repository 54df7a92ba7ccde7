import Verif.Online.Roam
import Verif.Online.Shipped

/-!
# C100: the node of launch/credibilist_mit_run.launch
-/

set_option autoImplicit false
set_option linter.unusedSectionVars false

namespace Slam.Online
open Slam.Config (Str Table Server Provider Fair parseArgs credibilistRows credibilistWorld)
open Slam.Pub (Tr)
open Slam.Runner (Engine LaserMsg Serves ofProgram datum)
open Slam.Float (Nearest)
open Slam.Whole

theorem credibilist_sensible {r : ℝ → ℝ} (F : Fair r) (n : Int) (hn : 0 ≤ n) (h0 : 0 < r (1 / 20)) : Sensible (credibilistWorld r n) where
  growing := .inl rfl
  single := rfl
  size := ⟨hn, hn⟩
  scale := h0
  occupied := ⟨fair_unit F (by norm_num) (by norm_num), by norm_num [Cells.Unit01, credibilistWorld]⟩
  empty := ⟨fair_unit F (by norm_num) (by norm_num), by norm_num [Cells.Unit01, credibilistWorld]⟩
  qualities := by norm_num [Cells.Unit01, credibilistWorld]

/-- What the launch file says about the input and output of the node. -/
theorem credibilist_io (r : ℝ → ℝ) (round : ℝ → Int) (stod : Str → Option ℝ) :
    let srv := (credibilistRows r).server
    let setup := setupOf round (.ofServer round stod srv) srv
    setup.topic = "/base_scan".toList ∧ setup.odomFrame = "odom_combined".toList ∧ setup.mapFrame = "map".toList ∧
      setup.robotFrame = "robot_pose".toList ∧ setup.async = false ∧ setup.interval = 5 ∧ setup.skipExceeding = false := by
  intro srv
  have at_ : ∀ k : String, srv k.toList = ((credibilistRows r).find? fun r => decide (r.1 = k)).map fun r => r.2.1 :=
    fun k => Config.Rows.server_at _ k
  have e1 := at_ "in/lscan2D/ros/topic/name"
  have e2 := at_ "in/odometry/ros/tf/odom_frame_id"
  have e3 := at_ "ros/tf/map_frame_id"
  have e4 := at_ "ros/tf/robot_pose_frame_id"
  have e5 := at_ "ros/tf/async_correction"
  have e6 := at_ "ros/rviz/map_publishing_rate"
  have e7 := at_ "in/lscan2D/skip_exceeding_vals"
  simp only [credibilistRows, List.find?_cons, List.find?_nil, decide_true, Option.map_some, Option.map_none,
    String.reduceEq, decide_false] at e1 e2 e3 e4 e5 e6 e7
  refine ⟨?_, ?_, ?_, ?_, ?_, ?_, ?_⟩
  · show Config.launchStr srv _ _ = _
    rw [Config.launchStr, Config.paramStr, e1]
    rfl
  · show Config.launchStr srv _ _ = _
    rw [Config.launchStr, Config.paramStr, e2]
    rfl
  · show Config.paramStr srv _ _ = _
    rw [Config.paramStr, e3]
  · show Config.paramStr srv _ _ = _
    rw [Config.paramStr, e4]
  · show Config.paramBool srv _ _ = _
    rw [Config.paramBool, e5]
  · show Config.paramDbl srv _ _ = _
    rw [Config.paramDbl, e6]
  · exact ((Config.launch_typed round stod srv _).2.2.2 (.inl e7)).2.2.1 false

/-- **The node of launch/credibilist_mit_run.launch as a whole (C100).** It listens to `/base_scan` and runs the credibilist SLAM: hill climbing
on a growing map of cells of (about) five centimetres. Let scans be delivered in any order, with any clock; for those whose
transform to `odom_combined` is known, let it be rigid, the odometry move by at most `S` along each axis from each to the next, and the
scan be well-formed with ranges up to `R`; let everything that may be reached be within the integers the traversal copes with. Then,
with every bound on iterations from some `F` on, the node is not aborted; each of these scans, and no other, is given to the SLAM, in
order; for each, the correction from `map` to `odom_combined` is sent, which chained with the odometry gives the SLAM's pose, and the
pose as the transform from `map` to `robot_pose`; and the map, exactly if five seconds have passed since the last; and all values of the
maps are percentages. -/
theorem online_credibilist {r : ℝ → ℝ} (Q : Nearest r) (round : ℝ → Int) {rad : ℝ} {rnd : Nat} {wenv : Whole.Env}
    {sample : Int → Nat → ℝ → ℝ → Poses.Delta ℝ} (hcf : 0 < wenv.cellFuel)
    (N : Int) (hNok : ∀ v, |v| ≤ 6 * N → wenv.ok v = true) (hl : 4 * N + 2 ≤ wenv.lineFuel)
    {R S : ℝ} (hR : 0 ≤ R) (hS : 0 ≤ S) (ds : List Delivery)
    (hodo : Strides S ⟨0, 0, 0⟩ ((found "odom_combined".toList ds).map fun p => (planar p.2, p.1.msg.body)))
    (hds : ∀ p ∈ found "odom_combined".toList ds, p.2.IsRigid ∧
      none ∉ p.1.msg.body.ranges ∧ |p.1.msg.body.angleMin + (p.1.msg.body.ranges.length : ℝ) * p.1.msg.body.increment -
        p.1.msg.body.increment - p.1.msg.body.angleMax| ≤ wenv.tol ∧
      0 ≤ p.1.msg.body.rangeMin ∧ 0 ≤ p.1.msg.body.rangeMax ∧ p.1.msg.body.rangeMax ≤ R)
    (hN : (found "odom_combined".toList ds).length * (S + 1 / 10 + 3 * R + 4 * r (1 / 20)) ≤ r (1 / 20) * (N - 1)) :
    ∃ F, ∀ f, F ≤ f → ∃ (P : MProgram) (setup : Setup) (n : Node (ofProgram P)) (rows : List (Row (ofProgram P))),
      mainLaunched false round (Config.stodDec r) (fun p skip => (nodeCredibilist rad rnd (bounded wenv f) sample p skip).map ofProgram)
        (credibilistRows r).server = some ⟨ofProgram P, start (ofProgram P) false setup⟩ ∧
      setup.topic = "/base_scan".toList ∧ P.kind = .tbm .credibilist ∧ P.cfg.slam.scale = r (1 / 20) ∧
      (start (ofProgram P) false setup).run ds = some n ∧ n.sent = rows.flatMap Row.out ∧
      rows.map (fun r => (r.d, r.t)) = found "odom_combined".toList ds ∧
      Serves (ofProgram P) P.start (rows.map fun r => (r.d.msg, planar r.t)) (rows.map Row.s) ∧
      (∀ m ∈ gridsOf n.sent, m.resolution = r (1 / 20) ∧ ∀ v ∈ m.data, 0 ≤ v ∧ v ≤ 100) ∧
      ∀ pre (row : Row (ofProgram P)) post, rows = pre ++ row :: post → ∃ corr,
        corr.mul row.t.flat = ⟨Pub.yaw row.s.st.pose.theta, ![row.s.st.pose.x, row.s.st.pose.y, 0]⟩ ∧
        row.out = .transform row.d.clock.correction "map".toList "odom_combined".toList corr ::
          .transform row.d.clock.pose "map".toList "robot_pose".toList
            ⟨Pub.yaw row.s.st.pose.theta, ![row.s.st.pose.x, row.s.st.pose.y, 0]⟩ ::
          (if row.d.clock.checked.secs - lastMap pre < 5 then []
            else [.grid "map".toList row.d.clock.loaded (Dump.gridMsg (Runner.viewOf P row.s.st.map))]) := by
  have Fr := Config.fair_nearest Q
  have h0 : 0 < r (1 / 20) := (Fr.ceil20 (m := 100) (by norm_num)).1
  obtain ⟨m, hm, -, hw⟩ := Config.credibilist_mit_launch Q round rad rnd
  obtain ⟨i1, i2, i3, i4, -, i6, i7⟩ := credibilist_io r round (Config.stodDec r)
  have hsen := credibilist_sensible Fr m (by omega) h0
  set setup := setupOf round (.ofServer round (Config.stodDec r) (credibilistRows r).server) (credibilistRows r).server with hsetup
  obtain ⟨F, hF⟩ := roam_node_total (w := credibilistWorld r m) (wenv := wenv) (sample := sample) (b := 1 / 10) (oope := .obstacle)
    (oie := .discrepancy) hsen rfl trivial hcf (show (1 / 10 : ℝ) = |1 / 10| by norm_num) (fun _ e => by cases e)
    N hNok hl hR hS setup false ds (by rw [i2]; exact hodo) (by
      rw [i2, i7]
      intro p hp
      obtain ⟨-, m1, m2, m3, m4, m5⟩ := hds p hp
      refine ⟨m1, m2, m3, ⟨m4, m5⟩, fun pts _ => ?_⟩
      cases pts with
      | nil => exact .inl rfl
      | cons a l => exact .inr (by simp [credibilistWorld])) (by
    have e : driftReach (credibilistWorld r m).matcher.drift = 0 := by simp [driftReach, credibilistWorld]
    rw [e, add_zero, i2]
    exact hN)
  refine ⟨F, fun f hle => ?_⟩
  obtain ⟨P, hP, n, hn⟩ := hF f hle
  have hnode : nodeCredibilist rad rnd (bounded wenv f) sample (.ofServer round (Config.stodDec r) (credibilistRows r).server)
      setup.skipExceeding = some P := by
    rw [nodeCredibilist, hw]
    exact hP
  obtain ⟨hconf, hbeh⟩ := assembled_any_behaves (env := bounded wenv f) hsen rfl trivial hcf hP
  obtain ⟨rows, hr, -, hs⟩ := node_run hn
  have hsc : P.cfg.slam.scale = r (1 / 20) := hconf.scale
  have hall : rows.map (fun r => (r.d, r.t)) = found "odom_combined".toList ds := hr.all.trans (by rw [i2])
  have hkind : P.kind = .tbm .credibilist := by
    obtain ⟨s, m', -, -, rfl⟩ := assembleAny_some (oope := .obstacle) (oie := .discrepancy) rfl hP
    rfl
  refine ⟨P, setup, n, rows, ?_, i1, hkind, hsc, hn, hs, hall, hr.served, fun g hg => ?_, fun pre row post e => ?_⟩
  · unfold mainLaunched
    simp only
    rw [hnode]
    rfl
  · have hk : P.kind = .tbm .credibilist := hkind
    obtain ⟨h1, h2⟩ := grids_of_behaves hsc hbeh (by rw [hk]; simp) hn hg
    refine ⟨h1, fun v hv => ?_⟩
    rcases h2 v hv with e | ⟨e, -⟩
    · exact e
    · rw [hk] at e; cases e
  · obtain ⟨pose, view, corr, k1, k2, k3, k4⟩ := hr.sends pre row post e
    cases k1
    cases k2
    have hrig : row.t.IsRigid := (hds (row.d, row.t) (by rw [← hall]; exact List.mem_map_of_mem (by rw [e]; simp))).1
    refine ⟨corr, k3 hrig, ?_⟩
    rw [k4, i3, i4, i6, i2]
    rfl

/-! ## Non-vacuity -/

/-- The credibilist node handles three of four scans, from some bound on iterations on. -/
example : ∃ F, ∀ f, F ≤ f → ∃ (P : MProgram) (setup : Setup) (n : Node (ofProgram P)),
    mainLaunched false (fun _ => 0) (Config.stodDec Float.rne)
      (fun p skip => (nodeCredibilist 1 7 (bounded exampleEnv f) (fun _ _ _ _ => ⟨1, -1, 1⟩) p skip).map ofProgram)
        (credibilistRows Float.rne).server = some ⟨ofProgram P, start (ofProgram P) false setup⟩ ∧
    (start (ofProgram P) false setup).run exampleDeliveries = some n ∧ 3 ≤ n.sent.length := by
  have hr := (Config.fair_nearest Float.rne_nearest).rel (1 / 20) (by norm_num [abs_of_pos]) (by norm_num [abs_of_pos])
  obtain ⟨F, hF⟩ := online_credibilist (rnd := 7) (rad := 1) (wenv := exampleEnv) (sample := fun _ _ _ _ => ⟨1, -1, 1⟩)
    Float.rne_nearest (fun _ => 0) (by decide) 1000000
    (by intro v hv; simp only [exampleEnv, decide_eq_true_eq]; omega) (by decide) (R := 30) (S := 1) (by norm_num) (by norm_num)
    exampleDeliveries (by
      rw [example_found]
      simp only [Strides, exampleDeliveries, List.tail_cons, List.map_cons, List.map_nil, List.isChain_cons_cons, List.isChain_singleton,
        planar, exampleTr]
      norm_num) (by
      rw [example_found]
      intro p hp
      obtain ⟨d, hd, rfl⟩ := List.mem_map.1 hp
      have hb : d.msg.body = ⟨0, 0, 1, 0, 30, [some 20]⟩ := by
        simp only [exampleDeliveries, List.tail_cons, List.mem_cons, List.not_mem_nil, or_false] at hd
        rcases hd with rfl | rfl | rfl <;> rfl
      simp only [hb]
      refine ⟨Pub.yaw_rigid 0, by simp, by norm_num [exampleEnv], by norm_num, by norm_num, by norm_num⟩) (by
      rw [example_found]
      have := abs_le.1 hr
      norm_num [exampleDeliveries] at this ⊢
      linarith)
  refine ⟨F, fun f hf => ?_⟩
  obtain ⟨P, setup, n, rows, h1, -, -, -, h2, h3, h4, -, -, h5⟩ := hF f hf
  refine ⟨P, setup, n, h1, h2, ?_⟩
  rw [example_found] at h4
  obtain ⟨a, b, c, rfl⟩ := List.length_eq_three.1 (show rows.length = 3 by
    rw [← List.length_map (f := fun r : Row (ofProgram P) => (r.d, r.t)), h4]
    rfl)
  obtain ⟨ca, -, ea⟩ := h5 [] a [b, c] rfl
  obtain ⟨cb, -, eb⟩ := h5 [a] b [c] rfl
  rw [h3, List.flatMap_cons, List.flatMap_cons, List.length_append, List.length_append, ea, eb]
  simp only [List.length_cons]
  omega

/-- Brute force with its default parameters: the robot stays within 70 centimetres of what was reached before. -/
example (sample : Int → Nat → ℝ → ℝ → Poses.Delta ℝ) : ∃ b ≤ 7 / 10, MatcherReach sample b
    (.bruteForce ⟨-(1 / 2), 1 / 2, 1 / 10⟩ ⟨-(1 / 2), 1 / 2, 1 / 10⟩ ⟨-(5 * (1 / 60)), 5 * (1 / 60), 1 / 60⟩) := by
  have hok : (bfParams ⟨-(1 / 2), 1 / 2, 1 / 10⟩ ⟨-(1 / 2), 1 / 2, 1 / 10⟩ ⟨-(5 * (1 / 60)), 5 * (1 / 60), 1 / 60⟩).Ok := by
    constructor <;> simp only [bfParams] <;> norm_num
  refine ⟨3 / 5, by norm_num, hok, fun o ho => ?_, by norm_num⟩
  have h := Matcher.grid_within _ hok o ho
  have e : max (max (max |-(1 / 2 : ℝ)| |1 / 2|) (max |-(1 / 2 : ℝ)| |1 / 2|)) 0 + max (1 / 10) (1 / 10) = 3 / 5 := by
    rw [abs_neg, abs_of_pos (by norm_num), max_self, max_self, max_self, max_eq_left (by norm_num)]
    norm_num
  simp only [bfParams] at h
  rw [e] at h
  exact h

/-- A file of a user that is read before TinySLAM's configuration, and so is preferred to it. -/
def ownText : Str := chars% "slam/scmtch/type=HC\n"

def ownPath : Str := chars% "config/own.properties"

/-- The repository, with that file. -/
def ownFiles : Config.Files where
  content p := if p = ownPath then some ownText else Config.shipped.content p
  resolve := Config.shipped.resolve

/-- The repository, with that file and a bag. -/
def ownFs : Runner.Fs := fun p => if p = chars% "a.bag" then some [1] else (ownFiles.content p).map Runner.bytes

def ownLine : List Str :=
  [chars% "tiny", chars% "a.bag", chars% "-p", ownPath, chars% "-p", chars% "config/bag_runner/tiny_mit.properties", chars% "-t", chars% "traj.txt"]

theorem own_args : parseArgs ownLine = ⟨true, chars% "tiny", chars% "a.bag", some (chars% "traj.txt"), [], false,
    [ownPath, chars% "config/bag_runner/tiny_mit.properties"], []⟩ := by decide +kernel

theorem own_after {f : Str} (h : Runner.After ownLine "-t".toList f) : f = chars% "traj.txt" := by
  obtain ⟨pre, post, e⟩ := h
  have e' : ownLine = pre ++ ['-', 't'] :: f :: post := e
  unfold ownLine at e'
  rcases pre with _ | ⟨a1, _ | ⟨a2, _ | ⟨a3, _ | ⟨a4, _ | ⟨a5, _ | ⟨a6, _ | ⟨a7, _ | ⟨a8, pre⟩⟩⟩⟩⟩⟩⟩⟩ <;>
    simp only [List.cons_append, List.nil_append, List.cons.injEq] at e' <;>
    first
    | exact absurd e'.1 (by decide)
    | exact absurd e'.2.1 (by decide)
    | exact absurd e'.2.2.1 (by decide)
    | exact absurd e'.2.2.2.1 (by decide)
    | exact absurd e'.2.2.2.2.1 (by decide)
    | exact absurd e'.2.2.2.2.2.1 (by decide)
    | exact e'.2.2.2.2.2.2.2.1.symm
    | exact absurd e'.2.2.2.2.2.2.2.1 (by decide)
    | (obtain ⟨-, -, -, -, -, -, -, -, e'⟩ := e'; cases pre <;> simp at e')

/-- What the runner asks for itself. -/
def inputKeys : List Str :=
  [chars% "in/lscan2D/ros/topic/enabled", chars% "in/lscan2D/ros/topic/name", chars% "in/odometry/ros/tf/enabled",
    chars% "in/odometry/ros/tf/name", chars% "in/odometry/ros/tf/odom_frame_id", chars% "in/odometry/ros/tf/ignore"]

theorem own_read : ∃ t, Config.appendAll ownFiles 9 [ownPath, chars% "config/bag_runner/tiny_mit.properties"] Table.empty = some t ∧
    (∀ k ∈ Config.knownProperties ++ ["in/lscan2D/skip_exceeding_vals"], t k.toList = (Config.withMatcher (chars% "HC")).lookup k.toList) ∧
    inputKeys.map t = [some (chars% "true"), some (chars% "/base_scan"), some (chars% "true"), some (chars% "/tf"),
      some (chars% "odom_combined"), none] := by
  have h : ((Config.appendAll ownFiles 9 [ownPath, chars% "config/bag_runner/tiny_mit.properties"] Table.empty).map fun t =>
      (Config.knownChars.map t, inputKeys.map t)) = some (Config.knownChars.map fun k => (Config.withMatcher (chars% "HC")).lookup k,
        [some (chars% "true"), some (chars% "/base_scan"), some (chars% "true"), some (chars% "/tf"), some (chars% "odom_combined"), none]) := by
    decide +kernel
  rw [Option.map_eq_some_iff] at h
  obtain ⟨t, h1, h2⟩ := h
  rw [Prod.mk.injEq] at h2
  refine ⟨t, h1, fun k hk => ?_, h2.2⟩
  have h3 := h2.1
  rw [List.map_inj_left] at h3
  apply h3
  rw [← Config.known_chars]
  exact List.mem_map_of_mem hk

open Slam.Runner in
/-- A whole run with hill climbing over a bag with two scans: the runner ends normally, with two entries in the trajectory, the same
for every bound on iterations from some `F` on. -/
example : ∃ (F : Nat) (p q : Poses.Pose ℝ), ∀ f, F ≤ f →
    let run := Runner.main (bagRunner (Config.stodDec Float.rne) (1 / 60) 7 (bounded exampleEnv f) (fun _ _ _ _ => ⟨1, -1, 1⟩)
      exampleSurroundings) ownFs ownLine
    run.exit = some 0 ∧ run.fs (chars% "traj.txt") =
      some (bytes (Text.tumFile [⟨10, 500000000, p.x, p.y, p.theta⟩, ⟨11, 500000000, q.x, q.y, q.theta⟩])) := by
  obtain ⟨t, ht, h2, hin⟩ := own_read
  simp only [inputKeys, List.map_cons, List.map_nil, List.cons.injEq, and_true] at hin
  obtain ⟨k1, k2, k3, k4, k5, k6⟩ := hin
  have hFr := Config.fair_nearest Float.rne_nearest
  obtain ⟨n, hn, -, hw⟩ := Config.tiny_hc_world hFr (1 / 60) 7
  have hw' := (Config.init1h_congr (Config.stodDec Float.rne) (1 / 60) 7 t _ fun k hk => h2 k (known_in hk)).trans hw
  have hs : skipExceeding t = false := skip_of_listed h2 (by decide +kernel)
  have h0 := tiny_sensible hFr 7 n (by omega)
  have hsen : Sensible ({ Config.tinyWorld Float.rne 7 n with matcher := ⟨.hillClimbing 6 (1 / 10) (1 / 10) false, ⟨.std .obstacle .discrepancy, .even, 0, -1⟩, false⟩ }) :=
    ⟨h0.growing, h0.single, h0.size, h0.scale, h0.occupied, h0.empty, h0.qualities⟩
  have hrne : (1 / 20 : ℝ) ≤ Float.rne (1 / 10) ∧ Float.rne (1 / 10 : ℝ) ≤ (1 : ℝ) := by
    have h := hFr.rel (1 / 10) (by norm_num [abs_of_pos]) (by norm_num [abs_of_pos])
    have h' := abs_le.1 h
    have e : |(1 / 10 : ℝ)| / 2 ^ 50 ≤ 1 / 20 := by norm_num [abs_of_pos]
    generalize |(1 / 10 : ℝ)| / 2 ^ 50 = t at h' e
    constructor <;> linarith [h'.1, h'.2]
  set rs : List (Bag.Rec LaserMsg (TransformMsg Unit)) :=
    [.tf [⟨chars% "odom_combined", chars% "laser", ()⟩], .msg (exampleScan 0), .msg (exampleScan 1)] with hrs
  have hmsgs : Bag.msgs rs = [exampleScan 0, exampleScan 1] := rfl
  have hread : reader exampleSurroundings t = mitReader exampleSurroundings := by
    have e1 : Config.getStr t "in/odometry/ros/tf/odom_frame_id".toList "odom_combined".toList = chars% "odom_combined" := by
      unfold Config.getStr
      rw [show t "in/odometry/ros/tf/odom_frame_id".toList = _ from k5]
      rfl
    have e2 : Config.tfIgnores t = fun _ => [] := by
      unfold Config.tfIgnores Config.getStr
      rw [show t "in/odometry/ros/tf/ignore".toList = none from k6]
      rfl
    unfold reader mitReader
    rw [e1, e2]
    simp [Config.shouldSkip]
  obtain ⟨P, hP⟩ := launched_any_starts (env := exampleEnv) (sample := fun _ _ _ _ => ⟨1, -1, 1⟩) (oope := .obstacle) (oie := .discrepancy)
    hw' hsen rfl (by intro _ _ _ _ _; simp)
  have hfiles : (exampleSurroundings.files ownFs).content = fun p => if p = chars% "a.bag" then some [Char.ofNat 1] else ownFiles.content p := by
    funext p
    show (ownFs p).map chars = _
    unfold ownFs
    by_cases e : p = chars% "a.bag"
    · rw [if_pos e, if_pos e]; rfl
    · rw [if_neg e, if_neg e, Option.map_map]
      cases ownFiles.content p with
      | none => rfl
      | some s => simp only [Option.map_some, Function.comp, chars_bytes]
  have hset : Runner.Setup (bagRunner (Config.stodDec Float.rne) (1 / 60) 7 exampleEnv (fun _ _ _ _ => ⟨1, -1, 1⟩) exampleSurroundings) ownFs
      ownLine t (ofProgram P) rs := by
    refine ⟨by rw [own_args], ⟨fun p => '/' ∈ p, ?_, ?_, ?_⟩, ?_, .inl ⟨by rw [own_args]; exact .inl rfl, ?_⟩, ?_, ?_, ?_, ?_⟩
    · rw [own_args]
      decide
    · intro p c name _ _ _
      exact mem_resolve p name
    · intro f hf
      rw [own_after hf]
      decide
    · rw [own_args]
      have hc : ∀ p, '/' ∈ p → ownFiles.content p = (exampleSurroundings.files ownFs).content p := by
        intro p hp
        rw [hfiles]
        exact (if_neg (by rintro rfl; revert hp; decide)).symm
      have hap : ∀ p, '/' ∈ p → ∀ store, Config.append (exampleSurroundings.files ownFs) 9 p store = Config.append ownFiles 9 p store := by
        intro p hp store
        exact Runner.append_congr (exampleSurroundings.files ownFs) ownFiles rfl (fun p => '/' ∈ p) (fun p c name _ _ _ => mem_resolve p name) hc 9 p hp store
      show Config.appendAll (exampleSurroundings.files ownFs) 9 _ _ = _
      refine Eq.trans ?_ ht
      unfold Config.appendAll
      rw [hap _ (by decide)]
      refine congrArg _ (funext fun store => ?_)
      unfold Config.appendAll
      rw [hap _ (by decide)]
      rfl
    · show Option.map _ _ = _
      rw [hP]
      rfl
    · unfold Config.getBool
      rw [show t "in/lscan2D/ros/topic/enabled".toList = _ from k1]
      rfl
    · unfold Config.getBool
      rw [show t "in/odometry/ros/tf/enabled".toList = _ from k3]
      rfl
    · rw [own_args]
      intro hf
      have := own_after hf
      revert this
      decide
    · rw [own_args]
      refine ⟨[1], exampleBag, rfl, rfl, ?_⟩
      unfold Config.getStr
      rw [show t "in/lscan2D/ros/topic/name".toList = _ from k2, show t "in/odometry/ros/tf/name".toList = _ from k4]
      have e : (exampleBag.filter fun b => decide (b.topic = chars% "/base_scan") || decide (b.topic = chars% "/tf")) =
        [⟨chars% "/tf", .transforms [⟨chars% "odom_combined", chars% "laser", ()⟩]⟩, ⟨chars% "/base_scan", .laser (exampleScan 0)⟩,
          ⟨chars% "/base_scan", .laser (exampleScan 1)⟩] := rfl
      unfold Recorded
      rw [Option.getD_some, Option.getD_some, e]
      exact .cons (.inr ⟨by decide, rfl, _, rfl, rfl⟩) (.cons (.inl ⟨rfl, _, rfl, rfl⟩) (.cons (.inl ⟨rfl, _, rfl, rfl⟩) .nil))
  have hlook : ∀ (p : LaserMsg × Poses.Pose ℝ), Found (mitReader exampleSurroundings) rs p → p.2 = ⟨1 / 2, 0, 0⟩ := by
    rintro ⟨m, x⟩ ⟨pre, post, -, -, h⟩
    have e : ∀ c, (mitReader exampleSurroundings).lookup c m = if c then .ok ⟨1 / 2, 0, 0⟩ else .thrown := fun c => rfl
    rw [e] at h
    cases hc : Bag.cacheAfter (mitReader exampleSurroundings) pre with
    | false => rw [hc] at h; cases h
    | true =>
      rw [hc] at h
      simp only [if_true, Bag.Outcome.ok.injEq] at h
      exact h.symm
  obtain ⟨F, poses, hF⟩ := runner_roam_total (b := 1 / 10) (oope := .obstacle) (oie := .discrepancy) hset (by rw [own_args]; decide) hw' hsen rfl
    trivial (by decide) (show (1 / 10 : ℝ) = |1 / 10| by norm_num) (fun _ e => by cases e) 1000000
    (by intro v hv; simp only [exampleEnv, decide_eq_true_eq]; omega) (by decide) (R := 30) (S := 1) (by norm_num) (by norm_num)
    (by
      rw [hread]
      intro pre post m hpre hm
      rcases pre with _ | ⟨x, pre⟩
      · cases hm
      · simp only [hrs, List.cons_append, List.cons.injEq] at hpre
        obtain ⟨rfl, hpre⟩ := hpre
        have : Bag.cacheAfter (mitReader exampleSurroundings)
            (.tf [⟨chars% "odom_combined", chars% "laser", ()⟩] :: pre : List (Bag.Rec LaserMsg (TransformMsg Unit))) = true := by
          rcases pre with _ | ⟨x, _ | ⟨y, _ | ⟨z, pre⟩⟩⟩ <;> simp only [List.cons_append, List.nil_append, List.cons.injEq] at hpre
          · rfl
          · obtain ⟨rfl, -⟩ := hpre; rfl
          · obtain ⟨rfl, rfl, -⟩ := hpre; rfl
          · obtain ⟨-, -, h⟩ := hpre; cases h
        have e : ∀ m, (mitReader exampleSurroundings).lookup true m = .ok ⟨1 / 2, 0, 0⟩ := fun m => rfl
        rw [this, e]
        exact ⟨by simp, by simp⟩)
    (by rw [hread]; exact fun m _ => ⟨⟨1 / 2, 0, 0⟩, rfl⟩)
    (by
      rw [hread]
      intro hs h1 h2
      have e : hs.map datum = hs.map fun p => ((⟨1 / 2, 0, 0⟩ : Poses.Pose ℝ), p.1.body) :=
        List.map_congr_left fun p hp => by rw [datum, hlook p (h2 p hp)]
      rw [hmsgs] at h1
      obtain ⟨a, b, rfl⟩ := List.length_eq_two.1 (show hs.length = 2 by simpa using congrArg List.length h1)
      · rw [e]
        simp only [Strides, List.map_cons, List.map_nil, List.isChain_cons_cons, List.isChain_singleton]
        norm_num)
    (by
      intro m hm
      rw [hmsgs] at hm
      rcases List.mem_cons.1 hm with rfl | hm
      · refine ⟨by simp [exampleScan], by norm_num [exampleScan, exampleEnv], by norm_num [exampleScan], by norm_num [exampleScan], fun pts _ => ?_⟩
        cases pts with
        | nil => exact .inl rfl
        | cons a l => exact .inr (by simp [Config.tinyWorld])
      · cases List.mem_singleton.1 hm
        refine ⟨by simp [exampleScan], by norm_num [exampleScan, exampleEnv], by norm_num [exampleScan], by norm_num [exampleScan], fun pts _ => ?_⟩
        cases pts with
        | nil => exact .inl rfl
        | cons a l => exact .inr (by simp [Config.tinyWorld]))
    (by
      rw [hmsgs]
      have e1 : driftReach false = 0 := by simp [driftReach]
      show ((2 : Nat) : ℝ) * spread 1 (1 / 10 + driftReach false) 30 (Float.rne (1 / 10)) ≤ Float.rne (1 / 10) * (((1000000 : Int) : ℝ) - 1)
      rw [e1]
      unfold spread
      norm_num
      norm_num at hrne
      linarith [hrne.1, hrne.2])
  have hlen := (hF F le_rfl).2.1
  rw [hmsgs] at hlen
  match poses, hlen, hF with
  | [p, q], _, hF =>
    refine ⟨F, p, q, fun f hf => ?_⟩
    obtain ⟨h1, -, h3⟩ := hF f hf
    refine ⟨h1, ?_⟩
    obtain ⟨-, h4⟩ := h3 (chars% "traj.txt") (by rw [own_args]) rfl
    rw [hmsgs] at h4
    exact h4

end Slam.Online
