import Verif.GraphSlam.NodeDemo
import Verif.Online.Roam

/-!
# C110: the node of the graph SLAM as its launch file starts it, to the end of every sequence of scans
-/

set_option autoImplicit false
set_option linter.unusedSectionVars false

namespace Slam.GraphSlam
open Slam.Config (Str stodDec)
open Slam.Online (Setup Delivery planar found bounded)
open Slam.Whole (Env GoodMsg)
open Slam.Float (Nearest)

/-- **The node of launch/graph_demo_mit.launch as a whole (C110).** Let scans be delivered in any order, with any clock; for those whose
transform to `odom_combined` is known, let the scan be well-formed with ranges up to `R`, and let the odometry move by at most `D` along
each axis from each to the next, with `D + 3 R` at most 49. Then `main` comes to its loop, listening to `/base_scan`, and, with every bound
on the iterations of a match from some `F` on, the node is not aborted: it has given each of these scans to the SLAM and sent what is
due for it (`GRows`), however far the robot has got; and the robot's pose is off the odometry by at most `D + 2 R + 1` along each axis for
each scan but the first. -/
theorem graph_node_shipped_total {r : ℝ → ℝ} (Q : Nearest r) (round : ℝ → Int) (rad : ℝ) (rnd : Nat) (env : Env) (hcf : 0 < env.cellFuel)
    (hok : ∀ v, |v| ≤ 2994 → env.ok v = true) (hl : 1998 ≤ env.lineFuel) (sample : Int → Nat → ℝ → ℝ → Poses.Delta ℝ) {R D : ℝ}
    (hR : 0 ≤ R) (hDn : 0 ≤ D) (hD : D + 3 * R ≤ 49) (ds : List Delivery)
    (hds : ∀ p ∈ found "odom_combined".toList ds, none ∉ p.1.msg.body.ranges ∧
      |p.1.msg.body.angleMin + (p.1.msg.body.ranges.length : ℝ) * p.1.msg.body.increment -
        p.1.msg.body.increment - p.1.msg.body.angleMax| ≤ env.tol ∧
      0 ≤ p.1.msg.body.rangeMin ∧ 0 ≤ p.1.msg.body.rangeMax ∧ p.1.msg.body.rangeMax ≤ R)
    (hst : ∀ (j : Nat) p q, (found "odom_combined".toList ds)[j]? = some p → (found "odom_combined".toList ds)[j + 1]? = some q →
      |q.2.origin 0 - p.2.origin 0| ≤ D ∧ |q.2.origin 1 - p.2.origin 1| ≤ D) :
    ∃ F, ∀ f, F ≤ f → ∃ (P : GraphProgram) (setup : Setup) (n : GraphNode P.T) (rows : List GRow),
      mainGraph round (stodDec r) rad rnd (bounded env f) sample (graphRows r).server = some ⟨P, startNode setup P.start⟩ ∧
      setup.topic = "/base_scan".toList ∧ setup.odomFrame = "odom_combined".toList ∧ setup.mapFrame = "map".toList ∧
      setup.robotFrame = "robot_pose".toList ∧ (startNode setup P.start).run P.cfg ds = some n ∧
      GRows P.cfg P.start setup ds rows ∧ n.sent = rows.flatMap GRow.out ∧
      |n.slam.pose.x - n.slam.odom.x| ≤ (rows.length - 1 : Nat) * (D + 2 * R + 1) ∧
      |n.slam.pose.y - n.slam.odom.y| ≤ (rows.length - 1 : Nat) * (D + 2 * R + 1) := by
  have hr : |r (1 / 10)| ≤ 11 / 100 := by
    have h := (Config.fair_nearest Q).rel (1 / 10) (by norm_num [abs_of_pos]) (by norm_num [abs_of_pos])
    have h1 := abs_le.1 h
    norm_num at h1
    rw [abs_le]
    constructor <;> linarith [h1.1, h1.2]
  have hmsg : ∀ p ∈ found "odom_combined".toList ds, GoodMsg (graphShipped r env).cfg.slam R p.1.msg.body := by
    intro p hp
    obtain ⟨m1, m2, m3, m4, m5⟩ := hds p hp
    refine ⟨m1, m2, m3, ⟨m4, m5⟩, fun pts _ => ?_⟩
    cases pts with
    | nil => exact .inl rfl
    | cons a l => exact .inr (by simp [graphShipped, GraphCfg.slam])
  obtain ⟨F, s, h1, h2, h3⟩ := graph_climb_total (cfg := (graphShipped r env).cfg) .discrepancy
    ⟨⟨0, -1⟩, .obstacle, baseImpact .discrepancy, env.cellFuel⟩ rfl hcf 6 (r (1 / 10)) (r (1 / 10))
    (Whole.const_sound _ _ ⟨⟨by norm_num, by norm_num⟩, ⟨by norm_num, by norm_num⟩⟩ ⟨⟨by norm_num, by norm_num⟩, ⟨by norm_num, by norm_num⟩⟩
      _ _ _)
    (Whole.const_tells _ _ _ _ _) hok hl hR hDn (by linarith) (hist := none) (by intro _ h; cases h) (w := .even 0)
    (by intro _ h; cases h) ⟨0, r (1 / 10), r (1 / 10), ⟨0, r (1 / 10), r (1 / 10), none⟩, true⟩
    ((found "odom_combined".toList ds).map fun p => (planar p.2, p.1.msg.body))
    (by
      intro d hd
      obtain ⟨p, hp, rfl⟩ := List.mem_map.1 hd
      exact hmsg p hp)
    (by
      intro j a c ha hc
      rw [List.getElem?_map, Option.map_eq_some_iff] at ha hc
      obtain ⟨p, hp, rfl⟩ := ha
      obtain ⟨q, hq, rfl⟩ := hc
      exact hst j p q hp hq)
  refine ⟨F, fun f hle => ?_⟩
  obtain ⟨setup, i1, i2, i3, i4, hmain⟩ := graph_main_shipped Q round rad rnd (bounded env f) sample
  have h4 : (graphShipped r (bounded env f)).start.run (graphShipped r (bounded env f)).cfg
      ((found setup.odomFrame ds).map fun p => (planar p.2, p.1.msg.body)) = some s := by
    rw [i2]
    exact h1 f hle
  obtain ⟨n, hn⟩ := (graph_node_goes_on (setup := setup) (cfg := (graphShipped r (bounded env f)).cfg) none (.even 0)
    ⟨0, r (1 / 10), r (1 / 10), ⟨0, r (1 / 10), r (1 / 10), none⟩, true⟩ ds).2 ⟨s, h4⟩
  obtain ⟨rows, hrows, hslam, hsent⟩ := graph_node_run hn
  have hin : rows.map GRow.input = (found setup.odomFrame ds).map fun p => (planar p.2, p.1.msg.body) := by
    rw [← hrows.all, List.map_map]
    rfl
  rw [hin] at hslam
  have es : n.slam = s := Option.some.inj (hslam.symm.trans h4)
  have hlen : rows.length = (found "odom_combined".toList ds).length := by
    rw [← i2, ← hrows.all, List.length_map]
  have hmul : ((rows.length - 1 : Nat) : ℝ) * (D + 2 * R + 3 / 10 + |r (1 / 10)|) ≤ ((rows.length - 1 : Nat) : ℝ) * (D + 2 * R + 1) :=
    mul_le_mul_of_nonneg_left (by linarith) (Nat.cast_nonneg _)
  rw [List.length_map, ← hlen] at h2 h3
  exact ⟨graphShipped r (bounded env f), setup, n, rows, hmain, i1, i2, i3, i4, hn, hrows, hsent, by rw [es]; exact h2.trans hmul,
    by rw [es]; exact h3.trans hmul⟩

/-! ## Example -/

/-- The example's scan, with ranges up to ten metres. -/
noncomputable def roomMsg : Worlds.Msg ℝ := ⟨0, 2, 1, 1 / 10, 10, [some 4, some 50, some 0]⟩

/-- A robot driving away, thirty centimetres between scans; every other scan comes before its transform is known. -/
noncomputable def roomDelivery (n : Nat) : Delivery :=
  ⟨⟨n, 0, "laser".toList, roomMsg⟩, fun _ _ _ _ => if n % 2 = 0 then some (driveTr n) else none,
    ⟨(n, 0), (n, 0), (n, 0), (n, 0), (n, 0)⟩⟩

theorem room_found (f : Str) (n : Nat) : found f ((List.range (2 * n)).map roomDelivery) =
    (List.range n).map fun k => (roomDelivery (2 * k), driveTr (2 * k)) := by
  induction n with
  | zero => rfl
  | succ n ih =>
    rw [Nat.mul_succ, List.range_succ, List.range_succ, List.map_append, List.map_append, Online.found_append, Online.found_append, ih,
      List.range_succ, List.map_append, List.append_assoc]
    congr 1
    have e1 : (roomDelivery (2 * n)).lookup f (roomDelivery (2 * n)).msg.frame (roomDelivery (2 * n)).msg.sec
        (roomDelivery (2 * n)).msg.nsec = some (driveTr (2 * n)) := if_pos (by omega)
    have e2 : (roomDelivery (2 * n + 1)).lookup f (roomDelivery (2 * n + 1)).msg.frame (roomDelivery (2 * n + 1)).msg.sec
        (roomDelivery (2 * n + 1)).msg.nsec = none := if_neg (by omega)
    simp only [found, List.map_cons, List.map_nil, List.filterMap_cons, List.filterMap_nil, e1, e2, Option.map_some, Option.map_none,
      List.append_nil]

/-- The shipped node tracks a robot that drives away for ever, if no beam is longer than ten metres. -/
example (n : Nat) : ∃ F, ∀ f, F ≤ f → ∃ (P : GraphProgram) (setup : Setup) (m : GraphNode P.T),
    mainGraph (fun _ => 0) (stodDec Float.rne) 1 7 (bounded ⟨fun _ => 2, 0, fun v => decide (|v| ≤ 1000000), 100000, 10, 0, 0⟩ f)
      (fun _ _ _ _ => ⟨0, 0, 0⟩) (graphRows Float.rne).server = some ⟨P, startNode setup P.start⟩ ∧
    (startNode setup P.start).run P.cfg ((List.range (2 * n)).map roomDelivery) = some m := by
  obtain ⟨F, h⟩ := graph_node_shipped_total Float.rne_nearest (fun _ => 0) 1 7
    ⟨fun _ => 2, 0, fun v => decide (|v| ≤ 1000000), 100000, 10, 0, 0⟩ (by norm_num) (fun v hv => by simp only [decide_eq_true_eq]; omega)
    (by norm_num) (fun _ _ _ _ => ⟨0, 0, 0⟩) (R := 10) (D := 1) (by norm_num) (by norm_num) (by norm_num)
    ((List.range (2 * n)).map roomDelivery) (by
      rw [room_found]
      intro p hp
      obtain ⟨i, -, rfl⟩ := List.mem_map.1 hp
      simp only [roomDelivery, roomMsg]
      norm_num
      exact ⟨nofun, nofun, nofun⟩) (by
      rw [room_found]
      intro i a b ha hb
      rw [List.getElem?_map, Option.map_eq_some_iff] at ha hb
      obtain ⟨j, j1, rfl⟩ := ha
      obtain ⟨k, k1, rfl⟩ := hb
      obtain ⟨l1, e1⟩ := List.getElem?_eq_some_iff.1 j1
      obtain ⟨l2, e2⟩ := List.getElem?_eq_some_iff.1 k1
      rw [List.getElem_range] at e1 e2
      subst e1 e2
      have e : (3 / 10 * (((2 * (i + 1) : Nat) : ℝ) + 1) - 3 / 10 * (((2 * i : Nat) : ℝ) + 1)) = 3 / 5 := by push_cast; ring
      constructor
      · show |(3 / 10 * (((2 * (i + 1) : Nat) : ℝ) + 1) - 3 / 10 * (((2 * i : Nat) : ℝ) + 1))| ≤ 1
        rw [e]; norm_num
      · show |(0 : ℝ) - 0| ≤ 1
        norm_num)
  refine ⟨F, fun f hf => ?_⟩
  obtain ⟨P, setup, m, -, h1, -, -, -, -, h2, -⟩ := h f hf
  exact ⟨P, setup, m, h1, h2⟩

end Slam.GraphSlam
