import Verif.GraphSlam.Node

/-!
# C110: what the node of the graph SLAM sends

For every configuration, every sequence of scans, all answers of the listener of transforms and all clocks.
-/

set_option autoImplicit false
set_option linter.unusedSectionVars false

namespace Slam.GraphSlam
open Slam.Config (Str)
open Slam.Pub (Tr)
open Slam.Online (Setup Delivery Stamp planar pubPose found found_append)
open Slam.Sensor (ScanPoint)
open Slam.Score (Spw Hist)
open Slam.Worlds (Msg)
open Slam.Poses (Delta IsChain total)
open Slam.Nodes (Pt AtPose chainSegments make2D)

/-! ## Specification -/

/-- A scan that was handled: what was delivered, the transform found, the pose of the robot after it, and what was sent for it. -/
structure GRow where
  d : Delivery
  t : Tr
  pose : Poses.Pose ℝ
  out : List Out

/-- What the SLAM gets of the scan. -/
noncomputable def GRow.input (r : GRow) : Poses.Pose ℝ × Msg ℝ := (planar r.t, r.d.msg.body)

/-- The graph was sent for it. -/
def GRow.shown (r : GRow) : Prop := ∃ f ns es, Out.markers f ns es ∈ r.out

open Classical in
/-- The time stored with the last graph that was sent; zero if there was none. -/
noncomputable def lastShown (rows : List GRow) : ℝ :=
  (rows.filter fun r => decide r.shown).getLast?.elim 0 fun r => r.d.clock.stored.secs

/-- The points where the robot was after those scans at which the odometry since the last of them was no longer small. -/
def Stops (rows : List GRow) (pts : List (Pt ℝ)) : Prop :=
  ∃ times, NodeTimes (moves (rows.map fun r => planar r.t)) 0 times ∧
    List.Forall₂ (fun i pt => ∃ r, rows[i]? = some r ∧ AtPose r.pose pt) times pts

/-- What is sent for the scan `r` after those of `pre`. -/
def GSends (setup : Setup) (pre : List GRow) (r : GRow) : Prop :=
  ∃ corr pts, (r.t.IsRigid → corr.mul r.t.flat = (pubPose r.pose).tr) ∧ Stops (pre ++ [r]) pts ∧
    r.out = .transform r.d.clock.correction setup.mapFrame setup.odomFrame corr ::
      .transform r.d.clock.pose setup.mapFrame setup.robotFrame (pubPose r.pose).tr ::
      (if r.d.clock.checked.secs - lastShown pre < 3 then []
        else [.markers "odom_combined".toList pts (chainSegments pts)])

variable {T : Type}

/-- The rows of a run: each scan whose transform was found has one, in order; the pose of each is that of the SLAM, of C106, after the
scans up to it; each has what is sent for it. -/
structure GRows (cfg : GraphCfg T) (start : GraphSt T) (setup : Setup) (ds : List Delivery) (rows : List GRow) : Prop where
  all : rows.map (fun r => (r.d, r.t)) = found setup.odomFrame ds
  poses : ∀ pre r post, rows = pre ++ r :: post → ∃ s, start.run cfg ((pre ++ [r]).map GRow.input) = some s ∧ s.pose = r.pose
  sends : ∀ pre r post, rows = pre ++ r :: post → GSends setup pre r

/-! ## Proofs -/

/-- The nodes of the graph are poses the SLAM has had. -/
structure Kept (cfg : GraphCfg T) (ds : List (Poses.Pose ℝ × Msg ℝ)) (s : GraphSt T) (poses : List (Poses.Pose ℝ))
    (scans : List (List ScanPoint)) (cs : List (Delta ℝ)) (times : List Nat) : Prop where
  up : Upheld cfg ds s scans cs times
  len : poses.length = ds.length
  at_ : ∀ (i : Nat) (p : Poses.Pose ℝ), poses[i]? = some p →
    p = (total ((moves (ds.map Prod.fst)).take (i + 1))).add (total (cs.take (i + 1)))

theorem kept_start (cfg : GraphCfg T) (hist : Option Hist) (w : Spw) (t : T) : Kept cfg [] (GraphSt.start hist w t) [] [] [] [] :=
  ⟨inv_start cfg hist w t, rfl, fun i p h => by simp at h⟩

theorem kept_handle {cfg : GraphCfg T} {ds : List (Poses.Pose ℝ × Msg ℝ)} {s s1 : GraphSt T} {poses : List (Poses.Pose ℝ)}
    {scans : List (List ScanPoint)} {cs : List (Delta ℝ)} {times : List Nat} (h : Kept cfg ds s poses scans cs times)
    {d : Poses.Pose ℝ × Msg ℝ} (hs : s.handle cfg d = some s1) :
    ∃ scans' cs' times', Kept cfg (ds ++ [d]) s1 (poses ++ [s1.pose]) scans' cs' times' := by
  obtain ⟨scan, c, times', h1⟩ := inv_handle cfg h.up d hs
  refine ⟨_, _, times', h1, by simp [h.len], fun i p hp => ?_⟩
  have hlen : (moves (ds.map Prod.fst)).length = ds.length := by rw [moves_length, List.length_map]
  rcases getElem?_snoc _ _ _ _ hp with ⟨k1, k2⟩ | ⟨rfl, rfl⟩
  · rw [h.at_ i p k1, List.map_append, List.map_singleton, moves_snoc, List.take_append_of_le_length (by have := h.len; omega),
      List.take_append_of_le_length (by have := h.up.csLen; have := h.len; omega)]
  · rw [h1.pose, List.take_of_length_le (by rw [moves_length]; simp [h.len]), List.take_of_length_le (by simp [h.up.csLen, h.len])]

/-- The nodes of the graph, shown as points. -/
theorem kept_nodes {cfg : GraphCfg T} {ds : List (Poses.Pose ℝ × Msg ℝ)} {s : GraphSt T} {poses : List (Poses.Pose ℝ)}
    {scans : List (List ScanPoint)} {cs : List (Delta ℝ)} {times : List Nat} (h : Kept cfg ds s poses scans cs times) :
    ∃ ps, IsChain s.graph ps ∧ List.Forall₂ (fun (i : Nat) p => poses[i]? = some p) times ps := by
  refine ⟨_, h.up.chain, ?_⟩
  have hlt := node_times_lt _ _ _ h.up.times
  rw [List.forall₂_map_right_iff, List.forall₂_same]
  intro i hi
  have := hlt i hi
  rw [moves_length, List.length_map, ← h.len] at this
  rw [List.getElem?_eq_getElem this]
  exact congrArg some (h.at_ i _ (List.getElem?_eq_getElem this))

/-- The invariant of a run. -/
structure GInv (cfg : GraphCfg T) (start : GraphSt T) (setup : Setup) (ds : List Delivery) (n : GraphNode T) (rows : List GRow) : Prop where
  holds : GRows cfg start setup ds rows
  slam : start.run cfg (rows.map GRow.input) = some n.slam
  kept : ∃ scans cs times, Kept cfg (rows.map GRow.input) n.slam (rows.map GRow.pose) scans cs times
  sent : n.sent = rows.flatMap GRow.out
  last : n.viewer.last = lastShown rows
  sameSetup : n.setup = setup

theorem lastShown_snoc (rows : List GRow) (r : GRow) :
    (r.shown → lastShown (rows ++ [r]) = r.d.clock.stored.secs) ∧ (¬ r.shown → lastShown (rows ++ [r]) = lastShown rows) := by
  classical
  refine ⟨fun h => ?_, fun h => ?_⟩ <;> simp [lastShown, List.filter_append, h]

variable {cfg : GraphCfg T} {setup : Setup}

theorem ginv_start (hist : Option Hist) (w : Spw) (t : T) :
    GInv cfg (GraphSt.start hist w t) setup [] (startNode setup (GraphSt.start hist w t)) [] where
  holds := ⟨rfl, fun pre r post h => by simp at h, fun pre r post h => by simp at h⟩
  slam := rfl
  kept := ⟨_, _, _, kept_start cfg hist w t⟩
  sent := rfl
  last := by simp [startNode, lastShown]
  sameSetup := rfl

/-- One more scan: it is sent for if the SLAM copes with it, and its row is as specified. -/
theorem ginv_step {start : GraphSt T} {ds : List Delivery} {n : GraphNode T} {rows : List GRow}
    (h : GInv cfg start setup ds n rows) {d : Delivery} {t : Tr}
    (ht : d.lookup setup.odomFrame d.msg.frame d.msg.sec d.msg.nsec = some t) {s : GraphSt T}
    (hs : n.slam.handle cfg (planar t, d.msg.body) = some s) :
    ∃ n' r, n.onTransformed cfg d t = some n' ∧ GInv cfg start setup (ds ++ [d]) n' (rows ++ [r]) := by
  obtain ⟨scans, cs, times, hk⟩ := h.kept
  obtain ⟨scans', cs', times', hk'⟩ := kept_handle hk hs
  obtain ⟨ps, hc, hps⟩ := kept_nodes hk'
  have hsetup := h.sameSetup
  obtain ⟨corr, hcorr⟩ : ∃ corr, corr = ((n.correction.handleMsg t).onPoseUpdate (pubPose s.pose)).map2odom := ⟨_, rfl⟩
  have hrigid : t.IsRigid → corr.mul t.flat = (pubPose s.pose).tr := by
    intro ht'
    rw [hcorr]
    exact Pub.mul_inv_rigid t.flat (pubPose s.pose).tr ht' (Pub.yaw_rigid _)
  obtain ⟨pts, hpts⟩ : ∃ pts, pts = ps.map make2D := ⟨_, rfl⟩
  obtain ⟨shows, hshows⟩ : ∃ shows : List Out, shows = if d.clock.checked.secs - lastShown rows < 3 then []
    else [.markers markerFrame pts (chainSegments pts)] := ⟨_, rfl⟩
  let r : GRow := ⟨d, t, s.pose, .transform d.clock.correction setup.mapFrame setup.odomFrame corr ::
    .transform d.clock.pose setup.mapFrame setup.robotFrame (pubPose s.pose).tr :: shows⟩
  have hshown : r.shown ↔ ¬ d.clock.checked.secs - lastShown rows < 3 := by
    by_cases e : d.clock.checked.secs - lastShown rows < 3
    · simp [GRow.shown, r, hshows, e]
    · simp [GRow.shown, r, hshows, e]
  have hinput : (rows ++ [r]).map GRow.input = rows.map GRow.input ++ [(planar t, d.msg.body)] := by simp [GRow.input, r]
  have hstops : Stops (rows ++ [r]) pts := by
    refine ⟨times', ?_, ?_⟩
    · have := hk'.up.times
      rw [← hinput, List.map_map] at this
      exact this
    · rw [hpts, List.forall₂_map_right_iff]
      refine hps.imp fun i p hp => ?_
      have e : (rows.map GRow.pose ++ [s.pose]) = (rows ++ [r]).map GRow.pose := by simp [r]
      rw [e, List.getElem?_map, Option.map_eq_some_iff] at hp
      obtain ⟨r', k1, k2⟩ := hp
      exact ⟨r', k1, by rw [k2]; exact ⟨rfl, rfl, rfl⟩⟩
  have hview := Nodes.viewer_step n.viewer s.graph ps hc d.clock.checked.secs d.clock.stored.secs
  have hrun : start.run cfg ((rows ++ [r]).map GRow.input) = some s := by
    rw [hinput, run_snoc, h.slam]
    exact hs
  have hsends : GSends setup rows r := ⟨corr, pts, hrigid, hstops, by rw [← show markerFrame = "odom_combined".toList from rfl, ← hshows]⟩
  refine ⟨⟨n.setup, (n.correction.handleMsg t).onPoseUpdate (pubPose s.pose),
    if d.clock.checked.secs - n.viewer.last < 3 then n.viewer
      else ⟨d.clock.stored.secs, n.viewer.sent ++ [(d.clock.checked.secs, pts, chainSegments pts)]⟩, s,
    n.sent ++ r.out⟩, r, ?_, ⟨?_, ?_, ?_⟩, ?_, ?_, ?_, ?_, ?_⟩
  · unfold GraphNode.onTransformed
    simp only [hs, Option.bind_some]
    unfold GraphNode.onMap GraphNode.onPose
    simp only [hview, Option.map_some, ← hpts, hsetup, ← hcorr]
    congr 2
    by_cases e : d.clock.checked.secs - n.viewer.last < 3
    · have e' : d.clock.checked.secs - lastShown rows < 3 := by rw [← h.last]; exact e
      simp [r, hshows, e, e']
    · have e' : ¬ d.clock.checked.secs - lastShown rows < 3 := by rw [← h.last]; exact e
      simp [r, hshows, e, e']
  · rw [List.map_append, h.holds.all, found_append]
    simp [found, ht, r]
  · intro pre r' post e
    rcases Pub.append_eq_concat e with ⟨rfl, rfl, rfl⟩ | ⟨post', rfl, e'⟩
    · exact ⟨s, hrun, rfl⟩
    · exact h.holds.poses pre r' post' e'
  · intro pre r' post e
    rcases Pub.append_eq_concat e with ⟨rfl, rfl, rfl⟩ | ⟨post', rfl, e'⟩
    · exact hsends
    · exact h.holds.sends pre r' post' e'
  · exact hrun
  · refine ⟨scans', cs', times', ?_⟩
    rw [hinput]
    have e : (rows ++ [r]).map GRow.pose = rows.map GRow.pose ++ [s.pose] := by simp [r]
    rw [e]
    exact hk'
  · rw [List.flatMap_append, List.flatMap_singleton, ← h.sent]
  · by_cases e : d.clock.checked.secs - lastShown rows < 3
    · rw [(lastShown_snoc rows r).2 (fun hm => hshown.1 hm e)]
      simp only [h.last, if_pos e]
    · rw [(lastShown_snoc rows r).1 (hshown.2 e)]
      simp only [h.last, if_neg e]
      rfl
  · exact hsetup

theorem node_run_append (n : GraphNode T) (ds es : List Delivery) :
    n.run cfg (ds ++ es) = (n.run cfg ds).bind fun n => n.run cfg es := by
  induction ds generalizing n with
  | nil => rfl
  | cons d ds ih =>
    simp only [List.cons_append, GraphNode.run]
    cases n.onMsg cfg d with
    | none => rfl
    | some n' => exact ih n'

theorem ginv_run (hist : Option Hist) (w : Spw) (t : T) (ds : List Delivery) :
    ∀ n, (startNode setup (GraphSt.start hist w t)).run cfg ds = some n → ∃ rows, GInv cfg (GraphSt.start hist w t) setup ds n rows := by
  induction ds using List.reverseRecOn with
  | nil =>
    intro n h
    cases h
    exact ⟨[], ginv_start hist w t⟩
  | append_singleton ds d ih =>
    intro n h
    rw [node_run_append, Option.bind_eq_some_iff] at h
    obtain ⟨n1, h1, h2⟩ := h
    obtain ⟨rows, hr⟩ := ih n1 h1
    simp only [GraphNode.run, GraphNode.onMsg, Option.bind_fun_some] at h2
    rw [hr.sameSetup] at h2
    cases ht : d.lookup setup.odomFrame d.msg.frame d.msg.sec d.msg.nsec with
    | none =>
      rw [ht] at h2
      cases h2
      refine ⟨rows, ⟨?_, hr.holds.poses, hr.holds.sends⟩, hr.slam, hr.kept, hr.sent, hr.last, hr.sameSetup⟩
      rw [found_append, hr.holds.all]
      simp [found, ht]
    | some tr =>
      rw [ht] at h2
      have h3 : n1.onTransformed cfg d tr = some n := h2
      cases hs : n1.slam.handle cfg (planar tr, d.msg.body) with
      | none =>
        unfold GraphNode.onTransformed at h3
        simp only [hs, Option.bind_none] at h3
        cases h3
      | some s =>
        obtain ⟨n', r, h4, h5⟩ := ginv_step hr ht hs
        rw [h3, Option.some.injEq] at h4
        subst h4
        exact ⟨_, h5⟩

/-! ## Theorems -/

/-- **What the node of the graph SLAM does (C110)**: after any deliveries, exactly the scans whose transform was found were given to the
SLAM, in order; for each of them the correction and the robot's pose were sent, and the graph, if three seconds have passed since it was
sent last: it shows where the robot was after those scans at which the odometry since the last of them was no longer small, joined by
lines. Nothing else was sent. -/
theorem graph_node_run {hist : Option Hist} {w : Spw} {t : T} {ds : List Delivery} {n : GraphNode T}
    (h : (startNode setup (GraphSt.start hist w t)).run cfg ds = some n) :
    ∃ rows, GRows cfg (GraphSt.start hist w t) setup ds rows ∧
      (GraphSt.start hist w t).run cfg (rows.map GRow.input) = some n.slam ∧ n.sent = rows.flatMap GRow.out := by
  obtain ⟨rows, hr⟩ := ginv_run hist w t ds n h
  exact ⟨rows, hr.holds, hr.slam, hr.sent⟩

/-- **The node goes on (C110)** exactly as long as the SLAM handles the scans; the viewer never fails. -/
theorem graph_node_goes_on (hist : Option Hist) (w : Spw) (t : T) (ds : List Delivery) :
    (∃ n, (startNode setup (GraphSt.start hist w t)).run cfg ds = some n) ↔
      ∃ s, (GraphSt.start hist w t).run cfg ((found setup.odomFrame ds).map fun p => (planar p.2, p.1.msg.body)) = some s := by
  have hin : ∀ {ds n rows}, GInv cfg (GraphSt.start hist w t) setup ds n rows →
      rows.map GRow.input = (found setup.odomFrame ds).map fun p => (planar p.2, p.1.msg.body) := by
    intro ds n rows hr
    rw [← hr.holds.all, List.map_map]
    rfl
  constructor
  · rintro ⟨n, h⟩
    obtain ⟨rows, hr⟩ := ginv_run hist w t ds n h
    exact ⟨n.slam, by rw [← hin hr]; exact hr.slam⟩
  · induction ds using List.reverseRecOn with
    | nil => exact fun _ => ⟨_, rfl⟩
    | append_singleton ds d ih =>
      rintro ⟨s, h1⟩
      rw [found_append, List.map_append] at h1
      cases ht : d.lookup setup.odomFrame d.msg.frame d.msg.sec d.msg.nsec with
      | none =>
        have e : found setup.odomFrame [d] = [] := by simp [found, ht]
        rw [e, List.map_nil, List.append_nil] at h1
        obtain ⟨n, hn⟩ := ih ⟨s, h1⟩
        obtain ⟨rows, hr⟩ := ginv_run hist w t ds n hn
        refine ⟨n, ?_⟩
        rw [node_run_append, hn, Option.bind_some]
        simp only [GraphNode.run, GraphNode.onMsg, hr.sameSetup, ht, Option.bind_some]
      | some tr =>
        have e : found setup.odomFrame [d] = [(d, tr)] := by simp [found, ht]
        rw [e, List.map_singleton, run_snoc, Option.bind_eq_some_iff] at h1
        obtain ⟨s0, h2, h3⟩ := h1
        obtain ⟨n, hn⟩ := ih ⟨s0, h2⟩
        obtain ⟨rows, hr⟩ := ginv_run hist w t ds n hn
        have h4 := hr.slam
        rw [hin hr, h2, Option.some.injEq] at h4
        subst h4
        obtain ⟨n', r, h5, -⟩ := ginv_step hr ht h3
        refine ⟨n', ?_⟩
        rw [node_run_append, hn, Option.bind_some]
        simp only [GraphNode.run, GraphNode.onMsg, hr.sameSetup, ht, Option.bind_fun_some]
        exact h5

/-- Two graphs shown one after the other are at least three seconds apart, if the clock does not run back while one is sent. -/
theorem graphs_apart {start : GraphSt T} {ds : List Delivery} {rows : List GRow} (h : GRows cfg start setup ds rows) :
    (∀ pre r post, rows = pre ++ r :: post → (r.shown ↔ 3 ≤ r.d.clock.checked.secs - lastShown pre)) ∧
    ((∀ r ∈ rows, r.d.clock.checked.secs ≤ r.d.clock.stored.secs) →
      ∀ pre a mid b post, rows = pre ++ a :: (mid ++ b :: post) → a.shown → b.shown → (∀ r ∈ mid, ¬ r.shown) →
        3 ≤ b.d.clock.checked.secs - a.d.clock.checked.secs) := by
  classical
  have h1 : ∀ pre r post, rows = pre ++ r :: post → (r.shown ↔ 3 ≤ r.d.clock.checked.secs - lastShown pre) := by
    intro pre r post e
    obtain ⟨corr, pts, -, -, k⟩ := h.sends pre r post e
    by_cases hc : r.d.clock.checked.secs - lastShown pre < 3
    · rw [if_pos hc] at k
      simp [GRow.shown, k, not_le.2 hc]
    · rw [if_neg hc] at k
      simp [GRow.shown, k, not_lt.1 hc]
  refine ⟨h1, fun hc pre a mid b post e ha hb hm => ?_⟩
  have e' : rows = (pre ++ a :: mid) ++ b :: post := by rw [e]; simp
  have h2 := (h1 _ _ _ e').1 hb
  have e2 : lastShown (pre ++ a :: mid) = a.d.clock.stored.secs := by
    have : mid.filter (fun r => decide r.shown) = [] := List.filter_eq_nil_iff.2 fun r hr => by simpa using hm r hr
    simp [lastShown, List.filter_append, List.filter_cons, ha, this]
  rw [e2] at h2
  have := hc a (by rw [e]; simp)
  linarith

end Slam.GraphSlam
