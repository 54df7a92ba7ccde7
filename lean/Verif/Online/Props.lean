import Verif.Dump.Props
import Verif.Online.Model
import Verif.Pub.Props
import Verif.Pub.Threads
import Verif.Runner.Props

/-!
# The online nodes as a whole (C99)

What a node sends, for every SLAM, every sequence of scans, all answers of the listener of transforms and all clocks.
-/

set_option autoImplicit false
set_option linter.unusedSectionVars false

namespace Slam.Online
open Slam.Config (Str)
open Slam.Pub (Tr)
open Slam.Runner (Engine LaserMsg Serves)

/-! ## Specification -/

/-- The scans for which the listener knows the transform from the scan's frame to the odometry frame at the scan's time, with it. -/
def found (odom : Str) (ds : List Delivery) : List (Delivery × Tr) :=
  ds.filterMap fun d => (d.lookup odom d.msg.frame d.msg.sec d.msg.nsec).map fun t => (d, t)

/-- A scan that was handled: what was delivered, the transform found, the state of the SLAM after it, and what was sent for it. -/
structure Row (P : Engine) where
  d : Delivery
  t : Tr
  s : P.S
  out : List Out

/-- What the SLAM gets of the scan. -/
noncomputable def Row.input {P : Engine} (r : Row P) : LaserMsg × Poses.Pose ℝ := (r.d.msg, planar r.t)

/-- A map was sent for it. -/
def Row.mapped {P : Engine} (r : Row P) : Prop := ∃ f l m, Out.grid f l m ∈ r.out

open Classical in
/-- The time stored with the last map that was sent; zero if there was none. -/
noncomputable def lastMap {P : Engine} (rows : List (Row P)) : ℝ :=
  (rows.filter fun r => decide r.mapped).getLast?.elim 0 fun r => r.d.clock.stored.secs

/-- What is sent for a scan, `last` being the time of the last map: the correction and the robot's pose, and the map if the interval
has passed. The correction takes the odometry pose, in the plane, to the pose of the SLAM. -/
def Sends {P : Engine} (setup : Setup) (stamped : Bool) (last : ℝ) (r : Row P) : Prop :=
  ∃ pose view corr, P.pose r.s = some pose ∧ P.view r.s = some view ∧ (r.t.IsRigid → corr.mul r.t.flat = (pubPose pose).tr) ∧
    r.out = .transform r.d.clock.correction setup.mapFrame setup.odomFrame corr ::
      .transform (if stamped then (r.d.msg.sec, r.d.msg.nsec) else r.d.clock.pose) setup.mapFrame setup.robotFrame (pubPose pose).tr ::
      (if r.d.clock.checked.secs - last < setup.interval then []
        else [.grid setup.mapFrame r.d.clock.loaded (Dump.gridMsg view)])

/-- The rows of a run: each scan whose transform was found has one, in order; the SLAM is given them one after another; each row has
what is sent for it. -/
structure Rows (P : Engine) (setup : Setup) (stamped : Bool) (ds : List Delivery) (rows : List (Row P)) : Prop where
  all : rows.map (fun r => (r.d, r.t)) = found setup.odomFrame ds
  served : Serves P P.start (rows.map Row.input) (rows.map Row.s)
  sends : ∀ pre r post, rows = pre ++ r :: post → Sends setup stamped (lastMap pre) r

/-! ## Proofs -/

variable {P : Engine} {setup : Setup} {stamped : Bool}

theorem run_append (n : Node P) (ds es : List Delivery) : n.run (ds ++ es) = (n.run ds).bind fun n => n.run es := by
  induction ds generalizing n with
  | nil => rfl
  | cons d ds ih =>
    simp only [List.cons_append, Node.run]
    cases n.onMsg d with
    | none => rfl
    | some n' => exact ih n'

theorem found_append (odom : Str) (ds es : List Delivery) : found odom (ds ++ es) = found odom ds ++ found odom es := by
  unfold found
  exact List.filterMap_append

theorem serves_append {s : P.S} {l : List (LaserMsg × Poses.Pose ℝ)} {ss : List P.S} (h : Serves P s l ss) {m : LaserMsg}
    {x : Poses.Pose ℝ} {s' : P.S} (h' : P.handle (ss.getLastD s) (x, m.body) = some s') : Serves P s (l ++ [(m, x)]) (ss ++ [s']) := by
  induction h with
  | nil s => exact .cons _ _ _ _ _ _ h' (.nil _)
  | cons s s1 m1 x1 l ss h1 h2 ih =>
    refine .cons _ _ _ _ _ _ h1 (ih ?_)
    rw [List.getLastD_cons] at h'
    exact h'

theorem serves_snoc {s : P.S} {l : List (LaserMsg × Poses.Pose ℝ)} {m : LaserMsg} {x : Poses.Pose ℝ} {ss : List P.S}
    (h : Serves P s (l ++ [(m, x)]) ss) : ∃ ss' s', ss = ss' ++ [s'] ∧ Serves P s l ss' ∧ P.handle (ss'.getLastD s) (x, m.body) = some s' := by
  induction l generalizing s ss with
  | nil =>
    cases h with
    | cons _ s' _ _ _ _ h1 h2 => cases h2; exact ⟨[], s', rfl, .nil _, h1⟩
  | cons a l ih =>
    cases h with
    | cons _ s1 m1 x1 _ ss1 h1 h2 =>
      obtain ⟨ss', s', e, h3, h4⟩ := ih h2
      refine ⟨s1 :: ss', s', by rw [e]; rfl, .cons _ _ _ _ _ _ h1 h3, ?_⟩
      rw [List.getLastD_cons]
      exact h4

/-- What one delivery does, once its transform is found. -/
theorem transformed_iff (n : Node P) (d : Delivery) (t : Tr) (n' : Node P) : n.onTransformed d t = some n' ↔
    ∃ s pose view, P.handle n.slam (planar t, d.msg.body) = some s ∧ P.pose s = some pose ∧ P.view s = some view ∧
      n' = ((⟨n.setup, n.stamped, n.correction.handleMsg t, if n.stamped then (d.msg.sec, d.msg.nsec) else n.observed, n.maps, s, n.sent⟩ :
        Node P).onPose d pose).onMap d view := by
  unfold Node.onTransformed
  cases hh : P.handle n.slam (planar t, d.msg.body) with
  | none => cases n.stamped <;> simp [hh]
  | some s =>
    cases hp : P.pose s with
    | none => cases n.stamped <;> simp [hh, hp]
    | some pose =>
      cases hv : P.view s with
      | none => cases n.stamped <;> simp [hh, hp, hv]
      | some v => cases hs : n.stamped <;> simp [hh, hp, hv, hs, eq_comm]

/-- The invariant of a run. -/
structure NodeInv (setup : Setup) (stamped : Bool) (ds : List Delivery) (n : Node P) (rows : List (Row P)) : Prop where
  holds : Rows P setup stamped ds rows
  slam : n.slam = (rows.map Row.s).getLastD P.start
  sent : n.sent = rows.flatMap Row.out
  last : n.maps.last = lastMap rows
  sameSetup : n.setup = setup
  sameStamped : n.stamped = stamped

theorem lastMap_snoc (rows : List (Row P)) (r : Row P) :
    (r.mapped → lastMap (rows ++ [r]) = r.d.clock.stored.secs) ∧ (¬ r.mapped → lastMap (rows ++ [r]) = lastMap rows) := by
  classical
  refine ⟨fun h => ?_, fun h => ?_⟩ <;> simp [lastMap, List.filter_append, h]

theorem inv_start : NodeInv (P := P) setup stamped [] (start P stamped setup) [] where
  holds := ⟨rfl, .nil _, fun pre r post h => by simp at h⟩
  slam := rfl
  sent := rfl
  last := by simp [start, lastMap]
  sameSetup := rfl
  sameStamped := rfl

theorem inv_step {ds : List Delivery} {n : Node P} {rows : List (Row P)} (h : NodeInv setup stamped ds n rows) {d : Delivery} {t : Tr}
    (ht : d.lookup setup.odomFrame d.msg.frame d.msg.sec d.msg.nsec = some t) {n' : Node P} (hn : n.onTransformed d t = some n') :
    ∃ r, NodeInv setup stamped (ds ++ [d]) n' (rows ++ [r]) := by
  obtain ⟨s, pose, view, h1, h2, h3, rfl⟩ := (transformed_iff n d t n').1 hn
  have hsetup := h.sameSetup
  have hstamped := h.sameStamped
  set corr := ((n.correction.handleMsg t).onPoseUpdate (pubPose pose)).map2odom with hcorr
  have hrigid : t.IsRigid → corr.mul t.flat = (pubPose pose).tr := by
    intro ht'
    exact Pub.mul_inv_rigid t.flat (pubPose pose).tr ht' (Pub.yaw_rigid _)
  set grids : List Out := if d.clock.checked.secs - lastMap rows < setup.interval then []
    else [.grid setup.mapFrame d.clock.loaded (Dump.gridMsg view)] with hgrids
  let r : Row P := ⟨d, t, s, .transform d.clock.correction setup.mapFrame setup.odomFrame corr ::
    .transform (if stamped then (d.msg.sec, d.msg.nsec) else d.clock.pose) setup.mapFrame setup.robotFrame (pubPose pose).tr :: grids⟩
  have hmap : r.mapped ↔ ¬ d.clock.checked.secs - lastMap rows < setup.interval := by
    by_cases e : d.clock.checked.secs - lastMap rows < setup.interval
    · simp [Row.mapped, r, hgrids, e]
    · simp [Row.mapped, r, hgrids, e]
  have hsends : Sends setup stamped (lastMap rows) r := ⟨pose, view, corr, h2, h3, hrigid, rfl⟩
  refine ⟨r, ⟨?_, ?_, ?_⟩, ?_, ?_, ?_, ?_, ?_⟩
  · rw [List.map_append, h.holds.all, found_append]
    simp [found, ht, r]
  · rw [List.map_append, List.map_append]
    refine serves_append h.holds.served ?_
    rw [h.slam] at h1
    exact h1
  · intro pre r' post e
    rcases Pub.append_eq_concat e with ⟨rfl, rfl, rfl⟩ | ⟨post', rfl, e'⟩
    · exact hsends
    · exact h.holds.sends pre r' post' e'
  · rw [List.map_append, List.map_singleton, List.getLastD_concat]
    rfl
  · rw [List.flatMap_append, List.flatMap_singleton, ← h.sent]
    by_cases e : d.clock.checked.secs - lastMap rows < setup.interval
    · have e' : d.clock.checked.secs - n.maps.last < setup.interval := by rw [h.last]; exact e
      simp only [Node.onMap, Node.onPose, Dump.Publisher.onMapUpdate, if_pos e', r, hgrids, if_pos e, List.drop_length, List.map_nil,
        List.append_nil, hsetup, hstamped, ← hcorr]
      cases stamped <;> rfl
    · have e' : ¬ d.clock.checked.secs - n.maps.last < setup.interval := by rw [h.last]; exact e
      simp only [Node.onMap, Node.onPose, Dump.Publisher.onMapUpdate, if_neg e', r, hgrids, if_neg e, List.drop_left, List.map_cons,
        List.map_nil, hsetup, hstamped, ← hcorr, List.append_assoc]
      cases stamped <;> rfl
  · by_cases e : d.clock.checked.secs - lastMap rows < setup.interval
    · have e' : d.clock.checked.secs - n.maps.last < n.setup.interval := by rw [h.last, hsetup]; exact e
      rw [(lastMap_snoc rows r).2 (fun hm => hmap.1 hm e)]
      simp only [Node.onMap, Node.onPose, Dump.Publisher.onMapUpdate, if_pos e']
      exact h.last
    · have e' : ¬ d.clock.checked.secs - n.maps.last < n.setup.interval := by rw [h.last, hsetup]; exact e
      rw [(lastMap_snoc rows r).1 (hmap.2 e)]
      simp only [Node.onMap, Node.onPose, Dump.Publisher.onMapUpdate, if_neg e']
      rfl
  · exact hsetup
  · exact hstamped

theorem inv_run (ds : List Delivery) : ∀ n, (start P stamped setup).run ds = some n → ∃ rows, NodeInv setup stamped ds n rows := by
  induction ds using List.reverseRecOn with
  | nil =>
    intro n h
    cases h
    exact ⟨[], inv_start⟩
  | append_singleton ds d ih =>
    intro n h
    rw [run_append, Option.bind_eq_some_iff] at h
    obtain ⟨n1, h1, h2⟩ := h
    obtain ⟨rows, hr⟩ := ih n1 h1
    simp only [Node.run, Node.onMsg, Option.bind_fun_some] at h2
    rw [hr.sameSetup] at h2
    cases ht : d.lookup setup.odomFrame d.msg.frame d.msg.sec d.msg.nsec with
    | none =>
      rw [ht] at h2
      cases h2
      refine ⟨rows, ⟨?_, hr.holds.served, hr.holds.sends⟩, hr.slam, hr.sent, hr.last, hr.sameSetup, hr.sameStamped⟩
      rw [found_append, hr.holds.all]
      simp [found, ht]
    | some t =>
      rw [ht] at h2
      obtain ⟨r, h3⟩ := inv_step hr ht h2
      exact ⟨_, h3⟩

/-- **What a node does (C99)**: after any deliveries, every scan whose transform was found was given to the SLAM, in order, and no
other; for each of them the correction and the robot's pose were sent, and the map if the interval has passed since the last one;
nothing else was sent. The scans without a transform leave no trace. -/
theorem node_run {ds : List Delivery} {n : Node P} (h : (start P stamped setup).run ds = some n) :
    ∃ rows, Rows P setup stamped ds rows ∧ n.slam = (rows.map Row.s).getLastD P.start ∧ n.sent = rows.flatMap Row.out := by
  obtain ⟨rows, hr⟩ := inv_run ds n h
  exact ⟨rows, hr.holds, hr.slam, hr.sent⟩

/-- **A node goes on (C99)** exactly as long as the SLAM handles the scans and can tell its pose and show its map. -/
theorem node_goes_on (ds : List Delivery) : (∃ n, (start P stamped setup).run ds = some n) ↔
    ∃ ss, Serves P P.start ((found setup.odomFrame ds).map fun p => (p.1.msg, planar p.2)) ss ∧
      ∀ s ∈ ss, (∃ p, P.pose s = some p) ∧ ∃ v, P.view s = some v := by
  constructor
  · rintro ⟨n, h⟩
    obtain ⟨rows, hr⟩ := inv_run ds n h
    refine ⟨rows.map Row.s, ?_, fun s hs => ?_⟩
    · rw [← hr.holds.all, List.map_map]
      exact hr.holds.served
    · obtain ⟨r, h1, rfl⟩ := List.mem_map.1 hs
      obtain ⟨pre, post, e⟩ := List.append_of_mem h1
      obtain ⟨pose, view, corr, h2, h3, -⟩ := hr.holds.sends pre r post e
      exact ⟨⟨pose, h2⟩, view, h3⟩
  · induction ds using List.reverseRecOn with
    | nil => exact fun _ => ⟨_, rfl⟩
    | append_singleton ds d ih =>
      rintro ⟨ss, h1, h2⟩
      rw [found_append, List.map_append] at h1
      cases ht : d.lookup setup.odomFrame d.msg.frame d.msg.sec d.msg.nsec with
      | none =>
        have e : found setup.odomFrame [d] = [] := by simp [found, ht]
        rw [e, List.map_nil, List.append_nil] at h1
        obtain ⟨n, hn⟩ := ih ⟨ss, h1, h2⟩
        obtain ⟨rows, hr⟩ := inv_run ds n hn
        refine ⟨n, ?_⟩
        rw [run_append, hn, Option.bind_some]
        simp only [Node.run, Node.onMsg, hr.sameSetup, ht, Option.bind_some]
      | some t =>
        have e : found setup.odomFrame [d] = [(d, t)] := by simp [found, ht]
        rw [e] at h1
        obtain ⟨ss', s', rfl, h3, h4⟩ := serves_snoc h1
        obtain ⟨n, hn⟩ := ih ⟨ss', h3, fun s hs => h2 s (by simp [hs])⟩
        obtain ⟨rows, hr⟩ := inv_run ds n hn
        obtain ⟨⟨pose, hp⟩, view, hv⟩ := h2 s' (by simp)
        have hss : ss' = rows.map Row.s := by
          have g := hr.holds.served
          have g' := hr.holds.all
          refine Runner.serves_unique h3 ?_
          rw [← g', List.map_map]
          exact g
        have h5 : P.handle n.slam (planar t, d.msg.body) = some s' := by rw [hr.slam, ← hss]; exact h4
        obtain ⟨n', h6⟩ : ∃ n', n.onTransformed d t = some n' := ⟨_, (transformed_iff n d t _).2 ⟨s', pose, view, h5, hp, hv, rfl⟩⟩
        refine ⟨n', ?_⟩
        · rw [run_append, hn, Option.bind_some]
          simp only [Node.run, Node.onMsg, hr.sameSetup, ht, Option.bind_fun_some]
          exact h6

/-- **Scans without a transform leave no trace (C99).** -/
theorem node_skips (n : Node P) (ds : List Delivery) :
    n.run ds = n.run (ds.filter fun d => (d.lookup n.setup.odomFrame d.msg.frame d.msg.sec d.msg.nsec).isSome) := by
  have keep : ∀ (n n' : Node P) (d : Delivery), n.onMsg d = some n' → n'.setup = n.setup := by
    intro n n' d h
    unfold Node.onMsg at h
    cases ht : d.lookup n.setup.odomFrame d.msg.frame d.msg.sec d.msg.nsec with
    | none => rw [ht] at h; cases h; rfl
    | some t =>
      rw [ht] at h
      obtain ⟨s, pose, view, -, -, -, rfl⟩ := (transformed_iff n d t n').1 h
      rfl
  induction ds generalizing n with
  | nil => rfl
  | cons d ds ih =>
    cases ht : d.lookup n.setup.odomFrame d.msg.frame d.msg.sec d.msg.nsec with
    | none =>
      rw [List.filter_cons_of_neg (by rw [ht]; simp)]
      have e : n.onMsg d = some n := by unfold Node.onMsg; rw [ht]
      rw [Node.run, e, Option.bind_some]
      exact ih n
    | some t =>
      rw [List.filter_cons_of_pos (by rw [ht]; rfl), Node.run, Node.run]
      cases e : n.onMsg d with
      | none => rfl
      | some n' =>
        rw [Option.bind_some, Option.bind_some, ih n', keep n n' d e]

theorem sends_mapped {last : ℝ} {r : Row P} (h : Sends setup stamped last r) :
    r.mapped ↔ setup.interval ≤ r.d.clock.checked.secs - last := by
  obtain ⟨pose, view, corr, -, -, -, e⟩ := h
  by_cases hc : r.d.clock.checked.secs - last < setup.interval
  · rw [if_pos hc] at e
    simp [Row.mapped, e, not_le.2 hc]
  · rw [if_neg hc] at e
    simp [Row.mapped, e, not_lt.1 hc]

/-- **When a map is sent (C99)**: with a scan, exactly if the interval has passed since the last map was sent. If the clock does not
run back while a map is sent, two maps are at least the interval apart. -/
theorem maps_apart {ds : List Delivery} {rows : List (Row P)} (h : Rows P setup stamped ds rows) :
    (∀ pre r post, rows = pre ++ r :: post → (r.mapped ↔ setup.interval ≤ r.d.clock.checked.secs - lastMap pre)) ∧
    ((∀ r ∈ rows, r.d.clock.checked.secs ≤ r.d.clock.stored.secs) →
      ∀ pre a mid b post, rows = pre ++ a :: (mid ++ b :: post) → a.mapped → b.mapped → (∀ r ∈ mid, ¬ r.mapped) →
        setup.interval ≤ b.d.clock.checked.secs - a.d.clock.checked.secs) := by
  classical
  have h1 : ∀ pre r post, rows = pre ++ r :: post → (r.mapped ↔ setup.interval ≤ r.d.clock.checked.secs - lastMap pre) :=
    fun pre r post e => sends_mapped (h.sends pre r post e)
  refine ⟨h1, fun hc pre a mid b post e ha hb hm => ?_⟩
  have e' : rows = (pre ++ a :: mid) ++ b :: post := by rw [e]; simp
  have h2 := (h1 _ _ _ e').1 hb
  have e2 : lastMap (pre ++ a :: mid) = a.d.clock.stored.secs := by
    have : mid.filter (fun r => decide r.mapped) = [] := List.filter_eq_nil_iff.2 fun r hr => by simpa using hm r hr
    simp [lastMap, List.filter_append, List.filter_cons, ha, this]
  rw [e2] at h2
  have := hc a (by rw [e]; simp)
  linarith

/-- The transforms to a frame in what was sent, with their stamps. -/
def transformsTo (child : Str) (out : List Out) : List (Stamp × Tr) :=
  out.filterMap fun o => match o with
    | .transform st _ c t => if c = child then some (st, t) else none
    | .grid _ _ _ => none

/-- The maps in what was sent. -/
def gridsOf (out : List Out) : List (Dump.GridMsg ℝ) :=
  out.filterMap fun o => match o with
    | .transform _ _ _ _ => none
    | .grid _ _ m => some m

theorem flatMap_transforms (child : Str) (rows : List (Row P)) :
    transformsTo child (rows.flatMap Row.out) = rows.flatMap fun r => transformsTo child r.out := by
  induction rows with
  | nil => rfl
  | cons r rows ih =>
    rw [List.flatMap_cons, List.flatMap_cons, ← ih]
    unfold transformsTo
    exact List.filterMap_append

theorem sends_transforms (hne : setup.robotFrame ≠ setup.odomFrame) {last : ℝ} {r : Row P} (h : Sends setup stamped last r) :
    ∃ pose corr, P.pose r.s = some pose ∧ (r.t.IsRigid → corr.mul r.t.flat = (pubPose pose).tr) ∧
      transformsTo setup.odomFrame r.out = [(r.d.clock.correction, corr)] ∧
      transformsTo setup.robotFrame r.out =
        [(if stamped then (r.d.msg.sec, r.d.msg.nsec) else r.d.clock.pose, (pubPose pose).tr)] := by
  obtain ⟨pose, view, corr, h1, -, h3, e⟩ := h
  refine ⟨pose, corr, h1, h3, ?_, ?_⟩ <;> rw [e]
  · by_cases hc : r.d.clock.checked.secs - last < setup.interval <;> simp [transformsTo, hc, hne]
  · by_cases hc : r.d.clock.checked.secs - last < setup.interval <;> simp [transformsTo, hc, hne.symm]

/-- **The poses sent are the trajectory (C99)**: a node that stamps poses with the time of the scan (GMapping) sends to the robot's
frame, one after another, the entries of the trajectory file that the bag runner writes for the same scans and odometry. -/
theorem poses_are_trajectory (hne : setup.robotFrame ≠ setup.odomFrame) {ds : List Delivery} {n : Node P}
    (h : (start P true setup).run ds = some n) {hs : List (LaserMsg × Poses.Pose ℝ)} {ss : List P.S} {ls : List Text.Logged}
    (hh : hs = (found setup.odomFrame ds).map fun p => (p.1.msg, planar p.2)) (hserve : Serves P P.start hs ss)
    (hl : Runner.Logs P hs ss ls) :
    n.slam = ss.getLastD P.start ∧
    transformsTo setup.robotFrame n.sent = ls.map fun l => ((l.sec, l.nsec), ⟨Pub.yaw l.θ, ![l.x, l.y, 0]⟩) := by
  obtain ⟨rows, hr, hs1, hs2⟩ := node_run h
  have e1 : hs = rows.map Row.input := by rw [hh, ← hr.all, List.map_map]; rfl
  subst e1
  have e2 := Runner.serves_unique hserve hr.served
  subst e2
  refine ⟨hs1, ?_⟩
  rw [hs2, flatMap_transforms]
  have hz : (rows.map Row.input).zip (rows.map Row.s) = rows.map fun r => (r.input, r.s) := by
    rw [List.zip_map']
  unfold Runner.Logs at hl
  rw [hz] at hl
  have hs' : ∀ r ∈ rows, ∃ last, Sends setup true last r := fun r hm => by
    obtain ⟨pre, post, e⟩ := List.append_of_mem hm
    exact ⟨_, hr.sends pre r post e⟩
  clear hs1 hs2 hr hserve h hh hz
  induction rows generalizing ls with
  | nil =>
    cases hl
    rfl
  | cons r rows ih =>
    rw [List.map_cons] at hl
    cases hl with
    | cons h1 h2 =>
      rename_i l ls'
      rw [List.flatMap_cons, List.map_cons, ih h2 fun r hm => hs' r (by simp [hm])]
      obtain ⟨last, h3⟩ := hs' r (by simp)
      obtain ⟨pose, corr, g1, -, -, g4⟩ := sends_transforms hne h3
      obtain ⟨k1, k2, k3⟩ := h1
      rw [g1, Option.some.injEq] at k3
      rw [g4, k3]
      simp only [if_true, List.singleton_append, List.cons.injEq, and_true]
      rw [k1, k2]
      rfl

/-- **One correction for each scan (C99)**: the transforms sent from the map to the odometry frame are, in order, one for each scan
whose transform was found; chained with the odometry of that scan in the plane, it gives the pose of the SLAM after it. -/
theorem corrections_compose (hne : setup.robotFrame ≠ setup.odomFrame) {ds : List Delivery} {rows : List (Row P)}
    (h : Rows P setup stamped ds rows) (hrigid : ∀ p ∈ found setup.odomFrame ds, p.2.IsRigid) :
    List.Forall₂ (fun (r : Row P) (c : Stamp × Tr) => c.1 = r.d.clock.correction ∧
        ∃ pose, P.pose r.s = some pose ∧ c.2.mul r.t.flat = ⟨Pub.yaw pose.theta, ![pose.x, pose.y, 0]⟩) rows
      (transformsTo setup.odomFrame (rows.flatMap Row.out)) := by
  rw [flatMap_transforms]
  have hs' : ∀ r ∈ rows, (∃ last, Sends setup stamped last r) ∧ r.t.IsRigid := fun r hm => by
    obtain ⟨pre, post, e⟩ := List.append_of_mem hm
    refine ⟨⟨_, h.sends pre r post e⟩, hrigid (r.d, r.t) ?_⟩
    rw [← h.all]
    exact List.mem_map_of_mem hm
  clear h hrigid
  induction rows with
  | nil => exact .nil
  | cons r rows ih =>
    obtain ⟨⟨last, h3⟩, h4⟩ := hs' r (by simp)
    obtain ⟨pose, corr, g1, g2, g3, -⟩ := sends_transforms hne h3
    rw [List.flatMap_cons, g3]
    exact .cons ⟨rfl, pose, g1, g2 h4⟩ (ih fun r hm => hs' r (by simp [hm]))

/-- **Each map is the current one (C99)**: a map that was sent shows the map of the SLAM after the scan it was sent with. -/
theorem maps_are_current {ds : List Delivery} {rows : List (Row P)} (h : Rows P setup stamped ds rows) {r : Row P} (hr : r ∈ rows)
    {f : Str} {l : Stamp} {m : Dump.GridMsg ℝ} (hm : Out.grid f l m ∈ r.out) :
    f = setup.mapFrame ∧ l = r.d.clock.loaded ∧ ∃ view, P.view r.s = some view ∧ m = Dump.gridMsg view := by
  obtain ⟨pre, post, e⟩ := List.append_of_mem hr
  obtain ⟨pose, view, corr, -, h2, -, h4⟩ := h.sends pre r post e
  rw [h4] at hm
  by_cases hc : r.d.clock.checked.secs - lastMap pre < setup.interval
  · rw [if_pos hc] at hm; simp at hm
  · rw [if_neg hc] at hm
    simp at hm
    exact ⟨hm.1, hm.2.1, view, h2, hm.2.2⟩

/-- **With a second thread (C99)**: if corrections are also sent by the loop of a second thread, then in every interleaving with the
thread of the scans each transform sent, of `k` words as `enc` lays it out, is the identity, if no pose has been reported, or the
correction of a scan handled so far, and it never goes back to that of an earlier scan. -/
theorem async_corrections {W : Type*} {k : Nat} (enc : Tr → Fin k → W) {ds : List Delivery} {n : Node P}
    (h : (start P stamped setup).run ds = some n) {s : Pub.Sys W k}
    (hs : Pub.Reach (enc ⟨Pub.yaw 0, 0⟩) ((transformsTo setup.odomFrame n.sent).map fun c => enc c.2) s) :
    ∃ ks : List Nat, ks.Pairwise (· ≤ ·) ∧ (∀ j ∈ ks, j ≤ (transformsTo setup.odomFrame n.sent).length) ∧
      Pub.sentOf s.trace = ks.map fun j =>
        List.ofFn (enc (((⟨Pub.yaw 0, 0⟩ : Tr) :: (transformsTo setup.odomFrame n.sent).map Prod.snd).getD j ⟨Pub.yaw 0, 0⟩)) := by
  obtain ⟨ks, h1, h2, h3⟩ := Pub.sent_never_goes_back _ _ s hs
  have h4 := Pub.stored_in_order _ _ s hs
  generalize transformsTo setup.odomFrame n.sent = cs at h4 ⊢
  rw [List.append_assoc] at h4
  have hlen : (Pub.storedOf s.trace).length ≤ cs.length := by
    have := congrArg List.length h4
    rw [List.length_map, List.length_append] at this
    omega
  refine ⟨ks, h1, fun j hj => (h2 j hj).trans hlen, ?_⟩
  rw [h3]
  refine List.map_congr_left fun j hj => ?_
  congr 1
  have hj' := h2 j hj
  have key : ∀ l : List Tr, l.map enc = cs.map (fun c => enc c.2) → 
      ((enc ⟨Pub.yaw 0, 0⟩) :: Pub.storedOf s.trace).getD j (enc ⟨Pub.yaw 0, 0⟩) =
        enc (((⟨Pub.yaw 0, 0⟩ : Tr) :: l).getD j ⟨Pub.yaw 0, 0⟩) := by
    intro l hl
    cases j with
    | zero => rfl
    | succ j =>
      rw [List.getD_cons_succ, List.getD_cons_succ]
      have hlt : j < (Pub.storedOf s.trace).length := hj'
      have e1 : (l.map enc)[j]? = (Pub.storedOf s.trace)[j]? := by rw [hl, h4, List.getElem?_append_left hlt]
      rw [List.getElem?_eq_getElem hlt, List.getElem?_map, Option.map_eq_some_iff] at e1
      obtain ⟨t, e2, e3⟩ := e1
      rw [List.getD_eq_getElem?_getD, List.getElem?_eq_getElem hlt, List.getD_eq_getElem?_getD, e2]
      exact e3.symm
  exact key _ (by rw [List.map_map]; rfl)

end Slam.Online
