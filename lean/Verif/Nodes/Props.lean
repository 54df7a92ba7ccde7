import Verif.Nodes.Model
import Verif.Dump.Props
import Verif.Pose.Props
import Mathlib.Tactic.Linarith

/-!
# Auxiliary nodes and viewers (C67, C68, C70, C71)
-/

set_option autoImplicit false
set_option linter.unusedSectionVars false

namespace Slam.Nodes

open Slam.Grid Slam.Dump Slam.Poses

/-! ## C67: bag adapter -/

variable {B G : Type*}

/-- Specification: the transforms received in a history, in order. -/
def received (es : List (Event B G)) : List (Trans B) :=
  es.flatMap fun e => match e with
    | .tf ts => ts
    | _ => []

/-- Specification: a transform between the map frame and the odometry frame. -/
def IsCorrection (mapId odomId : String) (t : Trans B) : Prop := t.parent = mapId ∧ t.child = odomId

instance (mapId odomId : String) (t : Trans B) : Decidable (IsCorrection mapId odomId t) :=
  inferInstanceAs (Decidable (_ ∧ _))

/-- Specification: a transform received, and what is sent instead. `first` is the earliest correction of the history. -/
def Replaces (mapId odomId : String) (first : Option (Trans B)) (t out : Trans B) : Prop :=
  if IsCorrection mapId odomId t then
    ∃ f, first = some f ∧ out.parent = "/provided_map" ∧ out.child = "/map" ∧ out.body = f.body
  else out = t

/-- Specification: the grid that is published at the end of a history: the latest one received. -/
def latestGrid (dflt : OccGrid G) (es : List (Event B G)) : OccGrid G :=
  match (es.filterMap fun e => match e with | .grid g => some g | _ => none).getLast? with
  | some g => ⟨"provided_map", g.body⟩
  | none => dflt

/-- Transforms of one message. -/
theorem onTransforms (mapId odomId : String) (ts : List (Trans B)) (a : Adapter B G) (seen : List (Trans B))
    (hfirst : a.first = (seen.find? fun t => decide (IsCorrection mapId odomId t)).map
      fun f => ⟨"/provided_map", "/map", f.body⟩)
    (hsent : List.Forall₂ (Replaces mapId odomId (seen.find? fun t => decide (IsCorrection mapId odomId t)))
      seen a.sent) :
    let a' := ts.foldl (Adapter.onTransform mapId odomId) a
    a'.grid = a.grid ∧ a'.published = a.published ∧
    a'.first = ((seen ++ ts).find? fun t => decide (IsCorrection mapId odomId t)).map
      (fun f => ⟨"/provided_map", "/map", f.body⟩) ∧
    List.Forall₂ (Replaces mapId odomId ((seen ++ ts).find? fun t => decide (IsCorrection mapId odomId t)))
      (seen ++ ts) a'.sent := by
  induction ts generalizing a seen with
  | nil => simp only [List.append_nil]; exact ⟨rfl, rfl, hfirst, hsent⟩
  | cons t ts ih =>
    have hw : ∀ out, List.Forall₂ (Replaces mapId odomId
          ((seen ++ [t]).find? fun t => decide (IsCorrection mapId odomId t))) seen a.sent →
        Replaces mapId odomId ((seen ++ [t]).find? fun t => decide (IsCorrection mapId odomId t)) t out →
        List.Forall₂ (Replaces mapId odomId ((seen ++ [t]).find? fun t => decide (IsCorrection mapId odomId t)))
          (seen ++ [t]) (a.sent ++ [out]) := fun out h1 h2 =>
      List.rel_append h1 (List.Forall₂.cons h2 List.Forall₂.nil)
    have hmono : List.Forall₂ (Replaces mapId odomId
        ((seen ++ [t]).find? fun t => decide (IsCorrection mapId odomId t))) seen a.sent := by
      refine List.Forall₂.imp (fun x out h => ?_) hsent
      unfold Replaces at h ⊢
      by_cases hx : IsCorrection mapId odomId x
      · rw [if_pos hx] at h ⊢
        obtain ⟨f, hf, h'⟩ := h
        exact ⟨f, by rw [List.find?_append, hf]; rfl, h'⟩
      · rw [if_neg hx] at h ⊢; exact h
    have key := ih (a := a.onTransform mapId odomId t) (seen := seen ++ [t])
    simp only [List.append_assoc, List.singleton_append] at key
    rw [List.foldl_cons]
    have hstep : (a.onTransform mapId odomId t).grid = a.grid ∧
        (a.onTransform mapId odomId t).published = a.published := by
      unfold Adapter.onTransform
      split <;> exact ⟨rfl, rfl⟩
    by_cases hc : IsCorrection mapId odomId t
    · have hn : ¬ (t.parent ≠ mapId ∨ t.child ≠ odomId) := by
        unfold IsCorrection at hc; tauto
      cases hs : seen.find? (fun t => decide (IsCorrection mapId odomId t)) with
      | none =>
        rw [hs] at hfirst
        have hf : a.first = none := hfirst
        have hst : a.onTransform mapId odomId t = { a with
            first := some ⟨"/provided_map", "/map", t.body⟩
            sent := a.sent ++ [⟨"/provided_map", "/map", t.body⟩] } := by
          unfold Adapter.onTransform; rw [if_neg hn, hf]
        have hfind : (seen ++ [t]).find? (fun t => decide (IsCorrection mapId odomId t)) = some t := by
          rw [List.find?_append, hs]; simp [hc]
        have := key (by rw [hst, hfind]; rfl) (by
          rw [hst]
          apply hw _ hmono
          unfold Replaces
          rw [if_pos hc, hfind]
          exact ⟨t, rfl, rfl, rfl, rfl⟩)
        rw [hstep.1, hstep.2] at this
        exact this
      | some f =>
        rw [hs] at hfirst
        have hf : a.first = some ⟨"/provided_map", "/map", f.body⟩ := hfirst
        have hst : a.onTransform mapId odomId t = { a with
            first := some ⟨"/provided_map", "/map", f.body⟩
            sent := a.sent ++ [⟨"/provided_map", "/map", f.body⟩] } := by
          unfold Adapter.onTransform; rw [if_neg hn, hf]
        have hfind : (seen ++ [t]).find? (fun t => decide (IsCorrection mapId odomId t)) = some f := by
          rw [List.find?_append, hs]; rfl
        have := key (by rw [hst, hfind]; rfl) (by
          rw [hst]
          apply hw _ hmono
          unfold Replaces
          rw [if_pos hc, hfind]
          exact ⟨f, rfl, rfl, rfl, rfl⟩)
        rw [hstep.1, hstep.2] at this
        exact this
    · have hn : t.parent ≠ mapId ∨ t.child ≠ odomId := by
        unfold IsCorrection at hc; tauto
      have hst : a.onTransform mapId odomId t = { a with sent := a.sent ++ [t] } := by
        unfold Adapter.onTransform; rw [if_pos hn]
      have hfind : (seen ++ [t]).find? (fun t => decide (IsCorrection mapId odomId t)) =
          seen.find? (fun t => decide (IsCorrection mapId odomId t)) := by
        rw [List.find?_append]; simp [hc]
      have := key (by rw [hst, hfind]; exact hfirst) (by
        rw [hst]
        apply hw _ hmono
        unfold Replaces
        rw [if_neg hc])
      rw [hstep.1, hstep.2] at this
      exact this

/-- The state after a history, in terms of the history. -/
theorem adapter_invariant (mapId odomId : String) (dflt : OccGrid G) (es : List (Event B G)) :
    let a := Adapter.run mapId odomId dflt es
    a.grid = latestGrid dflt es ∧
    a.first = ((received es).find? fun t => decide (IsCorrection mapId odomId t)).map
      (fun f => ⟨"/provided_map", "/map", f.body⟩) ∧
    List.Forall₂ (Replaces mapId odomId ((received es).find? fun t => decide (IsCorrection mapId odomId t)))
      (received es) a.sent := by
  induction es using List.reverseRecOn with
  | nil => exact ⟨rfl, rfl, List.Forall₂.nil⟩
  | append_singleton es e ih =>
    obtain ⟨h1, h2, h3⟩ := ih
    have hrun : Adapter.run mapId odomId dflt (es ++ [e]) =
        (Adapter.run mapId odomId dflt es).step mapId odomId e := by
      unfold Adapter.run; rw [List.foldl_append]; rfl
    rw [hrun]
    cases e with
    | tf ts =>
      have hr : received (es ++ [.tf ts]) = received es ++ ts := by simp [received]
      have hg : latestGrid dflt (es ++ [Event.tf ts]) = latestGrid dflt es := by simp [latestGrid]
      rw [hr, hg]
      obtain ⟨k1, _, k3, k4⟩ := onTransforms mapId odomId ts _ _ h2 h3
      exact ⟨k1.trans h1, k3, k4⟩
    | grid g =>
      have hr : received (es ++ [Event.grid g]) = received es := by simp [received]
      have hg : latestGrid dflt (es ++ [Event.grid g]) = ⟨"provided_map", g.body⟩ := by simp [latestGrid]
      rw [hr, hg]
      exact ⟨rfl, h2, h3⟩
    | tick =>
      have hr : received (es ++ [Event.tick]) = received es := by simp [received]
      have hg : latestGrid dflt (es ++ [Event.tick]) = latestGrid dflt es := by simp [latestGrid]
      rw [hr, hg]
      exact ⟨h1, h2, h3⟩

/-- **Transforms through the bag adapter (C67)**: after any history, as many transforms were sent as were received, in
the same order; each one other than a correction of the map frame is sent unchanged, and each correction is replaced
by the first correction ever received, with renamed frames. -/
theorem transforms_forwarded (mapId odomId : String) (dflt : OccGrid G) (es : List (Event B G)) :
    List.Forall₂ (Replaces mapId odomId ((received es).find? fun t => decide (IsCorrection mapId odomId t)))
      (received es) (Adapter.run mapId odomId dflt es).sent :=
  (adapter_invariant mapId odomId dflt es).2.2

/-- **Corrections never reach the SLAM (C67)**: no transform sent relates the map frame and the odometry frame (unless
the frames configured are the two names used for the replacement). -/
theorem no_correction_sent (mapId odomId : String) (dflt : OccGrid G) (es : List (Event B G))
    (hnames : ¬ (mapId = "/provided_map" ∧ odomId = "/map")) :
    ∀ t ∈ (Adapter.run mapId odomId dflt es).sent, ¬ IsCorrection mapId odomId t := by
  have h := transforms_forwarded mapId odomId dflt es
  revert h
  generalize (Adapter.run mapId odomId dflt es).sent = out
  generalize (received es).find? (fun t => decide (IsCorrection mapId odomId t)) = f
  generalize received es = ins
  intro h
  induction h with
  | nil => simp
  | @cons t o l l' hto _ ih =>
    intro x hx
    rcases List.mem_cons.1 hx with rfl | hx
    · unfold Replaces at hto
      by_cases hc : IsCorrection mapId odomId t
      · rw [if_pos hc] at hto
        obtain ⟨_, _, hp, hch, _⟩ := hto
        rintro ⟨h1, h2⟩
        exact hnames ⟨h1.symm.trans hp, h2.symm.trans hch⟩
      · rw [if_neg hc] at hto; rw [hto]; exact hc
    · exact ih x hx

/-- **Grids through the bag adapter (C67)**: with each turn of the main loop exactly one grid is published, the latest
one received so far, in the frame `provided_map` (an empty message if there was none). -/
theorem grid_published (mapId odomId : String) (dflt : OccGrid G) (es : List (Event B G)) :
    (Adapter.run mapId odomId dflt (es ++ [Event.tick])).published =
      (Adapter.run mapId odomId dflt es).published ++ [latestGrid dflt es] ∧
    (∀ e : Event B G, (∀ h : e = Event.tick, False) →
      (Adapter.run mapId odomId dflt (es ++ [e])).published = (Adapter.run mapId odomId dflt es).published) := by
  obtain ⟨h1, h2, h3⟩ := adapter_invariant mapId odomId dflt es
  have hrun : ∀ e, Adapter.run mapId odomId dflt (es ++ [e]) =
      (Adapter.run mapId odomId dflt es).step mapId odomId e := by
    intro e; unfold Adapter.run; rw [List.foldl_append]; rfl
  constructor
  · rw [hrun, ← h1]; rfl
  · intro e he
    rw [hrun]
    cases e with
    | tf ts => exact (onTransforms mapId odomId ts _ _ h2 h3).2.1
    | grid g => rfl
    | tick => exact absurd rfl (fun h => he h)

/-- A history with two corrections, another transform and two grids. -/
def exampleEvents : List (Event Nat Nat) :=
  [.tick, .tf [⟨"/odom", "/base", 1⟩, ⟨"/map", "/odom", 2⟩], .grid ⟨"map", 7⟩, .tick,
    .tf [⟨"/map", "/odom", 3⟩], .grid ⟨"map", 8⟩, .tick]

example : (Adapter.run "/map" "/odom" ⟨"", 0⟩ exampleEvents).sent =
      [⟨"/odom", "/base", 1⟩, ⟨"/provided_map", "/map", 2⟩, ⟨"/provided_map", "/map", 2⟩] ∧
    (Adapter.run "/map" "/odom" ⟨"", 0⟩ exampleEvents).published =
      [⟨"", 0⟩, ⟨"provided_map", 7⟩, ⟨"provided_map", 8⟩] := by decide

example : ¬ ("/map" = "/provided_map" ∧ "/odom" = "/map") := by decide

/-! ## C68: path publisher -/

section PathProps

variable {K T : Type*} [Zero K] [Zero T]

/-- Specification: the poses looked up successfully by the first `n` attempts, in order. -/
def successes (look : Nat → Option (Looked K T)) (n : Nat) : List (Looked K T) := (List.range n).filterMap look

/-- Specification: a pose message shows the position, stamp and frame of a transform. -/
def Shows (l : Looked K T) (p : PoseMsg K T) : Prop :=
  p.frame = l.frame ∧ p.stamp = l.stamp ∧ p.x = l.x ∧ p.y = l.y

/-- Specification: the empty message. -/
def IsBlank (p : PoseMsg K T) : Prop :=
  p.frame = "" ∧ p.stamp = 0 ∧ p.x = 0 ∧ p.y = 0 ∧ p.z = 0 ∧ p.quat = (0, 0, 0, 0)

theorem successes_succ (look : Nat → Option (Looked K T)) (n : Nat) :
    successes look (n + 1) = successes look n ++ (look n).toList := by
  simp only [successes, List.range_succ, List.filterMap_append, List.filterMap_cons, List.filterMap_nil]
  cases look n <;> rfl

theorem currentPose_spec (look : Nat → Option (Looked K T)) (oks i : Nat) :
    let r := currentPose look oks i
    (∃ j l, look j = some l ∧ i ≤ j ∧ r.1 = l.toPose ∧ r.2.2 = j + 1 ∧ r.2.1 + (j + 1 - i) = oks ∧
      successes look r.2.2 = successes look i ++ [l]) ∨
    (r.1 = PoseMsg.dummy ∧ r.2.1 = 0 ∧ r.2.2 = i + oks ∧ successes look r.2.2 = successes look i) := by
  induction oks generalizing i with
  | zero => right; simp [currentPose]
  | succ n ih =>
    simp only [currentPose]
    cases h : look i with
    | some l =>
      left
      refine ⟨i, l, h, le_rfl, rfl, rfl, by simp, ?_⟩
      simp only
      rw [successes_succ, h]; rfl
    | none =>
      simp only
      have hs : successes look (i + 1) = successes look i := by rw [successes_succ, h]; simp
      rcases ih (i + 1) with ⟨j, l, h1, h2, h3, h4, h5, h6⟩ | ⟨h1, h2, h3, h4⟩
      · left
        refine ⟨j, l, h1, by omega, h3, h4, by omega, ?_⟩
        rw [← hs]; exact h6
      · right
        refine ⟨h1, h2, by rw [h3]; omega, ?_⟩
        rw [← hs]; exact h4

/-- What the loop publishes: `ps` are poses; the `k`-th message holds the poses of the path so far and the first
`k+1` of `ps`. -/
theorem pathLoop_spec (look : Nat → Option (Looked K T)) (oks i : Nat) (path : Path K T) :
    ∃ (n : Nat) (ls : List (Looked K T)) (tail : List (PoseMsg K T)),
      i ≤ n ∧ n ≤ i + oks ∧ successes look n = successes look i ++ ls ∧
      (tail = [] ∨ tail = [PoseMsg.dummy]) ∧
      (pathLoop look oks i path).length = (ls.map Looked.toPose ++ tail).length ∧
      (∀ k (m : Path K T), (pathLoop look oks i path)[k]? = some m →
        m.frame = path.frame ∧ m.poses = path.poses ++ (ls.map Looked.toPose ++ tail).take (k + 1) ∧
        ((ls.map Looked.toPose ++ tail)[k]?).map PoseMsg.stamp = some m.stamp) ∧
      (∀ a, i ≤ a → (successes look a).length - (successes look i).length + (a - i) ≤ oks → a ≤ n ∨
        (pathLoop look oks i path).length ≥ (successes look a).length - (successes look i).length) := by
  induction oks using Nat.strong_induction_on generalizing i path with
  | _ oks ih =>
    cases oks with
    | zero =>
      refine ⟨i, [], [], le_rfl, by simp, by simp, Or.inl rfl, by simp [pathLoop], ?_, ?_⟩
      · intro k m h; simp [pathLoop] at h
      · intro a h1 h2; left; omega
    | succ o =>
      rw [pathLoop]
      set r := currentPose look o i with hr
      set path' : Path K T := { path with stamp := r.1.stamp, poses := path.poses ++ [r.1] } with hp
      have hle : r.2.1 ≤ o := currentPose_oks look o i
      obtain ⟨n, ls, tail, h1, h2, h3, h4, h5, h6, h7⟩ := ih r.2.1 (by omega) r.2.2 path'
      rcases currentPose_spec look o i with ⟨j, l, g1, g2, g3, g4, g5, g6⟩ | ⟨g1, g2, g3, g4⟩
      · rw [← hr] at g3 g4 g5 g6
        refine ⟨n, l :: ls, tail, by omega, by omega, by rw [h3, g6]; simp, h4, ?_, ?_, ?_⟩
        · simp only [List.length_cons, h5, List.map_cons, List.cons_append]
        · intro k m hk
          cases k with
          | zero =>
            simp only [List.getElem?_cons_zero, Option.some.injEq] at hk
            rw [← hk]
            refine ⟨rfl, ?_, ?_⟩
            · simp [hp, g3]
            · simp [hp, g3]
          | succ k =>
            simp only [List.getElem?_cons_succ] at hk
            obtain ⟨a1, a2, a3⟩ := h6 k m hk
            refine ⟨a1, ?_, ?_⟩
            · rw [a2]; simp [hp, g3]
            · simpa using a3
        · intro a ha1 ha2
          by_cases haj : a ≤ j + 1
          · left; omega
          · have hlen : (successes look r.2.2).length = (successes look i).length + 1 := by rw [g6]; simp
            have hmono : (successes look r.2.2).length ≤ (successes look a).length := by
              have : ∀ d, (successes look r.2.2).length ≤ (successes look (r.2.2 + d)).length := by
                intro d
                induction d with
                | zero => exact le_rfl
                | succ d ihd =>
                  rw [← Nat.add_assoc, successes_succ, List.length_append]; omega
              have := this (a - r.2.2)
              rwa [Nat.add_sub_cancel' (by omega)] at this
            rcases h7 a (by omega) (by omega) with h | h
            · left; exact h
            · right; simp only [List.length_cons]; omega
      · rw [← hr] at g1 g2 g3 g4
        have hz : pathLoop look r.2.1 r.2.2 path' = [] := by rw [g2, pathLoop]
        rw [hz]
        refine ⟨r.2.2, [], [PoseMsg.dummy], by omega, by omega, by rw [g4]; simp, Or.inr rfl, by simp, ?_, ?_⟩
        · intro k m hk
          cases k with
          | zero =>
            simp only [List.getElem?_cons_zero, Option.some.injEq] at hk
            rw [← hk]
            exact ⟨rfl, by simp [hp, g1], by simp [hp, g1]⟩
          | succ k => simp at hk
        · intro a ha1 ha2
          by_cases ha : a ≤ r.2.2
          · left; exact ha
          · have : a = i + o + 1 := by omega
            right
            have : (successes look a).length ≤ (successes look i).length + 1 := by
              rw [this, successes_succ, ← g3, g4, List.length_append]
              cases look r.2.2 <;> simp
            simp; omega

/-- **The published path (C68)**: whatever the outcomes of the lookups and whenever the node is shut down, there is a
number of attempts such that the `k`-th message holds the first `k+1` poses looked up successfully, in order, each
with its position, stamp and frame; so each message extends the one before by exactly one pose. It carries the stamp
of its last pose and the map's frame. Only the last message of all may, in place of a pose, end with an empty one, if
the shutdown came while a pose was awaited. -/
theorem path_published (mapFrame : String) (look : Nat → Option (Looked K T)) (oks : Nat) :
    ∃ (n : Nat) (tail : List (PoseMsg K T)) (poses : List (PoseMsg K T)),
      n ≤ oks ∧ List.Forall₂ Shows (successes look n) poses ∧
      (tail = [] ∨ ∃ p, IsBlank p ∧ tail = [p]) ∧
      (pathNode mapFrame look oks).length = (poses ++ tail).length ∧
      ∀ k (m : Path K T), (pathNode mapFrame look oks)[k]? = some m →
        m.frame = mapFrame ∧ m.poses = (poses ++ tail).take (k + 1) ∧
        m.poses.length = k + 1 ∧ (m.poses.getLast?).map PoseMsg.stamp = some m.stamp := by
  obtain ⟨n, ls, tail, h1, h2, h3, h4, h5, h6, h7⟩ := pathLoop_spec look oks 0 ⟨mapFrame, 0, []⟩
  have hls : successes look n = ls := by rw [h3]; simp [successes]
  refine ⟨n, tail, ls.map Looked.toPose, by omega, ?_, ?_, h5, ?_⟩
  · rw [hls]
    clear h3 h5 h6 h7 hls
    induction ls with
    | nil => exact List.Forall₂.nil
    | cons l ls ih => exact List.Forall₂.cons ⟨rfl, rfl, rfl, rfl⟩ ih
  · rcases h4 with h | h
    · exact Or.inl h
    · exact Or.inr ⟨_, ⟨rfl, rfl, rfl, rfl, rfl, rfl⟩, h⟩
  · intro k m hk
    obtain ⟨a1, a2, a3⟩ := h6 k m hk
    have hklt : k < (ls.map Looked.toPose ++ tail).length := by
      rw [← h5]; exact (List.getElem?_eq_some_iff.1 hk).1
    simp only [List.nil_append] at a2
    refine ⟨a1, a2, ?_, ?_⟩
    · rw [a2, List.length_take]; omega
    · rw [a2, List.getLast?_eq_getElem?, List.length_take, Nat.min_eq_left (by omega), List.getElem?_take]
      rw [if_pos (by omega)]
      exact a3

/-- **Failed lookups are retried, and no pose is lost (C68)**: if the node runs long enough for `a` attempts (it tests
for a shutdown once per attempt and once per message), each success among them is published. -/
theorem path_progress (mapFrame : String) (look : Nat → Option (Looked K T)) (oks a : Nat)
    (hrun : a + (successes look a).length ≤ oks) :
    (successes look a).length ≤ (pathNode mapFrame look oks).length := by
  obtain ⟨n, ls, tail, h1, h2, h3, h4, h5, h6, h7⟩ := pathLoop_spec look oks 0 ⟨mapFrame, 0, []⟩
  have h0 : successes look 0 = [] := rfl
  rcases h7 a (by omega) (by rw [h0]; simp; omega) with h | h
  · have hls : successes look n = ls := by rw [h3]; simp [successes]
    have hmono : ∀ d, (successes look a).length ≤ (successes look (a + d)).length := by
      intro d
      induction d with
      | zero => exact le_rfl
      | succ d ihd => rw [← Nat.add_assoc, successes_succ, List.length_append]; omega
    have := hmono (n - a)
    rw [Nat.add_sub_cancel' h, hls] at this
    unfold pathNode
    rw [h5, List.length_append, List.length_map]
    omega
  · rw [h0] at h
    unfold pathNode
    simpa using h

/-- **The robot's heading is missing in the path (C68)**: no pose of any message has an orientation. -/
theorem path_without_orientation (mapFrame : String) (look : Nat → Option (Looked K T)) (oks : Nat) :
    ∀ m ∈ pathNode mapFrame look oks, ∀ p ∈ m.poses, p.quat = (0, 0, 0, 0) ∧ p.z = 0 := by
  obtain ⟨n, ls, tail, h1, h2, h3, h4, h5, h6, h7⟩ := pathLoop_spec look oks 0 ⟨mapFrame, 0, []⟩
  intro m hm p hp
  obtain ⟨k, hk⟩ := List.mem_iff_getElem?.1 hm
  obtain ⟨_, a2, _⟩ := h6 k m hk
  rw [a2] at hp
  simp only [List.nil_append] at hp
  have hp := List.mem_of_mem_take hp
  rcases List.mem_append.1 hp with h | h
  · obtain ⟨l, _, rfl⟩ := List.mem_map.1 h
    exact ⟨rfl, rfl⟩
  · rcases h4 with h' | h' <;> rw [h'] at h
    · simp at h
    · rw [List.mem_singleton.1 h]; exact ⟨rfl, rfl⟩

/-- Three attempts of which the second fails. -/
def exampleLook : Nat → Option (Looked ℤ ℤ) := fun i =>
  if i = 1 then none else some ⟨"map", 10 * i, i, i, i⟩

example : ((pathNode "map" exampleLook 6).map fun m => (m.stamp, m.poses.map (·.x))) =
    [(0, [0]), (20, [0, 2]), (0, [0, 2, 0])] := by
  simp [pathNode, pathLoop, currentPose, exampleLook, Looked.toPose, PoseMsg.dummy]

example : (3 : Nat) + (successes exampleLook 3).length ≤ 6 := by decide

end PathProps

end Slam.Nodes
