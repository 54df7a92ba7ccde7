import Verif.World.Spec
import Verif.Pose.Props
import Mathlib.Tactic.Linarith
import Mathlib.Tactic.Ring
import Mathlib.Tactic.NormNum
import Mathlib.Tactic.FieldSimp

/-! # C38, C39, C40, C58 -/

set_option autoImplicit false
set_option linter.unusedSectionVars false

namespace Slam.Worlds
open Slam.Poses

variable {K : Type*} [Field K] [LinearOrder K] [IsStrictOrderedRing K]

/-! ## C38 -/

theorem run_append (P : Props K) (s : State K) (h1 h2 : List (Op K)) :
    s.run P (h1 ++ h2) =
      (((s.run P h1).1.run P h2).1, (s.run P h1).2 ++ ((s.run P h1).1.run P h2).2) := by
  induction h1 generalizing s with
  | nil => simp [State.run]
  | cons op h1 ih => simp only [List.cons_append, State.run, ih, List.append_assoc]

theorem run_lists (P : Props K) (s : State K) (h : List (Op K)) :
    (s.run P h).1.poseObs = s.poseObs ++ poseSubscribers h ∧
      (s.run P h).1.mapObs = s.mapObs ++ mapSubscribers h ∧
      ∀ o, (s.run P h).1.dead.contains o = (s.dead.contains o || destroyed o h) := by
  induction h generalizing s with
  | nil => simp [State.run, poseSubscribers, mapSubscribers, destroyed]
  | cons op h ih =>
    obtain ⟨i1, i2, i3⟩ := ih (s.step P op).1
    simp only [State.run]
    cases op with
    | subscribePose o =>
      refine ⟨?_, ?_, ?_⟩
      · rw [i1]; simp [State.step, poseSubscribers]
      · rw [i2]; simp [State.step, mapSubscribers]
      · intro o'; rw [i3]; simp [State.step, destroyed]
    | subscribeMap o =>
      refine ⟨?_, ?_, ?_⟩
      · rw [i1]; simp [State.step, poseSubscribers]
      · rw [i2]; simp [State.step, mapSubscribers]
      · intro o'; rw [i3]; simp [State.step, destroyed]
    | destroy o =>
      refine ⟨?_, ?_, ?_⟩
      · rw [i1]; simp [State.step, poseSubscribers]
      · rw [i2]; simp [State.step, mapSubscribers]
      · intro o'
        rw [i3]
        simp only [State.step, destroyed, List.contains_cons]
        rw [Bool.beq_comm]
        cases (o == o') <;> cases (s.dead.contains o') <;> simp
    | handle d m =>
      refine ⟨?_, ?_, ?_⟩
      · rw [i1]; simp [State.step, State.handle, State.observe, poseSubscribers]
      · rw [i2]; simp [State.step, State.handle, State.observe, mapSubscribers]
      · intro o'; rw [i3]; simp [State.step, State.handle, State.observe, destroyed]

/-- C38: whatever happened before, a scan notifies each live pose observer once per subscription, in order of
subscription, with the pose after the scan, and then each live map observer with the map after the scan; the map
after the scan has exactly one insertion more, made at the pose that is reported. -/
theorem scan_notifies_observers (P : Props K) (hist : List (Op K)) (delta : Delta K) (m : Pose K → Delta K) :
    let before := State.init.run P hist
    let after := State.init.run P (hist ++ [.handle delta m])
    after.2 = before.2 ++
      ((poseSubscribers hist).filter fun o => !destroyed o hist).map (fun o => Notice.pose o after.1.pose) ++
      ((mapSubscribers hist).filter fun o => !destroyed o hist).map (fun o => Notice.map o after.1.map) ∧
    after.1.pose = (before.1.pose.add delta).add (m (before.1.pose.add delta)) ∧
    ∃ q, after.1.map = before.1.map ++ [⟨after.1.pose, q, P.margin⟩] ∧
      (q = P.localizedQuality ∨ q = P.rawQuality) := by
  intro before after
  obtain ⟨h1, h2, h3⟩ := run_lists P State.init hist
  have e : after = ((before.1.handle P delta m).1, before.2 ++ (before.1.handle P delta m).2) := by
    simp only [after, before]
    rw [run_append]
    simp [State.run, State.step]
  refine ⟨?_, ?_, ?_⟩
  · rw [e]
    simp only [State.handle, State.observe, State.notifyPose, State.notifyMap, before, h1, h2, h3]
    simp [State.init]
  · rw [e]; rfl
  · rw [e]
    refine ⟨if (m (before.1.pose.add delta)).toBool then P.localizedQuality else P.rawQuality, rfl, ?_⟩
    by_cases hb : (m (before.1.pose.add delta)).toBool = true
    · rw [if_pos hb]; exact .inl rfl
    · rw [if_neg hb]; exact .inr rfl

/-- C38: nothing but a scan sends notifications or changes the pose or the map. -/
theorem only_scans_notify (P : Props K) (hist : List (Op K)) (op : Op K) (hop : ∀ d m, op ≠ .handle d m) :
    (State.init.run P (hist ++ [op])).2 = (State.init.run P hist).2 ∧
    (State.init.run P (hist ++ [op])).1.pose = (State.init.run P hist).1.pose ∧
    (State.init.run P (hist ++ [op])).1.map = (State.init.run P hist).1.map := by
  rw [run_append]
  cases op with
  | handle d m => exact absurd rfl (hop d m)
  | subscribePose o => simp [State.run, State.step]
  | subscribeMap o => simp [State.run, State.step]
  | destroy o => simp [State.run, State.step]

/-- C38: a destroyed observer receives nothing afterwards, whatever happens later. -/
theorem destroyed_not_notified (P : Props K) (h1 h2 : List (Op K)) (o : Nat) (hd : destroyed o h1 = true) :
    ∃ later, (State.init.run P (h1 ++ h2)).2 = (State.init.run P h1).2 ++ later ∧
      ∀ n ∈ later, (∀ p, n ≠ .pose o p) ∧ ∀ mp, n ≠ .map o mp := by
  rw [run_append]
  refine ⟨_, rfl, ?_⟩
  have hdead : (State.init.run P h1).1.dead.contains o = true := by
    rw [(run_lists P State.init h1).2.2, hd]; simp
  generalize (State.init.run P h1).1 = s at hdead
  induction h2 generalizing s with
  | nil => simp [State.run]
  | cons op h2 ih =>
    simp only [State.run]
    intro n hn
    rcases List.mem_append.1 hn with hn | hn
    · cases op with
      | handle d m =>
        simp only [State.step, State.handle, State.observe, State.notifyPose, State.notifyMap] at hn
        rcases List.mem_append.1 hn with hn | hn
        · rw [List.mem_map] at hn
          obtain ⟨o', ho', rfl⟩ := hn
          rw [List.mem_filter] at ho'
          refine ⟨?_, by simp⟩
          rintro p hp
          injection hp with hp _
          rw [hp, hdead] at ho'
          simp at ho'
        · rw [List.mem_map] at hn
          obtain ⟨o', ho', rfl⟩ := hn
          rw [List.mem_filter] at ho'
          refine ⟨by simp, ?_⟩
          rintro p hp
          injection hp with hp _
          rw [hp, hdead] at ho'
          simp at ho'
      | subscribePose o => simp [State.step] at hn
      | subscribeMap o => simp [State.step] at hn
      | destroy o => simp [State.step] at hn
    · refine ih (s.step P op).1 ?_ n hn
      cases op with
      | destroy o' => simp only [State.step, List.contains_cons]; rw [hdead]; simp
      | handle d m => simpa [State.step, State.handle, State.observe] using hdead
      | subscribePose o => simpa [State.step] using hdead
      | subscribeMap o => simpa [State.step] using hdead

/-- C38: the quality of an insertion tells whether the matcher moved the pose (beyond the comparison tolerance). -/
theorem insertion_quality (P : Props K) (s : State K) (m : Pose K → Delta K) :
    (s.observe P m).map = s.map ++ [⟨s.pose.add (m s.pose),
      if |(m s.pose).x| ≤ 1 / 10 ^ 7 ∧ |(m s.pose).y| ≤ 1 / 10 ^ 7 ∧ |(m s.pose).theta| ≤ 1 / 10 ^ 7
      then P.rawQuality else P.localizedQuality, P.margin⟩] := by
  have h := (motion_test (m s.pose)).1
  simp only [are_equal_zero_iff] at h
  simp only [State.observe]
  by_cases hb : (m s.pose).toBool = true
  · have hn : ¬(|(m s.pose).x| ≤ 1 / 10 ^ 7 ∧ |(m s.pose).y| ≤ 1 / 10 ^ 7 ∧ |(m s.pose).theta| ≤ 1 / 10 ^ 7) := by
      intro hc
      rw [h.2 hc] at hb
      cases hb
    rw [if_pos hb, if_neg hn]
  · rw [if_neg hb, if_pos (h.1 (Bool.eq_false_iff.2 hb))]

/-- Non-vacuity: two pose observers, one map observer, one destroyed before the second scan. -/
example : (State.init.run (⟨1 / 2, 1 / 4, 0⟩ : Props ℚ)
    [.subscribePose 1, .subscribeMap 2, .subscribePose 3, .handle ⟨1, 0, 0⟩ (fun _ => ⟨0, 1, 0⟩), .destroy 1,
      .handle ⟨1, 0, 0⟩ (fun _ => ⟨0, 0, 0⟩)]).2 =
    [.pose 1 ⟨1, 1, 0⟩, .pose 3 ⟨1, 1, 0⟩, .map 2 [⟨⟨1, 1, 0⟩, 1 / 2, 0⟩],
      .pose 3 ⟨2, 1, 0⟩, .map 2 [⟨⟨1, 1, 0⟩, 1 / 2, 0⟩, ⟨⟨2, 1, 0⟩, 1 / 4, 0⟩]] := by
  decide +kernel

/-! ## C39 -/

/-- C39: the increments handed to a world add up to the difference between the last odometry pose and the stored
one. -/
theorem increments_telescope (prev : Pose K) (ps : List (Pose K)) :
    (increments prev ps).foldl Pose.add prev = ps.getLastD prev ∧
    (increments prev ps).foldl Pose.add ⟨0, 0, 0⟩ = (ps.getLastD prev).sub prev := by
  have h1 : ∀ (ps : List (Pose K)) (prev : Pose K),
      (increments prev ps).foldl Pose.add prev = ps.getLastD prev := by
    intro ps
    induction ps with
    | nil => intro prev; rfl
    | cons p ps ih =>
      intro prev
      simp only [increments, observerStep, List.foldl_cons]
      have : prev.add (p.sub prev) = p := by simp [Pose.add, Pose.sub]
      rw [this, ih p, List.getLastD_cons]
  refine ⟨h1 ps prev, ?_⟩
  have h2 : ∀ (ds : List (Delta K)) (a b : Pose K), ds.foldl Pose.add (a.add b) = (ds.foldl Pose.add a).add b := by
    intro ds
    induction ds with
    | nil => intro a b; rfl
    | cons d ds ih =>
      intro a b
      simp only [List.foldl_cons]
      rw [← ih]
      congr 1
      simp only [Pose.add, Pose.mk.injEq]
      exact ⟨by ring, by ring, by ring⟩
  have h3 := h2 (increments prev ps) ⟨0, 0, 0⟩ prev
  have hz : (Pose.add ⟨0, 0, 0⟩ prev : Pose K) = prev := by simp [Pose.add]
  rw [hz, h1 ps prev] at h3
  rw [h3]
  simp [Pose.add, Pose.sub]

/-- C39: a world fed by a scan observer moves by the odometry difference plus the sum of the matcher's
corrections. -/
theorem world_follows_odometry_with_corrections (P : Props K) (s : State K) (prev : Pose K)
    (l : List (Pose K × (Pose K → Delta K))) :
    ∃ cs : List (Delta K), cs.length = l.length ∧
      (drive P s prev l).pose = cs.foldl Pose.add (s.pose.add (((l.map Prod.fst).getLastD prev).sub prev)) ∧
      (∀ (i : Nat) (hi : i < l.length) (hi' : i < cs.length), ∃ q, cs[i] = l[i].2 q) := by
  induction l generalizing s prev with
  | nil => exact ⟨[], rfl, by simp [drive, Pose.add, Pose.sub], by simp⟩
  | cons x l ih =>
    obtain ⟨p, m⟩ := x
    simp only [drive, observerStep]
    obtain ⟨cs, h1, h2, h3⟩ := ih (s.handle P (p.sub prev) m).1 p
    refine ⟨m (s.pose.add (p.sub prev)) :: cs, by simp [h1], ?_, ?_⟩
    · rw [h2, List.foldl_cons]
      congr 1
      have hl : (List.map Prod.fst ((p, m) :: l)).getLastD prev = (List.map Prod.fst l).getLastD p := by
        rw [List.map_cons, List.getLastD_cons]
      rw [hl]
      simp only [State.handle, State.observe, Pose.add, Pose.sub, Pose.mk.injEq]
      exact ⟨by ring, by ring, by ring⟩
    · intro i hi hi'
      cases i with
      | zero => exact ⟨_, rfl⟩
      | succ i => exact h3 i (by simpa using hi) (by simpa using hi')

/-- C39: with a matcher that never moves the pose, a fresh world fed by a fresh scan observer is at the last odometry
pose after any number of scans. -/
theorem no_action_world_is_at_odometry (P : Props K) (ps : List (Pose K)) :
    (drive P State.init ⟨0, 0, 0⟩ (ps.map fun p => (p, fun _ => ⟨0, 0, 0⟩))).pose = ps.getLastD ⟨0, 0, 0⟩ := by
  obtain ⟨cs, h1, h2, h3⟩ := world_follows_odometry_with_corrections P State.init ⟨0, 0, 0⟩
    (ps.map fun p => (p, fun _ => (⟨0, 0, 0⟩ : Delta K)))
  rw [h2]
  have hz : ∀ c ∈ cs, c = ⟨0, 0, 0⟩ := by
    intro c hc
    obtain ⟨i, hi, rfl⟩ := List.getElem_of_mem hc
    obtain ⟨q, hq⟩ := h3 i (by omega) hi
    rw [hq]
    simp
  have hfold : ∀ (cs : List (Delta K)) (p : Pose K), (∀ c ∈ cs, c = ⟨0, 0, 0⟩) → cs.foldl Pose.add p = p := by
    intro cs
    induction cs with
    | nil => intros; rfl
    | cons c cs ih =>
      intro p hc
      rw [List.foldl_cons, hc c (by simp)]
      have : p.add ⟨0, 0, 0⟩ = p := by simp [Pose.add]
      rw [this]
      exact ih p fun c h => hc c (by simp [h])
  rw [hfold cs _ hz, List.map_map]
  have : (Prod.fst ∘ fun p : Pose K => (p, fun _ : Pose K => (⟨0, 0, 0⟩ : Delta K))) = id := rfl
  rw [this, List.map_id]
  simp [State.init, Pose.add, Pose.sub]

/-- Non-vacuity. -/
example : (drive (⟨1, 1, 0⟩ : Props ℚ) State.init ⟨0, 0, 0⟩
    [(⟨1, 0, 0⟩, fun _ => ⟨1 / 10, 0, 0⟩), (⟨3, 1, 1 / 2⟩, fun _ => ⟨0, 0, 0⟩)]).pose = ⟨31 / 10, 1, 1 / 2⟩ := by
  decide +kernel

/-! ## C40 -/

theorem convert_spec (m : Msg K) (skip : Bool) (rs : List (Option K)) (k : Nat) :
    convert m skip (m.angleMin + k * m.increment - m.increment) rs =
      ((rs.zipIdx k).filterMap (fun x => pointSpec m skip x.2 x.1),
        m.angleMin + (k + rs.length : Nat) * m.increment - m.increment) := by
  induction rs generalizing k with
  | nil => simp [convert]
  | cons r rs ih =>
    have ha : m.angleMin + k * m.increment - m.increment + m.increment =
        m.angleMin + ((k + 1 : Nat) : K) * m.increment - m.increment := by push_cast; ring
    have hb : m.angleMin + ((k + 1 : Nat) : K) * m.increment - m.increment = m.angleMin + k * m.increment := by
      push_cast; ring
    have hlen : k + (r :: rs).length = k + 1 + rs.length := by simp; omega
    simp only [convert]
    rw [ha, ih (k + 1), hlen, List.zipIdx_cons, hb]
    cases r with
    | none => simp [pointSpec]
    | some v =>
      simp only
      by_cases h1 : v < m.rangeMin
      · rw [if_pos h1, List.filterMap_cons_none (by simp [pointSpec, h1])]
      · rw [if_neg h1]
        by_cases h2 : m.rangeMax ≤ v
        · rw [if_pos h2]
          cases skip with
          | true =>
            rw [if_pos rfl, List.filterMap_cons_none (by simp [pointSpec, h1, not_lt.2 h2])]
          | false =>
            rw [if_neg (by simp), List.filterMap_cons_some (b := ⟨some m.rangeMax, m.angleMin + k * m.increment, false⟩)
              (by simp [pointSpec, h1, not_lt.2 h2])]
        · rw [if_neg h2, List.filterMap_cons_some (b := ⟨some v, m.angleMin + k * m.increment, true⟩)
            (by simp [pointSpec, h1, not_le.1 h2])]

/-- C40: for a message whose angles are consistent (its last beam points at the maximal angle, within the tolerance the
program asserts), the scan is, in order, what the specification gives for each range. -/
theorem message_conversion (m : Msg K) (skip : Bool) (tol : K)
    (hcons : |m.angleMin + (m.ranges.length : K) * m.increment - m.increment - m.angleMax| ≤ tol) :
    msg2scan m skip tol = some (m.ranges.zipIdx.filterMap fun x => pointSpec m skip x.2 x.1) := by
  unfold msg2scan
  have := convert_spec m skip m.ranges 0
  simp only [Nat.cast_zero, zero_mul, add_zero, Nat.zero_add] at this
  simp only [this]
  rw [if_pos hcons]

/-- C40: read off the specification: every point of the scan comes from a range of the message, at that range's angle;
it is occupied exactly if the range is within `[min, max)`, or is NaN; a point that is not occupied is clipped to the
maximal range and appears only if such points are not to be skipped; and every range within `[min, max)` gives a
point. -/
theorem message_points (m : Msg K) (skip : Bool) (tol : K) (ps : List (Point K))
    (h : msg2scan m skip tol = some ps) :
    (∀ p ∈ ps, ∃ (i : Nat) (r : Option K), m.ranges[i]? = some r ∧ p.angle = m.angleMin + i * m.increment ∧
      (p.occupied = true ↔ r = none ∨ ∃ v, r = some v ∧ m.rangeMin ≤ v ∧ v < m.rangeMax) ∧
      (p.occupied = true → p.range = r) ∧
      (p.occupied = false → skip = false ∧ p.range = some m.rangeMax ∧ ∃ v, r = some v ∧ m.rangeMax ≤ v)) ∧
    (∀ (i : Nat) (v : K), m.ranges[i]? = some (some v) → m.rangeMin ≤ v → v < m.rangeMax →
      ⟨some v, m.angleMin + i * m.increment, true⟩ ∈ ps) := by
  have hps : ps = m.ranges.zipIdx.filterMap fun x => pointSpec m skip x.2 x.1 := by
    unfold msg2scan at h
    have := convert_spec m skip m.ranges 0
    simp only [Nat.cast_zero, zero_mul, add_zero, Nat.zero_add] at this
    simp only [this] at h
    split_ifs at h
    injection h with h
    exact h.symm
  subst hps
  constructor
  · intro p hp
    rw [List.mem_filterMap] at hp
    obtain ⟨⟨r, i⟩, hri, hpt⟩ := hp
    refine ⟨i, r, (List.mem_zipIdx_iff_getElem?.1 hri), ?_⟩
    simp only [pointSpec] at hpt
    cases r with
    | none =>
      simp only at hpt
      injection hpt with hpt
      subst hpt
      simp
    | some v =>
      simp only at hpt
      by_cases h1 : v < m.rangeMin
      · rw [if_pos h1] at hpt; cases hpt
      · rw [if_neg h1] at hpt
        by_cases h2 : v < m.rangeMax
        · rw [if_pos h2] at hpt
          injection hpt with hpt
          subst hpt
          simp [not_lt.1 h1, h2]
        · rw [if_neg h2] at hpt
          cases skip with
          | true => simp at hpt
          | false =>
            simp only [Bool.false_eq_true, if_false] at hpt
            injection hpt with hpt
            subst hpt
            simp [h2, not_lt.1 h2]
  · intro i v hi h1 h2
    rw [List.mem_filterMap]
    refine ⟨(some v, i), List.mem_zipIdx_iff_getElem?.2 hi, ?_⟩
    simp [pointSpec, not_lt.2 h1, h2]

/-- Non-vacuity: a five-beam message with a too short, a normal, a maximal and a NaN range. -/
example : msg2scan (⟨0, 4 / 10, 1 / 10, 1 / 5, 10, [some (1 / 10), some 1, some 10, none, some 20]⟩ : Msg ℚ) false
      (1 / 1000) =
    some [⟨some 1, 1 / 10, true⟩, ⟨some 10, 2 / 10, false⟩, ⟨none, 3 / 10, true⟩, ⟨some 10, 4 / 10, false⟩] := by
  decide +kernel

/-! ## C58: time stamps of dumped trajectories -/

theorem digitsValue_append (cs : List Char) (c : Char) :
    digitsValue (cs ++ [c]) = 10 * digitsValue cs + (c.toNat - 48) := by
  simp [digitsValue]

theorem digitChar_value (d : Nat) (h : d < 10) : d.digitChar.toNat - 48 = d := by
  rcases (show d = 0 ∨ d = 1 ∨ d = 2 ∨ d = 3 ∨ d = 4 ∨ d = 5 ∨ d = 6 ∨ d = 7 ∨ d = 8 ∨ d = 9 by omega) with
    h | h | h | h | h | h | h | h | h | h <;> subst h <;> decide

theorem digitsValue_toDigits (n : Nat) : digitsValue (Nat.toDigits 10 n) = n := by
  induction n using Nat.strongRecOn with
  | _ n ih =>
    rw [Nat.toDigits_eq_if (by norm_num)]
    by_cases h : n < 10
    · rw [if_pos h]
      simp [digitsValue, digitChar_value n h]
    · rw [if_neg h, digitsValue_append, ih (n / 10) (by omega), digitChar_value _ (Nat.mod_lt _ (by norm_num))]
      omega

theorem toDigits_length (n : Nat) : 0 < (Nat.toDigits 10 n).length ∧ n < 10 ^ (Nat.toDigits 10 n).length ∧
    (n ≠ 0 → 10 ^ ((Nat.toDigits 10 n).length - 1) ≤ n) := by
  induction n using Nat.strongRecOn with
  | _ n ih =>
    rw [Nat.toDigits_eq_if (by norm_num)]
    by_cases h : n < 10
    · rw [if_pos h]
      simp
      omega
    · rw [if_neg h]
      obtain ⟨h1, h2, h3⟩ := ih (n / 10) (by omega)
      have h3 := h3 (by omega)
      simp only [List.length_append, List.length_cons, List.length_nil]
      generalize (Nat.toDigits 10 (n / 10)).length = L at *
      obtain ⟨M, rfl⟩ : ∃ M, L = M + 1 := ⟨L - 1, by omega⟩
      simp only [Nat.add_sub_cancel, Nat.zero_add] at h3 ⊢
      rw [pow_succ] at h2
      refine ⟨by omega, ?_, fun _ => ?_⟩
      · rw [pow_succ, pow_succ]; omega
      · rw [pow_succ]; omega

theorem dot_not_digit (n : Nat) : ∀ c ∈ Nat.toDigits 10 n, decide (c ≠ '.') = true := by
  intro c hc
  have := Nat.isDigit_of_mem_toDigits (by norm_num) (by norm_num) hc
  rw [decide_eq_true_eq]
  rintro rfl
  revert this
  decide

/-- How a reader of the trajectory file understands a time stamp. -/
theorem stamp_value (sec nsec : Nat) :
    readDecimal (stampText sec nsec) = sec + (nsec : ℚ) / 10 ^ (Nat.toDigits 10 nsec).length := by
  unfold readDecimal stampText
  have h1 : (Nat.toDigits 10 sec ++ '.' :: Nat.toDigits 10 nsec).takeWhile (· ≠ '.') = Nat.toDigits 10 sec := by
    rw [List.takeWhile_append_of_pos (dot_not_digit sec)]
    simp
  have h2 : (Nat.toDigits 10 sec ++ '.' :: Nat.toDigits 10 nsec).dropWhile (· ≠ '.') =
      '.' :: Nat.toDigits 10 nsec := by
    rw [List.dropWhile_append_of_pos (dot_not_digit sec)]
    simp
  simp only [h1, h2, List.drop_one, List.tail_cons, digitsValue_toDigits]

/-- C58: the time written for a pose is the pose's time exactly if the nanoseconds are zero or have nine digits. -/
theorem stamp_correct_iff (sec nsec : Nat) (h : nsec < 10 ^ 9) :
    readDecimal (stampText sec nsec) = sec + (nsec : ℚ) / 10 ^ 9 ↔ nsec = 0 ∨ 10 ^ 8 ≤ nsec := by
  rw [stamp_value]
  obtain ⟨h1, h2, h3⟩ := toDigits_length nsec
  generalize (Nat.toDigits 10 nsec).length = L at *
  constructor
  · intro he
    by_cases h0 : nsec = 0
    · exact .inl h0
    · right
      have h0' : (nsec : ℚ) ≠ 0 := by exact_mod_cast h0
      have he' : (nsec : ℚ) / 10 ^ L = (nsec : ℚ) / 10 ^ 9 := by linarith
      rw [div_eq_div_iff (by positivity) (by positivity)] at he'
      have he'' := mul_left_cancel₀ h0' he'
      have hL : (10 : Nat) ^ 9 = 10 ^ L := by exact_mod_cast he''
      have hL := Nat.pow_right_injective (le_refl 2 |>.trans (by norm_num)) hL
      have := h3 h0
      rw [← hL] at this
      simpa using this
  · rintro (rfl | h8)
    · simp
    · have hne : nsec ≠ 0 := by omega
      have h3 := h3 hne
      have hL : L = 9 := by
        rcases Nat.lt_trichotomy L 9 with h | h | h
        · exfalso
          have : 10 ^ L ≤ 10 ^ 8 := Nat.pow_le_pow_right (by norm_num) (by omega)
          omega
        · exact h
        · exfalso
          have : 10 ^ 9 ≤ 10 ^ (L - 1) := Nat.pow_le_pow_right (by norm_num) (by omega)
          omega
      rw [hL]

/-- C58 (fails in general): 5.005 s is written as `5.5000000`, that is 5.5 s, and so appears after 5.1 s. -/
theorem stamp_order_counterexample :
    readDecimal (stampText 5 5000000) = 11 / 2 ∧ readDecimal (stampText 5 100000000) = 51 / 10 := by
  rw [stamp_value, stamp_value]
  have h1 : (Nat.toDigits 10 5000000).length = 7 := by decide +kernel
  have h2 : (Nat.toDigits 10 100000000).length = 9 := by decide +kernel
  rw [h1, h2]
  norm_num

end Slam.Worlds
