import Mathlib.Tactic.Common
import Mathlib.Tactic.Linarith
import Mathlib.Tactic.IntervalCases
import Verif.Bag.Model

/-!
# Messages of a bag are handled in order (C47)
-/

set_option autoImplicit false
set_option linter.unusedSectionVars false

namespace Slam.Bag

variable {M T S X : Type*}

/-! ## Specification -/

/-- The messages of records, in order. -/
def msgs (rs : List (Rec M T)) : List M := rs.filterMap fun | .msg m => some m | .tf _ => none

/-- The transforms of records, in order. -/
def transforms (rs : List (Rec M T)) : List T := rs.flatMap fun | .msg _ => [] | .tf ts => ts

/-- The cache after records: all transforms that are not ignored, in order. -/
def cacheAfter (tf : Tf M T S X) (rs : List (Rec M T)) : S :=
  ((transforms rs).filter fun t => !tf.skip t).foldl tf.set tf.empty

/-- The fate of a message: handled with a transform, or dropped. -/
abbrev Fate (M X : Type*) := M × Option X

/-- The fate is justified by the part of the bag read before: when the message had been read, the lookup said so. -/
def Justified (tf : Tf M T S X) (bag : List (Rec M T)) (f : Fate M X) : Prop :=
  ∃ pre post, bag = pre ++ post ∧ f.1 ∈ msgs pre ∧
    match f.2 with
    | some x => tf.lookup (cacheAfter tf pre) f.1 = .ok x
    | none => tf.lookup (cacheAfter tf pre) f.1 = .past

/-- Handled messages of fates. -/
def handled (fs : List (Fate M X)) : List (M × X) := fs.filterMap fun f => f.2.map fun x => (f.1, x)

/-- Dropped messages of fates. -/
def droppedOf (fs : List (Fate M X)) : List M := fs.filterMap fun f => if f.2.isNone then some f.1 else none

/-! ## Invariant -/

/-- After the records `pre` have been read, `fs` are the fates so far. -/
structure Inv (tf : Tf M T S X) (pre : List (Rec M T)) (s : St M S X) (fs : List (Fate M X)) : Prop where
  order : fs.map Prod.fst ++ s.queue = msgs pre
  cache : s.cache = cacheAfter tf pre
  just : ∀ f ∈ fs, Justified tf pre f
  dropped : s.dropped = droppedOf fs

theorem Justified.mono {tf : Tf M T S X} {pre : List (Rec M T)} {f : Fate M X} (h : Justified tf pre f)
    (more : List (Rec M T)) : Justified tf (pre ++ more) f := by
  obtain ⟨a, b, h1, h2, h3⟩ := h
  exact ⟨a, b ++ more, by rw [h1, List.append_assoc], h2, h3⟩

theorem foldl_filter (tf : Tf M T S X) (ts : List T) (c : S) :
    ts.foldl (fun c t => if tf.skip t then c else tf.set c t) c =
      (ts.filter fun t => !tf.skip t).foldl tf.set c := by
  induction ts generalizing c with
  | nil => rfl
  | cons t ts ih =>
    by_cases h : tf.skip t = true
    · simp [h, ih]
    · simp [h, ih]

theorem feed_inv {tf : Tf M T S X} {pre : List (Rec M T)} {s : St M S X} {fs : List (Fate M X)}
    (h : Inv tf pre s fs) (r : Rec M T) : Inv tf (pre ++ [r]) (feed tf s r) fs := by
  obtain ⟨h1, h2, h3, h4⟩ := h
  cases r with
  | msg m =>
    refine ⟨?_, ?_, fun f hf => (h3 f hf).mono _, h4⟩
    · simp only [feed, msgs, List.filterMap_append, List.filterMap_cons, List.filterMap_nil]
      rw [← List.append_assoc, h1]; rfl
    · simp only [feed, h2, cacheAfter, transforms, List.flatMap_append, List.flatMap_cons, List.flatMap_nil,
        List.append_nil]
  | tf ts =>
    refine ⟨?_, ?_, fun f hf => (h3 f hf).mono _, h4⟩
    · simp only [feed, msgs, List.filterMap_append, List.filterMap_cons, List.filterMap_nil, List.append_nil]
      exact h1
    · simp only [feed, h2, foldl_filter, cacheAfter, transforms, List.flatMap_append, List.flatMap_cons,
        List.flatMap_nil, List.append_nil, List.filter_append, List.foldl_append]

theorem attempt_inv {tf : Tf M T S X} {pre : List (Rec M T)} {s s' : St M S X} {fs : List (Fate M X)} {b : Bool}
    (h : Inv tf pre s fs) (ha : attempt tf s = some (s', b)) :
    ∃ gs, Inv tf pre s' (fs ++ gs) ∧ handled gs = if b then s'.cur.toList else [] := by
  obtain ⟨h1, h2, h3, h4⟩ := h
  unfold attempt at ha
  cases hq : s.queue with
  | nil =>
    simp only [hq, Option.some.injEq, Prod.mk.injEq] at ha
    obtain ⟨rfl, rfl⟩ := ha
    exact ⟨[], ⟨by simpa using h1, h2, by simpa using h3, by simpa using h4⟩, rfl⟩
  | cons m rest =>
    simp only [hq] at ha
    rw [hq] at h1
    have hm : m ∈ msgs pre := by rw [← h1]; simp
    cases hl : tf.lookup s.cache m with
    | ok x =>
      simp only [hl, Option.some.injEq, Prod.mk.injEq] at ha
      obtain ⟨rfl, rfl⟩ := ha
      refine ⟨[(m, some x)], ⟨?_, h2, ?_, ?_⟩, ?_⟩
      · simpa using h1
      · intro f hf
        rcases List.mem_append.1 hf with hf | hf
        · exact h3 f hf
        · rw [List.mem_singleton.1 hf]
          exact ⟨pre, [], by simp, hm, by rw [← h2]; exact hl⟩
      · simp [h4, droppedOf]
      · simp [handled]
    | future =>
      simp only [hl, Option.some.injEq, Prod.mk.injEq] at ha
      obtain ⟨rfl, rfl⟩ := ha
      exact ⟨[], ⟨by rw [hq]; simpa using h1, h2, by simpa using h3, by simpa using h4⟩, rfl⟩
    | unclear =>
      simp only [hl, Option.some.injEq, Prod.mk.injEq] at ha
      obtain ⟨rfl, rfl⟩ := ha
      exact ⟨[], ⟨by rw [hq]; simpa using h1, h2, by simpa using h3, by simpa using h4⟩, rfl⟩
    | thrown => simp [hl] at ha
    | past =>
      simp only [hl, Option.some.injEq, Prod.mk.injEq] at ha
      obtain ⟨rfl, rfl⟩ := ha
      refine ⟨[(m, none)], ⟨?_, h2, ?_, ?_⟩, ?_⟩
      · simpa using h1
      · intro f hf
        rcases List.mem_append.1 hf with hf | hf
        · exact h3 f hf
        · rw [List.mem_singleton.1 hf]
          exact ⟨pre, [], by simp, hm, by rw [← h2]; exact hl⟩
      · simp [h4, droppedOf]
      · simp [handled]

theorem extract_inv {tf : Tf M T S X} (unread : List (Rec M T)) {pre : List (Rec M T)} {s s' : St M S X}
    {fs : List (Fate M X)} {b : Bool} {unread' : List (Rec M T)} (h : Inv tf pre s fs)
    (he : extract tf unread s = some (unread', s', b)) :
    ∃ mid gs, unread = mid ++ unread' ∧ Inv tf (pre ++ mid) s' (fs ++ gs) ∧
      handled gs = (if b then s'.cur.toList else []) ∧ (b = false → unread' = []) := by
  induction unread generalizing pre s fs with
  | nil =>
    simp only [extract, Option.map_eq_some_iff] at he
    obtain ⟨⟨s1, b1⟩, h1, h2⟩ := he
    simp only [Prod.mk.injEq] at h2
    obtain ⟨rfl, rfl, rfl⟩ := h2
    obtain ⟨gs, h3, h4⟩ := attempt_inv h h1
    exact ⟨[], gs, by simp, by simpa using h3, h4, fun _ => rfl⟩
  | cons r rest ih =>
    rw [extract] at he
    have hf := feed_inv h r
    cases ha : attempt tf (feed tf s r) with
    | none => simp [ha] at he
    | some p =>
      obtain ⟨s1, b1⟩ := p
      obtain ⟨gs, h3, h4⟩ := attempt_inv hf ha
      cases b1 with
      | true =>
        simp only [ha, Option.some.injEq, Prod.mk.injEq] at he
        obtain ⟨rfl, rfl, rfl⟩ := he
        exact ⟨[r], gs, by simp, h3, h4, by simp⟩
      | false =>
        simp only [ha] at he
        obtain ⟨mid, gs', h5, h6, h7, h8⟩ := ih h3 he
        refine ⟨r :: mid, gs ++ gs', by simp [h5], ?_, ?_, h8⟩
        · simpa [List.append_assoc] using h6
        · have : handled (gs ++ gs') = handled gs ++ handled gs' := by simp [handled]
          rw [this, h4, h7]; simp

theorem handled_append (a b : List (Fate M X)) : handled (a ++ b) = handled a ++ handled b := by simp [handled]

theorem run_inv {tf : Tf M T S X} (fuel : Nat) (unread : List (Rec M T)) {pre : List (Rec M T)} {s : St M S X}
    {fs : List (Fate M X)} (h : Inv tf pre s fs) :
    ∃ gs, (∃ rest, (fs ++ gs).map Prod.fst ++ rest = msgs (pre ++ unread)) ∧
      (run tf fuel unread s).1 = handled gs ∧ (∀ f ∈ fs ++ gs, Justified tf (pre ++ unread) f) ∧
      ∀ fin, (run tf fuel unread s).2 = .ended fin → Inv tf (pre ++ unread) fin (fs ++ gs) := by
  induction fuel generalizing unread pre s fs with
  | zero =>
    refine ⟨[], ⟨s.queue ++ msgs unread, ?_⟩, rfl, ?_, by simp [run]⟩
    · rw [List.append_nil, ← List.append_assoc, h.order]; simp [msgs]
    · intro f hf
      rw [List.append_nil] at hf
      exact (h.just f hf).mono _
  | succ n ih =>
    rw [run]
    cases he : extract tf unread s with
    | none =>
      refine ⟨[], ⟨s.queue ++ msgs unread, ?_⟩, rfl, ?_, by simp⟩
      · rw [List.append_nil, ← List.append_assoc, h.order]; simp [msgs]
      · intro f hf
        rw [List.append_nil] at hf
        exact (h.just f hf).mono _
    | some p =>
      obtain ⟨unread', s', b⟩ := p
      obtain ⟨mid, gs, h1, h2, h3, h4⟩ := extract_inv unread h he
      cases b with
      | false =>
        have h5 := h4 rfl
        subst h5
        rw [List.append_nil] at h1
        subst h1
        simp only [Bool.false_eq_true, if_false] at h3
        refine ⟨gs, ⟨s'.queue, h2.order⟩, h3.symm, h2.just, ?_⟩
        intro fin hfin
        simp only [End.ended.injEq] at hfin
        exact hfin ▸ h2
      | true =>
        obtain ⟨gs', h5, h6, h7, h8⟩ := ih unread' h2
        subst h1
        simp only [if_true] at h3
        refine ⟨gs ++ gs', ?_, ?_, ?_, ?_⟩
        · obtain ⟨rest, hr⟩ := h5
          refine ⟨rest, ?_⟩
          rw [← List.append_assoc, ← List.append_assoc]
          exact hr
        · simp only [handled_append, h3, h6]
        · intro f hf
          rw [← List.append_assoc] at hf ⊢
          exact h7 f hf
        · intro fin hfin
          have := h8 fin hfin
          rw [← List.append_assoc, ← List.append_assoc]
          exact this

theorem start_inv (tf : Tf M T S X) : Inv tf [] (St.start tf) [] :=
  ⟨rfl, rfl, by simp, rfl⟩

/-- **Messages are handled in order, once, with a transform that was available (C47)**: however far the loop has come
and however it ends, the messages of the bag are split, in order, into those with a fate and the rest; the handled
ones, with their transforms, are those with a transform, so they are an in-order subsequence and no record is handled
twice; each handled message had been read and its transform is what the lookup gave at that point of the bag; a
message was dropped only where the lookup said that it lies in the past of the available transforms. -/
theorem handled_in_order (tf : Tf M T S X) (bag : List (Rec M T)) (fuel : Nat) :
    ∃ (fs : List (Fate M X)) (rest : List M), fs.map Prod.fst ++ rest = msgs bag ∧
      (run tf fuel bag (St.start tf)).1 = handled fs ∧ (∀ f ∈ fs, Justified tf bag f) ∧
      ∀ fin, (run tf fuel bag (St.start tf)).2 = .ended fin → rest = fin.queue ∧ fin.dropped = droppedOf fs := by
  obtain ⟨gs, ⟨rest, h1⟩, h2, h3, h4⟩ := run_inv fuel bag (start_inv tf)
  simp only [List.nil_append] at h1 h2 h3 h4
  refine ⟨gs, rest, h1, h2, h3, fun fin hfin => ?_⟩
  have h5 := h4 fin hfin
  refine ⟨?_, h5.dropped⟩
  have h6 := h5.order
  rw [← h1] at h6
  exact (List.append_cancel_left h6).symm

/-! ## Ends -/

theorem attempt_measure {tf : Tf M T S X} {s s' : St M S X} {b : Bool} (ha : attempt tf s = some (s', b)) :
    s'.queue.length + (if b then 1 else 0) ≤ s.queue.length := by
  unfold attempt at ha
  cases hq : s.queue with
  | nil =>
    simp only [hq, Option.some.injEq, Prod.mk.injEq] at ha
    obtain ⟨rfl, rfl⟩ := ha
    simp [hq]
  | cons m rest =>
    simp only [hq] at ha
    cases hl : tf.lookup s.cache m <;> simp only [hl, Option.some.injEq, Prod.mk.injEq, reduceCtorEq] at ha <;>
      (obtain ⟨rfl, rfl⟩ := ha; simp [hq])

theorem feed_measure (tf : Tf M T S X) (s : St M S X) (r : Rec M T) :
    (feed tf s r).queue.length ≤ s.queue.length + 1 := by
  cases r <;> simp [feed]

theorem extract_measure {tf : Tf M T S X} (unread : List (Rec M T)) {s s' : St M S X} {b : Bool}
    {unread' : List (Rec M T)} (he : extract tf unread s = some (unread', s', b)) :
    unread'.length + s'.queue.length + (if b then 1 else 0) ≤ unread.length + s.queue.length := by
  induction unread generalizing s with
  | nil =>
    simp only [extract, Option.map_eq_some_iff] at he
    obtain ⟨⟨s1, b1⟩, h1, h2⟩ := he
    simp only [Prod.mk.injEq] at h2
    obtain ⟨rfl, rfl, rfl⟩ := h2
    have := attempt_measure h1
    simp only [List.length_nil]
    omega
  | cons r rest ih =>
    rw [extract] at he
    have hf := feed_measure tf s r
    cases ha : attempt tf (feed tf s r) with
    | none => simp [ha] at he
    | some p =>
      obtain ⟨s1, b1⟩ := p
      have hm := attempt_measure ha
      cases b1 with
      | true =>
        simp only [ha, Option.some.injEq, Prod.mk.injEq] at he
        obtain ⟨rfl, rfl, rfl⟩ := he
        simp only [List.length_cons]
        simp only [if_true] at hm ⊢
        omega
      | false =>
        simp only [ha] at he
        have := ih he
        simp only [List.length_cons]
        simp only [Bool.false_eq_true, if_false, Nat.add_zero] at hm
        omega

theorem run_measure (tf : Tf M T S X) (fuel : Nat) (unread : List (Rec M T)) (s : St M S X)
    (h : unread.length + s.queue.length < fuel) : (run tf fuel unread s).2 ≠ .running := by
  induction fuel generalizing unread s with
  | zero => omega
  | succ n ih =>
    rw [run]
    cases he : extract tf unread s with
    | none => simp
    | some p =>
      obtain ⟨unread', s', b⟩ := p
      have hm := extract_measure unread he
      cases b with
      | false => simp
      | true =>
        simp only [if_true] at hm
        exact ih unread' s' (by omega)

/-- **The loop ends (C47)**: on every bag, after at most one call per record and one more. -/
theorem run_ends (tf : Tf M T S X) (bag : List (Rec M T)) (fuel : Nat) (h : bag.length < fuel) :
    (∃ fin, (run tf fuel bag (St.start tf)).2 = .ended fin) ∨ (run tf fuel bag (St.start tf)).2 = .threw := by
  have := run_measure tf fuel bag (St.start tf) (by simpa [St.start] using h)
  cases hr : (run tf fuel bag (St.start tf)).2 with
  | ended fin => exact .inl ⟨fin, rfl⟩
  | threw => exact .inr rfl
  | running => exact absurd hr this

/-! ## Nothing is lost -/

/-- The lookups of the messages that are read, anywhere in the bag, neither fail nor speak of the past. -/
def Patient (tf : Tf M T S X) (bag : List (Rec M T)) : Prop :=
  ∀ pre post m, bag = pre ++ post → m ∈ msgs pre →
    tf.lookup (cacheAfter tf pre) m ≠ .thrown ∧ tf.lookup (cacheAfter tf pre) m ≠ .past

theorem attempt_patient {tf : Tf M T S X} {bag pre post : List (Rec M T)} {s : St M S X} {fs : List (Fate M X)}
    (hb : bag = pre ++ post) (hp : Patient tf bag) (h : Inv tf pre s fs) :
    ∃ s' b, attempt tf s = some (s', b) := by
  unfold attempt
  cases hq : s.queue with
  | nil => exact ⟨_, _, rfl⟩
  | cons m rest =>
    have hm : m ∈ msgs pre := by rw [← h.order, hq]; simp
    have := (hp pre post m hb hm).1
    rw [← h.cache] at this
    cases hl : tf.lookup s.cache m <;> simp only [hl]
    all_goals first | exact ⟨_, _, rfl⟩ | exact absurd hl this

theorem extract_patient {tf : Tf M T S X} {bag : List (Rec M T)} (hp : Patient tf bag) (unread : List (Rec M T))
    {pre : List (Rec M T)} {s : St M S X} {fs : List (Fate M X)} (hb : bag = pre ++ unread) (h : Inv tf pre s fs) :
    ∃ r, extract tf unread s = some r := by
  induction unread generalizing pre s fs with
  | nil =>
    obtain ⟨s', b, ha⟩ := attempt_patient hb hp h
    exact ⟨_, by rw [extract, ha]; rfl⟩
  | cons r rest ih =>
    have hb' : bag = (pre ++ [r]) ++ rest := by rw [hb]; simp
    obtain ⟨s', b, ha⟩ := attempt_patient hb' hp (feed_inv h r)
    rw [extract, ha]
    cases b with
    | true => exact ⟨_, rfl⟩
    | false =>
      obtain ⟨gs, h3, _⟩ := attempt_inv (feed_inv h r) ha
      exact ih hb' h3

/-- The last attempt of a call without a message is made on the whole bag, with the queue it leaves or with a dropped
message before it. -/
theorem extract_false {tf : Tf M T S X} (unread : List (Rec M T)) {pre : List (Rec M T)} {s s' : St M S X}
    {fs : List (Fate M X)} {unread' : List (Rec M T)} (h : Inv tf pre s fs)
    (he : extract tf unread s = some (unread', s', false)) :
    ∃ s0 fs0, Inv tf (pre ++ unread) s0 fs0 ∧ attempt tf s0 = some (s', false) := by
  induction unread generalizing pre s fs with
  | nil =>
    simp only [extract, Option.map_eq_some_iff] at he
    obtain ⟨⟨s1, b1⟩, h1, h2⟩ := he
    simp only [Prod.mk.injEq] at h2
    obtain ⟨rfl, rfl, rfl⟩ := h2
    exact ⟨s, fs, by simpa using h, h1⟩
  | cons r rest ih =>
    rw [extract] at he
    have hf := feed_inv h r
    cases ha : attempt tf (feed tf s r) with
    | none => simp [ha] at he
    | some p =>
      obtain ⟨s1, b1⟩ := p
      obtain ⟨gs, h3, _⟩ := attempt_inv hf ha
      cases b1 with
      | true => simp [ha] at he
      | false =>
        simp only [ha] at he
        obtain ⟨s0, fs0, h4, h5⟩ := ih h3 he
        exact ⟨s0, fs0, by simpa using h4, h5⟩

theorem run_false {tf : Tf M T S X} (fuel : Nat) (unread : List (Rec M T)) {pre : List (Rec M T)} {s fin : St M S X}
    {fs : List (Fate M X)} (h : Inv tf pre s fs) (he : (run tf fuel unread s).2 = .ended fin) :
    ∃ s0 fs0, Inv tf (pre ++ unread) s0 fs0 ∧ attempt tf s0 = some (fin, false) := by
  induction fuel generalizing unread pre s fs with
  | zero => simp [run] at he
  | succ n ih =>
    rw [run] at he
    cases hx : extract tf unread s with
    | none => simp [hx] at he
    | some p =>
      obtain ⟨unread', s', b⟩ := p
      obtain ⟨mid, gs, h1, h2, h3, h4⟩ := extract_inv unread h hx
      cases b with
      | false =>
        simp only [hx, End.ended.injEq] at he
        subst he
        exact extract_false unread h hx
      | true =>
        simp only [hx] at he
        obtain ⟨s0, fs0, h5, h6⟩ := ih unread' h2 he
        exact ⟨s0, fs0, by rw [h1, ← List.append_assoc]; exact h5, h6⟩

theorem run_patient {tf : Tf M T S X} {bag : List (Rec M T)} (hp : Patient tf bag) (fuel : Nat)
    (unread : List (Rec M T)) {pre : List (Rec M T)} {s : St M S X} {fs : List (Fate M X)}
    (hb : bag = pre ++ unread) (h : Inv tf pre s fs) : (run tf fuel unread s).2 ≠ .threw := by
  induction fuel generalizing unread pre s fs with
  | zero => simp [run]
  | succ n ih =>
    obtain ⟨⟨unread', s', b⟩, hx⟩ := extract_patient hp unread hb h
    rw [run]
    simp only [hx]
    cases b with
    | false => simp
    | true =>
      obtain ⟨mid, gs, h1, h2, h3, h4⟩ := extract_inv unread h hx
      exact ih unread' (by rw [hb, h1, List.append_assoc]) h2

/-- **The loop stops only where it must (C47)**: when it ends, the whole bag has been read, and either no message is
left, or the message in front could not be transformed with all transforms of the bag — or that message has just been
dropped as lying in the past, and what is left behind it has not been tried (see the counterexample). -/
theorem ends_where_stuck (tf : Tf M T S X) (bag : List (Rec M T)) (fuel : Nat) (fin : St M S X)
    (he : (run tf fuel bag (St.start tf)).2 = .ended fin) :
    fin.queue = [] ∨
    (∃ m rest, fin.queue = m :: rest ∧ ∀ x, tf.lookup (cacheAfter tf bag) m ≠ .ok x) ∨
    (∃ m, fin.dropped.getLast? = some m ∧ tf.lookup (cacheAfter tf bag) m = .past) := by
  obtain ⟨s0, fs0, h1, h2⟩ := run_false fuel bag (start_inv tf) he
  rw [List.nil_append] at h1
  unfold attempt at h2
  cases hq : s0.queue with
  | nil =>
    simp only [hq, Option.some.injEq, Prod.mk.injEq] at h2
    left; rw [← h2.1, hq]
  | cons m rest =>
    simp only [hq] at h2
    have hc := h1.cache
    cases hl : tf.lookup s0.cache m with
    | ok x => simp [hl] at h2
    | thrown => simp [hl] at h2
    | future =>
      simp only [hl, Option.some.injEq, Prod.mk.injEq] at h2
      right; left
      exact ⟨m, rest, by rw [← h2.1, hq], fun x hx => by rw [← hc, hl] at hx; cases hx⟩
    | unclear =>
      simp only [hl, Option.some.injEq, Prod.mk.injEq] at h2
      right; left
      exact ⟨m, rest, by rw [← h2.1, hq], fun x hx => by rw [← hc, hl] at hx; cases hx⟩
    | past =>
      simp only [hl, Option.some.injEq, Prod.mk.injEq] at h2
      right; right
      refine ⟨m, ?_, by rw [← hc]; exact hl⟩
      rw [← h2.1]
      simp

/-- **No message is lost (C47)** if no lookup fails or speaks of the past and the transforms of the whole bag suffice
for every message: all messages are handled, in order. Otherwise: with lookups into the past, messages that could be
transformed are lost at the end of the bag, and other exceptions end the program; see the counterexamples. -/
theorem no_message_lost (tf : Tf M T S X) (bag : List (Rec M T)) (hp : Patient tf bag)
    (hok : ∀ m ∈ msgs bag, ∃ x, tf.lookup (cacheAfter tf bag) m = .ok x) (fuel : Nat) (hf : bag.length < fuel) :
    (run tf fuel bag (St.start tf)).1.map Prod.fst = msgs bag := by
  rcases run_ends tf bag fuel hf with ⟨fin, he⟩ | he
  · obtain ⟨fs, rest, h1, h2, h3, h4⟩ := handled_in_order tf bag fuel
    obtain ⟨h5, h6⟩ := h4 fin he
    have hall : ∀ f ∈ fs, ∃ x, f.2 = some x := by
      intro f hf'
      obtain ⟨pre, post, e1, e2, e3⟩ := h3 f hf'
      cases h : f.2 with
      | some x => exact ⟨x, rfl⟩
      | none =>
        rw [h] at e3
        exact absurd e3 (hp pre post f.1 e1 e2).2
    have hmap : (handled fs).map Prod.fst = fs.map Prod.fst := by
      clear h1 h2 h3 h6 h4
      induction fs with
      | nil => rfl
      | cons f fs ih =>
        obtain ⟨x, hx⟩ := hall f (by simp)
        have := ih fun g hg => hall g (List.mem_cons_of_mem _ hg)
        simp only [handled, List.filterMap_cons, hx, Option.map_some, List.map_cons] at this ⊢
        rw [this]
    rw [h2, hmap, ← h1]
    have hrest : rest = [] := by
      rw [h5]
      rcases ends_where_stuck tf bag fuel fin he with h | ⟨m, r, h7, h8⟩ | ⟨m, h7, h8⟩
      · exact h
      · exfalso
        have hm : m ∈ msgs bag := by rw [← h1, h5, h7]; simp
        obtain ⟨x, hx⟩ := hok m hm
        exact h8 x hx
      · exfalso
        have hd : droppedOf fs = [] := by
          rw [droppedOf, List.filterMap_eq_nil_iff]
          intro f hf'
          obtain ⟨x, hx⟩ := hall f hf'
          simp [hx]
        rw [h6, hd] at h7
        simp at h7
    simp [hrest]
  · exact absurd he (run_patient hp fuel bag (by simp) (start_inv tf))

/-- **A dropped message is past recovery (C47)** if lookups into the past stay so when transforms are added: after the
point where it was dropped, no part of the bag makes its transform available. -/
theorem dropped_past_recovery (tf : Tf M T S X)
    (hpast : ∀ c t m, tf.lookup c m = .past → tf.lookup (tf.set c t) m = .past) (bag : List (Rec M T)) (fuel : Nat) :
    ∃ fs : List (Fate M X), (run tf fuel bag (St.start tf)).1 = handled fs ∧
      ∀ m, (m, none) ∈ fs → ∃ pre post, bag = pre ++ post ∧ m ∈ msgs pre ∧
        ∀ mid rest, post = mid ++ rest → tf.lookup (cacheAfter tf (pre ++ mid)) m = .past := by
  obtain ⟨fs, rest, h1, h2, h3, h4⟩ := handled_in_order tf bag fuel
  refine ⟨fs, h2, fun m hm => ?_⟩
  obtain ⟨pre, post, e1, e2, e3⟩ := h3 _ hm
  refine ⟨pre, post, e1, e2, fun mid rest _ => ?_⟩
  dsimp only at e3
  have hfold : ∀ (ts : List T) (c : S), tf.lookup c m = .past → tf.lookup (ts.foldl tf.set c) m = .past := by
    intro ts
    induction ts with
    | nil => intro c h; exact h
    | cons t ts ih => intro c h; exact ih _ (hpast c t m h)
  have : cacheAfter tf (pre ++ mid) =
      ((transforms mid).filter fun t => !tf.skip t).foldl tf.set (cacheAfter tf pre) := by
    simp only [cacheAfter, transforms, List.flatMap_append, List.filter_append, List.foldl_append]
  rw [this]
  exact hfold _ _ e3

/-! ## Examples -/

/-- A cache of the times of transforms of one pair of frames: no transforms, an exception; later than all of them, an
extrapolation into the future; earlier than all, into the past. Messages are their times; the transform is the
latest time not after the message. -/
def toyTf : Tf Nat Nat (List Nat) Nat where
  empty := []
  set c t := t :: c
  lookup c m :=
    if c = [] then .thrown
    else if c.all (· < m) then .future
    else if c.all (m < ·) then .past
    else .ok ((c.filter (· ≤ m)).foldl max 0)
  skip t := t = 99

example : (run toyTf 9 [.tf [0, 99], .msg 2, .msg 3, .tf [1], .tf [4], .msg 3] (St.start toyTf)).1 =
    [(2, 1), (3, 1), (3, 1)] := by decide

example : Patient toyTf [.tf [0], .msg 2, .tf [1], .tf [4]] ∧
    ∀ m ∈ msgs ([.tf [0], .msg 2, .tf [1], .tf [4]] : List (Rec Nat Nat)),
      ∃ x, toyTf.lookup (cacheAfter toyTf [.tf [0], .msg 2, .tf [1], .tf [4]]) m = .ok x := by
  constructor
  · intro pre post m hb hm
    have h5 : pre.length ≤ 4 := by
      have := congrArg List.length hb
      simp at this
      omega
    have hpre : pre = ([.tf [0], .msg 2, .tf [1], .tf [4]] : List (Rec Nat Nat)).take pre.length := by
      rw [hb]; simp
    generalize pre.length = n at h5 hpre
    subst hpre
    interval_cases n <;> simp [msgs] at hm <;> subst hm <;>
      simp [toyTf, cacheAfter, transforms]
  · intro m hm
    simp [msgs] at hm
    subst hm
    exact ⟨1, by simp [toyTf, cacheAfter, transforms]⟩

/-- A message that is dropped when the bag has been read ends the loop: the next one is not handled, although its
transform is available. -/
theorem end_of_bag_counterexample :
    let bag : List (Rec Nat Nat) := [.tf [5], .msg 6, .msg 1, .msg 6, .tf [7]]
    (run toyTf 9 bag (St.start toyTf)).1 = [(6, 5)] ∧
      (∃ fin, (run toyTf 9 bag (St.start toyTf)).2 = .ended fin ∧ fin.queue = [6]) ∧
      toyTf.lookup (cacheAfter toyTf bag) 6 = .ok 5 := by
  refine ⟨by decide, ⟨⟨[7, 5], [6], some (6, 5), [1]⟩, by rfl, rfl⟩, by rfl⟩

/-- A message before the first transform ends the program, although all its transforms follow. -/
theorem early_message_counterexample :
    let bag : List (Rec Nat Nat) := [.msg 2, .tf [1], .tf [3]]
    (run toyTf 9 bag (St.start toyTf)).1 = [] ∧ (run toyTf 9 bag (St.start toyTf)).2 = .threw ∧
      toyTf.lookup (cacheAfter toyTf bag) 2 = .ok 1 := by
  refine ⟨by decide, by rfl, by rfl⟩

end Slam.Bag
