import Verif.ScanMatch.Spec
import Mathlib.Data.Rat.Floor

/-! # The driver loop as a relation, and C28 -/

set_option autoImplicit false
set_option linter.unusedSectionVars false

namespace Slam.ScanMatch
open Slam.Poses

variable {K : Type*} [Field K] [LinearOrder K] [IsStrictOrderedRing K] {S : Type*}

/-- One complete execution of the loop: tested poses, final enumerator state, pose and score. -/
inductive Tests (E : Enumerator K S) (score : Pose K → Option K) :
    S → Pose K → Option K → List (Pose K) → S → Pose K → Option K → Prop
  | done (e : S) (b : Pose K) (p : Option K) (h : E.hasNext e = false) : Tests E score e b p [] e b p
  | better (e : S) (b : Pose K) (p : Option K) (ts : List (Pose K)) (e' : S) (b' : Pose K) (p' : Option K)
      (h : E.hasNext e = true) (ha : ltN p (score (E.next e b).1) = true)
      (hr : Tests E score (E.feedback (E.next e b).2 true) (E.next e b).1 (score (E.next e b).1) ts e' b' p') :
      Tests E score e b p ((E.next e b).1 :: ts) e' b' p'
  | worse (e : S) (b : Pose K) (p : Option K) (ts : List (Pose K)) (e' : S) (b' : Pose K) (p' : Option K)
      (h : E.hasNext e = true) (ha : ltN p (score (E.next e b).1) = false)
      (hr : Tests E score (E.feedback (E.next e b).2 false) b p ts e' b' p') :
      Tests E score e b p ((E.next e b).1 :: ts) e' b' p'

theorem loop_iff (E : Enumerator K S) (score : Pose K → Option K) (fuel : Nat) (r r' : Result K S) :
    loop E score fuel r = some r' ↔
      ∃ ts, ts.length < fuel ∧ Tests E score r.enum r.best r.prob ts r'.enum r'.best r'.prob ∧
        r'.events = r.events ++ announce score r.prob ts := by
  induction fuel generalizing r with
  | zero => simp [loop]
  | succ fuel ih =>
    unfold loop
    by_cases hn : E.hasNext r.enum = true
    · rw [if_pos hn]
      simp only
      by_cases ha : ltN r.prob (score (E.next r.enum r.best).1) = true
      · simp only [ha, if_true]
        rw [ih]
        constructor
        · rintro ⟨ts, h1, h2, h3⟩
          refine ⟨(E.next r.enum r.best).1 :: ts, by simpa using h1, .better _ _ _ _ _ _ _ hn ha h2, ?_⟩
          rw [h3]; simp [announce, ha]
        · rintro ⟨ts, h1, h2, h3⟩
          obtain ⟨e0, b0, p0, ev0⟩ := r
          obtain ⟨e, b, p, ev⟩ := r'
          cases h2 with
          | done _ _ _ h => rw [hn] at h; cases h
          | better _ _ _ ts _ _ _ _ _ hr =>
            exact ⟨ts, by simpa using h1, hr, by rw [h3]; simp [announce, ha]⟩
          | worse _ _ _ _ _ _ _ _ ha' _ => rw [ha] at ha'; cases ha'
      · have ha' : ltN r.prob (score (E.next r.enum r.best).1) = false := by simpa using ha
        simp only [ha', Bool.false_eq_true, if_false]
        rw [ih]
        constructor
        · rintro ⟨ts, h1, h2, h3⟩
          refine ⟨(E.next r.enum r.best).1 :: ts, by simpa using h1, .worse _ _ _ _ _ _ _ hn ha' h2, ?_⟩
          rw [h3]; simp [announce, ha']
        · rintro ⟨ts, h1, h2, h3⟩
          obtain ⟨e0, b0, p0, ev0⟩ := r
          obtain ⟨e, b, p, ev⟩ := r'
          cases h2 with
          | done _ _ _ h => rw [hn] at h; cases h
          | worse _ _ _ ts _ _ _ _ _ hr =>
            exact ⟨ts, by simpa using h1, hr, by rw [h3]; simp [announce, ha']⟩
          | better _ _ _ _ _ _ _ _ ha' _ => exact absurd ha' ha
    · rw [if_neg hn]
      have hn' : E.hasNext r.enum = false := by simpa using hn
      constructor
      · intro h
        simp only [Option.some.injEq] at h
        subst h
        exact ⟨[], by simp, .done _ _ _ hn', by simp [announce]⟩
      · rintro ⟨ts, h1, h2, h3⟩
        cases r' with
        | mk e b p ev =>
        cases r with
        | mk e0 b0 p0 ev0 =>
        cases h2 with
        | done _ _ _ h => simp only [announce, List.append_nil] at h3; subst h3; rfl
        | better _ _ _ _ _ _ _ h => exact absurd h hn
        | worse _ _ _ _ _ _ _ h => exact absurd h hn

theorem processScan_iff (E : Enumerator K S) (score : Pose K → Option K) (fuel : Nat) (e : S) (init : Pose K)
    (out : S × Delta K × Option K × List (Event K)) :
    processScan E score fuel e init = some out ↔
      ∃ ts e' b' p', ts.length < fuel ∧ Tests E score (E.reset e) init (score init) ts e' b' p' ∧
        out = (e', b'.sub init, p', [.start init, .test init (score init), .update init (score init)]
          ++ announce score (score init) ts ++ [.finish (b'.sub init) p']) := by
  unfold processScan
  simp only [Option.map_eq_some_iff]
  constructor
  · rintro ⟨r', h, rfl⟩
    rw [loop_iff] at h
    obtain ⟨ts, h1, h2, h3⟩ := h
    exact ⟨ts, _, _, _, h1, h2, by rw [h3]⟩
  · rintro ⟨ts, e', b', p', h1, h2, rfl⟩
    refine ⟨⟨e', b', p', _⟩, (loop_iff _ _ _ _ _).2 ⟨ts, h1, h2, rfl⟩, rfl⟩

theorem tests_firstMax (E : Enumerator K S) (score : Pose K → Option K) (e : S) (b : Pose K) (p : Option K)
    (ts : List (Pose K)) (e' : S) (b' : Pose K) (p' : Option K) (h : Tests E score e b p ts e' b' p') :
    ∀ (seen : List (Pose K)) (s : K), p = some s → FirstMax score seen b s →
      ∃ s', p' = some s' ∧ FirstMax score (seen ++ ts) b' s' := by
  induction h with
  | done e b p h => intro seen s hp hf; exact ⟨s, hp, by simpa using hf⟩
  | better e b p ts e' b' p' hn ha hr ih =>
    intro seen s hp hf
    obtain ⟨h1, pre, post, hl, h2, h3⟩ := hf
    subst hp
    cases hq : score (E.next e b).1 with
    | none => rw [hq] at ha; simp [ltN] at ha
    | some v =>
      rw [hq] at ha
      simp only [ltN, decide_eq_true_eq] at ha
      have := ih (seen ++ [(E.next e b).1]) v hq ⟨hq, seen, [], by simp, ?_, by simp⟩
      · simpa using this
      · intro q hqm w hw
        rw [hl] at hqm
        rcases List.mem_append.1 hqm with h | h
        · exact lt_trans (h2 q h w hw) ha
        · rcases List.mem_cons.1 h with rfl | h
          · rw [h1] at hw; simp only [Option.some.injEq] at hw; rw [← hw]; exact ha
          · exact lt_of_le_of_lt (h3 q h w hw) ha
  | worse e b p ts e' b' p' hn ha hr ih =>
    intro seen s hp hf
    obtain ⟨h1, pre, post, hl, h2, h3⟩ := hf
    subst hp
    have := ih (seen ++ [(E.next e b).1]) s rfl
      ⟨h1, pre, post ++ [(E.next e b).1], by simp [hl], h2, ?_⟩
    · simpa using this
    · intro q hqm w hw
      rcases List.mem_append.1 hqm with h | h
      · exact h3 q h w hw
      · rw [List.mem_singleton.1 h] at hw
        rw [hw] at ha
        simpa [ltN] using ha

theorem tests_nan (E : Enumerator K S) (score : Pose K → Option K) (e : S) (b : Pose K) (p : Option K)
    (ts : List (Pose K)) (e' : S) (b' : Pose K) (p' : Option K) (h : Tests E score e b p ts e' b' p') :
    p = none → p' = none ∧ b' = b := by
  induction h with
  | done e b p h => intro hp; exact ⟨hp, rfl⟩
  | better e b p ts e' b' p' hn ha hr ih => intro hp; subst hp; simp [ltN] at ha
  | worse e b p ts e' b' p' hn ha hr ih => exact ih

/-- C28: for every pose enumerator, every scoring and every initial pose of defined score: whenever the
matching run ends, the returned probability is the maximum of the scores of all poses tested, the initial pose
included, and the returned shift leads to the first tested pose attaining it. -/
theorem enumeration_returns_first_maximum (E : Enumerator K S) (score : Pose K → Option K) (fuel : Nat) (e : S)
    (init : Pose K) (s0 : K) (h0 : score init = some s0)
    (e' : S) (delta : Delta K) (prob : Option K) (events : List (Event K))
    (h : processScan E score fuel e init = some (e', delta, prob, events)) :
    ∃ p s, prob = some s ∧ init.add delta = p ∧ delta = p.sub init ∧
      FirstMax score (testedPoses events) p s := by
  obtain ⟨ts, e1, b', p', _, h2, h3⟩ := (processScan_iff _ _ _ _ _ _).1 h
  simp only [Prod.mk.injEq] at h3
  obtain ⟨_, rfl, rfl, rfl⟩ := h3
  obtain ⟨s', hs, hf⟩ := tests_firstMax E score _ _ _ _ _ _ _ h2 [init] s0 h0
    ⟨h0, [], [], rfl, by simp, by simp⟩
  refine ⟨b', s', hs, ?_, rfl, ?_⟩
  · ext <;> simp [Pose.add, Pose.sub]
  · have ht : ∀ (ts : List (Pose K)) (p : Option K), testedPoses (announce score p ts) = ts := by
      intro ts
      induction ts with
      | nil => intro p; rfl
      | cons t ts ih =>
        intro p
        unfold announce
        split
        · have := ih (score t)
          simp only [testedPoses] at this
          simp [testedPoses, this]
        · have := ih p
          simp only [testedPoses] at this
          simp [testedPoses, this]
    have he : testedPoses ([.start init, .test init (score init), .update init (score init)]
          ++ announce score (score init) ts ++ [.finish (b'.sub init) prob]) = [init] ++ ts := by
      have := ht ts (score init)
      simp only [testedPoses] at this
      simp [testedPoses, List.filterMap_append, this]
    rw [he]; exact hf

/-- C28: the notifications are: start, the initial pose as test and update, then every tested pose in order,
followed by an update notification exactly if it beats all poses before it, then the end with the returned
shift and probability; every announced score is the score of the announced pose. -/
theorem enumeration_notifications (E : Enumerator K S) (score : Pose K → Option K) (fuel : Nat) (e : S)
    (init : Pose K) (e' : S) (delta : Delta K) (prob : Option K) (events : List (Event K))
    (h : processScan E score fuel e init = some (e', delta, prob, events)) :
    ∃ tested, events = .start init :: .test init (score init) :: .update init (score init) ::
        (announce score (score init) tested ++ [.finish delta prob]) := by
  obtain ⟨ts, e1, b', p', _, h2, h3⟩ := (processScan_iff _ _ _ _ _ _).1 h
  simp only [Prod.mk.injEq] at h3
  obtain ⟨_, rfl, rfl, rfl⟩ := h3
  exact ⟨ts, by simp⟩

/-- C28, the undefined case: if the initial pose has no defined score, the matcher returns "undefined" and no
shift, whatever the other poses score. -/
theorem enumeration_undefined_initial (E : Enumerator K S) (score : Pose K → Option K) (fuel : Nat) (e : S)
    (init : Pose K) (h0 : score init = none)
    (e' : S) (delta : Delta K) (prob : Option K) (events : List (Event K))
    (h : processScan E score fuel e init = some (e', delta, prob, events)) :
    prob = none ∧ delta = Pose.zero := by
  obtain ⟨ts, e1, b', p', _, h2, h3⟩ := (processScan_iff _ _ _ _ _ _).1 h
  simp only [Prod.mk.injEq] at h3
  obtain ⟨_, rfl, rfl, rfl⟩ := h3
  obtain ⟨h4, h5⟩ := tests_nan E score _ _ _ _ _ _ _ h2 h0
  subst h5
  exact ⟨h4, by ext <;> simp [Pose.sub, Pose.zero]⟩

/-- C28: an observer that is live and subscribed once receives exactly the sequence of notifications, in
order, whatever other observers there are; a dead or unsubscribed one receives nothing. -/
theorem observer_sees_events {Obs : Type*} [DecidableEq Obs] (observers : List Obs) (live : Obs → Bool)
    (events : List (Event K)) (o : Obs) :
    ((events.flatMap (deliver observers live)).filter fun x => decide (x.1 = o)).map (·.2)
      = events.flatMap fun e => List.replicate (if live o then observers.count o else 0) e := by
  have h1 : ∀ (e : Event K) (obs : List Obs),
      ((deliver obs live e).filter fun x => decide (x.1 = o)).map (·.2)
        = List.replicate (if live o then obs.count o else 0) e := by
    intro e obs
    induction obs with
    | nil => simp [deliver]
    | cons a obs ih =>
      simp only [deliver] at ih ⊢
      by_cases hl : live a = true
      · by_cases ha : a = o
        · subst ha
          simp [hl] at ih
          simp [hl, ih, List.replicate_succ]
        · have : ¬ (a == o) = true := by simpa using ha
          simp [hl, ha, ih]
      · have hne : live o = true → a ≠ o := fun h1 h2 => hl (h2 ▸ h1)
        simp only [List.filter_cons, hl, Bool.false_eq_true, if_false, ih]
        by_cases ho : live o = true
        · simp [ho, hne ho]
        · simp [ho]
  induction events with
  | nil => rfl
  | cons e es ih => simp only [List.flatMap_cons, List.filter_append, List.map_append, ih, h1]

/-- C28: after `unsubscribe` an observer receives nothing, and live others keep their subscriptions. -/
theorem unsubscribe_removes {Obs : Type*} [DecidableEq Obs] (observers : List Obs) (live : Obs → Bool) (o x : Obs) :
    (unsubscribe observers live o).count x = if x = o ∨ live x = false then 0 else observers.count x := by
  unfold unsubscribe
  induction observers with
  | nil => simp
  | cons a l ih =>
    rw [List.filter_cons]
    by_cases hax : a = x
    · subst hax
      by_cases h : a = o
      · subst h; simp at ih ⊢; try exact ih
      · by_cases hl : live a = true
        · simp [h, hl] at ih ⊢; try exact ih
        · simp [h, hl] at ih ⊢; try exact ih
    · have hax' : ¬ (a == x) = true := by simpa using hax
      split
      · rw [List.count_cons, List.count_cons, ih]; simp [hax]
      · rw [List.count_cons, ih]; simp [hax]

/-- Non-vacuity: an enumerator offering 1, 2, 3, … along `x`, five times; the score has its maximum at 2 and a second
one, equal, at 4; the first one is returned. -/
example : processScan (K := ℚ) (S := Nat)
    ⟨fun n => decide (n < 5), fun n _ => (⟨(n : ℚ) + 1, 0, 0⟩, n), fun _ => 0, fun n _ => n + 1⟩
    (fun p : Pose ℚ => if p.x = 3 then none else some (if p.x = 2 ∨ p.x = 4 then 1 else 0)) 10 7 ⟨0, 0, 0⟩ =
    some (5, ⟨2, 0, 0⟩, some 1,
      [.start ⟨0, 0, 0⟩, .test ⟨0, 0, 0⟩ (some 0), .update ⟨0, 0, 0⟩ (some 0), .test ⟨1, 0, 0⟩ (some 0),
        .test ⟨2, 0, 0⟩ (some 1), .update ⟨2, 0, 0⟩ (some 1), .test ⟨3, 0, 0⟩ none, .test ⟨4, 0, 0⟩ (some 1),
        .test ⟨5, 0, 0⟩ (some 0), .finish ⟨2, 0, 0⟩ (some 1)]) := by
  decide +kernel

end Slam.ScanMatch
