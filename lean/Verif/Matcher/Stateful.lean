import Verif.Matcher.Model
import Verif.ScanMatch.Driver
import Verif.ScanMatch.HillClimb

/-!
# Scan matching with a score that remembers

The loop of `PoseEnumerationScanMatcher::process_scan` (src/core/scan_matchers/pose_enumeration_scan_matcher.h:31-77) for a
probability estimator with a state of its own, as GMapping's (src/slams/gmapping/gmapping_occupancy_observation_pe.h:41-45):
the score of a pose may depend on what was scored before.
-/

set_option autoImplicit false
set_option linter.unusedSectionVars false

namespace Slam.Matcher
open Slam.ScanMatch Slam.Poses

/-! ## Model -/

section
variable {K S T : Type} [Field K] [LinearOrder K]

/-- The `while` loop, pose_enumeration_scan_matcher.h:49-71; the score takes and returns a state. `none`: the evaluation fails,
or more than `fuel` iterations. -/
def loopS (E : Enumerator K S) (score : T → Pose K → Option (Option K × T)) : Nat → T → Result K S → Option (T × Result K S)
  | 0, _, _ => none
  | fuel + 1, t, r =>
    if E.hasNext r.enum then
      let n := E.next r.enum r.best
      (score t n.1).bind fun q =>
        if ltN r.prob q.1 then
          loopS E score fuel q.2 ⟨E.feedback n.2 true, n.1, q.1, r.events ++ [.test n.1 q.1, .update n.1 q.1]⟩
        else loopS E score fuel q.2 ⟨E.feedback n.2 false, r.best, r.prob, r.events ++ [.test n.1 q.1]⟩
    else some (t, r)

/-- `process_scan` after filtering, pose_enumeration_scan_matcher.h:39-76. -/
def searchS (E : Enumerator K S) (score : T → Pose K → Option (Option K × T)) (fuel : Nat) (t : T) (e : S) (init : Pose K) :
    Option (T × S × Delta K × Option K × List (Event K)) :=
  (score t init).bind fun q =>
    (loopS E score fuel q.2 ⟨E.reset e, init, q.1, [.start init, .test init q.1, .update init q.1]⟩).map fun r =>
      let delta := r.2.best.sub init
      (r.1, r.2.enum, delta, r.2.prob, r.2.events ++ [.finish delta r.2.prob])

/-! ## Specification -/

/-- The tests announced: poses and their scores. -/
def testsOf (es : List (Event K)) : List (Pose K × Option K) :=
  es.filterMap fun e => match e with
    | .test p s => some (p, s)
    | _ => none

/-- The poses are scored one after another, from the state `t` to the state `t'`. -/
inductive Scored (score : T → Pose K → Option (Option K × T)) : T → List (Pose K × Option K) → T → Prop
  | nil (t : T) : Scored score t [] t
  | cons (t t1 t' : T) (p : Pose K) (s : Option K) (l : List (Pose K × Option K)) (h : score t p = some (s, t1))
      (hl : Scored score t1 l t') : Scored score t ((p, s) :: l) t'

/-- `p` is the first tested pose with the highest score `s`; NaN scores do not count. -/
def FirstBest (tests : List (Pose K × Option K)) (p : Pose K) (s : K) : Prop :=
  ∃ pre post, tests = pre ++ (p, some s) :: post ∧ (∀ q ∈ pre, ∀ v, q.2 = some v → v < s) ∧ ∀ q ∈ post, ∀ v, q.2 = some v → v ≤ s

end

/-! ## Proofs -/

section
variable {K S T : Type} [Field K] [LinearOrder K] [IsStrictOrderedRing K]

theorem testsOf_append (a b : List (Event K)) : testsOf (a ++ b) = testsOf a ++ testsOf b := by
  simp [testsOf, List.filterMap_append]

theorem Scored.append {score : T → Pose K → Option (Option K × T)} {t t1 t2 : T} {a b : List (Pose K × Option K)}
    (h1 : Scored score t a t1) (h2 : Scored score t1 b t2) : Scored score t (a ++ b) t2 := by
  induction h1 with
  | nil => exact h2
  | cons t t1 t' p s l h _ ih => exact .cons _ _ _ _ _ _ h (ih h2)

/-- What the loop adds: tests; its best pose is the first best of the tests, or the one it had. -/
theorem loopS_spec (E : Enumerator K S) (score : T → Pose K → Option (Option K × T)) (fuel : Nat) :
    ∀ (t : T) (r : Result K S) (t' : T) (r' : Result K S), loopS E score fuel t r = some (t', r') →
    ∃ tests, testsOf r'.events = testsOf r.events ++ tests ∧ Scored score t tests t' ∧
      (r.prob = none → r'.prob = none ∧ r'.best = r.best) ∧
      (∀ v, r.prob = some v →
        (r'.best = r.best ∧ r'.prob = some v ∧ ∀ q ∈ tests, ∀ x, q.2 = some x → x ≤ v) ∨
        ∃ s, v < s ∧ r'.prob = some s ∧ FirstBest tests r'.best s) := by
  induction fuel with
  | zero => intro t r t' r' h; simp [loopS] at h
  | succ fuel ih =>
    intro t r t' r' h
    unfold loopS at h
    by_cases hn : E.hasNext r.enum = true
    · rw [if_pos hn, Option.bind_eq_some_iff] at h
      obtain ⟨⟨s, t1⟩, h1, h2⟩ := h
      by_cases ha : ltN r.prob s = true
      · simp only [ha, if_true] at h2
        obtain ⟨tests, a1, a2, a3, a4⟩ := ih _ _ _ _ h2
        refine ⟨((E.next r.enum r.best).1, s) :: tests, ?_, .cons _ _ _ _ _ _ h1 a2, ?_, ?_⟩
        · rw [a1, testsOf_append, List.append_assoc]; rfl
        · intro hp; simp [hp, ltN] at ha
        · intro v hv
          cases s with
          | none => simp [hv, ltN] at ha
          | some x =>
            have hvx : v < x := by simpa [hv, ltN] using ha
            right
            rcases a4 x rfl with ⟨b1, b2, b3⟩ | ⟨y, b1, b2, pre, post, b3, b4, b5⟩
            · exact ⟨x, hvx, b2, [], tests, by rw [b1]; rfl, by simp, b3⟩
            · refine ⟨y, hvx.trans b1, b2, ((E.next r.enum r.best).1, some x) :: pre, post, by rw [b3]; rfl, ?_, b5⟩
              intro q hq z hz
              rcases List.mem_cons.1 hq with rfl | hq
              · simp only [Option.some.injEq] at hz
                exact hz ▸ b1
              · exact b4 q hq z hz
      · simp only [ha] at h2
        obtain ⟨tests, a1, a2, a3, a4⟩ := ih _ _ _ _ h2
        refine ⟨((E.next r.enum r.best).1, s) :: tests, ?_, .cons _ _ _ _ _ _ h1 a2, a3, ?_⟩
        · rw [a1, testsOf_append, List.append_assoc]; rfl
        · intro v hv
          have hs : ∀ x, s = some x → x ≤ v := by
            intro x hx
            simpa [hv, hx, ltN] using ha
          rcases a4 v hv with ⟨b1, b2, b3⟩ | ⟨y, b1, b2, pre, post, b3, b4, b5⟩
          · refine .inl ⟨b1, b2, ?_⟩
            intro q hq z hz
            rcases List.mem_cons.1 hq with rfl | hq
            · exact hs z hz
            · exact b3 q hq z hz
          · refine .inr ⟨y, b1, b2, ((E.next r.enum r.best).1, s) :: pre, post, by rw [b3]; rfl, ?_, b5⟩
            intro q hq z hz
            rcases List.mem_cons.1 hq with rfl | hq
            · exact (hs z hz).trans_lt b1
            · exact b4 q hq z hz
    · rw [if_neg hn, Option.some.injEq, Prod.mk.injEq] at h
      obtain ⟨rfl, rfl⟩ := h
      refine ⟨[], by simp, .nil _, fun h => ⟨h, rfl⟩, fun v hv => .inl ⟨rfl, hv, by simp⟩⟩

/-- **What a search returns**: the initial pose is scored first; if its score is a number, the highest score and the first pose
that has it. -/
theorem searchS_spec {E : Enumerator K S} {score : T → Pose K → Option (Option K × T)} {fuel : Nat} {t : T} {e : S} {init : Pose K}
    {t' : T} {e' : S} {delta : Delta K} {prob : Option K} {events : List (Event K)}
    (h : searchS E score fuel t e init = some (t', e', delta, prob, events)) :
    ∃ s0 rest, testsOf events = (init, s0) :: rest ∧ Scored score t (testsOf events) t' ∧
      (s0 = none → prob = none ∧ delta = Pose.zero) ∧
      (s0 ≠ none → ∃ s, prob = some s ∧ FirstBest (testsOf events) (init.add delta) s) := by
  unfold searchS at h
  rw [Option.bind_eq_some_iff] at h
  obtain ⟨⟨s0, t1⟩, h1, h2⟩ := h
  rw [Option.map_eq_some_iff] at h2
  obtain ⟨⟨t2, r⟩, h2, h3⟩ := h2
  simp only [Prod.mk.injEq] at h3
  obtain ⟨rfl, rfl, rfl, rfl, rfl⟩ := h3
  obtain ⟨tests, a1, a2, a3, a4⟩ := loopS_spec E score fuel _ _ _ _ h2
  have ht : testsOf (r.events ++ [.finish (r.best.sub init) r.prob]) = (init, s0) :: tests := by
    rw [testsOf_append, a1]
    simp [testsOf]
  have hadd : ∀ p : Pose K, init.add (p.sub init) = p := by
    intro p
    simp [Pose.add, Pose.sub]
  refine ⟨s0, tests, ht, by rw [ht]; exact .cons _ _ _ _ _ _ h1 a2, ?_, ?_⟩
  · intro hs
    obtain ⟨b1, b2⟩ := a3 hs
    refine ⟨b1, ?_⟩
    simp only at b2
    rw [b2]
    simp [Pose.sub, Pose.zero]
  · intro hs
    cases s0 with
    | none => exact absurd rfl hs
    | some v =>
      rw [ht, hadd]
      rcases a4 v rfl with ⟨b1, b2, b3⟩ | ⟨s, b1, b2, pre, post, b3, b4, b5⟩
      · exact ⟨v, b2, [], tests, by rw [b1]; rfl, by simp, b3⟩
      · refine ⟨s, b2, (init, some v) :: pre, post, by rw [b3]; rfl, ?_, b5⟩
        intro q hq x hx
        rcases List.mem_cons.1 hq with rfl | hq
        · simp only [Option.some.injEq] at hx
          exact hx ▸ b1
        · exact b4 q hq x hx

/-! ## Hill climbing ends -/

/-- How many more tests hill climbing can make without finding a better pose. -/
def hcLeft (F : Nat) (s : HCState K) : Nat :=
  (F - s.failedRounds) * 14 + (if s.roundFailed then 0 else 7) + (6 - s.round.action)

theorem hcLeft_le (F : Nat) (s : HCState K) : hcLeft F s ≤ F * 14 + 13 := by
  unfold hcLeft
  have : (F - s.failedRounds) * 14 ≤ F * 14 := Nat.mul_le_mul_right _ (Nat.sub_le _ _)
  split <;> omega

theorem hcLeft_step (F : Nat) (td rd : K) (s : HCState K) (b : Pose K) (h : (hillClimbing F td rd).hasNext s = true)
    (ha : s.round.action ≤ 6) :
    hcLeft F ((hillClimbing F td rd).feedback ((hillClimbing F td rd).next s b).2 false) < hcLeft F s ∧
    ∀ ok, ((hillClimbing F td rd).feedback ((hillClimbing F td rd).next s b).2 ok).round.action ≤ 6 := by
  have hf : s.failedRounds < F := by simpa [hillClimbing] using h
  by_cases h6 : s.round.action < 6
  · constructor
    · simp [hillClimbing, h6, hcLeft, D1State.next]
      omega
    · intro ok
      simp [hillClimbing, h6, D1State.next]
  · have h6' : s.round.action = 6 := by omega
    cases hr : s.roundFailed with
    | true =>
      constructor
      · simp [hillClimbing, h6', hcLeft, D1State.next, HCState.resetRound, hr]
        omega
      · intro ok
        simp [hillClimbing, h6', D1State.next, HCState.resetRound, hr]
    | false =>
      constructor
      · simp [hillClimbing, h6', hcLeft, D1State.next, HCState.resetRound, hr]
      · intro ok
        simp [hillClimbing, h6', D1State.next, HCState.resetRound, hr]

/-- The numbers above `p` in `V`. -/
def above (V : Finset K) (p : Option K) : Nat := (V.filter fun v => ltN p (some v) = true).card

theorem above_lt {V : Finset K} {p : Option K} {v : K} (hv : v ∈ V) (h : ltN p (some v) = true) : above V (some v) < above V p := by
  refine Finset.card_lt_card ?_
  rw [Finset.ssubset_iff_of_subset]
  · exact ⟨v, by rw [Finset.mem_filter]; exact ⟨hv, h⟩, by rw [Finset.mem_filter]; simp [ltN]⟩
  · intro x hx
    rw [Finset.mem_filter] at hx ⊢
    exact ⟨hx.1, ltN_trans h hx.2⟩

/-- A pose within `X` of `o` along the axes. -/
def Within (o : Pose K) (X : K) (q : Pose K) : Prop := |q.x - o.x| ≤ X ∧ |q.y - o.y| ≤ X

/-- The state of the enumerator is in order: its steps are within the configured ones, and the pose its round starts from is
within `X` of `o`. -/
structure HCNear (o : Pose K) (td X : K) (s : HCState K) : Prop where
  action : s.round.action ≤ 6
  trans : 0 ≤ s.trans ∧ s.trans ≤ td
  round : 0 ≤ s.round.trans ∧ s.round.trans ≤ td
  base : ∀ q, s.round.base = some q → Within o X q

theorem d1_next_near {o : Pose K} {td X : K} (htd : 0 ≤ td) {s : D1State K} {b : Pose K} (hs : 0 ≤ s.trans ∧ s.trans ≤ td)
    (hq : ∀ q, s.base = some q → Within o X q) (hb : Within o X b) :
    Within o (X + td) (s.next b).1 ∧ (s.next b).2.trans = s.trans ∧ ∀ q, (s.next b).2.base = some q → Within o X q := by
  have hbase : Within o X (s.base.getD b) := by
    cases hc : s.base with
    | none => exact hb
    | some q => exact hq q hc
  refine ⟨?_, rfl, ?_⟩
  · have hd : ∀ k : Nat, |(if k % 2 = 0 then (1 : K) else -1) * s.trans| ≤ td := by
      intro k
      by_cases h : k % 2 = 0
      · rw [if_pos h, one_mul, abs_of_nonneg hs.1]; exact hs.2
      · rw [if_neg h, neg_one_mul, abs_neg, abs_of_nonneg hs.1]; exact hs.2
    have key : ∀ (a c : K) (k : Nat), |a - c| ≤ X → |a + (if k % 2 = 0 then (1 : K) else -1) * s.trans - c| ≤ X + td := by
      intro a c k h
      rw [add_sub_right_comm]
      exact (abs_add_le _ _).trans (add_le_add h (hd k))
    have e : (s.next b).1 = match s.action % 3 with
      | 0 => ⟨(s.base.getD b).x + (if s.action % 2 = 0 then (1 : K) else -1) * s.trans, (s.base.getD b).y, (s.base.getD b).theta⟩
      | 1 => ⟨(s.base.getD b).x, (s.base.getD b).y + (if s.action % 2 = 0 then (1 : K) else -1) * s.trans, (s.base.getD b).theta⟩
      | _ => ⟨(s.base.getD b).x, (s.base.getD b).y,
          (s.base.getD b).theta + (if s.action % 2 = 0 then (1 : K) else -1) * s.rot⟩ := by
      simp only [D1State.next]
      have h3 : s.action % 3 < 3 := Nat.mod_lt _ (by norm_num)
      generalize s.action % 3 = k at h3
      match k, h3 with
      | 0, _ => simp
      | 1, _ => simp
      | 2, _ => simp
    rw [e]
    have h3 : s.action % 3 < 3 := Nat.mod_lt _ (by norm_num)
    generalize s.action % 3 = k at h3
    match k, h3 with
    | 0, _ => exact ⟨key _ _ _ hbase.1, hbase.2.trans (by linarith)⟩
    | 1, _ => exact ⟨hbase.1.trans (by linarith), key _ _ _ hbase.2⟩
    | 2, _ => exact ⟨hbase.1.trans (by linarith), hbase.2.trans (by linarith)⟩
  · intro q h
    simp only [D1State.next, Option.some.injEq] at h
    exact h ▸ hbase

theorem hc_next_near (F : Nat) {o : Pose K} {td rd X : K} (htd : 0 ≤ td) {s : HCState K} (h : HCNear o td X s) {b : Pose K}
    (hb : Within o X b) (hn : (hillClimbing F td rd).hasNext s = true) :
    Within o (X + td) ((hillClimbing F td rd).next s b).1 ∧
    ∀ ok, HCNear o td (X + td) ((hillClimbing F td rd).feedback ((hillClimbing F td rd).next s b).2 ok) := by
  have hact := (hcLeft_step F td rd s b hn h.action).2
  have grow : ∀ {q : Pose K}, Within o X q → Within o (X + td) q :=
    fun h => ⟨h.1.trans (by linarith), h.2.trans (by linarith)⟩
  by_cases h6 : s.round.action < 6
  · obtain ⟨a1, a3, a4⟩ := d1_next_near htd h.round h.base hb
    have e : (hillClimbing F td rd).next s b = ((s.round.next b).1, { s with round := (s.round.next b).2 }) := by
      simp [hillClimbing, h6]
    refine ⟨by rw [e]; exact a1, fun ok => ⟨hact ok, ?_, ?_, ?_⟩⟩
    · rw [e]; exact h.trans
    · rw [e]
      change 0 ≤ (s.round.next b).2.trans ∧ (s.round.next b).2.trans ≤ td
      rw [a3]; exact h.round
    · rw [e]; intro q hq; exact grow (a4 q hq)
  · obtain ⟨f, tr, ro, ht, e⟩ : ∃ (f : Nat) (tr ro : K), (0 ≤ tr ∧ tr ≤ td) ∧ (hillClimbing F td rd).next s b =
        ((D1State.next ⟨0, tr, ro, none⟩ b).1, ⟨f, tr, ro, (D1State.next ⟨0, tr, ro, none⟩ b).2, true⟩) := by
      cases hr : s.roundFailed with
      | true =>
        refine ⟨s.failedRounds + 1, s.trans * (1 / 2), s.rot * (1 / 2), ?_, ?_⟩
        · refine ⟨mul_nonneg h.trans.1 (by norm_num), ?_⟩
          linarith [h.trans.1, h.trans.2]
        · simp [hillClimbing, h6, hr, HCState.resetRound]
      | false => exact ⟨s.failedRounds, s.trans, s.rot, h.trans, by simp [hillClimbing, h6, hr, HCState.resetRound]⟩
    obtain ⟨a1, a3, a4⟩ := d1_next_near (s := ⟨0, tr, ro, none⟩) htd ht (by simp) hb
    refine ⟨by rw [e]; exact a1, fun ok => ⟨hact ok, ?_, ?_, ?_⟩⟩
    · rw [e]; exact ht
    · rw [e]
      exact ht
    · rw [e]; intro q hq; exact grow (a4 q hq)

/-- Hill climbing ends, for a score that remembers: if the score can always be evaluated and takes finitely many values. -/
theorem loopS_ends (F : Nat) {o : Pose K} {td rd : K} (htd : 0 ≤ td) (score : T → Pose K → Option (Option K × T)) (I : T → Prop)
    (V : Finset K) (hI : ∀ t, I t → ∀ p, ∃ s t', score t p = some (s, t') ∧ I t' ∧ ∀ v, s = some v → v ∈ V) (fuel : Nat) :
    ∀ (t : T) (r : Result K (HCState K)) (X : K), I t → HCNear o td X r.enum → Within o X r.best →
      above V r.prob * (14 * F + 14) + hcLeft F r.enum < fuel →
      ∃ t' r', loopS (hillClimbing F td rd) score fuel t r = some (t', r') ∧ I t' ∧ Within o (X + fuel * td) r'.best := by
  induction fuel with
  | zero => intro t r X _ _ _ h; omega
  | succ fuel ih =>
    intro t r X ht hr hb hm
    have hX : X ≤ X + ((fuel + 1 : Nat) : K) * td := by
      have : (0 : K) ≤ ((fuel + 1 : Nat) : K) * td := mul_nonneg (Nat.cast_nonneg _) htd
      linarith
    have hXe : X + td + (fuel : K) * td = X + ((fuel + 1 : Nat) : K) * td := by push_cast; ring
    unfold loopS
    by_cases hn : (hillClimbing F td rd).hasNext r.enum = true
    · rw [if_pos hn]
      obtain ⟨s, t1, h1, h2, h3⟩ := hI t ht ((hillClimbing F td rd).next r.enum r.best).1
      obtain ⟨n1, n2⟩ := hc_next_near F htd hr hb hn
      obtain ⟨l1, -⟩ := hcLeft_step F td rd r.enum r.best hn hr.action
      simp only [h1, Option.bind_some]
      by_cases ha : ltN r.prob s = true
      · simp only [ha, if_true]
        cases s with
        | none => cases hp : r.prob <;> simp [hp, ltN] at ha
        | some v =>
          have hlt := above_lt (h3 v rfl) ha
          have hle := hcLeft_le F ((hillClimbing F td rd).feedback ((hillClimbing F td rd).next r.enum r.best).2 true)
          obtain ⟨t', r', g1, g2, g3⟩ := ih t1 ⟨(hillClimbing F td rd).feedback ((hillClimbing F td rd).next r.enum r.best).2 true,
            ((hillClimbing F td rd).next r.enum r.best).1, some v,
            r.events ++ [.test ((hillClimbing F td rd).next r.enum r.best).1 (some v),
              .update ((hillClimbing F td rd).next r.enum r.best).1 (some v)]⟩ (X + td) h2 (n2 true) n1 (by
            have hmul : above V (some v) * (14 * F + 14) + (14 * F + 14) ≤ above V r.prob * (14 * F + 14) := by
              calc _ = (above V (some v) + 1) * (14 * F + 14) := by ring
                _ ≤ _ := Nat.mul_le_mul_right _ hlt
            simp only
            omega)
          rw [hXe] at g3
          exact ⟨t', r', g1, g2, g3⟩
      · simp only [ha]
        obtain ⟨t', r', g1, g2, g3⟩ := ih t1 ⟨(hillClimbing F td rd).feedback ((hillClimbing F td rd).next r.enum r.best).2 false,
          r.best, r.prob, r.events ++ [.test ((hillClimbing F td rd).next r.enum r.best).1 s]⟩ (X + td) h2 (n2 false)
          ⟨hb.1.trans (by linarith), hb.2.trans (by linarith)⟩ (by simp only; omega)
        rw [hXe] at g3
        exact ⟨t', r', g1, g2, g3⟩
    · rw [if_neg hn]
      exact ⟨t, r, rfl, ht, hb.1.trans hX, hb.2.trans hX⟩

/-- **Hill climbing ends**, whatever the score remembers: if it can always be evaluated (`I` holds of its states) and takes values
in `V` only. The shift is within `fuel` steps along the axes. -/
theorem searchS_ends (F : Nat) {td rd : K} (htd : 0 ≤ td) (score : T → Pose K → Option (Option K × T)) (I : T → Prop) (V : Finset K)
    (hI : ∀ t, I t → ∀ p, ∃ s t', score t p = some (s, t') ∧ I t' ∧ ∀ v, s = some v → v ∈ V) (fuel : Nat)
    (hf : (V.card + 1) * (14 * F + 14) ≤ fuel) (t : T) (ht : I t) (e : HCState K) (init : Pose K) :
    ∃ t' e' delta prob events, searchS (hillClimbing F td rd) score fuel t e init = some (t', e', delta, prob, events) ∧ I t' ∧
      |delta.x| ≤ fuel * td ∧ |delta.y| ≤ fuel * td := by
  obtain ⟨s, t1, h1, h2, h3⟩ := hI t ht init
  have hnear : HCNear init td 0 ((hillClimbing F td rd).reset e) :=
    ⟨by simp [hillClimbing, HCState.resetRound], ⟨htd, le_rfl⟩, ⟨htd, le_rfl⟩, by simp [hillClimbing, HCState.resetRound]⟩
  have hle := hcLeft_le F ((hillClimbing F td rd).reset e)
  have hab : above V s ≤ V.card := Finset.card_filter_le _ _
  obtain ⟨t', r', g1, g2, g3⟩ := loopS_ends F (o := init) (rd := rd) htd score I V hI fuel t1
    ⟨(hillClimbing F td rd).reset e, init, s, [.start init, .test init s, .update init s]⟩ 0 h2 hnear
    ⟨by simp, by simp⟩ (by
      have := Nat.mul_le_mul_right (14 * F + 14) hab
      have e1 : (V.card + 1) * (14 * F + 14) = V.card * (14 * F + 14) + (14 * F + 14) := by ring
      simp only
      omega)
  refine ⟨t', r'.enum, r'.best.sub init, r'.prob, _, by rw [searchS, h1, Option.bind_some, g1]; rfl, g2, ?_⟩
  rw [zero_add] at g3
  exact g3

end

end Slam.Matcher
