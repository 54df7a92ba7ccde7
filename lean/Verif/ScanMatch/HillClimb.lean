import Verif.ScanMatch.Driver
import Mathlib.Tactic.Linarith
import Mathlib.Tactic.Ring
import Mathlib.Data.Finset.Card
import Mathlib.Data.Finset.Filter
import Mathlib.Data.Rat.Floor

/-! # C30: hill climbing enumeration -/

set_option autoImplicit false
set_option linter.unusedSectionVars false

namespace Slam.ScanMatch
open Slam.Poses

variable {K : Type*} [Field K] [LinearOrder K] [IsStrictOrderedRing K]

/-- One uniform step rule for `Tests`. -/
theorem tests_cons_iff {S : Type*} (E : Enumerator K S) (score : Pose K → Option K) (e : S) (b : Pose K)
    (p : Option K) (ts : List (Pose K)) (e' : S) (b' : Pose K) (p' : Option K) (h : E.hasNext e = true) :
    Tests E score e b p ts e' b' p' ↔ ∃ rest, ts = (E.next e b).1 :: rest ∧
      Tests E score (E.feedback (E.next e b).2 (ltN p (score (E.next e b).1)))
        (improve score (b, p) [(E.next e b).1]).1 (improve score (b, p) [(E.next e b).1]).2 rest e' b' p' := by
  constructor
  · intro ht
    cases ht with
    | done _ _ _ hn => rw [h] at hn; cases hn
    | better _ _ _ ts _ _ _ _ ha hr => exact ⟨ts, rfl, by simpa [improve, ha] using hr⟩
    | worse _ _ _ ts _ _ _ _ ha hr => exact ⟨ts, rfl, by simpa [improve, ha] using hr⟩
  · rintro ⟨rest, rfl, hr⟩
    by_cases ha : ltN p (score (E.next e b).1) = true
    · exact .better _ _ _ _ _ _ _ h ha (by simpa [improve, ha] using hr)
    · have ha' := Bool.eq_false_iff.2 ha
      exact .worse _ _ _ _ _ _ _ h ha' (by simpa [improve, ha'] using hr)

theorem tests_stop_iff {S : Type*} (E : Enumerator K S) (score : Pose K → Option K) (e : S) (b : Pose K)
    (p : Option K) (ts : List (Pose K)) (e' : S) (b' : Pose K) (p' : Option K) (h : E.hasNext e = false) :
    Tests E score e b p ts e' b' p' ↔ ts = [] ∧ e' = e ∧ b' = b ∧ p' = p := by
  constructor
  · intro ht
    cases ht with
    | done => exact ⟨rfl, rfl, rfl, rfl⟩
    | better _ _ _ _ _ _ _ hn => rw [h] at hn; cases hn
    | worse _ _ _ _ _ _ _ hn => rw [h] at hn; cases hn
  · rintro ⟨rfl, rfl, rfl, rfl⟩
    exact .done _ _ _ h

theorem improve_cons (score : Pose K → Option K) (bp : Pose K × Option K) (q : Pose K) (qs : List (Pose K)) :
    improve score bp (q :: qs) = improve score (improve score bp [q]) qs := rfl

theorem improve_append (score : Pose K → Option K) (bp : Pose K × Option K) (l r : List (Pose K)) :
    improve score bp (l ++ r) = improve score (improve score bp l) r := by
  simp [improve, List.foldl_append]

theorem ltN_trans {a b c : Option K} (h1 : ltN a b = true) (h2 : ltN b c = true) : ltN a c = true := by
  cases a <;> cases b <;> cases c <;> simp_all [ltN]
  exact lt_trans h1 h2

/-- Nothing better among the candidates: nothing changes. -/
theorem improve_of_not (score : Pose K → Option K) (b : Pose K) (p : Option K) (l : List (Pose K))
    (h : ¬ Improves score p l) : improve score (b, p) l = (b, p) := by
  induction l with
  | nil => rfl
  | cons q l ih =>
    have h1 : ¬ ltN p (score q) = true := fun hc => h ⟨q, by simp, hc⟩
    have h2 : ¬ Improves score p l := fun ⟨x, hx, hxx⟩ => h ⟨x, by simp [hx], hxx⟩
    rw [improve_cons]
    have : improve score (b, p) [q] = (b, p) := by simp [improve, h1]
    rw [this, ih h2]

/-- Something better among the candidates: the score strictly grows and belongs to the new pose. -/
theorem improve_of_improves (score : Pose K → Option K) (b : Pose K) (p : Option K) (l : List (Pose K)) :
    ((improve score (b, p) l) = (b, p) ∨ (ltN p (improve score (b, p) l).2 = true ∧
      (improve score (b, p) l).2 = score (improve score (b, p) l).1)) ∧
    (Improves score p l → ltN p (improve score (b, p) l).2 = true ∧
      (improve score (b, p) l).2 = score (improve score (b, p) l).1) := by
  induction l generalizing b p with
  | nil => exact ⟨Or.inl rfl, fun ⟨q, hq, _⟩ => by simp at hq⟩
  | cons q l ih =>
    rw [improve_cons]
    by_cases hq : ltN p (score q) = true
    · have e : improve score (b, p) [q] = (q, score q) := by simp [improve, hq]
      rw [e]
      have hfin : ltN p (improve score (q, score q) l).2 = true ∧
          (improve score (q, score q) l).2 = score (improve score (q, score q) l).1 := by
        rcases (ih q (score q)).1 with h | h
        · rw [h]; exact ⟨hq, rfl⟩
        · exact ⟨ltN_trans hq h.1, h.2⟩
      exact ⟨Or.inr hfin, fun _ => hfin⟩
    · have e : improve score (b, p) [q] = (b, p) := by simp [improve, hq]
      rw [e]
      refine ⟨(ih b p).1, ?_⟩
      rintro ⟨x, hx, hxx⟩
      rcases List.mem_cons.1 hx with rfl | hx
      · exact absurd hxx hq
      · exact (ih b p).2 ⟨x, hx, hxx⟩

/-- The state at the beginning of a round. -/
def roundStart (failed : Nat) (d r : K) : HCState K := ⟨failed, d, r, ⟨0, d, r, none⟩, true⟩

open Classical in
/-- The state after the six tests of a round that started at `b`. -/
noncomputable def roundEnd (score : Pose K → Option K) (failed : Nat) (d r : K) (b : Pose K) (p : Option K) : HCState K :=
  ⟨failed, d, r, ⟨6, d, r, some b⟩, decide (¬ Improves score p (sixNeighbours b d r))⟩

/-- Whether none of the tests improved, as tracked by the flag `roundFailed`. -/
def noneBetter (score : Pose K → Option K) : Pose K × Option K → List (Pose K) → Bool
  | _, [] => true
  | bp, q :: qs => !ltN bp.2 (score q) && noneBetter score (improve score bp [q]) qs

theorem noneBetter_iff (score : Pose K → Option K) (b : Pose K) (p : Option K) (l : List (Pose K)) :
    noneBetter score (b, p) l = true ↔ ¬ Improves score p l := by
  induction l generalizing b p with
  | nil => simp [noneBetter, Improves]
  | cons q l ih =>
    by_cases hq : ltN p (score q) = true
    · have : Improves score p (q :: l) := ⟨q, by simp, hq⟩
      simp [noneBetter, hq, this]
    · have e : improve score (b, p) [q] = (b, p) := by simp [improve, hq]
      have e2 : Improves score p (q :: l) ↔ Improves score p l := by
        constructor
        · rintro ⟨x, hx, hxx⟩
          rcases List.mem_cons.1 hx with rfl | hx
          · exact absurd hxx hq
          · exact ⟨x, hx, hxx⟩
        · rintro ⟨x, hx, hxx⟩; exact ⟨x, by simp [hx], hxx⟩
      rw [noneBetter, e, e2, Bool.and_eq_true, ih]
      simp [hq]

/-- The six tests of one round. -/
theorem round_iff (F : Nat) (td rd : K) (score : Pose K → Option K) (failed : Nat) (d r : K) (hF : failed < F)
    (b : Pose K) (p : Option K) (ts : List (Pose K)) (e' : HCState K) (b' : Pose K) (p' : Option K) :
    Tests (hillClimbing F td rd) score (roundStart failed d r) b p ts e' b' p' ↔
      ∃ rest, ts = sixNeighbours b d r ++ rest ∧
        Tests (hillClimbing F td rd) score (roundEnd score failed d r b p)
          (improve score (b, p) (sixNeighbours b d r)).1 (improve score (b, p) (sixNeighbours b d r)).2
          rest e' b' p' := by
  have hn : ∀ s : HCState K, s.failedRounds = failed → (hillClimbing F td rd).hasNext s = true := by
    intro s hs; simp [hillClimbing, hs, hF]
  have hflag : roundEnd score failed d r b p
      = ⟨failed, d, r, ⟨6, d, r, some b⟩, noneBetter score (b, p) (sixNeighbours b d r)⟩ := by
    unfold roundEnd
    congr 1
    by_cases h : Improves score p (sixNeighbours b d r)
    · have : ¬ noneBetter score (b, p) (sixNeighbours b d r) = true := by rw [noneBetter_iff]; simpa using h
      simp [h, Bool.eq_false_iff.2 this]
    · have := (noneBetter_iff score b p _).2 h
      simp [h, this]
  rw [hflag]
  have step : ∀ (k : Nat) (base? : Option (Pose K)) (flag : Bool) (bb : Pose K) (pp : Option K)
      (ts : List (Pose K)) (q : Pose K), k < 6 → base?.getD bb = b →
      (D1State.next ⟨k, d, r, base?⟩ bb).1 = q →
      (Tests (hillClimbing F td rd) score ⟨failed, d, r, ⟨k, d, r, base?⟩, flag⟩ bb pp ts e' b' p' ↔
        ∃ rest, ts = q :: rest ∧ Tests (hillClimbing F td rd) score
          ⟨failed, d, r, ⟨k + 1, d, r, some b⟩, flag && !ltN pp (score q)⟩
          (improve score (bb, pp) [q]).1 (improve score (bb, pp) [q]).2 rest e' b' p') := by
    intro k base? flag bb pp ts q hk hb hq
    rw [tests_cons_iff _ _ _ _ _ _ _ _ _ (hn _ rfl)]
    have hnx : (hillClimbing F td rd).next ⟨failed, d, r, ⟨k, d, r, base?⟩, flag⟩ bb
        = (q, ⟨failed, d, r, ⟨k + 1, d, r, some b⟩, flag⟩) := by
      simp only [hillClimbing, hk, if_true, hq]
      simp [D1State.next, hb]
    rw [hnx]
    rfl
  have hs0 : (roundStart failed d r : HCState K) = ⟨failed, d, r, ⟨0, d, r, none⟩, true⟩ := rfl
  rw [hs0]
  rw [step 0 none true b p ts ⟨b.x + d, b.y, b.theta⟩ (by omega) rfl (by simp [D1State.next])]
  have s1 := fun flag bb pp ts => step 1 (some b) flag bb pp ts ⟨b.x, b.y - d, b.theta⟩ (by omega) rfl
    (by simp [D1State.next, sub_eq_add_neg])
  have s2 := fun flag bb pp ts => step 2 (some b) flag bb pp ts ⟨b.x, b.y, b.theta + r⟩ (by omega) rfl
    (by simp [D1State.next])
  have s3 := fun flag bb pp ts => step 3 (some b) flag bb pp ts ⟨b.x - d, b.y, b.theta⟩ (by omega) rfl
    (by simp [D1State.next, sub_eq_add_neg])
  have s4 := fun flag bb pp ts => step 4 (some b) flag bb pp ts ⟨b.x, b.y + d, b.theta⟩ (by omega) rfl
    (by simp [D1State.next])
  have s5 := fun flag bb pp ts => step 5 (some b) flag bb pp ts ⟨b.x, b.y, b.theta - r⟩ (by omega) rfl
    (by simp [D1State.next, sub_eq_add_neg])
  simp only [s1, s2, s3, s4, s5]
  simp only [sixNeighbours, noneBetter, List.cons_append, List.nil_append, Bool.true_and, Bool.and_true]
  constructor
  · rintro ⟨_, rfl, _, rfl, _, rfl, _, rfl, _, rfl, rest, rfl, h⟩
    refine ⟨rest, rfl, ?_⟩
    simp only [improve, List.foldl_cons, List.foldl_nil, Bool.and_assoc] at h ⊢
    exact h
  · rintro ⟨rest, rfl, h⟩
    refine ⟨_, rfl, _, rfl, _, rfl, _, rfl, _, rfl, rest, rfl, ?_⟩
    simp only [improve, List.foldl_cons, List.foldl_nil, Bool.and_assoc] at h ⊢
    exact h

/-- From the end of a successful round the search goes on with a new round from the best pose. -/
theorem after_success (F : Nat) (td rd : K) (score : Pose K → Option K) (failed : Nat) (d r : K) (hF : failed < F)
    (base b : Pose K) (p : Option K) (ts : List (Pose K)) (e' : HCState K) (b' : Pose K) (p' : Option K) :
    Tests (hillClimbing F td rd) score ⟨failed, d, r, ⟨6, d, r, some base⟩, false⟩ b p ts e' b' p' ↔
      Tests (hillClimbing F td rd) score (roundStart failed d r) b p ts e' b' p' := by
  have hn : ∀ s : HCState K, s.failedRounds = failed → (hillClimbing F td rd).hasNext s = true := by
    intro s hs; simp [hillClimbing, hs, hF]
  rw [tests_cons_iff _ _ _ _ _ _ _ _ _ (hn _ rfl), tests_cons_iff _ _ _ _ _ _ _ _ _ (hn _ rfl)]
  have : (hillClimbing F td rd).next ⟨failed, d, r, ⟨6, d, r, some base⟩, false⟩ b
      = (hillClimbing F td rd).next (roundStart failed d r) b := by
    simp [hillClimbing, roundStart, HCState.resetRound]
  rw [this]

/-- From the end of a failed round the search goes on with halved steps, or stops after one more test. -/
theorem after_failure (F : Nat) (td rd : K) (score : Pose K → Option K) (failed : Nat) (d r : K) (hF : failed < F)
    (base b : Pose K) (p : Option K) (ts : List (Pose K)) (e' : HCState K) (b' : Pose K) (p' : Option K) :
    Tests (hillClimbing F td rd) score ⟨failed, d, r, ⟨6, d, r, some base⟩, true⟩ b p ts e' b' p' ↔
      if failed + 1 < F then
        Tests (hillClimbing F td rd) score (roundStart (failed + 1) (d / 2) (r / 2)) b p ts e' b' p'
      else ts = [⟨b.x + d / 2, b.y, b.theta⟩] ∧ (b', p') = improve score (b, p) [⟨b.x + d / 2, b.y, b.theta⟩] ∧
        e' = (hillClimbing F td rd).feedback
          ⟨failed + 1, d / 2, r / 2, ⟨1, d / 2, r / 2, some b⟩, true⟩
          (ltN p (score ⟨b.x + d / 2, b.y, b.theta⟩)) := by
  have hn : (hillClimbing F td rd).hasNext ⟨failed, d, r, ⟨6, d, r, some base⟩, true⟩ = true := by
    simp [hillClimbing, hF]
  have hnx : (hillClimbing F td rd).next ⟨failed, d, r, ⟨6, d, r, some base⟩, true⟩ b
      = (⟨b.x + d / 2, b.y, b.theta⟩, ⟨failed + 1, d / 2, r / 2, ⟨1, d / 2, r / 2, some b⟩, true⟩) := by
    simp [hillClimbing, HCState.resetRound, D1State.next, div_eq_mul_inv]
  rw [tests_cons_iff _ _ _ _ _ _ _ _ _ hn, hnx]
  split
  · rename_i hlt
    have hn2 : (hillClimbing F td rd).hasNext (roundStart (failed + 1) (d / 2) (r / 2)) = true := by
      simp [hillClimbing, roundStart, hlt]
    have hnx2 : (hillClimbing F td rd).next (roundStart (failed + 1) (d / 2) (r / 2)) b
      = (⟨b.x + d / 2, b.y, b.theta⟩, ⟨failed + 1, d / 2, r / 2, ⟨1, d / 2, r / 2, some b⟩, true⟩) := by
      simp [hillClimbing, roundStart, D1State.next]
    rw [tests_cons_iff _ _ _ _ _ _ _ _ _ hn2, hnx2]
  · rename_i hlt
    have hstop : ∀ ok, (hillClimbing F td rd).hasNext ((hillClimbing F td rd).feedback
        ⟨failed + 1, d / 2, r / 2, ⟨1, d / 2, r / 2, some b⟩, true⟩ ok) = false := by
      intro ok; simp [hillClimbing]; omega
    constructor
    · rintro ⟨rest, rfl, h⟩
      rw [tests_stop_iff _ _ _ _ _ _ _ _ _ (hstop _)] at h
      obtain ⟨rfl, rfl, rfl, rfl⟩ := h
      exact ⟨rfl, rfl, rfl⟩
    · rintro ⟨rfl, h, rfl⟩
      refine ⟨[], rfl, ?_⟩
      rw [← h]
      exact .done _ _ _ (hstop _)

/-- The driver with the hill climbing enumerator *is* the hill climbing specification. -/
theorem tests_iff_climb (F : Nat) (td rd : K) (score : Pose K → Option K) (left : Nat) (d r : K)
    (hle : left ≤ F) (b : Pose K) (p : Option K) (ts : List (Pose K)) (b' : Pose K) (p' : Option K) :
    (∃ e', Tests (hillClimbing F td rd) score (roundStart (F - left) d r) b p ts e' b' p') ↔
      Climb score left d r b p ts b' p' := by
  constructor
  · -- by induction on the number of tests
    have gen : ∀ n (ts : List (Pose K)), ts.length = n → ∀ (left : Nat) (d r : K) (b : Pose K) (p : Option K),
        left ≤ F → (∃ e', Tests (hillClimbing F td rd) score (roundStart (F - left) d r) b p ts e' b' p') →
        Climb score left d r b p ts b' p' := by
      intro n
      induction n using Nat.strong_induction_on with
      | _ n ih =>
        intro ts hlen left d r b p hle ⟨e', h⟩
        rcases Nat.eq_zero_or_pos left with h0 | hpos
        · subst h0
          rw [tests_stop_iff _ _ _ _ _ _ _ _ _ (by simp [hillClimbing, roundStart])] at h
          obtain ⟨rfl, _, rfl, rfl⟩ := h
          exact .none _ _ _ _
        · rw [round_iff F td rd score (F - left) d r (by omega)] at h
          obtain ⟨rest, rfl, h⟩ := h
          have hl6 : (sixNeighbours b d r).length = 6 := rfl
          by_cases himp : Improves score p (sixNeighbours b d r)
          · have e : roundEnd score (F - left) d r b p = ⟨F - left, d, r, ⟨6, d, r, some b⟩, false⟩ := by
              simp [roundEnd, himp]
            rw [e, after_success F td rd score (F - left) d r (by omega)] at h
            obtain ⟨m, rfl⟩ : ∃ m, left = m + 1 := ⟨left - 1, by omega⟩
            refine .success _ _ _ _ _ _ _ _ himp (ih rest.length ?_ rest rfl _ _ _ _ _ hle ⟨e', h⟩)
            rw [← hlen, List.length_append, hl6]; omega
          · have e : roundEnd score (F - left) d r b p = ⟨F - left, d, r, ⟨6, d, r, some b⟩, true⟩ := by
              simp [roundEnd, himp]
            rw [e, improve_of_not score b p _ himp,
              after_failure F td rd score (F - left) d r (by omega)] at h
            rcases Nat.lt_or_ge left 2 with h1 | h2
            · have hl1 : left = 1 := by omega
              subst hl1
              rw [if_neg (by omega)] at h
              obtain ⟨rfl, hb, _⟩ := h
              exact .last _ _ _ _ _ _ himp hb
            · obtain ⟨m, rfl⟩ : ∃ m, left = m + 2 := ⟨left - 2, by omega⟩
              rw [if_pos (by omega), show F - (m + 2) + 1 = F - (m + 1) by omega] at h
              refine .failure _ _ _ _ _ _ _ _ himp (ih rest.length ?_ rest rfl _ _ _ _ _ (by omega) ⟨e', h⟩)
              rw [← hlen, List.length_append, hl6]; omega
    exact gen _ ts rfl left d r b p hle
  · intro h
    induction h with
    | none d r b p =>
      exact ⟨_, .done _ _ _ (by simp [hillClimbing, roundStart])⟩
    | success m d r b p rest b' p' himp hr ih =>
      obtain ⟨e', h⟩ := ih hle
      refine ⟨e', (round_iff F td rd score _ d r (by omega) _ _ _ _ _ _).2 ⟨rest, rfl, ?_⟩⟩
      have e : roundEnd score (F - (m + 1)) d r b p = ⟨F - (m + 1), d, r, ⟨6, d, r, some b⟩, false⟩ := by
        simp [roundEnd, himp]
      rw [e, after_success F td rd score _ d r (by omega)]
      exact h
    | failure m d r b p rest b' p' himp hr ih =>
      obtain ⟨e', h⟩ := ih (by omega)
      refine ⟨e', (round_iff F td rd score _ d r (by omega) _ _ _ _ _ _).2 ⟨rest, rfl, ?_⟩⟩
      have e : roundEnd score (F - (m + 2)) d r b p = ⟨F - (m + 2), d, r, ⟨6, d, r, some b⟩, true⟩ := by
        simp [roundEnd, himp]
      rw [e, improve_of_not score b p _ himp, after_failure F td rd score _ d r (by omega), if_pos (by omega),
        show F - (m + 2) + 1 = F - (m + 1) by omega]
      exact h
    | last d r b p b' p' himp hb =>
      refine ⟨(hillClimbing F td rd).feedback
          ⟨F - 1 + 1, d / 2, r / 2, ⟨1, d / 2, r / 2, some b⟩, true⟩
          (ltN p (score ⟨b.x + d / 2, b.y, b.theta⟩)),
        (round_iff F td rd score _ d r (by omega) _ _ _ _ _ _).2 ⟨_, rfl, ?_⟩⟩
      have e : roundEnd score (F - 1) d r b p = ⟨F - 1, d, r, ⟨6, d, r, some b⟩, true⟩ := by
        simp [roundEnd, himp]
      rw [e, improve_of_not score b p _ himp, after_failure F td rd score _ d r (by omega), if_neg (by omega)]
      exact ⟨rfl, hb, rfl⟩

/-- C30: matching with the hill climbing enumerator, whatever its previous state, tests exactly the poses the
specification prescribes: rounds of all six single-axis neighbours of the best pose at the start of the round;
the same steps after a round that improved; halved steps after one that did not; the end after `F` rounds that
did not (with one extra test). -/
theorem hill_climbing_follows_rounds (F : Nat) (d r : K) (score : Pose K → Option K) (s : HCState K)
    (init : Pose K) (fuel : Nat) (e' : HCState K) (delta : Delta K) (prob : Option K) (events : List (Event K))
    (h : processScan (hillClimbing F d r) score fuel s init = some (e', delta, prob, events)) :
    ∃ tested best, Climb score F d r init (score init) tested best prob ∧ delta = best.sub init ∧
      events = .start init :: .test init (score init) :: .update init (score init) ::
        (announce score (score init) tested ++ [.finish delta prob]) := by
  obtain ⟨ts, e1, b', p', _, h2, h3⟩ := (processScan_iff _ _ _ _ _ _).1 h
  simp only [Prod.mk.injEq] at h3
  obtain ⟨_, rfl, rfl, rfl⟩ := h3
  have hs : (hillClimbing F d r).reset s = roundStart (F - F) d r := by
    simp [hillClimbing, HCState.resetRound, roundStart]
  rw [hs] at h2
  exact ⟨ts, b', (tests_iff_climb F d r score F d r (le_refl _) _ _ _ _ _).1 ⟨_, h2⟩, rfl, by simp⟩

/-- C30: the number of failed rounds is exactly `F`, and the total number of tests is `6·(F + S) + 1` where `S`
counts the improving rounds, each of which strictly increases the best score. -/
theorem climb_accounting (score : Pose K → Option K) (F : Nat) (d r : K) (b : Pose K) (p : Option K)
    (tested : List (Pose K)) (b' : Pose K) (p' : Option K) (hF : 0 < F)
    (h : Climb score F d r b p tested b' p') (V : Finset K) (hV : ∀ q v, score q = some v → v ∈ V)
    (hp : p = score b) :
    ∃ S, tested.length = 6 * (F + S) + 1 ∧ S ≤ (V.filter fun v => ltN p (some v) = true).card := by
  induction h with
  | none => omega
  | success F d r b p rest b' p' himp hr ih =>
    obtain ⟨hlt, heq⟩ := (improve_of_improves score b p (sixNeighbours b d r)).2 himp
    obtain ⟨S, h1, h2⟩ := ih (by omega) heq
    refine ⟨S + 1, ?_, ?_⟩
    · rw [List.length_append, h1]; simp [sixNeighbours]; omega
    · refine lt_of_le_of_lt h2 (Finset.card_lt_card ?_)
      rw [Finset.ssubset_iff_of_subset]
      · cases hv : (improve score (b, p) (sixNeighbours b d r)).2 with
        | none => rw [hv] at hlt; cases p <;> simp [ltN] at hlt
        | some v =>
          refine ⟨v, ?_, ?_⟩
          · rw [Finset.mem_filter]
            refine ⟨hV _ _ (by rw [← heq]; exact hv), by rw [← hv]; exact hlt⟩
          · rw [Finset.mem_filter]; simp [ltN]
      · intro v hv
        rw [Finset.mem_filter] at hv ⊢
        exact ⟨hv.1, ltN_trans hlt hv.2⟩
  | failure F d r b p rest b' p' himp hr ih =>
    obtain ⟨S, h1, h2⟩ := ih (by omega) hp
    refine ⟨S, ?_, h2⟩
    rw [List.length_append, h1]; simp [sixNeighbours]; omega
  | last d r b p b' p' himp hb => exact ⟨0, by simp [sixNeighbours], by simp⟩

/-- C30, termination: if the score takes finitely many values (as every function with values in `double`
does), every matching run ends, after at most `6·(F + |V|) + 1` tests besides the initial one. -/
theorem hill_climbing_terminates (F : Nat) (d r : K) (score : Pose K → Option K) (s : HCState K)
    (init : Pose K) (V : Finset K) (hV : ∀ q v, score q = some v → v ∈ V) :
    ∃ out, processScan (hillClimbing F d r) score (6 * (F + V.card) + 2) s init = some out := by
  have gen : ∀ (j left : Nat) (d r : K) (b : Pose K) (p : Option K), p = score b →
      (V.filter fun v => ltN p (some v) = true).card + left ≤ j →
      ∃ ts b' p', Climb score left d r b p ts b' p' ∧ ts.length ≤ 6 * j + 1 := by
    intro j
    induction j with
    | zero =>
      intro left d r b p _ hn
      have : left = 0 := by omega
      subst this
      exact ⟨[], b, p, .none _ _ _ _, by simp⟩
    | succ j ihj =>
      intro left d r b p hp hn
      rcases Nat.eq_zero_or_pos left with h0 | hpos
      · subst h0; exact ⟨[], b, p, .none _ _ _ _, by simp⟩
      · by_cases himp : Improves score p (sixNeighbours b d r)
        · obtain ⟨hlt, heq⟩ := (improve_of_improves score b p (sixNeighbours b d r)).2 himp
          have hcard : (V.filter fun v => ltN (improve score (b, p) (sixNeighbours b d r)).2 (some v) = true).card
              < (V.filter fun v => ltN p (some v) = true).card := by
            refine Finset.card_lt_card ?_
            rw [Finset.ssubset_iff_of_subset]
            · cases hv : (improve score (b, p) (sixNeighbours b d r)).2 with
              | none => rw [hv] at hlt; cases p <;> simp [ltN] at hlt
              | some v =>
                refine ⟨v, ?_, ?_⟩
                · rw [Finset.mem_filter]
                  exact ⟨hV _ _ (by rw [← heq]; exact hv), by rw [← hv]; exact hlt⟩
                · rw [Finset.mem_filter]; simp [ltN]
            · intro v hv
              rw [Finset.mem_filter] at hv ⊢
              exact ⟨hv.1, ltN_trans hlt hv.2⟩
          obtain ⟨ts, b', p', hc, hl⟩ := ihj left d r _ _ heq (by omega)
          obtain ⟨m, rfl⟩ : ∃ m, left = m + 1 := ⟨left - 1, by omega⟩
          refine ⟨_, b', p', .success _ _ _ _ _ _ _ _ himp hc, ?_⟩
          rw [List.length_append]; simp only [sixNeighbours, List.length_cons, List.length_nil]; omega
        · rcases Nat.lt_or_ge left 2 with h1 | h2
          · have : left = 1 := by omega
            subst this
            refine ⟨_, _, _, .last _ _ _ _ _ _ himp rfl, ?_⟩
            simp [sixNeighbours]
          · obtain ⟨m, rfl⟩ : ∃ m, left = m + 2 := ⟨left - 2, by omega⟩
            obtain ⟨ts, b', p', hc, hl⟩ := ihj (m + 1) (d / 2) (r / 2) b p hp (by omega)
            refine ⟨_, b', p', .failure _ _ _ _ _ _ _ _ himp hc, ?_⟩
            rw [List.length_append]; simp only [sixNeighbours, List.length_cons, List.length_nil]; omega
  obtain ⟨ts, b', p', hc, hl⟩ := gen _ F d r init (score init) rfl (le_refl _)
  obtain ⟨e', ht⟩ := (tests_iff_climb F d r score F d r (le_refl _) _ _ _ _ _).2 hc
  have hs : (hillClimbing F d r).reset s = roundStart (F - F) d r := by
    simp [hillClimbing, HCState.resetRound, roundStart]
  refine ⟨_, (processScan_iff _ _ _ _ _ _).2 ⟨ts, e', b', p', ?_, by rw [hs]; exact ht, rfl⟩⟩
  have : (V.filter fun v => ltN (score init) (some v) = true).card ≤ V.card := Finset.card_filter_le _ _
  omega

/-- C30, quality of the result: there is a pose `q` none of whose six neighbours at the finest step
`d / 2^(F-1)`, `r / 2^(F-1)` scores higher, and the returned score is that of `q` or higher. -/
theorem climb_local_optimum (score : Pose K → Option K) (F : Nat) (d r : K) (b : Pose K) (p : Option K)
    (tested : List (Pose K)) (b' : Pose K) (p' : Option K) (h : Climb score (F + 1) d r b p tested b' p')
    (hp : p = score b) :
    ∃ q, ¬ Improves score (score q) (sixNeighbours q (d / 2 ^ F) (r / 2 ^ F)) ∧
      (p' = score q ∨ ltN (score q) p' = true) ∧ p' = score b' := by
  generalize hF : F + 1 = F' at h
  induction h generalizing F with
  | none => omega
  | success m d r b p rest b' p' himp hr ih =>
    exact ih F ((improve_of_improves score b p (sixNeighbours b d r)).2 himp).2 hF
  | failure m d r b p rest b' p' himp hr ih =>
    obtain ⟨q, h1, h2⟩ := ih m hp rfl
    have : F = m + 1 := by omega
    subst this
    refine ⟨q, ?_, h2⟩
    rw [pow_succ', ← div_div, ← div_div]; exact h1
  | last d r b p b' p' himp hb =>
    have : F = 0 := by omega
    subst this
    refine ⟨b, by simpa [hp] using himp, ?_⟩
    rcases (improve_of_improves score b p [⟨b.x + d / 2, b.y, b.theta⟩]).1 with h | h
    · rw [h] at hb; simp only [Prod.mk.injEq] at hb
      obtain ⟨rfl, rfl⟩ := hb
      exact ⟨Or.inl hp, hp⟩
    · rw [← hb] at h
      exact ⟨Or.inr (hp ▸ h.1), h.2⟩

/-- Non-vacuity: a run over ℚ with an improving round, two failed rounds and the extra test. -/
example : ((processScan (hillClimbing 2 (1 : ℚ) 1) (fun q => some (if q.x = 1 then 1 else 0)) 100
    ⟨0, 0, 0, ⟨0, 0, 0, none⟩, false⟩ ⟨0, 0, 0⟩).map fun o => (o.2.1, o.2.2.1, (testedPoses o.2.2.2).length))
    = some (⟨1, 0, 0⟩, some 1, 1 + 6 * 3 + 1) := by decide +kernel

end Slam.ScanMatch
