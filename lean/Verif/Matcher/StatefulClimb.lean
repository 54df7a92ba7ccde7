import Verif.Matcher.Stateful

/-!
# Which poses hill climbing tests, for a score that remembers

As `ScanMatch.Climb` (property C30), with the scores recorded in the tests: the same pose may score differently when it is
tested again.
-/

set_option autoImplicit false
set_option linter.unusedSectionVars false

namespace Slam.Matcher
open Slam.ScanMatch Slam.Poses

section
variable {K T : Type} [Field K] [LinearOrder K]

/-! ## Specification -/

/-- The best of a pose and some tests: a test replaces the best so far iff it scored higher. -/
def bestOf (bp : Pose K × Option K) (tests : List (Pose K × Option K)) : Pose K × Option K :=
  tests.foldl (fun bp q => if ltN bp.2 q.2 then q else bp) bp

/-- Some test scored higher. -/
def Better (p : Option K) (tests : List (Pose K × Option K)) : Prop := ∃ q ∈ tests, ltN p q.2 = true

/-- The tests of hill climbing with `F` failed rounds left and step sizes `d`, `r`, starting at pose `b` of score `p`. -/
inductive ClimbT : Nat → K → K → Pose K → Option K → List (Pose K × Option K) → Prop
  /-- nothing is tested when no failures are allowed -/
  | none (d r : K) (b : Pose K) (p : Option K) : ClimbT 0 d r b p []
  /-- a round that improves: same steps, from the best pose found -/
  | success (F : Nat) (d r : K) (b : Pose K) (p : Option K) (round rest : List (Pose K × Option K))
      (hs : round.map Prod.fst = sixNeighbours b d r) (h : Better p round)
      (hr : ClimbT (F + 1) d r (bestOf (b, p) round).1 (bestOf (b, p) round).2 rest) : ClimbT (F + 1) d r b p (round ++ rest)
  /-- a failed round, not the last one allowed: steps are halved -/
  | failure (F : Nat) (d r : K) (b : Pose K) (p : Option K) (round rest : List (Pose K × Option K))
      (hs : round.map Prod.fst = sixNeighbours b d r) (h : ¬ Better p round)
      (hr : ClimbT (F + 1) (d / 2) (r / 2) b p rest) : ClimbT (F + 2) d r b p (round ++ rest)
  /-- the last allowed failed round: one more pose is tested, then the search stops -/
  | last (d r : K) (b : Pose K) (p s : Option K) (round : List (Pose K × Option K))
      (hs : round.map Prod.fst = sixNeighbours b d r) (h : ¬ Better p round) :
      ClimbT 1 d r b p (round ++ [(⟨b.x + d / 2, b.y, b.theta⟩, s)])

end

/-! ## Proofs -/

section
variable {K S T : Type} [Field K] [LinearOrder K] [IsStrictOrderedRing K]

/-- One iteration of the loop. -/
theorem loopS_step {E : Enumerator K S} {score : T → Pose K → Option (Option K × T)} {fuel : Nat} {t : T} {r : Result K S}
    {out : T × Result K S} (h : loopS E score (fuel + 1) t r = some out) (hn : E.hasNext r.enum = true) :
    ∃ s t1 r1, r1.enum = E.feedback (E.next r.enum r.best).2 (ltN r.prob s) ∧
      (r1.best, r1.prob) = (if ltN r.prob s then ((E.next r.enum r.best).1, s) else (r.best, r.prob)) ∧
      testsOf r1.events = testsOf r.events ++ [((E.next r.enum r.best).1, s)] ∧ loopS E score fuel t1 r1 = some out := by
  unfold loopS at h
  rw [if_pos hn, Option.bind_eq_some_iff] at h
  obtain ⟨⟨s, t1⟩, -, h2⟩ := h
  by_cases ha : ltN r.prob s = true
  · simp only [ha, if_true] at h2
    exact ⟨s, t1, _, by rw [ha], by rw [if_pos ha], by rw [testsOf_append]; rfl, h2⟩
  · simp only [ha] at h2
    exact ⟨s, t1, _, by rw [Bool.eq_false_iff.2 ha], by rw [if_neg ha], by rw [testsOf_append]; rfl, h2⟩

/-- The loop depends on what its state answers only. -/
theorem loopS_congr {E : Enumerator K S} {score : T → Pose K → Option (Option K × T)} (fuel : Nat) (t : T) (a b : S) (p : Pose K)
    (s : Option K) (es : List (Event K)) (ha : E.hasNext a = true) (hb : E.hasNext b = true) (hn : E.next a p = E.next b p) :
    loopS E score fuel t ⟨a, p, s, es⟩ = loopS E score fuel t ⟨b, p, s, es⟩ := by
  cases fuel with
  | zero => rfl
  | succ fuel =>
    unfold loopS
    simp only [ha, hb, if_true, hn]

/-- The state within a round. -/
def inRound (f : Nat) (d r : K) (b : Pose K) (k : Nat) (flag : Bool) : HCState K := ⟨f, d, r, ⟨k, d, r, some b⟩, flag⟩

theorem next_inRound (F f : Nat) (d0 r0 d r : K) (b p : Pose K) (k : Nat) (flag : Bool) (hk : k < 6) :
    ∃ q, (sixNeighbours b d r)[k]? = some q ∧
      (hillClimbing F d0 r0).next (inRound f d r b k flag) p = (q, inRound f d r b (k + 1) flag) := by
  match k, hk with
  | 0, _ => exact ⟨_, rfl, by simp [hillClimbing, inRound, D1State.next]⟩
  | 1, _ => exact ⟨_, rfl, by simp [hillClimbing, inRound, D1State.next, sub_eq_add_neg]⟩
  | 2, _ => exact ⟨_, rfl, by simp [hillClimbing, inRound, D1State.next]⟩
  | 3, _ => exact ⟨_, rfl, by simp [hillClimbing, inRound, D1State.next, sub_eq_add_neg]⟩
  | 4, _ => exact ⟨_, rfl, by simp [hillClimbing, inRound, D1State.next]⟩
  | 5, _ => exact ⟨_, rfl, by simp [hillClimbing, inRound, D1State.next, sub_eq_add_neg]⟩

/-- The rest of a round. -/
theorem round_spec (F f : Nat) (hf : f < F) (d0 r0 d r : K) (b : Pose K) (score : T → Pose K → Option (Option K × T)) (m : Nat) :
    ∀ (k fuel : Nat) (t : T) (flag : Bool) (res : Result K (HCState K)) (out : T × Result K (HCState K)), k + m = 6 →
      res.enum = inRound f d r b k flag → loopS (hillClimbing F d0 r0) score fuel t res = some out →
      ∃ ts fuel' t' res' flag', fuel' + m = fuel ∧ ts.map Prod.fst = (sixNeighbours b d r).drop k ∧ res'.enum = inRound f d r b 6 flag' ∧
        (flag' = true ↔ flag = true ∧ ¬ Better res.prob ts) ∧ (res'.best, res'.prob) = bestOf (res.best, res.prob) ts ∧
        testsOf res'.events = testsOf res.events ++ ts ∧ loopS (hillClimbing F d0 r0) score fuel' t' res' = some out := by
  induction m with
  | zero =>
    intro k fuel t flag res out hk he h
    have : k = 6 := by omega
    subst this
    refine ⟨[], fuel, t, res, flag, rfl, rfl, he, ?_, rfl, by simp, h⟩
    simp [Better]
  | succ m ih =>
    intro k fuel t flag res out hk he h
    have hk6 : k < 6 := by omega
    obtain ⟨q, hq1, hq2⟩ := next_inRound F f d0 r0 d r b res.best k flag hk6
    cases fuel with
    | zero => simp [loopS] at h
    | succ fuel =>
      obtain ⟨s, t1, r1, e1, e2, e3, e4⟩ := loopS_step h (by simp [hillClimbing, he, inRound, hf])
      rw [he, hq2] at e1 e2 e3
      have e1' : r1.enum = inRound f d r b (k + 1) (flag && !ltN res.prob s) := e1
      obtain ⟨ts, fuel', t', res', flag', g1, g2, g3, g4, g5, g6, g7⟩ := ih (k + 1) fuel t1 _ r1 out (by omega) e1' e4
      refine ⟨(q, s) :: ts, fuel', t', res', flag', by omega, ?_, g3, ?_, ?_, ?_, g7⟩
      · rw [List.map_cons, g2]
        obtain ⟨hlt, hq⟩ := List.getElem?_eq_some_iff.1 hq1
        rw [List.drop_eq_getElem_cons hlt, hq]
      · rw [g4]
        by_cases ha : ltN res.prob s = true
        · simp [ha, Better]
        · have hp : r1.prob = res.prob := by
            rw [if_neg ha, Prod.mk.injEq] at e2
            exact e2.2
          rw [hp]
          simp [ha, Better]
      · rw [g5, e2]
        rfl
      · rw [g6, e3, List.append_assoc]; rfl

/-- The loop from the start of a round on. -/
theorem climb_loop (F : Nat) (d0 r0 : K) (score : T → Pose K → Option (Option K × T)) (fuel : Nat) :
    ∀ (f : Nat) (d r : K) (t : T) (res : Result K (HCState K)) (out : T × Result K (HCState K)), f ≤ F →
      res.enum = ⟨f, d, r, ⟨0, d, r, none⟩, true⟩ → loopS (hillClimbing F d0 r0) score fuel t res = some out →
      ∃ tests, testsOf out.2.events = testsOf res.events ++ tests ∧ ClimbT (F - f) d r res.best res.prob tests := by
  induction fuel using Nat.strong_induction_on with
  | _ fuel ih =>
    intro f d r t res out hfF he h
    by_cases hlt : f < F
    · obtain ⟨enum, best, prob, events⟩ := res
      simp only at he
      subst he
      rw [loopS_congr fuel t _ (inRound f d r best 0 true) best prob events (by simp [hillClimbing, hlt])
        (by simp [hillClimbing, inRound, hlt]) (by simp [hillClimbing, inRound, D1State.next])] at h
      obtain ⟨ts, fuel', t', res', flag', g1, g2, g3, g4, g5, g6, g7⟩ :=
        round_spec F f hlt d0 r0 d r best score 6 0 fuel t true _ out rfl rfl h
      rw [List.drop_zero] at g2
      simp only [true_and] at g4
      obtain ⟨enum', best', prob', events'⟩ := res'
      simp only at g3 g5 g6
      rw [Prod.ext_iff] at g5
      obtain ⟨g5a, g5b⟩ := g5
      simp only at g5a g5b
      subst g3
      have nobetter : ¬ Better prob ts → bestOf (best, prob) ts = (best, prob) := by
        intro hn
        unfold bestOf
        have : ∀ (l : List (Pose K × Option K)), ¬ Better prob l →
            l.foldl (fun bp q => if ltN bp.2 q.2 then q else bp) (best, prob) = (best, prob) := by
          intro l
          induction l with
          | nil => intro _; rfl
          | cons q l ihl =>
            intro hn
            rw [List.foldl_cons]
            have h1 : ¬ ltN prob q.2 = true := fun hc => hn ⟨q, by simp, hc⟩
            rw [if_neg h1]
            exact ihl fun ⟨x, hx, hc⟩ => hn ⟨x, by simp [hx], hc⟩
        exact this ts hn
      cases flag' with
      | false =>
        have hb : Better prob ts := by
          by_contra hc
          have := g4.2 hc
          simp at this
        rw [loopS_congr fuel' t' _ ⟨f, d, r, ⟨0, d, r, none⟩, true⟩ best' prob' events' (by simp [hillClimbing, inRound, hlt])
          (by simp [hillClimbing, hlt]) (by simp [hillClimbing, inRound, HCState.resetRound])] at g7
        obtain ⟨tests, k1, k2⟩ := ih fuel' (by omega) f d r t' _ out hfF rfl g7
        refine ⟨ts ++ tests, by rw [k1]; simp only [g6]; rw [List.append_assoc], ?_⟩
        obtain ⟨n, hn⟩ : ∃ n, F - f = n + 1 := ⟨F - f - 1, by omega⟩
        rw [hn] at k2 ⊢
        simp only at k2
        rw [g5a, g5b] at k2
        exact .success n d r best prob ts tests g2 hb k2
      | true =>
        have hb : ¬ Better prob ts := g4.1 rfl
        rw [nobetter hb] at g5a g5b
        simp only at g5a g5b
        subst g5a g5b
        by_cases hl : f + 1 < F
        · rw [loopS_congr fuel' t' _ ⟨f + 1, d / 2, r / 2, ⟨0, d / 2, r / 2, none⟩, true⟩ best' prob' events'
            (by simp [hillClimbing, inRound, hlt]) (by simp [hillClimbing, hl])
            (by simp [hillClimbing, inRound, HCState.resetRound, div_eq_mul_inv])] at g7
          obtain ⟨tests, k1, k2⟩ := ih fuel' (by omega) (f + 1) (d / 2) (r / 2) t' _ out hl.le rfl g7
          refine ⟨ts ++ tests, by rw [k1]; simp only [g6]; rw [List.append_assoc], ?_⟩
          obtain ⟨n, hn⟩ : ∃ n, F - f = n + 2 := ⟨F - f - 2, by omega⟩
          have hn' : F - (f + 1) = n + 1 := by omega
          rw [hn'] at k2
          rw [hn]
          exact .failure n d r best' prob' ts tests g2 hb k2
        · have hF : F - f = 1 := by omega
          cases fuel' with
          | zero => simp [loopS] at g7
          | succ fuel' =>
            obtain ⟨s, t1, r1, e1, e2, e3, e4⟩ := loopS_step g7 (by simp [hillClimbing, inRound, hlt])
            have hp : ((hillClimbing F d0 r0).next (inRound f d r best' 6 true) best').1 =
                ⟨best'.x + d / 2, best'.y, best'.theta⟩ := by
              simp [hillClimbing, inRound, HCState.resetRound, D1State.next, div_eq_mul_inv]
            have hstop : (hillClimbing F d0 r0).hasNext r1.enum = false := by
              rw [e1]
              simp only [hillClimbing, inRound, HCState.resetRound]
              simp
              omega
            simp only [hp] at e3
            cases fuel' with
            | zero => simp [loopS] at e4
            | succ fuel' =>
              unfold loopS at e4
              rw [if_neg (by rw [hstop]; simp), Option.some.injEq] at e4
              subst e4
              refine ⟨ts ++ [(⟨best'.x + d / 2, best'.y, best'.theta⟩, s)], ?_, ?_⟩
              · rw [e3]
                simp only [g6]
                rw [List.append_assoc]
              · rw [hF]
                exact .last d r best' prob' s ts g2 hb
    · have hfe : f = F := by omega
      cases fuel with
      | zero => simp [loopS] at h
      | succ fuel =>
        unfold loopS at h
        rw [if_neg (by simp [hillClimbing, he, hfe]), Option.some.injEq] at h
        subst h
        refine ⟨[], by simp, ?_⟩
        rw [hfe, Nat.sub_self]
        exact .none _ _ _ _

/-- **Which poses are tested**: the initial one, then those of the rounds of hill climbing. -/
theorem searchS_climb {F : Nat} {d r : K} {score : T → Pose K → Option (Option K × T)} {fuel : Nat} {t : T} {e : HCState K}
    {init : Pose K} {t' : T} {e' : HCState K} {delta : Delta K} {prob : Option K} {events : List (Event K)}
    (h : searchS (hillClimbing F d r) score fuel t e init = some (t', e', delta, prob, events)) :
    ∃ s0 rest, testsOf events = (init, s0) :: rest ∧ ClimbT F d r init s0 rest := by
  unfold searchS at h
  rw [Option.bind_eq_some_iff] at h
  obtain ⟨⟨s0, t1⟩, h1, h2⟩ := h
  rw [Option.map_eq_some_iff] at h2
  obtain ⟨⟨t2, res⟩, h2, h3⟩ := h2
  simp only [Prod.mk.injEq] at h3
  obtain ⟨rfl, rfl, rfl, rfl, rfl⟩ := h3
  obtain ⟨tests, k1, k2⟩ := climb_loop F d r score fuel 0 d r t1 _ _ (Nat.zero_le _) rfl h2
  refine ⟨s0, tests, ?_, by simpa using k2⟩
  rw [testsOf_append, k1]
  simp [testsOf]

end

end Slam.Matcher
