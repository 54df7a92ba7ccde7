import Verif.Float.Round
import Verif.ScanMatch.BruteForce

/-!
# The brute force enumeration, stepped in `double`

`BruteForcePoseEnumerator` of src/core/scan_matchers/brute_force_scan_matcher.h adds the step to the current value again
and again; every addition is rounded by `r`.
-/

set_option autoImplicit false
set_option linter.unusedSectionVars false

namespace Slam.Float
open Slam.Poses Slam.ScanMatch

variable {K : Type*} [Field K] [LinearOrder K] [IsStrictOrderedRing K] [FloorRing K]

/-- `BruteForcePoseEnumerator`, brute_force_scan_matcher.h:24-54, additions rounded. -/
def bruteForceF (r : K → K) (p : BFParams K) : Enumerator K (BFState K) where
  hasNext s := decide (s.t ≤ p.toT)
  next s prev :=
    let base := s.base.getD prev
    (⟨r (base.x + s.x), r (base.y + s.y), r (base.theta + s.t)⟩, { s with base := some base })
  reset s := { s with x := p.fromX, y := p.fromY, t := p.fromT }
  feedback s _ :=
    if s.x < p.toX then { s with x := r (s.x + p.stepX) }
    else if s.y < p.toY then { s with x := p.fromX, y := r (s.y + p.stepY) }
    else { s with x := p.fromX, y := p.fromY, t := r (s.t + p.stepT) }

theorem bruteForce_exact (p : BFParams K) : bruteForceF id p = bruteForce p := rfl

/-! ## Specification -/

/-- Starting from `x`, repeating `next` as long as `go` holds passes through the values `l`, the last one being the first at
which `go` fails. -/
inductive Steps (next : K → K) (go : K → Prop) : K → List K → Prop
  | last {x : K} : ¬ go x → Steps next go x [x]
  | step {x : K} {l : List K} : go x → Steps next go (next x) l → Steps next go x (x :: l)

/-- The offsets tested, in order: `ts` outermost. -/
def product (xs ys ts : List K) : List (K × K × K) := ts.flatMap fun t => ys.flatMap fun y => xs.map fun x => (x, y, t)

/-- A pose moved by rounded additions. -/
def aroundF (r : K → K) (base : Pose K) (o : K × K × K) : Pose K :=
  ⟨r (base.x + o.1), r (base.y + o.2.1), r (base.theta + o.2.2)⟩

section
variable {r : K → K}

theorem Steps.ne_nil {next : K → K} {go : K → Prop} {x : K} {l : List K} (h : Steps next go x l) : l ≠ [] := by
  cases h <;> simp

theorem Steps.head {next : K → K} {go : K → Prop} {x : K} {l : List K} (h : Steps next go x l) : l.head? = some x := by
  cases h <;> rfl

/-! ## The state machine runs through the product -/

/-- The loop started in `e` tests exactly `ts`, whatever the scores. -/
def GoesF (r : K → K) (P : BFParams K) (score : Pose K → Option K) (e : BFState K) (ts : List (Pose K))
    (e' : BFState K) : Prop :=
  ∀ b p, ∃ b' p', Tests (bruteForceF r P) score e b p ts e' b' p'

theorem goesF_step (P : BFParams K) (score : Pose K → Option K) (base : Pose K) (x y t : K)
    (ts : List (Pose K)) (e' : BFState K) (ht : t ≤ P.toT)
    (h : GoesF r P score ((bruteForceF r P).feedback ⟨some base, x, y, t⟩ false) ts e') :
    GoesF r P score ⟨some base, x, y, t⟩ (aroundF r base (x, y, t) :: ts) e' := by
  intro b p
  have hn : (bruteForceF r P).hasNext ⟨some base, x, y, t⟩ = true := by simpa [bruteForceF] using ht
  by_cases ha : ltN p (score (aroundF r base (x, y, t))) = true
  · obtain ⟨b', p', h'⟩ := h (aroundF r base (x, y, t)) (score (aroundF r base (x, y, t)))
    exact ⟨b', p', .better (E := bruteForceF r P) _ _ _ _ _ _ _ hn ha h'⟩
  · obtain ⟨b', p', h'⟩ := h b p
    exact ⟨b', p', .worse (E := bruteForceF r P) _ _ _ _ _ _ _ hn (Bool.eq_false_iff.2 ha) h'⟩

theorem goesF_row (P : BFParams K) (score : Pose K → Option K) (base : Pose K) (y t : K) (ht : t ≤ P.toT)
    {x : K} {xs : List K} (hxs : Steps (fun v => r (v + P.stepX)) (· < P.toX) x xs) (rest : List (Pose K)) (e' : BFState K)
    (hrest : GoesF r P score (if y < P.toY then ⟨some base, P.fromX, r (y + P.stepY), t⟩
      else ⟨some base, P.fromX, P.fromY, r (t + P.stepT)⟩) rest e') :
    GoesF r P score ⟨some base, x, y, t⟩ (xs.map (fun x => aroundF r base (x, y, t)) ++ rest) e' := by
  induction hxs with
  | last h =>
    apply goesF_step P score base _ y t _ _ ht
    simp only [bruteForceF, h, if_false, List.map_nil, List.nil_append]
    exact hrest
  | step h _ ih =>
    apply goesF_step P score base _ y t _ _ ht
    simp only [bruteForceF, h, if_true]
    exact ih

theorem goesF_plane (P : BFParams K) (score : Pose K → Option K) (base : Pose K) (t : K) (ht : t ≤ P.toT)
    {xs : List K} (hxs : Steps (fun v => r (v + P.stepX)) (· < P.toX) P.fromX xs)
    {y : K} {ys : List K} (hys : Steps (fun v => r (v + P.stepY)) (· < P.toY) y ys) (rest : List (Pose K)) (e' : BFState K)
    (hrest : GoesF r P score ⟨some base, P.fromX, P.fromY, r (t + P.stepT)⟩ rest e') :
    GoesF r P score ⟨some base, P.fromX, y, t⟩
      (ys.flatMap (fun y => xs.map (fun x => aroundF r base (x, y, t))) ++ rest) e' := by
  induction hys with
  | last h =>
    rw [List.flatMap_cons, List.flatMap_nil, List.append_nil]
    apply goesF_row P score base _ t ht hxs
    rw [if_neg h]; exact hrest
  | step h _ ih =>
    rw [List.flatMap_cons, List.append_assoc]
    apply goesF_row P score base _ t ht hxs
    rw [if_pos h]; exact ih

theorem goesF_all (P : BFParams K) (score : Pose K → Option K) (base : Pose K)
    {xs : List K} (hxs : Steps (fun v => r (v + P.stepX)) (· < P.toX) P.fromX xs)
    {ys : List K} (hys : Steps (fun v => r (v + P.stepY)) (· < P.toY) P.fromY ys)
    {t : K} {ts : List K} (hts : Steps (fun v => r (v + P.stepT)) (· ≤ P.toT) t ts) :
    ∃ e', e'.base = some base ∧
      GoesF r P score ⟨some base, P.fromX, P.fromY, t⟩ ((product xs ys ts.dropLast).map (aroundF r base)) e' := by
  induction hts with
  | @last t h =>
    refine ⟨⟨some base, P.fromX, P.fromY, t⟩, rfl, ?_⟩
    intro b p
    exact ⟨b, p, .done _ _ _ (by simpa [bruteForceF] using h)⟩
  | @step t l h h' ih =>
    obtain ⟨e', he', hg⟩ := ih
    refine ⟨e', he', ?_⟩
    have e : (product xs ys (t :: l).dropLast).map (aroundF r base) =
        ys.flatMap (fun y => xs.map (fun x => aroundF r base (x, y, t))) ++ (product xs ys l.dropLast).map (aroundF r base) := by
      rw [List.dropLast_cons_of_ne_nil h'.ne_nil]
      simp [product, List.map_flatMap, Function.comp_def]
    rw [e]
    exact goesF_plane P score base t h hxs hys _ _ hg

/-- **C77, what is tested.** If repeated rounded addition leads from the beginning to the end of the three ranges, a
matching run ends and tests every combination of the values passed, in order, once, and nothing else. -/
theorem brute_force_rounded (P : BFParams K) (score : Pose K → Option K) (init : Pose K) (hT : P.fromT ≤ P.toT)
    {xs ys ts : List K} (hxs : Steps (fun v => r (v + P.stepX)) (· < P.toX) P.fromX xs)
    (hys : Steps (fun v => r (v + P.stepY)) (· < P.toY) P.fromY ys)
    (hts : Steps (fun v => r (v + P.stepT)) (· ≤ P.toT) P.fromT ts) :
    ∃ e' delta prob events fuel,
      processScan (bruteForceF r P) score fuel (BFState.init P) init = some (e', delta, prob, events) ∧
      testedPoses events = init :: (product xs ys ts.dropLast).map (aroundF r init) := by
  obtain ⟨e', he', hg⟩ := goesF_all P score init hxs hys hts
  obtain ⟨b', p', ht⟩ := hg init (score init)
  refine ⟨e', b'.sub init, p', .start init :: .test init (score init) :: .update init (score init) ::
        (announce score (score init) ((product xs ys ts.dropLast).map (aroundF r init)) ++ [.finish (b'.sub init) p']),
    ((product xs ys ts.dropLast).map (aroundF r init)).length + 1, ?_, ?_⟩
  · rw [processScan_iff]
    refine ⟨(product xs ys ts.dropLast).map (aroundF r init), e', b', p', by simp, ?_, by simp⟩
    have hr : (bruteForceF r P).reset (BFState.init P) = ⟨none, P.fromX, P.fromY, P.fromT⟩ := rfl
    rw [hr]
    generalize hl : (product xs ys ts.dropLast).map (aroundF r init) = l at ht
    cases ht with
    | done _ _ _ h => simp [bruteForceF] at h; exact absurd hT (not_le.2 h)
    | better _ _ _ ts _ _ _ h ha hr => exact .better (E := bruteForceF r P) ⟨none, _, _, _⟩ _ _ _ _ _ _ h ha hr
    | worse _ _ _ ts _ _ _ h ha hr => exact .worse (E := bruteForceF r P) ⟨none, _, _, _⟩ _ _ _ _ _ _ h ha hr
  · have ht : ∀ (ts : List (Pose K)) (p : Option K) (tl : List (Event K)),
        testedPoses (announce score p ts ++ tl) = ts ++ testedPoses tl := by
      intro ts
      induction ts with
      | nil => intro p tl; rfl
      | cons t ts ih =>
        intro p tl
        unfold announce
        split
        · have := ih (score t) tl
          simp only [testedPoses] at this
          simp [testedPoses, this]
        · have := ih p tl
          simp only [testedPoses] at this
          simp [testedPoses, this]
    have hx := ht ((product xs ys ts.dropLast).map (aroundF r init)) (score init) [.finish (b'.sub init) p']
    simp only [testedPoses] at hx ⊢
    simp only [List.filterMap_cons, hx]
    simp

/-! ## One axis -/

/-- The values passed so far. -/
structure Passed (a s d : K) (l : List K) : Prop where
  sorted : l.Pairwise (· < ·)
  near : ∀ (i : Nat) (h : i < l.length), |l[i] - (a + (i : K) * s)| ≤ (i : K) * d

/-- One rounded step: forward, by the step up to `d`. -/
theorem one_step (R : Nearest r) {k : ℤ} (hk : -1021 ≤ k) {s x : K} (hx : |x| + s ≤ 2 ^ k) (hs : 0 ≤ s) :
    |r (x + s) - (x + s)| ≤ 2 ^ (k - 54) := by
  refine R.err hk ?_
  refine (abs_add_le x s).trans ?_
  rwa [abs_of_nonneg hs]

theorem steps_exist (R : Nearest r) {k : ℤ} (hk : -1021 ≤ k) {s lo b : K} (hs : 2 ^ (k - 53) ≤ s)
    (hb : |b| + s ≤ 2 ^ k) (hlo : |lo| + s ≤ 2 ^ k) (go : K → Prop) [DecidablePred go] (hgo : ∀ x, go x → x ≤ b) :
    ∀ (n : Nat) (x : K), lo ≤ x → b - x ≤ (n : K) * (s - 2 ^ (k - 54)) → ∃ l, Steps (fun v => r (v + s)) go x l := by
  have hd := two_zpow_pos (K := K) (k - 54)
  have h2 : (2 : K) ^ (k - 53) = 2 * 2 ^ (k - 54) := by
    rw [show k - 53 = (k - 54) + 1 by ring, zpow_add_one₀ (by norm_num)]; ring
  have hs0 : 0 ≤ s := by linarith
  have move : ∀ x, lo ≤ x → x ≤ b → x + (s - 2 ^ (k - 54)) ≤ r (x + s) := by
    intro x h1 h2
    have hx : |x| ≤ max |lo| |b| := abs_le_max_abs_abs h1 h2
    have := one_step R hk (x := x) (s := s) (by rcases max_choice |lo| |b| with e | e <;> rw [e] at hx <;> linarith) hs0
    linarith [(abs_le.1 this).1]
  intro n
  induction n with
  | zero =>
    intro x hx h
    by_cases hg : go x
    · have hxb := hgo x hg
      have : x = b := by push_cast at h; linarith
      refine ⟨[x, r (x + s)], .step hg (.last ?_)⟩
      intro hg'
      have := hgo _ hg'
      linarith [move x hx hxb]
    · exact ⟨[x], .last hg⟩
  | succ n ih =>
    intro x hx h
    by_cases hg : go x
    · have hxb := hgo x hg
      have hm := move x hx hxb
      obtain ⟨l, hl⟩ := ih (r (x + s)) (by linarith) (by push_cast at h; linarith)
      exact ⟨x :: l, .step hg hl⟩
    · exact ⟨[x], .last hg⟩

theorem steps_unique {next : K → K} {go : K → Prop} {x : K} {l l' : List K} (h : Steps next go x l) (h' : Steps next go x l') :
    l = l' := by
  induction h generalizing l' with
  | last h => cases h' with
    | last _ => rfl
    | step g _ => exact absurd g h
  | step g _ ih => cases h' with
    | last g' => exact absurd g g'
    | step _ h'' => rw [ih h'']

/-- The `i`-th value, its successor, and the condition. -/
theorem steps_get {next : K → K} {go : K → Prop} {x : K} {l : List K} (h : Steps next go x l) :
    (∀ h0 : 0 < l.length, l[0] = x) ∧
    (∀ (i : Nat) (hi : i + 1 < l.length), go l[i] ∧ l[i + 1] = next l[i]) ∧
    (∀ (hi : l.length - 1 < l.length), ¬ go l[l.length - 1]) := by
  induction h with
  | last h => exact ⟨fun _ => rfl, fun i hi => by simp at hi, fun _ => h⟩
  | @step x l g h ih =>
    obtain ⟨i1, i2, i3⟩ := ih
    have hl : 0 < l.length := List.length_pos_iff.2 h.ne_nil
    refine ⟨fun _ => rfl, ?_, ?_⟩
    · intro i hi
      cases i with
      | zero => exact ⟨g, by simpa using i1 hl⟩
      | succ i => simpa using i2 i (by simpa using hi)
    · intro hi
      have := i3 (by omega)
      have e : (x :: l).length - 1 = (l.length - 1) + 1 := by simp; omega
      simp only [e, List.getElem_cons_succ]
      exact this

/-- **C77, one axis.** For a range whose values and step together stay below 2^k and a step of at least 2^(k-53), the
repeated addition ends; the values passed increase strictly, the `i`-th is within `i`·2^(k-54) of the exact one, the last
one is the first to reach (or, for the angle, to pass) the limit, and there are as many of them as there would be
without rounding up to the effect of that error. -/
theorem axis_rounded (R : Nearest r) {k : ℤ} (hk : -1021 ≤ k) {a b s : K} (hs : 2 ^ (k - 53) ≤ s) (hab : a ≤ b)
    (hb : |b| + s ≤ 2 ^ k) (ha : |a| + s ≤ 2 ^ k) (go : K → Prop) [DecidablePred go] (hgo : ∀ x, go x → x ≤ b)
    (hgo' : ∀ x, x < b → go x) :
    ∃ l, Steps (fun v => r (v + s)) go a l ∧ Passed a s (2 ^ (k - 54)) l ∧
      b - a ≤ ((l.length : K) - 1) * (s + 2 ^ (k - 54)) ∧ ((l.length : K) - 2) * (s - 2 ^ (k - 54)) ≤ b - a := by
  have hd := two_zpow_pos (K := K) (k - 54)
  have h2 : (2 : K) ^ (k - 53) = 2 * 2 ^ (k - 54) := by
    rw [show k - 53 = (k - 54) + 1 by ring, zpow_add_one₀ (by norm_num)]; ring
  have hs0 : 0 ≤ s := by linarith
  have hpos : 0 < s - 2 ^ (k - 54) := by linarith
  have move : ∀ x, a ≤ x → x ≤ b → |r (x + s) - (x + s)| ≤ 2 ^ (k - 54) := by
    intro x h1 h2
    have hx : |x| ≤ max |a| |b| := abs_le_max_abs_abs h1 h2
    exact one_step R hk (x := x) (s := s) (by rcases max_choice |a| |b| with e | e <;> rw [e] at hx <;> linarith) hs0
  obtain ⟨n, hn⟩ : ∃ n : Nat, (b - a) / (s - 2 ^ (k - 54)) ≤ (n : K) := ⟨_, Nat.le_ceil _⟩
  rw [div_le_iff₀ hpos] at hn
  obtain ⟨l, hl⟩ := steps_exist R hk hs hb ha go hgo n a le_rfl hn
  obtain ⟨g1, g2, g3⟩ := steps_get hl
  have hlen : 0 < l.length := List.length_pos_iff.2 hl.ne_nil
  -- lower bound and error of the values
  have key : ∀ (i : Nat) (hi : i < l.length), a ≤ l[i] ∧ |l[i] - (a + (i : K) * s)| ≤ (i : K) * 2 ^ (k - 54) := by
    intro i
    induction i with
    | zero => intro hi; rw [g1 hi]; simp
    | succ i ih =>
      intro hi
      obtain ⟨h1, h2'⟩ := ih (by omega)
      obtain ⟨h3, h4⟩ := g2 i hi
      have hm := abs_le.1 (move _ h1 (hgo _ h3))
      have he := abs_le.1 h2'
      rw [h4]
      refine ⟨by linarith, ?_⟩
      rw [abs_le]; push_cast
      constructor <;> linarith
  have hinc : ∀ (i : Nat) (hi : i + 1 < l.length), l[i] < l[i + 1] := by
    intro i hi
    obtain ⟨h3, h4⟩ := g2 i hi
    have hm := abs_le.1 (move _ (key i (by omega)).1 (hgo _ h3))
    rw [h4]; linarith
  refine ⟨l, hl, ⟨?_, fun i hi => (key i hi).2⟩, ?_, ?_⟩
  · rw [← List.isChain_iff_pairwise, List.isChain_iff_getElem]
    exact fun i hi => hinc i hi
  · have hlast := g3 (by omega)
    have h1 : b ≤ l[l.length - 1] := not_lt.1 (fun h => hlast (hgo' _ h))
    have h2' := (abs_le.1 (key (l.length - 1) (by omega)).2).2
    rw [Nat.cast_pred hlen] at h2'
    nlinarith
  · rcases Nat.lt_or_ge 1 l.length with h | h
    · obtain ⟨h3, -⟩ := g2 (l.length - 2) (by omega)
      have h1 := hgo _ h3
      have h2' := (abs_le.1 (key (l.length - 2) (by omega)).2).1
      rw [Nat.cast_sub (by omega : 2 ≤ l.length)] at h2'
      push_cast at h2'
      nlinarith
    · have e : l.length = 1 := by omega
      rw [e]; push_cast
      nlinarith

/-- **C77, the opposite.** If the step vanishes in the rounding at the beginning of a range that is not yet exhausted, the
matching run never ends. -/
theorem brute_force_stuck (P : BFParams K) (score : Pose K → Option K) (init : Pose K) (hT : P.fromT ≤ P.toT)
    (hX : P.fromX < P.toX) (hr : r (P.fromX + P.stepX) = P.fromX) (fuel : Nat) :
    processScan (bruteForceF r P) score fuel (BFState.init P) init = none := by
  have key : ∀ (fuel : Nat) (base : Option (Pose K)) (R : Result K (BFState K)), R.enum = ⟨base, P.fromX, P.fromY, P.fromT⟩ →
      loop (bruteForceF r P) score fuel R = none := by
    intro fuel
    induction fuel with
    | zero => intro base R _; rfl
    | succ n ih =>
      intro base R hR
      unfold loop
      have hn : (bruteForceF r P).hasNext R.enum = true := by rw [hR]; simpa [bruteForceF] using hT
      rw [if_pos hn]
      have hfb : ∀ q b, (bruteForceF r P).feedback ((bruteForceF r P).next R.enum q).2 b =
          ⟨some (base.getD q), P.fromX, P.fromY, P.fromT⟩ := by
        intro q b
        rw [hR]
        simp only [bruteForceF, hX, if_true, hr]
      simp only [hfb]
      split
      · exact ih _ _ rfl
      · exact ih _ _ rfl
  unfold processScan
  simp only []
  rw [key fuel none _ rfl]; rfl

end

/-! ## Concrete cases -/

theorem steps_of_eval {next : K → K} {go : K → Prop} [DecidablePred go] :
    ∀ (n : Nat) (x : K), (∀ i < n, go (next^[i] x)) → ¬ go (next^[n] x) →
      Steps next go x ((List.range (n + 1)).map fun i => next^[i] x) := by
  intro n
  induction n with
  | zero => intro x _ h; exact .last h
  | succ n ih =>
    intro x h h'
    rw [List.range_succ_eq_map, List.map_cons, List.map_map]
    exact .step (h 0 (by omega)) (ih (next x) (fun i hi => h (i + 1) (by omega)) h')

/-- From 0 to 0.8 by 0.1: without rounding nine candidates, the last one being 0.8; in `double` the eighth sum is 0.7999…,
so there is a tenth candidate, 0.8999…, outside the range. -/
theorem extra_candidate_counterexample :
    (∃ l, Steps (fun v => v + rne (1 / 10 : ℚ)) (· < rne (8 / 10 : ℚ)) 0 l ∧ l.length = 9 ∧ ∀ v ∈ l, v ≤ rne (8 / 10)) ∧
    ∃ l, Steps (fun v => rne (v + rne (1 / 10 : ℚ))) (· < rne (8 / 10 : ℚ)) 0 l ∧ l.length = 10 ∧
      ∃ v ∈ l, rne (8 / 10 : ℚ) + 9 / 100 < v := by
  constructor
  · refine ⟨_, steps_of_eval 8 0 (by decide +kernel) (by decide +kernel), by simp, by decide +kernel⟩
  · refine ⟨_, steps_of_eval 9 0 (by decide +kernel) (by decide +kernel), by simp, ?_⟩
    refine ⟨(fun v => rne (v + rne (1 / 10 : ℚ)))^[9] 0, List.mem_map.2 ⟨9, by simp, rfl⟩, by decide +kernel⟩

/-- Angles from 0 to 0.3 by 0.1: the limit itself is not tested, the third sum is 0.30000000000000004. -/
theorem missed_limit_counterexample :
    ∃ l, Steps (fun v => rne (v + rne (1 / 10 : ℚ))) (· ≤ rne (3 / 10 : ℚ)) 0 l ∧ l.dropLast.length = 3 := by
  exact ⟨_, steps_of_eval 3 0 (by decide +kernel) (by decide +kernel), by simp⟩

/-- Not vacuous: a search within ±0.5 by steps of 1/8. -/
example : ∃ l, Steps (fun v => rne (v + 1 / 8 : ℚ)) (· < 1 / 2) (-1 / 2) l ∧ Passed (-1 / 2) (1 / 8) (2 ^ ((0 : ℤ) - 54)) l := by
  obtain ⟨l, h1, h2, -⟩ := axis_rounded (K := ℚ) rne_nearest (k := 0) (a := -1 / 2) (b := 1 / 2) (s := 1 / 8) (by norm_num)
    (by norm_num) (by norm_num) (by norm_num [abs_of_pos]) (by norm_num [abs_of_neg]) (· < 1 / 2) (fun _ h => h.le) (fun _ h => h)
  exact ⟨l, h1, h2⟩

/-- Not vacuous: a step that vanishes. -/
example : rne ((2 : ℚ) ^ 54 + 1) = 2 ^ 54 := by decide +kernel

end Slam.Float
