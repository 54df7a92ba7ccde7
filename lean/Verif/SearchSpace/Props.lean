import Verif.SearchSpace.Model
import Verif.PlainMap.Props
import Verif.ScanMatch.BruteForce

/-! # C82: the search space map shows the scores -/

set_option autoImplicit false
set_option linter.unusedSectionVars false

namespace Slam.SearchSpace
open Slam.Grid Slam.PlainMap Slam.ScanMatch

variable {K : Type} [Field K] [LinearOrder K] [IsStrictOrderedRing K] [FloorRing K]

/-! ## Specification -/

/-- The position of the pose is in the half-open square of cell `c` on a map with cells of size `res`. -/
def InCell (res : K) (p : Poses.Pose K) (c : Coord) : Prop :=
  ((c.x : K) * res ≤ p.x ∧ p.x < ((c.x : K) + 1) * res) ∧ ((c.y : K) * res ≤ p.y ∧ p.y < ((c.y : K) + 1) * res)

instance (res : K) (p : Poses.Pose K) (c : Coord) : Decidable (InCell res p c) := by unfold InCell; infer_instance

/-- The candidate in column `i` and row `j` of the window around `init`, at angle `t` off the initial one. -/
def candidate (res half : K) (init : Poses.Pose K) (t : K) (i j : Nat) : Poses.Pose K :=
  ⟨init.x + (-half + (i : K) * res), init.y + (-half + (j : K) * res), init.theta + t⟩

/-! ## Proofs -/

theorem inCell_iff {res : K} (hr : 0 < res) (p : Poses.Pose K) (c : Coord) :
    InCell res p c ↔ worldToCell res ⟨p.x, p.y⟩ = c := by
  unfold InCell worldToCell
  rw [← le_div_iff₀ hr, ← div_lt_iff₀ hr, ← le_div_iff₀ hr, ← div_lt_iff₀ hr, ← Int.floor_eq_iff, ← Int.floor_eq_iff]
  cases c
  simp

/-- The map operations a list of notifications amounts to. -/
def opsOf (res : K) (es : List (Event K)) : List (Op (Occ K) (Aoo K)) :=
  es.filterMap fun e => match e with
    | .test p s => some (.update (worldToCell res ⟨p.x, p.y⟩) ⟨true, ⟨s, 0⟩⟩)
    | _ => none

theorem observe_eq (rate : Nat → ℚ) (es : List (Event K)) (b : Builder K) :
    b.observe rate es =
      (runUnbounded rate lastWriteWins b.map (opsOf b.resolution es)).map fun m => { b with map := m } := by
  induction es generalizing b with
  | nil => rfl
  | cons e es ih =>
    cases e with
    | test p s =>
      simp only [Builder.observe, Builder.notify, Builder.onScanTest, opsOf, List.filterMap_cons, runUnbounded]
      cases h : stepUnbounded rate lastWriteWins b.map (.update (worldToCell b.resolution ⟨p.x, p.y⟩) ⟨true, ⟨s, 0⟩⟩) with
      | none => rfl
      | some m =>
        simp only [Option.map_some, Option.bind_some]
        rw [ih]; rfl
    | start p => exact ih b
    | update p s => exact ih b
    | finish d s => exact ih b

theorem specRun_append {C O : Type} (upd : C → O → C) (f : Coord → C) (a b : List (Op C O)) :
    specRun upd f (a ++ b) = specRun upd (specRun upd f a) b := by
  simp [specRun, List.foldl_append]

theorem opsOf_quiet {res : K} (hr : 0 < res) (es : List (Event K)) (c : Coord)
    (h : ∀ p s, Event.test p s ∈ es → ¬ InCell res p c) (f : Coord → Occ K) :
    specRun lastWriteWins f (opsOf res es) c = f c := by
  induction es generalizing f with
  | nil => rfl
  | cons e es ih =>
    have ih := fun f => ih (fun p s hm => h p s (List.mem_cons_of_mem _ hm)) f
    cases e with
    | test p s =>
      have h1 := h p s (List.mem_cons_self ..)
      rw [inCell_iff hr] at h1
      have : opsOf res (Event.test p s :: es) =
          .update (worldToCell res ⟨p.x, p.y⟩) ⟨true, ⟨s, 0⟩⟩ :: opsOf res es := rfl
      rw [this, show specRun lastWriteWins f (_ :: opsOf res es) = specRun lastWriteWins (specStep lastWriteWins f _) (opsOf res es) from rfl,
        ih]
      simp only [specStep]
      rw [if_neg (fun e => h1 e.symm)]
    | start p => exact ih f
    | update p s => exact ih f
    | finish d s => exact ih f

/-- C82, the map after any notifications from any matcher: never undefined behaviour, and each cell shows the score of
the last tested pose whose position is in that cell (whatever its angle; NaN is shown as NaN), or 0.5 if there is none. -/
theorem search_space_shows_last_score (rate : Nat → ℚ) {res : K} (hr : 0 < res) (es : List (Event K)) :
    ∃ b, (Builder.create res).observe rate es = some b ∧ ∀ c,
      (∀ pre p s post, es = pre ++ Event.test p s :: post → InCell res p c →
        (∀ q v, Event.test q v ∈ post → ¬ InCell res q c) → b.map.readUnbounded c = some ⟨s, 0⟩) ∧
      ((∀ q v, Event.test q v ∈ es → ¬ InCell res q c) → b.map.readUnbounded c = some ⟨some (1 / 2), 0⟩) := by
  obtain ⟨m, hm, hread⟩ := unbounded_plain_map_refines rate lastWriteWins 100 100 (freshCell : Occ K) (opsOf res es)
  refine ⟨⟨m, res⟩, ?_, ?_⟩
  · rw [observe_eq]
    simp only [Builder.create]
    rw [hm]; rfl
  intro c
  refine ⟨?_, ?_⟩
  · rintro pre p s post rfl hp hpost
    rw [hread]
    have h1 : opsOf res (pre ++ Event.test p s :: post) =
        opsOf res pre ++ (.update (worldToCell res ⟨p.x, p.y⟩) ⟨true, ⟨s, 0⟩⟩ :: opsOf res post) := by
      simp [opsOf]
    rw [h1, specRun_append]
    rw [show ∀ f, specRun lastWriteWins f (Op.update (worldToCell res ⟨p.x, p.y⟩) ⟨true, ⟨s, 0⟩⟩ :: opsOf res post)
      = specRun lastWriteWins (specStep lastWriteWins f _) (opsOf res post) from fun _ => rfl, opsOf_quiet hr post c hpost]
    rw [inCell_iff hr] at hp
    simp [specStep, hp, lastWriteWins]
  · intro h
    rw [hread, opsOf_quiet hr es c h]; rfl

theorem last_occurrence {α : Type} (l : List α) (a : α) (h : a ∈ l) : ∃ pre post, l = pre ++ a :: post ∧ a ∉ post := by
  induction l with
  | nil => simp at h
  | cons b l ih =>
    by_cases hl : a ∈ l
    · obtain ⟨pre, post, rfl, hn⟩ := ih hl
      exact ⟨b :: pre, post, rfl, hn⟩
    · rcases List.mem_cons.1 h with rfl | h
      · exact ⟨[], l, rfl, hl⟩
      · exact absurd h hl

/-- All notified scores are those of `score`. -/
def Honest (score : Poses.Pose K → Option K) (es : List (Event K)) : Prop := ∀ p s, Event.test p s ∈ es → s = score p

theorem announce_honest (score : Poses.Pose K → Option K) (ts : List (Poses.Pose K)) (p : Option K) :
    Honest score (announce score p ts) := by
  induction ts generalizing p with
  | nil => intro q s h; simp [announce] at h
  | cons t ts ih =>
    intro q s h
    unfold announce at h
    by_cases hl : ltN p (score t) = true
    · rw [if_pos hl] at h
      simp only [List.mem_cons, Event.test.injEq, reduceCtorEq, false_or] at h
      rcases h with ⟨rfl, rfl⟩ | h
      · rfl
      · exact ih _ q s h
    · rw [if_neg hl] at h
      simp only [List.mem_cons, Event.test.injEq] at h
      rcases h with ⟨rfl, rfl⟩ | h
      · rfl
      · exact ih _ q s h

theorem mem_tested {es : List (Event K)} {q : Poses.Pose K} {v : Option K} (h : Event.test q v ∈ es) : q ∈ testedPoses es := by
  unfold testedPoses
  rw [List.mem_filterMap]
  exact ⟨_, h, rfl⟩

theorem split_tested {es : List (Event K)} {pre post : List (Poses.Pose K)} {p : Poses.Pose K}
    (h : testedPoses es = pre ++ p :: post) :
    ∃ pre' s post', es = pre' ++ Event.test p s :: post' ∧ testedPoses post' = post := by
  unfold testedPoses at h
  rw [List.filterMap_eq_append_iff] at h
  obtain ⟨l1, l2, rfl, _, h2⟩ := h
  rw [List.filterMap_eq_cons_iff] at h2
  obtain ⟨l3, e, l4, rfl, _, he, h4⟩ := h2
  cases e with
  | test q s =>
    simp only [Option.some.injEq] at he
    subst he
    exact ⟨l1 ++ l3, s, l4, by simp, h4⟩
  | start p => simp at he
  | update p s => simp at he
  | finish d s => simp at he

theorem same_index {res a x : K} {i i' : Nat} {n : ℤ} (hr : 0 < res)
    (h : (n : K) * res ≤ a + (x + (i : K) * res) ∧ a + (x + (i : K) * res) < ((n : K) + 1) * res)
    (h' : (n : K) * res ≤ a + (x + (i' : K) * res) ∧ a + (x + (i' : K) * res) < ((n : K) + 1) * res) : i = i' := by
  have h1 : (i : K) * res < ((i' : K) + 1) * res := by linarith [h.2, h'.1]
  have h2 : (i' : K) * res < ((i : K) + 1) * res := by linarith [h'.2, h.1]
  have h1 := lt_of_mul_lt_mul_right h1 hr.le
  have h2 := lt_of_mul_lt_mul_right h2 hr.le
  have h1 : i < i' + 1 := by exact_mod_cast h1
  have h2 : i' < i + 1 := by exact_mod_cast h2
  omega

/-- C82, the evaluation: it ends; every candidate of the window has a cell of its own, which shows the score of that
candidate at the last of the tried angles; every other cell shows 0.5, except that the cell of the initial pose, if no
candidate is in it, shows the score of the initial pose. -/
theorem search_space_complete (rate : Nat → ℚ) {res half fromT toT stepT : K} (hr : 0 < res) (hh : 0 ≤ half)
    (ht : fromT ≤ toT) (hs : 0 < stepT) (score : Poses.Pose K → Option K) (init : Poses.Pose K)
    (n : Nat) (hn : n = ⌈2 * half / res⌉₊)
    (last : K) (hlast : last = fromT + (⌊(toT - fromT) / stepT⌋₊ : K) * stepT) :
    ∃ fuel b, evaluate rate res half fromT toT stepT score fuel init = some b ∧
      (∀ i j i' j' c, i ≤ n → j ≤ n → i' ≤ n → j' ≤ n → InCell res (candidate res half init last i j) c →
        InCell res (candidate res half init last i' j') c → i = i' ∧ j = j') ∧
      (∀ i j c, i ≤ n → j ≤ n → InCell res (candidate res half init last i j) c →
        b.map.readUnbounded c = some ⟨score (candidate res half init last i j), 0⟩) ∧
      (∀ c, (∀ i j, i ≤ n → j ≤ n → ¬ InCell res (candidate res half init last i j) c) →
        b.map.readUnbounded c = some ⟨if InCell res init c then score init else some (1 / 2), 0⟩) := by
  let P : BFParams K := ⟨-half, half, res, -half, half, res, fromT, toT, stepT⟩
  have hP : P.Ok := ⟨by simp [P]; linarith, by simp [P]; linarith, ht, hr, hr, hs⟩
  obtain ⟨e', delta, prob, fuel, _, hrun⟩ := brute_force_run P hP score (BFState.init P) init
  have hbase : (BFState.init P).base.getD init = init := rfl
  rw [hbase] at hrun
  set es := Event.start init :: .test init (score init) :: .update init (score init) ::
        (announce score (score init) ((searchGrid P).map (around init)) ++ [.finish delta prob]) with hes
  obtain ⟨b, hb, hcell⟩ := search_space_shows_last_score rate hr es
  have hhon : Honest score es := by
    intro p s h
    simp only [hes, List.mem_cons, Event.test.injEq, reduceCtorEq, false_or, List.mem_append, List.not_mem_nil, or_false] at h
    rcases h with ⟨rfl, rfl⟩ | h
    · rfl
    · exact announce_honest score _ _ p s h
  have htested : testedPoses es = init :: (searchGrid P).map (around init) := by
    have := testedPoses_announce score ((searchGrid P).map (around init)) (score init) [.finish delta prob]
    simp only [testedPoses] at this ⊢
    simp only [hes, List.filterMap_cons, this]
    simp
  have hn' : ⌈(half - -half) / res⌉₊ = n := by rw [hn]; congr 2; ring
  -- the candidates at one angle
  let plane : K → List (Poses.Pose K) := fun t =>
    (progression (-half) res n).flatMap fun y => (progression (-half) res n).map fun x => around init (x, y, t)
  have hplane : ∀ t q, q ∈ plane t ↔ ∃ i j, i ≤ n ∧ j ≤ n ∧ q = candidate res half init t i j := by
    intro t q
    simp only [plane, List.mem_flatMap, List.mem_map, progression, List.mem_range]
    constructor
    · rintro ⟨y, ⟨j, hj, rfl⟩, x, ⟨i, hi, rfl⟩, rfl⟩
      exact ⟨i, j, by omega, by omega, rfl⟩
    · rintro ⟨i, j, hi, hj, rfl⟩
      exact ⟨_, ⟨j, by omega, rfl⟩, _, ⟨i, by omega, rfl⟩, rfl⟩
  have hgrid : (searchGrid P).map (around init) =
      (progression fromT stepT ⌊(toT - fromT) / stepT⌋₊).flatMap plane := by
    simp only [searchGrid, P, hn', List.map_flatMap, List.map_map, plane, Function.comp_def]
  have hsplit : ∃ pre, testedPoses es = pre ++ plane last ∧ ∀ q ∈ pre, q = init ∨
      ∃ i j t, i ≤ n ∧ j ≤ n ∧ q = candidate res half init t i j := by
    rw [htested, hgrid]
    have : progression fromT stepT ⌊(toT - fromT) / stepT⌋₊ =
        (List.range ⌊(toT - fromT) / stepT⌋₊).map (fun (i : Nat) => fromT + (i : K) * stepT) ++ [last] := by
      simp [progression, List.range_succ, hlast]
    rw [this, List.flatMap_append, List.flatMap_singleton]
    refine ⟨init :: _, rfl, ?_⟩
    intro q hq
    rcases List.mem_cons.1 hq with h | h
    · exact .inl h
    · rw [List.mem_flatMap] at h
      obtain ⟨t, _, h⟩ := h
      obtain ⟨i, j, hi, hj, h⟩ := (hplane t q).1 h
      exact .inr ⟨i, j, t, hi, hj, h⟩
  obtain ⟨pre, hpre, hq⟩ := hsplit
  have huniq : ∀ i j i' j' c, InCell res (candidate res half init last i j) c →
        InCell res (candidate res half init last i' j') c → i = i' ∧ j = j' := by
    intro i j i' j' c h h'
    exact ⟨same_index hr h.1 h'.1, same_index hr h.2 h'.2⟩
  refine ⟨fuel, b, ?_, ?_, ?_, ?_⟩
  · unfold evaluate
    show (processScan (bruteForce P) score fuel (BFState.init P) init).bind _ = _
    rw [hrun]
    exact hb
  · intro i j i' j' c _ _ _ _ h h'
    exact huniq i j i' j' c h h'
  · intro i j c hi hj hc
    obtain ⟨p1, p2, hp, hnot⟩ := last_occurrence (plane last) _ ((hplane last _).2 ⟨i, j, hi, hj, rfl⟩)
    rw [hp, ← List.append_assoc] at hpre
    obtain ⟨pre', s, post', hsp, hpost⟩ := split_tested hpre
    have hs : s = score (candidate res half init last i j) := hhon _ _ (by rw [hsp]; simp)
    rw [(hcell c).1 pre' _ s post' hsp hc, hs]
    intro q v hqv hqc
    have hm := mem_tested hqv
    rw [hpost] at hm
    have hm' : q ∈ plane last := by rw [hp]; simp [hm]
    obtain ⟨i', j', _, _, rfl⟩ := (hplane last q).1 hm'
    obtain ⟨rfl, rfl⟩ := huniq i j i' j' c hc hqc
    exact hnot hm
  · intro c hno
    have hno' : ∀ t i j, i ≤ n → j ≤ n → ¬ InCell res (candidate res half init t i j) c := fun _ i j hi hj => hno i j hi hj
    have hrest : ∀ q ∈ (searchGrid P).map (around init), ¬ InCell res q c := by
      intro q hqm
      rw [hgrid, List.mem_flatMap] at hqm
      obtain ⟨t, _, h⟩ := hqm
      obtain ⟨i, j, hi, hj, rfl⟩ := (hplane t q).1 h
      exact hno' t i j hi hj
    by_cases hi : InCell res init c
    · rw [if_pos hi]
      have hsp : es = [Event.start init] ++ .test init (score init) :: (.update init (score init) ::
        (announce score (score init) ((searchGrid P).map (around init)) ++ [.finish delta prob])) := rfl
      refine (hcell c).1 _ _ _ _ hsp hi ?_
      intro q v hqv
      have hm := mem_tested hqv
      have := testedPoses_announce score ((searchGrid P).map (around init)) (score init) [.finish delta prob]
      simp only [testedPoses] at this hm
      simp only [List.filterMap_cons, this] at hm
      simp only [List.filterMap_nil, List.append_nil] at hm
      exact hrest q hm
    · rw [if_neg hi]
      refine (hcell c).2 ?_
      intro q v hqv
      have hm := mem_tested hqv
      rw [htested] at hm
      rcases List.mem_cons.1 hm with rfl | hm
      · exact hi
      · exact hrest q hm

/-! ## Concrete cases -/

/-- The hypotheses of `search_space_complete` hold for the program's own parameters: 201 columns, one angle. -/
example : (0 : ℚ) < 1 / 100 ∧ (0 : ℚ) ≤ 1 ∧ (0 : ℚ) ≤ 0 ∧ (0 : ℚ) < 1 / 10 ∧ ⌈2 * (1 : ℚ) / (1 / 100)⌉₊ = 200 ∧
    (0 : ℚ) + (⌊((0 : ℚ) - 0) / (1 / 10)⌋₊ : ℚ) * (1 / 10) = 0 := by
  have h : (2 : ℚ) * 1 / (1 / 100) = 200 := by norm_num
  rw [h]
  refine ⟨by norm_num, by norm_num, le_refl _, by norm_num, by norm_num, by simp⟩

/-- A small evaluation: window of 3 × 3 candidates on cells of size 1, scores depending on the position. -/
example : ((evaluate (fun d => 6 / 5 * d) (1 : ℚ) 1 0 0 1 (fun p => some (p.x + 10 * p.y)) 20 ⟨1 / 2, 1 / 2, 0⟩).map fun b =>
      [b.map.readUnbounded ⟨-1, -1⟩, b.map.readUnbounded ⟨1, 0⟩, b.map.readUnbounded ⟨2, 0⟩, b.map.readUnbounded ⟨500, 0⟩])
    = some [some ⟨some (-11 / 2), 0⟩, some ⟨some (13 / 2), 0⟩, some ⟨some (1 / 2), 0⟩, some ⟨some (1 / 2), 0⟩] := by
  decide +kernel

/-- The map does not show the best score over the angles: with two angles of which the first scores higher, the cell
shows the score of the second. -/
theorem search_space_best_angle_counterexample :
    ((evaluate (fun d => 6 / 5 * d) (1 : ℚ) 0 0 1 1 (fun p => some (1 - p.theta)) 20 ⟨1 / 2, 1 / 2, 0⟩).map fun b =>
      b.map.readUnbounded ⟨0, 0⟩) = some (some ⟨some 0, 0⟩) := by
  decide +kernel

end Slam.SearchSpace
