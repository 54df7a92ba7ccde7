import Verif.ScanMatch.Driver
import Mathlib.Tactic.FieldSimp
import Mathlib.Tactic.Linarith
import Mathlib.Data.Rat.Floor
import Mathlib.Data.List.Nodup

/-! # C29: brute force enumeration -/

set_option autoImplicit false
set_option linter.unusedSectionVars false

namespace Slam.ScanMatch
open Slam.Poses

variable {K : Type*} [Field K] [LinearOrder K] [IsStrictOrderedRing K]

/-- The arguments a brute force search is meant to be built with (the constructor asserts the first three). -/
structure BFParams.Ok (p : BFParams K) : Prop where
  x : p.fromX ≤ p.toX
  y : p.fromY ≤ p.toY
  t : p.fromT ≤ p.toT
  sx : 0 < p.stepX
  sy : 0 < p.stepY
  st : 0 < p.stepT

/-- "the loop started in state `e` around `base` tests exactly `ts`", whatever the scores. -/
def Goes (P : BFParams K) (score : Pose K → Option K) (e : BFState K) (ts : List (Pose K)) (e' : BFState K) : Prop :=
  ∀ b p, ∃ b' p', Tests (bruteForce P) score e b p ts e' b' p'

theorem goes_step (P : BFParams K) (score : Pose K → Option K) (base : Pose K) (x y t : K)
    (ts : List (Pose K)) (e' : BFState K) (ht : t ≤ P.toT)
    (h : Goes P score ((bruteForce P).feedback ⟨some base, x, y, t⟩ false) ts e') :
    Goes P score ⟨some base, x, y, t⟩ (around base (x, y, t) :: ts) e' := by
  intro b p
  have hn : (bruteForce P).hasNext ⟨some base, x, y, t⟩ = true := by simpa [bruteForce] using ht
  have hq : (bruteForce P).next ⟨some base, x, y, t⟩ b = (around base (x, y, t), ⟨some base, x, y, t⟩) := rfl
  by_cases ha : ltN p (score (around base (x, y, t))) = true
  · obtain ⟨b', p', h'⟩ := h (around base (x, y, t)) (score (around base (x, y, t)))
    exact ⟨b', p', .better (E := bruteForce P) _ _ _ _ _ _ _ hn ha h'⟩
  · obtain ⟨b', p', h'⟩ := h b p
    exact ⟨b', p', .worse (E := bruteForce P) _ _ _ _ _ _ _ hn (Bool.eq_false_iff.2 ha) h'⟩

section
variable [FloorRing K]

theorem prog_ceil (a b s : K) (hs : 0 < s) (i : Nat) :
    (a + (i : K) * s < b ↔ i < ⌈(b - a) / s⌉₊) := by
  rw [Nat.lt_ceil, lt_div_iff₀ hs]
  constructor <;> intro h <;> linarith

theorem prog_floor (a b s : K) (hs : 0 < s) (hab : a ≤ b) (i : Nat) :
    (a + (i : K) * s ≤ b ↔ i ≤ ⌊(b - a) / s⌋₊) := by
  rw [Nat.le_floor_iff (div_nonneg (by linarith) hs.le), le_div_iff₀ hs]
  constructor <;> intro h <;> linarith

/-- Suffix of a progression. -/
def progFrom (a s : K) (i n : Nat) : List K := (List.range' i (n + 1 - i)).map fun (j : Nat) => a + (j : K) * s

theorem progFrom_zero (a s : K) (n : Nat) : progFrom a s 0 n = progression a s n := by
  simp [progFrom, progression, List.range_eq_range']

theorem progFrom_cons (a s : K) (i n : Nat) (h : i ≤ n) :
    progFrom a s i n = (a + (i : K) * s) :: progFrom a s (i + 1) n := by
  unfold progFrom
  rw [show n + 1 - i = (n + 1 - (i + 1)) + 1 by omega, List.range'_succ]
  simp

theorem progFrom_nil (a s : K) (n : Nat) : progFrom a s (n + 1) n = [] := by simp [progFrom]

theorem goes_row (P : BFParams K) (hP : P.Ok) (score : Pose K → Option K) (base : Pose K) (y t : K)
    (ht : t ≤ P.toT) (rest : List (Pose K)) (e' : BFState K)
    (hrest : Goes P score (if y < P.toY then ⟨some base, P.fromX, y + P.stepY, t⟩
      else ⟨some base, P.fromX, P.fromY, t + P.stepT⟩) rest e') :
    Goes P score ⟨some base, P.fromX, y, t⟩
      ((progression P.fromX P.stepX ⌈(P.toX - P.fromX) / P.stepX⌉₊).map (fun x => around base (x, y, t)) ++ rest) e' := by
  set n := ⌈(P.toX - P.fromX) / P.stepX⌉₊ with hn
  have key : ∀ k i, i ≤ n → n - i = k → Goes P score ⟨some base, P.fromX + (i : K) * P.stepX, y, t⟩
      ((progFrom P.fromX P.stepX i n).map (fun x => around base (x, y, t)) ++ rest) e' := by
    intro k
    induction k with
    | zero =>
      intro i hi hk
      have hin : i = n := by omega
      rw [progFrom_cons _ _ _ _ hi]
      subst hin
      rw [progFrom_nil]
      apply goes_step P score base _ y t _ _ ht
      have hx : ¬ (P.fromX + (n : K) * P.stepX < P.toX) := by
        rw [prog_ceil _ _ _ hP.sx, ← hn]; omega
      simp only [bruteForce, hx, if_false, List.map_nil]
      exact hrest
    | succ k ih =>
      intro i hi hk
      rw [progFrom_cons _ _ _ _ hi]
      apply goes_step P score base _ y t _ _ ht
      have hx : P.fromX + (i : K) * P.stepX < P.toX := by
        rw [prog_ceil _ _ _ hP.sx, ← hn]; omega
      simp only [bruteForce, hx, if_true]
      have := ih (i + 1) (by omega) (by omega)
      have e : P.fromX + ((i + 1 : Nat) : K) * P.stepX = P.fromX + (i : K) * P.stepX + P.stepX := by
        push_cast; ring
      rw [e] at this
      exact this
  have := key n 0 (by omega) (by omega)
  simpa [progFrom_zero] using this

theorem goes_plane (P : BFParams K) (hP : P.Ok) (score : Pose K → Option K) (base : Pose K) (t : K)
    (ht : t ≤ P.toT) (rest : List (Pose K)) (e' : BFState K)
    (hrest : Goes P score ⟨some base, P.fromX, P.fromY, t + P.stepT⟩ rest e') :
    Goes P score ⟨some base, P.fromX, P.fromY, t⟩
      ((progression P.fromY P.stepY ⌈(P.toY - P.fromY) / P.stepY⌉₊).flatMap (fun y =>
        (progression P.fromX P.stepX ⌈(P.toX - P.fromX) / P.stepX⌉₊).map (fun x => around base (x, y, t)))
        ++ rest) e' := by
  set n := ⌈(P.toY - P.fromY) / P.stepY⌉₊ with hn
  have key : ∀ k i, i ≤ n → n - i = k → Goes P score ⟨some base, P.fromX, P.fromY + (i : K) * P.stepY, t⟩
      ((progFrom P.fromY P.stepY i n).flatMap (fun y =>
        (progression P.fromX P.stepX ⌈(P.toX - P.fromX) / P.stepX⌉₊).map (fun x => around base (x, y, t)))
        ++ rest) e' := by
    intro k
    induction k with
    | zero =>
      intro i hi hk
      have hin : i = n := by omega
      rw [progFrom_cons _ _ _ _ hi]
      subst hin
      rw [progFrom_nil, List.flatMap_cons, List.flatMap_nil, List.append_nil]
      apply goes_row P hP score base _ t ht
      have hx : ¬ (P.fromY + (n : K) * P.stepY < P.toY) := by
        rw [prog_ceil _ _ _ hP.sy, ← hn]; omega
      rw [if_neg hx]
      exact hrest
    | succ k ih =>
      intro i hi hk
      rw [progFrom_cons _ _ _ _ hi, List.flatMap_cons, List.append_assoc]
      apply goes_row P hP score base _ t ht
      have hx : P.fromY + (i : K) * P.stepY < P.toY := by
        rw [prog_ceil _ _ _ hP.sy, ← hn]; omega
      rw [if_pos hx]
      have := ih (i + 1) (by omega) (by omega)
      have e : P.fromY + ((i + 1 : Nat) : K) * P.stepY = P.fromY + (i : K) * P.stepY + P.stepY := by
        push_cast; ring
      rw [e] at this
      exact this
  have := key n 0 (by omega) (by omega)
  simpa [progFrom_zero] using this

theorem goes_all (P : BFParams K) (hP : P.Ok) (score : Pose K → Option K) (base : Pose K) :
    ∃ e', e'.base = some base ∧
      Goes P score ⟨some base, P.fromX, P.fromY, P.fromT⟩ ((searchGrid P).map (around base)) e' := by
  set n := ⌊(P.toT - P.fromT) / P.stepT⌋₊ with hn
  set plane := fun t => (progression P.fromY P.stepY ⌈(P.toY - P.fromY) / P.stepY⌉₊).flatMap (fun y =>
        (progression P.fromX P.stepX ⌈(P.toX - P.fromX) / P.stepX⌉₊).map (fun x => around base (x, y, t)))
    with hplane
  set e' : BFState K := ⟨some base, P.fromX, P.fromY, P.fromT + ((n + 1 : Nat) : K) * P.stepT⟩ with he'
  have hend : Goes P score e' [] e' := by
    intro b p
    refine ⟨b, p, .done _ _ _ ?_⟩
    have : ¬ (P.fromT + ((n + 1 : Nat) : K) * P.stepT ≤ P.toT) := by
      rw [prog_floor _ _ _ hP.st hP.t, ← hn]; omega
    simpa [bruteForce, he'] using this
  have key : ∀ k i, i ≤ n → n - i = k → Goes P score ⟨some base, P.fromX, P.fromY, P.fromT + (i : K) * P.stepT⟩
      ((progFrom P.fromT P.stepT i n).flatMap plane) e' := by
    intro k
    induction k with
    | zero =>
      intro i hi hk
      have hin : i = n := by omega
      rw [progFrom_cons _ _ _ _ hi]
      subst hin
      rw [progFrom_nil, List.flatMap_cons, List.flatMap_nil]
      apply goes_plane P hP score base
      · rw [prog_floor _ _ _ hP.st hP.t, ← hn]
      · have e : P.fromT + ((n + 1 : Nat) : K) * P.stepT = P.fromT + (n : K) * P.stepT + P.stepT := by
          push_cast; ring
        rw [← e]; exact hend
    | succ k ih =>
      intro i hi hk
      rw [progFrom_cons _ _ _ _ hi, List.flatMap_cons]
      apply goes_plane P hP score base
      · rw [prog_floor _ _ _ hP.st hP.t, ← hn]; exact hi
      · have := ih (i + 1) (by omega) (by omega)
        have e : P.fromT + ((i + 1 : Nat) : K) * P.stepT = P.fromT + (i : K) * P.stepT + P.stepT := by
          push_cast; ring
        rw [e] at this
        exact this
  refine ⟨e', rfl, ?_⟩
  have := key n 0 (by omega) (by omega)
  have hg : (searchGrid P).map (around base) = (progFrom P.fromT P.stepT 0 n).flatMap plane := by
    rw [progFrom_zero]
    simp [searchGrid, hplane, List.map_flatMap, Function.comp_def, ← hn]
  rw [hg]
  simpa using this

/-- The run of a brute force matcher whose enumerator remembers `base?` from earlier runs. -/
theorem brute_force_run (P : BFParams K) (hP : P.Ok) (score : Pose K → Option K) (e : BFState K) (init : Pose K) :
    ∃ e' delta prob fuel, e'.base = some (e.base.getD init) ∧
      processScan (bruteForce P) score fuel e init = some (e', delta, prob,
        .start init :: .test init (score init) :: .update init (score init) ::
        (announce score (score init) ((searchGrid P).map (around (e.base.getD init))) ++ [.finish delta prob])) := by
  obtain ⟨e', he', hg⟩ := goes_all P hP score (e.base.getD init)
  obtain ⟨b', p', ht⟩ := hg init (score init)
  refine ⟨e', b'.sub init, p', ((searchGrid P).map (around (e.base.getD init))).length + 1, he', ?_⟩
  rw [processScan_iff]
  refine ⟨(searchGrid P).map (around (e.base.getD init)), e', b', p', by simp, ?_, by simp⟩
  -- the first `next` stores the base pose; it makes no difference if that was stored before
  have hr : (bruteForce P).reset e = ⟨e.base, P.fromX, P.fromY, P.fromT⟩ := rfl
  rw [hr]
  generalize hl : (searchGrid P).map (around (e.base.getD init)) = l at ht
  cases hb : e.base with
  | some b0 => rw [hb] at ht; exact ht
  | none =>
    rw [hb] at ht
    simp only [Option.getD_none] at ht
    cases ht with
    | done _ _ _ h => simp [bruteForce] at h; exact absurd hP.t (not_le.2 h)
    | better _ _ _ ts _ _ _ h ha hr => exact .better (E := bruteForce P) ⟨none, _, _, _⟩ _ _ _ _ _ _ h ha hr
    | worse _ _ _ ts _ _ _ h ha hr => exact .worse (E := bruteForce P) ⟨none, _, _, _⟩ _ _ _ _ _ _ h ha hr

/-- C29 for the first matching run of a brute force matcher: it ends, and the tested poses are the initial
pose followed by every combination of the arithmetic grids around it, exactly once each. Later runs:
`brute_force_session`. -/
theorem brute_force_first_run (P : BFParams K) (hP : P.Ok) (score : Pose K → Option K) (init : Pose K) :
    ∃ e' delta prob events fuel,
      processScan (bruteForce P) score fuel (BFState.init P) init = some (e', delta, prob, events) ∧
      testedPoses events = init :: (searchGrid P).map (around init) ∧ (searchGrid P).Nodup ∧
      ∀ x y t, (x, y, t) ∈ searchGrid P ↔
        (∃ i : Nat, x = P.fromX + i * P.stepX ∧ (i = 0 ∨ P.fromX + (i - 1) * P.stepX < P.toX)) ∧
        (∃ i : Nat, y = P.fromY + i * P.stepY ∧ (i = 0 ∨ P.fromY + (i - 1) * P.stepY < P.toY)) ∧
        (∃ i : Nat, t = P.fromT + i * P.stepT ∧ t ≤ P.toT) := by
  obtain ⟨e', delta, prob, fuel, _, h⟩ := brute_force_run P hP score (BFState.init P) init
  refine ⟨e', delta, prob, _, fuel, h, ?_, ?_, ?_⟩
  · have ht : ∀ (ts : List (Pose K)) (p : Option K) (tl : List (Event K)),
        testedPoses (announce score p ts ++ tl) = ts ++ testedPoses tl := by
      intro ts
      induction ts with
      | nil => intro p tl; rfl
      | cons t ts ih =>
        intro p tl
        unfold announce
        split
        · have := ih (score t) tl
          simp only [testedPoses] at this
          simp [testedPoses, this]
        · have := ih p tl
          simp only [testedPoses] at this
          simp [testedPoses, this]
    have hx := ht ((searchGrid P).map (around ((BFState.init P).base.getD init))) (score init)
      [.finish delta prob]
    simp only [testedPoses] at hx ⊢
    simp only [List.filterMap_cons, hx]
    simp [BFState.init]
  · have hinj : ∀ (a s : K) (n : Nat), 0 < s → (progression a s n).Nodup := by
      intro a s n hs
      refine List.Nodup.map ?_ List.nodup_range
      intro i j hij
      simp only [add_right_inj] at hij
      have := mul_right_cancel₀ hs.ne' hij
      exact_mod_cast this
    unfold searchGrid
    rw [List.nodup_flatMap]
    refine ⟨fun t _ => ?_, ?_⟩
    · rw [List.nodup_flatMap]
      refine ⟨fun y _ => ?_, ?_⟩
      · exact (hinj _ _ _ hP.sx).map (fun a b h => by simpa using h)
      · refine (hinj P.fromY P.stepY _ hP.sy).imp ?_
        intro a b hab
        rw [Function.onFun, List.disjoint_left]
        intro u h1 h2
        simp only [List.mem_map] at h1 h2
        obtain ⟨_, _, rfl⟩ := h1
        obtain ⟨_, _, h⟩ := h2
        simp only [Prod.mk.injEq] at h
        exact hab h.2.1.symm
    · refine (hinj P.fromT P.stepT _ hP.st).imp ?_
      intro a b hab
      rw [Function.onFun, List.disjoint_left]
      intro u h1 h2
      simp only [List.mem_flatMap, List.mem_map] at h1 h2
      obtain ⟨_, _, _, _, rfl⟩ := h1
      obtain ⟨_, _, _, _, h⟩ := h2
      simp only [Prod.mk.injEq] at h
      exact hab h.2.2.symm
  · intro x y t
    have hc : ∀ (a b s v : K), 0 < s → (v ∈ progression a s ⌈(b - a) / s⌉₊ ↔
        ∃ i : Nat, v = a + i * s ∧ (i = 0 ∨ a + (i - 1) * s < b)) := by
      intro a b s v hs
      simp only [progression, List.mem_map, List.mem_range]
      constructor
      · rintro ⟨i, hi, rfl⟩
        refine ⟨i, rfl, ?_⟩
        rcases Nat.eq_zero_or_pos i with h0 | h0
        · exact Or.inl h0
        · refine Or.inr ?_
          have := (prog_ceil a b s hs (i - 1)).2 (by omega)
          rwa [Nat.cast_pred h0] at this
      · rintro ⟨i, rfl, hi⟩
        refine ⟨i, ?_, rfl⟩
        rcases hi with h0 | h0
        · omega
        · rcases Nat.eq_zero_or_pos i with h1 | h1
          · omega
          · rw [← Nat.cast_pred h1, prog_ceil a b s hs] at h0
            omega
    have hf : ∀ v, v ∈ progression P.fromT P.stepT ⌊(P.toT - P.fromT) / P.stepT⌋₊ ↔
        ∃ i : Nat, v = P.fromT + i * P.stepT ∧ v ≤ P.toT := by
      intro v
      simp only [progression, List.mem_map, List.mem_range]
      constructor
      · rintro ⟨i, hi, rfl⟩
        exact ⟨i, rfl, (prog_floor _ _ _ hP.st hP.t i).2 (by omega)⟩
      · rintro ⟨i, rfl, hi⟩
        exact ⟨i, by have := (prog_floor _ _ _ hP.st hP.t i).1 hi; omega, rfl⟩
    unfold searchGrid
    simp only [List.mem_flatMap, List.mem_map, Prod.mk.injEq]
    rw [← hc _ _ _ _ hP.sx, ← hc _ _ _ _ hP.sy, ← hf]
    constructor
    · rintro ⟨t', ht, y', hy, x', hx, rfl, rfl, rfl⟩
      exact ⟨hx, hy, ht⟩
    · rintro ⟨hx, hy, ht⟩
      exact ⟨t, ht, y, hy, x, hx, rfl, rfl, rfl⟩

/-- A session with one brute force matcher: one matching run per call `(score, initial pose)`, each starting from the
enumerator state the previous one left; `outs` are the poses tested in each run. -/
inductive Session (P : BFParams K) : BFState K → List ((Pose K → Option K) × Pose K) → List (List (Pose K)) → Prop
  | nil (e : BFState K) : Session P e [] []
  | cons {e e' : BFState K} {score : Pose K → Option K} {init : Pose K} {fuel : Nat} {delta : Delta K}
      {prob : Option K} {events : List (Event K)} {calls : List ((Pose K → Option K) × Pose K)}
      {outs : List (List (Pose K))} :
      processScan (bruteForce P) score fuel e init = some (e', delta, prob, events) → Session P e' calls outs →
      Session P e ((score, init) :: calls) (testedPoses events :: outs)

theorem testedPoses_announce (score : Pose K → Option K) (ts : List (Pose K)) (p : Option K) (tl : List (Event K)) :
    testedPoses (announce score p ts ++ tl) = ts ++ testedPoses tl := by
  induction ts generalizing p with
  | nil => rfl
  | cons t ts ih =>
    unfold announce
    split
    · have := ih (score t)
      simp only [testedPoses] at this
      simp [testedPoses, this]
    · have := ih p
      simp only [testedPoses] at this
      simp [testedPoses, this]

/-- C29: in a session of any length with one matcher every run ends and tests its own initial pose and then every
combination of the grids exactly once, around the initial pose of the *first* run. -/
theorem brute_force_session (P : BFParams K) (hP : P.Ok) (score : Pose K → Option K) (init : Pose K)
    (calls : List ((Pose K → Option K) × Pose K)) :
    Session P (BFState.init P) ((score, init) :: calls)
      (((score, init) :: calls).map fun c => c.2 :: (searchGrid P).map (around init)) := by
  have gen : ∀ (calls : List ((Pose K → Option K) × Pose K)) (e : BFState K), e.base = some init →
      Session P e calls (calls.map fun c => c.2 :: (searchGrid P).map (around init)) := by
    intro calls
    induction calls with
    | nil => intro e _; exact .nil e
    | cons c calls ih =>
      intro e he
      obtain ⟨sc, i⟩ := c
      obtain ⟨e', delta, prob, fuel, hb, h⟩ := brute_force_run P hP sc e i
      have hb' : e'.base = some init := by rw [hb, he]; rfl
      have := Session.cons h (ih e' hb')
      rw [List.map_cons]
      convert this using 2
      rw [he]
      have hx := testedPoses_announce sc ((searchGrid P).map (around ((some init).getD i))) (sc i) [.finish delta prob]
      simp only [testedPoses] at hx ⊢
      simp only [List.filterMap_cons, hx]
      simp
  obtain ⟨e', delta, prob, fuel, hb, h⟩ := brute_force_run P hP score (BFState.init P) init
  have := Session.cons h (gen calls e' hb)
  rw [List.map_cons]
  convert this using 2
  have hx := testedPoses_announce score ((searchGrid P).map (around ((BFState.init P).base.getD init))) (score init)
    [.finish delta prob]
  simp only [testedPoses] at hx ⊢
  simp only [List.filterMap_cons, hx]
  simp [BFState.init]

end

/-- C29 fails from the second run on: the enumerator keeps the base pose of the first run, so a second match
started elsewhere searches around the first run's initial pose. Here the first match starts at the origin, the
second at x = 100, where no pose near 100 but the initial one is tested. -/
theorem brute_force_second_run_counterexample :
    let P : BFParams ℚ := ⟨-1, 1, 1, 0, 0, 1, 0, 0, 1⟩
    ((processScan (bruteForce P) (fun _ => some 0) 10 (BFState.init P) ⟨0, 0, 0⟩).bind fun first =>
      (processScan (bruteForce P) (fun _ => some 0) 10 first.1 ⟨100, 0, 0⟩).map fun second =>
        (testedPoses first.2.2.2, testedPoses second.2.2.2))
      = some ([⟨0, 0, 0⟩, ⟨-1, 0, 0⟩, ⟨0, 0, 0⟩, ⟨1, 0, 0⟩],
              [⟨100, 0, 0⟩, ⟨-1, 0, 0⟩, ⟨0, 0, 0⟩, ⟨1, 0, 0⟩]) := by
  decide +kernel

/-- Non-vacuity: parameters that satisfy the hypotheses. -/
example : (⟨-1, 1, 3 / 10, -1, 1, 1 / 2, 0, 1, 1 / 3⟩ : BFParams ℚ).Ok := by
  constructor <;> norm_num

example : (searchGrid (⟨0, 1, 3 / 10, 0, 0, 1, 0, 1, 2 / 3⟩ : BFParams ℚ)).length = 10 := by decide +kernel

end Slam.ScanMatch
