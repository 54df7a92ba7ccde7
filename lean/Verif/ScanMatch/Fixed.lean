import Verif.ScanMatch.Model
import Verif.Pose.Props
import Mathlib.Tactic.Linarith
import Mathlib.Tactic.NormNum
import Mathlib.Data.Rat.Floor

/-!
# C32: `HillClimbingSMFixed`
-/

set_option autoImplicit false
set_option linter.unusedSectionVars false

namespace Slam.ScanMatch
open Slam.Poses

variable {K : Type*} [Field K] [LinearOrder K] [IsStrictOrderedRing K]

/-- Specification: `n` strict improvements lead from pose `p` to pose `q`. -/
inductive ImprovesIn (score : Pose K → Option K) : Nat → Pose K → Pose K → Prop
  | refl (p : Pose K) : ImprovesIn score 0 p p
  | step {n : Nat} {p q r : Pose K} {a b : K} (ha : score p = some a) (hb : score q = some b) (hab : a < b)
      (h : ImprovesIn score n q r) : ImprovesIn score (n + 1) p r

/-- Specification of a direction: the sentinel, or one of the tested single steps with its score difference. -/
def Direction.Good (score : Pose K → Option K) (dt dO : K) (cur : Pose K) (best : Option K) (d : Direction K) : Prop :=
  d.diff = 1 ∧ d.dd = 0 ∨
    ∃ b s, best = some b ∧ score (shiftPose cur dO dt d.action) = some s ∧ d.diff = b - s ∧
      d.dd = (if d.action % 3 = 2 then dO else dt)

/-- The direction search returns either the sentinel or one of the tested single steps. -/
theorem chooseDirection_spec (score : Pose K → Option K) (dt dO : K) (cur : Pose K) (best : Option K) :
    (chooseDirection score dt dO cur best).Good score dt dO cur best := by
  unfold chooseDirection
  generalize List.range 6 = l
  have key : ∀ d : Direction K, d.Good score dt dO cur best →
      (l.foldl (fun d action =>
        match best, score (shiftPose cur dO dt action) with
        | some b, some s =>
          if b - s < d.diff then (⟨action, if action % 3 = 2 then dO else dt, b - s⟩ : Direction K) else d
        | _, _ => d) d).Good score dt dO cur best := by
    induction l with
    | nil => intro d h; exact h
    | cons a l ih =>
      intro d h
      rw [List.foldl_cons]
      apply ih
      cases best with
      | none => exact h
      | some b =>
        cases hs : score (shiftPose cur dO dt a) with
        | none => exact h
        | some s =>
          simp only
          by_cases hlt : b - s < d.diff
          · rw [if_pos hlt]; right; exact ⟨b, s, rfl, hs, rfl, rfl⟩
          · rw [if_neg hlt]; exact h
  exact key ⟨0, 0, 1⟩ (Or.inl ⟨rfl, rfl⟩)

/-- The chosen direction is the best one: no tested single step has a larger score. -/
theorem chooseDirection_best (score : Pose K → Option K) (dt dO : K) (cur : Pose K) (b : K)
    (action : Nat) (ha : action < 6) (s : K) (hs : score (shiftPose cur dO dt action) = some s) :
    (chooseDirection score dt dO cur (some b)).diff ≤ b - s := by
  unfold chooseDirection
  have hmem : action ∈ List.range 6 := List.mem_range.2 ha
  generalize List.range 6 = l at hmem
  have mono : ∀ (l : List Nat) (d : Direction K),
      (l.foldl (fun d action =>
        match some b, score (shiftPose cur dO dt action) with
        | some b, some s =>
          if b - s < d.diff then (⟨action, if action % 3 = 2 then dO else dt, b - s⟩ : Direction K) else d
        | _, _ => d) d).diff ≤ d.diff := by
    intro l
    induction l with
    | nil => intro d; exact le_refl _
    | cons a l ih =>
      intro d
      simp only [List.foldl_cons]
      refine le_trans (ih _) ?_
      cases hs : score (shiftPose cur dO dt a) with
      | none => exact le_refl _
      | some s =>
        simp only
        by_cases h : b - s < d.diff
        · rw [if_pos h]; exact le_of_lt h
        · rw [if_neg h]
  generalize (⟨0, 0, 1⟩ : Direction K) = d
  induction l generalizing d with
  | nil => cases hmem
  | cons a l ih =>
    simp only [List.foldl_cons]
    rcases List.mem_cons.1 hmem with rfl | hmem
    · refine le_trans (mono l _) ?_
      rw [hs]
      simp only
      by_cases h : b - s < d.diff
      · rw [if_pos h]
      · rw [if_neg h]; exact not_lt.1 h
    · exact ih hmem _

theorem lineSearch_spec (score : Pose K → Option K) (cur : Pose K) (best : Option K) (action : Nat) (dd : K)
    (k : Nat) (rp : Pose K) (rs : Option K) (h : lineSearch score cur best action dd k = some (rp, rs)) :
    rs = score rp ∧ ltN best rs = true := by
  induction k with
  | zero => simp [lineSearch] at h
  | succ k ih =>
    simp only [lineSearch] at h
    by_cases h1 : dd < 2 ^ (k + 1) * dd
    · rw [if_pos h1] at h
      by_cases h2 : ltN best (score (shiftPose cur (2 ^ (k + 1) * dd) (2 ^ (k + 1) * dd) action)) = true
      · rw [if_pos h2] at h
        injection h with h
        injection h with h3 h4
        subst h3; subst h4
        exact ⟨rfl, h2⟩
      · rw [if_neg h2] at h
        exact ih h
    · rw [if_neg h1] at h; cases h

theorem shiftPose_congr (p : Pose K) (dO dt : K) (action : Nat) :
    shiftPose p (if action % 3 = 2 then dO else dt) (if action % 3 = 2 then dO else dt) action =
      shiftPose p dO dt action := by
  have h3 : action % 3 < 3 := Nat.mod_lt _ (by norm_num)
  unfold shiftPose
  rcases (show action % 3 = 0 ∨ action % 3 = 1 ∨ action % 3 = 2 by omega) with h | h | h <;> simp [h]

theorem fixedLoop_improves (score : Pose K → Option K) (dt dO : K) (fuel : Nat) (m : BitVec 32) (best : Pose K)
    (q : Pose K) (p : Option K) (m' : BitVec 32)
    (h : fixedLoop score dt dO fuel m best (score best) = some (q, p, m')) :
    p = score q ∧ ∃ n, ImprovesIn score n best q ∧ m' = m + BitVec.ofNat 32 n := by
  induction fuel generalizing m best with
  | zero => simp [fixedLoop] at h
  | succ fuel ih =>
    simp only [fixedLoop] at h
    by_cases hm : (0 : BitVec 32) < m
    · rw [if_pos hm] at h
      set d := chooseDirection score dt dO best (score best) with hd
      cases hl : lineSearch score best (score best) d.action d.dd 4 with
      | some r =>
        obtain ⟨rp, rs⟩ := r
        obtain ⟨h1, h2⟩ := lineSearch_spec _ _ _ _ _ _ _ _ hl
        rw [hl] at h
        simp only at h
        subst h1
        obtain ⟨hp, n, hn, hm'⟩ := ih _ _ h
        refine ⟨hp, n + 1, ?_, ?_⟩
        · cases ha : score best with
          | none => rw [ha] at h2; simp [ltN] at h2
          | some a =>
            cases hb : score rp with
            | none => rw [ha, hb] at h2; simp [ltN] at h2
            | some b =>
              rw [ha, hb] at h2
              exact .step ha hb (by simpa [ltN] using h2) hn
        · rw [hm', BitVec.ofNat_add]
          rw [BitVec.add_assoc, BitVec.add_comm (BitVec.ofNat 32 n)]; rfl
      | none =>
        rw [hl] at h
        simp only at h
        by_cases h0 : 0 ≤ d.diff
        · rw [if_pos h0] at h
          injection h with h
          injection h with h1 h
          injection h with h2 h3
          subst h1; subst h2; subst h3
          exact ⟨rfl, 0, .refl _, by simp⟩
        · rw [if_neg h0] at h
          rcases chooseDirection_spec score dt dO best (score best) with ⟨e1, -⟩ | ⟨b, s, hb, hs, e1, e2⟩
          · exact absurd (by rw [← hd] at e1; rw [e1]; exact zero_le_one) h0
          · rw [← hd] at hs e1 e2
            have hsp : shiftPose best d.dd d.dd d.action = shiftPose best dO dt d.action := by
              rw [e2]; exact shiftPose_congr best dO dt d.action
            have hscore : (score best).map (fun p => p - d.diff) =
                score (shiftPose best d.dd d.dd d.action) := by
              rw [hsp, hs, hb, e1]; simp
            rw [hscore] at h
            obtain ⟨hp, n, hn, hm'⟩ := ih _ _ h
            refine ⟨hp, n + 1, ?_, ?_⟩
            · refine .step hb (by rw [hsp]; exact hs) ?_ hn
              rw [e1] at h0
              linarith [not_le.1 h0]
            · rw [hm', BitVec.ofNat_add]
              rw [BitVec.add_assoc, BitVec.add_comm (BitVec.ofNat 32 n)]; rfl
    · rw [if_neg hm] at h
      injection h with h
      injection h with h1 h
      injection h with h2 h3
      subst h1; subst h2; subst h3
      exact ⟨rfl, 0, .refl _, by simp⟩

theorem ImprovesIn.le (score : Pose K → Option K) {n : Nat} {p q : Pose K} (h : ImprovesIn score n p q) (a : K)
    (ha : score p = some a) : ∃ b, score q = some b ∧ a ≤ b ∧ (n ≠ 0 → a < b) := by
  induction h generalizing a with
  | refl p => exact ⟨a, ha, le_refl _, fun h => absurd rfl h⟩
  | step ha' hb hab h ih =>
    obtain ⟨c, hc, hle, -⟩ := ih _ hb
    rw [ha] at ha'
    injection ha' with ha'
    subst ha'
    exact ⟨c, hc, le_of_lt (lt_of_lt_of_le hab hle), fun _ => lt_of_lt_of_le hab hle⟩

/-- C32 (first half, in full): the returned probability is the score of the returned pose; it is not below the
score of the initial pose; if the initial score is NaN the initial pose is returned unchanged. -/
theorem fixed_never_worse (score : Pose K → Option K) (dt dO : K) (fuel : Nat) (m : BitVec 32)
    (init : Pose K) (delta : Delta K) (prob : Option K) (m' : BitVec 32)
    (h : fixedProcess score dt dO fuel m init = some (delta, prob, m')) :
    prob = score (init.add delta) ∧
    (∀ a, score init = some a → ∃ b, prob = some b ∧ a ≤ b) ∧
    (score init = none → delta = ⟨0, 0, 0⟩ ∧ prob = none) := by
  unfold fixedProcess at h
  rw [Option.map_eq_some_iff] at h
  obtain ⟨⟨q, p, m2⟩, h1, h2⟩ := h
  injection h2 with e1 e2
  injection e2 with e2 e3
  subst e1; subst e2; subst e3
  obtain ⟨hp, n, hn, -⟩ := fixedLoop_improves _ _ _ _ _ _ _ _ _ h1
  have hq : init.add (q.sub init) = q := by
    simp [Pose.add, Pose.sub]
  rw [hq]
  refine ⟨hp, ?_, ?_⟩
  · intro a ha
    obtain ⟨b, hb, hle, -⟩ := ImprovesIn.le _ hn a ha
    exact ⟨b, by rw [hp, hb], hle⟩
  · intro ha
    cases hn with
    | refl => exact ⟨by simp [Pose.sub], by rw [hp, ha]⟩
    | step ha' => rw [ha] at ha'; cases ha'

/-- C32 (what the limit really does): a call that makes `n` improvements raises the configured limit by `n`
(modulo 2^32); a limit of zero makes no improvement; no call lowers the limit otherwise. -/
theorem fixed_limit_drifts (score : Pose K → Option K) (dt dO : K) (fuel : Nat) (m : BitVec 32)
    (init : Pose K) (delta : Delta K) (prob : Option K) (m' : BitVec 32)
    (h : fixedProcess score dt dO fuel m init = some (delta, prob, m')) :
    ∃ n, ImprovesIn score n init (init.add delta) ∧ m' = m + BitVec.ofNat 32 n ∧ (m = 0 → n = 0) := by
  unfold fixedProcess at h
  rw [Option.map_eq_some_iff] at h
  obtain ⟨⟨q, p, m2⟩, h1, h2⟩ := h
  injection h2 with e1 e2
  injection e2 with e2 e3
  subst e1; subst e2; subst e3
  have hq : init.add (q.sub init) = q := by
    simp [Pose.add, Pose.sub]
  rw [hq]
  by_cases hm : m = 0
  · subst hm
    cases fuel with
    | zero => simp [fixedLoop] at h1
    | succ fuel =>
      simp only [fixedLoop] at h1
      rw [if_neg (by decide)] at h1
      injection h1 with h1
      injection h1 with a1 h1
      injection h1 with a2 a3
      subst a1; subst a3
      exact ⟨0, .refl _, by simp, fun _ => rfl⟩
  · obtain ⟨-, n, hn, hm'⟩ := fixedLoop_improves _ _ _ _ _ _ _ _ _ h1
    exact ⟨n, hn, hm', fun h => absurd h hm⟩

/-- C32: when a call returns with a limit other than zero, the returned pose is a local optimum: none of the six
tested single steps scores higher. -/
theorem fixed_local_optimum (score : Pose K → Option K) (dt dO : K) (fuel : Nat) (m : BitVec 32)
    (init : Pose K) (delta : Delta K) (b : K) (m' : BitVec 32) (hm : m' ≠ 0)
    (h : fixedProcess score dt dO fuel m init = some (delta, some b, m')) :
    ∀ action < 6, ∀ s, score (shiftPose (init.add delta) dO dt action) = some s → s ≤ b := by
  unfold fixedProcess at h
  rw [Option.map_eq_some_iff] at h
  obtain ⟨⟨q, p, m2⟩, h1, h2⟩ := h
  injection h2 with e1 e2
  injection e2 with e2 e3
  subst e1; subst e2; subst e3
  have hq : init.add (q.sub init) = q := by
    simp [Pose.add, Pose.sub]
  rw [hq]
  generalize score init = p0 at h1
  clear hq
  induction fuel generalizing m init p0 with
  | zero => simp [fixedLoop] at h1
  | succ fuel ih =>
    simp only [fixedLoop] at h1
    by_cases hm0 : (0 : BitVec 32) < m
    · rw [if_pos hm0] at h1
      cases hl : lineSearch score init p0 (chooseDirection score dt dO init p0).action
          (chooseDirection score dt dO init p0).dd 4 with
      | some r =>
        rw [hl] at h1
        exact ih _ _ _ h1
      | none =>
        rw [hl] at h1
        simp only at h1
        by_cases h0 : 0 ≤ (chooseDirection score dt dO init p0).diff
        · rw [if_pos h0] at h1
          injection h1 with h1
          injection h1 with a1 h1
          injection h1 with a2 a3
          subst a1; subst a2
          intro action ha s hs
          have := chooseDirection_best score dt dO init b action ha s hs
          linarith
        · rw [if_neg h0] at h1
          exact ih _ _ _ h1
    · rw [if_neg hm0] at h1
      injection h1 with h1
      injection h1 with a1 h1
      injection h1 with a2 a3
      subst a3
      exact absurd (BitVec.not_lt.1 hm0) (by
        intro hle
        exact hm (BitVec.le_zero_iff.1 hle))

/-- The score used in the counterexample: growing with `x` up to 32. -/
def rampScore (p : Pose ℚ) : Option ℚ := some (if p.x ≤ 32 then p.x else 0)

/-- C32 (second half fails): configured with a limit of one, a single call performs two improvements and leaves the
matcher configured with a limit of three; both halves of "at most the configured number, configuration
unchanged" are broken. -/
theorem fixed_limit_counterexample :
    fixedProcess rampScore 1 1 10 1 ⟨0, 0, 0⟩ = some (⟨32, 0, 0⟩, some 32, 3) := by
  decide +kernel

/-- Non-vacuity: a run meeting the hypotheses of `fixed_local_optimum` and of the two theorems before it. -/
example : ∃ delta b m', fixedProcess rampScore 1 1 10 1 ⟨0, 0, 0⟩ = some (delta, some b, m') ∧ m' ≠ 0 :=
  ⟨_, _, _, fixed_limit_counterexample, by decide⟩

/-- C32: the same in plain terms: no pose one linear step away along either axis, or one angular step away, in either
direction, scores higher than the returned one. -/
theorem fixed_local_optimum_neighbours (score : Pose K → Option K) (dt dO : K) (fuel : Nat) (m : BitVec 32)
    (init : Pose K) (delta : Delta K) (b : K) (m' : BitVec 32) (hm : m' ≠ 0)
    (h : fixedProcess score dt dO fuel m init = some (delta, some b, m')) :
    ∀ q ∈ [(⟨init.x + delta.x + dt, init.y + delta.y, init.theta + delta.theta⟩ : Pose K),
        ⟨init.x + delta.x - dt, init.y + delta.y, init.theta + delta.theta⟩,
        ⟨init.x + delta.x, init.y + delta.y + dt, init.theta + delta.theta⟩,
        ⟨init.x + delta.x, init.y + delta.y - dt, init.theta + delta.theta⟩,
        ⟨init.x + delta.x, init.y + delta.y, init.theta + delta.theta + dO⟩,
        ⟨init.x + delta.x, init.y + delta.y, init.theta + delta.theta - dO⟩], ∀ s, score q = some s → s ≤ b := by
  have key := fixed_local_optimum score dt dO fuel m init delta b m' hm h
  intro q hq
  simp only [List.mem_cons, List.not_mem_nil, or_false] at hq
  rcases hq with rfl | rfl | rfl | rfl | rfl | rfl
  · simpa [shiftPose, Pose.add] using key 0 (by norm_num)
  · simpa [shiftPose, Pose.add, sub_eq_add_neg] using key 3 (by norm_num)
  · simpa [shiftPose, Pose.add] using key 4 (by norm_num)
  · simpa [shiftPose, Pose.add, sub_eq_add_neg] using key 1 (by norm_num)
  · simpa [shiftPose, Pose.add] using key 2 (by norm_num)
  · simpa [shiftPose, Pose.add, sub_eq_add_neg] using key 5 (by norm_num)

example : ((fixedProcess (fun q : Pose ℚ => some (if q.y = 1 then (1 : ℚ) else 0)) 1 1 100 5 ⟨0, 0, 0⟩).map
    fun r => (r.1.y, r.2.1)) = some (1, some 1) := by
  decide +kernel

end Slam.ScanMatch
