import Verif.ScanMatch.HillClimb

/-! # C31: Monte Carlo enumeration -/

set_option autoImplicit false
set_option linter.unusedSectionVars false

namespace Slam.ScanMatch
open Slam.Poses

variable {K : Type*} [Field K] [LinearOrder K] [IsStrictOrderedRing K]

/-- C31: from any state of the enumerator and for any stream of random samples and any scoring the matching
run ends, and at most the configured number of poses is tested besides the initial one. -/
theorem monte_carlo_bounded (maxFailed maxPoses : Nat) (trans rot : K) (sample : Nat → K → K → Delta K)
    (score : Pose K → Option K) (s : MCState K) (init : Pose K) :
    ∃ e' delta prob events,
      processScan (monteCarlo maxFailed maxPoses trans rot sample) score (maxPoses + 1) s init
        = some (e', delta, prob, events) ∧ (testedPoses events).length ≤ maxPoses + 1 := by
  have gen : ∀ (n : Nat) (e : MCState K) (b : Pose K) (p : Option K), maxPoses - e.poses = n →
      ∃ ts e' b' p', Tests (monteCarlo maxFailed maxPoses trans rot sample) score e b p ts e' b' p' ∧
        ts.length ≤ n := by
    intro n
    induction n with
    | zero =>
      intro e b p hn
      exact ⟨[], e, b, p, .done _ _ _ (by simp [monteCarlo]; omega), by simp⟩
    | succ n ih =>
      intro e b p hn
      by_cases hh : (monteCarlo maxFailed maxPoses trans rot sample).hasNext e = true
      · have hpos : ∀ ok, maxPoses - ((monteCarlo maxFailed maxPoses trans rot sample).feedback
            ((monteCarlo maxFailed maxPoses trans rot sample).next e b).2 ok).poses = n := by
          intro ok
          have : ((monteCarlo maxFailed maxPoses trans rot sample).feedback
            ((monteCarlo maxFailed maxPoses trans rot sample).next e b).2 ok).poses = e.poses + 1 := by
            simp only [monteCarlo]
            cases ok
            · rfl
            · simp only [Bool.not_true, Bool.false_eq_true, if_false]
              split <;> rfl
          omega
        obtain ⟨ts, e', b', p', h1, h2⟩ := ih _
          (improve score (b, p) [((monteCarlo maxFailed maxPoses trans rot sample).next e b).1]).1
          (improve score (b, p) [((monteCarlo maxFailed maxPoses trans rot sample).next e b).1]).2
          (hpos (ltN p (score ((monteCarlo maxFailed maxPoses trans rot sample).next e b).1)))
        exact ⟨_, e', b', p', (tests_cons_iff _ _ _ _ _ _ _ _ _ hh).2 ⟨ts, rfl, h1⟩, by simpa using h2⟩
      · exact ⟨[], e, b, p, .done _ _ _ (Bool.eq_false_iff.2 hh), by simp⟩
  obtain ⟨ts, e', b', p', h1, h2⟩ := gen maxPoses ((monteCarlo maxFailed maxPoses trans rot sample).reset s) init
    (score init) (by simp [monteCarlo])
  refine ⟨e', b'.sub init, p', _, (processScan_iff _ _ _ _ _ _).2 ⟨ts, e', b', p', by omega, h1, rfl⟩, ?_⟩
  have ht : ∀ (ts : List (Pose K)) (p : Option K) (tl : List (Event K)),
      testedPoses (announce score p ts ++ tl) = ts ++ testedPoses tl := by
    intro ts
    induction ts with
    | nil => intro p tl; rfl
    | cons t ts ih =>
      intro p tl
      unfold announce
      split
      · have := ih (score t) tl
        simp only [testedPoses] at this
        simp [testedPoses, this]
      · have := ih p tl
        simp only [testedPoses] at this
        simp [testedPoses, this]
  have := ht ts (score init) [.finish (b'.sub init) p']
  simp only [testedPoses] at this ⊢
  simp [this]
  omega

/-- C31: the dispersion after any history of accepted/rejected poses. The history splits uniquely into stretches
each of which ends with the acceptance of a pose after more than `maxFailed / 3` rejections (and contains no
earlier such acceptance), and a remainder without one; the dispersions were halved exactly once per stretch and
the failure counter is the number of rejections in the remainder. -/
theorem monte_carlo_dispersion (maxFailed maxPoses : Nat) (trans rot : K) (sample : Nat → K → K → Delta K)
    (s : MCState K) (h : List Bool) :
    let E := monteCarlo maxFailed maxPoses trans rot sample
    let e := h.foldl E.feedback (E.reset s)
    ∃ (blocks : List (List Bool)) (rest : List Bool), h = blocks.flatten ++ rest ∧
      (∀ b ∈ blocks, ShrinkBlock maxFailed b) ∧ NoShrink maxFailed rest ∧
      e.transDisp = trans / 2 ^ blocks.length ∧ e.rotDisp = rot / 2 ^ blocks.length ∧
      e.failed = rest.count false ∧ e.poses = h.length := by
  intro E e
  induction h using List.reverseRecOn with
  | nil => exact ⟨[], [], rfl, by simp, by intro pre suf h; simp at h, by simp [e, E, monteCarlo],
      by simp [e, E, monteCarlo], by simp [e, E, monteCarlo], by simp [e, E, monteCarlo]⟩
  | append_singleton h ok ih =>
    obtain ⟨blocks, rest, h1, h2, h3, h4, h5, h6, h7⟩ := ih
    set e0 := h.foldl E.feedback (E.reset s) with he0
    have he : e = E.feedback e0 ok := by simp [e, he0, List.foldl_append]
    cases ok with
    | false =>
      refine ⟨blocks, rest ++ [false], by simp [h1], h2, ?_, ?_, ?_, ?_, ?_⟩
      · intro pre suf hps
        rcases List.eq_nil_or_concat suf with rfl | ⟨suf', x, rfl⟩
        · have := List.append_inj_right' hps rfl
          simp at this
        · have hps' : rest ++ [false] = (pre ++ true :: suf') ++ [x] := by simpa using hps
          have := List.append_inj_left' hps' rfl
          exact h3 pre suf' this
      · rw [he]; exact h4
      · rw [he]; exact h5
      · rw [he]; simp [E, monteCarlo, h6]
      · rw [he]; simp [E, monteCarlo, h7]
    | true =>
      by_cases hc : e0.failed ≤ maxFailed / 3
      · have hfb : E.feedback e0 true = { e0 with poses := e0.poses + 1 } := by
          simp [E, monteCarlo, hc]
        refine ⟨blocks, rest ++ [true], by simp [h1], h2, ?_, ?_, ?_, ?_, ?_⟩
        · intro pre suf hps
          rcases List.eq_nil_or_concat suf with rfl | ⟨suf', x, rfl⟩
          · have := List.append_inj_left' hps rfl
            subst this
            rw [← h6]; exact hc
          · have hps' : rest ++ [true] = (pre ++ true :: suf') ++ [x] := by simpa using hps
            have := List.append_inj_left' hps' rfl
            exact h3 pre suf' this
        · rw [he, hfb]; exact h4
        · rw [he, hfb]; exact h5
        · rw [he, hfb]; simp [h6]
        · rw [he, hfb]; simp [h7]
      · have hfb : E.feedback e0 true = 
            MCState.mk 0 (e0.poses + 1) (e0.transDisp * (1 / 2)) (e0.rotDisp * (1 / 2)) e0.draws := by
          simp [E, monteCarlo, hc]
        refine ⟨blocks ++ [rest ++ [true]], [], by simp [h1], ?_, by intro pre suf h; simp at h, ?_, ?_, ?_, ?_⟩
        · intro b hb
          rcases List.mem_append.1 hb with hb | hb
          · exact h2 b hb
          · rw [List.mem_singleton.1 hb]
            exact ⟨rest, rfl, by rw [← h6]; omega, h3⟩
        · rw [he, hfb]; simp only [h4, List.length_append, List.length_cons, List.length_nil]
          rw [pow_succ]; field_simp
        · rw [he, hfb]; simp only [h5, List.length_append, List.length_cons, List.length_nil]
          rw [pow_succ]; field_simp
        · rw [he, hfb]; rfl
        · rw [he, hfb]; simp [h7]

/-- C31: for non-negative dispersions, none ever grows, and the enumeration goes on exactly while fewer than the
allowed rejections happened at the current dispersion and fewer than the allowed poses were tested. -/
theorem monte_carlo_monotone (maxFailed maxPoses : Nat) (trans rot : K) (ht : 0 ≤ trans) (hr : 0 ≤ rot)
    (sample : Nat → K → K → Delta K) (s : MCState K) (h : List Bool) (ok : Bool) :
    let E := monteCarlo maxFailed maxPoses trans rot sample
    let e := h.foldl E.feedback (E.reset s)
    0 ≤ (E.feedback e ok).transDisp ∧ (E.feedback e ok).transDisp ≤ e.transDisp ∧
    0 ≤ (E.feedback e ok).rotDisp ∧ (E.feedback e ok).rotDisp ≤ e.rotDisp ∧
    (E.hasNext e = true ↔ e.failed < maxFailed ∧ e.poses < maxPoses) := by
  intro E e
  have key : 0 ≤ e.transDisp ∧ 0 ≤ e.rotDisp := by
    obtain ⟨blocks, rest, _, _, _, h4, h5, _⟩ := monte_carlo_dispersion maxFailed maxPoses trans rot sample s h
    exact ⟨by rw [h4]; positivity, by rw [h5]; positivity⟩
  obtain ⟨k1, k2⟩ := key
  refine ⟨?_, ?_, ?_, ?_, by simp [E, monteCarlo]⟩ <;>
  · cases ok
    · simpa [E, monteCarlo] using (by assumption)
    · simp only [E, monteCarlo, Bool.not_true, Bool.false_eq_true, if_false]
      split <;> simp only <;> linarith

/-- Non-vacuity: a history with one halving (limit 3, so more than one rejection is needed). -/
example : let E := monteCarlo 3 100 (8 : ℚ) 4 (fun _ _ _ => ⟨0, 0, 0⟩)
    let e := [false, true, false, true, true].foldl E.feedback (E.reset ⟨7, 7, 0, 0, 0⟩)
    (e.transDisp, e.rotDisp, e.failed, e.poses) = (4, 2, 0, 5) := by decide +kernel

end Slam.ScanMatch
