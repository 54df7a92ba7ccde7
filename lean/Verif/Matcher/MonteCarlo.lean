import Verif.Matcher.Props
import Verif.ScanMatch.MonteCarlo

/-!
# C85: Monte Carlo matching on a map
-/

set_option autoImplicit false
set_option linter.unusedSectionVars false

namespace Slam.Matcher
open Slam.Grid Slam.Rect Slam.Sensor Slam.Score Slam.ScanMatch Slam.Cells

/-- Every coordinate of the shift is at most `B` in absolute value. -/
def WithinShift (B : ℝ) (d : Poses.Delta ℝ) : Prop := |d.x| ≤ B ∧ |d.y| ≤ B ∧ |d.theta| ≤ B

theorem monte_carlo_loop_shift (maxFailed maxPoses : Nat) (trans rot B : ℝ) (hB : 0 ≤ B)
    (sample : Nat → ℝ → ℝ → Poses.Delta ℝ) (hsam : ∀ n a b, WithinShift B (sample n a b))
    (score : Poses.Pose ℝ → Option ℝ) (init : Poses.Pose ℝ) (fuel : Nat) :
    ∀ (r r' : Result ℝ (MCState ℝ)), r.enum.poses ≤ maxPoses →
      WithinShift (r.enum.poses * B) (r.best.sub init) →
      loop (monteCarlo maxFailed maxPoses trans rot sample) score fuel r = some r' →
      WithinShift (maxPoses * B) (r'.best.sub init) := by
  induction fuel with
  | zero => intro r r' _ _ h; cases h
  | succ fuel ih =>
    intro r r' hp hw h
    unfold loop at h
    have mono : ∀ (m n : Nat), m ≤ n → ((m : ℝ)) * B ≤ (n : ℝ) * B := fun m n hmn =>
      mul_le_mul_of_nonneg_right (by exact_mod_cast hmn) hB
    have hfp : ∀ (s : MCState ℝ) (ok : Bool),
        ((monteCarlo maxFailed maxPoses trans rot sample).feedback s ok).poses = s.poses + 1 := by
      intro s ok
      simp only [monteCarlo]
      by_cases h1 : (!ok) = true
      · simp [h1]
      · by_cases h2 : s.failed ≤ maxFailed / 3
        · simp [h1, h2]
        · simp [h1, h2]
    by_cases hn : (monteCarlo maxFailed maxPoses trans rot sample).hasNext r.enum = true
    · rw [if_pos hn] at h
      have hlt : r.enum.poses < maxPoses := by
        simp [monteCarlo] at hn
        exact hn.2
      have hnp : ((monteCarlo maxFailed maxPoses trans rot sample).next r.enum r.best).2.poses = r.enum.poses := rfl
      obtain ⟨s1, s2, s3⟩ := hsam r.enum.draws r.enum.transDisp r.enum.rotDisp
      obtain ⟨w1, w2, w3⟩ := hw
      simp only at h
      by_cases ha : ltN r.prob (score ((monteCarlo maxFailed maxPoses trans rot sample).next r.enum r.best).1) = true
      · rw [if_pos ha] at h
        refine ih _ r' ?_ ?_ h
        · simp only [hfp, hnp]; omega
        · simp only [hfp, hnp]
          simp only [Poses.Pose.sub] at w1 w2 w3
          simp only [monteCarlo, Poses.Pose.add, Poses.Pose.sub, WithinShift]
          push_cast
          rw [abs_le] at s1 s2 s3 w1 w2 w3
          refine ⟨?_, ?_, ?_⟩ <;> rw [abs_le] <;> constructor <;>
            linarith [s1.1, s1.2, s2.1, s2.2, s3.1, s3.2, w1.1, w1.2, w2.1, w2.2, w3.1, w3.2]
      · rw [if_neg ha] at h
        refine ih _ r' ?_ ?_ h
        · simp only [hfp, hnp]; omega
        · simp only [hfp, hnp]
          have hm := mono r.enum.poses (r.enum.poses + 1) (by omega)
          exact ⟨w1.trans hm, w2.trans hm, w3.trans hm⟩
    · rw [if_neg hn, Option.some.injEq] at h
      subst h
      have hm := mono _ _ hp
      exact ⟨hw.1.trans hm, hw.2.1.trans hm, hw.2.2.trans hm⟩

/-- **Monte Carlo matching on a map (C85)**: it always ends, after at most the configured number of attempts; if the
random shifts are bounded the returned shift is at most the number of attempts times their bound. -/
theorem monte_carlo_on_map {C : Type} (cfg : Cfg C) (maxFailed maxPoses : Nat) (trans rot : ℝ)
    (sample : Nat → ℝ → ℝ → Poses.Delta ℝ) (v : View C) (prob : Point ℝ → Coord → ℝ) (h : Shows v cfg.imp prob)
    (hs : 0 < v.scale) (hf : 0 < cfg.cellFuel) (w : Spw) (hw : Spw.Ok w) (raw : List ScanPoint)
    (hfac : ∀ p ∈ raw, p.factor = 1) (init : Poses.Pose ℝ) (e : MCState ℝ) :
    ∃ w' e' delta s events,
      cfg.processScan (monteCarlo maxFailed maxPoses trans rot sample) v (maxPoses + 1) w e raw init =
        some (w', e', delta, s, events) ∧
      (testedPoses events).length ≤ maxPoses + 1 ∧
      ∀ B, 0 ≤ B → (∀ n a b, WithinShift B (sample n a b)) → WithinShift (maxPoses * B) delta := by
  obtain ⟨w', ws, hws, heq⟩ := matcher_on_map cfg (monteCarlo maxFailed maxPoses trans rot sample) v prob h hs hf w hw raw
    hfac init
  obtain ⟨e', delta, s, events, h1, h2⟩ := monte_carlo_bounded maxFailed maxPoses trans rot sample
    (meanScore prob v.scale ws (usablePoints cfg.filter v.scale v.hasCell init raw)) e init
  refine ⟨w', e', delta, s, events, by rw [heq, h1]; rfl, h2, ?_⟩
  intro B hB hsam
  simp only [processScan, Option.map_eq_some_iff, Prod.mk.injEq] at h1
  obtain ⟨r, hr, -, rfl, -, -⟩ := h1
  refine monte_carlo_loop_shift maxFailed maxPoses trans rot B hB sample hsam _ init _ _ r ?_ ?_ hr
  · simp [monteCarlo]
  · simp [monteCarlo, WithinShift, Poses.Pose.sub]

/-- The hypotheses hold. -/
example (sample : Nat → ℝ → ℝ → Poses.Delta ℝ) : ∃ w' e' delta s events,
    (demoCfg 0).processScan (monteCarlo 20 100 (1 / 10) (1 / 100) sample) demoView 101 (.even 1)
      ⟨0, 0, 0, 0, 0⟩ demoScan ⟨0, 0, 0⟩ = some (w', e', delta, s, events) := by
  obtain ⟨w', e', delta, s, events, h, -⟩ := monte_carlo_on_map (demoCfg 0) 20 100 (1 / 10) (1 / 100) sample demoView _
    (naive_shows demoView demo_unit).1 (by norm_num [demoView]) (by norm_num [demoCfg]) (.even 1) (by intro h e; cases e)
    demoScan (by simp [demoScan, ScanPoint.factor]) ⟨0, 0, 0⟩ ⟨0, 0, 0, 0, 0⟩
  exact ⟨w', e', delta, s, events, h⟩

end Slam.Matcher
