import Verif.Random.Props
import Verif.Matcher.Roam

/-!
# The Monte Carlo matcher with its generator (C101)
-/

set_option autoImplicit false
set_option linter.unusedSectionVars false

namespace Slam.Random
open Slam.ScanMatch
open Slam.Poses (Delta Pose)

/-! ## Specification -/

/-- The shift is one the variables with standard deviations up to `st` and `sr` hand out. -/
def ShiftWithin (st sr : ℝ) (d : Delta ℝ) : Prop := |d.x| ≤ 14 * st ∧ |d.y| ≤ 14 * st ∧ |d.theta| ≤ 14 * sr

variable {E : Type} {N : Engine E}

/-- The states the enumerator is in while the program is not caught in a loop. -/
structure Good (N : Engine E) (st sr : ℝ) (s : MCGen E) : Prop where
  trans : |s.transDisp| ≤ st
  rot : |s.rotDisp| ≤ sr
  gen : ∃ rv e, s.gen = some (rv, e) ∧ rv.Ok ∧ (DeltaRV.normal 0 s.transDisp 0 s.rotDisp).Same rv ∧ Lively N e

/-- The state of the enumerator of C27 with `n` samples drawn. -/
def MCGen.counted (s : MCGen E) (n : Nat) : MCState ℝ := ⟨s.failed, s.poses, s.transDisp, s.rotDisp, n⟩

/-! ## Proofs -/

theorem RV.Same.trans {a b c : RV} (h : a.Same b) (h' : b.Same c) : a.Same c := by
  cases a <;> cases b <;> cases c <;> simp only [RV.Same] at * <;> grind

theorem DeltaRV.Same.trans {a b c : DeltaRV} (h : a.Same b) (h' : b.Same c) : a.Same c :=
  ⟨RV.Same.trans h.1 h'.1, RV.Same.trans h.2.1 h'.2.1, RV.Same.trans h.2.2 h'.2.2⟩

theorem DeltaRV.Same.refl (a : DeltaRV) : a.Same a := by
  obtain ⟨x, y, t⟩ := a
  refine ⟨?_, ?_, ?_⟩
  · cases x <;> exact ⟨rfl, rfl⟩
  · cases y <;> exact ⟨rfl, rfl⟩
  · cases t <;> exact ⟨rfl, rfl⟩

section
variable {st sr : ℝ} {s : MCGen E}

theorem Good.resetShift (h : Good N st sr s) {t r : ℝ} (ht : |t| ≤ st) (hr : |r| ≤ sr) : Good N st sr (s.resetShift t r) := by
  obtain ⟨rv, e, h1, -, -, h4⟩ := h.gen
  refine ⟨ht, hr, DeltaRV.normal 0 t 0 r, e, ?_, DeltaRV.normal_ok _ _ _ _, DeltaRV.Same.refl _, h4⟩
  simp only [MCGen.resetShift, h1, Option.map_some]

theorem Good.some (h : Good N st sr s) : s.gen.isNone = false := by
  obtain ⟨rv, e, h1, -⟩ := h.gen
  rw [h1]; rfl

theorem create_good {trans rot : ℝ} {e : E} (h : Lively N e) : Good N |trans| |rot| (MCGen.create trans rot e) :=
  ⟨le_refl _, le_refl _, DeltaRV.normal 0 trans 0 rot, e, rfl, DeltaRV.normal_ok _ _ _ _, DeltaRV.Same.refl _, h⟩

variable {maxFailed maxPoses : Nat} {trans rot : ℝ}

theorem reset_good (h : Good N st sr s) (ht : |trans| ≤ st) (hr : |rot| ≤ sr) :
    Good N st sr ((gaussianEnum N maxFailed maxPoses trans rot).reset s) := by
  have h' : Good N st sr ({ s with poses := 0 } : MCGen E) := ⟨h.trans, h.rot, h.gen⟩
  exact h'.resetShift ht hr

theorem feedback_good (h : Good N st sr s) (ok : Bool) :
    Good N st sr ((gaussianEnum N maxFailed maxPoses trans rot).feedback s ok) := by
  simp only [gaussianEnum, h.some, Bool.false_eq_true, if_false]
  cases ok with
  | false => exact ⟨h.trans, h.rot, h.gen⟩
  | true =>
    simp only [Bool.not_true, Bool.false_eq_true, if_false]
    by_cases hc : s.failed ≤ maxFailed / 3
    · rw [if_pos hc]; exact ⟨h.trans, h.rot, h.gen⟩
    · rw [if_neg hc]
      have h' : Good N st sr ({ s with poses := s.poses + 1 } : MCGen E) := ⟨h.trans, h.rot, h.gen⟩
      have half : ∀ {a b : ℝ}, |a| ≤ b → |a * (1 / 2)| ≤ b := by
        intro a b hab
        rw [abs_mul, abs_of_pos (by norm_num : (0 : ℝ) < 1 / 2)]
        linarith [abs_nonneg a]
      exact h'.resetShift (half h.trans) (half h.rot)

/-- One pose more: a shift within the bounds. -/
theorem next_good (h : Good N st sr s) (prev : Pose ℝ) : ∃ d s', (gaussianEnum N maxFailed maxPoses trans rot).next s prev = (prev.add d, s') ∧
    ShiftWithin st sr d ∧ Good N st sr s' ∧ s'.failed = s.failed ∧ s'.poses = s.poses ∧ s'.transDisp = s.transDisp ∧
    s'.rotDisp = s.rotDisp := by
  obtain ⟨rv, e, h1, h2, h3, h4⟩ := h.gen
  obtain ⟨r, hr, hl⟩ := delta_sample_lively h2 h4
  obtain ⟨g1, g2, g3, -⟩ := delta_sample h2 hr
  refine ⟨r.1, { s with gen := some r.2 }, ?_, ?_, ⟨h.trans, h.rot, r.2.1, r.2.2, rfl, g3, h3.trans g2, hl⟩, rfl, rfl, rfl, rfl⟩
  · simp only [gaussianEnum, h1, Option.bind_some, hr]
  · obtain ⟨b1, b2, b3⟩ := normal_within h3 g1
    rw [sub_zero] at b1 b2 b3
    exact ⟨b1.trans (by linarith [h.trans]), b2.trans (by linarith [h.trans]), b3.trans (by linarith [h.rot])⟩

theorem hasNext_counted (h : Good N st sr s) (n : Nat) (sample : Nat → ℝ → ℝ → Delta ℝ) :
    (monteCarlo maxFailed maxPoses trans rot sample).hasNext (s.counted n) =
      (gaussianEnum N maxFailed maxPoses trans rot).hasNext s := by
  simp only [gaussianEnum, h.some, Bool.false_or]
  rfl

theorem feedback_counted (h : Good N st sr s) (n : Nat) (sample : Nat → ℝ → ℝ → Delta ℝ) (ok : Bool) :
    (monteCarlo maxFailed maxPoses trans rot sample).feedback (s.counted n) ok =
      ((gaussianEnum N maxFailed maxPoses trans rot).feedback s ok).counted n := by
  simp only [gaussianEnum, h.some, Bool.false_eq_true, if_false, monteCarlo]
  cases ok with
  | false => rfl
  | true =>
    simp only [Bool.not_true, Bool.false_eq_true, if_false]
    by_cases hc : s.failed ≤ maxFailed / 3
    · rw [if_pos hc, if_pos (show (s.counted n).failed ≤ maxFailed / 3 from hc)]; rfl
    · rw [if_neg hc, if_neg (show ¬ (s.counted n).failed ≤ maxFailed / 3 from hc)]; rfl

/-- The samples from number `n` on are those of the list. -/
def Recorded (L : List (Delta ℝ)) (n : Nat) (sample : Nat → ℝ → ℝ → Delta ℝ) : Prop :=
  ∀ i (h : i < L.length) x y, sample (n + i) x y = L[i]

theorem Recorded.tail {d : Delta ℝ} {L : List (Delta ℝ)} {n : Nat} {sample : Nat → ℝ → ℝ → Delta ℝ}
    (h : Recorded (d :: L) n sample) : Recorded L (n + 1) sample := by
  intro i hi x y
  have := h (i + 1) (by simpa using hi) x y
  rw [show n + 1 + i = n + (i + 1) by omega, this]
  rfl

theorem loop_recorded (score : Pose ℝ → Option ℝ) (fuel : Nat) : ∀ (r : Result ℝ (MCGen E)) (n : Nat), Good N st sr r.enum →
    ∃ L : List (Delta ℝ), (∀ d ∈ L, ShiftWithin st sr d) ∧
      (∀ r', loop (gaussianEnum N maxFailed maxPoses trans rot) score fuel r = some r' → Good N st sr r'.enum) ∧
      ∀ sample, Recorded L n sample →
        loop (monteCarlo maxFailed maxPoses trans rot sample) score fuel ⟨r.enum.counted n, r.best, r.prob, r.events⟩ =
          (loop (gaussianEnum N maxFailed maxPoses trans rot) score fuel r).map fun r' =>
            ⟨r'.enum.counted (n + L.length), r'.best, r'.prob, r'.events⟩ := by
  induction fuel with
  | zero => intro r n h; exact ⟨[], by simp, (fun r' h' => by cases h'), fun _ _ => rfl⟩
  | succ fuel ih =>
    intro r n h
    by_cases hn : (gaussianEnum N maxFailed maxPoses trans rot).hasNext r.enum = true
    · obtain ⟨d, s', h1, h2, h3, h4, h5, h6, h7⟩ := next_good (maxFailed := maxFailed) (maxPoses := maxPoses) (trans := trans)
        (rot := rot) h r.best
      have key : ∀ sample, Recorded [d] n sample → (monteCarlo maxFailed maxPoses trans rot sample).next (r.enum.counted n) r.best =
          (r.best.add d, s'.counted (n + 1)) := by
        intro sample hs
        have := hs 0 (by simp) r.enum.transDisp r.enum.rotDisp
        simp only [Nat.add_zero, List.getElem_cons_zero] at this
        simp only [monteCarlo, MCGen.counted, this, h4, h5, h6, h7]
      by_cases hok : ltN r.prob (score (r.best.add d)) = true
      · obtain ⟨L, l1, l2, l3⟩ := ih ⟨(gaussianEnum N maxFailed maxPoses trans rot).feedback s' true, r.best.add d,
          score (r.best.add d), r.events ++ [.test (r.best.add d) (score (r.best.add d)), .update (r.best.add d) (score (r.best.add d))]⟩
          (n + 1) (feedback_good (maxFailed := maxFailed) (maxPoses := maxPoses) (trans := trans) (rot := rot) h3 true)
        refine ⟨d :: L, by simpa using ⟨h2, l1⟩, ?_, fun sample hs => ?_⟩
        · intro r' hr'
          simp only [loop, hn, if_true, h1, hok] at hr'
          exact l2 r' hr'
        · have := l3 sample hs.tail
          have hk := key sample (fun i hi x y => by
            have hi0 : i = 0 := by simpa using hi
            subst hi0
            exact hs 0 (by simp) x y)
          simp only [loop, hasNext_counted h, hn, if_true, h1, hok, hk, feedback_counted h3]
          rw [this, List.length_cons, Nat.add_assoc, Nat.add_comm 1]
      · obtain ⟨L, l1, l2, l3⟩ := ih ⟨(gaussianEnum N maxFailed maxPoses trans rot).feedback s' false, r.best,
          r.prob, r.events ++ [.test (r.best.add d) (score (r.best.add d))]⟩ (n + 1)
          (feedback_good (maxFailed := maxFailed) (maxPoses := maxPoses) (trans := trans) (rot := rot) h3 false)
        rw [Bool.not_eq_true] at hok
        refine ⟨d :: L, by simpa using ⟨h2, l1⟩, ?_, fun sample hs => ?_⟩
        · intro r' hr'
          simp only [loop, hn, if_true, h1, hok, Bool.false_eq_true, if_false] at hr'
          exact l2 r' hr'
        · have := l3 sample hs.tail
          have hk := key sample (fun i hi x y => by
            have hi0 : i = 0 := by simpa using hi
            subst hi0
            exact hs 0 (by simp) x y)
          simp only [loop, hasNext_counted h, hn, if_true, h1, hok, hk, feedback_counted h3, Bool.false_eq_true, if_false]
          rw [this, List.length_cons, Nat.add_assoc, Nat.add_comm 1]
    · rw [Bool.not_eq_true] at hn
      refine ⟨[], by simp, ?_, fun sample _ => ?_⟩
      · intro r' hr'
        simp only [loop, hn, Bool.false_eq_true, if_false, Option.some.injEq] at hr'
        rw [← hr']; exact h
      · simp only [loop, hasNext_counted h, hn, Bool.false_eq_true, if_false, Option.map_some]
        rfl

/-- **The Monte Carlo matcher draws its shifts from its generator (C101)**: matching a scan with the seeded generator is
matching it with some sequence of shifts, each within 14 standard deviations; all that holds for every sequence of shifts holds for the
generator. -/
theorem seeded_matching (h : Good N st sr s) (ht : |trans| ≤ st) (hr : |rot| ≤ sr) (score : Pose ℝ → Option ℝ) (fuel n : Nat)
    (init : Pose ℝ) :
    ∃ L : List (Delta ℝ), (∀ d ∈ L, ShiftWithin st sr d) ∧
      (∀ r, processScan (gaussianEnum N maxFailed maxPoses trans rot) score fuel s init = some r → Good N st sr r.1) ∧
      ∀ sample, Recorded L n sample →
        processScan (monteCarlo maxFailed maxPoses trans rot sample) score fuel (s.counted n) init =
          (processScan (gaussianEnum N maxFailed maxPoses trans rot) score fuel s init).map fun r =>
            (r.1.counted (n + L.length), r.2) := by
  obtain ⟨L, l1, l2, l3⟩ := loop_recorded (maxFailed := maxFailed) (maxPoses := maxPoses) (trans := trans) (rot := rot) score fuel
    ⟨(gaussianEnum N maxFailed maxPoses trans rot).reset s, init, score init,
      [.start init, .test init (score init), .update init (score init)]⟩ n
    (reset_good (maxFailed := maxFailed) (maxPoses := maxPoses) h ht hr)
  refine ⟨L, l1, ?_, fun sample hs => ?_⟩
  · intro r hr'
    simp only [processScan, Option.map_eq_some_iff] at hr'
    obtain ⟨r', e1, rfl⟩ := hr'
    exact l2 r' e1
  · have := l3 sample hs
    have e1 : (monteCarlo maxFailed maxPoses trans rot sample).reset (s.counted n) =
      ((gaussianEnum N maxFailed maxPoses trans rot).reset s).counted n := rfl
    simp only [processScan, e1, this, Option.map_map]
    rfl

end


section
open Slam.Matcher
open Slam.Grid (Point Coord)
open Slam.Score (Spw)
open Slam.Sensor (ScanPoint)
variable {C : Type} {cfg : Cfg C}

theorem ShiftWithin.shift {st sr : ℝ} {d : Delta ℝ} (h : ShiftWithin st sr d) : WithinShift (14 * max st sr) d := by
  obtain ⟨h1, h2, h3⟩ := h
  exact ⟨h1.trans (by linarith [le_max_left st sr]), h2.trans (by linarith [le_max_left st sr]), h3.trans (by linarith [le_max_right st sr])⟩

/-- **Monte Carlo matching with the generator ends and stays near (C101)**: on every map that can be read, from every state of the
generator, for every scan; the shift is at most the number of attempts times 14 standard deviations, and the generator can go on. -/
theorem seeded_on_map (hf : 0 < cfg.cellFuel) {maxFailed maxPoses : Nat} {trans rot st sr : ℝ} (ht : |trans| ≤ st) (hr : |rot| ≤ sr)
    (v : View C) (prob : Point ℝ → Coord → ℝ) (hv : Shows v cfg.imp prob) (hs : 0 < v.scale) (w : Spw) (hw : Spw.Ok w)
    (raw : List ScanPoint) (hfac : ∀ p ∈ raw, p.factor = 1) (init : Pose ℝ) (s : MCGen E) (h : Good N st sr s) :
    ∃ w' s' delta q events, (∀ fuel, maxPoses + 1 ≤ fuel →
        cfg.processScan (gaussianEnum N maxFailed maxPoses trans rot) v fuel w s raw init = some (w', s', delta, q, events)) ∧
      (testedPoses events).length ≤ maxPoses + 1 ∧ WithinShift (maxPoses * (14 * max st sr)) delta ∧ Good N st sr s' := by
  obtain ⟨w1, ws, hws, heq⟩ := matcher_on_map cfg (gaussianEnum N maxFailed maxPoses trans rot) v prob hv hs hf w hw raw hfac init
  obtain ⟨L, l1, l2, l3⟩ := seeded_matching (maxFailed := maxFailed) (maxPoses := maxPoses) h ht hr
    (meanScore prob v.scale ws (usablePoints cfg.filter v.scale v.hasCell init raw)) (maxPoses + 1) 0 init
  set sample : Nat → ℝ → ℝ → Delta ℝ := fun i _ _ => L.getD i ⟨0, 0, 0⟩ with hsam
  have hB : 0 ≤ 14 * max st sr := by
    have := (abs_nonneg trans).trans (ht.trans (le_max_left st sr))
    linarith
  have hrec : Recorded L 0 sample := by
    intro i hi x y
    simp only [hsam, Nat.zero_add, List.getD_eq_getElem?_getD, List.getElem?_eq_getElem hi, Option.getD_some]
  have hbd : ∀ n a b, WithinShift (14 * max st sr) (sample n a b) := by
    intro n a b
    by_cases hn : n < L.length
    · have e := hrec n hn a b
      rw [Nat.zero_add] at e
      rw [e]
      exact (l1 _ (List.getElem_mem hn)).shift
    · simp only [hsam, List.getD_eq_getElem?_getD, List.getElem?_eq_none (not_lt.1 hn), Option.getD_none]
      exact ⟨by simpa using hB, by simpa using hB, by simpa using hB⟩
  have e1 := l3 sample hrec
  obtain ⟨e', delta, q, events, g1, g2⟩ := monte_carlo_bounded maxFailed maxPoses trans rot sample
    (meanScore prob v.scale ws (usablePoints cfg.filter v.scale v.hasCell init raw)) (s.counted 0) init
  rw [g1, eq_comm, Option.map_eq_some_iff] at e1
  obtain ⟨⟨s', r⟩, e2, e3⟩ := e1
  obtain ⟨rfl, rfl⟩ := Prod.mk.injEq .. ▸ e3
  refine ⟨w1, s', delta, q, events, ?_, g2, ?_, l2 _ e2⟩
  · intro fuel hle
    rw [heq, processScan_more hle e2]
    rfl
  · simp only [processScan, Option.map_eq_some_iff, Prod.mk.injEq] at g1
    obtain ⟨r, hr, -, rfl, -, -⟩ := g1
    refine monte_carlo_loop_shift maxFailed maxPoses trans rot _ hB sample hbd _ init _ _ r ?_ ?_ hr
    · simp [monteCarlo]
    · simp [monteCarlo, WithinShift, Poses.Pose.sub]

theorem seeded_roams (hf : 0 < cfg.cellFuel) (maxFailed maxPoses : Nat) (trans rot : ℝ) :
    Roams (fun fuel => enumMachine cfg (gaussianEnum N maxFailed maxPoses trans rot) fuel) cfg.imp False
      (fun _ s => Good N |trans| |rot| s) (maxPoses * (14 * max |trans| |rot|)) := by
  refine ⟨fun _ _ _ _ h => h, ⟨_, fun _ => ⟨rfl, fun _ t h =>
    reset_good (maxFailed := maxFailed) (maxPoses := maxPoses) h (le_refl _) (le_refl _)⟩⟩, ?_⟩
  intro v prob U R Y hv hs _ _ w hw t ht scan hR p hp
  obtain ⟨w', s', delta, q, events, h1, -, ⟨b1, b2, -⟩, h3⟩ := seeded_on_map (maxFailed := maxFailed) (maxPoses := maxPoses) hf
    (le_refl |trans|) (le_refl |rot|) v prob hv hs w hw scan hR.factor p t ht
  refine ⟨maxPoses + 1, w', s', delta, q, ?_, ?_, h3⟩
  · intro fuel hle
    simp only [enumMachine, h1 fuel hle, Option.map_some]
  · exact ⟨(abs_add_le _ _).trans (by linarith [hp.1]), (abs_add_le _ _).trans (by linarith [hp.2])⟩

end

end Slam.Random
