import Verif.Whole.ConfiguredProps

/-!
# The program with the brute force matcher (C88)
-/

set_option autoImplicit false
set_option linter.unusedSectionVars false

namespace Slam.Whole
open Slam.Grid Slam.Cells Slam.Poses Slam.Sensor Slam.Score Slam.ScanAdder Slam.Worlds Slam.Tbm
open Slam.Matcher Slam.ScanMatch
open Slam.Estimator (UnitOcc Est Cmp)

variable {M : Type} {k : CellKind} {i : Impact} {init : M}

/-- Two runs that end have the same outcome, whatever the bounds on their lengths. -/
theorem processScan_unique {S : Type} (E : ScanMatch.Enumerator ℝ S) (score : Poses.Pose ℝ → Option ℝ) {f g : Nat} (e : S)
    (p : Poses.Pose ℝ) {a b : S × Delta ℝ × Option ℝ × List (Event ℝ)} (ha : processScan E score f e p = some a)
    (hb : processScan E score g e p = some b) : a = b := by
  have up : ∀ {f a} F, f ≤ F → processScan E score f e p = some a → processScan E score F e p = some a := by
    intro f a F hF h
    rw [processScan_iff] at h ⊢
    obtain ⟨ts, e', b', p', h1, h2, h3⟩ := h
    exact ⟨ts, e', b', p', by omega, h2, h3⟩
  have h1 := up (max f g) (le_max_left _ _) ha
  rw [up (max f g) (le_max_right _ _) hb] at h1
  exact (Option.some.inj h1).symm

/-- **Brute force in the running program (C88)**: a message is matched by trying the pose the odometry predicts and all poses
of the configured grid around a base pose: the one of the earlier messages, if there was one, else the predicted pose; this
base is kept. -/
theorem own_brute_force_message {cfg : OwnCfg k.Cell M (BFState ℝ)} (hc : Started k i cfg init) (P : BFParams ℝ) (hP : P.Ok)
    (hE : cfg.enumerator = bruteForce P) {s s' : Own M (BFState ℝ)} (hs : Sound cfg init s) {d : Poses.Pose ℝ × Msg ℝ}
    (h : s.handle cfg d = some s') :
    ∃ scan p, ScanOf cfg.slam d.2 scan ∧ p = s.st.pose.add (d.1.sub s.st.odom) ∧
      s'.enum.base = some (s.enum.base.getD p) ∧
      ((∃ sp ∈ cfg.usable p scan, 0 < sp.range) →
        ∃ ws score, Weights s.weights s'.weights (cfg.usable p scan) ws ∧
          FirstMax (meanScore (seenProb k i cfg.slam.api s.st.map) cfg.slam.scale ws (cfg.usable p scan))
            (p :: (searchGrid P).map (around (s.enum.base.getD p))) s'.st.pose score) := by
  simp only [Own.handle, Option.bind_eq_some_iff, Option.map_eq_some_iff] at h
  obtain ⟨pts, e1, scan, e2, r, e3, a, -, rfl⟩ := h
  obtain ⟨w', ws, g1, g2⟩ := matching_spec hc hs scan (scanOf_polar e2) (s.st.pose.add (observerStep s.st.odom d.1).2)
  rw [g2, Option.map_eq_some_iff] at e3
  obtain ⟨r', e3, rfl⟩ := e3
  rw [hE] at e3
  obtain ⟨eN, delta, prob, fuel, b1, b2⟩ := brute_force_run P hP
    (meanScore (seenProb k i cfg.slam.api s.st.map) cfg.slam.scale ws
      (cfg.usable (s.st.pose.add (observerStep s.st.odom d.1).2) scan)) ((bruteForce P).reset s.enum)
    (s.st.pose.add (observerStep s.st.odom d.1).2)
  have hr := processScan_unique _ _ _ _ e3 b2
  subst hr
  refine ⟨scan, _, ⟨pts, e1, e2⟩, rfl, b1, fun hu => ⟨ws, ?_⟩⟩
  have hpos := weights_sum_pos g1 hu
  obtain ⟨s0, hi⟩ : ∃ s0, meanScore (seenProb k i cfg.slam.api s.st.map) cfg.slam.scale ws
      (cfg.usable (s.st.pose.add (observerStep s.st.odom d.1).2) scan) (s.st.pose.add (observerStep s.st.odom d.1).2) =
      some s0 := by
    unfold meanScore; rw [if_neg hpos.ne']; exact ⟨_, rfl⟩
  obtain ⟨p, sc, -, h4, -, h5⟩ := enumeration_returns_first_maximum _ _ _ _ _ _ hi _ _ _ _ b2
  refine ⟨sc, g1, ?_⟩
  subst h4
  have ht : testedPoses (.start (s.st.pose.add (observerStep s.st.odom d.1).2) ::
      .test (s.st.pose.add (observerStep s.st.odom d.1).2)
        (meanScore (seenProb k i cfg.slam.api s.st.map) cfg.slam.scale ws
          (cfg.usable (s.st.pose.add (observerStep s.st.odom d.1).2) scan) (s.st.pose.add (observerStep s.st.odom d.1).2)) ::
      .update (s.st.pose.add (observerStep s.st.odom d.1).2)
        (meanScore (seenProb k i cfg.slam.api s.st.map) cfg.slam.scale ws
          (cfg.usable (s.st.pose.add (observerStep s.st.odom d.1).2) scan) (s.st.pose.add (observerStep s.st.odom d.1).2)) ::
      (announce (meanScore (seenProb k i cfg.slam.api s.st.map) cfg.slam.scale ws
          (cfg.usable (s.st.pose.add (observerStep s.st.odom d.1).2) scan))
        (meanScore (seenProb k i cfg.slam.api s.st.map) cfg.slam.scale ws
          (cfg.usable (s.st.pose.add (observerStep s.st.odom d.1).2) scan) (s.st.pose.add (observerStep s.st.odom d.1).2))
        ((searchGrid P).map (around (((bruteForce P).reset s.enum).base.getD (s.st.pose.add (observerStep s.st.odom d.1).2)))) ++
        [.finish delta prob])) =
      s.st.pose.add (observerStep s.st.odom d.1).2 ::
        (searchGrid P).map (around (s.enum.base.getD (s.st.pose.add (observerStep s.st.odom d.1).2))) := by
    have := testedPoses_announce (meanScore (seenProb k i cfg.slam.api s.st.map) cfg.slam.scale ws
          (cfg.usable (s.st.pose.add (observerStep s.st.odom d.1).2) scan))
        ((searchGrid P).map (around (((bruteForce P).reset s.enum).base.getD (s.st.pose.add (observerStep s.st.odom d.1).2))))
        (meanScore (seenProb k i cfg.slam.api s.st.map) cfg.slam.scale ws
          (cfg.usable (s.st.pose.add (observerStep s.st.odom d.1).2) scan) (s.st.pose.add (observerStep s.st.odom d.1).2))
        [.finish delta prob]
    simp only [testedPoses] at this ⊢
    simp only [List.filterMap_cons, this]
    simp [bruteForce]
  rw [ht] at h5
  exact h5

/-- The base pose never changes after the first message. -/
theorem own_brute_force_base {cfg : OwnCfg k.Cell M (BFState ℝ)} (hc : Started k i cfg init) (P : BFParams ℝ) (hP : P.Ok)
    (hE : cfg.enumerator = bruteForce P) (ds : List (Poses.Pose ℝ × Msg ℝ)) {s s' : Own M (BFState ℝ)} (hs : Sound cfg init s)
    {b : Poses.Pose ℝ} (hb : s.enum.base = some b) (h : s.run cfg ds = some s') : s'.enum.base = some b := by
  induction ds generalizing s with
  | nil =>
    simp only [Own.run, Option.some.injEq] at h
    subst h
    exact hb
  | cons d ds ih =>
    simp only [Own.run, Option.bind_eq_some_iff] at h
    obtain ⟨s1, h1, h2⟩ := h
    obtain ⟨_, _, _, _, e, _⟩ := own_brute_force_message hc P hP hE hs h1
    exact ih (handle_sound hc hs h1) (by rw [e, hb]; rfl) h2

section
variable {stod : Config.Str → Option ℝ} {rad : ℝ} {rnd : Nat} {env : Env} {sample : Int → Nat → ℝ → ℝ → Delta ℝ}
  {t : Config.Table} {w : Config.World ℝ} {oope : Config.Oope} {oie : Config.Oie}

/-- **A configured brute force SLAM searches around where it started (C88).** However far the robot has gone, a message is
matched by trying the pose the odometry predicts and the configured grid of poses around the odometry pose of the *first*
message. So no matching corrects the pose once the robot is farther away than the grid reaches: it stays with the odometry or
jumps back to the start. -/
theorem launched_brute_force (hw : Config.init1h stod rad rnd t = some w) (h : Sensible w)
    (ho : w.matcher.spe.oope = .std oope oie) (hi : Fits (cellKind w.map.cell) (impactOf oie)) (hf : 0 < env.cellFuel)
    (hdr : w.matcher.drift = false) {x y th : Config.Sweep ℝ} (ha : w.matcher.algo = .bruteForce x y th)
    (hx : x.from_ ≤ x.to_ ∧ 0 < x.step) (hy : y.from_ ≤ y.to_ ∧ 0 < y.step) (ht : th.from_ ≤ th.to_ ∧ 0 < th.step) :
    ∃ P, launch stod rad rnd env sample t = some P ∧
      ∀ (d0 : Poses.Pose ℝ × Msg ℝ) ds s1 d s2, P.start.run P.cfg (d0 :: ds) = some s1 → s1.handle P.cfg d = some s2 →
        ∃ scan p, ScanOf P.cfg.slam d.2 scan ∧ p = s1.st.pose.add (d.1.sub s1.st.odom) ∧
          ((∃ sp ∈ P.cfg.usable p scan, 0 < sp.range) →
            ∃ ws score, Weights s1.weights s2.weights (P.cfg.usable p scan) ws ∧
              FirstMax (meanScore (seenProb P.kind P.impact P.cfg.slam.api s1.st.map) P.cfg.slam.scale ws (P.cfg.usable p scan))
                (p :: (searchGrid (bfParams x y th)).map (around d0.1)) s2.st.pose score) := by
  have hP : (bfParams x y th).Ok := ⟨hx.1, hy.1, ht.1, hx.2, hy.2, ht.2⟩
  obtain ⟨s, h1, h2, h3, h4, h5, h6, h7, -⟩ := configured_started env hf (skipExceeding t)
    (bruteForce (bfParams x y th)) (BFState.init (bfParams x y th)) w h oope oie hi
  refine ⟨⟨cellKind w.map.cell, impactOf oie, BFState ℝ,
    configured env (skipExceeding t) (bruteForce (bfParams x y th)) w oope oie, s⟩, ?_, ?_⟩
  · rw [launch, hw, Option.bind_some, hdr, ho, ha]
    simp [programOf, h1]
  · intro d0 ds s1 d s2 hr hd
    have hr' := hr
    simp only [Own.run, Option.bind_eq_some_iff] at hr
    obtain ⟨s0, r1, r2⟩ := hr
    have hS := start_sound (configured env (skipExceeding t) (bruteForce (bfParams x y th)) w oope oie) s h3
    obtain ⟨_, p0, _, e1, e2, _⟩ := own_brute_force_message h2 (bfParams x y th) hP rfl hS r1
    have hp0 : p0 = d0.1 := by
      rw [e1, h5, h6]
      simp [Poses.Pose.add, Poses.Pose.sub]
    have hb : s0.enum.base = some d0.1 := by rw [e2, h7, hp0]; rfl
    have hb1 := own_brute_force_base h2 (bfParams x y th) hP rfl ds (handle_sound h2 hS r1) hb r2
    obtain ⟨scan, p, q1, q2, -, q4⟩ := own_brute_force_message h2 (bfParams x y th) hP rfl
      (run_sound h2 (d0 :: ds) hS hr') hd
    rw [hb1] at q4
    exact ⟨scan, p, q1, q2, q4⟩

end

end Slam.Whole
