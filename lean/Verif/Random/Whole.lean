import Verif.Random.MonteCarlo
import Verif.Whole.RoamLaunch

/-!
# C101: a configured SLAM whose Monte Carlo matcher draws from the seeded generator
-/

set_option autoImplicit false
set_option linter.unusedSectionVars false

namespace Slam.Random
open Slam.Grid Slam.Tbm Slam.Poses Slam.Sensor Slam.Score Slam.Worlds Slam.Matcher Slam.ScanMatch Slam.Whole

variable {E : Type} (N : Engine E) (mk : Int → E)

/-! ## Model -/

/-- `std::mt19937{seed}` for a seed read as `int` and handed over as `unsigned` (src/utils/init_scan_matching.h:129-135,
src/core/scan_matchers/monte_carlo_scan_matcher.h:14-18). -/
def mtSeeded (seed : Int) : Mt := Mt.create (seed % 2 ^ 32).toNat

/-- The matcher `init_scan_matcher` makes before it is wrapped, init_scan_matching.h:195-211 (`Whole.baseOf`), with the generator;
`mk seed` is the engine made from the seed. -/
noncomputable def baseSeeded {C : Type} (cfg : Matcher.Cfg C) (fuel : Nat) : Config.Algo ℝ → Option (Matching C)
  | .monteCarlo seed transl rot failed total =>
    some ⟨MCGen E, enumMachine cfg (gaussianEnum N failed total transl rot) fuel, MCGen.create transl rot (mk seed)⟩
  | a => baseOf cfg fuel (fun _ _ _ _ => ⟨0, 0, 0⟩) a

/-- `init_scan_matcher`, init_scan_matching.h:189-219, as `Whole.matchingOf`. -/
noncomputable def matchingSeeded {C : Type} (cfg : Matcher.Cfg C) (fuel : Nat) (m : Config.Matcher ℝ) : Option (Matching C) :=
  (baseSeeded N mk cfg fuel m.algo).map fun b => if m.drift then ⟨b.T, driftMachine cfg fuel b.machine, b.state⟩ else b

/-- The program of a configuration, src/utils/init_slam.h:12-24, as `Whole.assembleAny`. -/
noncomputable def assembleSeeded (env : Env) (skip : Bool) (w : Config.World ℝ) : Option MProgram :=
  match w.matcher.spe.oope with
  | .std oope oie =>
    let c := configured env skip idleEnumerator w oope oie
    (configuredStart env () w).bind fun s =>
      (matchingSeeded N mk c.matcher env.fuel w.matcher).map fun m =>
        ⟨cellKind w.map.cell, impactOf oie, m.T, ⟨c.slam, c.matcher, m.machine, c.dims, c.origin⟩, ⟨s.st, s.weights, m.state⟩⟩
  | _ => none

/-- The start from the properties `t`, as `Whole.launchAny`. -/
noncomputable def launchSeeded (stod : Config.Str → Option ℝ) (rad : ℝ) (rnd : Nat) (env : Env) (t : Config.Table) :
    Option MProgram :=
  (Config.init1h stod rad rnd t).bind (assembleSeeded N mk env (skipExceeding t))

/-! ## Specification -/

/-- How far a configured matcher may lead (`Whole.MatcherReach`); Monte Carlo by 14 standard deviations at each attempt, provided that its
generator does not keep the distribution's loop running for ever. -/
def SeededReach (b : ℝ) : Config.Algo ℝ → Prop
  | .monteCarlo seed transl rot _ total => Lively N (mk seed) ∧ b = total * (14 * max |transl| |rot|)
  | a => MatcherReach (fun _ _ _ _ => ⟨0, 0, 0⟩) b a

/-! ## Proofs -/

section
variable {N mk} {stod : Config.Str → Option ℝ} {rad : ℝ} {rnd : Nat} {env : Env}
  {t : Config.Table} {skip : Bool} {w : Config.World ℝ} {oope : Config.Oope} {oie : Config.Oie} {b : ℝ}

theorem SeededReach.nonneg {algo : Config.Algo ℝ} (h : SeededReach N mk b algo) : 0 ≤ b := by
  cases algo with
  | monteCarlo a c d e f =>
    obtain ⟨-, rfl⟩ := h
    have := (abs_nonneg c).trans (le_max_left |c| |d|)
    positivity
  | _ => simp only [SeededReach] at h; exact MatcherReach.nonneg (sample := fun _ _ _ _ => ⟨0, 0, 0⟩) h

theorem base_seeded_roams {C : Type} {cfg : Matcher.Cfg C} (hf : 0 < cfg.cellFuel) {algo : Config.Algo ℝ} (h : SeededReach N mk b algo) :
    ∃ (T : Type) (m : Nat → Machine C T) (st : T) (flat : Prop) (ok : ℝ → T → Prop),
      (∀ f, baseSeeded N mk cfg f algo = some ⟨T, m f, st⟩) ∧ Roams m cfg.imp flat ok b ∧ ok 0 st ∧ (flat → Climbs algo) := by
  cases algo with
  | monteCarlo seed tr rot failed total =>
    obtain ⟨h1, rfl⟩ := h
    exact ⟨_, _, _, _, _, fun _ => rfl, seeded_roams hf failed total tr rot, create_good h1, fun h => h.elim⟩
  | _ => simp only [SeededReach] at h; exact base_roams (sample := fun _ _ _ _ => ⟨0, 0, 0⟩) hf h

theorem base_seeded_keeps {C : Type} {cfg : Matcher.Cfg C} {fuel : Nat} {algo : Config.Algo ℝ} {m : Matching C}
    (h : baseSeeded N mk cfg fuel algo = some m) : m.machine.Keeps cfg.imp := by
  cases algo with
  | monteCarlo seed tr rot failed total =>
    simp only [baseSeeded, Option.some.injEq] at h
    subst h
    exact enum_keeps _ _
  | _ => simp only [baseSeeded] at h; exact baseOf_keeps (sample := fun _ _ _ _ => ⟨0, 0, 0⟩) h

theorem matching_seeded_roams {C : Type} {cfg : Matcher.Cfg C} (hf : 0 < cfg.cellFuel) {mc : Config.Matcher ℝ}
    (h : SeededReach N mk b mc.algo) :
    ∃ (T : Type) (m : Nat → Machine C T) (st : T) (flat : Prop) (ok : ℝ → T → Prop),
      (∀ f, matchingSeeded N mk cfg f mc = some ⟨T, m f, st⟩) ∧ Roams m cfg.imp flat ok (b + driftReach mc.drift) ∧ ok 0 st ∧
      (flat → Climbs mc.algo) := by
  obtain ⟨T, m, st, flat, ok, h1, h2, h3, h4⟩ := base_seeded_roams (N := N) (mk := mk) hf h
  by_cases hd : mc.drift = true
  · refine ⟨T, fun f => driftMachine cfg f (m f), st, flat, ok, fun f => ?_, ?_, h3, h4⟩
    · simp only [matchingSeeded, h1 f, Option.map_some, if_pos hd]
    · rw [driftReach, if_pos hd]
      exact drift_roams hf (fun f => base_seeded_keeps (h1 f)) h2
  · refine ⟨T, m, st, flat, ok, fun f => ?_, ?_, h3, h4⟩
    · simp only [matchingSeeded, h1 f, Option.map_some, if_neg hd]
    · rw [driftReach, if_neg hd, add_zero]
      exact h2

theorem matching_seeded_keeps {C : Type} {cfg : Matcher.Cfg C} {fuel : Nat} {mc : Config.Matcher ℝ} {m : Matching C}
    (h : matchingSeeded N mk cfg fuel mc = some m) : m.machine.Keeps cfg.imp := by
  simp only [matchingSeeded, Option.map_eq_some_iff] at h
  obtain ⟨b, h1, h2⟩ := h
  by_cases hd : mc.drift = true
  · rw [if_pos hd] at h2
    subst h2
    exact drift_keeps _ (base_seeded_keeps h1)
  · rw [if_neg hd] at h2
    subst h2
    exact base_seeded_keeps h1

/-- **A configured SLAM with a seeded Monte Carlo matcher never gets stuck (C101).** As `Whole.assembled_any_total`, but nothing is assumed
of the shifts: they come from the generator, and what has to be known of it is that it does not keep the loop of
`std::normal_distribution` running for ever (`Lively`). -/
theorem seeded_slam_total (h : Sensible w) (ho : w.matcher.spe.oope = .std oope oie)
    (hi : Fits (cellKind w.map.cell) (impactOf oie)) (hf : 0 < env.cellFuel) (hm : SeededReach N mk b w.matcher.algo)
    (hk : Climbs w.matcher.algo → w.map.cell ≠ .gmapping)
    (M : Int) (hok : ∀ v, |v| ≤ 6 * M → env.ok v = true) (hl : 4 * M + 2 ≤ env.lineFuel) {R D : ℝ} (hR : 0 ≤ R) (hD : 0 ≤ D)
    (ds : List (Poses.Pose ℝ × Msg ℝ)) (hstr : Strides D ⟨0, 0, 0⟩ ds)
    (hd : ∀ d ∈ ds, Ready skip env.tol w.margin R d.2)
    (hN : ds.length * spread D (b + driftReach w.matcher.drift) R w.map.params.scale ≤ w.map.params.scale * (M - 1)) :
    ∃ (F : Nat) (T : Type) (cfg : Nat → MachCfg (cellKind w.map.cell).Cell (AnyMap (cellKind w.map.cell).Cell) T)
      (start : Mach (AnyMap (cellKind w.map.cell).Cell) T) (ss : List (Mach (AnyMap (cellKind w.map.cell).Cell) T)),
      (∀ f, assembleSeeded N mk { env with fuel := f } skip w = some ⟨cellKind w.map.cell, impactOf oie, T, cfg f, start⟩) ∧
      (∀ f, F ≤ f → start.Visits (cfg f) ds ss) ∧
      ∀ (j : Nat) (s' : Mach (AnyMap (cellKind w.map.cell).Cell) T), ss[j]? = some s' →
        PoseWithin ((j + 1) * spread D (b + driftReach w.matcher.drift) R w.map.params.scale) s'.st.pose := by
  have hr0 : 0 ≤ driftReach w.matcher.drift := by unfold driftReach; by_cases e : w.matcher.drift = true <;> simp [e]
  obtain ⟨s, g1, g2, g3, g4, g5, g6, -, -⟩ := configured_started env hf skip idleEnumerator () w h oope oie hi
  obtain ⟨T, m, st, flat, ok, h1, h2, h3, h4⟩ :=
    matching_seeded_roams (N := N) (mk := mk) (cfg := (configured env skip idleEnumerator w oope oie).matcher) hf hm
  set cfg0 : MachCfg (cellKind w.map.cell).Cell (AnyMap (cellKind w.map.cell).Cell) T :=
    ⟨(configured env skip idleEnumerator w oope oie).slam, (configured env skip idleEnumerator w oope oie).matcher, m 0,
      AnyMap.dims, AnyMap.origin⟩ with hcfg
  have hst : ∀ f, MachStarted (cellKind w.map.cell) (impactOf oie) (cfg0.withMachine (m f)) s.st.map := fun f =>
    ⟨g2.fits, g2.impact, g2.lawful, g2.adder, g2.qualities, g2.scale, g2.fuel, matching_seeded_keeps (h1 f)⟩
  obtain ⟨F, ss, hF, -, hpo⟩ := roam_total (cfg := cfg0) hst h2
    (fun hfl => by
      have := hk (h4 hfl)
      intro e
      cases hc : w.map.cell <;> rw [hc] at e this <;> first | exact this rfl | cases e)
    (add_nonneg hm.nonneg hr0) M hok hl hR hD ds 0 (by rw [zero_add]; exact hN) ⟨s.st, s.weights, st⟩
    ⟨by rw [g5]; simp [PoseWithin], ⟨[], rfl, by simp [SaneT], by simp⟩, h3, g3, g4⟩ (by rw [g6]; exact hstr)
    fun d hd' => ⟨(hd d hd').nan, (hd d hd').angles, (hd d hd').min, (hd d hd').max, (hd d hd').margin⟩
  refine ⟨F, T, fun f => cfg0.withMachine (m f), ⟨s.st, s.weights, st⟩, ss, fun f => ?_, hF, fun j s' hj => (hpo j s' hj).mono (le_of_eq (zero_add _))⟩
  rw [assembleSeeded, ho]
  have e1 : configuredStart { env with fuel := f } () w = some s := g1
  have e2 := h1 f
  simp only [e1, Option.bind_some]
  have e3 : (configured { env with fuel := f } skip idleEnumerator w oope oie).matcher =
    (configured env skip idleEnumerator w oope oie).matcher := rfl
  rw [e3, e2]
  rfl

end

end Slam.Random
