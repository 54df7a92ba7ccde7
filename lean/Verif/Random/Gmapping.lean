import Verif.Random.Filter
import Verif.Whole.GmappingLaunch

/-!
# The configured GMapping with its generators (C103)
-/

set_option autoImplicit false
set_option linter.unusedSectionVars false

namespace Slam.Random
open Slam.Poses (Delta Pose)
open Slam.Particle (World)
open Slam.Whole (GOwn GOwnCfg GMsg GProgram GMatch AnyMap observeOwn)
open Slam.Worlds (observerStep)
open Slam.Worlds (Msg msg2scan)

variable {E : Type} (N : Engine E) {M : Type}

/-! ## Model -/

/-- The state of GMapping, and the random parts of its particles. -/
structure GSeeded (E M : Type) where
  own : GOwn M
  rng : Nat → Rng E

/-- What a message brings: the odometry's pose, the scan, and the engine that the resampler makes if it resamples
(src/core/particle_filter.h:51-56). -/
structure SMsg (E : Type) where
  odom : Pose ℝ
  msg : Msg ℝ
  engine : E

/-- The filter after the odometry's step, gmapping_particle_filter.h:52-57. -/
noncomputable def GSeeded.moved (s : GSeeded E M) (d : SMsg E) : Particle.Filter ℝ :=
  s.own.st.filter.updatePose Real.sin Real.cos (observerStep s.own.st.odom d.odom).2

/-- What the particles draw at a message, gmapping_world.h:82-84 and 95 (`drawFor`). The particles' draws are independent of each other, so it
does not matter that the code draws in the middle of the loop. `none`: the program is caught in a loop. -/
noncomputable def GSeeded.draws (s : GSeeded E M) (d : SMsg E) : Option (Nat → Delta ℝ × Delta ℝ × Rng E) :=
  let f := s.moved d
  if f.ids.all fun i => (drawFor N (f.heap i) (s.rng i)).isSome then
    some fun i =>
      if i ∈ f.ids then (drawFor N (f.heap i) (s.rng i)).getD (⟨0, 0, 0⟩, ⟨0, 0, 0⟩, s.rng i) else (⟨0, 0, 0⟩, ⟨0, 0, 0⟩, s.rng i)
  else none

/-- The message of `GOwn` with these draws. -/
noncomputable def GSeeded.message (s : GSeeded E M) (d : SMsg E) (at_ : Nat → Delta ℝ × Delta ℝ × Rng E) : GMsg :=
  ⟨d.odom, d.msg, fun i => (at_ i).1, fun i => (at_ i).2.1, uniformDraws N d.engine (s.moved d).ids.length⟩

/-- `handle_transformed_msg`, laser_scan_observer.h:28-38, and `handle_sensor_data`, gmapping_particle_filter.h:45-85, as
`GOwn.handle`, with the particles' own generators. -/
noncomputable def GSeeded.handle (cfg : GOwnCfg M) (s : GSeeded E M) (d : SMsg E) : Option (GSeeded E M) :=
  (msg2scan d.msg cfg.slam.skipMax cfg.slam.tol).bind fun pts =>
    (Whole.scanOf pts).bind fun scan =>
      (s.draws N d).bind fun at_ =>
        let f := s.moved d
        (observeOwn cfg (s.message N d at_) scan f.ids f.heap f.maps s.own.st.map s.own.st.hist s.own.matcher).bind fun r =>
          (SFilter.gTryResample N ⟨({ f with heap := r.1, maps := r.2.1 } : Particle.Filter ℝ).normalize, fun i => (at_ i).2.2⟩ d.engine).map fun t =>
            ⟨⟨⟨(observerStep s.own.st.odom d.odom).1, t.filter, r.2.2.1, r.2.2.2.1⟩, r.2.2.2.2⟩, t.rng⟩

/-- A history of messages. -/
noncomputable def GSeeded.run (cfg : GOwnCfg M) (s : GSeeded E M) : List (SMsg E) → Option (GSeeded E M)
  | [] => some s
  | d :: ds => (GSeeded.handle N cfg s d).bind fun s => GSeeded.run cfg s ds

/-- GMapping with its generators, ready to handle messages. -/
structure GSeededProgram (E : Type) where
  cfg : GOwnCfg (AnyMap (Cells.GmCell ℝ))
  start : GSeeded E (AnyMap (Cells.GmCell ℝ))

/-- The start of GMapping from the properties, as `launchGmapping`; the `k`-th particle is made with the engine `engines k`
(gmapping_world.h:51) and the configured variables (init_gmapping.h:15-34, gmapping_world.h:24-34). -/
noncomputable def launchSeededGmapping (stod : Config.Str → Option ℝ) (env : Whole.Env) (rnd : ℝ → ℝ) (engines : Nat → E) (t : Config.Table) :
    Option (GSeededProgram E) :=
  (Config.initGmapping stod t).bind fun r =>
    match r.1.matcher.algo, r.1.matcher.spe.oope with
    | .hillClimbing failed transl rot _, .gmapping fullness window =>
      (Whole.gMapOf env.rate r.1.map.params).bind fun m =>
        (SFilter.create N (guessRV r.2.1.meanXY r.2.1.sigmaXY r.2.1.meanTh r.2.1.sigmaTh)
            (stepRV r.2.1.minXY r.2.1.maxXY r.2.1.minTh r.2.1.maxTh) ((List.range r.2.2).map engines)).map fun s =>
          ⟨Whole.gConfigured env (Whole.skipExceeding t) rnd r.1 failed transl rot,
            ⟨⟨⟨⟨0, 0, 0⟩, s.filter, m, Whole.histOf r.1.adder⟩, GMatch.create (Whole.spwOf r.1.matcher.spe.spw) fullness window transl rot⟩,
              s.rng⟩⟩
    | _, _ => none

/-! ## Specification -/

/-- The same message, with noise, steps and samples that the configuration allows. -/
structure Drawn (guess step : DeltaRV) (n : Nat) (d : SMsg E) (g : GMsg) : Prop where
  odom : g.odom = d.odom
  msg : g.msg = d.msg
  noise : ∀ i, Allowed guess (g.guess i)
  steps : ∀ i, Allowed step (g.nextSm i)
  samples : g.samples.length = n ∧ ∀ s ∈ g.samples, 0 ≤ s ∧ s < 1

/-! ## Proofs -/

section
variable {N} {guess step : DeltaRV}

theorem observeOwn_noisy (cfg : GOwnCfg M) (d : GMsg) (scan : List Sensor.ScanPoint) (ids : List Nat) :
    ∀ (h : Nat → World ℝ) (ms : Nat → List (Pose ℝ)) (m : M) (hist : Option Score.Hist) (g : GMatch) {r},
      observeOwn cfg d scan ids h ms m hist g = some r → ∀ j, (r.1 j).noisy = (h j).noisy := by
  induction ids with
  | nil =>
    intro h ms m hist g r hr j
    simp only [observeOwn, Option.some.injEq] at hr
    subst hr
    rfl
  | cons i ids ih =>
    intro h ms m hist g r hr j
    simp only [observeOwn] at hr
    by_cases ht : (h i).tooClose = true
    · rw [if_pos ht] at hr
      exact ih _ _ _ _ _ hr j
    · rw [if_neg ht, Option.bind_eq_some_iff] at hr
      obtain ⟨a, -, hr⟩ := hr
      have key : ∀ e : Particle.Env ℝ, ∀ j, (Particle.setObj h i ((h i).handleObservation e).1 j).noisy = (h j).noisy := by
        intro e j
        unfold Particle.setObj
        by_cases hj : j = i
        · rw [if_pos hj, hj]; exact (Particle.handleObservation_fields _ _).2.1
        · rw [if_neg hj]
      cases hp : ((h i).handleObservation ⟨d.guess i, fun _ => a.2.1, d.nextSm i⟩).2 with
      | none =>
        simp only [hp] at hr
        rw [ih _ _ _ _ _ hr j]
        exact key _ j
      | some p =>
        simp only [hp, Option.bind_eq_some_iff] at hr
        obtain ⟨q, -, hr⟩ := hr
        rw [ih _ _ _ _ _ hr j]
        exact key _ j

/-- The random parts are in order, and there are `n` particles as the theorems about the filter want them. -/
structure GSeeded.Sound (N : Engine E) (guess step : DeltaRV) (n : Nat) (s : GSeeded E M) : Prop where
  inv : Particle.Inv n s.own.st.filter
  rng : (⟨s.own.st.filter, s.rng⟩ : SFilter E).Sound N guess step

theorem moved_noisy (s : GSeeded E M) (d : SMsg E) (i : Nat) : ((s.moved d).heap i).noisy = (s.own.st.filter.heap i).noisy := by
  have key : ∀ (ids : List Nat) (h : Nat → World ℝ) (j : Nat),
      (Particle.forEach (fun w => w.updatePose Real.sin Real.cos (observerStep s.own.st.odom d.odom).2) h ids j).noisy = (h j).noisy := by
    intro ids
    induction ids with
    | nil => intro h j; rfl
    | cons k ids ih =>
      intro h j
      simp only [Particle.forEach, List.foldl_cons] at ih ⊢
      rw [ih]
      unfold Particle.setObj
      by_cases hj : j = k
      · rw [if_pos hj, hj]; rfl
      · rw [if_neg hj]
  exact key _ _ _

theorem draws_some {n : Nat} {s : GSeeded E M} (hs : s.Sound N guess step n) (d : SMsg E) :
    ∃ at_, s.draws N d = some at_ ∧ Drawn guess step n d (s.message N d at_) ∧
      ∀ i ∈ s.own.st.filter.ids, SoundAt N guess step (s.own.st.filter.heap i).noisy (at_ i).2.2 := by
  have hdr : ∀ i ∈ (s.moved d).ids, ∃ r, drawFor N ((s.moved d).heap i) (s.rng i) = some r ∧
      SoundAt N guess step ((s.moved d).heap i).noisy r.2.2 ∧ Allowed guess r.1 ∧ Allowed step r.2.1 ∧ (((s.moved d).heap i).noisy = false → r.1 = ⟨0, 0, 0⟩) :=
    fun i hi => SoundAt.drawFor (by rw [moved_noisy]; exact hs.rng i hi)
  have hall : ((s.moved d).ids.all fun i => (drawFor N ((s.moved d).heap i) (s.rng i)).isSome) = true := by
    rw [List.all_eq_true]
    intro i hi
    obtain ⟨r, hr, -⟩ := hdr i hi
    rw [hr]; rfl
  have hl : (s.moved d).ids.length = n := hs.inv.length
  refine ⟨_, by unfold GSeeded.draws; rw [if_pos hall], ⟨rfl, rfl, ?_, ?_, ?_⟩, ?_⟩
  · intro i
    simp only [GSeeded.message]
    by_cases hi : i ∈ (s.moved d).ids
    · obtain ⟨r, hr, -, h2, -⟩ := hdr i hi
      rw [if_pos hi, hr]
      exact h2
    · rw [if_neg hi]; exact .inr rfl
  · intro i
    simp only [GSeeded.message]
    by_cases hi : i ∈ (s.moved d).ids
    · obtain ⟨r, hr, -, -, h2, -⟩ := hdr i hi
      rw [if_pos hi, hr]
      exact h2
    · rw [if_neg hi]; exact .inr rfl
  · simp only [GSeeded.message, hl]
    exact uniform_draws_unit d.engine n
  · intro i hi
    obtain ⟨r, hr, h1, -⟩ := hdr i hi
    have hi' : i ∈ (s.moved d).ids := hi
    simp only [if_pos hi', hr, Option.getD_some]
    rw [← moved_noisy s d]
    exact h1

/-- **One message (C103)**: GMapping with its generators does what GMapping does with what is drawn, and its random parts stay in order. -/
theorem gseeded_step {cfg : GOwnCfg M} {n : Nat} {s : GSeeded E M} (hs : s.Sound N guess step n) (d : SMsg E) :
    ∃ g : GMsg, Drawn guess step n d g ∧ (s.handle N cfg d).map GSeeded.own = s.own.handle cfg g ∧
      ∀ s', s.handle N cfg d = some s' → Particle.Inv n s'.own.st.filter → s'.Sound N guess step n := by
  obtain ⟨at_, h1, h2, h3⟩ := draws_some hs d
  refine ⟨s.message N d at_, h2, ?_, ?_⟩
  · unfold GSeeded.handle GOwn.handle
    simp only [h1, Option.bind_some]
    have em : (s.message N d at_).msg = d.msg := rfl
    have eo : (s.message N d at_).odom = d.odom := rfl
    rw [em, eo]
    cases hm : msg2scan d.msg cfg.slam.skipMax cfg.slam.tol with
    | none => rfl
    | some pts =>
      simp only [Option.bind_some]
      cases hsc : Whole.scanOf pts with
      | none => rfl
      | some scan =>
        simp only [Option.bind_some]
        have ef : s.own.st.filter.updatePose Real.sin Real.cos (observerStep s.own.st.odom d.odom).2 = s.moved d := rfl
        rw [ef]
        cases hob : observeOwn cfg (s.message N d at_) scan (s.moved d).ids (s.moved d).heap (s.moved d).maps s.own.st.map s.own.st.hist s.own.matcher with
        | none => rfl
        | some r =>
          simp only [Option.bind_some]
          have hp := SFilter.gTryResample_filter (N := N)
            (⟨({ s.moved d with heap := r.1, maps := r.2.1 } : Particle.Filter ℝ).normalize, fun i => (at_ i).2.2⟩ : SFilter E) d.engine
          have es : (s.message N d at_).samples = uniformDraws N d.engine (s.moved d).ids.length := rfl
          rw [es]
          have el : (⟨({ s.moved d with heap := r.1, maps := r.2.1 } : Particle.Filter ℝ).normalize, fun i => (at_ i).2.2⟩ : SFilter E).filter.ids.length =
            (s.moved d).ids.length := rfl
          rw [el] at hp
          simp only at hp
          rw [← hp, Option.map_map, Option.map_map]
          rfl
  · intro s' hh hinv
    unfold GSeeded.handle at hh
    simp only [h1, Option.bind_eq_some_iff, Option.map_eq_some_iff, Option.some.injEq] at hh
    obtain ⟨pts, -, scan, -, at', rfl, r, hr, t, ht, rfl⟩ := hh
    refine ⟨hinv, ?_⟩
    refine gTryResample_sound (s := ⟨_, _⟩) ?_ ?_ ht
    · exact hs.inv.below
    · intro i hi
      have hnoisy : ((({ s.moved d with heap := r.1, maps := r.2.1 } : Particle.Filter ℝ).normalize).heap i).noisy =
          (s.own.st.filter.heap i).noisy := by
        have e1 := (forEach_same (g := fun w => { w with
          weight := Particle.divN w.weight (Particle.sumN ({ s.moved d with heap := r.1, maps := r.2.1 } : Particle.Filter ℝ).weights) }) (fun w => ⟨rfl, rfl, rfl, rfl, rfl, rfl, rfl⟩)
          (s.moved d).ids r.1 i).1.symm
        refine Eq.trans e1 ?_
        rw [observeOwn_noisy cfg _ scan _ _ _ _ _ _ hr, moved_noisy]
      show SoundAt N guess step ((({ s.moved d with heap := r.1, maps := r.2.1 } : Particle.Filter ℝ).normalize).heap i).noisy (at_ i).2.2
      rw [hnoisy]
      exact h3 i hi

/-! ### Histories -/

theorem run_append {cfg : GOwnCfg M} (ds es : List GMsg) : ∀ s : GOwn M, s.run cfg (ds ++ es) = (s.run cfg ds).bind fun s => s.run cfg es := by
  induction ds with
  | nil => intro s; rfl
  | cons d ds ih =>
    intro s
    simp only [List.cons_append, GOwn.run]
    cases s.handle cfg d with
    | none => rfl
    | some t => exact ih t

theorem gseeded_run_append {cfg : GOwnCfg M} (ds es : List (SMsg E)) : ∀ s : GSeeded E M,
    s.run N cfg (ds ++ es) = (s.run N cfg ds).bind fun s => s.run N cfg es := by
  induction ds with
  | nil => intro s; rfl
  | cons d ds ih =>
    intro s
    simp only [List.cons_append, GSeeded.run]
    cases s.handle N cfg d with
    | none => rfl
    | some t => exact ih t

theorem allowed_guess {a b c e : ℝ} {v : Delta ℝ} (h : Allowed (guessRV a b c e) v) : |v.x| ≤ |a| + 14 * |b| ∧ |v.y| ≤ |a| + 14 * |b| := by
  have h0 : 0 ≤ |a| + 14 * |b| := by positivity
  rcases h with h | rfl
  · obtain ⟨h1, h2, -⟩ := normal_within (DeltaRV.Same.refl _) h
    constructor
    · have := abs_add_le (v.x - a) a
      rw [sub_add_cancel] at this
      linarith
    · have := abs_add_le (v.y - a) a
      rw [sub_add_cancel] at this
      linarith
  · simpa using h0

/-- The configured variables. -/
noncomputable def noiseOf (p : Config.GmappingParams ℝ) : DeltaRV := guessRV p.meanXY p.sigmaXY p.meanTh p.sigmaTh
/-- See `noiseOf`. -/
noncomputable def stepOf (p : Config.GmappingParams ℝ) : DeltaRV := stepRV p.minXY p.maxXY p.minTh p.maxTh

variable {stod : Config.Str → Option ℝ} {env : Whole.Env} {rnd : ℝ → ℝ} {engines : Nat → E} {t : Config.Table}

/-- **The start (C103)**: GMapping with its generators starts as GMapping does, for the first steps drawn. -/
theorem gseeded_launches (hrnd : ∀ x, Cells.Unit01 x → Cells.Unit01 (rnd x)) {w : Config.World ℝ} {p : Config.GmappingParams ℝ} {n : Nat}
    (hw : Config.initGmapping stod t = some (w, p, n)) (h : Whole.GSensible w n) (hl : ∀ k, Lively N (engines k)) :
    ∃ (S : GSeededProgram E) (draws : Config.GmappingParams ℝ → Nat → Delta ℝ) (P : GProgram),
      launchSeededGmapping N stod env rnd engines t = some S ∧ Whole.launchGmapping stod env rnd draws t = some P ∧
      (∀ k, k < n → (stepOf p).Within (draws p k)) ∧ S.cfg = P.cfg ∧ S.start.own = P.start ∧ S.start.Sound N (noiseOf p) (stepOf p) n := by
  obtain ⟨s, steps, c1, c2, c3, c4, c5⟩ := seeded_create (N := N) (guess := noiseOf p) (step := stepOf p) h.particles ((List.range n).map engines)
    (by simp) (by
      intro e he
      obtain ⟨k, -, rfl⟩ := List.mem_map.1 he
      exact hl k)
  obtain ⟨P, hP, -⟩ := Whole.gmapping_launches (env := env) (draws := fun _ k => steps.getD k ⟨0, 0, 0⟩) hrnd hw h
  have hsteps : (List.range n).map (fun k => steps.getD k ⟨0, 0, 0⟩) = steps := by
    apply List.ext_getElem
    · simp [c2]
    · intro i h1 h2
      simp [List.getElem?_eq_getElem h2]
  have hspec := (Config.gmapping_as_configured (stod := stod) t w p n).1 hw
  obtain ⟨f, win, ho, hf, hwin⟩ := hspec.oope
  have hP' := hP
  unfold Whole.launchGmapping at hP'
  simp only [hw, Option.bind_some, hspec.matcher.1, ho, Option.bind_eq_some_iff, Option.map_eq_some_iff, hsteps, Whole.gStart, c4] at hP'
  obtain ⟨m, hm, st, ⟨f0, hf0, rfl⟩, rfl⟩ := hP'
  rw [Option.some.injEq] at hf0
  subst hf0
  have c1' : SFilter.create N (guessRV p.meanXY p.sigmaXY p.meanTh p.sigmaTh) (stepRV p.minXY p.maxXY p.minTh p.maxTh)
      ((List.range n).map engines) = some s := c1
  refine ⟨⟨_, ⟨⟨⟨⟨0, 0, 0⟩, s.filter, m, Whole.histOf w.adder⟩, _⟩, s.rng⟩⟩, _, _, ?_, hP, ?_, rfl, rfl, ?_, c5⟩
  · unfold launchSeededGmapping
    simp only [hw, Option.bind_some, hspec.matcher.1, ho, hm, c1', Option.map_some]
  · intro k hk
    have hk' : k < steps.length := by omega
    simp only [List.getD_eq_getElem?_getD, List.getElem?_eq_getElem hk', Option.getD_some]
    exact c3 _ (List.getElem_mem hk')
  · have := Particle.inv_create steps s.filter c4
    rw [c2] at this
    exact this

/-- **GMapping with its generators does not fail (C103)**: configured sensibly, whatever the engines of its particles and its resampler, it
handles every history of well-formed messages whose reach the grid's integers can bear; each message is handled as GMapping handles it for
noise, steps and samples that the configuration allows. -/
theorem seeded_gmapping_total (hrnd : ∀ x, Cells.Unit01 x → Cells.Unit01 (rnd x)) {w : Config.World ℝ} {p : Config.GmappingParams ℝ} {n : Nat}
    (hw : Config.initGmapping stod t = some (w, p, n)) (h : Whole.GSensible w n) (hl : ∀ k, Lively N (engines k)) (V : Finset ℝ)
    (hV : ∀ x, Cells.Unit01 x → rnd x ∈ V) (h0 : rnd 0 = 0) (hfu : (V.card + 1) * 98 ≤ env.fuel) (B : Int)
    (hok : ∀ v, |v| ≤ 6 * B → env.ok v = true) (hlf : 4 * B + 2 ≤ env.lineFuel) :
    ∃ (S : GSeededProgram E) (draws : Config.GmappingParams ℝ → Nat → Delta ℝ) (P : GProgram),
      launchSeededGmapping N stod env rnd engines t = some S ∧ Whole.launchGmapping stod env rnd draws t = some P ∧ S.cfg = P.cfg ∧
      S.start.own = P.start ∧
      (-1 < P.start.matcher.pe.fullness → ∀ {R D : ℝ}, 0 ≤ R → 0 ≤ D → ∀ ds : List (SMsg E), (∀ d ∈ ds, Whole.GoodMsg P.cfg.slam R d.msg) →
        ds.length * (D + (|p.meanXY| + 14 * |p.sigmaXY|) + n * Whole.growth R w.map.params.scale P.start.matcher.pe.window) + R ≤
          w.map.params.scale * (B - 1) →
        ((⟨0, 0, 0⟩ :: ds.map SMsg.odom : List (Pose ℝ)).IsChain fun a b => |b.x - a.x| + |b.y - a.y| ≤ D) →
        ∃ (s' : GSeeded E (AnyMap (Cells.GmCell ℝ))) (gs : List GMsg), S.start.run N S.cfg ds = some s' ∧
          List.Forall₂ (Drawn (noiseOf p) (stepOf p) n) ds gs ∧ P.start.run P.cfg gs = some s'.own) := by
  obtain ⟨S, draws, P, hS, hP, -, hc, hst, hsound⟩ := gseeded_launches (env := env) hrnd hw h hl
  refine ⟨S, draws, P, hS, hP, hc, hst, ?_⟩
  intro hfull R D hR hD ds
  obtain ⟨P', hP', ha, hs, hsd, -⟩ := Whole.gmapping_launches (env := env) (draws := draws) hrnd hw h
  obtain rfl := Option.some.inj (hP.symm.trans hP')
  have hG : 0 ≤ |p.meanXY| + 14 * |p.sigmaXY| := by positivity
  have hgr : 0 ≤ D + (|p.meanXY| + 14 * |p.sigmaXY|) + n * Whole.growth R w.map.params.scale P.start.matcher.pe.window := by
    have := h.scale
    have : 0 ≤ Whole.growth R w.map.params.scale P.start.matcher.pe.window := by unfold Whole.growth; positivity
    positivity
  intro hmsg hN hodo
  have key : ∀ es : List (SMsg E), es <+: ds → ∃ (s' : GSeeded E (AnyMap (Cells.GmCell ℝ))) (gs : List GMsg), S.start.run N S.cfg es = some s' ∧
      List.Forall₂ (Drawn (noiseOf p) (stepOf p) n) es gs ∧ P.start.run P.cfg gs = some s'.own ∧ s'.Sound N (noiseOf p) (stepOf p) n := by
    intro es
    induction es using List.reverseRecOn with
    | nil =>
      intro _
      exact ⟨S.start, [], rfl, .nil, by rw [hst]; rfl, hsound⟩
    | append_singleton es d ih =>
      intro hpre
      obtain ⟨s1, gs, r1, r2, r3, r4⟩ := ih ((List.prefix_append _ _).trans hpre)
      obtain ⟨g, k1, k2, k3⟩ := gseeded_step (cfg := S.cfg) r4 d
      have hall : List.Forall₂ (Drawn (noiseOf p) (stepOf p) n) (es ++ [d]) (gs ++ [g]) := List.rel_append r2 (.cons k1 .nil)
      have hlen : (gs ++ [g]).length = (es ++ [d]).length := hall.length_eq.symm
      have hgood : ∀ x ∈ gs ++ [g], ∃ y ∈ es ++ [d], Drawn (noiseOf p) (stepOf p) n y x := Particle.forall₂_right hall
      have hodom : (gs ++ [g]).map GMsg.odom = (es ++ [d]).map SMsg.odom := by
        clear hgood hlen
        generalize es ++ [d] = l at hall
        generalize gs ++ [g] = r at hall
        induction hall with
        | nil => rfl
        | cons h _ ih => rw [List.map_cons, List.map_cons, h.odom, ih]
      obtain ⟨o, ho⟩ := Whole.launched_gmapping_total (env := env) (draws := draws) hrnd hw h V hV h0 hfu B hok hlf hP hfull hR hG hD (gs ++ [g]) (by
          intro x hx
          obtain ⟨y, hy, hd⟩ := hgood x hx
          refine ⟨hd.samples, ?_, fun i => allowed_guess (hd.noise i)⟩
          rw [hd.msg]
          exact hmsg y (hpre.subset hy)) (by
          rw [hlen]
          refine le_trans ?_ hN
          have : ((es ++ [d]).length : ℝ) ≤ ds.length := by exact_mod_cast hpre.length_le
          have := mul_le_mul_of_nonneg_right this hgr
          linarith) (by
          unfold Whole.SmallMoves
          rw [hodom]
          obtain ⟨tl, htl⟩ := hpre
          rw [← htl, List.map_append, ← List.cons_append] at hodo
          exact (List.isChain_append.1 hodo).1)
      rw [run_append, r3, Option.bind_some] at ho
      have ho' : s1.own.handle P.cfg g = some o := by
        simp only [GOwn.run] at ho
        cases hq : s1.own.handle P.cfg g with
        | none => rw [hq] at ho; cases ho
        | some q => rw [hq] at ho; exact ho
      rw [hc, ho', Option.map_eq_some_iff] at k2
      obtain ⟨s2, hs2, rfl⟩ := k2
      have hrun : P.start.run P.cfg (gs ++ [g]) = some s2.own := by
        rw [run_append, r3, Option.bind_some]
        simp only [GOwn.run, ho', Option.bind_some]
      refine ⟨s2, gs ++ [g], ?_, hall, hrun, ?_⟩
      · rw [gseeded_run_append, r1, Option.bind_some]
        simp only [GSeeded.run, hc, hs2, Option.bind_some]
      · refine k3 s2 (by rw [hc]; exact hs2) ?_
        obtain ⟨hs', -⟩ := Whole.gown_run_is_run hs (gs ++ [g]) (by
          intro x hx
          obtain ⟨y, hy, hd⟩ := hgood x hx
          exact hd.samples) hsd hrun
        exact (Particle.reach_inv Real.sin Real.cos n _ hs'.filter).1
  obtain ⟨s', gs, r1, r2, r3, -⟩ := key ds List.prefix_rfl
  exact ⟨s', gs, r1, r2, r3⟩

/-- Every history that GMapping with its generators handles is one that GMapping handles for draws that are allowed. -/
theorem gseeded_run_is_run {cfg : GOwnCfg M} {init : M} (hc : Whole.GStarted cfg init) {f : ℝ} {w n : Nat} : ∀ (ds : List (SMsg E)) {s s' : GSeeded E M},
    Whole.GSound cfg init f w n s.own → s.Sound N guess step n → s.run N cfg ds = some s' →
    ∃ gs : List GMsg, List.Forall₂ (Drawn guess step n) ds gs ∧ s.own.run cfg gs = some s'.own ∧ s'.Sound N guess step n := by
  intro ds
  induction ds with
  | nil =>
    intro s s' _ hs h
    simp only [GSeeded.run, Option.some.injEq] at h
    subst h
    exact ⟨[], .nil, rfl, hs⟩
  | cons d ds ih =>
    intro s s' hg hs h
    simp only [GSeeded.run, Option.bind_eq_some_iff] at h
    obtain ⟨s1, h1, h⟩ := h
    obtain ⟨g, k1, k2, k3⟩ := gseeded_step (cfg := cfg) hs d
    rw [h1, Option.map_some] at k2
    obtain ⟨hg1, -⟩ := Whole.gown_run_is_run hc [g] (by
      intro x hx
      rw [List.mem_singleton.1 hx]
      exact k1.samples) hg (s' := s1.own) (by simp only [GOwn.run, ← k2, Option.bind_some])
    obtain ⟨gs, r1, r2, r3⟩ := ih hg1 (k3 s1 h1 (Particle.reach_inv Real.sin Real.cos n _ hg1.filter).1) h
    refine ⟨g :: gs, .cons k1 r1, ?_, r3⟩
    simp only [GOwn.run, ← k2, Option.bind_some]
    exact r2

/-- **What is true of GMapping is true of it with its generators (C103)**: after every history it handles there are `n` particles, one of them
the master; each cell of the map has a probability or is unknown, and its value is that of the observations of the scans handled. -/
theorem seeded_gmapping_behaves (hrnd : ∀ x, Cells.Unit01 x → Cells.Unit01 (rnd x)) {w : Config.World ℝ} {p : Config.GmappingParams ℝ} {n : Nat}
    (hw : Config.initGmapping stod t = some (w, p, n)) (h : Whole.GSensible w n) (hl : ∀ k, Lively N (engines k)) {S : GSeededProgram E}
    (hS : launchSeededGmapping N stod env rnd engines t = some S) (ds : List (SMsg E)) {s' : GSeeded E (AnyMap (Cells.GmCell ℝ))}
    (hr : S.start.run N S.cfg ds = some s') :
    s'.own.st.filter.particles.length = n ∧ s'.own.st.filter.particles.countP World.master = 1 ∧
    (∀ c, ∃ cell, S.cfg.slam.api.read s'.own.st.map c = some cell ∧
      (Cells.Unit01 cell.occ.prob ∨ (cell.occ.prob = -1 ∧ cell.unknown = true))) ∧
    (∃ log : List Whole.Entry, (∀ e ∈ log, e.Ok S.cfg.slam ∧ ∃ d ∈ ds, Whole.ScanOf S.cfg.slam d.msg e.scan) ∧
      ∀ c, S.cfg.slam.api.read s'.own.st.map c = some ((Whole.about c (Whole.allUpdates log)).foldl Cells.GmCell.observe Cells.GmCell.create)) ∧
    s'.Sound N (noiseOf p) (stepOf p) n := by
  obtain ⟨S', draws, P, hS', hP, -, hc, hst, hsound⟩ := gseeded_launches (env := env) hrnd hw h hl
  obtain rfl := Option.some.inj (hS.symm.trans hS')
  obtain ⟨P', hP', ha, hs, hsd, -⟩ := Whole.gmapping_launches (env := env) (draws := draws) hrnd hw h
  obtain rfl := Option.some.inj (hP.symm.trans hP')
  obtain ⟨gs, r1, r2, r3⟩ := gseeded_run_is_run (cfg := P.cfg) hs ds (s := S.start) (by rw [hst]; exact hsd) hsound (by rw [← hc]; exact hr)
  rw [hst] at r2
  have hgood : ∀ x ∈ gs, ∃ y ∈ ds, Drawn (noiseOf p) (stepOf p) n y x := Particle.forall₂_right r1
  obtain ⟨b1, b2, b3, ⟨log, l1, l2⟩, -⟩ := Whole.launched_gmapping_behaves (env := env) (draws := draws) hrnd hw h hP gs
    (fun d hd => by obtain ⟨y, -, hy⟩ := hgood d hd; exact hy.samples) r2
  rw [hc]
  refine ⟨b1, b2, b3, ⟨log, fun e he => ⟨(l1 e he).1, ?_⟩, l2⟩, r3⟩
  obtain ⟨d, hd, hsc⟩ := (l1 e he).2
  obtain ⟨y, hy, hyd⟩ := hgood d hd
  rw [hyd.msg] at hsc
  exact ⟨y, hy, hsc⟩

end

/-! ## Non-vacuity -/

/-- A message of the example. -/
noncomputable def demoMsg (i : Nat) : SMsg Unit := ⟨⟨i, 0, 0⟩, (Whole.gLeastMsg i).msg, ()⟩

end Slam.Random
