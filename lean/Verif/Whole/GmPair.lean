import Verif.Whole.GmLone

/-!
# GMapping with at most two particles never resamples (C118)

`try_resample` of src/core/particle_filter.h:34-43, 97-117 resamples when the effective number of particles is below half of their number.
The effective number is at least one: with one or two particles that never happens; with three or more it can. So with
`slam/particles/number` at most two (src/slams/gmapping/init_gmapping.h:11-13) the particles made at the start are there for ever, the same
one is the master, and the random numbers for resampling play no role.
-/

set_option autoImplicit false
set_option linter.unusedSectionVars false

namespace Slam.Particle
open Slam.Poses

section
variable {K : Type} [Field K] [LinearOrder K] [IsStrictOrderedRing K]

/-- **The rule (C118)**: one or two weights, normalised or all undefined, ask for no resampling. -/
theorem two_keep (ws : List (Option K)) (hlen : ws.length ≤ 2)
    (h : (∀ w ∈ ws, w = none) ∨ ∃ vs : List K, ws = vs.map some ∧ Distribution vs) : resamplingRequired ws = false := by
  rcases h with h | ⟨vs, rfl, hd⟩
  · cases ws with
    | nil => simp [resamplingRequired, sumN]
    | cons w ws => exact (resampling_rule _).1 (by rw [← h w (by simp)]; simp)
  · rw [Bool.eq_false_iff]
    intro hc
    have h1 := ((resampling_rule _).2 vs rfl hd).1 hc
    have h2 := (effective_sample_size vs hd).1
    have h3 : (vs.length : K) ≤ 2 := by
      rw [List.length_map] at hlen
      exact_mod_cast hlen
    linarith

/-- Three or more may. -/
theorem three_may (n : Nat) (hn : 3 ≤ n) : ∃ vs : List K, vs.length = n ∧ Distribution vs ∧ resamplingRequired (vs.map some) = true := by
  have hd : Distribution ((1 : K) :: List.replicate (n - 1) 0) := by
    refine ⟨?_, by simp⟩
    intro w hw
    rcases List.mem_cons.1 hw with rfl | hw
    · exact zero_le_one
    · rw [(List.mem_replicate.1 hw).2]
  refine ⟨1 :: List.replicate (n - 1) 0, by simp; omega, hd, ?_⟩
  refine ((resampling_rule _).2 _ rfl hd).2 ?_
  have : (3 : K) ≤ n := by exact_mod_cast hn
  have hl : ((1 : K) :: List.replicate (n - 1) (0 : K)).length = n := by simp; omega
  rw [hl]
  simp
  linarith

/-- The weights after a scan has been handled. -/
theorem observed_weights (sn cs : K → K) (n : Nat) (hn : 0 < n) (f : Filter K) (hf : Inv n f) (delta : Delta K) (env : Nat → Env K)
    (henv : ∀ i p a, ((env i).matcher p).2 = some a → 0 ≤ a) (g : Filter K) (hg : g = f.updatePose sn cs delta)
    (r : (Nat → World K) × (Nat → List (Pose K))) (hr : observeAll env g.ids g.heap g.maps = r) :
    (∀ w ∈ ({ g with
        heap := r.1
        maps := r.2 } : Filter K).normalize.weights, w = none) ∨
      ∃ vs : List K, ({ g with
        heap := r.1
        maps := r.2 } : Filter K).normalize.weights = vs.map some ∧ Distribution vs := by
  subst hg hr
  set f0 : Filter K := { f with traversed := ⟨-delta.abs.x, -delta.abs.y, -delta.abs.theta⟩ } with hf0
  have hi0 : Inv n f0 := ⟨hf.1, hf.2, hf.3, hf.4, hf.5, hf.6, hf.7, hf.8⟩
  obtain ⟨f', h, hi⟩ := inv_handle sn cs n hn f0 hi0 delta env (List.replicate n 0) henv (by simp)
    (fun s hs => by rw [(List.mem_replicate.1 hs).2]; exact ⟨le_rfl, zero_lt_one⟩)
  unfold Filter.handle at h
  simp only at h
  unfold Filter.gTryResample at h
  rw [if_pos (by
    have ht : (f0.updatePose sn cs delta).traversed = ⟨0, 0, 0⟩ := by
      simp [Filter.updatePose, hf0, Pose.add]
    change (decide ((f0.updatePose sn cs delta).traversed.sqDist ≤ 1 / 2) && decide ((f0.updatePose sn cs delta).traversed.theta ≤ 1 / 5)) = true
    rw [ht]
    simp [Pose.sqDist])] at h
  rw [Option.some.injEq] at h
  have hw := hi.weights
  rw [← h] at hw
  exact hw

end

end Slam.Particle

namespace Slam.Whole
open Slam.Grid Slam.Cells Slam.Poses Slam.Sensor Slam.Score Slam.ScanAdder Slam.Worlds Slam.Matcher
open Slam.Particle (setObj forEach World positive mulN)

/-! ## Specification -/

/-- Messages that differ at most in the random numbers drawn for resampling. -/
def SameButSamples (d e : GMsg) : Prop := d.odom = e.odom ∧ d.msg = e.msg ∧ d.guess = e.guess ∧ d.nextSm = e.nextSm

/-- The same particles, the same one of them the master and without noise. -/
def SameParticles (f f' : Particle.Filter ℝ) : Prop :=
  f'.ids = f.ids ∧ ∀ i ∈ f.ids, (f'.heap i).master = (f.heap i).master ∧ (f'.heap i).noisy = (f.heap i).noisy

/-! ## Proofs -/

section
variable {M : Type} {g : GOwnCfg M} {init : M} {f : ℝ} {w n : Nat}

theorem observeOwn_samples {d e : GMsg} (h : SameButSamples d e) (scan : List ScanPoint) : ∀ (ids : List Nat) (hp : Nat → World ℝ)
    (ms : Nat → List (Pose ℝ)) (m : M) (hist : Option Hist) (gm : GMatch),
    observeOwn g d scan ids hp ms m hist gm = observeOwn g e scan ids hp ms m hist gm := by
  obtain ⟨h1, h2, h3, h4⟩ := h
  intro ids
  induction ids with
  | nil => intros; rfl
  | cons i ids ih =>
    intro hp ms m hist gm
    simp only [observeOwn, h3, h4, ih]

/-- Nothing is resampled after the scan has been handled. -/
theorem pair_kept (hc : GStarted g init) {s : GOwn M} (hs : GSound g init f w n s) (hn : n ≤ 2) (d : GMsg) {scan : List ScanPoint}
    (hfac : ∀ sp ∈ scan, sp.factor = 1) {fu : Particle.Filter ℝ}
    (hfu : fu = s.st.filter.updatePose Real.sin Real.cos (d.odom.sub s.st.odom)) {r}
    (hr : observeOwn g d scan fu.ids fu.heap fu.maps s.st.map s.st.hist s.matcher = some r) (samples : List ℝ)
    (q : Particle.Filter ℝ) (hq : q = ({ fu with
      heap := r.1
      maps := r.2.1 } : Particle.Filter ℝ).normalize) :
    q.gTryResample samples = some q ∧ SameParticles s.st.filter q := by
  obtain ⟨hinv, hpos⟩ := Particle.reach_inv _ _ _ _ hs.filter
  have hids : fu.ids = s.st.filter.ids := by rw [hfu]; rfl
  have hheap : ∀ i ∈ s.st.filter.ids, fu.heap i = (s.st.filter.heap i).updatePose Real.sin Real.cos (d.odom.sub s.st.odom) := by
    intro i hi
    rw [hfu]
    exact updated_heap hs.filter _ i hi
  obtain ⟨ans, a1, -, -, -, a5, -⟩ := observeOwn_spec hc d scan hfac fu.ids fu.heap fu.maps _ _ _ r (by rw [hids]; exact hinv.nodup)
    hs.map hs.matcher hs.last hr
  obtain ⟨env, log, e1, e2, -⟩ := observeEach_spec g.slam (d.answered ans) scan fu.ids fu.heap fu.maps _ _ _ (by rw [hids]; exact hinv.nodup)
    (by
      intro i hi
      rw [hids] at hi
      rw [hheap i hi]
      exact hinv.shared i hi) a1
  have hw := Particle.observed_weights Real.sin Real.cos n hpos s.st.filter hinv (d.odom.sub s.st.odom) env (by
    intro i p a ha
    obtain ⟨-, -, m, -, hm⟩ := e1 i
    rw [hm] at ha
    exact (answers_unit hc hfac (a5 i) a ha).1) fu hfu _ e2
  have hk : Particle.resamplingRequired q.weights = false := by
    refine Particle.two_keep _ ?_ (by rw [hq]; exact hw)
    rw [hq]
    change ((Particle.Filter.ids _).map _ |>.map _).length ≤ 2
    simp only [List.length_map]
    change fu.ids.length ≤ 2
    rw [hids, hinv.length]
    exact hn
  refine ⟨?_, ?_, ?_⟩
  · unfold Particle.Filter.gTryResample
    split
    · rfl
    · simp [Particle.Filter.tryResample, hk]
  · rw [hq]
    exact hids
  · intro i hi
    have hr1 : r.1 i = ((fu.heap i).handleObservation (env i)).1 := by
      have := Particle.observeAll_heap env fu.ids (by rw [hids]; exact hinv.nodup) fu.heap fu.maps i
      rw [e2, if_pos (by rw [hids]; exact hi)] at this
      exact this
    have hqi : q.heap i = { r.1 i with weight := Particle.divN (r.1 i).weight (Particle.sumN ({ fu with
        heap := r.1
        maps := r.2.1 } : Particle.Filter ℝ).weights) } := by
      rw [hq]
      change forEach (fun w : World ℝ => { w with weight := Particle.divN w.weight (Particle.sumN ({ fu with
        heap := r.1
        maps := r.2.1 } : Particle.Filter ℝ).weights) }) r.1 fu.ids i = _
      rw [Particle.forEach_apply _ _ (by rw [hids]; exact hinv.nodup), if_pos (by rw [hids]; exact hi)]
    obtain ⟨k1, k2, -, -⟩ := Particle.handleObservation_fields (fu.heap i) (env i)
    rw [hqi]
    simp only
    rw [hr1, k1, k2, hheap i hi]
    exact ⟨rfl, rfl⟩

/-- One message, in one go. -/
theorem pair_handle (hc : GStarted g init) {s : GOwn M} (hs : GSound g init f w n s) (hn : n ≤ 2) {d e : GMsg} (hde : SameButSamples d e)
    {s' : GOwn M} (h : s.handle g d = some s') :
    s.handle g e = some s' ∧ SameParticles s.st.filter s'.st.filter ∧
      s'.st.filter.traversed = s.st.filter.traversed.add (d.odom.sub s.st.odom).abs ∧ s'.st.odom = d.odom := by
  simp only [GOwn.handle, Option.bind_eq_some_iff, Option.map_eq_some_iff] at h
  obtain ⟨pts, h1, scan, h2, r, h3, f', h4, rfl⟩ := h
  have hd : observerStep s.st.odom d.odom = (d.odom, d.odom.sub s.st.odom) := rfl
  rw [hd] at h3 h4
  obtain ⟨k1, k2⟩ := pair_kept hc hs hn d (scanOf_polar h2) rfl h3 d.samples _ rfl
  rw [k1, Option.some.injEq] at h4
  subst h4
  refine ⟨?_, k2, rfl, rfl⟩
  obtain ⟨k3, -⟩ := pair_kept hc hs hn d (scanOf_polar h2) rfl h3 e.samples _ rfl
  obtain ⟨j1, j2, j3, j4⟩ := hde
  unfold GOwn.handle
  rw [← j2, ← j1, h1]
  simp only [Option.bind_some, h2]
  rw [hd]
  simp only
  rw [← observeOwn_samples ⟨j1, j2, j3, j4⟩, h3, Option.bind_some]
  rw [k3]
  rfl

/-- Fitting random numbers. -/
theorem pair_samples (n : Nat) (d : GMsg) : ∃ e, SameButSamples d e ∧ SameButSamples e d ∧ SamplesOk n e :=
  ⟨{ d with samples := List.replicate n 0 }, ⟨rfl, rfl, rfl, rfl⟩, ⟨rfl, rfl, rfl, rfl⟩, by simp, fun x hx => by
    rw [(List.mem_replicate.1 hx).2]; norm_num⟩

/-- **One message (C118)**: what is drawn for resampling does not matter; the particles remain. -/
theorem pair_message (hc : GStarted g init) {s : GOwn M} (hs : GSound g init f w n s) (hn : n ≤ 2) {d e : GMsg} (hde : SameButSamples d e) :
    s.handle g d = s.handle g e ∧ ∀ s', s.handle g d = some s' → GSound g init f w n s' ∧ SameParticles s.st.filter s'.st.filter ∧
      s'.st.filter.traversed = s.st.filter.traversed.add (d.odom.sub s.st.odom).abs ∧ s'.st.odom = d.odom := by
  have hed : SameButSamples e d := ⟨hde.1.symm, hde.2.1.symm, hde.2.2.1.symm, hde.2.2.2.symm⟩
  refine ⟨?_, fun s' h => ?_⟩
  · cases h1 : s.handle g d with
    | some s' => exact (pair_handle hc hs hn hde h1).1.symm
    | none =>
      cases h2 : s.handle g e with
      | none => rfl
      | some s' =>
        rw [(pair_handle hc hs hn hed h2).1] at h1
        cases h1
  · obtain ⟨e', q1, -, q2⟩ := pair_samples n d
    obtain ⟨p1, p2⟩ := pair_handle hc hs hn q1 h
    obtain ⟨-, -, -, -, -, hs', -⟩ := gown_message hc hs q2 p1
    exact ⟨hs', p2⟩

/-- **Histories (C118)**: whatever is drawn for resampling, the program goes the same way; at its end there are the particles of the
beginning, the same one of them the master; and the way gone is never set back to zero. -/
theorem pair_run (hc : GStarted g init) (hn : n ≤ 2) : ∀ (ds es : List GMsg), List.Forall₂ SameButSamples ds es → ∀ {s : GOwn M},
    GSound g init f w n s → s.run g ds = s.run g es ∧ ∀ s', s.run g ds = some s' → GSound g init f w n s' ∧
      SameParticles s.st.filter s'.st.filter ∧
      s'.st.filter.traversed = s.st.filter.traversed.add (gone s.st.odom (ds.map GMsg.odom))
  | [], _, .nil, s, hs => by
    refine ⟨rfl, ?_⟩
    rintro s' h
    simp only [GOwn.run, Option.some.injEq] at h
    subst h
    exact ⟨hs, ⟨rfl, fun _ _ => ⟨rfl, rfl⟩⟩, by simp [gone, Pose.add]⟩
  | d :: ds, e :: es, .cons h1 h2, s, hs => by
    obtain ⟨p1, p2⟩ := pair_message hc hs hn h1
    simp only [GOwn.run]
    rw [← p1]
    cases hh : s.handle g d with
    | none => simp
    | some s1 =>
      obtain ⟨p3, p4, p5, p6⟩ := p2 s1 hh
      obtain ⟨r1, r2⟩ := pair_run hc hn ds es h2 p3
      refine ⟨r1, fun s' hs' => ?_⟩
      obtain ⟨r3, r4, r5⟩ := r2 s' hs'
      refine ⟨r3, ⟨r4.1.trans p4.1, fun i hi => ?_⟩, ?_⟩
      · obtain ⟨a1, a2⟩ := r4.2 i (by rw [p4.1]; exact hi)
        obtain ⟨b1, b2⟩ := p4.2 i hi
        exact ⟨a1.trans b1, a2.trans b2⟩
      · rw [r5, p5, p6]
        simp only [Pose.add, Pose.abs, List.map_cons, gone, Pose.sub]
        congr 1 <;> ring

end

/-! ## GMapping as started -/

section
variable {stod : Config.Str → Option ℝ} {env : Env} {rnd : ℝ → ℝ} {draws : Config.GmappingParams ℝ → Nat → Delta ℝ} {t : Config.Table}

/-- **GMapping started with at most two particles (C118)**: it does the same whatever is drawn for resampling; after any messages the
particles are those of the start, and the same one is the master, the only one without noise. -/
theorem launched_two (hrnd : ∀ x, Unit01 x → Unit01 (rnd x)) {w : Config.World ℝ} {p : Config.GmappingParams ℝ} {n : Nat}
    (hw : Config.initGmapping stod t = some (w, p, n)) (h : GSensible w n) (hn : n ≤ 2) {P : GProgram}
    (hP : launchGmapping stod env rnd draws t = some P) :
    ∃ m < n, (∀ ds es : List GMsg, List.Forall₂ SameButSamples ds es → P.start.run P.cfg ds = P.start.run P.cfg es) ∧
      ∀ (ds : List GMsg) (s : GOwn (AnyMap (GmCell ℝ))), P.start.run P.cfg ds = some s → s.st.filter.ids = List.range n ∧
        s.st.filter.traversed = gone ⟨0, 0, 0⟩ (ds.map GMsg.odom) ∧
        ∀ i < n, ((s.st.filter.heap i).master = true ↔ i = m) ∧ ((s.st.filter.heap i).noisy = false ↔ i = m) := by
  obtain ⟨P', hP', -, hst, hsd, hg, -, -⟩ := gmapping_launches (env := env) (draws := draws) hrnd hw h
  rw [hP, Option.some.injEq] at hP'
  subst hP'
  have hcold := cold_start_state hg
  obtain ⟨hinv, hpos⟩ := Particle.reach_inv _ _ _ _ hsd.filter
  have hids : P.start.st.filter.ids = List.range n := by rw [hcold.ids]; simp
  have htr : P.start.st.filter.traversed = ⟨0, 0, 0⟩ := by
    unfold gStart at hg
    rw [Option.map_eq_some_iff] at hg
    obtain ⟨f, hf, hg⟩ := hg
    rw [← hg]
    unfold Particle.Filter.create at hf
    simp only [Option.map_eq_some_iff] at hf
    obtain ⟨i, -, rfl⟩ := hf
    rfl
  obtain ⟨m, hm, hq⟩ := hcold.quiet
  simp only [List.length_map, List.length_range] at hm hq
  obtain ⟨x, hx, hxm⟩ := hinv.exists_master
  have hxq := hinv.quiet x hx hxm
  rw [hids, List.mem_range] at hx
  have hxe : x = m := by
    rw [hq x hx] at hxq
    simpa using hxq
  subst hxe
  refine ⟨x, hm, fun ds es hde => (pair_run hst hn ds es hde hsd).1, fun ds s hs => ?_⟩
  obtain ⟨-, k1, k2⟩ := (pair_run hst hn ds ds (List.forall₂_same.2 fun d _ => ⟨rfl, rfl, rfl, rfl⟩) hsd).2 s hs
  refine ⟨k1.1.trans hids, ?_, fun i hi => ?_⟩
  · rw [k2, htr, hcold.odom]
    simp [Pose.add]
  · obtain ⟨a1, a2⟩ := k1.2 i (by rw [hids]; simpa using hi)
    rw [a1, a2, hq i hi]
    refine ⟨⟨fun hmi => ?_, fun e => by rw [e]; exact hxm⟩, by simp⟩
    exact hinv.unique_master i (by rw [hids]; simpa using hi) x (by rw [hids]; simpa using hm) hmi hxm

/-- Two particles, up to a hundred messages, any random numbers for resampling. -/
example (samples : Nat → List ℝ) (k : Nat) (hk : k ≤ 100) : ∃ init st s1 s2, GStarted gOwnDemoCfg init ∧
    GSound gOwnDemoCfg init (1 / 10) 1 2 ⟨st, GMatch.create (.even 1) (1 / 10) 1 (1 / 10) (1 / 10)⟩ ∧ s1 = s2 ∧
    GOwn.run gOwnDemoCfg ⟨st, GMatch.create (.even 1) (1 / 10) 1 (1 / 10) (1 / 10)⟩ ((List.range k).map gOwnDemoMsg) = some s1 ∧
    GOwn.run gOwnDemoCfg ⟨st, GMatch.create (.even 1) (1 / 10) 1 (1 / 10) (1 / 10)⟩
      ((List.range k).map fun i => { gOwnDemoMsg i with samples := samples i }) = some s2 := by
  obtain ⟨init, st, hL, -, hs, hrun⟩ := gown_demo_start
  obtain ⟨s1, h1⟩ := hrun k hk
  refine ⟨init, st, s1, s1, gown_demo_started hL, hs, rfl, h1, ?_⟩
  rw [← (pair_run (gown_demo_started hL) le_rfl _ _ ?_ hs).1]
  · exact h1
  · rw [List.forall₂_map_left_iff, List.forall₂_map_right_iff, List.forall₂_same]
    exact fun i _ => ⟨rfl, rfl, rfl, rfl⟩

/-- The GMapping of C115's instance has one particle. -/
example (stod : Config.Str → Option ℝ) (draws : Config.GmappingParams ℝ → Nat → Delta ℝ) : ∃ P s,
    launchGmapping stod gLeastEnv (fun x => (⌊x * 1024⌋ : ℝ) / 1024) draws gLone = some P ∧
    P.start.run P.cfg ([gLoneMsg 0, gLoneMsg 1] ++ List.replicate 50 (gLoneMsg 1)) = some s ∧ s.st.filter.ids = [0] := by
  obtain ⟨P, s, hP, hs, -⟩ := glone_total stod draws (k := 50) le_rfl
  obtain ⟨m, -, -, h⟩ := launched_two (fun x hx => (lone_rnd x hx).1) (glone_read stod) glone_sensible (by norm_num) hP
  exact ⟨P, s, hP, hs, (h _ s hs).1⟩

end

end Slam.Whole
