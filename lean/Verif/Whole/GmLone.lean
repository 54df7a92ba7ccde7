import Verif.Whole.GmOwnStill
import Verif.Whole.FirstScanDemo

/-!
# GMapping with one particle is plain scan matching (C117)

`GmappingParticleFilter` with `slam/particles/number = 1` (src/slams/gmapping/init_gmapping.h:11-13): no noise is added to the one
particle, which is the master (gmapping_world.h:81-85, 103-110), and nothing is ever resampled (src/core/particle_filter.h:34-43).
-/

set_option autoImplicit false
set_option linter.unusedSectionVars false

namespace Slam.Whole
open Slam.Grid Slam.Cells Slam.Poses Slam.Sensor Slam.Score Slam.ScanAdder Slam.Worlds Slam.Matcher
open Slam.Particle (setObj forEach World positive mulN)

/-! ## Specification: plain scan matching -/

/-- What plain scan matching remembers: the last odometry pose, its own pose, the map, the histogram and the matcher. -/
structure Plain (M : Type) where
  odom : Pose ℝ
  pose : Pose ℝ
  map : M
  hist : Option Hist
  matcher : GMatch

/-- Where a pose gets to with the odometry going from `o` to `o'`: the way is turned by as much as the heading differs from the
odometry's. -/
noncomputable def carried (p o o' : Pose ℝ) : Pose ℝ :=
  ⟨p.x + (Real.cos (p.theta - o.theta) * (o'.x - o.x) - Real.sin (p.theta - o.theta) * (o'.y - o.y)),
    p.y + (Real.sin (p.theta - o.theta) * (o'.x - o.x) + Real.cos (p.theta - o.theta) * (o'.y - o.y)),
    p.theta + (o'.theta - o.theta)⟩

/-- Plain scan matching, one message: the pose goes with the odometry, the scan is matched from there, and is put into the map at the
pose found if its score is positive. -/
noncomputable def Plain.handle {M : Type} (g : GOwnCfg M) (s : Plain M) (odom : Pose ℝ) (msg : Msg ℝ) : Option (Plain M) :=
  (msg2scan msg g.slam.skipMax g.slam.tol).bind fun pts =>
    (scanOf pts).bind fun scan =>
      (g.matching s.matcher scan (carried s.pose s.odom odom) s.map).bind fun a =>
        let p := (carried s.pose s.odom odom).add a.2.1.1
        if positive a.2.1.2 then
          (g.slam.append s.hist s.map p scan 1 0).map fun q => ⟨odom, p, q.1, q.2, a.1⟩
        else some ⟨odom, p, s.map, s.hist, a.1⟩

/-- Messages one after another. -/
noncomputable def Plain.run {M : Type} (g : GOwnCfg M) (s : Plain M) : List (Pose ℝ × Msg ℝ) → Option (Plain M)
  | [] => some s
  | d :: ds => (s.handle g d.1 d.2).bind fun s => s.run g ds

/-- What of a message comes from outside. -/
def GMsg.seen (d : GMsg) : Pose ℝ × Msg ℝ := (d.odom, d.msg)

/-- GMapping with one particle that has taken in a scan, as plain scan matching sees it. -/
structure Lone {M : Type} (s : GOwn M) (pl : Plain M) : Prop where
  ids : s.st.filter.ids = [0]
  quiet : (s.st.filter.heap 0).noisy = false
  begun : (s.st.filter.heap 0).scanFirst = false
  eager : (s.st.filter.heap 0).nextSm = ⟨0, 0, 0⟩
  raw : (s.st.filter.heap 0).rawOdom = s.st.odom
  same : pl = ⟨s.st.odom, (s.st.filter.heap 0).pose, s.st.map, s.st.hist, s.matcher⟩

/-! ## Proofs -/

section
variable {M : Type} {g : GOwnCfg M}

/-- A single particle is never resampled. -/
theorem one_try (f : Particle.Filter ℝ) (samples : List ℝ) (hi : f.ids = [0]) : f.normalize.gTryResample samples = some f.normalize := by
  have hreq : Particle.resamplingRequired f.normalize.weights = false := by
    have e : f.normalize.weights = [Particle.divN (f.heap 0).weight (Particle.sumN [(f.heap 0).weight])] := by
      change (f.ids.map (forEach (fun w : World ℝ => { w with weight := Particle.divN w.weight (Particle.sumN f.weights) }) f.heap f.ids)).map
        World.weight = _
      have hw : f.weights = [(f.heap 0).weight] := by simp [Particle.Filter.weights, Particle.Filter.particles, hi]
      rw [hw, hi]
      simp [forEach, setObj]
    rw [e]
    cases (f.heap 0).weight with
    | none => simp [Particle.resamplingRequired, Particle.divN, Particle.sumN, mulN]
    | some x =>
      by_cases hx : x = 0
      · simp [Particle.resamplingRequired, Particle.divN, Particle.sumN, mulN, hx]
      · simp [Particle.resamplingRequired, Particle.divN, Particle.sumN, mulN, hx]
  unfold Particle.Filter.gTryResample
  split
  · rfl
  · simp [Particle.Filter.tryResample, hreq]

theorem one_normalized (f : Particle.Filter ℝ) (hi : f.ids = [0]) :
    ∃ v, f.normalize.heap 0 = { f.heap 0 with weight := v } := by
  refine ⟨Particle.divN (f.heap 0).weight (Particle.sumN f.weights), ?_⟩
  change forEach (fun w : World ℝ => { w with weight := Particle.divN w.weight (Particle.sumN f.weights) }) f.heap f.ids 0 = _
  rw [Particle.forEach_apply _ _ (by rw [hi]; simp), if_pos (by rw [hi]; simp)]

/-- **One message (C117).** -/
theorem lone_handle {s : GOwn M} {pl : Plain M} (h : Lone s pl) (d : GMsg) :
    (∀ s', s.handle g d = some s' → ∃ pl', pl.handle g d.odom d.msg = some pl' ∧ Lone s' pl' ∧
      s'.st.filter.traversed = s.st.filter.traversed.add (d.odom.sub s.st.odom).abs) ∧
    (s.handle g d = none → pl.handle g d.odom d.msg = none) := by
  obtain ⟨h1, h2, h3, h4, h5, rfl⟩ := h
  unfold GOwn.handle Plain.handle
  cases msg2scan d.msg g.slam.skipMax g.slam.tol with
  | none => simp
  | some pts =>
  simp only [Option.bind_some]
  cases scanOf pts with
  | none => simp
  | some scan =>
  simp only [Option.bind_some]
  have hids : (s.st.filter.updatePose Real.sin Real.cos (observerStep s.st.odom d.odom).2).ids = [0] := h1
  have hup : (s.st.filter.updatePose Real.sin Real.cos (observerStep s.st.odom d.odom).2).heap 0 =
      (s.st.filter.heap 0).updatePose Real.sin Real.cos (observerStep s.st.odom d.odom).2 := by
    change forEach (fun w => w.updatePose Real.sin Real.cos (observerStep s.st.odom d.odom).2) s.st.filter.heap s.st.filter.ids 0 = _
    rw [Particle.forEach_apply _ _ (by rw [h1]; simp), if_pos (by rw [h1]; simp)]
  have htr : (s.st.filter.updatePose Real.sin Real.cos (observerStep s.st.odom d.odom).2).traversed =
      s.st.filter.traversed.add (d.odom.sub s.st.odom).abs := rfl
  set fu := s.st.filter.updatePose Real.sin Real.cos (observerStep s.st.odom d.odom).2 with hfu
  have hp : (fu.heap 0).pose = carried (s.st.filter.heap 0).pose s.st.odom d.odom := by
    rw [hup]
    simp [World.updatePose, carried, observerStep, Pose.sub, Pose.add, h5]
  have hraw : (fu.heap 0).rawOdom = d.odom := by
    rw [hup]
    simp [World.updatePose, observerStep, Pose.sub, Pose.add, h5]
  have hq : (fu.heap 0).noisy = false := by rw [hup]; exact h2
  have hb : (fu.heap 0).scanFirst = false := by rw [hup]; exact h3
  have he : (fu.heap 0).nextSm = ⟨0, 0, 0⟩ := by rw [hup]; exact h4
  have hclose : (fu.heap 0).tooClose = false := by
    rw [Bool.eq_false_iff]
    exact fun hc => eager_not_resting ⟨hq, he⟩ (resting_too_close.1 hc)
  have hstart : startPose (fu.heap 0) (d.guess 0) = carried (s.st.filter.heap 0).pose s.st.odom d.odom := by
    unfold startPose
    rw [hb, hq, ← hp]
    simp [Pose.add]
  rw [show observeOwn g d scan fu.ids = observeOwn g d scan [0] by rw [hids]]
  simp only [observeOwn, hclose, Bool.false_eq_true, if_false, hstart]
  cases g.matching s.matcher scan (carried (s.st.filter.heap 0).pose s.st.odom d.odom) s.st.map with
  | none => simp
  | some a =>
  simp only [Option.bind_some]
  have hobs : (fu.heap 0).handleObservation ⟨d.guess 0, fun _ => a.2.1, d.nextSm 0⟩ =
      ({ fu.heap 0 with
          pose := (carried (s.st.filter.heap 0).pose s.st.odom d.odom).add a.2.1.1
          scanFirst := false
          weight := mulN a.2.1.2 (fu.heap 0).weight
          deltaSince := ⟨0, 0, 0⟩
          nextSm := ⟨0, 0, 0⟩ },
        if positive a.2.1.2 then some ((carried (s.st.filter.heap 0).pose s.st.odom d.odom).add a.2.1.1) else none) := by
    unfold World.handleObservation
    rw [if_neg (by rw [hclose]; simp)]
    simp only [hb, hq, Bool.false_eq_true, if_false, Bool.or_false, hp]
    simp [Pose.add]
  rw [hobs]
  set W : World ℝ := { fu.heap 0 with
    pose := (carried (s.st.filter.heap 0).pose s.st.odom d.odom).add a.2.1.1
    scanFirst := false
    weight := mulN a.2.1.2 (fu.heap 0).weight
    deltaSince := ⟨0, 0, 0⟩
    nextSm := ⟨0, 0, 0⟩ } with hW
  have hmk : ∀ (ms : Nat → List (Pose ℝ)) (m : M) (hi : Option Hist), Lone
      (⟨⟨(observerStep s.st.odom d.odom).1, ({ fu with
        heap := setObj fu.heap 0 W
        maps := ms } : Particle.Filter ℝ).normalize, m, hi⟩, a.1⟩ : GOwn M)
      ⟨d.odom, (carried (s.st.filter.heap 0).pose s.st.odom d.odom).add a.2.1.1, m, hi, a.1⟩ := by
    intro ms m hi
    obtain ⟨v, hv⟩ := one_normalized ({ fu with
        heap := setObj fu.heap 0 W
        maps := ms } : Particle.Filter ℝ) hids
    have hv' : ({ fu with
        heap := setObj fu.heap 0 W
        maps := ms } : Particle.Filter ℝ).normalize.heap 0 = { W with weight := v } := by
      rw [hv]
      simp [setObj]
    refine ⟨hids, ?_, ?_, ?_, ?_, ?_⟩
    · simp only [hv']; exact hq
    · simp only [hv']; rfl
    · simp only [hv']; rfl
    · simp only [hv']; exact hraw
    · simp only [hv']
      rfl
  have htry : ∀ ms, ({ fu with
      heap := setObj fu.heap 0 W
      maps := ms } : Particle.Filter ℝ).normalize.gTryResample d.samples = some ({ fu with
      heap := setObj fu.heap 0 W
      maps := ms } : Particle.Filter ℝ).normalize := fun ms => one_try ({ fu with
      heap := setObj fu.heap 0 W
      maps := ms } : Particle.Filter ℝ) _ hids
  by_cases hpos : positive a.2.1.2 = true
  · simp only [hpos, if_true]
    cases g.slam.append s.st.hist s.st.map ((carried (s.st.filter.heap 0).pose s.st.odom d.odom).add a.2.1.1) scan 1 0 with
    | none => simp
    | some q =>
      simp only [Option.bind_some, Option.map_some]
      rw [htry]
      simp only [Option.map_some, Option.some.injEq, reduceCtorEq, false_imp_iff, and_true]
      rintro s' rfl
      exact ⟨_, rfl, hmk _ _ _, htr⟩
  · simp only [hpos, Bool.false_eq_true, if_false, Option.bind_some]
    rw [htry]
    simp only [Option.map_some, Option.some.injEq, reduceCtorEq, false_imp_iff, and_true]
    rintro s' rfl
    exact ⟨_, rfl, hmk _ _ _, htr⟩

/-- **Histories (C117)**: GMapping with one particle goes on exactly if plain scan matching does, and shows what it shows. -/
theorem lone_is_plain : ∀ (ds : List GMsg) {s : GOwn M} {pl : Plain M}, Lone s pl →
    (∀ s', s.run g ds = some s' → ∃ pl', pl.run g (ds.map GMsg.seen) = some pl' ∧ Lone s' pl' ∧ s'.st.pose = some pl'.pose ∧
      s'.st.map = pl'.map) ∧
    (s.run g ds = none → pl.run g (ds.map GMsg.seen) = none)
  | [], s, pl, h => by
    simp only [GOwn.run, Plain.run, List.map_nil, Option.some.injEq, reduceCtorEq, false_imp_iff, and_true]
    rintro s' rfl
    refine ⟨_, rfl, h, ?_, by rw [h.same]⟩
    simp only [GSt.pose, Particle.Filter.world, h.ids, Particle.heaviest, Option.map_some, h.same]
  | d :: ds, s, pl, h => by
    obtain ⟨h1, h2⟩ := lone_handle (g := g) h d
    simp only [GOwn.run, Plain.run, List.map_cons]
    change _ ∧ (_ → ((pl.handle g d.odom d.msg).bind fun s => s.run g (ds.map GMsg.seen)) = none)
    cases e : s.handle g d with
    | none =>
      rw [h2 e]
      simp
    | some s1 =>
      obtain ⟨pl1, e1, l1, -⟩ := h1 s1 e
      obtain ⟨r1, r2⟩ := lone_is_plain ds l1
      refine ⟨fun s' hs' => ?_, fun hn => ?_⟩
      · obtain ⟨pl', q1, q2⟩ := r1 s' hs'
        refine ⟨pl', ?_, q2⟩
        change ((pl.handle g d.odom d.msg).bind fun s => s.run g (ds.map GMsg.seen)) = _
        rw [e1]
        exact q1
      · rw [e1]
        exact r2 hn

/-- Nothing that is drawn matters. -/
theorem lone_no_chance {s s2 : GOwn M} {pl : Plain M} (h : Lone s pl) (h2 : Lone s2 pl) {ds es : List GMsg}
    (hde : ds.map GMsg.seen = es.map GMsg.seen) {s' s2' : GOwn M} (hr : s.run g ds = some s') (hr2 : s2.run g es = some s2') :
    s'.st.pose = s2'.st.pose ∧ s'.st.map = s2'.st.map := by
  obtain ⟨pl1, a1, -, a2, a3⟩ := (lone_is_plain ds h).1 s' hr
  obtain ⟨pl2, b1, -, b2, b3⟩ := (lone_is_plain es h2).1 s2' hr2
  rw [hde, b1, Option.some.injEq] at a1
  subst a1
  exact ⟨a2.trans b2.symm, a3.trans b3.symm⟩

/-- **How it begins (C117).** -/
theorem lone_begins {init : M} {steps : List (Delta ℝ)} {hist : Option Hist} (hc : GStarted g init) (hz : g.rnd 0 = 0) {f : ℝ} {w : Nat}
    (hf : -1 < f) (hn : steps.length = 1) {o : Pose ℝ} {t : Delta ℝ} (ht : 0 ≤ t.theta) {s s' : GOwn M} (h : Cold steps init hist o t s.st)
    (hm : GMatchOk f w s.matcher) (hl : lastOf s.matcher.pe = none) {d : GMsg} {t' : Delta ℝ}
    (ht' : t' = ⟨t.x + |d.odom.x - o.x|, t.y + |d.odom.y - o.y|, t.theta + |d.odom.theta - o.theta|⟩)
    (hi : ∃ step, steps[0]? = some step ∧ ¬ Short t' step) (hh : s.handle g d = some s') :
    ∃ pl, Lone s' pl ∧ pl.odom = d.odom ∧ pl.pose = d.odom := by
  obtain ⟨step, hs1, hs2⟩ := hi
  have hq : (s.st.filter.heap 0).noisy = false := by
    obtain ⟨m, hm1, hm2⟩ := h.quiet
    rw [hm2 0 (by omega)]
    have : m = 0 := by omega
    simp [this]
  simp only [GOwn.handle, Option.bind_eq_some_iff, Option.map_eq_some_iff] at hh
  obtain ⟨pts, e0, scan, e2, r, e3, f', e4, rfl⟩ := hh
  have hids : (s.st.filter.updatePose Real.sin Real.cos (observerStep s.st.odom d.odom).2).ids = [0] := by
    change s.st.filter.ids = _
    rw [h.ids, hn]
    rfl
  have hnoise : ((s.st.filter.updatePose Real.sin Real.cos (observerStep s.st.odom d.odom).2).heap 0).noisy = false := by
    change (forEach (fun w => w.updatePose Real.sin Real.cos (observerStep s.st.odom d.odom).2) s.st.filter.heap s.st.filter.ids 0).noisy = _
    have hi0 : s.st.filter.ids = [0] := hids
    rw [Particle.forEach_apply _ _ (by rw [hi0]; simp), if_pos (by rw [hi0]; simp)]
    exact hq
  obtain ⟨b1, b2, b3, b4, b5, b6, b7⟩ := cold_moved h d.odom (i := 0) (by omega)
  set fu := s.st.filter.updatePose Real.sin Real.cos (observerStep s.st.odom d.odom).2 with hfu
  have hci : (fu.heap 0).tooClose = false := by
    rw [Bool.eq_false_iff, Ne, short_too_close (b3.trans ht'.symm) rfl (by rw [ht']; positivity)]
    rw [hs1, Option.some.injEq] at b4
    rw [b4]
    exact hs2
  rw [hids] at e3
  obtain ⟨a, mt', ev, k1, k2⟩ := observe_own_alone d scan 0 [] [] fu.heap fu.maps s.st.map s.st.hist s.matcher r (by simp) (by simp) hci b5 e3
  rw [b1] at k1
  obtain ⟨isM, -⟩ := gm_matching_is_match hc ⟨[], by rw [h.map]; rfl, sane_nil⟩ hm (scanOf_polar e2) k1
  rw [h.map] at isM
  obtain ⟨q1, -⟩ := blank_match hc hz hf hl isM
  rw [one_try _ _ (show ({ fu with
    heap := r.1
    maps := r.2.1 } : Particle.Filter ℝ).ids = [0] from hids), Option.some.injEq] at e4
  subst e4
  have hobs : ((fu.heap 0).handleObservation ⟨d.guess 0, fun _ => a, d.nextSm 0⟩).1 = { fu.heap 0 with
      pose := d.odom
      scanFirst := false
      weight := mulN a.2 (fu.heap 0).weight
      deltaSince := ⟨0, 0, 0⟩
      nextSm := ⟨0, 0, 0⟩ } := by
    unfold World.handleObservation
    rw [if_neg (by rw [hci]; simp)]
    simp only [b5, if_true, b1, q1, Bool.or_true, hnoise, Bool.false_eq_true, if_false]
  obtain ⟨v, hv⟩ := one_normalized ({ fu with
    heap := r.1
    maps := r.2.1 } : Particle.Filter ℝ) hids
  have hr0 : r.1 0 = ((fu.heap 0).handleObservation ⟨d.guess 0, fun _ => a, d.nextSm 0⟩).1 := by rw [k2]; simp only [setObj, if_true]
  rw [hobs] at hr0
  have hv' : ({ fu with
    heap := r.1
    maps := r.2.1 } : Particle.Filter ℝ).normalize.heap 0 = { r.1 0 with weight := v } := hv
  rw [hr0] at hv'
  refine ⟨⟨d.odom, d.odom, r.2.2.1, r.2.2.2.1, r.2.2.2.2⟩, ⟨hids, ?_, ?_, ?_, ?_, ?_⟩, rfl, rfl⟩
  · simp only; rw [hv']; exact hnoise
  · simp only; rw [hv']
  · simp only; rw [hv']
  · simp only; rw [hv']; exact b2
  · simp only; rw [hv']; rfl

end

/-! ## GMapping as started -/

section
variable {stod : Config.Str → Option ℝ} {env : Env} {rnd : ℝ → ℝ} {draws : Config.GmappingParams ℝ → Nat → Delta ℝ} {t : Config.Table}

/-- **GMapping started with one particle (C117)**: until the odometry has gone the drawn step it shows the odometry's pose; the message
with which that is reached makes it plain scan matching, which it remains. -/
theorem launched_lone (hrnd : ∀ x, Unit01 x → Unit01 (rnd x)) (hz : rnd 0 = 0) {w : Config.World ℝ} {p : Config.GmappingParams ℝ}
    (hw : Config.initGmapping stod t = some (w, p, 1)) (h : GSensible w 1) {P : GProgram}
    (hP : launchGmapping stod env rnd draws t = some P) (hf : -1 < P.start.matcher.pe.fullness)
    (ds : List GMsg) (hs : ∀ d ∈ ds, ∃ scan, ScanOf P.cfg.slam d.msg scan)
    (hshort : Short (gone ⟨0, 0, 0⟩ (ds.map GMsg.odom)) (draws p 0)) (d : GMsg)
    (hreach : ¬ Short (gone ⟨0, 0, 0⟩ ((ds ++ [d]).map GMsg.odom)) (draws p 0))
    {s1 : GOwn (AnyMap (GmCell ℝ))} (hrun : P.start.run P.cfg (ds ++ [d]) = some s1) :
    (∃ s0, P.start.run P.cfg ds = some s0 ∧ s0.st.pose = some (lastPose ⟨0, 0, 0⟩ (ds.map GMsg.odom))) ∧
      ∃ pl, Lone s1 pl ∧ pl.odom = d.odom ∧ pl.pose = d.odom ∧ ∀ es : List GMsg,
        (∀ s2, s1.run P.cfg es = some s2 → ∃ pl', pl.run P.cfg (es.map GMsg.seen) = some pl' ∧ s2.st.pose = some pl'.pose ∧
          s2.st.map = pl'.map) ∧
        (s1.run P.cfg es = none → pl.run P.cfg (es.map GMsg.seen) = none) := by
  obtain ⟨P', hP', hA, hst, hsd, hg, -, -⟩ := gmapping_launches (env := env) (draws := draws) hrnd hw h
  rw [hP, Option.some.injEq] at hP'
  subst hP'
  have hcz : P.cfg.rnd = rnd := by
    have hspec := (Config.gmapping_as_configured (stod := stod) t w p 1).1 hw
    obtain ⟨f, win, ho, -⟩ := hspec.oope
    unfold launchGmapping at hP
    simp only [hw, Option.bind_some, hspec.matcher.1, ho, Option.bind_eq_some_iff, Option.map_eq_some_iff] at hP
    obtain ⟨m, -, st, -, rfl⟩ := hP
    rfl
  have hlen : ((List.range 1).map (draws p)).length = 1 := by simp
  have hn0 : 0 < ((List.range 1).map (draws p)).length := by rw [hlen]; omega
  have hc := cold_start_state hg
  obtain ⟨s0, k1, k2, k3⟩ := cold_own_run (g := P.cfg) hn0 ds (by simp) hc hs _ rfl (by
    intro step hstep
    simp only [List.mem_map, List.mem_range] at hstep
    obtain ⟨k, hk, rfl⟩ := hstep
    have : k = 0 := by omega
    subst this
    simpa using hshort)
  obtain ⟨s0', q1, q2⟩ := gown_run_snoc P.cfg ds d _ _ hrun
  rw [k1, Option.some.injEq] at q1
  subst q1
  obtain ⟨g1, g2, g3⟩ := gone_nonneg (ds.map GMsg.odom) ⟨0, 0, 0⟩
  simp only [List.map_append, List.map_cons, List.map_nil, gone_append] at hreach
  obtain ⟨pl, l1, l2, l3⟩ := lone_begins hst (by rw [hcz]; exact hz) hf hlen (by simpa using g3) k2 (by rw [k3]; exact hsd.matcher)
    (by rw [k3]; exact hA.fresh) rfl ⟨draws p 0, by simp, by simpa using hreach⟩ q2
  refine ⟨⟨s0, k1, cold_pose hn0 k2⟩, pl, l1, l2, l3, fun es => ?_⟩
  obtain ⟨r1, r2⟩ := lone_is_plain (g := P.cfg) es l1
  refine ⟨fun s2 hs2 => ?_, r2⟩
  obtain ⟨pl', a1, -, a2, a3⟩ := r1 s2 hs2
  exact ⟨pl', a1, a2, a3⟩

/-- The GMapping of C115's instance drives a metre; then up to fifty messages standing still. -/
example (stod : Config.Str → Option ℝ) : ∃ P s1 pl, launchGmapping stod gLeastEnv (fun x => (⌊x * 1024⌋ : ℝ) / 1024)
      (fun _ _ => ⟨7 / 10, 7 / 10, 3 / 10⟩) gLone = some P ∧ P.start.run P.cfg [gLoneMsg 0, gLoneMsg 1] = some s1 ∧
    Lone s1 pl ∧ pl.pose = ⟨1, 0, 0⟩ ∧
    ∀ k ≤ 50, ∃ s2 pl', s1.run P.cfg (List.replicate k (gLoneMsg 1)) = some s2 ∧
      pl.run P.cfg ((List.replicate k (gLoneMsg 1)).map GMsg.seen) = some pl' ∧ s2.st.pose = some pl'.pose := by
  obtain ⟨P, s1, hP, hrun, -, hf⟩ := glone_total stod (fun _ _ => ⟨7 / 10, 7 / 10, 3 / 10⟩) (k := 0) (by norm_num)
  simp only [List.replicate_zero, List.append_nil] at hrun
  have hrun' : P.start.run P.cfg ([gLoneMsg 0] ++ [gLoneMsg 1]) = some s1 := hrun
  obtain ⟨s0, h0, -⟩ := gown_run_snoc P.cfg [gLoneMsg 0] (gLoneMsg 1) _ _ hrun'
  have hs : ∀ d ∈ [gLoneMsg 0], ∃ scan, ScanOf P.cfg.slam d.msg scan := by
    intro d hd
    rw [List.mem_singleton.1 hd]
    simp only [GOwn.run, GOwn.handle, Option.bind_eq_some_iff] at h0
    obtain ⟨s', ⟨pts, e1, scan, e2, -⟩, -⟩ := h0
    exact ⟨scan, pts, e1, e2⟩
  obtain ⟨-, pl, l1, -, l3, l4⟩ := launched_lone (fun x hx => (lone_rnd x hx).1) (by norm_num) (glone_read stod) glone_sensible hP
    (by rw [hf]; norm_num) [gLoneMsg 0] hs (by norm_num [Short, gone, gLoneMsg]) (gLoneMsg 1)
    (by norm_num [Short, gone, gLoneMsg]) hrun'
  refine ⟨P, s1, pl, hP, hrun, l1, by rw [l3]; norm_num [gLoneMsg], fun k hk => ?_⟩
  obtain ⟨P', s2, hP', hrun2, -, -⟩ := glone_total stod (fun _ _ => ⟨7 / 10, 7 / 10, 3 / 10⟩) hk
  rw [hP, Option.some.injEq] at hP'
  subst hP'
  have happ : ∀ (a b : List GMsg) (s : GOwn (AnyMap (GmCell ℝ))), s.run P.cfg (a ++ b) = (s.run P.cfg a).bind fun s => s.run P.cfg b := by
    intro a
    induction a with
    | nil => intro b s; rfl
    | cons x a ih =>
      intro b s
      simp only [List.cons_append, GOwn.run]
      cases s.handle P.cfg x with
      | none => rfl
      | some s' => simp only [Option.bind_some]; exact ih b s'
  rw [happ, hrun, Option.bind_some] at hrun2
  obtain ⟨pl', a1, a2, -⟩ := (l4 _).1 s2 hrun2
  exact ⟨s2, pl', hrun2, a1, a2⟩

end

end Slam.Whole
