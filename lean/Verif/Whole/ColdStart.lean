import Verif.Whole.GmappingOwnRun
import Verif.Whole.GmappingLaunch

/-!
# GMapping before the robot has moved (C113)

A particle handles a scan only if the odometry has moved it by the step drawn for it since the last scan it handled
(src/slams/gmapping/gmapping_world.h:73-77), and this holds for the first scan, too.
-/

set_option autoImplicit false
set_option linter.unusedSectionVars false

namespace Slam.Whole
open Slam.Grid Slam.Cells Slam.Poses Slam.Sensor Slam.Score Slam.ScanAdder Slam.Worlds
open Slam.Particle (Env setObj forEach World)

/-! ## Specification -/

/-- How far the odometry has gone in all, along each axis and in angle, whatever the directions, while it showed the given poses
after the pose `prev`. -/
def gone (prev : Pose ℝ) : List (Pose ℝ) → Delta ℝ
  | [] => ⟨0, 0, 0⟩
  | o :: os => ⟨|o.x - prev.x| + (gone o os).x, |o.y - prev.y| + (gone o os).y, |o.theta - prev.theta| + (gone o os).theta⟩

/-- What has been gone is less than the step, both in translation and in rotation. -/
def Short (t step : Delta ℝ) : Prop := t.x ^ 2 + t.y ^ 2 < step.x ^ 2 + step.y ^ 2 ∧ t.theta < step.theta

/-- The last pose. -/
def lastPose (prev : Pose ℝ) (os : List (Pose ℝ)) : Pose ℝ := os.getLast?.getD prev

/-- `n` particles, number `i` with step `steps[i]`, that have only followed the odometry, by `t` up to `o`; nothing in the map; just
one is without noise. -/
structure Cold {M : Type} (steps : List (Delta ℝ)) (init : M) (hist : Option Hist) (o : Pose ℝ) (t : Delta ℝ) (s : GSt M) : Prop where
  odom : s.odom = o
  map : s.map = init
  hist : s.hist = hist
  ids : s.filter.ids = List.range steps.length
  maps : s.filter.maps = fun _ => []
  one : ∀ i < steps.length, (s.filter.heap i).pose = o ∧ (s.filter.heap i).rawOdom = o ∧ (s.filter.heap i).deltaSince = t ∧
    some (s.filter.heap i).nextSm = steps[i]? ∧ (s.filter.heap i).scanFirst = true ∧ (s.filter.heap i).mapRef = 0 ∧
    (s.filter.heap i).weight = some (1 / (steps.length : ℝ))
  quiet : ∃ m < steps.length, ∀ i < steps.length, (s.filter.heap i).noisy = decide (i ≠ m)

/-! ## Proofs -/

section
variable {C M : Type} {cfg : Cfg C M} {steps : List (Delta ℝ)} {init : M} {hist : Option Hist}

theorem gone_nonneg : ∀ (os : List (Pose ℝ)) (prev : Pose ℝ), 0 ≤ (gone prev os).x ∧ 0 ≤ (gone prev os).y ∧ 0 ≤ (gone prev os).theta
  | [], _ => by simp [gone]
  | o :: os, prev => by
    obtain ⟨h1, h2, h3⟩ := gone_nonneg os o
    simp only [gone]
    exact ⟨by positivity, by positivity, by positivity⟩

theorem cold_start_state {st : GSt M} (h : gStart steps init hist = some st) : Cold steps init hist ⟨0, 0, 0⟩ ⟨0, 0, 0⟩ st := by
  unfold gStart at h
  rw [Option.map_eq_some_iff] at h
  obtain ⟨f, hf, rfl⟩ := h
  unfold Particle.Filter.create at hf
  simp only [Option.map_eq_some_iff] at hf
  obtain ⟨i, hi, rfl⟩ := hf
  refine ⟨rfl, rfl, rfl, rfl, rfl, ?_, i, ?_, fun j hj => ?_⟩
  rotate_left
  · rcases (Particle.heaviest_mem _ _ _).1 i hi with h | h
    · exact List.mem_range.1 h
    · cases h
  · by_cases hij : j = i
    · subst hij
      simp [setObj, World.markMaster]
    · have e : forEach World.sample (fun i => { World.create (steps.getD i ⟨0, 0, 0⟩) with
          weight := some (1 / (steps.length : ℝ)) }) (List.range steps.length) j =
          ({ World.create (steps.getD j ⟨0, 0, 0⟩) with weight := some (1 / (steps.length : ℝ)) } : World ℝ).sample := by
        rw [Particle.forEach_apply _ _ List.nodup_range, if_pos (List.mem_range.2 hj)]
      simp only [setObj, if_neg hij]
      rw [e]
      simp [World.sample, World.create, hij]
  intro j hj
  have e : forEach World.sample (fun i => { World.create (steps.getD i ⟨0, 0, 0⟩) with
      weight := some (1 / (steps.length : ℝ)) }) (List.range steps.length) j =
      ({ World.create (steps.getD j ⟨0, 0, 0⟩) with weight := some (1 / (steps.length : ℝ)) } : World ℝ).sample := by
    rw [Particle.forEach_apply _ _ List.nodup_range, if_pos (List.mem_range.2 hj)]
  have key : ∀ w : World ℝ, w = ({ World.create (steps.getD j ⟨0, 0, 0⟩) with weight := some (1 / (steps.length : ℝ)) } : World ℝ).sample ∨
      w = (({ World.create (steps.getD j ⟨0, 0, 0⟩) with weight := some (1 / (steps.length : ℝ)) } : World ℝ).sample).markMaster →
      w.pose = ⟨0, 0, 0⟩ ∧ w.rawOdom = ⟨0, 0, 0⟩ ∧ w.deltaSince = ⟨0, 0, 0⟩ ∧ some w.nextSm = steps[j]? ∧ w.scanFirst = true ∧
      w.mapRef = 0 ∧ w.weight = some (1 / (steps.length : ℝ)) := by
    rintro w (rfl | rfl) <;> refine ⟨rfl, rfl, rfl, ?_, rfl, rfl, rfl⟩ <;>
      simp [World.markMaster, World.sample, World.create, List.getElem?_eq_getElem hj, List.getD_eq_getElem?_getD]
  apply key
  by_cases hij : j = i
  · right
    subst hij
    simp only [setObj, if_true]
    rw [e]
  · left
    simp only [setObj, if_neg hij]
    rw [e]

/-- All particles left alone: the loop changes nothing. -/
theorem observe_none (d : GDatum M) (scan : List ScanPoint) : ∀ (ids : List Nat) (h : Nat → World ℝ) (ms : Nat → List (Pose ℝ)) (m : M)
    (hi : Option Hist), (∀ i ∈ ids, (h i).tooClose = true) → observeEach cfg d scan ids h ms m hi = some (h, ms, m, hi)
  | [], h, ms, m, hi, _ => rfl
  | i :: is, h, ms, m, hi, hc => by
    have e : (h i).handleObservation (d.env scan m i) = (h i, none) := by
      unfold World.handleObservation
      rw [if_pos (hc i (by simp))]
    have e2 : setObj h i (h i) = h := by
      funext j
      by_cases hj : j = i
      · subst hj; simp [setObj]
      · simp [setObj, hj]
    simp only [observeEach, e, e2]
    exact observe_none d scan is h ms m hi (fun j hj => hc j (by simp [hj]))

theorem short_too_close {w : World ℝ} {t step : Delta ℝ} (h1 : w.deltaSince = t) (h2 : w.nextSm = step)
    (ht : 0 ≤ t.theta) : w.tooClose = true ↔ Short t step := by
  subst h1 h2
  simp only [World.tooClose, Short, Bool.and_eq_true, decide_eq_true_iff, Pose.sqDist, abs_of_nonneg ht, pow_two]
  exact and_congr ⟨of_decide_eq_true, decide_eq_true⟩ Iff.rfl

/-- The odometry moves cold particles as one. -/
theorem cold_moved {o : Pose ℝ} {t : Delta ℝ} {s : GSt M} (h : Cold steps init hist o t s) (o' : Pose ℝ) {i : Nat}
    (hi : i < steps.length) :
    let w := (s.filter.updatePose Real.sin Real.cos (observerStep s.odom o').2).heap i
    w.pose = o' ∧ w.rawOdom = o' ∧ w.deltaSince = ⟨t.x + |o'.x - o.x|, t.y + |o'.y - o.y|, t.theta + |o'.theta - o.theta|⟩ ∧
      some w.nextSm = steps[i]? ∧ w.scanFirst = true ∧ w.mapRef = 0 ∧ w.weight = some (1 / (steps.length : ℝ)) := by
  intro w
  obtain ⟨a1, a2, a3, a4, a5, a6, a7⟩ := h.one i hi
  have e : w = (s.filter.heap i).updatePose Real.sin Real.cos (observerStep s.odom o').2 := by
    change forEach (fun w => w.updatePose Real.sin Real.cos (observerStep s.odom o').2) s.filter.heap s.filter.ids i = _
    rw [Particle.forEach_apply _ _ (by rw [h.ids]; exact List.nodup_range), if_pos (by rw [h.ids]; exact List.mem_range.2 hi)]
  rw [e]
  clear e w
  simp only [World.updatePose, observerStep, h.odom, a1, a2, a3, Pose.sub, Pose.add, Pose.abs]
  refine ⟨?_, ?_, ?_, a4, a5, a6, a7⟩
  · cases o'; simp
  · cases o'; simp
  · simp

theorem uniform_normalize {f : Particle.Filter ℝ} {n : Nat} (hn : 0 < n) (hids : f.ids = List.range n)
    (hw : ∀ i < n, (f.heap i).weight = some (1 / (n : ℝ))) :
    f.normalize.ids = f.ids ∧ f.normalize.maps = f.maps ∧ f.normalize.traversed = f.traversed ∧
      ∀ i < n, f.normalize.heap i = f.heap i := by
  have hws : f.weights = (List.replicate n (1 / (n : ℝ))).map some := by
    simp only [Particle.Filter.weights, Particle.Filter.particles, hids, List.map_replicate, List.map_map]
    apply List.ext_getElem
    · simp
    · intro k h1 h2
      simp at h1
      simp [hw k h1]
  refine ⟨rfl, rfl, rfl, fun i hi => ?_⟩
  change forEach (fun w : World ℝ => { w with weight := Particle.divN w.weight (Particle.sumN f.weights) }) f.heap f.ids i = _
  rw [Particle.forEach_apply _ _ (by rw [hids]; exact List.nodup_range), if_pos (by rw [hids]; exact List.mem_range.2 hi), hws,
    Particle.sumN_some, List.sum_replicate, nsmul_eq_mul, mul_one_div, div_self (by exact_mod_cast hn.ne')]
  have : Particle.divN (f.heap i).weight (some 1) = (f.heap i).weight := by rw [hw i hi]; simp [Particle.divN]
  rw [this]

theorem uniform_resample {f : Particle.Filter ℝ} {n : Nat} (hids : f.ids = List.range n)
    (hw : ∀ i < n, (f.heap i).weight = some (1 / (n : ℝ))) (samples : List ℝ) : f.gTryResample samples = some f := by
  have hws : f.weights = List.replicate n (some (1 / (n : ℝ))) := by
    simp only [Particle.Filter.weights, Particle.Filter.particles, hids, List.map_map]
    apply List.ext_getElem
    · simp
    · intro k h1 h2
      simp at h1
      simp [hw k h1]
  unfold Particle.Filter.gTryResample
  split
  · rfl
  · simp [Particle.Filter.tryResample, Particle.uniform_never_resamples n _ hws]

theorem cold_filter (hn : 0 < steps.length) {o : Pose ℝ} {t : Delta ℝ} (ht : 0 ≤ t.theta) {s : GSt M} (h : Cold steps init hist o t s)
    (o' : Pose ℝ) {t' : Delta ℝ} (ht' : t' = ⟨t.x + |o'.x - o.x|, t.y + |o'.y - o.y|, t.theta + |o'.theta - o.theta|⟩)
    (hshort : ∀ step ∈ steps, Short t' step) (samples : List ℝ) {f : Particle.Filter ℝ}
    (hf : f = s.filter.updatePose Real.sin Real.cos (observerStep s.odom o').2) :
    (∀ i ∈ f.ids, (f.heap i).tooClose = true) ∧
      (({ f with
          heap := f.heap
          maps := f.maps } : Particle.Filter ℝ).normalize.gTryResample samples) = some f.normalize ∧
      Cold steps init hist o' t' ⟨o', f.normalize, s.map, s.hist⟩ := by
  have hids : f.ids = List.range steps.length := by rw [hf]; exact h.ids
  have hmaps : f.maps = fun _ => [] := by rw [hf]; exact h.maps
  have hmov := fun i hi => cold_moved h o' (i := i) hi
  simp only [← hf] at hmov
  have hclose : ∀ i ∈ f.ids, (f.heap i).tooClose = true := by
    intro i hi
    rw [hids, List.mem_range] at hi
    obtain ⟨-, -, b3, b4, -⟩ := hmov i hi
    rw [short_too_close (b3.trans ht'.symm) rfl (by rw [ht']; positivity)]
    exact hshort _ (List.mem_of_getElem? b4.symm)
  obtain ⟨u1, u2, u3, u4⟩ := uniform_normalize hn hids (fun i hi => (hmov i hi).2.2.2.2.2.2)
  have hres := uniform_resample (f := f.normalize) (u1.trans hids) (fun i hi => by rw [u4 i hi]; exact (hmov i hi).2.2.2.2.2.2) samples
  obtain ⟨m, hml, hm⟩ := h.quiet
  refine ⟨hclose, hres, rfl, h.map, h.hist, u1.trans hids, u2.trans hmaps, fun i hi => ?_, m, hml, fun i hi => ?_⟩
  · simp only
    rw [u4 i hi, ht']
    exact hmov i hi
  · simp only
    rw [u4 i hi, hf]
    change (forEach (fun w => w.updatePose Real.sin Real.cos (observerStep s.odom o').2) s.filter.heap s.filter.ids i).noisy = _
    rw [Particle.forEach_apply _ _ (by rw [h.ids]; exact List.nodup_range), if_pos (by rw [h.ids]; exact List.mem_range.2 hi)]
    exact hm i hi

/-- One message before any step is reached. -/
theorem cold_handle (hn : 0 < steps.length) {o : Pose ℝ} {t : Delta ℝ} (ht : 0 ≤ t.theta) {s : GSt M} (h : Cold steps init hist o t s)
    (d : GDatum M) {t' : Delta ℝ}
    (ht' : t' = ⟨t.x + |d.odom.x - o.x|, t.y + |d.odom.y - o.y|, t.theta + |d.odom.theta - o.theta|⟩)
    (hshort : ∀ step ∈ steps, Short t' step) {scan : List ScanPoint} (hscan : ScanOf cfg d.msg scan) :
    ∃ s', s.handle cfg d = some s' ∧ Cold steps init hist d.odom t' s' := by
  obtain ⟨pts, e1, e2⟩ := hscan
  obtain ⟨k1, k2, k3⟩ := cold_filter hn ht h d.odom ht' hshort d.samples rfl
  refine ⟨_, ?_, k3⟩
  unfold GSt.handle
  rw [e1, Option.bind_some, e2, Option.bind_some]
  simp only
  rw [observe_none d scan _ _ _ s.map s.hist k1, Option.bind_some, k2, Option.map_some]
  rfl

theorem observe_own_none (g : GOwnCfg M) (d : GMsg) (scan : List ScanPoint) : ∀ (ids : List Nat) (h : Nat → World ℝ) (ms : Nat → List (Pose ℝ)) (m : M)
    (hi : Option Hist) (mt : GMatch), (∀ i ∈ ids, (h i).tooClose = true) → observeOwn g d scan ids h ms m hi mt = some (h, ms, m, hi, mt)
  | [], h, ms, m, hi, mt, _ => rfl
  | i :: is, h, ms, m, hi, mt, hc => by
    simp only [observeOwn, hc i (by simp), if_true]
    exact observe_own_none g d scan is h ms m hi mt (fun j hj => hc j (by simp [hj]))

/-- The same with GMapping's own matcher, which is not called. -/
theorem cold_own_handle {g : GOwnCfg M} (hn : 0 < steps.length) {o : Pose ℝ} {t : Delta ℝ} (ht : 0 ≤ t.theta) {s : GOwn M} (h : Cold steps init hist o t s.st)
    (d : GMsg) {t' : Delta ℝ}
    (ht' : t' = ⟨t.x + |d.odom.x - o.x|, t.y + |d.odom.y - o.y|, t.theta + |d.odom.theta - o.theta|⟩)
    (hshort : ∀ step ∈ steps, Short t' step) {scan : List ScanPoint} (hscan : ScanOf g.slam d.msg scan) :
    ∃ s', s.handle g d = some s' ∧ Cold steps init hist d.odom t' s'.st ∧ s'.matcher = s.matcher := by
  obtain ⟨pts, e1, e2⟩ := hscan
  obtain ⟨k1, k2, k3⟩ := cold_filter hn ht h d.odom ht' hshort d.samples rfl
  refine ⟨⟨_, s.matcher⟩, ?_, k3, rfl⟩
  unfold GOwn.handle
  rw [e1, Option.bind_some, e2, Option.bind_some]
  simp only
  rw [observe_own_none g d scan _ _ _ s.st.map s.st.hist s.matcher k1, Option.bind_some, k2, Option.map_some]
  rfl

theorem short_head {o o1 : Pose ℝ} {t : Delta ℝ} (ht : 0 ≤ t.x ∧ 0 ≤ t.y ∧ 0 ≤ t.theta) (os : List (Pose ℝ)) {step : Delta ℝ}
    (h : Short ⟨t.x + (gone o (o1 :: os)).x, t.y + (gone o (o1 :: os)).y, t.theta + (gone o (o1 :: os)).theta⟩ step) :
    Short ⟨t.x + |o1.x - o.x|, t.y + |o1.y - o.y|, t.theta + |o1.theta - o.theta|⟩ step := by
  obtain ⟨q1, q2⟩ := h
  obtain ⟨g1, g2, g3⟩ := gone_nonneg os o1
  simp only [gone] at q1 q2
  have p1 : 0 ≤ t.x + |o1.x - o.x| := add_nonneg ht.1 (abs_nonneg _)
  have p2 : 0 ≤ t.y + |o1.y - o.y| := add_nonneg ht.2.1 (abs_nonneg _)
  refine ⟨lt_of_le_of_lt ?_ q1, ?_⟩
  · simp only
    nlinarith
  · simp only; linarith

theorem last_pose_cons (o o1 : Pose ℝ) (os : List (Pose ℝ)) : lastPose o (o1 :: os) = lastPose o1 os := by
  simp only [lastPose]
  cases os with
  | nil => simp
  | cons a l => rw [List.getLast?_cons_cons, List.getLast?_eq_some_getLast (l := a :: l) (by simp)]; rfl

theorem cold_run (hn : 0 < steps.length) : ∀ (ds : List (GDatum M)) {o : Pose ℝ} {t : Delta ℝ} (_ : 0 ≤ t.x ∧ 0 ≤ t.y ∧ 0 ≤ t.theta)
    {s : GSt M}, Cold steps init hist o t s → (∀ d ∈ ds, ∃ scan, ScanOf cfg d.msg scan) → ∀ t', t' = (⟨t.x + (gone o (ds.map GDatum.odom)).x,
      t.y + (gone o (ds.map GDatum.odom)).y, t.theta + (gone o (ds.map GDatum.odom)).theta⟩ : Delta ℝ) →
    (∀ step ∈ steps, Short t' step) →
    ∃ s', s.run cfg ds = some s' ∧ Cold steps init hist (lastPose o (ds.map GDatum.odom)) t' s'
  | [], o, t, ht, s, h, _, t', ht', _ => by
    refine ⟨s, rfl, ?_⟩
    simp [gone] at ht'
    rw [ht']
    exact h
  | d :: ds, o, t, ht, s, h, hs, t', ht', hshort => by
    obtain ⟨scan, hscan⟩ := hs d (by simp)
    obtain ⟨s1, k1, k2⟩ := cold_handle hn ht.2.2 h d rfl (fun step hstep => short_head ht (ds.map GDatum.odom) (ht' ▸ hshort step hstep)) hscan
    obtain ⟨s2, k3, k4⟩ := cold_run hn ds
      ⟨add_nonneg ht.1 (abs_nonneg _), add_nonneg ht.2.1 (abs_nonneg _), add_nonneg ht.2.2 (abs_nonneg _)⟩ k2
      (fun d' hd' => hs d' (by simp [hd'])) t' (by rw [ht']; simp only [List.map_cons, gone, add_assoc]) hshort
    refine ⟨s2, by simp only [GSt.run, k1, Option.bind_some, k3], ?_⟩
    rw [List.map_cons, last_pose_cons]
    exact k4

theorem cold_own_run {g : GOwnCfg M} (hn : 0 < steps.length) : ∀ (ds : List GMsg) {o : Pose ℝ} {t : Delta ℝ}
    (_ : 0 ≤ t.x ∧ 0 ≤ t.y ∧ 0 ≤ t.theta) {s : GOwn M}, Cold steps init hist o t s.st → (∀ d ∈ ds, ∃ scan, ScanOf g.slam d.msg scan) →
    ∀ t', t' = (⟨t.x + (gone o (ds.map GMsg.odom)).x, t.y + (gone o (ds.map GMsg.odom)).y, t.theta + (gone o (ds.map GMsg.odom)).theta⟩ : Delta ℝ) →
    (∀ step ∈ steps, Short t' step) →
    ∃ s', s.run g ds = some s' ∧ Cold steps init hist (lastPose o (ds.map GMsg.odom)) t' s'.st ∧ s'.matcher = s.matcher
  | [], o, t, ht, s, h, _, t', ht', _ => by
    refine ⟨s, rfl, ?_, rfl⟩
    simp [gone] at ht'
    rw [ht']
    exact h
  | d :: ds, o, t, ht, s, h, hs, t', ht', hshort => by
    obtain ⟨scan, hscan⟩ := hs d (by simp)
    obtain ⟨s1, k1, k2, m1⟩ := cold_own_handle hn ht.2.2 h d rfl (fun step hstep => short_head ht (ds.map GMsg.odom) (ht' ▸ hshort step hstep)) hscan
    obtain ⟨s2, k3, k4, m2⟩ := cold_own_run hn ds
      ⟨add_nonneg ht.1 (abs_nonneg _), add_nonneg ht.2.1 (abs_nonneg _), add_nonneg ht.2.2 (abs_nonneg _)⟩ k2
      (fun d' hd' => hs d' (by simp [hd'])) t' (by rw [ht']; simp only [List.map_cons, gone, add_assoc]) hshort
    refine ⟨s2, by simp only [GOwn.run, k1, Option.bind_some, k3], ?_, m2.trans m1⟩
    rw [List.map_cons, last_pose_cons]
    exact k4

theorem cold_pose (hn : 0 < steps.length) {o : Pose ℝ} {t : Delta ℝ} {s : GSt M} (h : Cold steps init hist o t s) : s.pose = some o := by
  unfold GSt.pose Particle.Filter.world
  have hm := Particle.heaviest_mem s.filter.heap s.filter.ids none
  cases e : Particle.heaviest s.filter.heap s.filter.ids none with
  | none => have := (hm.2 e).1; rw [h.ids, List.range_eq_nil] at this; omega
  | some i =>
    have := (hm.1 i e).resolve_right (by simp)
    rw [h.ids, List.mem_range] at this
    simp [(h.one i this).1]

/-- **Until the robot has moved enough, GMapping only follows the odometry (C113).** From the start on, while the way the odometry has
gone in all is less than the first step drawn for every particle, in translation and in rotation, every message that can be read is
handled, nothing is put into the map, and every particle and the pose reported are where the odometry says, with equal weights. -/
theorem gmapping_cold_start {st : GSt M} (h : gStart steps init hist = some st) (ds : List (GDatum M))
    (hs : ∀ d ∈ ds, ∃ scan, ScanOf cfg d.msg scan) (hshort : ∀ step ∈ steps, Short (gone ⟨0, 0, 0⟩ (ds.map GDatum.odom)) step) :
    ∃ s', st.run cfg ds = some s' ∧ s'.map = init ∧ s'.hist = hist ∧ s'.pose = some (lastPose ⟨0, 0, 0⟩ (ds.map GDatum.odom)) ∧
      s'.filter.particles.length = steps.length ∧
      ∀ w ∈ s'.filter.particles, w.pose = lastPose ⟨0, 0, 0⟩ (ds.map GDatum.odom) ∧ w.weight = some (1 / (steps.length : ℝ)) := by
  have hn : 0 < steps.length := by
    rcases Nat.eq_zero_or_pos steps.length with e | e
    · exfalso
      rw [List.length_eq_zero_iff] at e
      subst e
      simp [gStart, Particle.Filter.create, Particle.heaviest, forEach] at h
    · exact e
  obtain ⟨s', k1, k2⟩ := cold_run (cfg := cfg) hn ds (by simp) (cold_start_state h) hs _ rfl (by simpa using hshort)
  refine ⟨s', k1, k2.map, k2.hist, cold_pose hn k2, by simp [Particle.Filter.particles, k2.ids], fun w hw => ?_⟩
  simp only [Particle.Filter.particles, k2.ids, List.mem_map, List.mem_range] at hw
  obtain ⟨i, hi, rfl⟩ := hw
  exact ⟨(k2.one i hi).1, (k2.one i hi).2.2.2.2.2.2⟩

/-! ## The first scan that is taken in -/

/-- The particles that are not left alone put the scan into the map, each where its match leads from the odometry's pose. -/
theorem observe_first (d : GDatum M) (scan : List ScanPoint) (o : Pose ℝ) : ∀ (ids : List Nat) (h : Nat → World ℝ) (ms : Nat → List (Pose ℝ))
    (m : M) (hi : Option Hist), ids.Nodup → (∀ i ∈ ids, (h i).pose = o ∧ (h i).scanFirst = true ∧ (h i).mapRef = 0) →
    ∀ r, observeEach cfg d scan ids h ms m hi = some r →
      ∃ new, r.2.1 0 = new ++ ms 0 ∧ new.length = ids.countP (fun i => !(h i).tooClose) ∧
        ∀ p ∈ new, ∃ i ∈ ids, (h i).tooClose = false ∧ ∃ m', p = o.add (d.matcher i scan o m').1
  | [], h, ms, m, hi, _, _, r, hr => by
    simp only [observeEach, Option.some.injEq] at hr
    subst hr
    exact ⟨[], rfl, rfl, by simp⟩
  | i :: is, h, ms, m, hi, hd, hc, r, hr => by
    rw [List.nodup_cons] at hd
    obtain ⟨c1, c2, c3⟩ := hc i (by simp)
    have hrest : ∀ w, ∀ j ∈ is, setObj h i w j = h j := by
      intro w j hj
      have : j ≠ i := fun e => hd.1 (e ▸ hj)
      simp [setObj, this]
    have hcount : ∀ w, is.countP (fun j => !(setObj h i w j).tooClose) = is.countP fun j => !(h j).tooClose :=
      fun w => List.countP_congr fun j hj => by rw [hrest w j hj]
    by_cases ht : (h i).tooClose = true
    · have e : (h i).handleObservation (d.env scan m i) = (h i, none) := by
        unfold World.handleObservation
        rw [if_pos ht]
      simp only [observeEach, e] at hr
      obtain ⟨new, k1, k2, k3⟩ := observe_first d scan o is _ ms m hi hd.2
        (fun j hj => by rw [hrest _ j hj]; exact hc j (by simp [hj])) r hr
      refine ⟨new, k1, ?_, ?_⟩
      · rw [k2, hcount, List.countP_cons_of_neg (by simp [ht])]
      · intro p hp
        obtain ⟨j, hj, q1, q2⟩ := k3 p hp
        rw [hrest _ j hj] at q1
        exact ⟨j, by simp [hj], q1, q2⟩
    · have e : ((h i).handleObservation (d.env scan m i)).2 = some (o.add (d.matcher i scan o m).1) := by
        unfold World.handleObservation
        rw [if_neg ht]
        simp [c2, c1, GDatum.env]
      simp only [observeEach, e, Option.bind_eq_some_iff] at hr
      obtain ⟨q, -, hr⟩ := hr
      obtain ⟨new, k1, k2, k3⟩ := observe_first d scan o is _ _ q.1 q.2 hd.2
        (fun j hj => by rw [hrest _ j hj]; exact hc j (by simp [hj])) r hr
      rw [c3, if_pos rfl] at k1
      refine ⟨new ++ [o.add (d.matcher i scan o m).1], by rw [k1]; simp, ?_, ?_⟩
      · rw [List.length_append, k2, hcount, List.countP_cons_of_pos (by simp [ht])]
        rfl
      · intro p hp
        rcases List.mem_append.1 hp with hp | hp
        · obtain ⟨j, hj, q1, q2⟩ := k3 p hp
          rw [hrest _ j hj] at q1
          exact ⟨j, by simp [hj], q1, q2⟩
        · rw [List.mem_singleton.1 hp]
          exact ⟨i, by simp, by simpa using ht, m, rfl⟩

theorem gst_run_append (ds es : List (GDatum M)) : ∀ s : GSt M, s.run cfg (ds ++ es) = (s.run cfg ds).bind fun s => s.run cfg es := by
  induction ds with
  | nil => intro s; rfl
  | cons d ds ih =>
    intro s
    simp only [List.cons_append, GSt.run]
    cases s.handle cfg d with
    | none => rfl
    | some s1 => simp only [Option.bind_some]; exact ih s1

theorem gone_append : ∀ (os : List (Pose ℝ)) (prev o : Pose ℝ), gone prev (os ++ [o]) =
    ⟨(gone prev os).x + |o.x - (lastPose prev os).x|, (gone prev os).y + |o.y - (lastPose prev os).y|,
      (gone prev os).theta + |o.theta - (lastPose prev os).theta|⟩
  | [], prev, o => by simp [gone, lastPose]
  | o1 :: os, prev, o => by
    rw [List.cons_append, gone, gone_append os o1 o, last_pose_cons]
    simp only [gone, add_assoc]

open Classical in
/-- **The first scan that GMapping takes in (C113).** After messages as in `gmapping_cold_start`, let one more be handled. The scan is
put into the map once for every particle whose first step the odometry's way has now reached - not at all if there is none - and each
time where the particle's match leads from the odometry's pose, without any noise. -/
theorem gmapping_first_scan {st : GSt M} (h : gStart steps init hist = some st) (ds : List (GDatum M)) (hn : 0 < steps.length)
    (hs : ∀ d ∈ ds, ∃ scan, ScanOf cfg d.msg scan) (hshort : ∀ step ∈ steps, Short (gone ⟨0, 0, 0⟩ (ds.map GDatum.odom)) step)
    (d : GDatum M) {s' : GSt M} (hrun : st.run cfg (ds ++ [d]) = some s') {t : Delta ℝ}
    (ht : t = gone ⟨0, 0, 0⟩ ((ds ++ [d]).map GDatum.odom)) :
    (s'.filter.maps 0).length = steps.countP (fun step => decide (¬ Short t step)) ∧
      ∀ p ∈ s'.filter.maps 0, ∃ i step scan m, steps[i]? = some step ∧ ¬ Short t step ∧ ScanOf cfg d.msg scan ∧
        p = d.odom.add (d.matcher i scan d.odom m).1 := by
  obtain ⟨s1, k1, k2⟩ := cold_run (cfg := cfg) hn ds (by simp) (cold_start_state h) hs _ rfl (by simpa using hshort)
  rw [gst_run_append, k1, Option.bind_some] at hrun
  simp only [GSt.run, Option.bind_eq_some_iff, GSt.handle, Option.map_eq_some_iff, Option.some.injEq] at hrun
  obtain ⟨s2, ⟨pts, e1, scan, e2, r, e3, f, e4, e5⟩, rfl⟩ := hrun
  have hmov := fun i hi => cold_moved k2 d.odom (i := i) hi
  simp only at hmov
  have hids : (s1.filter.updatePose Real.sin Real.cos (observerStep s1.odom d.odom).2).ids = List.range steps.length := k2.ids
  have hmaps : (s1.filter.updatePose Real.sin Real.cos (observerStep s1.odom d.odom).2).maps = fun _ => [] := k2.maps
  set f0 := s1.filter.updatePose Real.sin Real.cos (observerStep s1.odom d.odom).2
  obtain ⟨new, q1, q2, q3⟩ := observe_first d scan d.odom f0.ids f0.heap f0.maps s1.map s1.hist (by rw [hids]; exact List.nodup_range)
    (fun i hi => by
      rw [hids, List.mem_range] at hi
      exact ⟨(hmov i hi).1, (hmov i hi).2.2.2.2.1, (hmov i hi).2.2.2.2.2.1⟩) r e3
  have hm : s2.filter.maps 0 = new := by
    rw [← e5]
    simp only
    rw [gTryResample_maps _ _ _ e4]
    change r.2.1 0 = new
    rw [q1, hmaps, List.append_nil]
  have hclose : ∀ i < steps.length, ((f0.heap i).tooClose = true ↔ Short t (f0.heap i).nextSm) := by
    intro i hi
    obtain ⟨g1, g2, g3⟩ := gone_nonneg (ds.map GDatum.odom) ⟨0, 0, 0⟩
    refine short_too_close ?_ rfl ?_
    · rw [(hmov i hi).2.2.1, ht, List.map_append, List.map_singleton, gone_append]
      simp
    · rw [ht]
      exact (gone_nonneg _ _).2.2
  have hsteps : steps = (List.range steps.length).map fun i => (f0.heap i).nextSm := by
    apply List.ext_getElem
    · simp
    · intro i h1 h2
      have := (hmov i h1).2.2.2.1
      rw [List.getElem?_eq_getElem h1, Option.some.injEq] at this
      simp [this]
  rw [hm]
  constructor
  · rw [q2, hids]
    conv_rhs => rw [hsteps, List.countP_map]
    apply List.countP_congr
    intro i hi
    rw [List.mem_range] at hi
    have := hclose i hi
    simp only [Function.comp, decide_eq_true_eq, Bool.not_eq_true', ← this, Bool.not_eq_true]
  · intro p hp
    obtain ⟨i, hi, a1, m', a2⟩ := q3 p hp
    rw [hids, List.mem_range] at hi
    exact ⟨i, _, scan, m', (hmov i hi).2.2.2.1.symm, fun hc => by rw [← hclose i hi, a1] at hc; simp at hc, ⟨pts, e1, e2⟩, a2⟩

end

/-! ## Instances -/

theorem g_demo_scan (i : Nat) : ScanOf gDemoCfg (gDemoDatum i).msg [.polar 4 0 true 1, .polar 30 1 false 1] := by
  refine ⟨[⟨some 4, 0, true⟩, ⟨some 30, 1, false⟩], ?_, rfl⟩
  norm_num [msg2scan, convert, gDemoDatum, gDemoCfg]

/-- A scan before the robot has moved, and one after a metre: the first is not used, the second one is put into the map by both
particles. -/
example : ∃ init s s', gStart [⟨7 / 10, 7 / 10, 3 / 10⟩, ⟨6 / 10, 7 / 10, 4 / 10⟩] init (some (Hist.create 20)) = some s ∧
    (∃ s1, s.run gDemoCfg [gDemoDatum 0] = some s1 ∧ s1.map = init ∧ s1.pose = some ⟨0, 0, 0⟩) ∧
    s.run gDemoCfg ([gDemoDatum 0] ++ [gDemoDatum 1]) = some s' ∧ (s'.filter.maps 0).length = 2 := by
  obtain ⟨init, -, hL⟩ := lazy_lawful 128 (by norm_num) GmCell.observe 10 10 (GmCell.create (K := ℝ))
  have hL' : Lawful gDemoCfg.api (CellKind.upd .gmapping) (CellKind.proto .gmapping) init := hL
  obtain ⟨s, hs, hA⟩ := gmapping_starts (steps := [⟨7 / 10, 7 / 10, 3 / 10⟩, ⟨6 / 10, 7 / 10, 4 / 10⟩]) (by simp) init
    (some (Hist.create 20))
  obtain ⟨hr, hm, -, ho, hh⟩ := start_reach (n := 2) rfl hs
  obtain ⟨s', h⟩ := gmapping_run_total hL' (by norm_num [gDemoCfg]) 1000
    (by intro v hv; simp only [gDemoCfg, decide_eq_true_eq]; exact hv) (by norm_num [gDemoCfg]) 30 (1 / 10) (1 / 10) 1 0
    (by norm_num) (by norm_num) (by norm_num) (by norm_num) (n := 2) ([gDemoDatum 0] ++ [gDemoDatum 1])
    (by norm_num [gDemoCfg]) (s := s) hr (by rw [hm]; exact told_refl _ _)
    (by
      rw [hh]
      intro h' e
      rw [Option.some.injEq] at e
      subst e
      exact ⟨⟨by simp [Hist.create], by simp [Hist.create]⟩, by simp [Hist.create]⟩) hA
    (by
      unfold SmallSteps
      rw [ho]
      norm_num [gDemoDatum])
    (by
      intro d hd
      obtain ⟨i, rfl⟩ : ∃ i, d = gDemoDatum i := by
        simp only [List.cons_append, List.nil_append, List.mem_cons, List.not_mem_nil, or_false] at hd
        rcases hd with rfl | rfl <;> exact ⟨_, rfl⟩
      refine ⟨⟨?_, rfl, ?_⟩, ⟨fun _ => by norm_num [gDemoDatum], fun _ _ _ _ => by norm_num [gDemoDatum]⟩,
        by simp [gDemoDatum], by norm_num [gDemoDatum, gDemoCfg], by norm_num [gDemoDatum], by norm_num [gDemoDatum], ?_⟩
      · intro k scan p m a ha
        simp only [gDemoDatum, Option.some.injEq] at ha
        rw [← ha]
        split_ifs <;> norm_num
      · intro x hx
        simp only [gDemoDatum, List.mem_cons, List.not_mem_nil, or_false] at hx
        rcases hx with rfl | rfl <;> norm_num
      · intro pts hp
        by_cases he : pts = []
        · exact .inl he
        · exact .inr (List.length_pos_of_ne_nil he))
  have hsc : ∀ d ∈ [gDemoDatum 0], ∃ scan, ScanOf gDemoCfg d.msg scan := by
    intro d hd
    rw [List.mem_singleton.1 hd]
    exact ⟨_, g_demo_scan 0⟩
  have hshort : ∀ step ∈ [(⟨7 / 10, 7 / 10, 3 / 10⟩ : Delta ℝ), ⟨6 / 10, 7 / 10, 4 / 10⟩],
      Short (gone ⟨0, 0, 0⟩ ([gDemoDatum 0].map GDatum.odom)) step := by
    intro step hstep
    simp only [List.mem_cons, List.not_mem_nil, or_false] at hstep
    rcases hstep with rfl | rfl <;> norm_num [Short, gone, gDemoDatum]
  obtain ⟨s1, k1, k2, -, k3, -⟩ := gmapping_cold_start (cfg := gDemoCfg) hs [gDemoDatum 0] hsc hshort
  refine ⟨init, s, s', hs, ⟨s1, k1, k2, by rw [k3]; simp [lastPose, gDemoDatum]⟩, h, ?_⟩
  have := (gmapping_first_scan (cfg := gDemoCfg) hs [gDemoDatum 0] (by simp) hsc hshort (gDemoDatum 1) h rfl).1
  rw [this]
  norm_num [Short, gone, gDemoDatum, List.countP_cons]

end Slam.Whole
