import Verif.Whole.GmStill
import Verif.Whole.GmappingOwnTotal
import Verif.Whole.GmappingOwnDemo
import Verif.Whole.GmappingLaunch

/-!
# The first scan GMapping takes in (C115)

The map is empty then, so no obstacle agrees with it (src/slams/gmapping/gmapping_occupancy_observation_pe.h:26-38); the particle that
comes first in the filter and handles the scan multiplies its weight by the score zero (src/slams/gmapping/gmapping_world.h:87-99).
-/

set_option autoImplicit false
set_option linter.unusedSectionVars false

namespace Slam.Whole
open Slam.Grid Slam.Cells Slam.Poses Slam.Sensor Slam.Score Slam.ScanAdder Slam.Worlds Slam.Matcher
open Slam.Particle (setObj forEach World positive mulN)

/-! ## Specification -/

/-- The weight is zero or not a number. -/
def Lost (w : World ℝ) : Prop := w.weight = some 0 ∨ w.weight = none

/-- Particle `i` is the first whose step the way `t` has reached. -/
def FirstReached (steps : List (Delta ℝ)) (t : Delta ℝ) (i : Nat) : Prop :=
  (∃ step, steps[i]? = some step ∧ ¬ Short t step) ∧ ∀ j < i, ∀ step, steps[j]? = some step → Short t step

/-- No weight is a number. -/
def AllNaN {M : Type} (s : GSt M) : Prop := s.filter.ids ≠ [] ∧ s.filter.ids.Nodup ∧ ∀ i ∈ s.filter.ids, (s.filter.heap i).weight = none

/-! ## Proofs -/

section
variable {M : Type} {g : GOwnCfg M} {steps : List (Delta ℝ)} {init : M} {hist : Option Hist}

/-- A match on the empty map: nothing agrees with it; the pose stays as it is. -/
theorem blank_match (hc : GStarted g init) (hz : g.rnd 0 = 0) {f : ℝ} {w : Nat} (hf : -1 < f) {e e' : GMatch} (hl : lastOf e.pe = none)
    {scan : List ScanPoint} {p : Pose ℝ} {a : Delta ℝ × Option ℝ} (h : IsMatch g f w e e' scan p init a) :
    p.add a.1 = p ∧ (a.2 = some 0 ∨ a.2 = none) := by
  obtain ⟨ws, s0, rest, -, -, ht, h1, h2, -⟩ := h
  obtain ⟨-, n1, n2⟩ := ht.near hc hz hf (U := -(w * g.slam.scale) - 1) ⟨[], rfl, sane_nil, by simp⟩ (by
    intro c x hx
    rw [hl] at hx
    cases hx)
  have zero : ∀ t ∈ (p, s0) :: rest, ∀ s, t.2 = some s → s = 0 := by
    intro t htm s hs
    by_contra hne
    obtain ⟨sp, -, k, -⟩ := n2 t htm s hs hne
    have := mul_nonneg hc.scale.le (abs_nonneg (((worldToCell g.slam.scale (seenAt t.1 sp)).x : ℤ) : ℝ))
    linarith
  by_cases hw : ws.sum = 0
  · rw [h2 hw]
    exact ⟨by cases p; simp [Pose.add], .inr rfl⟩
  · obtain ⟨s, e1, -, pre, post, e2, e3, -⟩ := h1 hw
    have hs0 : s = 0 := zero (p.add a.1, some s) (by rw [e2]; simp) s rfl
    refine ⟨?_, .inl (by rw [e1, hs0])⟩
    rcases pre with _ | ⟨x, pre⟩
    · exact (congrArg Prod.fst (List.cons.inj e2).1).symm
    · exfalso
      obtain ⟨rfl, -⟩ := List.cons.inj e2
      cases hv : s0 with
      | none => exact n1 hw (p, s0) (by simp) hv
      | some v =>
        have k1 := e3 (p, s0) (by simp) v hv
        have k2 := zero (p, s0) (by simp) v hv
        linarith

/-- The loop leaves other particles alone and only adds to the log of the scans. -/
theorem observe_own_frame (d : GMsg) (scan : List ScanPoint) : ∀ (ids : List Nat) (h : Nat → World ℝ) (ms : Nat → List (Pose ℝ)) (m : M)
    (hi : Option Hist) (mt : GMatch) (r : (Nat → World ℝ) × (Nat → List (Pose ℝ)) × M × Option Hist × GMatch),
    observeOwn g d scan ids h ms m hi mt = some r →
    (∀ i, i ∉ ids → r.1 i = h i) ∧ ∀ k, ∃ l, r.2.1 k = l ++ ms k
  | [], h, ms, m, hi, mt, r, e => by
    simp only [observeOwn, Option.some.injEq] at e
    subst e
    exact ⟨fun _ _ => rfl, fun _ => ⟨[], rfl⟩⟩
  | i :: is, h, ms, m, hi, mt, r, e => by
    simp only [observeOwn] at e
    split at e
    · obtain ⟨k1, k2⟩ := observe_own_frame d scan is _ _ _ _ _ r e
      exact ⟨fun j hj => k1 j (fun hc => hj (by simp [hc])), k2⟩
    · rw [Option.bind_eq_some_iff] at e
      obtain ⟨a, -, e⟩ := e
      split at e
      · obtain ⟨k1, k2⟩ := observe_own_frame d scan is _ _ _ _ _ r e
        refine ⟨fun j hj => ?_, k2⟩
        rw [List.mem_cons, not_or] at hj
        rw [k1 j hj.2]
        simp [setObj, hj.1]
      · rw [Option.bind_eq_some_iff] at e
        obtain ⟨q, -, e⟩ := e
        obtain ⟨k1, k2⟩ := observe_own_frame d scan is _ _ _ _ _ r e
        refine ⟨fun j hj => ?_, fun k => ?_⟩
        · rw [List.mem_cons, not_or] at hj
          rw [k1 j hj.2]
          simp [setObj, hj.1]
        · obtain ⟨l, hl⟩ := k2 k
          rw [hl]
          by_cases hk : k = (h i).mapRef
          · rw [if_pos hk]
            exact ⟨l ++ [_], by rw [List.append_assoc]; rfl⟩
          · rw [if_neg hk]
            exact ⟨l, rfl⟩

/-- The loop up to the first particle that handles the scan. -/
theorem observe_own_first (d : GMsg) (scan : List ScanPoint) (i : Nat) (post : List Nat) : ∀ (pre : List Nat) (h : Nat → World ℝ)
    (ms : Nat → List (Pose ℝ)) (m : M) (hi : Option Hist) (mt : GMatch)
    (r : (Nat → World ℝ) × (Nat → List (Pose ℝ)) × M × Option Hist × GMatch), (pre ++ i :: post).Nodup →
    (∀ j ∈ pre, (h j).tooClose = true) → (h i).tooClose = false → (h i).scanFirst = true → (h i).mapRef = 0 →
    observeOwn g d scan (pre ++ i :: post) h ms m hi mt = some r →
    ∃ a mt' ev l, g.matching mt scan (h i).pose m = some (mt', a, ev) ∧ r.2.1 0 = l ++ (h i).pose.add a.1 :: ms 0 ∧
      (r.1 i).pose = (h i).pose.add a.1 ∧ (r.1 i).weight = mulN a.2 (h i).weight
  | [], h, ms, m, hi, mt, r, hn, _, hc, hsf, hmr, e => by
    simp only [List.nil_append, observeOwn, hc, Bool.false_eq_true, if_false, startPose, hsf, if_true] at e
    rw [Option.bind_eq_some_iff] at e
    obtain ⟨⟨mt', a, ev⟩, e1, e⟩ := e
    have x2 : ((h i).handleObservation ⟨d.guess i, fun _ => a, d.nextSm i⟩).2 = some ((h i).pose.add a.1) := by
      unfold World.handleObservation
      rw [if_neg (by rw [hc]; simp)]
      simp [hsf]
    have x1 : ((h i).handleObservation ⟨d.guess i, fun _ => a, d.nextSm i⟩).1.pose = (h i).pose.add a.1 ∧
        ((h i).handleObservation ⟨d.guess i, fun _ => a, d.nextSm i⟩).1.weight = mulN a.2 (h i).weight := by
      unfold World.handleObservation
      rw [if_neg (by rw [hc]; simp)]
      simp [hsf]
    simp only [x2] at e
    rw [Option.bind_eq_some_iff] at e
    obtain ⟨q, -, e⟩ := e
    obtain ⟨k1, k2⟩ := observe_own_frame d scan post _ _ _ _ _ r e
    obtain ⟨l, hl⟩ := k2 0
    have hri : r.1 i = ((h i).handleObservation ⟨d.guess i, fun _ => a, d.nextSm i⟩).1 := by
      rw [k1 i (List.nodup_cons.1 hn).1]
      simp [setObj]
    refine ⟨a, mt', ev, l, e1, ?_, ?_, ?_⟩
    · rw [hl, hmr, if_pos rfl]
    · rw [hri]; exact x1.1
    · rw [hri]; exact x1.2
  | j :: pre, h, ms, m, hi, mt, r, hn, hp, hc, hsf, hmr, e => by
    simp only [List.cons_append, observeOwn, hp j (by simp), if_true] at e
    exact observe_own_first d scan i post pre h ms m hi mt r (List.nodup_cons.1 hn).2 (fun k hk => hp k (by simp [hk])) hc hsf hmr e

theorem try_resample_cases {f f' : Particle.Filter ℝ} {samples : List ℝ} (h : f.gTryResample samples = some f') :
    f' = f ∨ f'.traversed = ⟨0, 0, 0⟩ := by
  unfold Particle.Filter.gTryResample at h
  split at h
  · exact .inl (Option.some.inj h).symm
  · rw [Option.bind_eq_some_iff] at h
    obtain ⟨⟨done, f1⟩, h1, h2⟩ := h
    simp only at h2
    unfold Particle.Filter.tryResample at h1
    split at h1
    · simp only [Option.some.injEq, Prod.mk.injEq] at h1
      obtain ⟨rfl, rfl⟩ := h1
      simp only [Bool.false_eq_true, if_false, Option.some.injEq] at h2
      exact .inl h2.symm
    · rw [Option.map_eq_some_iff] at h1
      obtain ⟨x, -, h1⟩ := h1
      simp only [Prod.mk.injEq] at h1
      obtain ⟨rfl, rfl⟩ := h1
      simp only [if_true, Particle.Filter.ensureMaster] at h2
      right
      split at h2
      · rw [← Option.some.inj h2]
      · rw [Option.map_eq_some_iff] at h2
        obtain ⟨k, -, rfl⟩ := h2
        rfl

theorem lost_normalized {f : Particle.Filter ℝ} {i : Nat} (hn : f.ids.Nodup) (hi : i ∈ f.ids) (h : Lost (f.heap i)) :
    (f.normalize.heap i).pose = (f.heap i).pose ∧ Lost (f.normalize.heap i) := by
  have e : f.normalize.heap i = { f.heap i with weight := Particle.divN (f.heap i).weight (Particle.sumN f.weights) } := by
    change forEach (fun w : World ℝ => { w with weight := Particle.divN w.weight (Particle.sumN f.weights) }) f.heap f.ids i = _
    rw [Particle.forEach_apply _ _ hn, if_pos hi]
  rw [e]
  refine ⟨rfl, ?_⟩
  unfold Lost at h ⊢
  simp only
  rcases h with h | h <;> rw [h]
  · cases Particle.sumN f.weights with
    | none => right; simp [Particle.divN]
    | some t =>
      by_cases ht : t = 0
      · right; simp [Particle.divN, ht]
      · left; simp [Particle.divN, ht]
  · right; simp [Particle.divN]

theorem nan_no_resample {f f' : Particle.Filter ℝ} {samples : List ℝ} (hne : f.ids ≠ []) (h : ∀ i ∈ f.ids, (f.heap i).weight = none)
    (he : f.gTryResample samples = some f') : f' = f := by
  have hreq : Particle.resamplingRequired f.weights = false := by
    refine (Particle.resampling_rule _).1 ?_
    obtain ⟨i, hi⟩ := List.exists_mem_of_ne_nil _ hne
    exact List.mem_map.2 ⟨_, List.mem_map.2 ⟨i, hi, rfl⟩, h i hi⟩
  unfold Particle.Filter.gTryResample at he
  split at he
  · exact (Option.some.inj he).symm
  · simp only [Particle.Filter.tryResample, hreq, Bool.not_false, if_true, Option.bind_some] at he
    exact (Option.some.inj he).symm

/-- **The first scan taken in (C115).** `n` particles have only followed the odometry, the map is as at the start, the matcher unused.
A message comes with which the way reaches the step of particle `i`, but not of those before it. Then the first scan put into the map
is put exactly where the odometry says, and unless the filter resamples at once, particle `i` is there and has lost its weight; if it
is the only particle, its weight is not a number. -/
theorem gmapping_first_loses (hc : GStarted g init) (hz : g.rnd 0 = 0) {f : ℝ} {w : Nat} (hf : -1 < f) {o : Pose ℝ} {t : Delta ℝ} (ht : 0 ≤ t.theta)
    {s s' : GOwn M} (h : Cold steps init hist o t s.st) (hm : GMatchOk f w s.matcher) (hl : lastOf s.matcher.pe = none) {d : GMsg}
    {t' : Delta ℝ} (ht' : t' = ⟨t.x + |d.odom.x - o.x|, t.y + |d.odom.y - o.y|, t.theta + |d.odom.theta - o.theta|⟩)
    {i : Nat} (hi : FirstReached steps t' i) (hh : s.handle g d = some s') :
    (∃ l, s'.st.filter.maps 0 = l ++ [d.odom]) ∧
      (s'.st.filter.traversed ≠ ⟨0, 0, 0⟩ →
        s'.st.filter.ids = List.range steps.length ∧ (s'.st.filter.heap i).pose = d.odom ∧ Lost (s'.st.filter.heap i)) ∧
      (steps.length = 1 → AllNaN s'.st ∧ s'.st.filter.ids = [0] ∧ (s'.st.filter.heap 0).pose = d.odom) := by
  obtain ⟨⟨step, hs1, hs2⟩, hbefore⟩ := hi
  obtain ⟨hin, -⟩ := List.getElem?_eq_some_iff.1 hs1
  simp only [GOwn.handle, Option.bind_eq_some_iff, Option.map_eq_some_iff] at hh
  obtain ⟨pts, -, scan, e2, r, e3, f', e4, rfl⟩ := hh
  have hmov := fun i hi => cold_moved h d.odom (i := i) hi
  simp only at hmov
  have hids : (s.st.filter.updatePose Real.sin Real.cos (observerStep s.st.odom d.odom).2).ids = List.range steps.length := h.ids
  have hmaps : (s.st.filter.updatePose Real.sin Real.cos (observerStep s.st.odom d.odom).2).maps = fun _ => [] := h.maps
  set fu := s.st.filter.updatePose Real.sin Real.cos (observerStep s.st.odom d.odom).2 with hfu
  have close : ∀ j < steps.length, ((fu.heap j).tooClose = true ↔ Short t' (fu.heap j).nextSm) := by
    intro j hj
    exact short_too_close ((hmov j hj).2.2.1.trans ht'.symm) rfl (by rw [ht']; positivity)
  have hsplit : List.range steps.length = List.range i ++ i :: (List.range (steps.length - i - 1)).map (· + (i + 1)) := by
    have : steps.length = i + ((steps.length - i - 1) + 1) := by omega
    conv_lhs => rw [this]
    rw [List.range_add, List.range_succ_eq_map, List.map_cons, List.map_map]
    congr 2
    apply List.map_congr_left
    intro x _
    simp only [Function.comp_apply]
    omega
  have hnd : (List.range i ++ i :: (List.range (steps.length - i - 1)).map (· + (i + 1))).Nodup := by
    rw [← hsplit]
    exact List.nodup_range
  obtain ⟨b1, -, -, b4, b5, b6, b7⟩ := hmov i hin
  rw [hids, hsplit] at e3
  obtain ⟨a, mt', ev, l, k1, k2, k3, k4⟩ := observe_own_first d scan i _ (List.range i) fu.heap fu.maps s.st.map s.st.hist s.matcher r hnd (by
      intro j hj
      rw [List.mem_range] at hj
      have hjl : j < steps.length := by omega
      rw [close j hjl]
      exact hbefore j hj _ (hmov j hjl).2.2.2.1.symm)
    (by
      rw [Bool.eq_false_iff, Ne, close i hin]
      rw [hs1, Option.some.injEq] at b4
      rw [b4]
      exact hs2) b5 b6 e3
  rw [b1] at k1 k2 k3
  obtain ⟨isM, -⟩ := gm_matching_is_match hc ⟨[], by rw [h.map]; rfl, sane_nil⟩ hm (scanOf_polar e2) k1
  rw [h.map] at isM
  obtain ⟨q1, q2⟩ := blank_match hc hz hf hl isM
  rw [q1] at k2 k3
  have hlost : Lost (r.1 i) := by
    unfold Lost
    rw [k4, b7]
    rcases q2 with e | e <;> rw [e]
    · left; simp [mulN]
    · right; simp [mulN]
  have hmap0 : f'.maps 0 = l ++ [d.odom] := by
    rw [gTryResample_maps _ _ _ e4]
    change r.2.1 0 = _
    rw [k2, hmaps]
  set f0 : Particle.Filter ℝ := { fu with
    heap := r.1
    maps := r.2.1 } with hf0
  have hid0 : f0.ids = List.range steps.length := hids
  have hnd0 : f0.ids.Nodup := by rw [hid0]; exact List.nodup_range
  have hi0 : i ∈ f0.ids := by rw [hid0]; exact List.mem_range.2 hin
  obtain ⟨n1, n2⟩ := lost_normalized hnd0 hi0 hlost
  refine ⟨⟨l, hmap0⟩, fun hno => ?_, fun h1 => ?_⟩
  · rcases try_resample_cases e4 with e | e
    · rw [e]
      exact ⟨hids, n1.trans k3, n2⟩
    · exact absurd e hno
  · have hi1 : i = 0 := by omega
    subst hi1
    have hid1 : f0.ids = [0] := by rw [hid0, h1]; rfl
    have hw0 : (f0.normalize.heap 0).weight = none := by
      change (forEach (fun w : World ℝ => { w with weight := Particle.divN w.weight (Particle.sumN f0.weights) }) f0.heap f0.ids 0).weight = _
      rw [Particle.forEach_apply _ _ hnd0, if_pos hi0]
      have hws : f0.weights = [(f0.heap 0).weight] := by simp [Particle.Filter.weights, Particle.Filter.particles, hid1]
      rw [hws]
      have hl' : Lost (f0.heap 0) := hlost
      rcases hl' with e | e <;> rw [e]
      · simp [Particle.sumN, Particle.divN]
      · simp [Particle.divN]
    have hnn : ∀ j ∈ f0.normalize.ids, (f0.normalize.heap j).weight = none := by
      intro j hj
      change j ∈ f0.ids at hj
      rw [hid1, List.mem_singleton] at hj
      rw [hj]
      exact hw0
    have hne : f0.normalize.ids ≠ [] := by
      change f0.ids ≠ []
      rw [hid1]
      simp
    rw [nan_no_resample hne hnn e4]
    exact ⟨⟨hne, hnd0, hnn⟩, hid1, n1.trans k3⟩

end

/-! ## Weights that are not numbers -/

section
variable {C M : Type} {cfg : Cfg C M}

theorem mulN_none (a : Option ℝ) : mulN a none = none := by cases a <;> rfl

theorem nan_handle {s s' : GSt M} {d : GDatum M} (h : AllNaN s) (hh : s.handle cfg d = some s') :
    AllNaN s' ∧ s'.filter.ids = s.filter.ids := by
  obtain ⟨hne, hnd, hw⟩ := h
  simp only [GSt.handle, Option.bind_eq_some_iff, Option.map_eq_some_iff] at hh
  obtain ⟨pts, -, scan, -, r, e3, f', e4, rfl⟩ := hh
  have each := observe_each_one d scan _ _ _ _ _ _
    (show (s.filter.updatePose Real.sin Real.cos (observerStep s.odom d.odom).2).ids.Nodup from hnd) e3
  have hupd : ∀ i ∈ s.filter.ids, ((s.filter.updatePose Real.sin Real.cos (observerStep s.odom d.odom).2).heap i).weight = none := by
    intro i hi
    change (forEach (fun w => w.updatePose Real.sin Real.cos (observerStep s.odom d.odom).2) s.filter.heap s.filter.ids i).weight = _
    rw [Particle.forEach_apply _ _ hnd, if_pos hi]
    exact hw i hi
  set fu := s.filter.updatePose Real.sin Real.cos (observerStep s.odom d.odom).2 with hfu
  have hids : fu.ids = s.filter.ids := rfl
  have hr : ∀ i ∈ s.filter.ids, (r.1 i).weight = none := by
    intro i hi
    obtain ⟨m', e⟩ := (each i).2 hi
    rw [e]
    unfold World.handleObservation
    split
    · exact hupd i hi
    · simp only
      split <;> simp only [hupd i hi, mulN_none]
  set f0 : Particle.Filter ℝ := { fu with
    heap := r.1
    maps := r.2.1 } with hf0
  have hn0 : ∀ i ∈ s.filter.ids, (f0.normalize.heap i).weight = none := by
    intro i hi
    change (forEach (fun w : World ℝ => { w with weight := Particle.divN w.weight (Particle.sumN f0.weights) }) r.1 s.filter.ids i).weight = _
    rw [Particle.forEach_apply _ _ hnd, if_pos hi]
    simp only [hr i hi, Particle.divN]
  have hfe : f' = f0.normalize := nan_no_resample (f := f0.normalize) hne hn0 e4
  rw [hfe]
  exact ⟨⟨hne, hnd, hn0⟩, rfl⟩

/-- **For ever**: once no weight is a number, none ever is again, and the particles are never resampled. -/
theorem nan_for_ever : ∀ (ds : List (GDatum M)) {s s' : GSt M}, AllNaN s → s.run cfg ds = some s' →
    AllNaN s' ∧ s'.filter.ids = s.filter.ids
  | [], s, s', h, hr => by
    simp only [GSt.run, Option.some.injEq] at hr
    subst hr
    exact ⟨h, rfl⟩
  | d :: ds, s, s', h, hr => by
    simp only [GSt.run, Option.bind_eq_some_iff] at hr
    obtain ⟨s1, h1, h2⟩ := hr
    obtain ⟨k1, k2⟩ := nan_handle h h1
    obtain ⟨k3, k4⟩ := nan_for_ever ds k1 h2
    exact ⟨k3, k4.trans k2⟩

end

/-! ## GMapping as started -/

section
variable {stod : Config.Str → Option ℝ} {env : Env} {rnd : ℝ → ℝ} {draws : Config.GmappingParams ℝ → Nat → Delta ℝ} {t : Config.Table}

/-- **The first scan the started GMapping takes in (C115).** -/
theorem launched_first_loses (hrnd : ∀ x, Unit01 x → Unit01 (rnd x)) (hz : rnd 0 = 0) {w : Config.World ℝ} {p : Config.GmappingParams ℝ}
    {n : Nat} (hw : Config.initGmapping stod t = some (w, p, n)) (h : GSensible w n) {P : GProgram}
    (hP : launchGmapping stod env rnd draws t = some P) (hf : -1 < P.start.matcher.pe.fullness)
    (ds : List GMsg) (hs : ∀ d ∈ ds, ∃ scan, ScanOf P.cfg.slam d.msg scan)
    (hshort : ∀ k < n, Short (gone ⟨0, 0, 0⟩ (ds.map GMsg.odom)) (draws p k)) (d : GMsg) {i : Nat} (hi : i < n)
    (hreach : ¬ Short (gone ⟨0, 0, 0⟩ ((ds ++ [d]).map GMsg.odom)) (draws p i))
    (hbefore : ∀ j < i, Short (gone ⟨0, 0, 0⟩ ((ds ++ [d]).map GMsg.odom)) (draws p j))
    {s1 : GOwn (AnyMap (GmCell ℝ))} (hrun : P.start.run P.cfg (ds ++ [d]) = some s1) :
    (∃ l, s1.st.filter.maps 0 = l ++ [d.odom]) ∧
      (s1.st.filter.traversed ≠ ⟨0, 0, 0⟩ →
        s1.st.filter.ids = List.range n ∧ (s1.st.filter.heap i).pose = d.odom ∧ Lost (s1.st.filter.heap i)) ∧
      (n = 1 → s1.st.pose = some d.odom ∧ ∀ (es : List GMsg) (s2 : GOwn (AnyMap (GmCell ℝ))), (∀ e ∈ ds ++ [d] ++ es, SamplesOk n e) →
        s1.run P.cfg es = some s2 → s2.st.filter.particles.length = 1 ∧ ∀ v ∈ s2.st.filter.particles, v.weight = none) := by
  obtain ⟨P', hP', hA, hst, hsd, hg, -, -⟩ := gmapping_launches (env := env) (draws := draws) hrnd hw h
  rw [hP, Option.some.injEq] at hP'
  subst hP'
  have hcz : P.cfg.rnd = rnd := by
    have hspec := (Config.gmapping_as_configured (stod := stod) t w p n).1 hw
    obtain ⟨f, win, ho, -⟩ := hspec.oope
    unfold launchGmapping at hP
    simp only [hw, Option.bind_some, hspec.matcher.1, ho, Option.bind_eq_some_iff, Option.map_eq_some_iff] at hP
    obtain ⟨m, -, st, -, rfl⟩ := hP
    rfl
  have hlen : ((List.range n).map (draws p)).length = n := by simp
  have hn : 0 < ((List.range n).map (draws p)).length := by rw [hlen]; exact h.particles
  have hc := cold_start_state hg
  obtain ⟨s0, k1, k2, k3⟩ := cold_own_run (g := P.cfg) hn ds (by simp) hc hs _ rfl (by
    intro step hstep
    simp only [List.mem_map, List.mem_range] at hstep
    obtain ⟨k, hk, rfl⟩ := hstep
    simpa using hshort k hk)
  obtain ⟨s0', q1, q2⟩ := gown_run_snoc P.cfg ds d _ _ hrun
  rw [k1, Option.some.injEq] at q1
  subst q1
  obtain ⟨g1, g2, g3⟩ := gone_nonneg (ds.map GMsg.odom) ⟨0, 0, 0⟩
  simp only [List.map_append, List.map_cons, List.map_nil, gone_append] at hreach hbefore
  obtain ⟨r1, r2, r3⟩ := gmapping_first_loses hst (by rw [hcz]; exact hz) hf (i := i) (by simpa using g3) k2 (by rw [k3]; exact hsd.matcher)
    (by rw [k3]; exact hA.fresh) rfl (by
      refine ⟨⟨draws p i, by simp [hi], by simpa using hreach⟩, fun j hj step hstep => ?_⟩
      have hjn : j < n := by omega
      rw [List.getElem?_map, List.getElem?_range hjn, Option.map_some, Option.some.injEq] at hstep
      subst hstep
      simpa using hbefore j hj) q2
  rw [hlen] at r2 r3
  refine ⟨r1, r2, fun h1 => ?_⟩
  obtain ⟨t1, t2, t3⟩ := r3 h1
  refine ⟨?_, fun es s2 he hes => ?_⟩
  · simp only [GSt.pose, Particle.Filter.world, t2, Particle.heaviest, Option.map_some, t3]
  · obtain ⟨hs1, -⟩ := gown_run_is_run hst (ds ++ [d]) (fun e hm => he e (List.mem_append_left _ hm)) hsd hrun
    obtain ⟨-, ds', -, -, e3⟩ := gown_run_is_run hst es (fun e hm => he e (List.mem_append_right _ hm)) hs1 hes
    obtain ⟨⟨-, -, u1⟩, u2⟩ := nan_for_ever ds' t1 e3
    refine ⟨by simp [Particle.Filter.particles, u2, t2], fun v hv => ?_⟩
    obtain ⟨j, hj, rfl⟩ := List.mem_map.1 hv
    exact u1 j hj

end

end Slam.Whole
