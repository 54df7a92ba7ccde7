import Verif.Whole.ColdStart

/-!
# GMapping while the robot stands still (C114)

A particle that has not been moved by its step since the last scan it handled is left alone
(src/slams/gmapping/gmapping_world.h:73-77); the particle marked as the master gets the step zero when it handles a scan
(src/slams/gmapping/gmapping_world.h:103-111, 116-119), so it handles every scan, and each time its weight is multiplied by the
score of the match (src/slams/gmapping/gmapping_world.h:99). What `pose()` shows is the pose of the heaviest particle
(src/slams/gmapping/gmapping_particle_filter.h:59-63).
-/

set_option autoImplicit false
set_option linter.unusedSectionVars false

namespace Slam.Whole
open Slam.Grid Slam.Cells Slam.Poses Slam.Sensor Slam.Score Slam.ScanAdder Slam.Worlds
open Slam.Particle (Env setObj forEach World positive mulN)

/-! ## Specification -/

/-- The odometry has moved the particle by less than its step since the last scan it handled. -/
def Resting (w : World ℝ) : Prop :=
  w.deltaSince.x ^ 2 + w.deltaSince.y ^ 2 < w.nextSm.x ^ 2 + w.nextSm.y ^ 2 ∧ |w.deltaSince.theta| < w.nextSm.theta

/-- A marked particle that has handled a scan since it was marked. -/
def Eager (w : World ℝ) : Prop := w.noisy = false ∧ w.nextSm = ⟨0, 0, 0⟩

open Classical in
/-- What the resting particles weigh together. -/
noncomputable def restWeight {M : Type} (s : GSt M) : ℝ :=
  (s.filter.ids.map fun i => if Resting (s.filter.heap i) then (s.filter.heap i).weight.getD 0 else 0).sum

/-- The filter has not gone far enough to resample, or else the resting particles weigh, on the average over all particles, at least
half of what any particle weighs. -/
def Calm {M : Type} (s : GSt M) : Prop :=
  (s.filter.traversed.x ^ 2 + s.filter.traversed.y ^ 2 ≤ 1 / 2 ∧ s.filter.traversed.theta ≤ 1 / 5) ∨
    ∀ i ∈ s.filter.ids, ∀ a, (s.filter.heap i).weight = some a → s.filter.ids.length * a ≤ 2 * restWeight s

/-- Every particle rests or is eager, and has a weight; some resting one has a positive weight; there is no reason to resample. -/
structure Standing {M : Type} (s : GSt M) : Prop where
  nodup : s.filter.ids.Nodup
  calm : Calm s
  either : ∀ i ∈ s.filter.ids, Resting (s.filter.heap i) ∨ Eager (s.filter.heap i)
  weighed : ∀ i ∈ s.filter.ids, ∃ a : ℝ, (s.filter.heap i).weight = some a ∧ 0 ≤ a
  some_rests : ∃ i ∈ s.filter.ids, Resting (s.filter.heap i) ∧ ∃ a : ℝ, (s.filter.heap i).weight = some a ∧ 0 < a

/-- A message with the odometry where it was, whatever it scans; the scores of all matches lie between 0 and `q`. -/
def Still {M : Type} (q : ℝ) (o : Pose ℝ) (d : GDatum M) : Prop :=
  d.odom = o ∧ ∀ i scan p m, ∃ a : ℝ, (d.matcher i scan p m).2 = some a ∧ 0 ≤ a ∧ a ≤ q

/-- After `n` scans: a resting particle is the same, but for its weight, which all of them have multiplied by the same `c`; an eager
one has its weight multiplied by `c` times at most `q ^ n`. -/
structure Worn {M : Type} (q : ℝ) (n : Nat) (c : ℝ) (s s' : GSt M) : Prop where
  pos : 0 < c
  odom : s'.odom = s.odom
  ids : s'.filter.ids = s.filter.ids
  traversed : s'.filter.traversed = s.filter.traversed
  rests : ∀ i ∈ s.filter.ids, Resting (s.filter.heap i) →
    ∀ a, (s.filter.heap i).weight = some a → s'.filter.heap i = { s.filter.heap i with weight := some (c * a) }
  wears : ∀ i ∈ s.filter.ids, Eager (s.filter.heap i) → Eager (s'.filter.heap i) ∧
    ∀ a, (s.filter.heap i).weight = some a → ∃ p, 0 ≤ p ∧ p ≤ q ^ n ∧ (s'.filter.heap i).weight = some (c * p * a)

/-- Among the resting particles, `b` is the last of the heaviest, in the order of the filter. -/
def LastHeaviest {M : Type} (s : GSt M) (b : Nat) : Prop :=
  ∃ l r : List Nat, s.filter.ids = l ++ b :: r ∧ Resting (s.filter.heap b) ∧ ∃ a : ℝ, (s.filter.heap b).weight = some a ∧
    (∀ i ∈ l, Resting (s.filter.heap i) → ∀ c, (s.filter.heap i).weight = some c → c ≤ a) ∧
    ∀ i ∈ r, Resting (s.filter.heap i) → ∀ c, (s.filter.heap i).weight = some c → c < a

/-! ## Proofs -/

section
variable {C M : Type} {cfg : Cfg C M} {q : ℝ}

theorem resting_too_close {w : World ℝ} : w.tooClose = true ↔ Resting w := by
  simp only [World.tooClose, Resting, Bool.and_eq_true, decide_eq_true_iff, Pose.sqDist, pow_two]
  exact and_congr ⟨of_decide_eq_true, decide_eq_true⟩ Iff.rfl

theorem eager_not_resting {w : World ℝ} (h : Eager w) : ¬ Resting w := by
  rintro ⟨h1, -⟩
  rw [h.2] at h1
  simp only at h1
  nlinarith [sq_nonneg w.deltaSince.x, sq_nonneg w.deltaSince.y]

/-- What the loop makes of each particle. -/
theorem observe_each_one (d : GDatum M) (scan : List ScanPoint) : ∀ (ids : List Nat) (h : Nat → World ℝ) (ms : Nat → List (Pose ℝ)) (m : M)
    (hi : Option Hist) (r : (Nat → World ℝ) × (Nat → List (Pose ℝ)) × M × Option Hist), ids.Nodup →
    observeEach cfg d scan ids h ms m hi = some r →
    ∀ j, (j ∉ ids → r.1 j = h j) ∧ (j ∈ ids → ∃ m', r.1 j = ((h j).handleObservation (d.env scan m' j)).1)
  | [], h, ms, m, hi, r, _, e, j => by
    simp only [observeEach, Option.some.injEq] at e
    subst e
    simp
  | i :: is, h, ms, m, hi, r, hn, e, j => by
    obtain ⟨hn1, hn2⟩ := List.nodup_cons.1 hn
    have key : ∃ ms' m' hi', observeEach cfg d scan is (setObj h i ((h i).handleObservation (d.env scan m i)).1) ms' m' hi' = some r := by
      simp only [observeEach] at e
      split at e
      · exact ⟨_, _, _, e⟩
      · rw [Option.bind_eq_some_iff] at e
        obtain ⟨x, -, e⟩ := e
        exact ⟨_, _, _, e⟩
    obtain ⟨ms', m', hi', e'⟩ := key
    obtain ⟨k1, k2⟩ := observe_each_one d scan is _ _ _ _ r hn2 e' j
    constructor
    · intro hj
      rw [List.mem_cons, not_or] at hj
      rw [k1 hj.2]
      simp [setObj, hj.1]
    · intro hj
      by_cases hji : j = i
      · subst hji
        refine ⟨m, ?_⟩
        rw [k1 hn1]
        simp [setObj]
      · obtain ⟨m'', k⟩ := k2 ((List.mem_cons.1 hj).resolve_left hji)
        refine ⟨m'', ?_⟩
        rw [k]
        simp [setObj, hji]

theorem update_zero (w : World ℝ) : w.updatePose Real.sin Real.cos ⟨0, 0, 0⟩ = w := by
  cases w
  simp [World.updatePose, Pose.add, Pose.abs]

theorem forEach_same {g : World ℝ → World ℝ} (hg : ∀ w, g w = w) (ids : List Nat) (h : Nat → World ℝ) : forEach g h ids = h := by
  induction ids generalizing h with
  | nil => rfl
  | cons i is ih =>
    have : setObj h i (g (h i)) = h := by
      funext j
      by_cases hj : j = i
      · subst hj; simp [setObj, hg]
      · simp [setObj, hj]
    simp only [forEach, List.foldl_cons] at ih ⊢
    rw [this]
    exact ih h

theorem observer_still (o : Pose ℝ) : observerStep o o = (o, ⟨0, 0, 0⟩) := by
  simp [observerStep, Pose.sub]

theorem update_still (f : Particle.Filter ℝ) : f.updatePose Real.sin Real.cos ⟨0, 0, 0⟩ = f := by
  cases f
  simp only [Particle.Filter.updatePose, Particle.Filter.mk.injEq, true_and]
  refine ⟨forEach_same update_zero _ _, ?_⟩
  simp [Pose.add, Pose.abs]

/-- One particle handling the scan. -/
theorem handled_one {w : World ℝ} {e : Particle.Env ℝ} (hs : ∀ p, ∃ a : ℝ, (e.matcher p).2 = some a ∧ 0 ≤ a ∧ a ≤ q) :
    (Resting w → (w.handleObservation e).1 = w) ∧
    (Eager w → Eager (w.handleObservation e).1 ∧ ∀ a, w.weight = some a →
      ∃ p, 0 ≤ p ∧ p ≤ q ∧ (w.handleObservation e).1.weight = some (p * a)) := by
  constructor
  · intro h
    unfold World.handleObservation
    rw [if_pos (resting_too_close.2 h)]
  · intro h
    unfold World.handleObservation
    rw [if_neg (fun hc => eager_not_resting h (resting_too_close.1 hc))]
    refine ⟨?_, fun a ha => ?_⟩
    · simp only [Eager]
      split <;> simp [h.1]
    · obtain ⟨p, hp, h0, h1⟩ := hs (if w.scanFirst then w else { w with
        pose := w.pose.add (if w.noisy then e.guess else ⟨0, 0, 0⟩) }).pose
      refine ⟨p, h0, h1, ?_⟩
      simp only [hp]
      split <;> simp [mulN, ha]

theorem still_sum_pos {ws : List ℝ} (h : ∀ a ∈ ws, 0 ≤ a) {a : ℝ} (ha : a ∈ ws) (hp : 0 < a) : 0 < ws.sum :=
  lt_of_lt_of_le hp (List.single_le_sum h a ha)

/-- Weights, none of which is more than twice the average, are no reason to resample. -/
theorem even_never_resamples (ws : List ℝ) (h0 : ∀ w ∈ ws, 0 ≤ w) (hR : ∀ w ∈ ws, ws.length * w ≤ 2 * ws.sum) (hp : 0 < ws.sum) :
    Particle.resamplingRequired ((ws.map fun w => w / ws.sum).map some) = false := by
  set T := ws.sum with hT
  have hsq : ((ws.map fun w => w / T).map some).map (fun w => mulN w w) = (ws.map fun w => w / T * (w / T)).map some := by
    simp [List.map_map, Function.comp_def, mulN]
  have hbound : ∀ l : List ℝ, (∀ w ∈ l, 0 ≤ w) → (∀ w ∈ l, ws.length * w ≤ 2 * T) →
      ws.length * (l.map fun w => w / T * (w / T)).sum ≤ 2 * l.sum / T := by
    intro l
    induction l with
    | nil => intro _ _; simp
    | cons a l ih =>
      intro k0 k1
      have i1 := ih (fun w hw => k0 w (by simp [hw])) (fun w hw => k1 w (by simp [hw]))
      have i2 := k1 a (by simp)
      have i3 : 0 ≤ a / T / T := by have := k0 a (by simp); positivity
      have i4 := mul_le_mul_of_nonneg_right i2 i3
      have i5 : 2 * T * (a / T / T) = 2 * a / T := by field_simp
      simp only [List.map_cons, List.sum_cons, mul_add, add_div] at i1 ⊢
      have i6 : (ws.length : ℝ) * (a / T * (a / T)) = ws.length * a * (a / T / T) := by ring
      rw [i6]
      linarith
  have hb := hbound ws h0 hR
  rw [← hT, mul_div_assoc, div_self hp.ne', mul_one] at hb
  unfold Particle.resamplingRequired
  rw [hsq, Particle.sumN_some]
  simp only [List.length_map]
  set S := (ws.map fun w => w / T * (w / T)).sum with hS
  by_cases h : S = 0
  · rw [if_pos h]
  · rw [if_neg h]
    have S0 : 0 < S := lt_of_le_of_ne (List.sum_nonneg (by
      intro x hx
      obtain ⟨w, -, rfl⟩ := List.mem_map.1 hx
      exact mul_self_nonneg _)) (Ne.symm h)
    apply decide_eq_false
    rw [not_lt, div_mul_eq_mul_div, one_mul, le_div_iff₀ S0]
    exact hb

open Classical in
theorem rest_weight_le {s : GSt M} (hw : ∀ i ∈ s.filter.ids, ∃ a : ℝ, (s.filter.heap i).weight = some a ∧ 0 ≤ a) :
    restWeight s ≤ (s.filter.ids.map fun i => (s.filter.heap i).weight.getD 0).sum := by
  unfold restWeight
  apply List.sum_le_sum
  intro i hi
  obtain ⟨a, ha, h0⟩ := hw i hi
  split
  · exact le_rfl
  · simp [ha, h0]

/-- One message. -/
theorem still_handle (hq1 : q ≤ 1) {s s' : GSt M} {d : GDatum M} (hs : Standing s) (hd : Still q s.odom d) (h : s.handle cfg d = some s') :
    ∃ c, Worn q 1 c s s' ∧ Standing s' := by
  unfold GSt.handle at h
  rw [Option.bind_eq_some_iff] at h
  obtain ⟨pts, -, h⟩ := h
  rw [Option.bind_eq_some_iff] at h
  obtain ⟨scan, -, h⟩ := h
  simp only [hd.1, observer_still, update_still] at h
  rw [Option.bind_eq_some_iff] at h
  obtain ⟨⟨H, ms, m, hi⟩, ho, h⟩ := h
  simp only at h
  rw [Option.map_eq_some_iff] at h
  obtain ⟨f, hf, rfl⟩ := h
  have each := observe_each_one d scan _ _ _ _ _ _ hs.nodup ho
  simp only at each
  -- what the loop leaves
  have hrest : ∀ i ∈ s.filter.ids, Resting (s.filter.heap i) → H i = s.filter.heap i := by
    intro i hi' hr
    obtain ⟨m', e⟩ := (each i).2 hi'
    rw [e]
    exact (handled_one (q := q) (fun p => hd.2 i scan p m')).1 hr
  have heager : ∀ i ∈ s.filter.ids, Eager (s.filter.heap i) → Eager (H i) ∧ ∀ a, (s.filter.heap i).weight = some a →
      ∃ p, 0 ≤ p ∧ p ≤ q ∧ (H i).weight = some (p * a) := by
    intro i hi' hr
    obtain ⟨m', e⟩ := (each i).2 hi'
    rw [e]
    exact (handled_one (q := q) (fun p => hd.2 i scan p m')).2 hr
  have hw : ∀ i ∈ s.filter.ids, ∃ a : ℝ, (H i).weight = some a ∧ 0 ≤ a := by
    intro i hi'
    obtain ⟨a, ha, h0⟩ := hs.weighed i hi'
    rcases hs.either i hi' with hr | hr
    · exact ⟨a, by rw [hrest i hi' hr, ha], h0⟩
    · obtain ⟨p, p0, -, hp⟩ := (heager i hi' hr).2 a ha
      exact ⟨p * a, hp, mul_nonneg p0 h0⟩
  set f0 : Particle.Filter ℝ := { s.filter with
    heap := H
    maps := ms } with hf0
  have hws : f0.weights = (s.filter.ids.map (fun i => (H i).weight.getD 0)).map some := by
    simp only [Particle.Filter.weights, Particle.Filter.particles, hf0, List.map_map]
    apply List.map_congr_left
    intro i hi'
    obtain ⟨a, ha, -⟩ := hw i hi'
    simp [ha]
  set T := (s.filter.ids.map (fun i => (H i).weight.getD 0)).sum with hT
  have Tpos : 0 < T := by
    obtain ⟨i, hi', hr, a, ha, hp⟩ := hs.some_rests
    refine still_sum_pos (a := a) ?_ ?_ hp
    · intro b hb
      obtain ⟨j, hj, rfl⟩ := List.mem_map.1 hb
      obtain ⟨a, ha, h0⟩ := hw j hj
      simpa [ha] using h0
    · exact List.mem_map.2 ⟨i, hi', by simp [hrest i hi' hr, ha]⟩
  have hnorm : ∀ i ∈ s.filter.ids, f0.normalize.heap i = { H i with weight := Particle.divN (H i).weight (some T) } := by
    intro i hi'
    change forEach (fun w : World ℝ => { w with weight := Particle.divN w.weight (Particle.sumN f0.weights) }) f0.heap f0.ids i = _
    rw [Particle.forEach_apply _ _ hs.nodup, if_pos hi', hws, Particle.sumN_some]
  have hrw : ∀ g : Nat → World ℝ, (∀ i ∈ s.filter.ids, Resting (s.filter.heap i) → g i = s.filter.heap i) →
      (∀ i ∈ s.filter.ids, ¬ Resting (s.filter.heap i) → ¬ Resting (g i)) →
      restWeight (⟨s.odom, { s.filter with
        heap := g }, s.map, s.hist⟩ : GSt M) = restWeight s := by
    intro g g1 g2
    unfold restWeight
    congr 1
    apply List.map_congr_left
    intro i hi'
    simp only
    by_cases hr : Resting (s.filter.heap i)
    · rw [if_pos hr, if_pos (by rw [g1 i hi' hr]; exact hr), g1 i hi' hr]
    · rw [if_neg hr, if_neg (g2 i hi' hr)]
  have hrT : restWeight s ≤ T := by
    have := rest_weight_le (s := (⟨s.odom, { s.filter with
      heap := H }, s.map, s.hist⟩ : GSt M)) hw
    rw [hrw H hrest (fun i hi' hr => eager_not_resting (heager i hi' ((hs.either i hi').resolve_left hr)).1)] at this
    exact this
  have hHle : ∀ i ∈ s.filter.ids, ∀ b, (H i).weight = some b → ∃ a, (s.filter.heap i).weight = some a ∧ b ≤ a := by
    intro i hi' b hb
    obtain ⟨a, ha, h0⟩ := hs.weighed i hi'
    refine ⟨a, ha, ?_⟩
    rcases hs.either i hi' with hr | hr
    · rw [hrest i hi' hr, ha, Option.some.injEq] at hb
      exact hb.ge
    · obtain ⟨p, p0, p1, hp⟩ := (heager i hi' hr).2 a ha
      rw [hb, Option.some.injEq] at hp
      rw [hp]
      exact mul_le_of_le_one_left h0 (p1.trans hq1)
  have hfe : f = f0.normalize := by
    unfold Particle.Filter.gTryResample at hf
    by_cases hl : s.filter.traversed.x ^ 2 + s.filter.traversed.y ^ 2 ≤ 1 / 2 ∧ s.filter.traversed.theta ≤ 1 / 5
    · rw [if_pos] at hf
      · exact (Option.some.inj hf).symm
      · simp only [Bool.and_eq_true]
        refine ⟨decide_eq_true ?_, decide_eq_true hl.2⟩
        change s.filter.traversed.sqDist ≤ 1 / 2
        simpa [Pose.sqDist, pow_two] using hl.1
    · have hn := hs.calm.resolve_left hl
      have hnw : f0.normalize.weights = ((s.filter.ids.map (fun i => (H i).weight.getD 0)).map fun w => w / T).map some := by
        simp only [Particle.Filter.weights, Particle.Filter.particles, List.map_map]
        apply List.map_congr_left
        intro i hi'
        obtain ⟨a, ha, -⟩ := hw i hi'
        simp only [Function.comp_apply]
        rw [hnorm i hi']
        simp [ha, Particle.divN, Tpos.ne']
      have hreq := even_never_resamples (s.filter.ids.map (fun i => (H i).weight.getD 0)) (by
          intro b hb
          obtain ⟨j, hj, rfl⟩ := List.mem_map.1 hb
          obtain ⟨a, ha, h0⟩ := hw j hj
          simpa [ha] using h0) (by
          intro b hb
          obtain ⟨j, hj, rfl⟩ := List.mem_map.1 hb
          obtain ⟨b, hb, -⟩ := hw j hj
          obtain ⟨a, ha, hle⟩ := hHle j hj b hb
          have k1 := hn j hj a ha
          rw [hb, List.length_map]
          simp only [Option.getD_some]
          have k2 : (s.filter.ids.length : ℝ) * b ≤ s.filter.ids.length * a := mul_le_mul_of_nonneg_left hle (by positivity)
          linarith) Tpos
      rw [← hT, ← hnw] at hreq
      split at hf
      · exact (Option.some.inj hf).symm
      · simp only [Particle.Filter.tryResample, hreq, Bool.not_false, if_true, Option.bind_some] at hf
        exact (Option.some.inj hf).symm
  subst hfe
  have w1 : ∀ i ∈ s.filter.ids, Resting (s.filter.heap i) → ∀ a, (s.filter.heap i).weight = some a →
      f0.normalize.heap i = { s.filter.heap i with weight := some (T⁻¹ * a) } := by
    intro i hi' hr a ha
    rw [hnorm i hi', hrest i hi' hr, ha]
    simp [Particle.divN, Tpos.ne', div_eq_inv_mul]
  have w2 : ∀ i ∈ s.filter.ids, Eager (s.filter.heap i) → Eager (f0.normalize.heap i) ∧
      ∀ a, (s.filter.heap i).weight = some a → ∃ p, 0 ≤ p ∧ p ≤ q ∧ (f0.normalize.heap i).weight = some (T⁻¹ * p * a) := by
    intro i hi' hr
    rw [hnorm i hi']
    obtain ⟨k1, k2⟩ := heager i hi' hr
    refine ⟨k1, fun a ha => ?_⟩
    obtain ⟨p, p0, p1, hp⟩ := k2 a ha
    refine ⟨p, p0, p1, ?_⟩
    simp only [hp, Particle.divN]
    rw [if_neg Tpos.ne', div_eq_inv_mul, mul_assoc]
  refine ⟨T⁻¹, ⟨inv_pos.2 Tpos, hd.1 ▸ rfl, rfl, rfl, w1, ?_⟩, ⟨hs.nodup, ?_, ?_, ?_, ?_⟩⟩
  · simpa using w2
  · rcases hs.calm with hl | hn
    · exact .inl hl
    · right
      have hrn : restWeight (⟨d.odom, f0.normalize, m, hi⟩ : GSt M) = T⁻¹ * restWeight s := by
        unfold restWeight
        rw [← List.sum_map_mul_left]
        congr 1
        apply List.map_congr_left
        intro i hi'
        simp only
        obtain ⟨a, ha, -⟩ := hs.weighed i hi'
        rcases hs.either i hi' with hr | hr
        · have e := w1 i hi' hr a ha
          rw [if_pos hr, if_pos (by rw [e]; exact hr), e, ha]
          rfl
        · rw [if_neg (eager_not_resting hr), if_neg (eager_not_resting (w2 i hi' hr).1), mul_zero]
      intro i hi' b hb
      obtain ⟨a, ha, h0⟩ := hs.weighed i hi'
      have k1 := hn i hi' a ha
      have k2 : b ≤ T⁻¹ * a := by
        change (f0.normalize.heap i).weight = some b at hb
        rcases hs.either i hi' with hr | hr
        · rw [w1 i hi' hr a ha] at hb
          exact (Option.some.inj hb).ge
        · obtain ⟨p, p0, p1, hp⟩ := (w2 i hi' hr).2 a ha
          rw [hb, Option.some.injEq] at hp
          rw [hp]
          have : p * a ≤ a := mul_le_of_le_one_left h0 (p1.trans hq1)
          rw [mul_assoc]
          exact mul_le_mul_of_nonneg_left this (inv_pos.2 Tpos).le
      change (s.filter.ids.length : ℝ) * b ≤ 2 * restWeight (⟨d.odom, f0.normalize, m, hi⟩ : GSt M)
      rw [hrn]
      calc (s.filter.ids.length : ℝ) * b ≤ s.filter.ids.length * (T⁻¹ * a) := mul_le_mul_of_nonneg_left k2 (by positivity)
        _ = T⁻¹ * (s.filter.ids.length * a) := by ring
        _ ≤ T⁻¹ * (2 * restWeight s) := mul_le_mul_of_nonneg_left k1 (inv_pos.2 Tpos).le
        _ = 2 * (T⁻¹ * restWeight s) := by ring
  · intro i hi'
    rcases hs.either i hi' with hr | hr
    · left
      obtain ⟨a, ha, -⟩ := hs.weighed i hi'
      change Resting (f0.normalize.heap i)
      rw [w1 i hi' hr a ha]
      exact hr
    · right
      exact (w2 i hi' hr).1
  · intro i hi'
    obtain ⟨a, ha, h0⟩ := hs.weighed i hi'
    rcases hs.either i hi' with hr | hr
    · exact ⟨T⁻¹ * a, by change (f0.normalize.heap i).weight = _; rw [w1 i hi' hr a ha], by positivity⟩
    · obtain ⟨p, p0, -, hp⟩ := (w2 i hi' hr).2 a ha
      exact ⟨_, hp, by positivity⟩
  · obtain ⟨i, hi', hr, a, ha, hp⟩ := hs.some_rests
    refine ⟨i, hi', ?_, T⁻¹ * a, ?_, by positivity⟩
    · change Resting (f0.normalize.heap i)
      rw [w1 i hi' hr a ha]
      exact hr
    · change (f0.normalize.heap i).weight = _
      rw [w1 i hi' hr a ha]

theorem worn_trans {n k : Nat} {c c' : ℝ} {s s' s'' : GSt M} (h : Worn q n c s s') (h' : Worn q k c' s' s'')
    (hq : 0 ≤ q) : Worn q (n + k) (c' * c) s s'' := by
  refine ⟨mul_pos h'.pos h.pos, h'.odom.trans h.odom, h'.ids.trans h.ids, h'.traversed.trans h.traversed, ?_, ?_⟩
  · intro i hi hr a ha
    have e := h.rests i hi hr a ha
    have := h'.rests i (h.ids ▸ hi) (by rw [e]; exact hr) (c * a) (by rw [e])
    rw [this, e, mul_assoc]
  · intro i hi hr
    obtain ⟨k1, k2⟩ := h.wears i hi hr
    obtain ⟨k3, k4⟩ := h'.wears i (h.ids ▸ hi) k1
    refine ⟨k3, fun a ha => ?_⟩
    obtain ⟨p, p0, p1, hp⟩ := k2 a ha
    obtain ⟨p', p0', p1', hp'⟩ := k4 _ hp
    refine ⟨p * p', mul_nonneg p0 p0', ?_, ?_⟩
    · rw [pow_add]
      exact mul_le_mul p1 p1' p0' (by positivity)
    · rw [hp']
      congr 1
      ring

theorem worn_refl {s : GSt M} : Worn q 0 1 s s := by
  refine ⟨one_pos, rfl, rfl, rfl, ?_, ?_⟩
  · intro i _ _ a ha
    rw [one_mul, ← ha]
  · intro i _ hr
    refine ⟨hr, fun a ha => ⟨1, zero_le_one, by simp, by simp [ha]⟩⟩

/-- **Standing still**: all that a history of scans does to the particles is to wear down the eager ones. -/
theorem gmapping_still (hq : 0 ≤ q) (hq1 : q ≤ 1) : ∀ (ds : List (GDatum M)) {s s' : GSt M}, Standing s → (∀ d ∈ ds, Still q s.odom d) →
    s.run cfg ds = some s' → ∃ c, Worn q ds.length c s s' ∧ Standing s'
  | [], s, s', hs, _, h => by
    simp only [GSt.run, Option.some.injEq] at h
    subst h
    exact ⟨1, worn_refl, hs⟩
  | d :: ds, s, s', hs, hd, h => by
    simp only [GSt.run] at h
    rw [Option.bind_eq_some_iff] at h
    obtain ⟨s1, h1, h⟩ := h
    obtain ⟨c, w, hs1⟩ := still_handle hq1 hs (hd d (by simp)) h1
    obtain ⟨c', w', hs'⟩ := gmapping_still hq hq1 ds hs1 (fun e he => by rw [w.odom]; exact hd e (by simp [he])) h
    refine ⟨c' * c, ?_, hs'⟩
    have := worn_trans w w' hq
    rwa [Nat.add_comm] at this

theorem last_heaviest_unique {s : GSt M} {b b' : Nat} (h : LastHeaviest s b) (h' : LastHeaviest s b') : b = b' := by
  obtain ⟨l, r, e, hb, a, ha, h1, h2⟩ := h
  obtain ⟨l', r', e', hb', a', ha', h1', h2'⟩ := h'
  rw [e, List.append_eq_append_iff] at e'
  rcases e' with ⟨as, x, y⟩ | ⟨as, x, y⟩
  · rcases as with _ | ⟨z, as⟩
    · simpa using (List.cons.inj y).1
    · obtain ⟨rfl, rfl⟩ := List.cons.inj y
      have p1 := h2 b' (by simp) hb' a' ha'
      have p2 := h1' b (by simp [x]) hb a ha
      linarith
  · rcases as with _ | ⟨z, as⟩
    · simpa using (List.cons.inj y).1.symm
    · obtain ⟨rfl, rfl⟩ := List.cons.inj y
      have p1 := h2' b (by simp) hb a ha
      have p2 := h1 b' (by simp [x]) hb' a' ha'
      linarith

/-- **What is shown**: when the eager particles have worn down enough, the pose of the last of the heaviest resting particles. -/
theorem gmapping_still_shows (hq : 0 ≤ q) (hq1 : q ≤ 1) {ds : List (GDatum M)} {s s' : GSt M} (hs : Standing s)
    (hd : ∀ d ∈ ds, Still q s.odom d) (h : s.run cfg ds = some s')
    (hworn : ∀ e ∈ s.filter.ids, Eager (s.filter.heap e) → ∀ a, (s.filter.heap e).weight = some a →
      ∃ i ∈ s.filter.ids, Resting (s.filter.heap i) ∧ ∃ b, (s.filter.heap i).weight = some b ∧ q ^ ds.length * a < b) :
    ∃ b, LastHeaviest s b ∧ s'.pose = some (s.filter.heap b).pose := by
  obtain ⟨c, w, hs'⟩ := gmapping_still hq hq1 ds hs hd h
  obtain ⟨l, r, b, a, e1, e2, e3, e4, e5⟩ := Particle.reports_heaviest s'.filter.ids s'.filter.heap
    (by obtain ⟨i, hi, -⟩ := hs'.some_rests; exact List.ne_nil_of_mem hi)
    (fun i hi => by obtain ⟨a, ha, -⟩ := hs'.weighed i hi; exact ⟨a, ha⟩)
  have hb : b ∈ s.filter.ids := by rw [← w.ids, e1]; simp
  have hle : ∀ i ∈ s.filter.ids, ∀ x, (s'.filter.heap i).weight = some x → x ≤ a := by
    intro i hi x hx
    rw [← w.ids, e1, List.mem_append, List.mem_cons] at hi
    rcases hi with hi | rfl | hi
    · exact e4 i hi x hx
    · rw [e3, Option.some.injEq] at hx
      exact hx.ge
    · exact (e5 i hi x hx).le
  obtain ⟨a0, ha0, ha0'⟩ := hs.weighed b hb
  have hr : Resting (s.filter.heap b) := by
    rcases hs.either b hb with hr | hr
    · exact hr
    · exfalso
      obtain ⟨i, hi, hri, x, hx, hlt⟩ := hworn b hb hr a0 ha0
      obtain ⟨p, p0, p1, hp⟩ := (w.wears b hb hr).2 a0 ha0
      rw [e3, Option.some.injEq] at hp
      have k1 := hle i hi (c * x) (by rw [w.rests i hi hri x hx])
      rw [hp, mul_assoc] at k1
      have k2 : x ≤ p * a0 := le_of_mul_le_mul_left k1 w.pos
      nlinarith [mul_le_mul_of_nonneg_right p1 ha0']
  have hbe := w.rests b hb hr a0 ha0
  have hac : a = c * a0 := by
    rw [hbe] at e3
    exact (Option.some.inj e3).symm
  refine ⟨b, ⟨l, r, by rw [← w.ids, e1], hr, a0, ha0, ?_, ?_⟩, ?_⟩
  · intro i hi hri x hx
    have hm : i ∈ s.filter.ids := by rw [← w.ids, e1]; simp [hi]
    have := e4 i hi (c * x) (by rw [w.rests i hm hri x hx])
    rw [hac] at this
    exact le_of_mul_le_mul_left this w.pos
  · intro i hi hri x hx
    have hm : i ∈ s.filter.ids := by rw [← w.ids, e1]; simp [hi]
    have := e5 i hi (c * x) (by rw [w.rests i hm hri x hx])
    rw [hac] at this
    exact lt_of_mul_lt_mul_left this w.pos.le
  · simp only [GSt.pose, Particle.Filter.world, e2, Option.map_some, hbe]

/-- **In the end** the pose shown stands still with the robot, whatever is scanned: from some scan on it is the pose of the same
resting particle. -/
theorem gmapping_still_settles (hq : 0 ≤ q) (hq1 : q < 1) {s : GSt M} (hs : Standing s) :
    ∃ N : Nat, ∀ (ds : List (GDatum M)) (s' : GSt M), N ≤ ds.length → (∀ d ∈ ds, Still q s.odom d) → s.run cfg ds = some s' →
      ∃ b, LastHeaviest s b ∧ s'.pose = some (s.filter.heap b).pose := by
  obtain ⟨i, hi, hr, x, hx, hx0⟩ := hs.some_rests
  set T := (s.filter.ids.map (fun i => (s.filter.heap i).weight.getD 0)).sum with hT
  have hall : ∀ b ∈ s.filter.ids.map (fun i => (s.filter.heap i).weight.getD 0), 0 ≤ b := by
    intro b hb
    obtain ⟨j, hj, rfl⟩ := List.mem_map.1 hb
    obtain ⟨a, ha, h0⟩ := hs.weighed j hj
    simpa [ha] using h0
  have hle : ∀ e ∈ s.filter.ids, ∀ a, (s.filter.heap e).weight = some a → a ≤ T := by
    intro e he a ha
    exact List.single_le_sum hall a (List.mem_map.2 ⟨e, he, by simp [ha]⟩)
  have T0 : 0 < T := lt_of_lt_of_le hx0 (hle i hi x hx)
  obtain ⟨N, hN⟩ := exists_pow_lt_of_lt_one (div_pos hx0 T0) hq1
  refine ⟨N, fun ds s' hl hd h => gmapping_still_shows hq hq1.le hs hd h ?_⟩
  intro e he _ a ha
  refine ⟨i, hi, hr, x, hx, ?_⟩
  have k1 : q ^ ds.length ≤ q ^ N := pow_le_pow_of_le_one hq hq1.le hl
  have k2 : q ^ N * T < x := by rwa [lt_div_iff₀ T0] at hN
  have k3 := hle e he a ha
  have k4 : 0 ≤ q ^ ds.length := by positivity
  calc q ^ ds.length * a ≤ q ^ ds.length * T := mul_le_mul_of_nonneg_left k3 k4
    _ ≤ q ^ N * T := mul_le_mul_of_nonneg_right k1 T0.le
    _ < x := k2

end

/-! ## How GMapping gets there -/

section
variable {C M : Type} {cfg : Cfg C M} {steps : List (Delta ℝ)} {init : M} {hist : Option Hist}

/-- A message whose matches all score between `lo` and `hi`, and after which every step drawn is positive. -/
def Fair {M : Type} (lo hi : ℝ) (d : GDatum M) : Prop :=
  (∀ i scan p m, ∃ a : ℝ, (d.matcher i scan p m).2 = some a ∧ lo ≤ a ∧ a ≤ hi) ∧
    ∀ i, 0 < (d.nextSm i).x ^ 2 + (d.nextSm i).y ^ 2 ∧ 0 < (d.nextSm i).theta

/-- What the first scan makes of one particle. -/
theorem first_handled {w : World ℝ} {e : Particle.Env ℝ} {o : Pose ℝ} {a W : ℝ} (h1 : w.tooClose = false) (h2 : w.scanFirst = true)
    (h3 : w.pose = o) (h4 : w.weight = some W) (h5 : (e.matcher o).2 = some a) :
    (w.handleObservation e).1.pose = o.add (e.matcher o).1 ∧ (w.handleObservation e).1.weight = some (a * W) ∧
      (w.handleObservation e).1.deltaSince = ⟨0, 0, 0⟩ ∧ (w.handleObservation e).1.noisy = w.noisy ∧
      (w.handleObservation e).1.nextSm = if w.noisy then e.nextSm else ⟨0, 0, 0⟩ := by
  unfold World.handleObservation
  rw [if_neg (by rw [h1]; simp)]
  simp [h2, h3, h4, h5, mulN]

theorem sum_but_one (n m : Nat) (x : ℝ) (hx : 0 ≤ x) : ((n : ℝ) - 1) * x ≤ ((List.range n).map fun i => if i ≠ m then x else 0).sum := by
  have key : ∀ n : Nat, ((n : ℝ) * x - (if m < n then x else 0)) ≤ ((List.range n).map fun i => if i ≠ m then x else 0).sum := by
    intro n
    induction n with
    | zero => simp
    | succ n ih =>
      rw [List.range_succ, List.map_append, List.sum_append]
      simp only [List.map_cons, List.map_nil, List.sum_cons, List.sum_nil, add_zero]
      push_cast
      by_cases h : n = m
      · subst h
        simp only [ne_eq, not_true_eq_false, if_false, lt_irrefl, Nat.lt_succ_self, if_true] at ih ⊢
        linarith
      · rw [if_pos h]
        by_cases h' : m < n
        · rw [if_pos h'] at ih
          rw [if_pos (by omega)]
          linarith
        · rw [if_neg h'] at ih
          rw [if_neg (by omega)]
          linarith
  have := key n
  split at this <;> linarith

/-- After a scan that all particles handle for the first time, with scores that do not differ too much, the filter can stand. -/
theorem cold_then_standing (hn : 2 ≤ steps.length) {o : Pose ℝ} {t : Delta ℝ} {s s' : GSt M} (ht : 0 ≤ t.theta)
    (hc : Cold steps init hist o t s) {lo hi : ℝ} (hlo : 0 < lo) (hlh : steps.length * hi ≤ 2 * ((steps.length - 1) * lo))
    {d : GDatum M} (hd : Fair lo hi d) {t' : Delta ℝ}
    (ht' : t' = ⟨t.x + |d.odom.x - o.x|, t.y + |d.odom.y - o.y|, t.theta + |d.odom.theta - o.theta|⟩)
    (hfar : ∀ step ∈ steps, ¬ Short t' step) (h : s.handle cfg d = some s') :
    Standing s' ∧ s'.odom = d.odom ∧ s'.filter.ids = List.range steps.length ∧
      (∀ i < steps.length, ∃ scan m, ScanOf cfg d.msg scan ∧ (s'.filter.heap i).pose = d.odom.add (d.matcher i scan d.odom m).1) ∧
      ∃ k, 0 < k ∧ ∀ i < steps.length, ∃ a, (s'.filter.heap i).weight = some (k * a) ∧ lo ≤ a ∧ a ≤ hi := by
  unfold GSt.handle at h
  rw [Option.bind_eq_some_iff] at h
  obtain ⟨pts, hp1, h⟩ := h
  rw [Option.bind_eq_some_iff] at h
  obtain ⟨scan, hp2, h⟩ := h
  have hscan : ScanOf cfg d.msg scan := ⟨pts, hp1, hp2⟩
  simp only at h
  rw [Option.bind_eq_some_iff] at h
  obtain ⟨⟨H, ms, m, hh⟩, ho, h⟩ := h
  simp only at h
  rw [Option.map_eq_some_iff] at h
  obtain ⟨f, hf, rfl⟩ := h
  have hmov := fun i hi => cold_moved hc d.odom (i := i) hi
  obtain ⟨mas, -, hq⟩ := hc.quiet
  have hquiet : ∀ i < steps.length,
      ((s.filter.updatePose Real.sin Real.cos (observerStep s.odom d.odom).2).heap i).noisy = decide (i ≠ mas) := by
    intro i hi'
    change (forEach (fun w => w.updatePose Real.sin Real.cos (observerStep s.odom d.odom).2) s.filter.heap s.filter.ids i).noisy = _
    rw [Particle.forEach_apply _ _ (by rw [hc.ids]; exact List.nodup_range), if_pos (by rw [hc.ids]; exact List.mem_range.2 hi')]
    exact hq i hi'
  have hids : (s.filter.updatePose Real.sin Real.cos (observerStep s.odom d.odom).2).ids = List.range steps.length := hc.ids
  simp only at hmov
  set fu := s.filter.updatePose Real.sin Real.cos (observerStep s.odom d.odom).2 with hfu
  have n0 : (0 : ℝ) < steps.length := by
    have : 0 < steps.length := by omega
    exact_mod_cast this
  have n1 : (1 : ℝ) ≤ (steps.length : ℝ) - 1 := by
    have : (2 : ℝ) ≤ steps.length := by exact_mod_cast hn
    linarith
  set n : ℝ := (steps.length : ℝ) with hnn
  have each := observe_each_one d scan _ _ _ _ _ _ (by rw [hids]; exact List.nodup_range) ho
  simp only at each
  -- every particle has handled the scan
  have one : ∀ i < steps.length, ∃ m' a, (d.matcher i scan d.odom m').2 = some a ∧ lo ≤ a ∧ a ≤ hi ∧
      (H i).pose = d.odom.add (d.matcher i scan d.odom m').1 ∧ (H i).weight = some (a * (1 / n)) ∧ (H i).deltaSince = ⟨0, 0, 0⟩ ∧
      (H i).noisy = decide (i ≠ mas) ∧ (H i).nextSm = if i ≠ mas then d.nextSm i else ⟨0, 0, 0⟩ := by
    intro i hi'
    obtain ⟨b1, -, b3, b4, b5, -, b7⟩ := hmov i hi'
    obtain ⟨m', e⟩ := (each i).2 (by rw [hids]; exact List.mem_range.2 hi')
    obtain ⟨a, ha, a1, a2⟩ := hd.1 i scan d.odom m'
    have hclose : (fu.heap i).tooClose = false := by
      rw [Bool.eq_false_iff, Ne, short_too_close (b3.trans ht'.symm) rfl (by rw [ht']; positivity)]
      exact hfar _ (List.mem_of_getElem? b4.symm)
    obtain ⟨c1, c2, c3, c4, c5⟩ := first_handled (e := d.env scan m' i) hclose b5 b1 b7 ha
    rw [hquiet i hi'] at c4 c5
    rw [← e] at c1 c2 c3 c4 c5
    refine ⟨m', a, ha, a1, a2, c1, c2, c3, c4, ?_⟩
    rw [c5]
    simp [GDatum.env]
  set f0 : Particle.Filter ℝ := { fu with
    heap := H
    maps := ms } with hf0
  have hW : ∀ i < steps.length, ∃ a, (H i).weight = some (a * (1 / n)) ∧ lo ≤ a ∧ a ≤ hi := by
    intro i hi'
    obtain ⟨m', a, -, a1, a2, -, a3, -⟩ := one i hi'
    exact ⟨a, a3, a1, a2⟩
  set ws := (List.range steps.length).map (fun i => (H i).weight.getD 0) with hws'
  have hws : f0.weights = ws.map some := by
    simp only [Particle.Filter.weights, Particle.Filter.particles, hf0, List.map_map, hids, hws']
    apply List.map_congr_left
    intro i hi'
    obtain ⟨a, ha, -⟩ := hW i (List.mem_range.1 hi')
    simp [ha]
  have hwb : ∀ w ∈ ws, lo * (1 / n) ≤ w ∧ w ≤ hi * (1 / n) := by
    intro w hw
    obtain ⟨i, hi', rfl⟩ := List.mem_map.1 hw
    obtain ⟨a, ha, a1, a2⟩ := hW i (List.mem_range.1 hi')
    rw [ha]
    exact ⟨mul_le_mul_of_nonneg_right a1 (by positivity), mul_le_mul_of_nonneg_right a2 (by positivity)⟩
  have hlen : (ws.length : ℝ) = n := by simp [hws', hnn]
  set T := ws.sum with hT
  have hTlo : lo ≤ T := by
    have := List.card_nsmul_le_sum ws (lo * (1 / n)) (fun w hw => (hwb w hw).1)
    rw [nsmul_eq_mul, hlen] at this
    have e : n * (lo * (1 / n)) = lo := by field_simp
    rwa [e] at this
  have Tpos : 0 < T := lt_of_lt_of_le hlo hTlo
  have hnorm : ∀ i < steps.length, f0.normalize.heap i = { H i with weight := Particle.divN (H i).weight (some T) } := by
    intro i hi'
    change forEach (fun w : World ℝ => { w with weight := Particle.divN w.weight (Particle.sumN f0.weights) }) f0.heap f0.ids i = _
    rw [Particle.forEach_apply _ _ (by rw [show f0.ids = fu.ids from rfl, hids]; exact List.nodup_range),
      if_pos (by rw [show f0.ids = fu.ids from rfl, hids]; exact List.mem_range.2 hi'), hws, Particle.sumN_some]
  have hnw : f0.normalize.weights = (ws.map fun w => w / T).map some := by
    simp only [Particle.Filter.weights, Particle.Filter.particles, List.map_map, hws']
    rw [show f0.normalize.ids = List.range steps.length from hids]
    apply List.map_congr_left
    intro i hi'
    obtain ⟨a, ha, -⟩ := hW i (List.mem_range.1 hi')
    simp only [Function.comp_apply]
    rw [hnorm i (List.mem_range.1 hi')]
    simp [ha, Particle.divN, Tpos.ne']
  have hreq := even_never_resamples ws (fun w hw => le_trans (by positivity) (hwb w hw).1) (by
    intro w hw
    rw [hlen]
    have k1 := mul_le_mul_of_nonneg_left (hwb w hw).2 n0.le
    have e : n * (hi * (1 / n)) = hi := by field_simp
    rw [e] at k1
    have k2 : hi ≤ 2 * lo := by
      have : n * hi ≤ n * (2 * lo) := by nlinarith
      exact le_of_mul_le_mul_left this n0
    linarith) Tpos
  rw [← hT, ← hnw] at hreq
  have hfe : f = f0.normalize := by
    unfold Particle.Filter.gTryResample at hf
    split at hf
    · exact (Option.some.inj hf).symm
    · simp only [Particle.Filter.tryResample, hreq, Bool.not_false, if_true, Option.bind_some] at hf
      exact (Option.some.inj hf).symm
  subst hfe
  have fin : ∀ i < steps.length, ∃ m' a, lo ≤ a ∧ a ≤ hi ∧ (f0.normalize.heap i).pose = d.odom.add (d.matcher i scan d.odom m').1 ∧
      (f0.normalize.heap i).weight = some (1 / n / T * a) ∧
      (i ≠ mas → Resting (f0.normalize.heap i)) ∧ (i = mas → Eager (f0.normalize.heap i)) := by
    intro i hi'
    obtain ⟨m', a, -, a1, a2, a3, a4, a5, a6, a7⟩ := one i hi'
    rw [hnorm i hi']
    refine ⟨m', a, a1, a2, a3, ?_, ?_, ?_⟩
    · simp only [a4, Particle.divN]
      rw [if_neg Tpos.ne']
      congr 1
      field_simp
    · intro hne
      rw [if_pos hne] at a7
      simp only [Resting, a5, a7]
      obtain ⟨p1, p2⟩ := hd.2 i
      exact ⟨by simpa using p1, by simpa using p2⟩
    · rintro rfl
      simpa [Eager, a6] using a7
  have k0 : 0 < 1 / n / T := by positivity
  have hid' : f0.normalize.ids = List.range steps.length := hids
  refine ⟨⟨?_, .inr ?_, ?_, ?_, ?_⟩, rfl, hid', fun i hi' => ?_, 1 / n / T, k0, fun i hi' => ?_⟩
  · change f0.normalize.ids.Nodup
    rw [hid']
    exact List.nodup_range
  · intro i hi' b hb
    change i ∈ f0.normalize.ids at hi'
    rw [hid', List.mem_range] at hi'
    change (f0.normalize.heap i).weight = some b at hb
    change ((f0.normalize.ids.length : ℕ) : ℝ) * b ≤ _
    rw [hid', List.length_range]
    obtain ⟨-, a, -, a2, -, a4, -⟩ := fin i hi'
    rw [a4, Option.some.injEq] at hb
    have k1 : (n - 1) * (1 / n / T * lo) ≤ restWeight (⟨(observerStep s.odom d.odom).1, f0.normalize, m, hh⟩ : GSt M) := by
      refine le_trans (sum_but_one steps.length mas (1 / n / T * lo) (by positivity)) ?_
      unfold restWeight
      simp only
      rw [hid']
      apply List.sum_le_sum
      intro j hj
      obtain ⟨-, a, b1, -, -, b4, b5, b6⟩ := fin j (List.mem_range.1 hj)
      by_cases hjm : j = mas
      · rw [if_neg (not_not.2 hjm), if_neg (eager_not_resting (b6 hjm))]
      · rw [if_pos hjm, if_pos (b5 hjm), b4]
        exact mul_le_mul_of_nonneg_left b1 k0.le
    rw [← hb]
    have k2 := mul_le_mul_of_nonneg_left hlh k0.le
    have k3 : n * (1 / n / T * a) ≤ 1 / n / T * (n * hi) := by
      have := mul_le_mul_of_nonneg_left a2 (mul_pos n0 k0).le
      linarith
    linarith
  · intro i hi'
    change i ∈ f0.normalize.ids at hi'
    rw [hid', List.mem_range] at hi'
    obtain ⟨-, a, -, -, -, -, a5, a6⟩ := fin i hi'
    by_cases hm : i = mas
    · exact .inr (a6 hm)
    · exact .inl (a5 hm)
  · intro i hi'
    change i ∈ f0.normalize.ids at hi'
    rw [hid', List.mem_range] at hi'
    obtain ⟨-, a, a1, -, -, a4, -⟩ := fin i hi'
    have : 0 ≤ a := by linarith
    exact ⟨_, a4, by positivity⟩
  · obtain ⟨i, hi', him⟩ : ∃ i < steps.length, i ≠ mas := by
      by_cases h0 : mas = 0
      · exact ⟨1, by omega, by omega⟩
      · exact ⟨0, by omega, by omega⟩
    obtain ⟨-, a, a1, -, -, a4, a5, -⟩ := fin i hi'
    have : 0 < a := by linarith
    exact ⟨i, by change i ∈ f0.normalize.ids; rw [hid']; exact List.mem_range.2 hi', a5 him, _, a4, by positivity⟩
  · obtain ⟨m', a, -, -, a3, -⟩ := fin i hi'
    exact ⟨scan, m', hscan, a3⟩
  · obtain ⟨-, a, a1, a2, -, a4, -⟩ := fin i hi'
    exact ⟨a, a4, a1, a2⟩

/-- **GMapping stops with the robot (C114).** At least two particles are launched; the robot drives, and the first scan it takes in
is taken in by all of them at once, with scores between `lo` and `hi`. Then it stands still. From the scan on at which
`q ^ n * hi < lo`, GMapping shows one and the same pose `P`: the odometry's, corrected by the first match of some particle. -/
theorem gmapping_stops {st s1 : GSt M} (h : gStart steps init hist = some st) (hn : 2 ≤ steps.length) (ds : List (GDatum M))
    (hs : ∀ d ∈ ds, ∃ scan, ScanOf cfg d.msg scan) (hshort : ∀ step ∈ steps, Short (gone ⟨0, 0, 0⟩ (ds.map GDatum.odom)) step)
    {d : GDatum M} (hfar : ∀ step ∈ steps, ¬ Short (gone ⟨0, 0, 0⟩ ((ds ++ [d]).map GDatum.odom)) step)
    {lo hi : ℝ} (hlo : 0 < lo) (hlh : steps.length * hi ≤ 2 * ((steps.length - 1) * lo)) (hd : Fair lo hi d)
    (hrun : st.run cfg (ds ++ [d]) = some s1) {q : ℝ} (hq : 0 ≤ q) (hq1 : q ≤ 1) :
    ∃ P, (∃ i < steps.length, ∃ scan m, ScanOf cfg d.msg scan ∧ P = d.odom.add (d.matcher i scan d.odom m).1) ∧
      ∀ (es : List (GDatum M)) (s' : GSt M), (∀ e ∈ es, Still q d.odom e) → q ^ es.length * hi < lo → s1.run cfg es = some s' →
        s'.pose = some P := by
  obtain ⟨s0, k1, k2⟩ := cold_run (cfg := cfg) (by omega) ds (by simp) (cold_start_state h) hs _ rfl (by simpa using hshort)
  rw [gst_run_append, k1, Option.bind_some] at hrun
  simp only [GSt.run, Option.bind_eq_some_iff, Option.some.injEq] at hrun
  obtain ⟨s2, hh, rfl⟩ := hrun
  obtain ⟨g1, g2, g3⟩ := gone_nonneg (ds.map GDatum.odom) ⟨0, 0, 0⟩
  obtain ⟨S, ho, hids, hpose, k, k0, hw⟩ := cold_then_standing hn (by simpa using g3) k2 hlo hlh hd rfl (by
    intro step hstep
    have := hfar step hstep
    rw [List.map_append, List.map_singleton, gone_append] at this
    simpa using this) hh
  have shows : ∀ (es : List (GDatum M)) (s' : GSt M), (∀ e ∈ es, Still q d.odom e) → q ^ es.length * hi < lo →
      s2.run cfg es = some s' → ∃ b, LastHeaviest s2 b ∧ s'.pose = some (s2.filter.heap b).pose := by
    intro es s' he hlt hr
    refine gmapping_still_shows hq hq1 S (by rw [ho]; exact he) hr ?_
    intro e he _ a ha
    obtain ⟨i, hi', hri, -⟩ := S.some_rests
    rw [hids, List.mem_range] at he
    obtain ⟨x, x1, x2, -⟩ := hw i (by rw [hids, List.mem_range] at hi'; exact hi')
    obtain ⟨y, y1, -, y2⟩ := hw e he
    rw [ha, Option.some.injEq] at y1
    refine ⟨i, hi', hri, _, x1, ?_⟩
    rw [y1]
    have p1 : 0 ≤ q ^ es.length := by positivity
    calc q ^ es.length * (k * y) = k * (q ^ es.length * y) := by ring
      _ ≤ k * (q ^ es.length * hi) := mul_le_mul_of_nonneg_left (mul_le_mul_of_nonneg_left y2 p1) k0.le
      _ < k * lo := mul_lt_mul_of_pos_left hlt k0
      _ ≤ k * x := mul_le_mul_of_nonneg_left x2 k0.le
  by_cases hex : ∃ (es : List (GDatum M)) (s' : GSt M), (∀ e ∈ es, Still q d.odom e) ∧ q ^ es.length * hi < lo ∧ s2.run cfg es = some s'
  · obtain ⟨es, s', h1, h2, h3⟩ := hex
    obtain ⟨b, hb, -⟩ := shows es s' h1 h2 h3
    have hbi : b < steps.length := by
      obtain ⟨l, r, e, -⟩ := hb
      rw [hids] at e
      have : b ∈ List.range steps.length := by rw [e]; simp
      exact List.mem_range.1 this
    obtain ⟨scan, m, p1, p2⟩ := hpose b hbi
    refine ⟨(s2.filter.heap b).pose, ⟨b, hbi, scan, m, p1, p2⟩, fun es s' h1 h2 h3 => ?_⟩
    obtain ⟨b', hb', e⟩ := shows es s' h1 h2 h3
    rw [e, last_heaviest_unique hb hb']
  · obtain ⟨scan, m, p1, p2⟩ := hpose 0 (by omega)
    exact ⟨_, ⟨0, by omega, scan, m, p1, rfl⟩, fun es s' h1 h2 h3 => absurd ⟨es, s', h1, h2, h3⟩ hex⟩

end

/-! ## Instance -/

/-- Two particles and a scanner that sees an obstacle; every match scores 1/2. -/
noncomputable def stopDatum (x : ℝ) : GDatum (LazyMap.St (GmCell ℝ)) :=
  ⟨⟨x, 0, 0⟩, ⟨0, 2, 1, 1 / 10, 30, [some 4, some 50, some 0]⟩, fun _ => ⟨1 / 10, 0, 0⟩,
    fun _ _ _ _ => (⟨0, 1 / 10, 0⟩, some (1 / 2)), fun _ => ⟨7 / 10, 7 / 10, 3 / 10⟩, [1 / 4, 3 / 4]⟩

theorem stop_scan (x : ℝ) : ScanOf gDemoCfg (stopDatum x).msg [.polar 4 0 true 1, .polar 30 1 false 1] := by
  refine ⟨[⟨some 4, 0, true⟩, ⟨some 30, 1, false⟩], ?_, rfl⟩
  norm_num [msg2scan, convert, stopDatum, gDemoCfg]

/-- GMapping drives a metre and stops there: however many scans follow (up to a hundred), from the first one on it shows the pose of
the metre driven, corrected by one match. (The marked particle goes on being matched, a decimetre further with each scan.) -/
example : ∃ init s s1, gStart [⟨7 / 10, 7 / 10, 3 / 10⟩, ⟨6 / 10, 7 / 10, 4 / 10⟩] init (some (Hist.create 20)) = some s ∧
    s.run gDemoCfg [stopDatum 0, stopDatum 1] = some s1 ∧ Standing s1 ∧
    ∀ k, 1 ≤ k → k ≤ 100 → ∃ s', s1.run gDemoCfg (List.replicate k (stopDatum 1)) = some s' ∧ s'.pose = some ⟨1, 1 / 10, 0⟩ := by
  obtain ⟨init, -, hL⟩ := lazy_lawful 128 (by norm_num) GmCell.observe 10 10 (GmCell.create (K := ℝ))
  have hL' : Lawful gDemoCfg.api (CellKind.upd .gmapping) (CellKind.proto .gmapping) init := hL
  obtain ⟨s, hs, hA⟩ := gmapping_starts (steps := [⟨7 / 10, 7 / 10, 3 / 10⟩, ⟨6 / 10, 7 / 10, 4 / 10⟩]) (by simp) init
    (some (Hist.create 20))
  obtain ⟨hr, hm, -, ho, hh⟩ := start_reach (n := 2) rfl hs
  have total : ∀ k, k ≤ 100 → ∃ s', s.run gDemoCfg ([stopDatum 0, stopDatum 1] ++ List.replicate k (stopDatum 1)) = some s' := by
    intro k hk
    have hk' : (k : ℝ) ≤ 100 := by exact_mod_cast hk
    refine gmapping_run_total hL' (by norm_num [gDemoCfg]) 1000
      (by intro v hv; simp only [gDemoCfg, decide_eq_true_eq]; exact hv) (by norm_num [gDemoCfg]) 30 (1 / 10) (1 / 10) 1 0
      (by norm_num) (by norm_num) (by norm_num) (by norm_num) (n := 2) _
      (by
        simp only [List.length_append, List.length_cons, List.length_nil, List.length_replicate]
        push_cast
        norm_num [gDemoCfg]
        linarith) (s := s) hr (by rw [hm]; exact told_refl _ _)
      (by
        rw [hh]
        intro h' e
        rw [Option.some.injEq] at e
        subst e
        exact ⟨⟨by simp [Hist.create], by simp [Hist.create]⟩, by simp [Hist.create]⟩) hA ?_ ?_
    · unfold SmallSteps
      rw [ho]
      simp only [List.cons_append, List.nil_append, List.map_cons, List.map_replicate, List.isChain_cons_cons]
      refine ⟨by norm_num [stopDatum], by norm_num [stopDatum], ?_⟩
      rw [← List.replicate_succ]
      exact List.isChain_replicate_of_rel _ (by norm_num [stopDatum])
    · intro d hd
      obtain ⟨x, rfl⟩ : ∃ x, d = stopDatum x := by
        simp only [List.cons_append, List.nil_append, List.mem_cons, List.mem_replicate] at hd
        rcases hd with rfl | rfl | ⟨-, rfl⟩ <;> exact ⟨_, rfl⟩
      refine ⟨⟨?_, rfl, ?_⟩, ⟨fun _ => by norm_num [stopDatum], fun _ _ _ _ => by norm_num [stopDatum]⟩,
        by simp [stopDatum], by norm_num [stopDatum, gDemoCfg], by norm_num [stopDatum], by norm_num [stopDatum], ?_⟩
      · intro k scan p m a ha
        simp only [stopDatum, Option.some.injEq] at ha
        rw [← ha]
        norm_num
      · intro x hx
        simp only [stopDatum, List.mem_cons, List.not_mem_nil, or_false] at hx
        rcases hx with rfl | rfl <;> norm_num
      · intro pts hp
        by_cases he : pts = []
        · exact .inl he
        · exact .inr (List.length_pos_of_ne_nil he)
  obtain ⟨s1, h1⟩ := total 0 (by norm_num)
  simp only [List.replicate_zero, List.append_nil] at h1
  have hsc : ∀ d ∈ [stopDatum 0], ∃ scan, ScanOf gDemoCfg d.msg scan := by
    intro d hd
    rw [List.mem_singleton.1 hd]
    exact ⟨_, stop_scan 0⟩
  have hshort : ∀ step ∈ [(⟨7 / 10, 7 / 10, 3 / 10⟩ : Delta ℝ), ⟨6 / 10, 7 / 10, 4 / 10⟩],
      Short (gone ⟨0, 0, 0⟩ ([stopDatum 0].map GDatum.odom)) step := by
    intro step hstep
    simp only [List.mem_cons, List.not_mem_nil, or_false] at hstep
    rcases hstep with rfl | rfl <;> norm_num [Short, gone, stopDatum]
  have hfar : ∀ step ∈ [(⟨7 / 10, 7 / 10, 3 / 10⟩ : Delta ℝ), ⟨6 / 10, 7 / 10, 4 / 10⟩],
      ¬ Short (gone ⟨0, 0, 0⟩ (([stopDatum 0] ++ [stopDatum 1]).map GDatum.odom)) step := by
    intro step hstep
    simp only [List.mem_cons, List.not_mem_nil, or_false] at hstep
    rcases hstep with rfl | rfl <;> norm_num [Short, gone, stopDatum]
  have hfair : Fair (1 / 2) (1 / 2) (stopDatum 1) := by
    refine ⟨fun _ _ _ _ => ⟨1 / 2, rfl, le_rfl, le_rfl⟩, fun i => ?_⟩
    norm_num [stopDatum]
  obtain ⟨P, ⟨i, -, scan, m, -, hP⟩, hall⟩ := gmapping_stops (cfg := gDemoCfg) hs (by simp) [stopDatum 0] hsc hshort hfar
    (lo := 1 / 2) (hi := 1 / 2) (by norm_num) (by norm_num) hfair h1 (q := 1 / 2) (by norm_num) (by norm_num)
  have hP' : P = ⟨1, 1 / 10, 0⟩ := by
    rw [hP]
    norm_num [stopDatum, Pose.add]
  subst hP'
  refine ⟨init, s, s1, hs, h1, ?_, fun k k1 k2 => ?_⟩
  · obtain ⟨s0, e1, e2⟩ := cold_run (cfg := gDemoCfg) (by simp) [stopDatum 0] (by simp) (cold_start_state hs) hsc _ rfl
      (by simpa using hshort)
    have hrun : s.run gDemoCfg ([stopDatum 0] ++ [stopDatum 1]) = some s1 := h1
    rw [gst_run_append, e1, Option.bind_some] at hrun
    simp only [GSt.run, Option.bind_eq_some_iff, Option.some.injEq] at hrun
    obtain ⟨s2, hh', rfl⟩ := hrun
    refine (cold_then_standing (by simp) (by simp [gone, stopDatum]) e2 (lo := 1 / 2) (hi := 1 / 2) (by norm_num) (by norm_num) hfair rfl ?_ hh').1
    intro step hstep
    simp only [List.mem_cons, List.not_mem_nil, or_false] at hstep
    rcases hstep with rfl | rfl <;> norm_num [Short, gone, lastPose, stopDatum]
  · obtain ⟨s', h'⟩ := total k k2
    rw [gst_run_append, h1, Option.bind_some] at h'
    refine ⟨s', h', hall _ s' (fun e he => ?_) ?_ h'⟩
    · rw [(List.mem_replicate.1 he).2]
      exact ⟨rfl, fun _ _ _ _ => ⟨1 / 2, rfl, by norm_num, le_rfl⟩⟩
    · rw [List.length_replicate]
      have : ((1 : ℝ) / 2) ^ k ≤ (1 / 2) ^ 1 := pow_le_pow_of_le_one (by norm_num) (by norm_num) k1
      linarith

end Slam.Whole
