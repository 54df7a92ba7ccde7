import Verif.Whole.FirstScan

/-!
# GMapping with its own matcher while the robot stands still (C116)

C114 supposes that the matches have scores. GMapping's own matcher has none for a scan without a usable point
(src/core/scan_matchers/weighted_mean_point_probability_spe.h:97-133: 0/0), and such a "score" makes the weight of the particle, and
by the normalisation (src/core/particle_filter.h:108-112) that of every particle, not a number.
-/

set_option autoImplicit false
set_option linter.unusedSectionVars false

namespace Slam.Whole
open Slam.Grid Slam.Cells Slam.Poses Slam.Sensor Slam.Score Slam.ScanAdder Slam.Worlds Slam.Matcher
open Slam.Particle (setObj forEach World positive mulN)

/-! ## Specification -/

/-- The same particles in the same order, the odometry where it was, and the resting particles still resting where they were. -/
structure Kept {M : Type} (s s' : GSt M) : Prop where
  ids : s'.filter.ids = s.filter.ids
  odom : s'.odom = s.odom
  rests : ∀ i ∈ s.filter.ids, Resting (s.filter.heap i) → Resting (s'.filter.heap i) ∧ (s'.filter.heap i).pose = (s.filter.heap i).pose

/-- A point of the scan that is used in matching, whatever the pose: an obstacle within the usable range, not in the scanner itself,
whose number is a multiple of the skip rate. -/
def Sees {M : Type} (cfg : GOwnCfg M) (d : GMsg) : Prop :=
  ∃ scan, ScanOf cfg.slam d.msg scan ∧ ∀ p, ∃ sp ∈ cfg.usable p scan, 0 < sp.range

/-! ## Proofs -/

section
variable {C M : Type} {cfg : Cfg C M}

theorem kept_refl (s : GSt M) : Kept s s := ⟨rfl, rfl, fun _ _ h => ⟨h, rfl⟩⟩

theorem kept_trans {s s' s'' : GSt M} (h : Kept s s') (h' : Kept s' s'') : Kept s s'' where
  ids := h'.ids.trans h.ids
  odom := h'.odom.trans h.odom
  rests i hi hr := by
    obtain ⟨a1, a2⟩ := h.rests i hi hr
    obtain ⟨b1, b2⟩ := h'.rests i (by rw [h.ids]; exact hi) a1
    exact ⟨b1, b2.trans a2⟩

theorem worn_kept {q c : ℝ} {n : Nat} {s s' : GSt M} (hs : Standing s) (h : Worn q n c s s') : Kept s s' where
  ids := h.ids
  odom := h.odom
  rests i hi hr := by
    obtain ⟨a, ha, -⟩ := hs.weighed i hi
    rw [h.rests i hi hr a ha]
    exact ⟨hr, rfl⟩

/-- The matcher is asked only for the particles that are not resting. -/
theorem swap_answers (d d' : GDatum M) (hg : d'.guess = d.guess) (hn : d'.nextSm = d.nextSm) (scan : List ScanPoint) :
    ∀ (ids : List Nat) (h : Nat → World ℝ) (ms : Nat → List (Pose ℝ)) (m : M) (hi : Option Hist), ids.Nodup →
    (∀ i ∈ ids, (h i).tooClose = true ∨ ∀ p m, d'.matcher i scan p m = d.matcher i scan p m) →
    observeEach cfg d' scan ids h ms m hi = observeEach cfg d scan ids h ms m hi
  | [], _, _, _, _, _, _ => rfl
  | i :: is, h, ms, m, hi, hnd, hm => by
    obtain ⟨hn1, hn2⟩ := List.nodup_cons.1 hnd
    have e1 : (h i).handleObservation (d'.env scan m i) = (h i).handleObservation (d.env scan m i) := by
      rcases hm i (by simp) with ht | ht
      · unfold World.handleObservation
        rw [if_pos ht, if_pos ht]
      · have : d'.env scan m i = d.env scan m i := by
          unfold GDatum.env
          rw [hg, hn]
          congr 1
          funext p
          exact ht p m
        rw [this]
    have hset : ∀ w, ∀ j ∈ is, (setObj h i w j).tooClose = true ∨ ∀ p m, d'.matcher j scan p m = d.matcher j scan p m := by
      intro w j hj
      have hji : j ≠ i := fun e => hn1 (e ▸ hj)
      simp only [setObj, hji, if_false]
      exact hm j (by simp [hj])
    simp only [observeEach, e1]
    cases ((h i).handleObservation (d.env scan m i)).2 with
    | none => exact swap_answers d d' hg hn scan is _ _ _ _ hn2 (hset _)
    | some p =>
      simp only
      congr 1
      funext q
      exact swap_answers d d' hg hn scan is _ _ _ _ hn2 (hset _)

/-- A message with the odometry where it was, if no weight is a number afterwards. -/
theorem nan_kept {s s' : GSt M} {d : GDatum M} (hnd : s.filter.ids.Nodup) (hne : s.filter.ids ≠ []) (ho : d.odom = s.odom)
    (hh : s.handle cfg d = some s')
    (hw : ∀ scan H ms m hi, observeEach cfg d scan s.filter.ids s.filter.heap s.filter.maps s.map s.hist = some (H, ms, m, hi) →
      ScanOf cfg d.msg scan → ∃ i ∈ s.filter.ids, (H i).weight = none) :
    AllNaN s' ∧ Kept s s' := by
  simp only [GSt.handle, Option.bind_eq_some_iff, Option.map_eq_some_iff, ho, observer_still, update_still] at hh
  obtain ⟨pts, h1, scan, h2, ⟨H, ms, m, hi⟩, e3, f', e4, rfl⟩ := hh
  have each := observe_each_one d scan _ _ _ _ _ _ hnd e3
  obtain ⟨k, hk, hkn⟩ := hw scan H ms m hi e3 ⟨pts, h1, h2⟩
  simp only at each e4 ⊢
  set f0 : Particle.Filter ℝ := { s.filter with
    heap := H
    maps := ms } with hf0
  have hsum : Particle.sumN f0.weights = none :=
    Particle.sumN_none _ (List.mem_map.2 ⟨_, List.mem_map.2 ⟨k, hk, rfl⟩, hkn⟩)
  have hn0 : ∀ i ∈ s.filter.ids, f0.normalize.heap i = { H i with weight := none } := by
    intro i hi
    change forEach (fun w : World ℝ => { w with weight := Particle.divN w.weight (Particle.sumN f0.weights) }) H s.filter.ids i = _
    rw [Particle.forEach_apply _ _ hnd, if_pos hi, hsum]
    cases (H i).weight <;> rfl
  have hfe : f' = f0.normalize := nan_no_resample (f := f0.normalize) hne (fun i hi => by rw [hn0 i hi]) e4
  subst hfe
  refine ⟨⟨hne, hnd, fun i hi => by simp only; rw [hn0 i hi]⟩, rfl, rfl, fun i hi hr => ?_⟩
  obtain ⟨m', e⟩ := (each i).2 hi
  have hH : H i = s.filter.heap i := by
    rw [e]
    unfold World.handleObservation
    rw [if_pos (resting_too_close.2 hr)]
  simp only
  rw [hn0 i hi, hH]
  exact ⟨hr, rfl⟩

theorem all_nan_kept {s s' : GSt M} {d : GDatum M} (h : AllNaN s) (ho : d.odom = s.odom) (hh : s.handle cfg d = some s') :
    AllNaN s' ∧ Kept s s' := by
  obtain ⟨hne, hnd, hw⟩ := h
  refine nan_kept hnd hne ho hh fun scan H ms m hi e3 _ => ?_
  obtain ⟨i, hi'⟩ := List.exists_mem_of_ne_nil _ hne
  obtain ⟨m', e⟩ := (observe_each_one d scan _ _ _ _ _ _ hnd e3 i).2 hi'
  refine ⟨i, hi', ?_⟩
  simp only at e
  rw [e]
  unfold World.handleObservation
  split
  · exact hw i hi'
  · simp only
    split <;> simp only [hw i hi', mulN_none]

theorem nan_shows_last_from (h : Nat → World ℝ) : ∀ (ids : List Nat), (∀ i ∈ ids, (h i).weight = none) → ∀ b,
    Particle.heaviest h ids b = if ids = [] then b else ids.getLast?
  | [], _, b => by simp [Particle.heaviest]
  | i :: is, hw, b => by
    have hi : ∀ c, Particle.ltN (h i).weight c = false := by intro c; rw [hw i (by simp)]; rfl
    have ih := nan_shows_last_from h is (fun j hj => hw j (by simp [hj])) (some i)
    have e : Particle.heaviest h (i :: is) b = Particle.heaviest h is (some i) := by
      cases b with
      | none => simp only [Particle.heaviest]
      | some b => simp only [Particle.heaviest, hi, Bool.false_eq_true, if_false]
    rw [e, ih]
    cases is with
    | nil => rfl
    | cons j js => simp

/-- If no weight is a number, the last particle is the one shown. -/
theorem nan_shows_last {s : GSt M} (h : AllNaN s) : ∃ l b, s.filter.ids = l ++ [b] ∧ s.pose = some (s.filter.heap b).pose := by
  obtain ⟨hne, -, hw⟩ := h
  refine ⟨s.filter.ids.dropLast, s.filter.ids.getLast hne, (List.dropLast_append_getLast hne).symm, ?_⟩
  simp only [GSt.pose, Particle.Filter.world]
  rw [nan_shows_last_from _ _ hw, if_neg hne, List.getLast?_eq_some_getLast hne]
  rfl

end

section
variable {M : Type} {g : GOwnCfg M} {init : M} {f : ℝ} {w n : Nat}

/-- One message for GMapping with its own matcher, the odometry where it was. -/
theorem gown_still_message (hc : GStarted g init) {s s' : GOwn M} (hs : GSound g init f w n s) {d : GMsg} (hd : SamplesOk n d)
    (ho : d.odom = s.st.odom) (hst : Standing s.st) (h : s.handle g d = some s') :
    (¬ Sees g d ∧ AllNaN s'.st ∧ Kept s.st s'.st) ∨ ∃ d' : GDatum M, Still 1 s.st.odom d' ∧ s.st.handle g.slam d' = some s'.st := by
  obtain ⟨scan, ans, k1, k2, -, -, k5⟩ := gown_message hc hs hd h
  have hz : d.odom.sub s.st.odom = ⟨0, 0, 0⟩ := by rw [ho]; simp [Pose.sub]
  simp only [hz, update_zero] at k5
  by_cases hall : ∀ i ∈ s.st.filter.ids, (s.st.filter.heap i).tooClose = false → ∃ a, (ans i).2 = some a
  · right
    classical
    set ans' : Nat → Delta ℝ × Option ℝ := fun i =>
      if i ∈ s.st.filter.ids ∧ (s.st.filter.heap i).tooClose = false then ans i else ((ans i).1, some 0) with hans
    refine ⟨d.answered ans', ⟨ho, fun i scan p m => ?_⟩, ?_⟩
    · change ∃ a, (ans' i).2 = some a ∧ _
      by_cases hi : i ∈ s.st.filter.ids ∧ (s.st.filter.heap i).tooClose = false
      · obtain ⟨a, ha⟩ := hall i hi.1 hi.2
        obtain ⟨m, g1, g2, -, -, -, hm⟩ := k5 i hi.1 hi.2
        have := hm.unit a ha
        exact ⟨a, by rw [hans]; simp only; rw [if_pos hi, ha], this.1, this.2⟩
      · exact ⟨0, by rw [hans]; simp only; rw [if_neg hi], le_rfl, zero_le_one⟩
    · rw [← k2]
      have key : ∀ sc, observeEach g.slam (d.answered ans') sc s.st.filter.ids s.st.filter.heap s.st.filter.maps s.st.map s.st.hist =
          observeEach g.slam (d.answered ans) sc s.st.filter.ids s.st.filter.heap s.st.filter.maps s.st.map s.st.hist := by
        intro sc
        refine swap_answers (d.answered ans) (d.answered ans') rfl rfl sc _ _ _ _ _ hst.nodup fun i hi => ?_
        cases ht : (s.st.filter.heap i).tooClose with
        | true => exact .inl rfl
        | false =>
          right
          intro p m
          change ans' i = ans i
          rw [hans]
          simp only
          rw [if_pos ⟨hi, ht⟩]
      have ho' : ∀ a : Nat → Delta ℝ × Option ℝ, (d.answered a : GDatum M).odom = s.st.odom := fun _ => ho
      simp only [GSt.handle, ho', observer_still, update_still, key]
      rfl
  · left
    push Not at hall
    obtain ⟨i, hi, hc', hnone⟩ := hall
    have hni : (ans i).2 = none := by
      cases e : (ans i).2 with
      | none => rfl
      | some a => exact absurd e (hnone a)
    obtain ⟨m, g1, g2, -, -, -, hm⟩ := k5 i hi hc'
    refine ⟨?_, ?_⟩
    · rintro ⟨scan', hsc, hsee⟩
      obtain ⟨pts, q1, q2⟩ := hsc
      obtain ⟨pts', r1, r2⟩ := k1
      rw [q1, Option.some.injEq] at r1
      subst r1
      rw [q2, Option.some.injEq] at r2
      subst r2
      obtain ⟨ws, s0, rest, -, -, -, h1, h2, h3, -⟩ := hm
      obtain ⟨sv, e, -⟩ := h1 (h3 (hsee _))
      rw [hni] at e
      cases e
    · refine nan_kept hst.nodup (by obtain ⟨i, hi, -⟩ := hst.some_rests; exact List.ne_nil_of_mem hi) ho k2 ?_
      intro sc H ms m' hi' e3 _
      obtain ⟨m'', e⟩ := (observe_each_one (d.answered ans : GDatum M) sc _ _ _ _ _ _ hst.nodup e3 i).2 hi
      refine ⟨i, hi, ?_⟩
      simp only at e
      rw [e]
      unfold World.handleObservation
      rw [if_neg (by rw [hc']; simp)]
      simp only [GDatum.env, GMsg.answered, hni]
      split <;> rfl

/-- The messages so far have left the weights numbers, or none of them. -/
theorem gown_still_run (hc : GStarted g init) : ∀ (ds : List GMsg) {s s' : GOwn M}, GSound g init f w n s → (∀ d ∈ ds, SamplesOk n d) →
    (∀ d ∈ ds, d.odom = s.st.odom) → (Standing s.st ∨ AllNaN s.st) → s.run g ds = some s' →
    Kept s.st s'.st ∧
      ((AllNaN s'.st ∧ (Standing s.st → ∃ d ∈ ds, ¬ Sees g d)) ∨
        (Standing s.st ∧ ∃ ds' : List (GDatum M), ds'.length = ds.length ∧ (∀ d ∈ ds', Still 1 s.st.odom d) ∧
          s.st.run g.slam ds' = some s'.st))
  | [], s, s', _, _, _, hst, h => by
    simp only [GOwn.run, Option.some.injEq] at h
    subst h
    refine ⟨kept_refl _, ?_⟩
    by_cases h1 : Standing s.st
    · exact .inr ⟨h1, [], rfl, by simp, rfl⟩
    · exact .inl ⟨hst.resolve_left h1, fun h => absurd h h1⟩
  | d :: ds, s, s', hs, hd, ho, hst, h => by
    simp only [GOwn.run, Option.bind_eq_some_iff] at h
    obtain ⟨s1, h1, h2⟩ := h
    obtain ⟨scan, ans, -, k2, -, k4, -⟩ := gown_message hc hs (hd d (by simp)) h1
    have step : Kept s.st s1.st ∧ ((AllNaN s1.st ∧ (Standing s.st → ¬ Sees g d)) ∨ (Standing s.st ∧ Standing s1.st ∧
        ∃ d' : GDatum M, Still 1 s.st.odom d' ∧ s.st.handle g.slam d' = some s1.st)) := by
      by_cases hS : Standing s.st
      · rcases gown_still_message hc hs (hd d (by simp)) (ho d (by simp)) hS h1 with ⟨a1, a2, a3⟩ | ⟨d', b1, b2⟩
        · exact ⟨a3, .inl ⟨a2, fun _ => a1⟩⟩
        · obtain ⟨c, c1, c2⟩ := still_handle le_rfl hS b1 b2
          exact ⟨worn_kept hS c1, .inr ⟨hS, c2, d', b1, b2⟩⟩
      · obtain ⟨a1, a2⟩ := all_nan_kept (d := d.answered ans) (hst.resolve_left hS) (ho d (by simp)) k2
        exact ⟨a2, .inl ⟨a1, fun h => absurd h hS⟩⟩
    obtain ⟨kk, step⟩ := step
    have hrec := gown_still_run hc ds k4 (fun e he => hd e (by simp [he])) (fun e he => by rw [kk.odom]; exact ho e (by simp [he]))
      (by rcases step with h | h; exacts [.inr h.1, .inl h.2.1]) h2
    obtain ⟨r1, r2⟩ := hrec
    refine ⟨kept_trans kk r1, ?_⟩
    rcases step with ⟨a1, a2⟩ | ⟨b1, b2, d', b3, b4⟩
    · left
      have nst : ¬ Standing s1.st := by
        intro hS
        obtain ⟨i, hi, -, a, ha, -⟩ := hS.some_rests
        rw [a1.2.2 i hi] at ha
        cases ha
      rcases r2 with ⟨q1, -⟩ | ⟨q1, -⟩
      · exact ⟨q1, fun hS => ⟨d, by simp, a2 hS⟩⟩
      · exact absurd q1 nst
    · rcases r2 with ⟨q1, q2⟩ | ⟨-, ds', q2, q3, q4⟩
      · left
        refine ⟨q1, fun _ => ?_⟩
        obtain ⟨e, he, hse⟩ := q2 b2
        exact ⟨e, by simp [he], hse⟩
      · refine .inr ⟨b1, d' :: ds', by simp [q2], ?_, ?_⟩
        · intro e he
          rcases List.mem_cons.1 he with rfl | he
          · exact b3
          · have := q3 e he
            rwa [kk.odom] at this
        · simp only [GSt.run, b4, Option.bind_some]
          exact q4

/-- **Standing still with its own matcher (C116).** -/
theorem gmapping_own_still (hc : GStarted g init) {ds : List GMsg} {s s' : GOwn M} (hs : GSound g init f w n s)
    (hd : ∀ d ∈ ds, SamplesOk n d) (ho : ∀ d ∈ ds, d.odom = s.st.odom) (hst : Standing s.st) (h : s.run g ds = some s') :
    Kept s.st s'.st ∧
      ((∃ c, Worn 1 ds.length c s.st s'.st) ∨
        ((∃ d ∈ ds, ¬ Sees g d) ∧ AllNaN s'.st ∧ ∃ l b, s.st.filter.ids = l ++ [b] ∧ s'.st.pose = some (s'.st.filter.heap b).pose)) := by
  obtain ⟨k1, k2⟩ := gown_still_run hc ds hs hd ho (.inl hst) h
  refine ⟨k1, ?_⟩
  rcases k2 with ⟨a1, a2⟩ | ⟨-, ds', b2, b3, b4⟩
  · right
    obtain ⟨l, b, e1, e2⟩ := nan_shows_last a1
    exact ⟨a2 hst, a1, l, b, by rw [← k1.ids, e1], e2⟩
  · left
    obtain ⟨c, c1, -⟩ := gmapping_still zero_le_one le_rfl ds' hst b3 b4
    exact ⟨c, b2 ▸ c1⟩

/-- **The pose shown stands still (C116)**, if every scan has a usable point and no eager particle weighs as much as the heaviest
resting one. -/
theorem gmapping_own_still_shows (hc : GStarted g init) {ds : List GMsg} {s s' : GOwn M} (hs : GSound g init f w n s)
    (hd : ∀ d ∈ ds, SamplesOk n d) (ho : ∀ d ∈ ds, d.odom = s.st.odom) (hst : Standing s.st) (h : s.run g ds = some s')
    (hsee : ∀ d ∈ ds, Sees g d)
    (hless : ∀ e ∈ s.st.filter.ids, Eager (s.st.filter.heap e) → ∀ a, (s.st.filter.heap e).weight = some a →
      ∃ i ∈ s.st.filter.ids, Resting (s.st.filter.heap i) ∧ ∃ b, (s.st.filter.heap i).weight = some b ∧ a < b) :
    ∃ b, LastHeaviest s.st b ∧ s'.st.pose = some (s.st.filter.heap b).pose := by
  obtain ⟨-, k2⟩ := gown_still_run hc ds hs hd ho (.inl hst) h
  rcases k2 with ⟨-, a2⟩ | ⟨-, ds', -, b3, b4⟩
  · obtain ⟨d, hdm, hns⟩ := a2 hst
    exact absurd (hsee d hdm) hns
  · exact gmapping_still_shows zero_le_one le_rfl hst b3 b4 (by simpa using hless)

/-! ### The launch: one particle takes in a scan, the others have not gone far enough -/

/-- The loop, if only particle `i` handles the scan. -/
theorem observe_own_alone (d : GMsg) (scan : List ScanPoint) (i : Nat) (post : List Nat) : ∀ (pre : List Nat) (h : Nat → World ℝ)
    (ms : Nat → List (Pose ℝ)) (m : M) (hi : Option Hist) (mt : GMatch)
    (r : (Nat → World ℝ) × (Nat → List (Pose ℝ)) × M × Option Hist × GMatch), (pre ++ i :: post).Nodup →
    (∀ j ∈ pre ++ post, (h j).tooClose = true) → (h i).tooClose = false → (h i).scanFirst = true →
    observeOwn g d scan (pre ++ i :: post) h ms m hi mt = some r →
    ∃ a mt' ev, g.matching mt scan (h i).pose m = some (mt', a, ev) ∧
      r.1 = setObj h i ((h i).handleObservation ⟨d.guess i, fun _ => a, d.nextSm i⟩).1
  | [], h, ms, m, hi, mt, r, hn, hp, hc, hsf, e => by
    simp only [List.nil_append, observeOwn, hc, Bool.false_eq_true, if_false, startPose, hsf, if_true] at e
    rw [Option.bind_eq_some_iff] at e
    obtain ⟨⟨mt', a, ev⟩, e1, e⟩ := e
    refine ⟨a, mt', ev, e1, ?_⟩
    have quiet : ∀ (is : List Nat) (h' : Nat → World ℝ) ms m hi mt, (∀ j ∈ is, (h' j).tooClose = true) →
        observeOwn g d scan is h' ms m hi mt = some r → r.1 = h' := by
      intro is
      induction is with
      | nil =>
        intro h' ms m hi mt _ e
        simp only [observeOwn, Option.some.injEq] at e
        rw [← e]
      | cons k is ih =>
        intro h' ms m hi mt hq e
        simp only [observeOwn, hq k (by simp), if_true] at e
        exact ih h' _ _ _ _ (fun j hj => hq j (by simp [hj])) e
    have hq : ∀ w, ∀ j ∈ post, (setObj h i w j).tooClose = true := by
      intro w j hj
      have hji : j ≠ i := fun he => (List.nodup_cons.1 hn).1 (he ▸ hj)
      simp only [setObj, hji, if_false]
      exact hp j (by simpa using hj)
    split at e
    · exact quiet post _ _ _ _ _ (hq _) e
    · rw [Option.bind_eq_some_iff] at e
      obtain ⟨q, -, e⟩ := e
      exact quiet post _ _ _ _ _ (hq _) e
  | j :: pre, h, ms, m, hi, mt, r, hn, hp, hc, hsf, e => by
    simp only [List.cons_append, observeOwn, hp j (by simp), if_true] at e
    exact observe_own_alone d scan i post pre h ms m hi mt r (List.nodup_cons.1 hn).2 (fun k hk => hp k (by
      simp only [List.cons_append, List.mem_cons]
      exact .inr hk)) hc hsf e

/-- **From the launch on (C116).** Nothing has been handled by any of at least two particles; a message comes with which the way
reaches the step of particle `i` only; the scan has a usable point. Then nothing is resampled, all particles are where the odometry
says, particle `i` has no weight at all, and the state is one in which the robot may stand still. -/
theorem gmapping_one_ahead {steps : List (Delta ℝ)} {hist : Option Hist} (hc : GStarted g init) (hz : g.rnd 0 = 0) (hf : -1 < f)
    (hn : 2 ≤ steps.length) {o : Pose ℝ} {t : Delta ℝ} (ht : 0 ≤ t.theta) {s s' : GOwn M} (h : Cold steps init hist o t s.st)
    (hm : GMatchOk f w s.matcher) (hl : lastOf s.matcher.pe = none) {d : GMsg} {t' : Delta ℝ}
    (ht' : t' = ⟨t.x + |d.odom.x - o.x|, t.y + |d.odom.y - o.y|, t.theta + |d.odom.theta - o.theta|⟩)
    {i : Nat} (hi : ∃ step, steps[i]? = some step ∧ ¬ Short t' step)
    (hothers : ∀ j, j ≠ i → ∀ step, steps[j]? = some step → Short t' step)
    (hsee : Sees g d) (hnext : 0 < (d.nextSm i).x ^ 2 + (d.nextSm i).y ^ 2 ∧ 0 < (d.nextSm i).theta) (hh : s.handle g d = some s') :
    Standing s'.st ∧ s'.st.odom = d.odom ∧ s'.st.filter.ids = List.range steps.length ∧
      (∀ j < steps.length, (s'.st.filter.heap j).pose = d.odom) ∧ (s'.st.filter.heap i).weight = some 0 ∧
      (∀ j < steps.length, j ≠ i → Resting (s'.st.filter.heap j) ∧ (s'.st.filter.heap j).weight = some (1 / ((steps.length : ℝ) - 1))) := by
  obtain ⟨step, hs1, hs2⟩ := hi
  obtain ⟨hin, -⟩ := List.getElem?_eq_some_iff.1 hs1
  have hn' : (2 : ℝ) ≤ steps.length := by exact_mod_cast hn
  simp only [GOwn.handle, Option.bind_eq_some_iff, Option.map_eq_some_iff] at hh
  obtain ⟨pts, e0, scan, e2, r, e3, f', e4, rfl⟩ := hh
  have hmov := fun i hi => cold_moved h d.odom (i := i) hi
  simp only at hmov
  have hids : (s.st.filter.updatePose Real.sin Real.cos (observerStep s.st.odom d.odom).2).ids = List.range steps.length := h.ids
  set fu := s.st.filter.updatePose Real.sin Real.cos (observerStep s.st.odom d.odom).2 with hfu
  have close : ∀ j < steps.length, ((fu.heap j).tooClose = true ↔ Short t' (fu.heap j).nextSm) := by
    intro j hj
    exact short_too_close ((hmov j hj).2.2.1.trans ht'.symm) rfl (by rw [ht']; positivity)
  have closeO : ∀ j < steps.length, j ≠ i → (fu.heap j).tooClose = true := by
    intro j hj hji
    rw [close j hj]
    exact hothers j hji _ (hmov j hj).2.2.2.1.symm
  have hsplit : List.range steps.length = List.range i ++ i :: (List.range (steps.length - i - 1)).map (· + (i + 1)) := by
    have : steps.length = i + ((steps.length - i - 1) + 1) := by omega
    conv_lhs => rw [this]
    rw [List.range_add, List.range_succ_eq_map, List.map_cons, List.map_map]
    congr 2
    apply List.map_congr_left
    intro x _
    simp only [Function.comp_apply]
    omega
  have hnd : (List.range i ++ i :: (List.range (steps.length - i - 1)).map (· + (i + 1))).Nodup := by
    rw [← hsplit]
    exact List.nodup_range
  obtain ⟨b1, -, -, b4, b5, b6, b7⟩ := hmov i hin
  have hci : (fu.heap i).tooClose = false := by
    rw [Bool.eq_false_iff, Ne, close i hin]
    rw [hs1, Option.some.injEq] at b4
    rw [b4]
    exact hs2
  rw [hids, hsplit] at e3
  obtain ⟨a, mt', ev, k1, k2⟩ := observe_own_alone d scan i _ (List.range i) fu.heap fu.maps s.st.map s.st.hist s.matcher r hnd (by
      intro j hj
      rw [List.mem_append, List.mem_range, List.mem_map] at hj
      rcases hj with hj | ⟨x, hx, rfl⟩
      · exact closeO j (by omega) (by omega)
      · rw [List.mem_range] at hx
        exact closeO _ (by omega) (by omega)) hci b5 e3
  rw [b1] at k1
  obtain ⟨isM, -⟩ := gm_matching_is_match hc ⟨[], by rw [h.map]; rfl, sane_nil⟩ hm (scanOf_polar e2) k1
  rw [h.map] at isM
  obtain ⟨q1, q2⟩ := blank_match hc hz hf hl isM
  have ha2 : a.2 = some 0 := by
    rcases q2 with e | e
    · exact e
    · exfalso
      obtain ⟨scan', ⟨pts', p1, p2⟩, hsee⟩ := hsee
      rw [e0, Option.some.injEq] at p1
      subst p1
      rw [e2, Option.some.injEq] at p2
      subst p2
      obtain ⟨ws, s0, rest, -, -, -, h1, -, h3, -⟩ := isM
      obtain ⟨sv, e', -⟩ := h1 (h3 (hsee _))
      rw [e] at e'
      cases e'
  set W := ((fu.heap i).handleObservation ⟨d.guess i, fun _ => a, d.nextSm i⟩).1 with hW
  have hWe : W.pose = d.odom ∧ W.weight = some 0 ∧ W.deltaSince = ⟨0, 0, 0⟩ ∧
      ((W.noisy = false ∧ W.nextSm = ⟨0, 0, 0⟩) ∨ W.nextSm = d.nextSm i) := by
    rw [hW]
    unfold World.handleObservation
    rw [if_neg (by rw [hci]; simp)]
    simp only [b5, if_true, b1, q1, ha2, b7, mulN, zero_mul, true_and]
    cases (fu.heap i).noisy <;> simp
  obtain ⟨w1, w2, w3, w4⟩ := hWe
  have hWr : Resting W ∨ Eager W := by
    rcases w4 with w4 | w4
    · exact .inr w4
    · left
      unfold Resting
      rw [w3, w4]
      norm_num
      exact hnext
  set f0 : Particle.Filter ℝ := { fu with
    heap := r.1
    maps := r.2.1 } with hf0
  set x : ℝ := 1 / (steps.length : ℝ) with hx
  have hxp : 0 < x := by rw [hx]; positivity
  set ws : List ℝ := (List.range steps.length).map fun j => if j = i then 0 else x with hws
  have sums : ∀ y : ℝ, ((List.range steps.length).map fun j => if j = i then 0 else y).sum = (steps.length - 1) * y := by
    intro y
    have e1 : ((List.range steps.length).map fun j => if j = i then (0 : ℝ) else y).sum =
        ∑ j ∈ Finset.range steps.length, (y - if j = i then y else 0) := by
      rw [Finset.sum_range, ← List.sum_ofFn, List.ofFn_eq_map, ← List.map_coe_finRange_eq_range, List.map_map]
      congr 1
      apply List.map_congr_left
      intro j _
      simp only [Function.comp_apply]
      split <;> simp
    rw [e1, Finset.sum_sub_distrib, Finset.sum_const, Finset.sum_ite_eq', if_pos (Finset.mem_range.2 hin), Finset.card_range, nsmul_eq_mul]
    ring
  have hT : ws.sum = (steps.length - 1) * x := sums x
  have hTp : 0 < ws.sum := by
    rw [hT]
    have : (0 : ℝ) < steps.length - 1 := by linarith
    positivity
  have hheap : ∀ j < steps.length, r.1 j = if j = i then W else fu.heap j := by
    intro j hj
    rw [k2]
    rfl
  have hweights : f0.weights = ws.map some := by
    change (fu.ids.map r.1).map World.weight = _
    rw [hids, hws, List.map_map, List.map_map]
    apply List.map_congr_left
    intro j hj
    have hj' := List.mem_range.1 hj
    simp only [Function.comp_apply, hheap j hj']
    by_cases hji : j = i
    · rw [if_pos hji, if_pos hji, w2]
    · rw [if_neg hji, if_neg hji, (hmov j hj').2.2.2.2.2.2]
  have hnorm : ∀ j < steps.length, f0.normalize.heap j = { r.1 j with weight := some ((if j = i then 0 else x) / ws.sum) } := by
    intro j hj
    change forEach (fun v : World ℝ => { v with weight := Particle.divN v.weight (Particle.sumN f0.weights) }) r.1 f0.ids j = _
    rw [Particle.forEach_apply _ _ (by change fu.ids.Nodup; rw [hids]; exact List.nodup_range),
      if_pos (by change j ∈ fu.ids; rw [hids]; exact List.mem_range.2 hj), hweights, Particle.sumN_some]
    have hwj : (r.1 j).weight = some (if j = i then 0 else x) := by
      rw [hheap j hj]
      by_cases hji : j = i
      · rw [if_pos hji, if_pos hji, w2]
      · rw [if_neg hji, if_neg hji, (hmov j hj).2.2.2.2.2.2]
    simp only [hwj, Particle.divN, if_neg hTp.ne']
  have hxT : x / ws.sum = 1 / ((steps.length : ℝ) - 1) := by
    rw [hT]
    have h1 : (0 : ℝ) < steps.length - 1 := by linarith
    field_simp
  have hreq : Particle.resamplingRequired f0.normalize.weights = false := by
    have e : f0.normalize.weights = (ws.map fun w => w / ws.sum).map some := by
      change (fu.ids.map f0.normalize.heap).map World.weight = _
      rw [hids, List.map_map]
      conv_rhs => rw [hws, List.map_map, List.map_map]
      apply List.map_congr_left
      intro j hj
      simp only [Function.comp_apply, hnorm j (List.mem_range.1 hj)]
      rfl
    rw [e]
    refine even_never_resamples ws ?_ ?_ hTp
    · intro v hv
      obtain ⟨j, -, rfl⟩ := List.mem_map.1 hv
      split
      · exact le_rfl
      · exact hxp.le
    · intro v hv
      obtain ⟨j, -, rfl⟩ := List.mem_map.1 hv
      rw [hT]
      simp only [hws, List.length_map, List.length_range]
      split
      · have : (0 : ℝ) < steps.length - 1 := by linarith
        nlinarith [mul_pos this hxp]
      · nlinarith
  have hf' : f' = f0.normalize := by
    unfold Particle.Filter.gTryResample at e4
    split at e4
    · exact (Option.some.inj e4).symm
    · simp only [Particle.Filter.tryResample, hreq, Bool.not_false, if_true, Option.bind_some] at e4
      exact (Option.some.inj e4).symm
  subst hf'
  have hmain : ∀ j < steps.length, f0.normalize.heap j =
      { (if j = i then W else fu.heap j) with weight := some (if j = i then 0 else 1 / ((steps.length : ℝ) - 1)) } := by
    intro j hj
    rw [hnorm j hj, hheap j hj]
    by_cases hji : j = i
    · simp [hji]
    · simp only [if_neg hji, hxT]
  have hrestO : ∀ j < steps.length, j ≠ i → Resting (f0.normalize.heap j) ∧
      (f0.normalize.heap j).weight = some (1 / ((steps.length : ℝ) - 1)) := by
    intro j hj hji
    rw [hmain j hj]
    simp only [if_neg hji]
    exact ⟨resting_too_close.1 (closeO j hj hji), trivial⟩
  have hi0 : f0.normalize.heap i = { W with weight := some 0 } := by
    rw [hmain i hin]
    simp
  have hidn : f0.normalize.ids = List.range steps.length := hids
  have hpos : (0 : ℝ) < 1 / ((steps.length : ℝ) - 1) := by
    have : (0 : ℝ) < steps.length - 1 := by linarith
    positivity
  have hwt : ∀ j < steps.length, (f0.normalize.heap j).weight = some (if j = i then 0 else 1 / ((steps.length : ℝ) - 1)) := by
    intro j hj
    rw [hmain j hj]
  refine ⟨⟨?_, .inr ?_, ?_, ?_, ?_⟩, ?_, hids, ?_, ?_, hrestO⟩
  · change f0.normalize.ids.Nodup
    rw [hidn]
    exact List.nodup_range
  · classical
    have hrw : restWeight (M := M) ⟨(observerStep s.st.odom d.odom).1, f0.normalize, r.2.2.1, r.2.2.2.1⟩ = 1 := by
      unfold restWeight
      change (f0.normalize.ids.map fun j => if Resting (f0.normalize.heap j) then (f0.normalize.heap j).weight.getD 0 else 0).sum = _
      rw [hidn]
      have : ((List.range steps.length).map fun j => if Resting (f0.normalize.heap j) then (f0.normalize.heap j).weight.getD 0 else 0) =
          (List.range steps.length).map fun j => if j = i then 0 else 1 / ((steps.length : ℝ) - 1) := by
        apply List.map_congr_left
        intro j hj
        have hj' := List.mem_range.1 hj
        by_cases hji : j = i
        · rw [if_pos hji, hwt j hj', if_pos hji]
          simp
        · rw [if_neg hji, if_pos (hrestO j hj' hji).1, (hrestO j hj' hji).2]
          rfl
      rw [this, sums]
      have h1 : (0 : ℝ) < steps.length - 1 := by linarith
      field_simp
    rw [hrw]
    intro j hj v hv
    change j ∈ f0.normalize.ids at hj
    change (f0.normalize.ids.length : ℝ) * v ≤ _
    rw [hidn] at hj ⊢
    rw [hwt j (List.mem_range.1 hj), Option.some.injEq] at hv
    rw [List.length_range, ← hv]
    split
    · norm_num
    · have h1 : (0 : ℝ) < steps.length - 1 := by linarith
      rw [mul_one_div, div_le_iff₀ h1]
      linarith
  · intro j hj
    change j ∈ f0.normalize.ids at hj
    rw [hidn] at hj
    by_cases hji : j = i
    · subst hji
      simp only
      rw [hi0]
      exact hWr
    · exact .inl (hrestO j (List.mem_range.1 hj) hji).1
  · intro j hj
    change j ∈ f0.normalize.ids at hj
    rw [hidn] at hj
    refine ⟨_, hwt j (List.mem_range.1 hj), ?_⟩
    split
    · exact le_rfl
    · exact hpos.le
  · obtain ⟨j, hj, hji⟩ : ∃ j < steps.length, j ≠ i := by
      by_cases h0 : i = 0
      · exact ⟨1, by omega, by omega⟩
      · exact ⟨0, by omega, by omega⟩
    refine ⟨j, ?_, (hrestO j hj hji).1, _, (hrestO j hj hji).2, hpos⟩
    change j ∈ f0.normalize.ids
    rw [hidn]
    exact List.mem_range.2 hj
  · rfl
  · intro j hj
    simp only
    rw [hmain j hj]
    by_cases hji : j = i
    · simp only [if_pos hji]
      exact w1
    · simp only [if_neg hji]
      exact (hmov j hj).1
  · simp only
    rw [hi0]

/-- Since then, however long the robot stands there, GMapping shows exactly what the odometry says. -/
theorem gmapping_one_ahead_shows {steps : List (Delta ℝ)} {hist : Option Hist} (hc : GStarted g init) (hz : g.rnd 0 = 0) (hf : -1 < f)
    (hn : 2 ≤ steps.length) {o : Pose ℝ} {t : Delta ℝ} (ht : 0 ≤ t.theta) {s s' : GOwn M} (h : Cold steps init hist o t s.st)
    (hs : GSound g init f w n s) (hl : lastOf s.matcher.pe = none) {d : GMsg} (hd : SamplesOk n d) {t' : Delta ℝ}
    (ht' : t' = ⟨t.x + |d.odom.x - o.x|, t.y + |d.odom.y - o.y|, t.theta + |d.odom.theta - o.theta|⟩)
    {i : Nat} (hi : ∃ step, steps[i]? = some step ∧ ¬ Short t' step)
    (hothers : ∀ j, j ≠ i → ∀ step, steps[j]? = some step → Short t' step)
    (hsee : Sees g d) (hnext : 0 < (d.nextSm i).x ^ 2 + (d.nextSm i).y ^ 2 ∧ 0 < (d.nextSm i).theta) (hh : s.handle g d = some s')
    {es : List GMsg} (hes : ∀ e ∈ es, SamplesOk n e ∧ e.odom = d.odom ∧ Sees g e) {s'' : GOwn M} (h' : s'.run g es = some s'') :
    s''.st.pose = some d.odom := by
  obtain ⟨k1, k2, k3, k4, k5, k6⟩ := gmapping_one_ahead hc hz hf hn ht h hs.matcher hl ht' hi hothers hsee hnext hh
  obtain ⟨scan, ans, -, -, -, hs', -⟩ := gown_message hc hs hd hh
  obtain ⟨step, hs1, -⟩ := hi
  obtain ⟨hin, -⟩ := List.getElem?_eq_some_iff.1 hs1
  have hn' : (2 : ℝ) ≤ steps.length := by exact_mod_cast hn
  have hpos : (0 : ℝ) < 1 / ((steps.length : ℝ) - 1) := by
    have : (0 : ℝ) < steps.length - 1 := by linarith
    positivity
  obtain ⟨j, hj, hji⟩ : ∃ j < steps.length, j ≠ i := by
    by_cases h0 : i = 0
    · exact ⟨1, by omega, by omega⟩
    · exact ⟨0, by omega, by omega⟩
  obtain ⟨b, hb, hp⟩ := gmapping_own_still_shows hc hs' (fun e he => (hes e he).1) (fun e he => by rw [k2]; exact (hes e he).2.1) k1 h'
    (fun e he => (hes e he).2.2) (by
      intro e he hee a ha
      rw [k3, List.mem_range] at he
      have hei : e = i := by
        by_contra hne
        exact eager_not_resting hee (k6 e he hne).1
      subst hei
      rw [k5, Option.some.injEq] at ha
      subst ha
      exact ⟨j, by rw [k3]; exact List.mem_range.2 hj, (k6 j hj hji).1, _, (k6 j hj hji).2, hpos⟩)
  rw [hp]
  obtain ⟨l, r, e, -⟩ := hb
  have hbm : b ∈ s'.st.filter.ids := by rw [e]; simp
  rw [k3, List.mem_range] at hbm
  rw [k4 b hbm]

end

/-! ## GMapping as started -/

section
variable {stod : Config.Str → Option ℝ} {env : Env} {rnd : ℝ → ℝ} {draws : Config.GmappingParams ℝ → Nat → Delta ℝ} {t : Config.Table}

/-- **The started GMapping, one particle ahead of the others (C116).** The odometry has reached the step of particle `i` only, with a
message whose scan has a usable point; then the robot stands there. GMapping shows exactly what the odometry says. -/
theorem launched_one_ahead (hrnd : ∀ x, Unit01 x → Unit01 (rnd x)) (hz : rnd 0 = 0) {w : Config.World ℝ} {p : Config.GmappingParams ℝ}
    {n : Nat} (hw : Config.initGmapping stod t = some (w, p, n)) (h : GSensible w n) (hn : 2 ≤ n) {P : GProgram}
    (hP : launchGmapping stod env rnd draws t = some P) (hf : -1 < P.start.matcher.pe.fullness)
    (ds : List GMsg) (hs : ∀ d ∈ ds, ∃ scan, ScanOf P.cfg.slam d.msg scan)
    (hshort : ∀ k < n, Short (gone ⟨0, 0, 0⟩ (ds.map GMsg.odom)) (draws p k)) (d : GMsg) {i : Nat} (hi : i < n)
    (hreach : ¬ Short (gone ⟨0, 0, 0⟩ ((ds ++ [d]).map GMsg.odom)) (draws p i))
    (hothers : ∀ j < n, j ≠ i → Short (gone ⟨0, 0, 0⟩ ((ds ++ [d]).map GMsg.odom)) (draws p j))
    (hsee : Sees P.cfg d) (hnext : 0 < (d.nextSm i).x ^ 2 + (d.nextSm i).y ^ 2 ∧ 0 < (d.nextSm i).theta)
    (es : List GMsg) (hsam : ∀ e ∈ ds ++ [d] ++ es, SamplesOk n e) (hes : ∀ e ∈ es, e.odom = d.odom ∧ Sees P.cfg e)
    {s2 : GOwn (AnyMap (GmCell ℝ))} (hrun : P.start.run P.cfg (ds ++ [d] ++ es) = some s2) :
    s2.st.pose = some d.odom := by
  obtain ⟨P', hP', hA, hst, hsd, hg, -, -⟩ := gmapping_launches (env := env) (draws := draws) hrnd hw h
  rw [hP, Option.some.injEq] at hP'
  subst hP'
  have hcz : P.cfg.rnd = rnd := by
    have hspec := (Config.gmapping_as_configured (stod := stod) t w p n).1 hw
    obtain ⟨f, win, ho, -⟩ := hspec.oope
    unfold launchGmapping at hP
    simp only [hw, Option.bind_some, hspec.matcher.1, ho, Option.bind_eq_some_iff, Option.map_eq_some_iff] at hP
    obtain ⟨m, -, st, -, rfl⟩ := hP
    rfl
  have happ : ∀ (a b : List GMsg) (s s' : GOwn (AnyMap (GmCell ℝ))), s.run P.cfg (a ++ b) = some s' →
      ∃ s1, s.run P.cfg a = some s1 ∧ s1.run P.cfg b = some s' := by
    intro a
    induction a with
    | nil => intro b s s' e; exact ⟨s, rfl, e⟩
    | cons x a ih =>
      intro b s s' e
      simp only [List.cons_append, GOwn.run, Option.bind_eq_some_iff] at e ⊢
      obtain ⟨sx, e1, e2⟩ := e
      obtain ⟨s1, q1, q2⟩ := ih b sx s' e2
      exact ⟨s1, ⟨sx, e1, q1⟩, q2⟩
  obtain ⟨s1, hrun1, hrun2⟩ := happ _ _ _ _ hrun
  have hlen : ((List.range n).map (draws p)).length = n := by simp
  have hn0 : 0 < ((List.range n).map (draws p)).length := by rw [hlen]; omega
  have hc := cold_start_state hg
  obtain ⟨s0, k1, k2, k3⟩ := cold_own_run (g := P.cfg) hn0 ds (by simp) hc hs _ rfl (by
    intro step hstep
    simp only [List.mem_map, List.mem_range] at hstep
    obtain ⟨k, hk, rfl⟩ := hstep
    simpa using hshort k hk)
  obtain ⟨s0', q1, q2⟩ := gown_run_snoc P.cfg ds d _ _ hrun1
  rw [k1, Option.some.injEq] at q1
  subst q1
  obtain ⟨g1, g2, g3⟩ := gone_nonneg (ds.map GMsg.odom) ⟨0, 0, 0⟩
  simp only [List.map_append, List.map_cons, List.map_nil, gone_append] at hreach hothers
  obtain ⟨hsd0, -⟩ := gown_run_is_run hst ds (fun e hm => hsam e (by simp [hm])) hsd k1
  exact gmapping_one_ahead_shows hst (by rw [hcz]; exact hz) hf (by rw [hlen]; exact hn) (i := i) (by simpa using g3) k2 hsd0
    (by rw [k3]; exact hA.fresh) (hsam d (by simp)) rfl ⟨draws p i, by simp [hi], by simpa using hreach⟩ (fun j hji step hstep => by
      have hjn : j < n := by
        obtain ⟨hj, -⟩ := List.getElem?_eq_some_iff.1 hstep
        simpa using hj
      rw [List.getElem?_map, List.getElem?_range hjn, Option.map_some, Option.some.injEq] at hstep
      subst hstep
      simpa using hothers j hjn hji) hsee hnext q2 (fun e he => ⟨hsam e (by simp [he]), (hes e he).1, (hes e he).2⟩) hrun2

end

end Slam.Whole
