import Verif.Whole.Gmapping
import Verif.Whole.Total
import Verif.Particle.Noise

/-!
# Properties of the whole GMapping (C81)
-/

set_option autoImplicit false
set_option linter.unusedSectionVars false

namespace Slam.Whole
open Slam.Grid Slam.Cells Slam.Poses Slam.Sensor Slam.Score Slam.ScanAdder Slam.Worlds Slam.Line Slam.Tbm
open Slam.Particle (Env setObj observeAll Reach)

variable {C M : Type}

/-! ## Specification -/

/-- A message as the hardware and the scan matcher give it: probabilities are not negative (or NaN), the resampler's random
numbers are as many as particles and within `[0, 1)`. -/
def Plausible (n : Nat) (d : GDatum M) : Prop :=
  (∀ i scan p m a, (d.matcher i scan p m).2 = some a → 0 ≤ a) ∧ d.samples.length = n ∧ ∀ s ∈ d.samples, 0 ≤ s ∧ s < 1

/-- What was put into the map: the pose, the scan, and the updates made of it, in order. -/
structure Entry where
  pose : Poses.Pose ℝ
  scan : List ScanPoint
  updates : List (Coord × Aoo ℝ)

/-- The updates of an entry are those the scan adder makes of the scan at the pose, with quality 1 and no margin. -/
def Entry.Ok (cfg : Cfg C M) (e : Entry) : Prop := Inserted cfg e.pose e.scan 1 0 e.updates

/-- All updates of a log, in order. -/
def allUpdates (log : List Entry) : List (Coord × Aoo ℝ) := log.flatMap Entry.updates

/-- What a particle met: the sampled values of the message, and the matcher on a map that is a later state of `m0`. -/
def Met (api : MapApi C M) (d : GDatum M) (scan : List ScanPoint) (m0 : M) (i : Nat) (e : Env ℝ) : Prop :=
  e.guess = d.guess i ∧ e.nextSm = d.nextSm i ∧ ∃ m, Told api m0 m ∧ ∀ p, e.matcher p = d.matcher i scan p m

/-! ## One message -/

theorem observeAll_congr (env env' : Nat → Env ℝ) (ids : List Nat) (h : Nat → Particle.World ℝ) (ms : Nat → List (Poses.Pose ℝ))
    (he : ∀ i ∈ ids, env i = env' i) : observeAll env ids h ms = observeAll env' ids h ms := by
  induction ids generalizing h ms with
  | nil => rfl
  | cons i ids ih =>
    simp only [observeAll]
    rw [he i (by simp)]
    exact ih _ _ fun j hj => he j (by simp [hj])

theorem told_trans {api : MapApi C M} {a b c : M} (h1 : Told api a b) (h2 : Told api b c) : Told api a c := by
  obtain ⟨us, h1⟩ := h1
  obtain ⟨vs, h2⟩ := h2
  exact ⟨us ++ vs, by rw [tellAll_append, h1]; exact h2⟩

theorem told_refl (api : MapApi C M) (m : M) : Told api m m := ⟨[], rfl⟩

/-- The loop over the particles is the loop of the abstract filter, with what each particle met; and it puts scans into the
map at the poses the abstract filter notes. -/
theorem observeEach_spec (cfg : Cfg C M) (d : GDatum M) (scan : List ScanPoint) (ids : List Nat) :
    ∀ (h : Nat → Particle.World ℝ) (ms : Nat → List (Poses.Pose ℝ)) (m : M) (hist : Option Hist)
      (r : (Nat → Particle.World ℝ) × (Nat → List (Poses.Pose ℝ)) × M × Option Hist), ids.Nodup → (∀ i ∈ ids, (h i).mapRef = 0) →
    observeEach cfg d scan ids h ms m hist = some r →
    ∃ (env : Nat → Env ℝ) (log : List Entry), (∀ i, Met cfg.api d scan m i (env i)) ∧
      observeAll env ids h ms = (r.1, r.2.1) ∧
      (∀ e ∈ log, e.Ok cfg ∧ e.scan = scan) ∧ r.2.1 0 = (log.map Entry.pose).reverse ++ ms 0 ∧
      cfg.api.tellAll m (allUpdates log) = some r.2.2.1 := by
  induction ids with
  | nil =>
    intro h ms m hist r _ _ hr
    simp only [observeEach, Option.some.injEq] at hr
    subst hr
    exact ⟨d.env scan m, [], fun i => ⟨rfl, rfl, m, told_refl _ _, fun p => rfl⟩, rfl, by simp, by simp, rfl⟩
  | cons i ids ih =>
    intro h ms m hist r hd hz hr
    rw [List.nodup_cons] at hd
    have hz' : ∀ w : Particle.World ℝ, ∀ j ∈ ids, (setObj h i w j).mapRef = 0 := by
      intro w j hj
      have : j ≠ i := fun e => hd.1 (e ▸ hj)
      rw [setObj, if_neg this]
      exact hz j (by simp [hj])
    simp only [observeEach] at hr
    set q := (h i).handleObservation (d.env scan m i) with hq
    cases hq2 : q.2 with
    | none =>
      rw [hq2] at hr
      simp only at hr
      obtain ⟨env, log, e1, e2, e3, e4, e5⟩ := ih _ _ _ _ _ hd.2 (hz' q.1) hr
      refine ⟨fun j => if j = i then d.env scan m i else env j, log, ?_, ?_, e3, e4, e5⟩
      · intro j
        by_cases hj : j = i
        · simp only [hj, if_true]; exact ⟨rfl, rfl, m, told_refl _ _, fun p => rfl⟩
        · simp only [hj, if_false]; exact e1 j
      · simp only [observeAll, if_true, ← hq, hq2]
        rw [← e2]
        refine observeAll_congr _ _ _ _ _ fun j hj => ?_
        have : j ≠ i := fun e => hd.1 (e ▸ hj)
        simp [this]
    | some p =>
      rw [hq2] at hr
      simp only [Option.bind_eq_some_iff] at hr
      obtain ⟨a, ha, hr⟩ := hr
      obtain ⟨us, u1, u2⟩ := append_spec ha
      obtain ⟨env, log, e1, e2, e3, e4, e5⟩ := ih _ _ _ _ _ hd.2 (hz' q.1) hr
      refine ⟨fun j => if j = i then d.env scan m i else env j, ⟨p, scan, us⟩ :: log, ?_, ?_, ?_, ?_, ?_⟩
      · intro j
        by_cases hj : j = i
        · simp only [hj, if_true]; exact ⟨rfl, rfl, m, told_refl _ _, fun p => rfl⟩
        · simp only [hj, if_false]
          obtain ⟨f1, f2, m', f3, f4⟩ := e1 j
          exact ⟨f1, f2, m', told_trans ⟨us, u2⟩ f3, f4⟩
      · simp only [observeAll, if_true, ← hq, hq2]
        rw [← e2]
        refine observeAll_congr _ _ _ _ _ fun j hj => ?_
        have : j ≠ i := fun e => hd.1 (e ▸ hj)
        simp [this]
      · intro e he
        rcases List.mem_cons.1 he with rfl | he
        · exact ⟨u1, rfl⟩
        · exact e3 e he
      · rw [e4, hz i (by simp)]
        simp
      · simp only [allUpdates, List.flatMap_cons]
        rw [tellAll_append, u2]
        exact e5

theorem gTryResample_maps (f g : Particle.Filter ℝ) (samples : List ℝ) (h : f.gTryResample samples = some g) : g.maps = f.maps := by
  unfold Particle.Filter.gTryResample at h
  by_cases ht : (decide (f.traversed.sqDist ≤ 1 / 2) && decide (f.traversed.theta ≤ 1 / 5)) = true
  · rw [if_pos ht, Option.some.injEq] at h
    rw [← h]
  · rw [if_neg ht, Option.bind_eq_some_iff] at h
    obtain ⟨⟨done, f'⟩, h1, h2⟩ := h
    have hf' : f'.maps = f.maps := by
      unfold Particle.Filter.tryResample at h1
      by_cases hr : (!Particle.resamplingRequired f.weights) = true
      · rw [if_pos hr, Option.some.injEq, Prod.mk.injEq] at h1
        rw [← h1.2]
      · rw [if_neg hr, Option.map_eq_some_iff] at h1
        obtain ⟨⟨ids, hp, nx⟩, -, h3⟩ := h1
        simp only [Prod.mk.injEq] at h3
        rw [← h3.2]
        rfl
    cases done with
    | false =>
      simp only [Bool.false_eq_true, if_false, Option.some.injEq] at h2
      rw [← h2, hf']
    | true =>
      simp only [if_true] at h2
      unfold Particle.Filter.ensureMaster at h2
      by_cases ha : (Particle.Filter.particles { f' with traversed := ⟨0, 0, 0⟩ }).any Particle.World.master = true
      · rw [if_pos ha, Option.some.injEq] at h2
        rw [← h2, ← hf']
      · rw [if_neg ha, Option.map_eq_some_iff] at h2
        obtain ⟨i, -, h3⟩ := h2
        rw [← h3, ← hf']

/-- **One message (C81).** The filter inside the program does what the filter alone (C35 – C41, C55 – C57) does for the odometry
increment, with the sampled noise and the matcher's answers on the map as it was when each particle's turn came; the map is
told what the scan adder makes of the scan at the poses of the particles that put it there, in their order. -/
theorem message_effect {cfg : Cfg C M} {n : Nat} {s s' : GSt M} {d : GDatum M} (hr : Reach Real.sin Real.cos n s.filter)
    (h : s.handle cfg d = some s') :
    ∃ scan env log, ScanOf cfg d.msg scan ∧ (∀ i, Met cfg.api d scan s.map i (env i)) ∧
      s.filter.handle Real.sin Real.cos (d.odom.sub s.odom) env d.samples = some s'.filter ∧
      s'.odom = d.odom ∧ (∀ e ∈ log, e.Ok cfg ∧ e.scan = scan) ∧
      s'.filter.maps 0 = (log.map Entry.pose).reverse ++ s.filter.maps 0 ∧
      cfg.api.tellAll s.map (allUpdates log) = some s'.map := by
  obtain ⟨hi, hn⟩ := Particle.reach_inv _ _ _ _ hr
  unfold GSt.handle at h
  simp only [Option.bind_eq_some_iff, Option.map_eq_some_iff] at h
  obtain ⟨pts, h1, scan, h2, r, h3, f', h4, rfl⟩ := h
  have hd : observerStep s.odom d.odom = (d.odom, d.odom.sub s.odom) := rfl
  rw [hd] at h3 h4
  simp only at h3 h4
  obtain ⟨env, log, e1, e2, e3, e4, e5⟩ := observeEach_spec cfg d scan _ _ _ _ _ _ (show (s.filter.updatePose Real.sin Real.cos (d.odom.sub s.odom)).ids.Nodup from hi.nodup)
    (by
      intro i him
      have him : i ∈ s.filter.ids := him
      unfold Particle.Filter.updatePose
      simp only
      rw [Particle.forEach_apply _ _ hi.nodup, if_pos him]
      exact hi.shared i him) h3
  refine ⟨scan, env, log, ⟨pts, h1, h2⟩, e1, ?_, rfl, e3, ?_, e5⟩
  · unfold Particle.Filter.handle
    simp only [e2]
    exact h4
  · rw [gTryResample_maps _ _ _ h4]
    exact e4

/-! ## Histories -/

/-- Every history keeps the filter in a state the theorems about the filter speak about, and the map is what the log of the
scans put there makes of the map at the start. -/
theorem run_log {cfg : Cfg C M} {n : Nat} (ds : List (GDatum M)) : ∀ {s s' : GSt M}, Reach Real.sin Real.cos n s.filter →
    (∀ d ∈ ds, Plausible n d) → s.run cfg ds = some s' →
    Reach Real.sin Real.cos n s'.filter ∧ s'.odom = (ds.map GDatum.odom).getLastD s.odom ∧
    ∃ log : List Entry, (∀ e ∈ log, e.Ok cfg ∧ ∃ d ∈ ds, ScanOf cfg d.msg e.scan) ∧
      s'.filter.maps 0 = (log.map Entry.pose).reverse ++ s.filter.maps 0 ∧
      cfg.api.tellAll s.map (allUpdates log) = some s'.map := by
  induction ds with
  | nil =>
    intro s s' hr _ h
    simp only [GSt.run, Option.some.injEq] at h
    subst h
    exact ⟨hr, rfl, [], by simp, by simp, rfl⟩
  | cons d ds ih =>
    intro s s' hr hp h
    simp only [GSt.run, Option.bind_eq_some_iff] at h
    obtain ⟨s1, h1, h2⟩ := h
    obtain ⟨p1, p2, p3⟩ := hp d (by simp)
    obtain ⟨scan, env, log, e0, e1, e2, e3, e4, e5, e6⟩ := message_effect hr h1
    have hr1 : Reach Real.sin Real.cos n s1.filter := by
      refine .handle _ _ hr _ _ _ ?_ p2 p3 e2
      intro i p a ha
      obtain ⟨-, -, m, -, hm⟩ := e1 i
      rw [hm] at ha
      exact p1 _ _ _ _ _ ha
    obtain ⟨r2, o2, log2, f1, f2, f3⟩ := ih hr1 (fun d hd => hp d (by simp [hd])) h2
    refine ⟨r2, ?_, log ++ log2, ?_, ?_, ?_⟩
    · rw [o2, e3, List.map_cons]
      cases ds with
      | nil => rfl
      | cons a as => simp [List.getLastD]
    · intro e he
      rcases List.mem_append.1 he with he | he
      · obtain ⟨k1, k2⟩ := e4 e he
        exact ⟨k1, d, by simp, by rw [k2]; exact e0⟩
      · obtain ⟨k1, d', k2, k3⟩ := f1 e he
        exact ⟨k1, d', by simp [k2], k3⟩
    · rw [f2, e5, List.map_append, List.reverse_append, List.append_assoc]
    · rw [allUpdates, List.flatMap_append, tellAll_append]
      change (cfg.api.tellAll s.map (allUpdates log)).bind _ = _
      rw [e6]
      exact f3

theorem start_reach {n : Nat} {steps : List (Delta ℝ)} (hn : steps.length = n) {init : M} {hist : Option Hist} {s : GSt M}
    (h : gStart steps init hist = some s) : Reach Real.sin Real.cos n s.filter ∧ s.map = init ∧ s.filter.maps 0 = [] ∧
      s.odom = ⟨0, 0, 0⟩ ∧ s.hist = hist := by
  unfold gStart at h
  rw [Option.map_eq_some_iff] at h
  obtain ⟨f, hf, rfl⟩ := h
  refine ⟨.create steps f hn hf, rfl, ?_, rfl, rfl⟩
  unfold Particle.Filter.create at hf
  simp only [Option.map_eq_some_iff] at hf
  obtain ⟨i, -, rfl⟩ := hf
  rfl

/-- **The map after any history (C81).** From the start on, whatever the messages, the random numbers and the matcher's
answers are: there is a log of the scans put into the map, each the scan of a message and each with the updates of the scan
adder for its pose, whose poses are those the filter notes, and every cell holds what the updates of the log about it, in
order, make of the prototype. -/
theorem gmapping_map_is_log {cfg : Cfg C M} {upd : C → Aoo ℝ → C} {proto : C} {init : M} (hL : Lawful cfg.api upd proto init)
    {n : Nat} {steps : List (Delta ℝ)} (hn : steps.length = n) {hist : Option Hist} {s s' : GSt M}
    (hs : gStart steps init hist = some s) (ds : List (GDatum M)) (hp : ∀ d ∈ ds, Plausible n d) (h : s.run cfg ds = some s') :
    ∃ log : List Entry, (∀ e ∈ log, e.Ok cfg ∧ ∃ d ∈ ds, ScanOf cfg d.msg e.scan) ∧
      log.map Entry.pose = (s'.filter.maps 0).reverse ∧
      ∀ c, cfg.api.read s'.map c = some ((about c (allUpdates log)).foldl upd proto) := by
  obtain ⟨hr, hm, h0, -, -⟩ := start_reach hn hs
  obtain ⟨-, -, log, l1, l2, l3⟩ := run_log ds hr hp h
  obtain ⟨m, e1, e2⟩ := hL (allUpdates log)
  rw [hm, e1, Option.some.injEq] at l3
  subst l3
  refine ⟨log, l1, ?_, e2⟩
  rw [l2, h0, List.append_nil, List.reverse_reverse]

theorem allUpdates_sane {cfg : Cfg C M} (hA : SoundFor cfg.adder cfg.scale) (log : List Entry)
    (h : ∀ e ∈ log, e.Ok cfg) : SaneT ((allUpdates log).map Prod.snd) := by
  induction log with
  | nil => intro a ha; simp [allUpdates] at ha
  | cons e log ih =>
    simp only [allUpdates, List.flatMap_cons, List.map_append]
    exact sane_append ((h e (by simp)).sane hA ⟨zero_le_one, le_rfl⟩) (ih fun e he => h e (by simp [he]))

/-- **Every cell after any history (C81)**: its occupancy is a probability, or it is a GMapping cell nobody has looked at,
which says -1; only the consistent belief cell may have no value. -/
theorem gmapping_map_shows_probabilities (k : CellKind) {cfg : Cfg k.Cell M} {init : M} (hL : Lawful cfg.api k.upd k.proto init)
    (hA : SoundFor cfg.adder cfg.scale) {n : Nat} {steps : List (Delta ℝ)} (hn : steps.length = n) {hist : Option Hist}
    {s s' : GSt M} (hs : gStart steps init hist = some s) (ds : List (GDatum M)) (hp : ∀ d ∈ ds, Plausible n d)
    (h : s.run cfg ds = some s') (c : Coord) :
    ∃ cell, cfg.api.read s'.map c = some cell ∧
      (∀ v, k.value cell = some v → Unit01 v ∨ (k = .gmapping ∧ v = -1 ∧ k.unknown cell = true)) ∧
      (k.value cell = none → k = .tbm .consistent ∧ k.unknown cell = false) := by
  obtain ⟨log, l1, -, l2⟩ := gmapping_map_is_log hL hn hs ds hp h
  obtain ⟨a, b, d⟩ := cell_kinds k _ (about_sane (allUpdates_sane hA log fun e he => (l1 e he).1) c)
  refine ⟨_, l2 c, a, fun hn => ?_⟩
  obtain ⟨e1, e2⟩ := d hn
  refine ⟨e1, ?_⟩
  by_contra hc
  exact e2 (b.1 (by simpa using hc))

/-- **Cells never looked at (C81)**: a cell no beam of any message's scan ran through, from any of the poses at which scans
were put into the map, holds the prototype. -/
theorem gmapping_unseen_cell {cfg : Cfg C M} {upd : C → Aoo ℝ → C} {proto : C} {init : M} (hL : Lawful cfg.api upd proto init)
    {n : Nat} {steps : List (Delta ℝ)} (hn : steps.length = n) {hist : Option Hist} {s s' : GSt M}
    (hs : gStart steps init hist = some s) (ds : List (GDatum M)) (hp : ∀ d ∈ ds, Plausible n d) (h : s.run cfg ds = some s')
    (c : Coord) (hc : ∀ p ∈ s'.filter.maps 0, ∀ d ∈ ds, ∀ scan, ScanOf cfg d.msg scan → ¬ SeenFrom cfg p scan c) :
    cfg.api.read s'.map c = some proto := by
  obtain ⟨log, l1, l2, l3⟩ := gmapping_map_is_log hL hn hs ds hp h
  rw [l3 c]
  have : about c (allUpdates log) = [] := by
    unfold about
    rw [List.map_eq_nil_iff, List.filter_eq_nil_iff]
    intro u hu hd
    have hd' : u.1 = c := by simpa using hd
    rw [allUpdates, List.mem_flatMap] at hu
    obtain ⟨e, he, hu⟩ := hu
    obtain ⟨k1, d, k2, k3⟩ := l1 e he
    have hpe : e.pose ∈ s'.filter.maps 0 := by
      have : e.pose ∈ (s'.filter.maps 0).reverse := l2 ▸ List.mem_map.2 ⟨e, he, rfl⟩
      simpa using this
    refine hc e.pose hpe d k2 e.scan k3 ?_
    rcases k1 with ⟨-, k1⟩ | ⟨-, _, _, k, -, k1⟩
    · rw [k1] at hu; simp at hu
    · obtain ⟨p, hp', cells, hw, hm⟩ := appendScan_cells k1 u hu
      exact ⟨p, hp', cells, hw, hd' ▸ hm⟩
  rw [this]; rfl

/-- **The filter after any history (C81)**: as many particles as configured, exactly one master, normalised weights (or all
NaN), one map for all; the pose reported is that of a particle, and of a heaviest one if the weights are defined. -/
theorem gmapping_filter_sound {cfg : Cfg C M} {init : M} {n : Nat} {steps : List (Delta ℝ)} (hn : steps.length = n)
    {hist : Option Hist} {s s' : GSt M} (hs : gStart steps init hist = some s) (ds : List (GDatum M))
    (hp : ∀ d ∈ ds, Plausible n d) (h : s.run cfg ds = some s') :
    s'.filter.particles.length = n ∧ s'.filter.particles.countP Particle.World.master = 1 ∧
    ((∀ w ∈ s'.filter.weights, w = none) ∨ ∃ vs : List ℝ, s'.filter.weights = vs.map some ∧ Particle.Distribution vs) ∧
    (∀ w ∈ s'.filter.particles, w.mapRef = 0) ∧
    (none ∉ s'.filter.weights → ∃ w a, s'.pose = some w.pose ∧ w ∈ s'.filter.particles ∧ w.weight = some a ∧
      ∀ v ∈ s'.filter.particles, ∃ c, v.weight = some c ∧ c ≤ a) ∧
    s'.odom = (ds.map GDatum.odom).getLastD ⟨0, 0, 0⟩ := by
  obtain ⟨hr, -, -, ho, -⟩ := start_reach hn hs
  obtain ⟨r2, o2, -⟩ := run_log ds hr hp h
  obtain ⟨a, b⟩ := Particle.exactly_one_master _ _ _ _ r2
  refine ⟨a, b, Particle.weights_always_normalised _ _ _ _ r2, Particle.particles_share_one_map _ _ _ _ r2, ?_,
    by rw [o2, ho]⟩
  intro hw
  obtain ⟨w, a, h1, h2, h3, h4⟩ := Particle.world_is_heaviest _ _ _ _ r2 hw
  exact ⟨w, a, by rw [GSt.pose, h1]; rfl, h2, h3, h4⟩

end Slam.Whole
