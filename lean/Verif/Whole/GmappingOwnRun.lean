import Verif.Whole.GmappingOwnProps

/-!
# C90: GMapping with its own scan matcher, whole histories
-/

set_option autoImplicit false
set_option linter.unusedSectionVars false

namespace Slam.Whole
open Slam.Grid Slam.Cells Slam.Poses Slam.Sensor Slam.Score Slam.ScanAdder Slam.Worlds Slam.Tbm
open Slam.ScanMatch (Enumerator Event HCState hillClimbing)
open Slam.Particle (Env setObj Reach)
open Slam.Matcher (seenAt usablePoints Weights Spw.Ok testsOf FirstBest ClimbT Scored)

variable {M : Type}

/-! ## Specification -/

/-- The value remembered for the cell of the obstacle before, if any, is the agreement of an obstacle in that cell with an earlier
state of the map `m`. -/
def LastOk (cfg : GOwnCfg M) (fullness : ℝ) (window : Nat) (m : M) (l : Option (Coord × ℝ)) : Prop :=
  ∀ c x, l = some (c, x) → ∃ m0 q, Told cfg.slam.api m0 m ∧ worldToCell cfg.slam.scale q = c ∧
    Agreement (cfg.slam.api.read m0) cfg.slam.scale fullness window q x

/-- The resampler's random numbers are as many as particles and within `[0, 1)`. -/
def SamplesOk (n : Nat) (d : GMsg) : Prop := d.samples.length = n ∧ ∀ s ∈ d.samples, 0 ≤ s ∧ s < 1

/-- The message for GMapping with the matcher's answers given: particle `i` gets the answer `ans i`. -/
def GMsg.answered (d : GMsg) (ans : Nat → Delta ℝ × Option ℝ) : GDatum M :=
  ⟨d.odom, d.msg, d.guess, fun i _ _ _ => ans i, d.nextSm, d.samples⟩

/-- What holds in every reachable state: `n` particles as the theorems about the filter want them; a map told sane observations;
the matcher in order, its remembered value taken from an earlier state of the map. -/
structure GSound (cfg : GOwnCfg M) (init : M) (fullness : ℝ) (window n : Nat) (s : GOwn M) : Prop where
  filter : Reach Real.sin Real.cos n s.st.filter
  map : SaneTold cfg.slam.api init s.st.map
  matcher : GMatchOk fullness window s.matcher
  last : LastOk cfg fullness window s.st.map (lastOf s.matcher.pe)

/-- Particle object `i`, being `w` when its turn comes, matches the scan with the answer `a`, on a state of the map that is later
than `m0`. -/
def MatchedOn (cfg : GOwnCfg M) (init : M) (fullness : ℝ) (window : Nat) (m0 : M) (scan : List ScanPoint) (p : Poses.Pose ℝ)
    (a : Delta ℝ × Option ℝ) : Prop :=
  ∃ m g g', Told cfg.slam.api m0 m ∧ SaneTold cfg.slam.api init m ∧ LastOk cfg fullness window m (lastOf g.pe) ∧
    IsMatch cfg fullness window g g' scan p m a

/-! ## The remembered value -/

theorem LastOk.later {cfg : GOwnCfg M} {f : ℝ} {w : Nat} {m m' : M} {l : Option (Coord × ℝ)} (h : LastOk cfg f w m l)
    (ht : Told cfg.slam.api m m') : LastOk cfg f w m' l := by
  intro c x hl
  obtain ⟨m0, q, h1, h2, h3⟩ := h c x hl
  exact ⟨m0, q, told_trans h1 ht, h2, h3⟩

theorem Agreements.last {cfg : GOwnCfg M} {f : ℝ} {w : Nat} {m : M} {l l' : Option (Coord × ℝ)} {qs : List (Grid.Point ℝ)}
    {xs : List ℝ} (h : Agreements (cfg.slam.api.read m) cfg.slam.scale f w l qs xs l') :
    LastOk cfg f w m l → LastOk cfg f w m l' := by
  induction h with
  | nil => exact id
  | same c x q qs xs l' _ _ ih => exact ih
  | fresh l x q qs xs l' _ hx _ ih =>
    intro _
    refine ih ?_
    intro c y hl
    rw [Option.some.injEq, Prod.mk.injEq] at hl
    obtain ⟨rfl, rfl⟩ := hl
    exact ⟨m, q, told_refl _ _, rfl, hx⟩

theorem TestedOn.last {cfg : GOwnCfg M} {rnd : ℝ → ℝ} {f : ℝ} {w : Nat} {m : M} {pts : List ScanPoint} {ws : List ℝ}
    {l l' : Option (Coord × ℝ)} {tests : List (Poses.Pose ℝ × Option ℝ)}
    (h : TestedOn rnd (cfg.slam.api.read m) cfg.slam.scale f w pts ws l tests l') : LastOk cfg f w m l → LastOk cfg f w m l' := by
  induction h with
  | nil => exact id
  | cons l l1 l' p s xs rest hx _ _ _ ih => exact fun hl => ih (hx.last hl)

theorem IsMatch.last {cfg : GOwnCfg M} {f : ℝ} {w : Nat} {g g' : GMatch} {scan : List ScanPoint} {p : Poses.Pose ℝ} {m : M}
    {a : Delta ℝ × Option ℝ} (h : IsMatch cfg f w g g' scan p m a) (hl : LastOk cfg f w m (lastOf g.pe)) :
    LastOk cfg f w m (lastOf g'.pe) := by
  obtain ⟨ws, s0, rest, -, -, h, -⟩ := h
  exact h.last hl

/-! ## One message -/

theorem tooClose_env (w : Particle.World ℝ) (e : Env ℝ) (h : w.tooClose = true) : w.handleObservation e = (w, none) := by
  unfold Particle.World.handleObservation
  rw [if_pos h]

theorem setObj_self (h : Nat → Particle.World ℝ) (i : Nat) : setObj h i (h i) = h := by
  funext j
  unfold setObj
  split
  · rename_i e; rw [e]
  · rfl

theorem SaneTold.append {cfg : GOwnCfg M} {init : M} (hc : GStarted cfg init) {m : M} (hm : SaneTold cfg.slam.api init m)
    {hist : Option Hist} {p : Poses.Pose ℝ} {scan : List ScanPoint} {q : M × Option Hist}
    (h : cfg.slam.append hist m p scan 1 0 = some q) : SaneTold cfg.slam.api init q.1 ∧ Told cfg.slam.api m q.1 := by
  obtain ⟨us, u1, u2⟩ := append_spec h
  obtain ⟨vs, v1, v2⟩ := hm
  refine ⟨⟨vs ++ us, by rw [tellAll_append, v1]; exact u2, ?_⟩, us, u2⟩
  rw [List.map_append]
  exact sane_append v2 (u1.sane hc.adder ⟨zero_le_one, le_rfl⟩)

theorem observeEach_congr (cfg : Cfg (GmCell ℝ) M) (d : GMsg) (scan : List ScanPoint) (ans ans' : Nat → Delta ℝ × Option ℝ)
    (ids : List Nat) : ∀ (h : Nat → Particle.World ℝ) (ms : Nat → List (Poses.Pose ℝ)) (m : M) (hist : Option Hist),
    (∀ i ∈ ids, ans i = ans' i) →
    observeEach cfg (d.answered ans) scan ids h ms m hist = observeEach cfg (d.answered ans') scan ids h ms m hist := by
  induction ids with
  | nil => intro h ms m hist _; rfl
  | cons i ids ih =>
    intro h ms m hist he
    have e : (d.answered ans : GDatum M).env scan m i = (d.answered ans' : GDatum M).env scan m i := by
      simp only [GMsg.answered, GDatum.env, he i (by simp)]
    simp only [observeEach, e, fun h ms m hist => ih h ms m hist fun j hj => he j (by simp [hj])]

/-- The loop over the particles with the matcher is the loop with its answers given. -/
theorem observeOwn_spec {cfg : GOwnCfg M} {init : M} (hc : GStarted cfg init) {f : ℝ} {w : Nat} (d : GMsg) (scan : List ScanPoint)
    (hf : ∀ sp ∈ scan, sp.factor = 1) (ids : List Nat) :
    ∀ (h : Nat → Particle.World ℝ) (ms : Nat → List (Poses.Pose ℝ)) (m : M) (hist : Option Hist) (g : GMatch)
      (r : (Nat → Particle.World ℝ) × (Nat → List (Poses.Pose ℝ)) × M × Option Hist × GMatch), ids.Nodup →
    SaneTold cfg.slam.api init m → GMatchOk f w g → LastOk cfg f w m (lastOf g.pe) →
    observeOwn cfg d scan ids h ms m hist g = some r →
    ∃ ans : Nat → Delta ℝ × Option ℝ,
      observeEach cfg.slam (d.answered ans) scan ids h ms m hist = some (r.1, r.2.1, r.2.2.1, r.2.2.2.1) ∧
      SaneTold cfg.slam.api init r.2.2.1 ∧ GMatchOk f w r.2.2.2.2 ∧ LastOk cfg f w r.2.2.1 (lastOf r.2.2.2.2.pe) ∧
      (∀ i, ans i = (⟨0, 0, 0⟩, none) ∨ ∃ g p m' g' ev, GMatchOk f w g ∧ SaneTold cfg.slam.api init m' ∧
        cfg.matching g scan p m' = some (g', ans i, ev)) ∧
      (∀ i ∈ ids, (h i).tooClose = false → MatchedOn cfg init f w m scan (startPose (h i) (d.guess i)) (ans i)) := by
  induction ids with
  | nil =>
    intro h ms m hist g r _ hm hg hl hr
    simp only [observeOwn, Option.some.injEq] at hr
    subst hr
    exact ⟨fun _ => (⟨0, 0, 0⟩, none), rfl, hm, hg, hl, fun _ => .inl rfl, by simp⟩
  | cons i ids ih =>
    intro h ms m hist g r hnd hm hg hl hr
    rw [List.nodup_cons] at hnd
    simp only [observeOwn] at hr
    by_cases ht : (h i).tooClose = true
    · rw [if_pos ht] at hr
      obtain ⟨ans, a1, a2, a3, a4, a5, a6⟩ := ih _ _ _ _ _ _ hnd.2 hm hg hl hr
      refine ⟨ans, ?_, a2, a3, a4, a5, ?_⟩
      · simp only [observeEach, tooClose_env _ _ ht, setObj_self]
        exact a1
      · intro j hj htj
        rcases List.mem_cons.1 hj with rfl | hj
        · rw [ht] at htj; cases htj
        · exact a6 j hj htj
    · rw [if_neg ht] at hr
      simp only [Option.bind_eq_some_iff] at hr
      obtain ⟨⟨g1, a, ev⟩, hm1, hr⟩ := hr
      obtain ⟨isM, hg1⟩ := gm_matching_is_match hc hm hg hf hm1
      have hl1 := isM.last hl
      simp only at hr
      have hother : ∀ (x : Particle.World ℝ), ∀ j ∈ ids, setObj h i x j = h j := by
        intro x j hj
        have : j ≠ i := fun e => hnd.1 (e ▸ hj)
        rw [setObj, if_neg this]
      have fin : ∀ (m2 : M) (ans : Nat → Delta ℝ × Option ℝ) (x : Particle.World ℝ), Told cfg.slam.api m m2 →
          (∀ j ∈ ids, (setObj h i x j).tooClose = false →
            MatchedOn cfg init f w m2 scan (startPose (setObj h i x j) (d.guess j)) (ans j)) →
          ∀ j ∈ i :: ids, (h j).tooClose = false →
            MatchedOn cfg init f w m scan (startPose (h j) (d.guess j)) (if j = i then a else ans j) := by
        intro m2 ans x ht2 hall j hj htj
        by_cases hji : j = i
        · subst hji
          rw [if_pos rfl]
          exact ⟨m, g, g1, told_refl _ _, hm, hl, isM⟩
        · rw [if_neg hji]
          have hj' : j ∈ ids := by
            rcases List.mem_cons.1 hj with e | e
            · exact absurd e hji
            · exact e
          obtain ⟨m3, g3, g3', b1, b2, b3, b4⟩ := by
            have := hall j hj' (by rw [hother x j hj']; exact htj)
            rw [hother x j hj'] at this
            exact this
          exact ⟨m3, g3, g3', told_trans ht2 b1, b2, b3, b4⟩
      have src : ∀ ans : Nat → Delta ℝ × Option ℝ, (∀ j, ans j = (⟨0, 0, 0⟩, none) ∨ ∃ g p m' g' ev, GMatchOk f w g ∧
          SaneTold cfg.slam.api init m' ∧ cfg.matching g scan p m' = some (g', ans j, ev)) →
          ∀ j, (if j = i then a else ans j) = (⟨0, 0, 0⟩, none) ∨ ∃ g p m' g' ev, GMatchOk f w g ∧
            SaneTold cfg.slam.api init m' ∧ cfg.matching g scan p m' = some (g', (if j = i then a else ans j), ev) := by
        intro ans hans j
        by_cases hji : j = i
        · simp only [hji, if_true]
          exact .inr ⟨g, _, m, g1, ev, hg, hm, hm1⟩
        · simp only [hji, if_false]
          exact hans j
      cases hq : ((h i).handleObservation ⟨d.guess i, fun _ => a, d.nextSm i⟩).2 with
      | none =>
        rw [hq] at hr
        simp only at hr
        obtain ⟨ans, a1, a2, a3, a4, a5, a6⟩ := ih _ _ _ _ _ _ hnd.2 hm hg1 hl1 hr
        refine ⟨fun j => if j = i then a else ans j, ?_, a2, a3, a4, src ans a5, fin m ans _ (told_refl _ _) a6⟩
        have he : (d.answered (fun j => if j = i then a else ans j) : GDatum M).env scan m i =
            ⟨d.guess i, fun _ => a, d.nextSm i⟩ := by simp [GMsg.answered, GDatum.env]
        simp only [observeEach, he, hq]
        rw [← a1]
        refine observeEach_congr _ _ _ _ _ _ _ _ _ _ fun j hj => ?_
        have : j ≠ i := fun e => hnd.1 (e ▸ hj)
        simp [this]
      | some p =>
        rw [hq] at hr
        simp only [Option.bind_eq_some_iff] at hr
        obtain ⟨q, hap, hr⟩ := hr
        obtain ⟨hm2, ht2⟩ := SaneTold.append hc hm hap
        obtain ⟨ans, a1, a2, a3, a4, a5, a6⟩ := ih _ _ _ _ _ _ hnd.2 hm2 hg1 (hl1.later ht2) hr
        refine ⟨fun j => if j = i then a else ans j, ?_, a2, a3, a4, src ans a5, fin q.1 ans _ ht2 a6⟩
        have he : (d.answered (fun j => if j = i then a else ans j) : GDatum M).env scan m i =
            ⟨d.guess i, fun _ => a, d.nextSm i⟩ := by simp [GMsg.answered, GDatum.env]
        simp only [observeEach, he, hq, hap, Option.bind_some]
        rw [← a1]
        refine observeEach_congr _ _ _ _ _ _ _ _ _ _ fun j hj => ?_
        have : j ≠ i := fun e => hnd.1 (e ▸ hj)
        simp [this]

/-- The probability of an answer is one. -/
theorem answers_unit {cfg : GOwnCfg M} {init : M} (hc : GStarted cfg init) {f : ℝ} {w : Nat} {scan : List ScanPoint}
    (hf : ∀ sp ∈ scan, sp.factor = 1) {a : Delta ℝ × Option ℝ} (h : a = (⟨0, 0, 0⟩, none) ∨ ∃ g p m' g' ev, GMatchOk f w g ∧
      SaneTold cfg.slam.api init m' ∧ cfg.matching g scan p m' = some (g', a, ev)) (s : ℝ) (hs : a.2 = some s) : Unit01 s := by
  rcases h with rfl | ⟨g, p, m', g', ev, h1, h2, h3⟩
  · cases hs
  · exact (gm_matching_is_match hc h2 h1 hf h3).1.unit s hs

theorem updated_heap {n : Nat} {f : Particle.Filter ℝ} (hr : Reach Real.sin Real.cos n f) (delta : Delta ℝ) (i : Nat) (hi : i ∈ f.ids) :
    (f.updatePose Real.sin Real.cos delta).heap i = (f.heap i).updatePose Real.sin Real.cos delta := by
  obtain ⟨hinv, -⟩ := Particle.reach_inv _ _ _ _ hr
  unfold Particle.Filter.updatePose
  simp only
  rw [Particle.forEach_apply _ _ hinv.nodup, if_pos hi]

/-- **What a message does (C90)**: it is handled as by GMapping with the matcher's answers given (C81); each particle that has
moved far enough gets the answer of a match, started from its pose after the motion and the noise, on the map as the particles
before it left it. -/
theorem gown_message {cfg : GOwnCfg M} {init : M} (hc : GStarted cfg init) {f : ℝ} {w n : Nat} {s s' : GOwn M}
    (hs : GSound cfg init f w n s) {d : GMsg} (hd : SamplesOk n d) (h : s.handle cfg d = some s') :
    ∃ scan ans, ScanOf cfg.slam d.msg scan ∧ s.st.handle cfg.slam (d.answered ans) = some s'.st ∧
      Plausible n (d.answered ans : GDatum M) ∧ GSound cfg init f w n s' ∧
      (∀ i ∈ s.st.filter.ids, ((s.st.filter.heap i).updatePose Real.sin Real.cos (d.odom.sub s.st.odom)).tooClose = false →
        MatchedOn cfg init f w s.st.map scan
          (startPose ((s.st.filter.heap i).updatePose Real.sin Real.cos (d.odom.sub s.st.odom)) (d.guess i)) (ans i)) := by
  obtain ⟨hinv, hn⟩ := Particle.reach_inv _ _ _ _ hs.filter
  simp only [GOwn.handle, Option.bind_eq_some_iff, Option.map_eq_some_iff] at h
  obtain ⟨pts, h1, scan, h2, r, h3, f', h4, rfl⟩ := h
  have hfac := scanOf_polar h2
  obtain ⟨ans, a1, a2, a3, a4, a5, a6⟩ := observeOwn_spec hc d scan hfac _ _ _ _ _ _ _
    (show (s.st.filter.updatePose Real.sin Real.cos (observerStep s.st.odom d.odom).2).ids.Nodup from hinv.nodup)
    hs.map hs.matcher hs.last h3
  have hh : s.st.handle cfg.slam (d.answered ans) =
      some ⟨(observerStep s.st.odom d.odom).1, f', r.2.2.1, r.2.2.2.1⟩ := by
    unfold GSt.handle
    simp only [GMsg.answered] at a1 ⊢
    simp only [h1, h2, Option.bind_some, a1, h4, Option.map_some]
  have hpl : Plausible n (d.answered ans : GDatum M) :=
    ⟨fun i _ _ _ a ha => (answers_unit hc hfac (a5 i) a ha).1, hd.1, hd.2⟩
  refine ⟨scan, ans, ⟨pts, h1, h2⟩, hh, hpl, ⟨?_, a2, a3, a4⟩, ?_⟩
  · exact (run_log (cfg := cfg.slam) [d.answered ans] hs.filter (by simpa using hpl) (by simp [GSt.run, hh])).1
  · intro i hi hti
    have hu := updated_heap hs.filter (observerStep s.st.odom d.odom).2 i hi
    have := a6 i hi (by rw [hu]; exact hti)
    rw [hu] at this
    exact this

/-! ## Histories -/

/-- **Every execution is one of C81 (C90)**: with the messages given and the answers of GMapping's own matcher, which are
plausible. So all theorems about `GSt.run` (the map is the log of the scans, cells show probabilities, one master, normalised
weights) hold for GMapping with its matcher; and the invariants of the matcher hold in every reachable state. -/
theorem gown_run_is_run {cfg : GOwnCfg M} {init : M} (hc : GStarted cfg init) {f : ℝ} {w n : Nat} (ds : List GMsg)
    (hd : ∀ d ∈ ds, SamplesOk n d) {s s' : GOwn M} (hs : GSound cfg init f w n s) (h : s.run cfg ds = some s') :
    GSound cfg init f w n s' ∧ ∃ ds' : List (GDatum M),
      List.Forall₂ (fun (d : GMsg) (d' : GDatum M) => ∃ ans, d' = d.answered ans) ds ds' ∧
      (∀ d' ∈ ds', Plausible n d') ∧ s.st.run cfg.slam ds' = some s'.st := by
  induction ds generalizing s with
  | nil =>
    simp only [GOwn.run, Option.some.injEq] at h
    subst h
    exact ⟨hs, [], .nil, by simp, rfl⟩
  | cons d ds ih =>
    simp only [GOwn.run, Option.bind_eq_some_iff] at h
    obtain ⟨s1, h1, h2⟩ := h
    obtain ⟨scan, ans, -, e2, e3, e4, -⟩ := gown_message hc hs (hd d (by simp)) h1
    obtain ⟨i1, ds', i2, i3, i4⟩ := ih (fun d hd' => hd d (by simp [hd'])) e4 h2
    refine ⟨i1, d.answered ans :: ds', .cons ⟨ans, rfl⟩ i2, ?_, ?_⟩
    · intro d' hd'
      rcases List.mem_cons.1 hd' with rfl | hd'
      · exact e3
      · exact i3 d' hd'
    · change (s.st.handle cfg.slam _).bind _ = _
      rw [e2]
      exact i4

/-- The start: `n` particles, an empty map, a fresh matcher. -/
theorem gown_start {cfg : GOwnCfg M} {init : M} {n : Nat} {steps : List (Delta ℝ)} (hn : steps.length = n) {hist : Option Hist}
    {st : GSt M} (hs : gStart steps init hist = some st) {sw : Spw} (hw : Spw.Ok sw) (fullness : ℝ) (window : Nat) (transl rot : ℝ) :
    GSound cfg init fullness window n ⟨st, GMatch.create sw fullness window transl rot⟩ := by
  obtain ⟨hr, hm, -, -, -⟩ := start_reach hn hs
  refine ⟨hr, ⟨[], by rw [hm]; rfl, sane_nil⟩, ⟨hw, rfl, rfl, .inl rfl⟩, ?_⟩
  intro c x hl
  simp [lastOf, GMatch.create, GmPE.create] at hl

theorem matched_pose (x : Particle.World ℝ) (e : Env ℝ) (h : x.tooClose = false) :
    (x.handleObservation e).1.pose = (startPose x e.guess).add (e.matcher (startPose x e.guess)).1 := by
  unfold Particle.World.handleObservation startPose
  rw [if_neg (by rw [h]; simp)]
  by_cases hf : x.scanFirst = true
  · simp [hf]
  · simp [hf]

/-- **Where the particles are (C90).** After any history, let a message be handled. Every particle afterwards stands where one of
the particles before it was moved to: if that one has not moved far enough since its last match, where the odometry says;
otherwise at the pose its match found on the map built so far (`IsMatch`). -/
theorem gown_particles {cfg : GOwnCfg M} {init : M} (hc : GStarted cfg init) {f : ℝ} {w n : Nat} (ds : List GMsg)
    (hd : ∀ d ∈ ds, SamplesOk n d) {s s1 s2 : GOwn M} (hs : GSound cfg init f w n s) (h1 : s.run cfg ds = some s1) (d : GMsg)
    (hd' : SamplesOk n d) (h2 : s1.handle cfg d = some s2) :
    ∃ scan, ScanOf cfg.slam d.msg scan ∧ ∀ v ∈ s2.st.filter.particles, ∃ i ∈ s1.st.filter.ids, ∃ x,
      x = (s1.st.filter.heap i).updatePose Real.sin Real.cos (d.odom.sub s1.st.odom) ∧
      (x.tooClose = true → v.pose = x.pose) ∧
      (x.tooClose = false → ∃ a, v.pose = (startPose x (d.guess i)).add a.1 ∧
        MatchedOn cfg init f w s1.st.map scan (startPose x (d.guess i)) a) := by
  obtain ⟨hs1, -⟩ := gown_run_is_run hc ds hd hs h1
  obtain ⟨scan, ans, e1, e2, e3, e4, e5⟩ := gown_message hc hs1 hd' h2
  obtain ⟨scan', env, log, g1, g2, g3, -⟩ := message_effect hs1.filter e2
  refine ⟨scan, e1, ?_⟩
  intro v hv
  obtain ⟨i, hi, ⟨c1, -⟩, -⟩ := Particle.noise_inherited Real.sin Real.cos n s1.st.filter hs1.filter _ env _ (by
      intro i p a ha
      obtain ⟨-, -, m, -, hm⟩ := g2 i
      rw [hm] at ha
      exact e3.1 _ scan' p m _ ha) hd'.1 hd'.2 _ g3 v hv
  obtain ⟨k1, k2, m, -, k4⟩ := g2 i
  refine ⟨i, hi, _, rfl, ?_, ?_⟩
  · intro ht
    rw [c1]
    change (((s1.st.filter.heap i).updatePose Real.sin Real.cos (d.odom.sub s1.st.odom)).handleObservation (env i)).1.pose = _
    rw [tooClose_env _ _ ht]
  · intro ht
    refine ⟨ans i, ?_, e5 i hi ht⟩
    rw [c1]
    change (((s1.st.filter.heap i).updatePose Real.sin Real.cos (d.odom.sub s1.st.odom)).handleObservation (env i)).1.pose = _
    rw [matched_pose _ _ ht, k4, k1]
    rfl

end Slam.Whole
