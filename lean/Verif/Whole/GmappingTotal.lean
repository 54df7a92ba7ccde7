import Verif.Whole.GmappingProps
import Verif.Whole.Instances

/-!
# The whole GMapping does not fail (C81)
-/

set_option autoImplicit false
set_option linter.unusedSectionVars false

namespace Slam.Whole
open Slam.Grid Slam.Cells Slam.Poses Slam.Sensor Slam.Score Slam.ScanAdder Slam.Worlds Slam.Line Slam.Tbm
open Slam.Particle (Env setObj observeAll Reach)

variable {C M : Type}

/-! ## Specification -/

/-- Sampled noise of at most `G` and corrections of at most `E` along each axis. -/
def Mild (G E : ℝ) (d : GDatum M) : Prop :=
  (∀ i, |(d.guess i).x| ≤ G ∧ |(d.guess i).y| ≤ G) ∧
  ∀ i scan p m, |(d.matcher i scan p m).1.x| ≤ E ∧ |(d.matcher i scan p m).1.y| ≤ E

/-- The odometry, starting at `p`, moves by at most `D` along both axes together at each message. -/
def SmallSteps (D : ℝ) (p : Poses.Pose ℝ) (ds : List (GDatum M)) : Prop :=
  (p :: ds.map GDatum.odom).IsChain fun a b => |b.x - a.x| + |b.y - a.y| ≤ D

/-- All particles are within `A` of the origin along each axis. -/
def Near (A : ℝ) (f : Particle.Filter ℝ) : Prop := ∀ i ∈ f.ids, |(f.heap i).pose.x| ≤ A ∧ |(f.heap i).pose.y| ≤ A

/-! ## Where the particles are -/

theorem observation_pose (w : Particle.World ℝ) (e : Env ℝ) (G E : ℝ) (hG : |e.guess.x| ≤ G ∧ |e.guess.y| ≤ G)
    (hE : ∀ p, |(e.matcher p).1.x| ≤ E ∧ |(e.matcher p).1.y| ≤ E) :
    (∀ p, (w.handleObservation e).2 = some p → p = (w.handleObservation e).1.pose) ∧
    |(w.handleObservation e).1.pose.x| ≤ |w.pose.x| + G + E ∧ |(w.handleObservation e).1.pose.y| ≤ |w.pose.y| + G + E := by
  have hG0 : 0 ≤ G := (abs_nonneg _).trans hG.1
  have hE0 : 0 ≤ E := (abs_nonneg _).trans (hE w.pose).1
  unfold Particle.World.handleObservation
  by_cases ht : w.tooClose = true
  · rw [if_pos ht]
    exact ⟨fun p hp => by simp at hp, by simp only; linarith, by simp only; linarith⟩
  · rw [if_neg ht]
    have key : ∀ w' : Particle.World ℝ, |w'.pose.x| ≤ |w.pose.x| + G → |w'.pose.y| ≤ |w.pose.y| + G →
        |(w'.pose.add (e.matcher w'.pose).1).x| ≤ |w.pose.x| + G + E ∧
        |(w'.pose.add (e.matcher w'.pose).1).y| ≤ |w.pose.y| + G + E := by
      intro w' h1 h2
      obtain ⟨e1, e2⟩ := hE w'.pose
      simp only [Pose.add]
      constructor
      · linarith [abs_add_le w'.pose.x (e.matcher w'.pose).1.x]
      · linarith [abs_add_le w'.pose.y (e.matcher w'.pose).1.y]
    by_cases hf : w.scanFirst = true
    · simp only [hf, if_true, Bool.or_true, Option.some.injEq, forall_eq']
      exact ⟨trivial, key w (by linarith) (by linarith)⟩
    · simp only [hf, if_false, Bool.or_false, Bool.false_eq_true]
      refine ⟨?_, ?_⟩
      · intro p hp
        by_cases hq : Particle.positive (e.matcher (w.pose.add (if w.noisy = true then e.guess else ⟨0, 0, 0⟩))).2 = true
        · rw [if_pos hq, Option.some.injEq] at hp
          exact hp.symm
        · rw [if_neg hq] at hp; simp at hp
      · have hx : |(w.pose.add (if w.noisy = true then e.guess else ⟨0, 0, 0⟩)).x| ≤ |w.pose.x| + G := by
          by_cases hn : w.noisy = true
          · simp only [hn, if_true, Pose.add]; linarith [abs_add_le w.pose.x e.guess.x, hG.1]
          · simp only [hn, Pose.add]; simp; exact hG0
        have hy : |(w.pose.add (if w.noisy = true then e.guess else ⟨0, 0, 0⟩)).y| ≤ |w.pose.y| + G := by
          by_cases hn : w.noisy = true
          · simp only [hn, if_true, Pose.add]; linarith [abs_add_le w.pose.y e.guess.y, hG.2]
          · simp only [hn, Pose.add]; simp; exact hG0
        exact key { w with pose := w.pose.add (if w.noisy = true then e.guess else ⟨0, 0, 0⟩) } hx hy

theorem update_pose_bound (w : Particle.World ℝ) (delta : Delta ℝ) :
    |(w.updatePose Real.sin Real.cos delta).pose.x| ≤ |w.pose.x| + (|delta.x| + |delta.y|) ∧
    |(w.updatePose Real.sin Real.cos delta).pose.y| ≤ |w.pose.y| + (|delta.x| + |delta.y|) := by
  have key : ∀ a b u v : ℝ, |a| ≤ 1 → |b| ≤ 1 → |a * u + b * v| ≤ |u| + |v| := by
    intro a b u v ha hb
    have h1 : |a * u| ≤ |u| := by rw [abs_mul]; exact mul_le_of_le_one_left (abs_nonneg _) ha
    have h2 : |b * v| ≤ |v| := by rw [abs_mul]; exact mul_le_of_le_one_left (abs_nonneg _) hb
    linarith [abs_add_le (a * u) (b * v)]
  simp only [Particle.World.updatePose, Pose.add]
  set t := (w.pose.sub w.rawOdom).theta
  have hc := Real.abs_cos_le_one t
  have hs := Real.abs_sin_le_one t
  have hs' : |-Real.sin t| ≤ 1 := by rw [abs_neg]; exact hs
  have k1 := key (Real.cos t) (-Real.sin t) delta.x delta.y hc hs'
  have k2 := key (Real.sin t) (Real.cos t) delta.x delta.y hs hc
  constructor
  · have e : Real.cos t * delta.x - Real.sin t * delta.y = Real.cos t * delta.x + -Real.sin t * delta.y := by ring
    rw [e]
    linarith [abs_add_le w.pose.x (Real.cos t * delta.x + -Real.sin t * delta.y)]
  · linarith [abs_add_le w.pose.y (Real.sin t * delta.x + Real.cos t * delta.y)]

/-! ## One message -/

theorem observeEach_total {cfg : Cfg C M} {upd : C → Aoo ℝ → C} {proto : C} {init : M} (hL : Lawful cfg.api upd proto init)
    (hs : 0 < cfg.scale) (N : Int) (hok : ∀ v, |v| ≤ 6 * N → cfg.ok v = true) (hf : 4 * N + 2 ≤ cfg.fuel) (R G E X : ℝ)
    (hX : X + R ≤ cfg.scale * (N - 1)) (hR : 0 ≤ R) (d : GDatum M) (hd : Mild G E d) (scan : List ScanPoint)
    (h4 : ∀ sp ∈ scan, ∃ r a o, sp = .polar r a o 1 ∧ 0 ≤ r ∧ r ≤ R) (ids : List Nat) :
    ∀ (h : Nat → Particle.World ℝ) (ms : Nat → List (Poses.Pose ℝ)) (m : M) (hist : Option Hist), ids.Nodup →
      (∀ i ∈ ids, |(h i).pose.x| + G + E ≤ X ∧ |(h i).pose.y| + G + E ≤ X) → Told cfg.api init m → HistOk hist →
      ∃ r, observeEach cfg d scan ids h ms m hist = some r ∧ Told cfg.api init r.2.2.1 ∧ HistOk r.2.2.2 := by
  induction ids with
  | nil => intro h ms m hist _ _ hm hh; exact ⟨_, rfl, hm, hh⟩
  | cons i ids ih =>
    intro h ms m hist hnd hb hm hh
    rw [List.nodup_cons] at hnd
    have hb' : ∀ w : Particle.World ℝ, ∀ j ∈ ids, |(setObj h i w j).pose.x| + G + E ≤ X ∧ |(setObj h i w j).pose.y| + G + E ≤ X := by
      intro w j hj
      have : j ≠ i := fun e => hnd.1 (e ▸ hj)
      rw [setObj, if_neg this]
      exact hb j (by simp [hj])
    simp only [observeEach]
    obtain ⟨o1, o2, o3⟩ := observation_pose (h i) (d.env scan m i) G E (hd.1 i) (fun p => hd.2 i scan p m)
    obtain ⟨b1, b2⟩ := hb i (by simp)
    cases hq : ((h i).handleObservation (d.env scan m i)).2 with
    | none => exact ih _ _ _ _ hnd.2 (hb' _) hm hh
    | some p =>
      have hp := o1 p hq
      obtain ⟨m', hist', a1, a2, a3⟩ := append_total hL hs N hok hf R X hX hR hm hh h4 (p' := p) (by rw [hp]; linarith)
        (by rw [hp]; linarith) 1 0 (by
          by_cases he : scan = []
          · exact .inl he
          · exact .inr (List.length_pos_of_ne_nil he))
      simp only [a1, Option.bind_some]
      exact ih _ _ _ _ hnd.2 (hb' _) a2 a3

/-- One message is handled, if all particles stay within reach. -/
theorem gmapping_handle_total {cfg : Cfg C M} {upd : C → Aoo ℝ → C} {proto : C} {init : M} (hL : Lawful cfg.api upd proto init)
    (hs : 0 < cfg.scale) (N : Int) (hok : ∀ v, |v| ≤ 6 * N → cfg.ok v = true) (hf : 4 * N + 2 ≤ cfg.fuel) (R G E D A : ℝ)
    (hX : A + D + G + E + R ≤ cfg.scale * (N - 1)) (hR : 0 ≤ R) {n : Nat} {s : GSt M} {d : GDatum M}
    (hr : Reach Real.sin Real.cos n s.filter) (hp : Plausible n d) (hd : Mild G E d) (hg : GoodMsg cfg R d.msg)
    (hm : Told cfg.api init s.map) (hh : HistOk s.hist) (hA : Near A s.filter)
    (hD : |d.odom.x - s.odom.x| + |d.odom.y - s.odom.y| ≤ D) :
    ∃ s', s.handle cfg d = some s' ∧ Reach Real.sin Real.cos n s'.filter ∧ Told cfg.api init s'.map ∧ HistOk s'.hist ∧
      Near (A + D + G + E) s'.filter ∧ s'.odom = d.odom := by
  obtain ⟨hi, hn⟩ := Particle.reach_inv _ _ _ _ hr
  obtain ⟨p1, p2, p3⟩ := hp
  obtain ⟨pts, scan, h1, h2, h3, h4⟩ := good_scan hg
  have hdel : ∀ w : Particle.World ℝ, |w.pose.x| ≤ A → |w.pose.y| ≤ A →
      |(w.updatePose Real.sin Real.cos (d.odom.sub s.odom)).pose.x| ≤ A + D ∧
      |(w.updatePose Real.sin Real.cos (d.odom.sub s.odom)).pose.y| ≤ A + D := by
    intro w h1 h2
    obtain ⟨u1, u2⟩ := update_pose_bound w (d.odom.sub s.odom)
    have : |(d.odom.sub s.odom).x| + |(d.odom.sub s.odom).y| ≤ D := hD
    exact ⟨by linarith, by linarith⟩
  have huh : ∀ i ∈ s.filter.ids, (s.filter.updatePose Real.sin Real.cos (d.odom.sub s.odom)).heap i =
      (s.filter.heap i).updatePose Real.sin Real.cos (d.odom.sub s.odom) := by
    intro i him
    unfold Particle.Filter.updatePose
    simp only
    rw [Particle.forEach_apply _ _ hi.nodup, if_pos him]
  obtain ⟨r, r1, r2, r3⟩ := observeEach_total hL hs N hok hf R G E (A + D + G + E) hX hR d hd scan h4
    (s.filter.updatePose Real.sin Real.cos (d.odom.sub s.odom)).ids
    (s.filter.updatePose Real.sin Real.cos (d.odom.sub s.odom)).heap
    (s.filter.updatePose Real.sin Real.cos (d.odom.sub s.odom)).maps s.map s.hist hi.nodup
    (by
      intro i him
      have him : i ∈ s.filter.ids := him
      rw [huh i him]
      obtain ⟨a1, a2⟩ := hdel _ (hA i him).1 (hA i him).2
      exact ⟨by linarith, by linarith⟩) hm hh
  obtain ⟨env, log, e1, e2, e3, e4, e5⟩ := observeEach_spec cfg d scan _ _ _ _ _ _
    (show (s.filter.updatePose Real.sin Real.cos (d.odom.sub s.odom)).ids.Nodup from hi.nodup)
    (by
      intro i him
      have him : i ∈ s.filter.ids := him
      rw [huh i him]
      exact hi.shared i him) r1
  have henv : ∀ i p a, ((env i).matcher p).2 = some a → 0 ≤ a := by
    intro i p a ha
    obtain ⟨-, -, m, -, hm'⟩ := e1 i
    rw [hm'] at ha
    exact p1 _ _ _ _ _ ha
  obtain ⟨f', f1, f2⟩ := Particle.inv_handle Real.sin Real.cos n hn s.filter hi (d.odom.sub s.odom) env d.samples henv p2 p3
  refine ⟨⟨d.odom, f', r.2.2.1, r.2.2.2⟩, ?_, .handle _ _ hr _ _ _ henv p2 p3 f1, r2, r3, ?_, rfl⟩
  · unfold GSt.handle
    rw [h1, Option.bind_some, h2, Option.bind_some]
    simp only [observerStep, r1, Option.bind_some]
    unfold Particle.Filter.handle at f1
    simp only [e2] at f1
    rw [f1]
    rfl
  · intro y hy
    obtain ⟨x, hx, ⟨c1, -⟩, -⟩ := Particle.noise_inherited Real.sin Real.cos n s.filter hr (d.odom.sub s.odom) env d.samples
      henv p2 p3 f' f1 (f'.heap y) (List.mem_map.2 ⟨y, hy, rfl⟩)
    obtain ⟨a1, a2⟩ := hdel _ (hA x hx).1 (hA x hx).2
    obtain ⟨k1, k2, m, -, k4⟩ := e1 x
    obtain ⟨-, o2, o3⟩ := observation_pose ((s.filter.heap x).updatePose Real.sin Real.cos (d.odom.sub s.odom)) (env x) G E
      (by rw [k1]; exact hd.1 x) (fun p => by rw [k4]; exact hd.2 x scan p m)
    rw [c1]
    exact ⟨by linarith, by linarith⟩

/-! ## Histories -/

/-- **GMapping does not fail (C81).** Plausible messages without NaN ranges whose angles fit together; noise, corrections and
odometry steps of at most `G`, `E` and `D`; the particles within `A` at the start: as long as the area that can be reached
(`A + n·(D + G + E) + R` in cells, for `n` messages) stays within integers the traversal copes with (`N`), all messages are
handled: no assertion fails, no null particle is dereferenced, no index is out of range, and no loop runs on. -/
theorem gmapping_run_total {cfg : Cfg C M} {upd : C → Aoo ℝ → C} {proto : C} {init : M} (hL : Lawful cfg.api upd proto init)
    (hs : 0 < cfg.scale) (N : Int) (hok : ∀ v, |v| ≤ 6 * N → cfg.ok v = true) (hf : 4 * N + 2 ≤ cfg.fuel) (R G E D A : ℝ)
    (hR : 0 ≤ R) (hG : 0 ≤ G) (hE : 0 ≤ E) (hD : 0 ≤ D) {n : Nat} (ds : List (GDatum M))
    (hN : A + ds.length * (D + G + E) + R ≤ cfg.scale * (N - 1)) {s : GSt M} (hr : Reach Real.sin Real.cos n s.filter)
    (hm : Told cfg.api init s.map) (hh : HistOk s.hist) (hA : Near A s.filter) (hst : SmallSteps D s.odom ds)
    (hd : ∀ d ∈ ds, Plausible n d ∧ Mild G E d ∧ GoodMsg cfg R d.msg) :
    ∃ s', s.run cfg ds = some s' := by
  induction ds generalizing s A with
  | nil => exact ⟨s, rfl⟩
  | cons d ds ih =>
    obtain ⟨a, b, c⟩ := hd d (by simp)
    simp only [List.length_cons, Nat.cast_add, Nat.cast_one] at hN
    have hlen : (0 : ℝ) ≤ ds.length * (D + G + E) := mul_nonneg (Nat.cast_nonneg _) (by linarith)
    unfold SmallSteps at hst
    rw [List.map_cons, List.isChain_cons_cons] at hst
    obtain ⟨s1, h1, h2, h3, h4, h5, h6⟩ := gmapping_handle_total hL hs N hok hf R G E D A (by nlinarith) hR hr a b c hm hh hA hst.1
    obtain ⟨s', h'⟩ := ih (A + D + G + E) (by nlinarith) h2 h3 h4 h5 (by rw [h6]; exact hst.2) fun d' hd' => hd d' (by simp [hd'])
    refine ⟨s', ?_⟩
    change (s.handle cfg d).bind _ = _
    rw [h1]
    exact h'

/-- The start succeeds with at least one particle, and all particles are at the origin. -/
theorem gmapping_starts {steps : List (Delta ℝ)} (hn : 0 < steps.length) (init : M) (hist : Option Hist) :
    ∃ s : GSt M, gStart steps init hist = some s ∧ Near 0 s.filter := by
  obtain ⟨f, hf⟩ := (Particle.filter_never_fails Real.sin Real.cos steps.length hn).1 steps rfl
  refine ⟨⟨⟨0, 0, 0⟩, f, init, hist⟩, by simp [gStart, hf], ?_⟩
  unfold Particle.Filter.create at hf
  simp only [Option.map_eq_some_iff] at hf
  obtain ⟨j, hj, rfl⟩ := hf
  intro i hi
  have hi : i ∈ List.range steps.length := hi
  have hjr : j ∈ List.range steps.length := by
    rcases (Particle.heaviest_mem _ _ _).1 j hj with h | h
    · exact h
    · cases h
  simp only [setObj]
  by_cases hij : i = j
  · subst hij
    rw [if_pos rfl, Particle.forEach_apply _ _ List.nodup_range, if_pos hi]
    simp [Particle.World.markMaster, Particle.World.sample, Particle.World.create]
  · rw [if_neg hij, Particle.forEach_apply _ _ List.nodup_range, if_pos hi]
    simp [Particle.World.sample, Particle.World.create]

/-! ## A concrete program -/

/-- GMapping on a lazily allocated map of a metre per cell with its own kind of cell. -/
noncomputable def gDemoCfg : Cfg (GmCell ℝ) (LazyMap.St (GmCell ℝ)) where
  api := lazyApi 128 GmCell.observe
  scale := 1
  adder := ⟨constEstimate ⟨95 / 100, 1⟩ ⟨1 / 100, 1⟩, 0, none⟩
  ok := fun v => decide (|v| ≤ 6000)
  fuel := 5000
  props := ⟨1, 1, 0⟩
  skipMax := false
  tol := 1 / 100

/-- The robot moves by a metre each time, sees a wall in four metres, nothing up to thirty metres, and has one reading below
the minimum; the first particle explains the scan well, the second one badly; the noise and the corrections are small. -/
noncomputable def gDemoDatum (i : Nat) : GDatum (LazyMap.St (GmCell ℝ)) :=
  ⟨⟨i, 0, 0⟩, ⟨0, 2, 1, 1 / 10, 30, [some 4, some 50, some 0]⟩, fun _ => ⟨1 / 10, 0, 0⟩,
    fun k _ _ _ => (⟨0, 1 / 10, 0⟩, some (if k = 0 then 9 / 10 else 1 / 100)), fun _ => ⟨7 / 10, 7 / 10, 3 / 10⟩, [1 / 4, 3 / 4]⟩

/-- The hypotheses of the theorems hold for a hundred such messages and two particles: GMapping handles them, the map shows
probabilities and the -1 of unknown cells only, and there are still two particles, one of them the master. -/
example : ∃ init s s', gStart [⟨7 / 10, 7 / 10, 3 / 10⟩, ⟨6 / 10, 7 / 10, 4 / 10⟩] init (some (Hist.create 20)) = some s ∧
    s.run gDemoCfg ((List.range 100).map gDemoDatum) = some s' ∧
    (∀ c, ∃ cell, gDemoCfg.api.read s'.map c = some cell ∧ (Unit01 cell.occ.prob ∨ cell.occ.prob = -1)) ∧
    s'.filter.particles.length = 2 ∧ s'.filter.particles.countP Particle.World.master = 1 ∧ s'.odom = ⟨99, 0, 0⟩ := by
  obtain ⟨init, -, hL⟩ := lazy_lawful 128 (by norm_num) GmCell.observe 10 10 (GmCell.create (K := ℝ))
  have hL' : Lawful gDemoCfg.api (CellKind.upd .gmapping) (CellKind.proto .gmapping) init := hL
  obtain ⟨s, hs, hA⟩ := gmapping_starts (steps := [⟨7 / 10, 7 / 10, 3 / 10⟩, ⟨6 / 10, 7 / 10, 4 / 10⟩]) (by simp) init
    (some (Hist.create 20))
  obtain ⟨hr, hm, -, ho, hh⟩ := start_reach (n := 2) rfl hs
  have hpl : ∀ d ∈ (List.range 100).map gDemoDatum, Plausible 2 d := by
    intro d hd
    obtain ⟨i, -, rfl⟩ := List.mem_map.1 hd
    refine ⟨?_, rfl, ?_⟩
    · intro k scan p m a ha
      simp only [gDemoDatum, Option.some.injEq] at ha
      rw [← ha]
      split_ifs <;> norm_num
    · intro x hx
      simp only [gDemoDatum, List.mem_cons, List.not_mem_nil, or_false] at hx
      rcases hx with rfl | rfl <;> norm_num
  obtain ⟨s', h⟩ := gmapping_run_total hL' (by norm_num [gDemoCfg]) 1000
    (by intro v hv; simp only [gDemoCfg, decide_eq_true_eq]; exact hv) (by norm_num [gDemoCfg]) 30 (1 / 10) (1 / 10) 1 0
    (by norm_num) (by norm_num) (by norm_num) (by norm_num) (n := 2) ((List.range 100).map gDemoDatum)
    (by norm_num [gDemoCfg]) (s := s) hr (by rw [hm]; exact told_refl _ _)
    (by
      rw [hh]
      intro h' e
      rw [Option.some.injEq] at e
      subst e
      exact ⟨⟨by simp [Hist.create], by simp [Hist.create]⟩, by simp [Hist.create]⟩) hA
    (by
      unfold SmallSteps
      rw [ho, List.map_map]
      have : (GDatum.odom ∘ gDemoDatum : Nat → Poses.Pose ℝ) = fun i : Nat => (⟨i, 0, 0⟩ : Poses.Pose ℝ) := rfl
      rw [this]
      rw [show (100 : Nat) = 99 + 1 from rfl, List.range_succ_eq_map, List.map_cons, List.isChain_cons_cons]
      refine ⟨by norm_num, ?_⟩
      rw [← List.map_cons (f := fun i : Nat => (⟨i, 0, 0⟩ : Poses.Pose ℝ)), ← List.range_succ_eq_map, List.isChain_map,
        List.isChain_range_succ]
      intro m _
      push_cast
      norm_num)
    (by
      intro d hd
      refine ⟨hpl d hd, ?_⟩
      obtain ⟨i, -, rfl⟩ := List.mem_map.1 hd
      refine ⟨⟨fun _ => by norm_num [gDemoDatum], fun _ _ _ _ => by norm_num [gDemoDatum]⟩,
        by simp [gDemoDatum], by norm_num [gDemoDatum, gDemoCfg], by norm_num [gDemoDatum], by norm_num [gDemoDatum], ?_⟩
      intro pts hp
      by_cases he : pts = []
      · exact .inl he
      · exact .inr (List.length_pos_of_ne_nil he))
  obtain ⟨f1, f2, -, -, -, f6⟩ := gmapping_filter_sound (n := 2) rfl hs _ hpl h
  refine ⟨init, s, s', hs, h, fun c => ?_, f1, f2, ?_⟩
  · obtain ⟨cell, c1, c2, -⟩ := gmapping_map_shows_probabilities .gmapping hL'
      (const_sound _ _ ⟨by norm_num [Unit01], by norm_num [Unit01]⟩ ⟨by norm_num [Unit01], by norm_num [Unit01]⟩ _ _ _)
      (n := 2) rfl hs _ hpl h c
    refine ⟨cell, c1, ?_⟩
    rcases c2 _ rfl with u | ⟨-, u, -⟩
    · exact .inl u
    · exact .inr u
  · rw [f6, show (100 : Nat) = 99 + 1 from rfl, List.range_succ]
    simp [gDemoDatum]

end Slam.Whole
