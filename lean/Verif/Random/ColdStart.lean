import Verif.Whole.ColdStart
import Verif.Random.Gmapping

/-!
# The configured GMapping before the robot has moved, with given and with drawn steps (C113)
-/

set_option autoImplicit false
set_option linter.unusedSectionVars false

namespace Slam.Whole
open Slam.Grid Slam.Cells Slam.Poses Slam.Sensor Slam.Score Slam.ScanAdder Slam.Worlds

/-- What has been gone is less than the configured smallest steps. -/
def ShortFor (p : Config.GmappingParams ℝ) (t : Delta ℝ) : Prop := t.x ^ 2 + t.y ^ 2 < 2 * p.minXY ^ 2 ∧ t.theta < p.minTh

theorem short_for {p : Config.GmappingParams ℝ} (h0 : 0 ≤ p.minXY) {t step : Delta ℝ} (ht : ShortFor p t) (hx : p.minXY ≤ step.x)
    (hy : p.minXY ≤ step.y) (hth : p.minTh ≤ step.theta) : Short t step := by
  refine ⟨?_, ht.2.trans_le hth⟩
  have := ht.1
  nlinarith

section
variable {stod : Config.Str → Option ℝ} {env : Env} {rnd : ℝ → ℝ} {draws : Config.GmappingParams ℝ → Nat → Delta ℝ} {t : Config.Table}

/-- The state of a configured GMapping before the robot has moved enough. -/
theorem launched_cold (hrnd : ∀ x, Unit01 x → Unit01 (rnd x)) {w : Config.World ℝ} {p : Config.GmappingParams ℝ} {n : Nat}
    (hw : Config.initGmapping stod t = some (w, p, n)) (h : GSensible w n) {P : GProgram}
    (hP : launchGmapping stod env rnd draws t = some P) :
    Cold ((List.range n).map (draws p)) P.start.st.map P.start.st.hist ⟨0, 0, 0⟩ ⟨0, 0, 0⟩ P.start.st ∧
      ∀ c, P.cfg.slam.api.read P.start.st.map c = some GmCell.create := by
  obtain ⟨P', hP', ha, -, -, hg, -⟩ := gmapping_launches (env := env) (draws := draws) hrnd hw h
  obtain rfl := Option.some.inj (hP.symm.trans hP')
  exact ⟨cold_start_state hg, ha.empty⟩

/-- **A configured GMapping before the robot has moved (C113)**, for first steps within the configured range: while the odometry's way
is shorter than the smallest step in translation and in rotation, every message that can be read is handled, every cell of the map is
still unknown, the pose shown is the odometry's, and the matcher has not been used. -/
theorem launched_cold_start (hrnd : ∀ x, Unit01 x → Unit01 (rnd x)) {w : Config.World ℝ} {p : Config.GmappingParams ℝ} {n : Nat}
    (hw : Config.initGmapping stod t = some (w, p, n)) (h : GSensible w n) {P : GProgram}
    (hP : launchGmapping stod env rnd draws t = some P) (h0 : 0 ≤ p.minXY)
    (hdraw : ∀ k < n, p.minXY ≤ (draws p k).x ∧ p.minXY ≤ (draws p k).y ∧ p.minTh ≤ (draws p k).theta)
    (ds : List GMsg) (hs : ∀ d ∈ ds, ∃ scan, ScanOf P.cfg.slam d.msg scan) (hway : ShortFor p (gone ⟨0, 0, 0⟩ (ds.map GMsg.odom))) :
    ∃ s', P.start.run P.cfg ds = some s' ∧ s'.st.pose = some (lastPose ⟨0, 0, 0⟩ (ds.map GMsg.odom)) ∧
      (∀ c, P.cfg.slam.api.read s'.st.map c = some GmCell.create) ∧ s'.matcher = P.start.matcher := by
  obtain ⟨hc, he⟩ := launched_cold hrnd hw h hP
  have hn : 0 < ((List.range n).map (draws p)).length := by simpa using h.particles
  obtain ⟨s', k1, k2, k3⟩ := cold_own_run (g := P.cfg) hn ds (by simp) hc hs _ rfl (by
    intro step hstep
    simp only [List.mem_map, List.mem_range] at hstep
    obtain ⟨k, hk, rfl⟩ := hstep
    obtain ⟨d1, d2, d3⟩ := hdraw k hk
    exact short_for h0 (by simpa using hway) d1 d2 d3)
  exact ⟨s', k1, cold_pose hn k2, by rw [k2.map]; exact he, k3⟩

end

end Slam.Whole

namespace Slam.Random
open Slam.Poses (Delta Pose)
open Slam.Sensor
open Slam.Whole (GOwn GOwnCfg GMsg GProgram Cold ShortFor gone lastPose)

section
variable {E : Type} {N : Engine E} {stod : Config.Str → Option ℝ} {env : Whole.Env} {rnd : ℝ → ℝ} {engines : Nat → E} {t : Config.Table}

theorem uniform_least {a b v : ℝ} (h : a ≤ b) (hv : (RV.uniform a b).Within v) : a ≤ v := by
  rcases h.lt_or_eq with h | h
  · exact (hv.1 h).1
  · exact (hv.2 h).ge

/-- **GMapping with its generators before the robot has moved (C113)**, whatever the engines hand out: while the odometry's way is
shorter than the smallest configured step in translation and in rotation, every message that can be read is handled, every cell of the
map is still unknown, the pose shown is the odometry's, and the matcher has not been used. -/
theorem seeded_cold_start (hrnd : ∀ x, Cells.Unit01 x → Cells.Unit01 (rnd x)) {w : Config.World ℝ} {p : Config.GmappingParams ℝ} {n : Nat}
    (hw : Config.initGmapping stod t = some (w, p, n)) (h : Whole.GSensible w n) (hl : ∀ k, Lively N (engines k)) {S : GSeededProgram E}
    (hS : launchSeededGmapping N stod env rnd engines t = some S) (h0 : 0 ≤ p.minXY) (hxy : p.minXY ≤ p.maxXY) (hth : p.minTh ≤ p.maxTh)
    (ds : List (SMsg E)) (hs : ∀ d ∈ ds, ∃ scan, Whole.ScanOf S.cfg.slam d.msg scan)
    (hway : ShortFor p (gone ⟨0, 0, 0⟩ (ds.map SMsg.odom))) :
    ∃ s', S.start.run N S.cfg ds = some s' ∧ s'.own.st.pose = some (lastPose ⟨0, 0, 0⟩ (ds.map SMsg.odom)) ∧
      (∀ c, S.cfg.slam.api.read s'.own.st.map c = some Cells.GmCell.create) ∧ s'.own.matcher = S.start.own.matcher := by
  obtain ⟨S', draws, P, hS', hP, hdr, hc, hst, hsound⟩ := gseeded_launches (env := env) hrnd hw h hl
  obtain rfl := Option.some.inj (hS.symm.trans hS')
  obtain ⟨hcold, he⟩ := Whole.launched_cold hrnd hw h hP
  obtain ⟨P', hP', -, hgs, hsd, -⟩ := Whole.gmapping_launches (env := env) (draws := draws) hrnd hw h
  obtain rfl := Option.some.inj (hP.symm.trans hP')
  have hn : 0 < ((List.range n).map (draws p)).length := by simpa using h.particles
  rw [hc] at hs ⊢
  rw [hst]
  have key : ∀ (ds : List (SMsg E)) (o : Pose ℝ) (t : Delta ℝ), (0 ≤ t.x ∧ 0 ≤ t.y ∧ 0 ≤ t.theta) → ∀ (s : GSeeded E _),
      Cold ((List.range n).map (draws p)) P.start.st.map P.start.st.hist o t s.own.st → s.Sound N (noiseOf p) (stepOf p) n →
      Whole.GSound P.cfg P.start.st.map P.start.matcher.pe.fullness P.start.matcher.pe.window n s.own →
      (∀ d ∈ ds, ∃ scan, Whole.ScanOf P.cfg.slam d.msg scan) →
      (∀ step ∈ (List.range n).map (draws p), Whole.Short ⟨t.x + (gone o (ds.map SMsg.odom)).x, t.y + (gone o (ds.map SMsg.odom)).y,
        t.theta + (gone o (ds.map SMsg.odom)).theta⟩ step) →
      ∃ s' t', s.run N P.cfg ds = some s' ∧
        Cold ((List.range n).map (draws p)) P.start.st.map P.start.st.hist (lastPose o (ds.map SMsg.odom)) t' s'.own.st ∧
        s'.own.matcher = s.own.matcher := by
    intro ds
    induction ds with
    | nil => intro o t _ s k1 _ _ _ _; exact ⟨s, t, rfl, k1, rfl⟩
    | cons d ds ih =>
      intro o t ht s k1 k2 k3 hs hshort
      obtain ⟨g, g1, g2, g3⟩ := gseeded_step (cfg := P.cfg) k2 d
      obtain ⟨scan, hscan⟩ := hs d (by simp)
      have hshort1 := fun step hstep => Whole.short_head ht (ds.map SMsg.odom) (hshort step hstep)
      rw [← g1.odom] at hshort1
      rw [← g1.msg] at hscan
      obtain ⟨so, e1, e2, e3⟩ := Whole.cold_own_handle (g := P.cfg) hn ht.2.2 k1 g rfl hshort1 hscan
      rw [e1, Option.map_eq_some_iff] at g2
      obtain ⟨s1, f1, f2⟩ := g2
      obtain ⟨hg1, -⟩ := Whole.gown_run_is_run hgs [g] (by
        intro x hx
        rw [List.mem_singleton.1 hx]
        exact g1.samples) k3 (s' := so) (by simp only [GOwn.run, e1, Option.bind_some])
      subst f2
      rw [g1.odom] at e2
      obtain ⟨s', t', r1, r2, r3⟩ := ih d.odom _ ⟨add_nonneg ht.1 (abs_nonneg _), add_nonneg ht.2.1 (abs_nonneg _),
        add_nonneg ht.2.2 (abs_nonneg _)⟩ s1 e2 (g3 s1 f1 (Particle.reach_inv Real.sin Real.cos n _ hg1.filter).1) hg1
        (fun d' hd' => hs d' (by simp [hd'])) (by
          intro step hstep
          have := hshort step hstep
          simpa only [List.map_cons, gone, add_assoc] using this)
      refine ⟨s', t', by simp only [GSeeded.run, f1, Option.bind_some, r1], ?_, r3.trans e3⟩
      rw [List.map_cons, Whole.last_pose_cons]
      exact r2
  obtain ⟨s', t', r1, r2, r3⟩ := key ds ⟨0, 0, 0⟩ ⟨0, 0, 0⟩ (by simp) S.start (by rw [hst]; exact hcold) hsound (by rw [hst]; exact hsd) hs (by
    intro step hstep
    simp only [List.mem_map, List.mem_range] at hstep
    obtain ⟨k, hk, rfl⟩ := hstep
    obtain ⟨d1, d2, d3⟩ := hdr k hk
    exact Whole.short_for h0 (by simpa using hway) (uniform_least hxy d1) (uniform_least hxy d2) (uniform_least hth d3))
  rw [hst] at r3
  exact ⟨s', r1, Whole.cold_pose hn r2, by rw [r2.map]; exact he, r3⟩

end

end Slam.Random
