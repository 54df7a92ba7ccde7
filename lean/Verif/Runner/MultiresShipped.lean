import Verif.Runner.Multires
import Verif.Runner.Shipped
import Verif.Whole.MultiresShipped

/-!
# C104: the bag runner with the shipped configuration of the multi-resolution matcher

`tiny <bag> -p config/common/bf_m3rsm.properties -p config/bag_runner/tiny_mit.properties -t <traj> -m <map>`, with the files of the
repository: of two files that set a property, the one named first on the command line wins.
-/

set_option autoImplicit false
set_option linter.unusedSectionVars false

namespace Slam.Runner
open Slam.Config (Str Table Args ArgState parseArgs stodDec m3rsmProps m3rsmWorld)
open Slam.Grid (Coord)
open Slam.Whole
open Slam.Worlds (Msg)
open Slam.Multires (MMap)

variable {D C G H : Type}

/-! ## Specification -/

/-- The command line. -/
def m3rsmLine (bag traj map : Str) : List Str :=
  [chars% "tiny", bag, chars% "-p", chars% "config/common/bf_m3rsm.properties", chars% "-p", chars% "config/bag_runner/tiny_mit.properties",
    chars% "-t", traj, chars% "-m", map]

/-- Some reading of the message is within the sensor's range, and not zero. -/
def SeesSomething (m : Msg ℝ) : Prop := ∃ v, some v ∈ m.ranges ∧ m.rangeMin ≤ v ∧ v < m.rangeMax ∧ v ≠ 0

/-! ## Proofs -/

theorem convert_sees {m : Msg ℝ} {skip : Bool} {v : ℝ} (h1 : m.rangeMin ≤ v) (h2 : v < m.rangeMax) :
    ∀ (rs : List (Option ℝ)) (a : ℝ), some v ∈ rs → ∃ b, (⟨some v, b, true⟩ : Worlds.Point ℝ) ∈ (Worlds.convert m skip a rs).1
  | [], _, h => by cases h
  | r :: rs, a, h => by
    rcases List.mem_cons.1 h with rfl | h
    · refine ⟨a + m.increment, ?_⟩
      simp only [Worlds.convert]
      rw [if_neg (not_lt.2 h1), if_neg (not_le.2 h2)]
      exact List.mem_cons_self
    · obtain ⟨b, hb⟩ := convert_sees h1 h2 rs (a + m.increment) h
      refine ⟨b, ?_⟩
      simp only [Worlds.convert]
      split
      · exact List.mem_cons_of_mem _ hb
      · split
        · exact hb
        · split
          · split
            · exact hb
            · exact List.mem_cons_of_mem _ hb
          · exact List.mem_cons_of_mem _ hb

theorem scanOf_mem : ∀ {pts : List (Worlds.Point ℝ)} {scan : List Sensor.ScanPoint}, scanOf pts = some scan →
    ∀ {v b : ℝ}, (⟨some v, b, true⟩ : Worlds.Point ℝ) ∈ pts → Sensor.ScanPoint.polar v b true 1 ∈ scan
  | [], _, _, _, _, h => by cases h
  | p :: ps, scan, h, v, b, hm => by
    rw [scanOf, Option.bind_eq_some_iff] at h
    obtain ⟨r, hr, h⟩ := h
    rw [Option.map_eq_some_iff] at h
    obtain ⟨s', hs', rfl⟩ := h
    rcases List.mem_cons.1 hm with rfl | hm
    · cases hr
      exact List.mem_cons_self
    · exact List.mem_cons_of_mem _ (scanOf_mem hs' hm)

/-- A message with a reading within the sensor's range is one the matcher can work with, if it is to use all points. -/
theorem looks_of_reading {k : CellKind} {cfg : MrCfg k.Cell G} {R : ℝ} {m : Msg ℝ} (hg : GoodMsg cfg.slam R m) (hf : cfg.filter = ⟨0, -1⟩)
    (h : SeesSomething m) : Looks cfg m := by
  obtain ⟨v, h1, h2, h3, h4⟩ := h
  obtain ⟨pts, scan, e1, e2, -⟩ := good_scan hg
  obtain ⟨b, hb⟩ := convert_sees (skip := cfg.slam.skipMax) h2 h3 m.ranges (m.angleMin - m.increment) h1
  have e3 : pts = (Worlds.convert m cfg.slam.skipMax (m.angleMin - m.increment) m.ranges).1 := by
    unfold Worlds.msg2scan at e1
    dsimp only at e1
    split at e1
    · exact (Option.some.inj e1).symm
    · cases e1
  rw [← e3] at hb
  have hm := scanOf_mem e2 hb
  refine ⟨scan, ⟨pts, e1, e2⟩, .polar v b true 1, ?_, h4⟩
  classical
  unfold MrCfg.usable Matcher.usablePoints
  obtain ⟨i, hi, e⟩ := List.getElem_of_mem hm
  refine List.mem_map.2 ⟨(.polar v b true 1, i), List.mem_filter.2 ⟨?_, ?_⟩, rfl⟩
  · rw [List.mem_zipIdx_iff_getElem?]
    simp [hi, e]
  · simp only [decide_eq_true_eq, hf, Score.Usable]
    refine ⟨.inl trivial, rfl, ?_, trivial⟩
    norm_num

theorem m3rsm_line_args {bag traj map : Str} (hb : PlainName bag) (ht : PlainName traj) (hm : PlainName map) :
    parseArgs (m3rsmLine bag traj map) =
      ⟨true, chars% "tiny", bag, some traj, map, false,
        [chars% "config/common/bf_m3rsm.properties", chars% "config/bag_runner/tiny_mit.properties"], []⟩ := by
  obtain ⟨-, -, hb⟩ := hb
  obtain ⟨-, -, ht⟩ := ht
  obtain ⟨-, -, hm⟩ := hm
  have e1 : ¬ (chars% "tiny").head? = some '-' := by decide
  have e2 : (chars% "-p").head? = some '-' := by decide
  have e3 : ¬ (chars% "config/bag_runner/tiny_mit.properties").head? = some '-' := by decide
  have e6 : ¬ (chars% "config/common/bf_m3rsm.properties").head? = some '-' := by decide
  have e4 : (chars% "-t").head? = some '-' := by decide
  have e5 : (chars% "-m").head? = some '-' := by decide
  unfold parseArgs m3rsmLine
  simp only [List.foldl_cons, List.foldl_nil]
  unfold Config.argStep
  simp only [if_neg e1, if_neg hb, if_pos e2, if_neg e3, if_neg e6, if_pos e4, if_neg ht, if_pos e5, if_neg hm]
  rfl

theorem m3rsm_line_after {bag traj map f : Str} (hb : PlainName bag) (ht : PlainName traj) (hm : PlainName map)
    (h : After (m3rsmLine bag traj map) "-t".toList f) : f = traj := by
  obtain ⟨pre, post, e⟩ := h
  have hne : ∀ s, PlainName s → s ≠ ['-', 't'] := fun s hs e => hs.2.2 (by rw [e]; rfl)
  have hb' := hne _ hb
  have ht' := hne _ ht
  have hm' := hne _ hm
  have e' : m3rsmLine bag traj map = pre ++ ['-', 't'] :: f :: post := e
  unfold m3rsmLine at e'
  rcases pre with _ | ⟨a1, _ | ⟨a2, _ | ⟨a3, _ | ⟨a4, _ | ⟨a5, _ | ⟨a6, _ | ⟨a7, _ | ⟨a8, _ | ⟨a9, _ | ⟨a10, pre⟩⟩⟩⟩⟩⟩⟩⟩⟩⟩ <;>
    simp only [List.cons_append, List.nil_append, List.cons.injEq] at e' <;>
    first
    | exact absurd e'.1 (by decide)
    | exact absurd e'.2.1 hb'
    | exact absurd e'.2.2.1 (by decide)
    | exact absurd e'.2.2.2.1 (by decide)
    | exact absurd e'.2.2.2.2.1 (by decide)
    | exact absurd e'.2.2.2.2.2.1 (by decide)
    | exact e'.2.2.2.2.2.2.2.1.symm
    | exact absurd e'.2.2.2.2.2.2.2.1 ht'
    | exact absurd e'.2.2.2.2.2.2.2.2.1 (by decide)
    | exact absurd e'.2.2.2.2.2.2.2.2.2.1 hm'
    | (obtain ⟨-, -, -, -, -, -, -, -, -, -, e'⟩ := e'; cases pre <;> simp at e')

/-- What the two files say together. -/
theorem m3rsm_mit_read : ∃ t, Config.appendAll Config.shipped 9
      [chars% "config/common/bf_m3rsm.properties", chars% "config/bag_runner/tiny_mit.properties"] Table.empty = some t ∧
    (∀ k ∈ Config.knownProperties ++ ["in/lscan2D/skip_exceeding_vals"], t k.toList = m3rsmProps.lookup k.toList) ∧
    t (chars% "in/lscan2D/ros/topic/enabled") = some (chars% "true") ∧ t (chars% "in/lscan2D/ros/topic/name") = some (chars% "/base_scan") ∧
    t (chars% "in/odometry/ros/tf/enabled") = some (chars% "true") ∧ t (chars% "in/odometry/ros/tf/name") = some (chars% "/tf") ∧
    t (chars% "in/odometry/ros/tf/odom_frame_id") = some (chars% "odom_combined") ∧ t (chars% "in/odometry/ros/tf/ignore") = none := by
  have h : ((Config.appendAll Config.shipped 9 [chars% "config/common/bf_m3rsm.properties", chars% "config/bag_runner/tiny_mit.properties"]
      Table.empty).map fun t =>
      decide ((∀ k ∈ Config.knownProperties ++ ["in/lscan2D/skip_exceeding_vals"], t k.toList = m3rsmProps.lookup k.toList) ∧
    t (chars% "in/lscan2D/ros/topic/enabled") = some (chars% "true") ∧ t (chars% "in/lscan2D/ros/topic/name") = some (chars% "/base_scan") ∧
    t (chars% "in/odometry/ros/tf/enabled") = some (chars% "true") ∧ t (chars% "in/odometry/ros/tf/name") = some (chars% "/tf") ∧
    t (chars% "in/odometry/ros/tf/odom_frame_id") = some (chars% "odom_combined") ∧ t (chars% "in/odometry/ros/tf/ignore") = none)) =
      some true := by
    decide +kernel
  rw [Option.map_eq_some_iff] at h
  obtain ⟨t, h1, h2⟩ := h
  exact ⟨t, h1, of_decide_eq_true h2⟩

/-- **TinySLAM with the shipped multi-resolution configuration, over a bag (C104).** As `runner_tiny_mit`: the configuration files are
those of the repository; the bag, the trajectory file and the map file are different files of the working directory, the latter two
writable; the transforms in the bag suffice for every scan, placing it within `B` of the origin; the scans are well-formed, with ranges up
to `R`, and each has a reading within the sensor's range; everything reached stays within the integers the traversal copes with. Then,
whichever of the possible answers the matcher gives, unless an assertion of its search fails (`K.Faithful False`), the runner exits with
status zero; the trajectory file has one entry for each scan on the topic, in order; the map file is an image of the rectangle the map has
grown to, in which every pixel shows a probability; all other files are as before. -/
theorem runner_tiny_m3rsm {r : ℝ → ℝ} (F : Config.Fair r) {rad : ℝ} (h0 : 0 ≤ rad) (h1 : rad ≤ 1 / 10) {rnd : Nat} {menv : MrEnv G}
    (hsl : 0 ≤ menv.slack) (hfu : 5000 ≤ menv.base.fuel) (hcf : 1 ≤ menv.base.cellFuel)
    (N : Int) (hNok : ∀ v, |v| ≤ 6 * N → menv.base.ok v = true) (hl : 4 * N + 2 ≤ menv.base.lineFuel)
    {extent : G → Int × Int × Coord} {K : (P : MrProgram G) → Chooser P H} (hK : ∀ P, (K P).Faithful False)
    {env : Env D C} (henv : ∀ t P, launchMr false (stodDec r) rad rnd menv t = some P → env.oneHypothesis t = some (ofMultires extent P (K P)))
    (hres : env.resolve = Config.shipped.resolve) (hdep : env.depth = 9)
    {bag traj map : Str} (hb : PlainName bag) (ht : PlainName traj) (hm : PlainName map) (hbt : bag ≠ traj)
    (htm : traj ≠ map) (hwt : env.writable traj = true) (hwm : env.writable map = true)
    {fs : Fs} (hfs : ∀ p, '/' ∈ p → (fs p).map chars = Config.shipped.content p)
    {c : List Nat} {ms : List (BagMsg D)} {rs : List (Bag.Rec LaserMsg (TransformMsg D))} (hc : fs bag = some c)
    (hms : env.openBag c = some ms) (hrs : Recorded (chars% "/base_scan") (chars% "/tf") ms rs)
    (hp : Bag.Patient (mitReader env) rs)
    (hok : ∀ m ∈ Bag.msgs rs, ∃ x, (mitReader env).lookup (Bag.cacheAfter (mitReader env) rs) m = .ok x)
    (R B : ℝ) (hR : 0 ≤ R) (hodo : ∀ p, Found (mitReader env) rs p → |p.2.x| ≤ B ∧ |p.2.y| ≤ B)
    (hmsg : ∀ m ∈ Bag.msgs rs, none ∉ m.body.ranges ∧
      |m.body.angleMin + (m.body.ranges.length : ℝ) * m.body.increment - m.body.increment - m.body.angleMax| ≤ menv.base.tol ∧
      0 ≤ m.body.rangeMin ∧ 0 ≤ m.body.rangeMax ∧ m.body.rangeMax ≤ R ∧ SeesSomething m.body)
    (hN : (Bag.msgs rs).length * 1 + B + R ≤ r (1 / 10) * (N - 1)) :
    (main env fs (m3rsmLine bag traj map)).exit = some 0 ∧
    (∃ poses : List (Poses.Pose ℝ), poses.length = (Bag.msgs rs).length ∧
      (main env fs (m3rsmLine bag traj map)).fs traj = some (bytes (Text.tumFile
        (((Bag.msgs rs).zip poses).map fun p => ⟨p.1.sec, p.1.nsec, p.2.x, p.2.y, p.2.theta⟩)))) ∧
    (∃ (v : Dump.MapView ℝ) (g : G), (main env fs (m3rsmLine bag traj map)).fs map = some (Dump.dumpMap v) ∧ v.scale = r (1 / 10) ∧
      (v.width, v.height, v.origin) = extent g ∧ ∀ c, 0 ≤ v.occ c ∧ v.occ c ≤ 1) ∧
    ∀ f, f ≠ traj → f ≠ map → (main env fs (m3rsmLine bag traj map)).fs f = fs f := by
  obtain ⟨t, ht1, h2, k1, k2, k3, k4, k5, k6⟩ := m3rsm_mit_read
  obtain ⟨n, hn, -, hw⟩ := Config.tiny_m3rsm_world F rad rnd
  have hw' : assemble false (stodDec r) rad rnd t = some (m3rsmWorld r rad n .mean (r (9 / 10)) (r (3 / 5))) := by
    refine Eq.trans ?_ hw
    exact Config.init1h_congr _ _ _ _ _ fun k hk => h2 k (known_in hk)
  have hsen := m3rsm_sensible (env := menv) F h0 h1 n (by omega) .mean (.inl rfl) (r (9 / 10)) (r (3 / 5))
    ⟨fair_unit F (by norm_num) (by norm_num), fair_unit F (by norm_num) (by norm_num)⟩ hsl hfu hcf
  obtain ⟨P, hP, hA⟩ := launched_mr_starts hw' hsen
  have hargs := m3rsm_line_args hb ht hm
  have hread : reader env t = mitReader env := by
    have e1 : Config.getStr t "in/odometry/ros/tf/odom_frame_id".toList "odom_combined".toList = chars% "odom_combined" := by
      unfold Config.getStr
      rw [show t "in/odometry/ros/tf/odom_frame_id".toList = _ from k5]
      rfl
    have e2 : Config.tfIgnores t = fun _ => [] := by
      unfold Config.tfIgnores Config.getStr
      rw [show t "in/odometry/ros/tf/ignore".toList = none from k6]
      rfl
    unfold reader mitReader
    rw [e1, e2]
    simp [Config.shouldSkip]
  have hR' : ∀ p, '/' ∈ p → (env.files fs).content p = Config.shipped.content p := hfs
  have hcong : ∀ p, '/' ∈ p → ∀ t0, Config.append (env.files fs) 9 p t0 = Config.append Config.shipped 9 p t0 := fun p hp' t0 => by
    rw [append_congr (env.files fs) Config.shipped hres (fun p => '/' ∈ p)
      (fun p c name _ _ _ => by show '/' ∈ env.resolve p name; rw [hres]; exact mem_resolve p name) (fun p hp' => (hR' p hp').symm) 9 _ hp']
  have hset : Setup env fs (m3rsmLine bag traj map) t (ofMultires extent P (K P)) rs := by
    refine ⟨by rw [hargs], ⟨fun p => '/' ∈ p, ?_, ?_, ?_⟩, ?_, .inl ⟨by rw [hargs]; exact .inl rfl, henv t P hP⟩, ?_, ?_, ?_, ?_⟩
    · intro p hp'
      rw [hargs] at hp'
      simp only [List.mem_cons, List.not_mem_nil, or_false] at hp'
      rcases hp' with rfl | rfl <;> decide
    · intro p c name _ _ _
      rw [hres]
      exact mem_resolve p name
    · intro f hf
      rw [m3rsm_line_after hb ht hm hf]
      exact ht.1
    · rw [hargs, hdep, ← ht1]
      simp only [Config.appendAll]
      rw [hcong _ (by decide)]
      refine congrArg _ (funext fun t1 => ?_)
      rw [hcong _ (by decide)]
    · unfold Config.getBool
      rw [show t "in/lscan2D/ros/topic/enabled".toList = _ from k1]
      rfl
    · unfold Config.getBool
      rw [show t "in/odometry/ros/tf/enabled".toList = _ from k3]
      rfl
    · rw [hargs]
      exact fun h => hbt (m3rsm_line_after hb ht hm h)
    · rw [hargs]
      refine ⟨c, ms, hc, hms, ?_⟩
      unfold Config.getStr
      rw [show t "in/lscan2D/ros/topic/name".toList = _ from k2, show t "in/odometry/ros/tf/name".toList = _ from k4]
      exact hrs
  have hprops : P.cfg.slam.props.margin = 0 := by
    rw [hA.props]
    rfl
  have htol : P.cfg.slam.tol = menv.base.tol := by
    obtain ⟨n', -, -, e⟩ := launchMr_some hw' hsen
    rw [hP, Option.some.injEq] at e
    subst e
    rfl
  obtain ⟨hx, hs1, ss, poses, g1, g2, g3, g4, g5⟩ := runner_multires_total hset hw' hsen hP (hK P) (fun h => h.elim) N hNok hl hR
    (by rw [hread]; exact hp) (by rw [hread]; exact hok) (by rw [hread]; exact hodo) (by
      intro m hm'
      obtain ⟨m1, m2, m3, m4, m5, m6⟩ := hmsg m hm'
      have hg : GoodMsg P.cfg.slam R m.body := by
        refine ⟨m1, ?_, m3, ⟨m4, m5⟩, fun pts _ => ?_⟩
        · rw [htol]
          exact m2
        · rw [hprops]
          cases pts with
          | nil => exact .inl rfl
          | cons a l => exact .inr (by simp)
      exact ⟨hg, looks_of_reading hg hA.filter m6⟩) (by rw [max_self]; exact hN)
  obtain ⟨hs', fin', ss', f1, f2, f3, f4, f5, -⟩ := runner_files hset hx
  rw [hargs] at f4 f5
  obtain ⟨l1, l2⟩ := g5 traj (by rw [hargs]) hwt
  refine ⟨hx, ⟨poses, l1.symm, l2⟩, ?_, fun f hf hfm => f5 f (fun h => hf (m3rsm_line_after hb ht hm h)) (by simpa using hf.symm) hfm⟩
  obtain ⟨v, v1, v2⟩ := f4 hm.2.1 (by simpa using htm) hwm
  have hmem : ss'.getLastD (P.start, (K P).start) ∈ (P.start, (K P).start) :: ss' := List.getLastD_mem_cons
  obtain ⟨p1, p2, p3⟩ := runner_multires_probabilities hw' hsen hP (hK P) f2 hmem v1
  exact ⟨v, _, v2, p1, p2, p3⟩

/-! ## Non-vacuity -/

/-- The surroundings of `Runner.Shipped`, with another SLAM. -/
noncomputable def m3rsmSurroundings (make : Table → Option Engine) : Env Unit Bool := { exampleSurroundings with oneHypothesis := make }

/-- A whole run over a bag with two scans, for some program that chooses among equal matches (`multires_exists`): the runner ends
normally, with two entries in the trajectory. -/
example : ∃ (K : (P : MrProgram Unit) → Chooser P Unit) (p q : Poses.Pose ℝ),
    let env := m3rsmSurroundings fun t => (launchMr false (stodDec Float.rne) (1 / 60) 7 mrExampleEnv t).map fun P =>
      ofMultires (fun _ => (1000, 1000, ⟨0, 0⟩)) P (K P)
    (main env exampleFs (m3rsmLine (chars% "a.bag") (chars% "traj.txt") (chars% "map.pgm"))).exit = some 0 ∧
    (main env exampleFs (m3rsmLine (chars% "a.bag") (chars% "traj.txt") (chars% "map.pgm"))).fs (chars% "traj.txt") =
        some (bytes (Text.tumFile [⟨10, 500000000, p.x, p.y, p.theta⟩, ⟨11, 500000000, q.x, q.y, q.theta⟩])) := by
  obtain ⟨K, hK⟩ : ∃ K : (P : MrProgram Unit) → Chooser P Unit, ∀ P, (K P).Faithful False :=
    ⟨fun P => (multires_exists P () False).choose, fun P => (multires_exists P () False).choose_spec⟩
  refine ⟨K, ?_⟩
  have hmsgs : Bag.msgs ([.tf [⟨chars% "odom_combined", chars% "laser", ()⟩], .msg (exampleScan 0), .msg (exampleScan 1)] :
      List (Bag.Rec LaserMsg (TransformMsg Unit))) = [exampleScan 0, exampleScan 1] := rfl
  have hrne : (1 / 20 : ℝ) ≤ Float.rne (1 / 10) := by
    have h := (Config.fair_nearest Float.rne_nearest).rel (1 / 10) (by norm_num [abs_of_pos]) (by norm_num [abs_of_pos])
    have h' := (abs_le.1 h).1
    have e : |(1 / 10 : ℝ)| / 2 ^ 50 ≤ 1 / 20 := by norm_num [abs_of_pos]
    generalize |(1 / 10 : ℝ)| / 2 ^ 50 = t at h' e
    linarith
  set env := m3rsmSurroundings fun t => (launchMr false (stodDec Float.rne) (1 / 60) 7 mrExampleEnv t).map fun P =>
      ofMultires (fun _ => (1000, 1000, ⟨0, 0⟩)) P (K P) with henv
  obtain ⟨h1, ⟨poses, h2, h3⟩, -⟩ := runner_tiny_m3rsm (Config.fair_nearest Float.rne_nearest) (rad := 1 / 60) (rnd := 7) (menv := mrExampleEnv)
    (by norm_num) (by norm_num) (le_refl _) (by decide) (by decide) 1000000
    (by intro v hv; simp only [mrExampleEnv, exampleEnv, decide_eq_true_eq]; omega) (by decide) (extent := fun _ => (1000, 1000, ⟨0, 0⟩)) (K := K) hK
    (env := env) (by intro t P hP; show Option.map _ _ = _; rw [hP]; rfl) rfl rfl
    (bag := chars% "a.bag") (traj := chars% "traj.txt") (map := chars% "map.pgm") ⟨by decide, by decide, by decide⟩
    ⟨by decide, by decide, by decide⟩ ⟨by decide, by decide, by decide⟩ (by decide) (by decide) rfl rfl (fs := exampleFs) (by
      intro p hp
      have : p ≠ chars% "a.bag" := by rintro rfl; revert hp; decide
      unfold exampleFs
      rw [if_neg this, Option.map_map]
      cases Config.shipped.content p with
      | none => rfl
      | some s => simp only [Option.map_some, Function.comp, chars_bytes]) (c := [1])
    (rs := [.tf [⟨chars% "odom_combined", chars% "laser", ()⟩], .msg (exampleScan 0), .msg (exampleScan 1)])
    rfl rfl (by
      have e : (exampleBag.filter fun b => decide (b.topic = chars% "/base_scan") || decide (b.topic = chars% "/tf")) =
        [⟨chars% "/tf", .transforms [⟨chars% "odom_combined", chars% "laser", ()⟩]⟩, ⟨chars% "/base_scan", .laser (exampleScan 0)⟩,
          ⟨chars% "/base_scan", .laser (exampleScan 1)⟩] := rfl
      unfold Recorded
      rw [e]
      exact .cons (.inr ⟨by decide, rfl, _, rfl, rfl⟩) (.cons (.inl ⟨rfl, _, rfl, rfl⟩) (.cons (.inl ⟨rfl, _, rfl, rfl⟩) .nil)))
    (by
      intro pre post m hpre hm
      rcases pre with _ | ⟨x, pre⟩
      · cases hm
      · simp only [List.cons_append, List.cons.injEq] at hpre
        obtain ⟨rfl, hpre⟩ := hpre
        have : Bag.cacheAfter (mitReader env)
            (.tf [⟨chars% "odom_combined", chars% "laser", ()⟩] :: pre : List (Bag.Rec LaserMsg (TransformMsg Unit))) = true := by
          rcases pre with _ | ⟨x, _ | ⟨y, _ | ⟨z, pre⟩⟩⟩ <;> simp only [List.cons_append, List.nil_append, List.cons.injEq] at hpre
          · rfl
          · obtain ⟨rfl, -⟩ := hpre; rfl
          · obtain ⟨rfl, rfl, -⟩ := hpre; rfl
          · obtain ⟨-, -, h⟩ := hpre; cases h
        have e : ∀ m, (mitReader env).lookup true m = .ok ⟨1 / 2, 0, 0⟩ := fun m => rfl
        rw [this, e]
        exact ⟨by simp, by simp⟩)
    (fun m _ => ⟨⟨1 / 2, 0, 0⟩, rfl⟩) 30 1 (by norm_num) (by
      rintro ⟨m, x⟩ ⟨pre, post, -, -, h⟩
      have e : ∀ c, (mitReader env).lookup c m = if c then .ok ⟨1 / 2, 0, 0⟩ else .thrown := fun c => rfl
      rw [e] at h
      cases hc : Bag.cacheAfter (mitReader env) pre with
      | false => rw [hc] at h; cases h
      | true =>
        rw [hc] at h
        simp only [if_true, Bag.Outcome.ok.injEq] at h
        subst h
        norm_num) (by
      intro m hm
      rw [hmsgs] at hm
      have sees : ∀ j, SeesSomething (exampleScan j).body := fun j => ⟨4, by simp [exampleScan], by norm_num [exampleScan], by norm_num [exampleScan], by norm_num⟩
      rcases List.mem_cons.1 hm with rfl | hm
      · exact ⟨by simp [exampleScan], by norm_num [exampleScan, mrExampleEnv, exampleEnv], by norm_num [exampleScan], by norm_num [exampleScan],
          by norm_num [exampleScan], sees 0⟩
      · cases List.mem_singleton.1 hm
        exact ⟨by simp [exampleScan], by norm_num [exampleScan, mrExampleEnv, exampleEnv], by norm_num [exampleScan], by norm_num [exampleScan],
          by norm_num [exampleScan], sees 1⟩) (by
      rw [hmsgs]
      norm_num
      norm_num at hrne
      linarith)
  rw [hmsgs] at h2 h3
  match poses, h2 with
  | [p, q], _ => exact ⟨p, q, h1, h3⟩

end Slam.Runner
