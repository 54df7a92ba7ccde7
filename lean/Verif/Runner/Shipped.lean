import Verif.Runner.Slams
import Verif.Whole.Shipped

/-!
# C97: the bag runner with the configuration shipped for TinySLAM

`tiny <bag> -p config/bag_runner/tiny_mit.properties -t <traj> -m <map>`, with the files of the repository.
-/

set_option autoImplicit false
set_option linter.unusedSectionVars false

namespace Slam.Runner
open Slam.Config (Str Table Args ArgState parseArgs stodDec)
open Slam.Whole

variable {D C : Type}

/-! ## Specification -/

/-- The command line. -/
def tinyLine (bag traj map : Str) : List Str :=
  [chars% "tiny", bag, chars% "-p", chars% "config/bag_runner/tiny_mit.properties", chars% "-t", traj, chars% "-m", map]

/-- A name of a file in the working directory that cannot be taken for an option. -/
def PlainName (s : Str) : Prop := '/' ∉ s ∧ s ≠ [] ∧ s.head? ≠ some '-'

/-- The reader the shipped configuration describes: odometry is looked up in the frame `odom_combined`, no transform is skipped. -/
def mitReader (env : Env D C) : Bag.Tf LaserMsg (TransformMsg D) C (Poses.Pose ℝ) where
  empty := env.tf.empty
  set := env.tf.set
  lookup := fun c m => env.tf.lookup c (chars% "odom_combined") m.frame m.sec m.nsec
  skip := fun _ => false

/-! ## Proofs -/

theorem tiny_line_args {bag traj map : Str} (hb : PlainName bag) (ht : PlainName traj) (hm : PlainName map) :
    parseArgs (tinyLine bag traj map) =
      ⟨true, chars% "tiny", bag, some traj, map, false, [chars% "config/bag_runner/tiny_mit.properties"], []⟩ := by
  obtain ⟨-, -, hb⟩ := hb
  obtain ⟨-, -, ht⟩ := ht
  obtain ⟨-, -, hm⟩ := hm
  have e1 : ¬ (chars% "tiny").head? = some '-' := by decide
  have e2 : (chars% "-p").head? = some '-' := by decide
  have e3 : ¬ (chars% "config/bag_runner/tiny_mit.properties").head? = some '-' := by decide
  have e4 : (chars% "-t").head? = some '-' := by decide
  have e5 : (chars% "-m").head? = some '-' := by decide
  unfold parseArgs tinyLine
  simp only [List.foldl_cons, List.foldl_nil]
  unfold Config.argStep
  simp only [if_neg e1, if_neg hb, if_pos e2, if_neg e3, if_pos e4, if_neg ht, if_pos e5, if_neg hm]
  rfl

theorem tiny_line_after {bag traj map f : Str} (hb : PlainName bag) (ht : PlainName traj) (hm : PlainName map)
    (h : After (tinyLine bag traj map) "-t".toList f) : f = traj := by
  obtain ⟨pre, post, e⟩ := h
  have hne : ∀ s, PlainName s → s ≠ ['-', 't'] := fun s hs e => hs.2.2 (by rw [e]; rfl)
  have hb' := hne _ hb
  have ht' := hne _ ht
  have hm' := hne _ hm
  have e' : tinyLine bag traj map = pre ++ ['-', 't'] :: f :: post := e
  unfold tinyLine at e'
  rcases pre with _ | ⟨a1, _ | ⟨a2, _ | ⟨a3, _ | ⟨a4, _ | ⟨a5, _ | ⟨a6, _ | ⟨a7, _ | ⟨a8, pre⟩⟩⟩⟩⟩⟩⟩⟩ <;>
    simp only [List.cons_append, List.nil_append, List.cons.injEq] at e' <;>
    first
    | exact absurd e'.1 (by decide)
    | exact absurd e'.2.1 hb'
    | exact absurd e'.2.2.1 (by decide)
    | exact absurd e'.2.2.2.1 (by decide)
    | exact e'.2.2.2.2.2.1.symm
    | exact absurd e'.2.2.2.2.2.1 ht'
    | exact absurd e'.2.2.2.2.2.2.1 (by decide)
    | exact absurd e'.2.2.2.2.2.2.2.1 hm'
    | (obtain ⟨-, -, -, -, -, -, -, -, e'⟩ := e'; cases pre <;> simp at e')

/-- What the shipped files say about the input. -/
theorem tiny_mit_input : ∃ t, Config.append Config.shipped 9 (chars% "config/bag_runner/tiny_mit.properties") Table.empty = some t ∧
    t (chars% "in/lscan2D/ros/topic/enabled") = some (chars% "true") ∧ t (chars% "in/lscan2D/ros/topic/name") = some (chars% "/base_scan") ∧
    t (chars% "in/odometry/ros/tf/enabled") = some (chars% "true") ∧ t (chars% "in/odometry/ros/tf/name") = some (chars% "/tf") ∧
    t (chars% "in/odometry/ros/tf/odom_frame_id") = some (chars% "odom_combined") ∧ t (chars% "in/odometry/ros/tf/ignore") = none := by
  have h : ((Config.append Config.shipped 9 (chars% "config/bag_runner/tiny_mit.properties") Table.empty).map fun t =>
      [chars% "in/lscan2D/ros/topic/enabled", chars% "in/lscan2D/ros/topic/name", chars% "in/odometry/ros/tf/enabled",
        chars% "in/odometry/ros/tf/name", chars% "in/odometry/ros/tf/odom_frame_id", chars% "in/odometry/ros/tf/ignore"].map t) =
      some [some (chars% "true"), some (chars% "/base_scan"), some (chars% "true"), some (chars% "/tf"), some (chars% "odom_combined"), none] := by
    decide +kernel
  rw [Option.map_eq_some_iff] at h
  obtain ⟨t, h1, h2⟩ := h
  simp only [List.map_cons, List.map_nil, List.cons.injEq, and_true] at h2
  obtain ⟨a, b, c, d, e, f⟩ := h2
  exact ⟨t, h1, a, b, c, d, e, f⟩

theorem tol_of {stod : Str → Option ℝ} {rad : ℝ} {rnd : Nat} {wenv : Whole.Env} {sample : Int → Nat → ℝ → ℝ → Poses.Delta ℝ}
    {t : Table} {w : Config.World ℝ} (hw : Config.init1h stod rad rnd t = some w) {P : MProgram}
    (hP : launchAny stod rad rnd wenv sample t = some P) : P.cfg.slam.tol = wenv.tol := by
  cases ho : w.matcher.spe.oope with
  | gmapping a b => rw [launchAny, hw, Option.bind_some, ho] at hP; cases hP
  | std oope oie =>
    obtain ⟨s, m, -, -, rfl⟩ := launchAny_some hw ho hP
    rfl

theorem mem_resolve (p name : Str) : '/' ∈ Config.shipped.resolve p name := by
  simp [Config.shipped]

/-- **TinySLAM over a bag, with the shipped configuration (C97).** The configuration files are those of the repository; the bag,
the trajectory file and the map file are different files of the working directory, the latter two writable. On the topic `/base_scan` the bag
has scans, on `/tf` transforms; no lookup in the frame `odom_combined` fails or speaks of the past, and the transforms suffice
for every scan, placing it within `B` of the origin. The scans are well-formed, with ranges up to `R`. The random shifts drawn are
within `b`, and everything reached stays within the integers the traversal copes with. Then the runner exits with status zero; the
trajectory file has one entry for each scan on the topic, in order; the map file is an image in which every pixel shows a
probability; all other files are as before. `r` is the rounding of numbers in the configuration. -/
theorem runner_tiny_mit {r : ℝ → ℝ} (F : Config.Fair r) {rad : ℝ} {rnd : Nat} {wenv : Whole.Env}
    {sample : Int → Nat → ℝ → ℝ → Poses.Delta ℝ} (hcf : 0 < wenv.cellFuel) (hF : wenv.fuel = 101) (b : ℝ) (hb0 : 0 ≤ b)
    (hsam : ∀ n x y, Matcher.WithinShift b (sample (Config.unsignedToInt rnd) n x y))
    (N : Int) (hNok : ∀ v, |v| ≤ 6 * N → wenv.ok v = true) (hl : 4 * N + 2 ≤ wenv.lineFuel)
    {env : Env D C} (henv : env.oneHypothesis = fun t => (launchAny (stodDec r) rad rnd wenv sample t).map ofProgram)
    (hres : env.resolve = Config.shipped.resolve) (hdep : env.depth = 9)
    {bag traj map : Str} (hb : PlainName bag) (ht : PlainName traj) (hm : PlainName map) (hbt : bag ≠ traj)
    (htm : traj ≠ map) (hwt : env.writable traj = true) (hwm : env.writable map = true)
    {fs : Fs} (hfs : ∀ p, '/' ∈ p → (fs p).map chars = Config.shipped.content p)
    {c : List Nat} {ms : List (BagMsg D)} {rs : List (Bag.Rec LaserMsg (TransformMsg D))} (hc : fs bag = some c)
    (hms : env.openBag c = some ms) (hrs : Recorded (chars% "/base_scan") (chars% "/tf") ms rs)
    (hp : Bag.Patient (mitReader env) rs)
    (hok : ∀ m ∈ Bag.msgs rs, ∃ x, (mitReader env).lookup (Bag.cacheAfter (mitReader env) rs) m = .ok x)
    (R B : ℝ) (hR : 0 ≤ R) (hodo : ∀ p, Found (mitReader env) rs p → |p.2.x| ≤ B ∧ |p.2.y| ≤ B)
    (hmsg : ∀ m ∈ Bag.msgs rs, none ∉ m.body.ranges ∧
      |m.body.angleMin + (m.body.ranges.length : ℝ) * m.body.increment - m.body.increment - m.body.angleMax| ≤ wenv.tol ∧
      0 ≤ m.body.rangeMin ∧ 0 ≤ m.body.rangeMax ∧ m.body.rangeMax ≤ R)
    (hN : (Bag.msgs rs).length * (100 * b) + B + R ≤ r (1 / 10) * (N - 1)) :
    (main env fs (tinyLine bag traj map)).exit = some 0 ∧
    (∃ poses : List (Poses.Pose ℝ), poses.length = (Bag.msgs rs).length ∧
      (main env fs (tinyLine bag traj map)).fs traj = some (bytes (Text.tumFile
        (((Bag.msgs rs).zip poses).map fun p => ⟨p.1.sec, p.1.nsec, p.2.x, p.2.y, p.2.theta⟩)))) ∧
    (∃ v : Dump.MapView ℝ, (main env fs (tinyLine bag traj map)).fs map = some (Dump.dumpMap v) ∧ ∀ c, 0 ≤ v.occ c ∧ v.occ c ≤ 1) ∧
    ∀ f, f ≠ traj → f ≠ map → (main env fs (tinyLine bag traj map)).fs f = fs f := by
  obtain ⟨t, ht1, k1, k2, k3, k4, k5, k6⟩ := tiny_mit_input
  obtain ⟨t', h1, h2⟩ := Config.tiny_mit_read
  rw [ht1, Option.some.injEq] at h1
  subst h1
  obtain ⟨n, hn, -, hw⟩ := Config.tiny_world F rad rnd
  have hw' : Config.init1h (stodDec r) rad rnd t = some (Config.tinyWorld r rnd n) := by
    rw [← hw]
    exact Config.init1h_congr _ _ _ _ _ fun k hk => h2 k (known_in hk)
  have hs : skipExceeding t = false := skip_of_listed h2 (by decide +kernel)
  have hsen := tiny_sensible F rnd n (by omega)
  obtain ⟨P, hP⟩ := launched_any_starts (env := wenv) (sample := sample) hw' hsen rfl (by intro _ _ _ _ _; simp [Config.tinyWorld])
  have hA := (launched_any_behaves hw' hsen rfl trivial hcf hP).1
  have hargs := tiny_line_args hb ht hm
  have hread : reader env t = mitReader env := by
    have e1 : Config.getStr t "in/odometry/ros/tf/odom_frame_id".toList "odom_combined".toList = chars% "odom_combined" := by
      unfold Config.getStr
      rw [show t "in/odometry/ros/tf/odom_frame_id".toList = _ from k5]
      rfl
    have e2 : Config.tfIgnores t = fun _ => [] := by
      unfold Config.tfIgnores Config.getStr
      rw [show t "in/odometry/ros/tf/ignore".toList = none from k6]
      rfl
    unfold reader mitReader
    rw [e1, e2]
    simp [Config.shouldSkip]
  have hR' : ∀ p, '/' ∈ p → (env.files fs).content p = Config.shipped.content p := hfs
  have hset : Setup env fs (tinyLine bag traj map) t (ofProgram P) rs := by
    refine ⟨by rw [hargs], ⟨fun p => '/' ∈ p, ?_, ?_, ?_⟩, ?_, .inl ⟨by rw [hargs]; exact .inl rfl, by rw [henv]; show Option.map _ _ = _; rw [hP]; rfl⟩, ?_, ?_, ?_, ?_⟩
    · intro p hp'
      rw [hargs] at hp'
      rw [List.mem_singleton.1 hp']
      decide
    · intro p c name _ _ _
      rw [hres]
      exact mem_resolve p name
    · intro f hf
      rw [tiny_line_after hb ht hm hf]
      exact ht.1
    · rw [hargs, hdep]
      simp only [Config.appendAll]
      rw [append_congr (env.files fs) Config.shipped hres (fun p => '/' ∈ p)
        (fun p c name _ _ _ => by show '/' ∈ env.resolve p name; rw [hres]; exact mem_resolve p name) (fun p hp' => (hR' p hp').symm) 9 _ (by decide), ht1]
      rfl
    · unfold Config.getBool
      rw [show t "in/lscan2D/ros/topic/enabled".toList = _ from k1]
      rfl
    · unfold Config.getBool
      rw [show t "in/odometry/ros/tf/enabled".toList = _ from k3]
      rfl
    · rw [hargs]
      exact fun h => hbt (tiny_line_after hb ht hm h)
    · rw [hargs]
      refine ⟨c, ms, hc, hms, ?_⟩
      unfold Config.getStr
      rw [show t "in/lscan2D/ros/topic/name".toList = _ from k2, show t "in/odometry/ros/tf/name".toList = _ from k4]
      exact hrs
  have hprops : P.cfg.slam.props.margin = 0 := by
    rw [show P.cfg.slam.props = _ from hA.props]
    rfl
  obtain ⟨hx, hs1, ss, poses, g1, g2, g3, g4, g5⟩ := runner_single_total hset hP hw' hsen rfl trivial hcf (100 * b) (by positivity)
    (.inr ⟨_, _, _, _, _, b, rfl, hF, hb0, hsam, by norm_num⟩) (by omega) N hNok hl R B hR (by rw [hread]; exact hp) (by rw [hread]; exact hok)
    (by rw [hread]; exact hodo) (by
      intro m hm'
      obtain ⟨m1, m2, m3, m4, m5⟩ := hmsg m hm'
      refine ⟨m1, ?_, m3, ⟨m4, m5⟩, fun pts _ => ?_⟩
      · rw [show P.cfg.slam.tol = wenv.tol from tol_of hw' hP]
        exact m2
      · rw [hprops]
        cases pts with
        | nil => exact .inl rfl
        | cons a l => exact .inr (by simp)) (by
      have e : driftReach (Config.tinyWorld r rnd n).matcher.drift = 0 := by simp [driftReach, Config.tinyWorld]
      rw [e, add_zero]
      exact hN)
  obtain ⟨hs', fin', ss', f1, f2, f3, f4, f5, -⟩ := runner_files hset hx
  rw [hargs] at f4 f5
  obtain ⟨l1, l2⟩ := g5 traj (by rw [hargs]) hwt
  refine ⟨hx, ⟨poses, l1.symm, l2⟩, ?_, fun f hf hfm => f5 f (fun h => hf (tiny_line_after hb ht hm h)) (by simpa using hf.symm) hfm⟩
  obtain ⟨v, v1, v2⟩ := f4 hm.2.1 (by simpa using htm) hwm
  refine ⟨v, v2, fun c => ?_⟩
  rcases runner_single_probabilities hw' hsen rfl trivial hcf hP f2 v1 c with h | ⟨h, -⟩
  · exact h
  · have : P.kind = .mean := hA.cell.1 rfl
    rw [this] at h
    cases h

/-! ## Non-vacuity -/

/-- A scan with one beam. -/
def exampleScan (k : Nat) : LaserMsg := ⟨10 + k, 500000000, chars% "laser", ⟨0, 0, 1, 0, 30, [some 4]⟩⟩

/-- A bag in which the odometry says that the robot is half a metre ahead: transforms, a scan, a message nobody asked for, a scan. -/
def exampleBag : List (BagMsg Unit) :=
  [⟨chars% "/tf", .transforms [⟨chars% "odom_combined", chars% "laser", ()⟩]⟩, ⟨chars% "/base_scan", .laser (exampleScan 0)⟩,
    ⟨chars% "/tilt_scan", .laser (exampleScan 7)⟩, ⟨chars% "/base_scan", .laser (exampleScan 1)⟩]

/-- The surroundings: a transformer that knows no transform at first. -/
noncomputable def exampleSurroundings : Env Unit Bool where
  writable := fun _ => true
  resolve := Config.shipped.resolve
  depth := 9
  openBag := fun c => if c = [1] then some exampleBag else none
  tf := ⟨false, fun _ _ => true, fun c _ _ _ _ => if c then .ok ⟨1 / 2, 0, 0⟩ else .thrown⟩
  oneHypothesis := fun t => (launchAny (stodDec Float.rne) (1 / 60) 7 exampleEnv (fun _ _ _ _ => ⟨1, -1, 1⟩) t).map ofProgram
  gmapping := fun _ => none

/-- The repository, with a bag. -/
def exampleFs : Fs := fun p => if p = chars% "a.bag" then some [1] else (Config.shipped.content p).map bytes

/-- A whole run over a bag with two scans, with the numbers of the configuration rounded to the nearest double: the runner ends
normally, with two entries in the trajectory. -/
example : (main exampleSurroundings exampleFs (tinyLine (chars% "a.bag") (chars% "traj.txt") (chars% "map.pgm"))).exit = some 0 ∧
    ∃ p q : Poses.Pose ℝ,
      (main exampleSurroundings exampleFs (tinyLine (chars% "a.bag") (chars% "traj.txt") (chars% "map.pgm"))).fs (chars% "traj.txt") =
        some (bytes (Text.tumFile [⟨10, 500000000, p.x, p.y, p.theta⟩, ⟨11, 500000000, q.x, q.y, q.theta⟩])) := by
  have hmsgs : Bag.msgs ([.tf [⟨chars% "odom_combined", chars% "laser", ()⟩], .msg (exampleScan 0), .msg (exampleScan 1)] :
      List (Bag.Rec LaserMsg (TransformMsg Unit))) = [exampleScan 0, exampleScan 1] := rfl
  have hrne : (1 / 20 : ℝ) ≤ Float.rne (1 / 10) := by
    have h := (Config.fair_nearest Float.rne_nearest).rel (1 / 10) (by norm_num [abs_of_pos]) (by norm_num [abs_of_pos])
    have h' := (abs_le.1 h).1
    have e : |(1 / 10 : ℝ)| / 2 ^ 50 ≤ 1 / 20 := by norm_num [abs_of_pos]
    generalize |(1 / 10 : ℝ)| / 2 ^ 50 = t at h' e
    linarith
  obtain ⟨h1, ⟨poses, h2, h3⟩, -⟩ := runner_tiny_mit (Config.fair_nearest Float.rne_nearest) (rad := 1 / 60) (rnd := 7) (wenv := exampleEnv)
    (sample := fun _ _ _ _ => ⟨1, -1, 1⟩) (by decide) rfl 1 (by norm_num) (by intro n x y; constructor <;> norm_num) 1000000
    (by intro v hv; simp only [exampleEnv, decide_eq_true_eq]; omega) (by decide) (env := exampleSurroundings) rfl rfl rfl
    (bag := chars% "a.bag") (traj := chars% "traj.txt") (map := chars% "map.pgm") ⟨by decide, by decide, by decide⟩
    ⟨by decide, by decide, by decide⟩ ⟨by decide, by decide, by decide⟩ (by decide) (by decide) rfl rfl (fs := exampleFs) (by
      intro p hp
      have : p ≠ chars% "a.bag" := by rintro rfl; revert hp; decide
      unfold exampleFs
      rw [if_neg this, Option.map_map]
      cases Config.shipped.content p with
      | none => rfl
      | some s => simp only [Option.map_some, Function.comp, chars_bytes]) (c := [1])
    (rs := [.tf [⟨chars% "odom_combined", chars% "laser", ()⟩], .msg (exampleScan 0), .msg (exampleScan 1)])
    rfl rfl (by
      have e : (exampleBag.filter fun b => decide (b.topic = chars% "/base_scan") || decide (b.topic = chars% "/tf")) =
        [⟨chars% "/tf", .transforms [⟨chars% "odom_combined", chars% "laser", ()⟩]⟩, ⟨chars% "/base_scan", .laser (exampleScan 0)⟩,
          ⟨chars% "/base_scan", .laser (exampleScan 1)⟩] := rfl
      unfold Recorded
      rw [e]
      exact .cons (.inr ⟨by decide, rfl, _, rfl, rfl⟩) (.cons (.inl ⟨rfl, _, rfl, rfl⟩) (.cons (.inl ⟨rfl, _, rfl, rfl⟩) .nil)))
    (by
      intro pre post m hpre hm
      rcases pre with _ | ⟨x, pre⟩
      · cases hm
      · simp only [List.cons_append, List.cons.injEq] at hpre
        obtain ⟨rfl, hpre⟩ := hpre
        have : Bag.cacheAfter (mitReader exampleSurroundings)
            (.tf [⟨chars% "odom_combined", chars% "laser", ()⟩] :: pre : List (Bag.Rec LaserMsg (TransformMsg Unit))) = true := by
          rcases pre with _ | ⟨x, _ | ⟨y, _ | ⟨z, pre⟩⟩⟩ <;> simp only [List.cons_append, List.nil_append, List.cons.injEq] at hpre
          · rfl
          · obtain ⟨rfl, -⟩ := hpre; rfl
          · obtain ⟨rfl, rfl, -⟩ := hpre; rfl
          · obtain ⟨-, -, h⟩ := hpre; cases h
        have e : ∀ m, (mitReader exampleSurroundings).lookup true m = .ok ⟨1 / 2, 0, 0⟩ := fun m => rfl
        rw [this, e]
        exact ⟨by simp, by simp⟩)
    (fun m _ => ⟨⟨1 / 2, 0, 0⟩, rfl⟩) 30 1 (by norm_num) (by
      rintro ⟨m, x⟩ ⟨pre, post, -, -, h⟩
      have e : ∀ c, (mitReader exampleSurroundings).lookup c m = if c then .ok ⟨1 / 2, 0, 0⟩ else .thrown := fun c => rfl
      rw [e] at h
      cases hc : Bag.cacheAfter (mitReader exampleSurroundings) pre with
      | false => rw [hc] at h; cases h
      | true =>
        rw [hc] at h
        simp only [if_true, Bag.Outcome.ok.injEq] at h
        subst h
        norm_num) (by
      intro m hm
      rw [hmsgs] at hm
      rcases List.mem_cons.1 hm with rfl | hm
      · (norm_num [exampleScan, exampleEnv]; nofun)
      · cases List.mem_singleton.1 hm
        (norm_num [exampleScan, exampleEnv]; nofun)) (by
      rw [hmsgs]
      norm_num
      norm_num at hrne
      linarith)
  rw [hmsgs] at h2 h3
  match poses, h2 with
  | [p, q], _ => exact ⟨h1, p, q, h3⟩

end Slam.Runner
