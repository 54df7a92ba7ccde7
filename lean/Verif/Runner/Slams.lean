import Verif.Runner.Props
import Verif.Whole.FixedLaunch
import Verif.Whole.GmappingLaunch

/-!
# C97: the bag runner with the SLAMs it can run

The single-hypothesis SLAM (`Whole.MachineLaunch`, on a map of fixed size `Whole.FixedLaunch`) and GMapping
(`Whole.GmappingLaunch`) as engines of the runner. The multi-resolution matcher is put in by `Runner.Multires`. The tables of sines the world
keeps (C42) are not part of these programs: they use the exact functions.
-/

set_option autoImplicit false
set_option linter.unusedSectionVars false

namespace Slam.Runner
open Slam.Config (Str Table Args ArgState parseArgs)
open Slam.Whole

variable {D C : Type}

/-! ## Model -/

/-- What a dumper reads from the map, src/ros/lslam2D_bag_runner.cpp:88-94, as `MapApi.shown`. A cell whose occupancy is NaN is
drawn as if it were occupied: `std::min(1.0, NaN)` is 1, src/core/math_utils.h:33-35. -/
noncomputable def viewOf (P : MProgram) (m : AnyMap P.kind.Cell) : Dump.MapView ℝ :=
  P.cfg.slam.api.shown m (P.cfg.dims m).width (P.cfg.dims m).height (P.cfg.origin m) P.cfg.slam.scale
    fun c => (P.kind.value c).getD 1

/-- A single-hypothesis SLAM on a growing map, lslam2D_bag_runner.cpp:163-164. -/
noncomputable def ofProgram (P : MProgram) : Engine where
  S := Mach (AnyMap P.kind.Cell) P.T
  start := P.start
  handle := Mach.handle P.cfg
  pose := fun s => some s.st.pose
  view := fun s => some (viewOf P s.st.map)

/-- A single-hypothesis SLAM on a map of fixed size. -/
noncomputable def ofFixed (P : MProgram) : Engine where
  S := Mach (AnyMap P.kind.Cell) P.T
  start := P.start
  handle := Mach.handleFixed P.cfg
  pose := fun s => some s.st.pose
  view := fun s => some (viewOf P s.st.map)

/-- The random numbers GMapping draws for a message. -/
structure Chance where
  guess : Nat → Poses.Delta ℝ
  nextSm : Nat → Poses.Delta ℝ
  samples : List ℝ

/-- A message with the random numbers drawn for it. -/
def Chance.msg (r : Chance) (d : Poses.Pose ℝ × Worlds.Msg ℝ) : GMsg := ⟨d.1, d.2, r.guess, r.nextSm, r.samples⟩

/-- GMapping, lslam2D_bag_runner.cpp:165-166; `chance k` is what is drawn for the `k`-th message. Without particles there is no map
to show (gmapping_particle_filter.h:64-66). -/
noncomputable def ofGmapping (chance : Nat → Chance) (P : GProgram) : Engine where
  S := GOwn (AnyMap (Cells.GmCell ℝ)) × Nat
  start := (P.start, 0)
  handle := fun s d => (s.1.handle P.cfg ((chance s.2).msg d)).map fun s' => (s', s.2 + 1)
  pose := fun s => s.1.st.pose
  view := fun s => s.1.st.filter.world.map fun _ =>
    P.cfg.slam.api.shown s.1.st.map (P.cfg.dims s.1.st.map).width (P.cfg.dims s.1.st.map).height (P.cfg.origin s.1.st.map)
      P.cfg.slam.scale fun c => c.occ.prob

/-! ## Specification -/

/-- The message was in the bag, and when it had been read the odometry pose `p.2` was found for it. -/
def Found (tf : Bag.Tf LaserMsg (TransformMsg D) C (Poses.Pose ℝ)) (rs : List (Bag.Rec LaserMsg (TransformMsg D)))
    (p : LaserMsg × Poses.Pose ℝ) : Prop :=
  ∃ pre post, rs = pre ++ post ∧ p.1 ∈ Bag.msgs pre ∧ tf.lookup (Bag.cacheAfter tf pre) p.1 = .ok p.2

/-- What SLAM gets of a message. -/
def datum (p : LaserMsg × Poses.Pose ℝ) : Poses.Pose ℝ × Worlds.Msg ℝ := (p.2, p.1.body)

/-- The trajectory file, if one is asked for, has one entry for each message `ms`, in order, with the message's time stamp and the
pose of the state after it. -/
def TrajectoryOf (env : Env D C) (argv : List Str) (fs : Fs) (ms : List LaserMsg) (poses : List (Poses.Pose ℝ)) : Prop :=
  ∀ f, (parseArgs argv).traj = some f → env.writable f = true →
    ms.length = poses.length ∧
    fs f = some (bytes (Text.tumFile ((ms.zip poses).map fun p => ⟨p.1.sec, p.1.nsec, p.2.x, p.2.y, p.2.theta⟩)))

/-! ## Proofs -/

theorem run_found (tf : Bag.Tf LaserMsg (TransformMsg D) C (Poses.Pose ℝ)) (rs : List (Bag.Rec LaserMsg (TransformMsg D))) (fuel : Nat) :
    ∀ p ∈ (Bag.run tf fuel rs (Bag.St.start tf)).1, Found tf rs p := by
  intro p hp
  obtain ⟨fs, rest, h1, h2, h3, h4⟩ := Bag.handled_in_order tf rs fuel
  rw [h2] at hp
  simp only [Bag.handled, List.mem_filterMap] at hp
  obtain ⟨f, hf, e⟩ := hp
  obtain ⟨pre, post, e1, e2, e3⟩ := h3 f hf
  cases hx : f.2 with
  | none => rw [hx] at e; cases e
  | some x =>
    rw [hx] at e e3
    simp only [Option.map_some, Option.some.injEq] at e
    subst e
    exact ⟨pre, post, e1, e2, e3⟩

/-- Messages that can be served one after another, by a function that handles lists. -/
theorem serves_of_run {P : Engine} (run : P.S → List (LaserMsg × Poses.Pose ℝ) → Option P.S)
    (hc : ∀ s d ds, run s (d :: ds) = (P.handle s (datum d)).bind fun s' => run s' ds)
    (l : List (LaserMsg × Poses.Pose ℝ)) : ∀ s s', run s l = some s' → ∃ ss, Serves P s l ss := by
  induction l with
  | nil => intro s s' _; exact ⟨[], .nil s⟩
  | cons d l ih =>
    intro s s' h
    rw [hc, Option.bind_eq_some_iff] at h
    obtain ⟨s1, h1, h2⟩ := h
    obtain ⟨ss, h3⟩ := ih s1 s' h2
    exact ⟨s1 :: ss, .cons s s1 d.1 d.2 l ss h1 h3⟩

/-- The states after the messages, by a function that handles lists. -/
theorem run_of_serves {P : Engine} {run : P.S → List (LaserMsg × Poses.Pose ℝ) → Option P.S}
    (hn : ∀ s, run s [] = some s) (hc : ∀ s d ds, run s (d :: ds) = (P.handle s (datum d)).bind fun s' => run s' ds)
    {s : P.S} {l : List (LaserMsg × Poses.Pose ℝ)} {ss : List P.S} (h : Serves P s l ss) :
    ∀ i (hi : i < ss.length), run s (l.take (i + 1)) = some ss[i] := by
  induction h with
  | nil => intro i hi; exact absurd hi (by simp)
  | cons s s' m x l ss h1 h2 ih =>
    intro i hi
    rw [List.take_succ_cons, hc]
    have : P.handle s (datum (m, x)) = some s' := h1
    rw [this, Option.bind_some]
    cases i with
    | zero => rw [List.take_zero, hn]; rfl
    | succ i => exact ih i (by simpa using hi)

theorem run_last {P : Engine} {run : P.S → List (LaserMsg × Poses.Pose ℝ) → Option P.S}
    (hn : ∀ s, run s [] = some s) (hc : ∀ s d ds, run s (d :: ds) = (P.handle s (datum d)).bind fun s' => run s' ds)
    {s : P.S} {l : List (LaserMsg × Poses.Pose ℝ)} {ss : List P.S} (h : Serves P s l ss) :
    run s l = some (ss.getLastD s) := by
  induction h with
  | nil => exact hn _
  | cons s s' m x l ss h1 h2 ih =>
    rw [hc]
    have : P.handle s (datum (m, x)) = some s' := h1
    rw [this, Option.bind_some, ih]
    cases ss <;> simp [List.getLastD]

theorem serves_prefix {P : Engine} {run : P.S → List (LaserMsg × Poses.Pose ℝ) → Option P.S}
    (hn : ∀ s, run s [] = some s) (hc : ∀ s d ds, run s (d :: ds) = (P.handle s (datum d)).bind fun s' => run s' ds)
    {s : P.S} {l : List (LaserMsg × Poses.Pose ℝ)} {ss : List P.S} (h : Serves P s l ss) :
    ∀ t ∈ s :: ss, ∃ l', l' <+: l ∧ run s l' = some t := by
  induction h with
  | nil => intro t ht; cases List.mem_singleton.1 ht; exact ⟨[], List.nil_prefix, hn _⟩
  | cons s s1 m x l ss h1 h2 ih =>
    intro t ht
    rcases List.mem_cons.1 ht with rfl | ht
    · exact ⟨[], List.nil_prefix, hn _⟩
    · obtain ⟨l', h3, h4⟩ := ih t ht
      refine ⟨(m, x) :: l', List.cons_prefix_cons.2 ⟨rfl, h3⟩, ?_⟩
      have : P.handle s (datum (m, x)) = some s1 := h1
      rw [hc, this]
      exact h4

theorem all_some {S : Type} (f : S → Option (Poses.Pose ℝ)) (ss : List S) (h : ∀ t ∈ ss, ∃ p, f t = some p) :
    ∃ poses : List (Poses.Pose ℝ), ss.map f = poses.map some := by
  induction ss with
  | nil => exact ⟨[], rfl⟩
  | cons a l ih =>
    obtain ⟨ps, h1⟩ := ih fun t ht => h t (List.mem_cons_of_mem _ ht)
    obtain ⟨p, h2⟩ := h a (by simp)
    exact ⟨p :: ps, by simp [h1, h2]⟩

theorem heaviest_some (h : Nat → Particle.World ℝ) (is : List Nat) : ∀ b, ∃ j, Particle.heaviest h is (some b) = some j := by
  induction is with
  | nil => intro b; exact ⟨b, rfl⟩
  | cons i is ih =>
    intro b
    unfold Particle.heaviest
    by_cases e : Particle.ltN (h i).weight (h b).weight = true
    · simp only [e, if_true]; exact ih b
    · simp only [e]; exact ih i

theorem serves_map {P : Engine} (I : P.S → Prop) (f : P.S → Poses.Pose ℝ)
    (hstep : ∀ s s' d, I s → P.handle s d = some s' → I s' ∧ f s' = d.1) {s : P.S} {hs : List (LaserMsg × Poses.Pose ℝ)} {ss : List P.S}
    (h0 : I s) (h : Serves P s hs ss) : ss.map f = hs.map Prod.snd := by
  induction h with
  | nil => rfl
  | cons s s1 m x l ss h1 h2 ih =>
    obtain ⟨e1, e2⟩ := hstep s s1 _ h0 h1
    rw [List.map_cons, List.map_cons, ih e1, e2]

/-- The entries of the trajectory are determined. -/
theorem logs_unique {P : Engine} {hs : List (LaserMsg × Poses.Pose ℝ)} {ss : List P.S} {ls : List Text.Logged}
    {poses : List (Poses.Pose ℝ)} (hl : hs.length = ss.length) (hp : ss.map P.pose = poses.map some) (h : Logs P hs ss ls) :
    ls = ((hs.map Prod.fst).zip poses).map fun p => ⟨p.1.sec, p.1.nsec, p.2.x, p.2.y, p.2.theta⟩ := by
  have hlen : ss.length = poses.length := by simpa using congrArg List.length hp
  unfold Logs at h
  rw [List.forall₂_iff_get] at h
  obtain ⟨h1, h2⟩ := h
  have h1' : ls.length = hs.length := by rw [← h1]; simp [hl]
  apply List.ext_getElem
  · simp [h1', hl, hlen]
  · intro i hi hi'
    have hi1 : i < hs.length := by omega
    have hi2 : i < ss.length := by omega
    have hi3 : i < poses.length := by omega
    obtain ⟨e1, e2, e3⟩ := h2 i (by simp [hi1, hi2]) hi
    simp only [List.get_eq_getElem, List.getElem_zip] at e1 e2 e3
    have e4 : P.pose ss[i] = some poses[i] := by
      have := congrArg (fun l => l[i]?) hp
      simp only [List.getElem?_map, List.getElem?_eq_getElem hi2, List.getElem?_eq_getElem hi3, Option.map_some,
        Option.some.injEq] at this
      exact this
    rw [e4, Option.some.injEq] at e3
    simp only [List.getElem_map, List.getElem_zip, e3]
    rw [← e1, ← e2]

/-- As `runner_all_handled`, for states `ss` that are known. -/
theorem runner_followed {env : Env D C} {fs : Fs} {argv : List Str} {props : Table} {P : Engine}
    {rs : List (Bag.Rec LaserMsg (TransformMsg D))} (h : Setup env fs argv props P rs) (hp : Bag.Patient (reader env props) rs)
    (hok : ∀ m ∈ Bag.msgs rs, ∃ x, (reader env props).lookup (Bag.cacheAfter (reader env props) rs) m = .ok x)
    {ss : List P.S} {poses : List (Poses.Pose ℝ)} {v : Dump.MapView ℝ}
    (h1 : Serves P P.start (Bag.run (reader env props) (rs.length + 1) rs (Bag.St.start (reader env props))).1 ss)
    (h2 : ss.map P.pose = poses.map some) (h3 : P.view (ss.getLastD P.start) = some v) :
    (main env fs argv).exit = some 0 ∧ TrajectoryOf env argv (main env fs argv).fs (Bag.msgs rs) poses := by
  have hall := Bag.no_message_lost (reader env props) rs hp hok (rs.length + 1) (Nat.lt_succ_self _)
  have hend : ∃ fin, (Bag.run (reader env props) (rs.length + 1) rs (Bag.St.start (reader env props))).2 = .ended fin := by
    rcases Bag.run_ends (reader env props) rs (rs.length + 1) (Nat.lt_succ_self _) with ⟨fin, he⟩ | he
    · exact ⟨fin, he⟩
    · exact absurd he (Bag.run_patient hp (rs.length + 1) rs (pre := []) (by simp) (Bag.start_inv _))
  obtain ⟨fin, hfin⟩ := hend
  have hx : (main env fs argv).exit = some 0 := by
    refine (runner_exit h).2.2 ⟨_, fin, ss, Prod.ext rfl hfin, h1, fun _ t ht => ?_, fun _ => ⟨v, h3⟩⟩
    have : P.pose t ∈ ss.map P.pose := List.mem_map_of_mem ht
    rw [h2] at this
    obtain ⟨p, -, hp⟩ := List.mem_map.1 this
    exact ⟨p, hp.symm⟩
  refine ⟨hx, fun f hf hw => ?_⟩
  obtain ⟨hs', fin', ss', g1, g2, g3, -⟩ := runner_files h hx
  obtain ⟨ls, g4, g5⟩ := g3 f hf hw
  have e : (Bag.run (reader env props) (rs.length + 1) rs (Bag.St.start (reader env props))).1 = hs' := by rw [g1]
  have es : ss' = ss := by
    rw [e] at h1
    exact serves_unique g2 h1
  subst es
  have hlen : ss'.length = poses.length := by simpa using congrArg List.length h2
  refine ⟨by rw [← hall, List.length_map, ← hlen]; exact h1.length, ?_⟩
  rw [g5, logs_unique (e ▸ h1.length) h2 g4, ← hall, e]

/-- **A bag that can be followed is handled to its end (C97)**: if no lookup fails or speaks of the past, the transforms of the bag
suffice for every message, and the SLAM handles the messages, the runner ends normally, having handled every scan of the bag, and
the trajectory has one entry for each of them. -/
theorem runner_all_handled {env : Env D C} {fs : Fs} {argv : List Str} {props : Table} {P : Engine}
    {rs : List (Bag.Rec LaserMsg (TransformMsg D))} (h : Setup env fs argv props P rs) (hp : Bag.Patient (reader env props) rs)
    (hok : ∀ m ∈ Bag.msgs rs, ∃ x, (reader env props).lookup (Bag.cacheAfter (reader env props) rs) m = .ok x)
    (hserve : ∀ hs : List (LaserMsg × Poses.Pose ℝ), hs.map Prod.fst = Bag.msgs rs → (∀ p ∈ hs, Found (reader env props) rs p) →
      ∃ ss, Serves P P.start hs ss ∧ (∃ poses : List (Poses.Pose ℝ), ss.map P.pose = poses.map some) ∧
        ∃ v, P.view (ss.getLastD P.start) = some v) :
    (main env fs argv).exit = some 0 ∧
    ∃ hs ss poses, hs.map Prod.fst = Bag.msgs rs ∧ (∀ p ∈ hs, Found (reader env props) rs p) ∧ Serves P P.start hs ss ∧
      ss.map P.pose = poses.map some ∧ TrajectoryOf env argv (main env fs argv).fs (Bag.msgs rs) poses := by
  have hall := Bag.no_message_lost (reader env props) rs hp hok (rs.length + 1) (Nat.lt_succ_self _)
  have hfound := run_found (reader env props) rs (rs.length + 1)
  obtain ⟨ss, h1, ⟨poses, h2⟩, v, h3⟩ := hserve _ hall hfound
  obtain ⟨e1, e2⟩ := runner_followed h hp hok h1 h2 h3
  exact ⟨e1, _, ss, poses, hall, hfound, h1, h2, e2⟩

/-! ## The single-hypothesis SLAM -/

section
variable {stod : Str → Option ℝ} {rad : ℝ} {rnd : Nat} {wenv : Whole.Env} {sample : Int → Nat → ℝ → ℝ → Poses.Delta ℝ}
  {w : Config.World ℝ} {oope : Config.Oope} {oie : Config.Oie}
  {env : Env D C} {fs : Fs} {argv : List Str} {props : Table} {rs : List (Bag.Rec LaserMsg (TransformMsg D))}

theorem some_poses {S : Type} (f : S → Poses.Pose ℝ) (ss : List S) : (ss.map fun s => some (f s)) = (ss.map f).map some := by
  simp

/-- A configured single-hypothesis SLAM on a growing map serves all messages, as in `launched_any_total`. -/
theorem single_serves {P : MProgram} (hP : launchAny stod rad rnd wenv sample props = some P)
    (hw : Config.init1h stod rad rnd props = some w) (hsen : Sensible w)
    (ho : w.matcher.spe.oope = .std oope oie) (hi : Fits (cellKind w.map.cell) (impactOf oie)) (hf : 0 < wenv.cellFuel)
    (c : ℝ) (hc : 0 ≤ c)
    (ha : (w.matcher.algo = .idle ∧ c = 0) ∨ ∃ seed transl rot failed total b, w.matcher.algo = .monteCarlo seed transl rot failed total ∧
      wenv.fuel = total + 1 ∧ 0 ≤ b ∧ (∀ n x y, Matcher.WithinShift b (sample seed n x y)) ∧ c = total * b)
    (hF : 7 ≤ wenv.fuel) (N : Int) (hNok : ∀ v, |v| ≤ 6 * N → wenv.ok v = true) (hl : 4 * N + 2 ≤ wenv.lineFuel)
    (R B : ℝ) (hR : 0 ≤ R) (hs : List (LaserMsg × Poses.Pose ℝ)) (hodo : ∀ p ∈ hs, |p.2.x| ≤ B ∧ |p.2.y| ≤ B)
    (hmsg : ∀ p ∈ hs, GoodMsg P.cfg.slam R p.1.body)
    (hN : hs.length * (c + driftReach w.matcher.drift) + B + R ≤ w.map.params.scale * (N - 1)) :
    ∃ ss, Serves (ofProgram P) (ofProgram P).start hs ss := by
  obtain ⟨P', hP', htot⟩ := launched_any_total hw hsen ho hi hf c hc ha hF N hNok hl R B hR
  rw [hP, Option.some.injEq] at hP'
  subst hP'
  obtain ⟨s', hs'⟩ := htot (hs.map datum) (by rw [List.length_map]; exact hN) (by
    intro d hd
    obtain ⟨p, hp', rfl⟩ := List.mem_map.1 hd
    obtain ⟨e1, e2⟩ := hodo p hp'
    exact ⟨e1, e2, hmsg p hp'⟩)
  exact serves_of_run (P := ofProgram P) (fun s l => Mach.run P.cfg s (l.map datum)) (fun _ _ _ => rfl) hs P.start s' hs'

/-- **A whole run with a single-hypothesis SLAM (C97)**, on a growing map, with the idle or the Monte Carlo matcher, with or without
the drift detector: the properties configure the program `P` (as in `launched_any_total`); no lookup in the bag fails or speaks of the
past, and the transforms suffice for every scan; the odometry found is within `B`, the scans are well-formed with ranges up to
`R`, and the area reached stays within the integers the traversal copes with. Then the runner ends normally, has handled every
scan of the bag, and the trajectory file has one entry for each. -/
theorem runner_single_total {P : MProgram} (h : Setup env fs argv props (ofProgram P) rs)
    (hP : launchAny stod rad rnd wenv sample props = some P) (hw : Config.init1h stod rad rnd props = some w) (hsen : Sensible w)
    (ho : w.matcher.spe.oope = .std oope oie) (hi : Fits (cellKind w.map.cell) (impactOf oie)) (hf : 0 < wenv.cellFuel)
    (c : ℝ) (hc : 0 ≤ c)
    (ha : (w.matcher.algo = .idle ∧ c = 0) ∨ ∃ seed transl rot failed total b, w.matcher.algo = .monteCarlo seed transl rot failed total ∧
      wenv.fuel = total + 1 ∧ 0 ≤ b ∧ (∀ n x y, Matcher.WithinShift b (sample seed n x y)) ∧ c = total * b)
    (hF : 7 ≤ wenv.fuel) (N : Int) (hNok : ∀ v, |v| ≤ 6 * N → wenv.ok v = true) (hl : 4 * N + 2 ≤ wenv.lineFuel)
    (R B : ℝ) (hR : 0 ≤ R) (hp : Bag.Patient (reader env props) rs)
    (hok : ∀ m ∈ Bag.msgs rs, ∃ x, (reader env props).lookup (Bag.cacheAfter (reader env props) rs) m = .ok x)
    (hodo : ∀ p, Found (reader env props) rs p → |p.2.x| ≤ B ∧ |p.2.y| ≤ B)
    (hmsg : ∀ m ∈ Bag.msgs rs, GoodMsg P.cfg.slam R m.body)
    (hN : (Bag.msgs rs).length * (c + driftReach w.matcher.drift) + B + R ≤ w.map.params.scale * (N - 1)) :
    (main env fs argv).exit = some 0 ∧
    ∃ hs ss poses, hs.map Prod.fst = Bag.msgs rs ∧ (∀ p ∈ hs, Found (reader env props) rs p) ∧
      Serves (ofProgram P) (ofProgram P).start hs ss ∧ ss.map (ofProgram P).pose = poses.map some ∧
      TrajectoryOf env argv (main env fs argv).fs (Bag.msgs rs) poses := by
  exact runner_all_handled h hp hok fun hs h1 h2 => by
    obtain ⟨ss, h3⟩ := single_serves hP hw hsen ho hi hf c hc ha hF N hNok hl R B hR hs (fun p hp => hodo p (h2 p hp))
      (fun p hp' => hmsg p.1 (by rw [← h1]; exact List.mem_map_of_mem hp')) (by
        rw [← List.length_map (f := Prod.fst), h1]; exact hN)
    exact ⟨ss, h3, ⟨_, some_poses (fun s : Mach (AnyMap P.kind.Cell) P.T => s.st.pose) ss⟩, _, rfl⟩

/-- A configured single-hypothesis SLAM on a map of fixed size serves all messages, as in `launched_fixed_as_growing`. -/
theorem fixed_serves {P : MProgram}
    (hP : launchFixed stod rad rnd wenv sample props = some P) (hw : Config.init1h stod rad rnd props = some w)
    (hk : w.map.kind = .plain ∨ w.map.kind = .lazyTiled) (hsen : Sensible (grown w))
    (ho : w.matcher.spe.oope = .std oope oie) (hi : Fits (cellKind w.map.cell) (impactOf oie)) (hf : 0 < wenv.cellFuel)
    (c : ℝ) (hc : 0 ≤ c)
    (ha : (w.matcher.algo = .idle ∧ c = 0) ∨ ∃ seed transl rot failed total b, w.matcher.algo = .monteCarlo seed transl rot failed total ∧
      wenv.fuel = total + 1 ∧ 0 ≤ b ∧ (∀ n x y, Matcher.WithinShift b (sample seed n x y)) ∧ c = total * b)
    (hF : 7 ≤ wenv.fuel) (N : Int) (hNok : ∀ v, |v| ≤ 6 * N → wenv.ok v = true) (hl : 4 * N + 2 ≤ wenv.lineFuel)
    (hW : 2 * N + 1 ≤ w.map.params.width) (hH : 2 * N + 1 ≤ w.map.params.height)
    (R B : ℝ) (hR : 0 ≤ R) (hs : List (LaserMsg × Poses.Pose ℝ)) (hodo : ∀ p ∈ hs, |p.2.x| ≤ B ∧ |p.2.y| ≤ B)
    (hmsg : ∀ p ∈ hs, GoodMsg P.cfg.slam R p.1.body)
    (hN : hs.length * (c + driftReach w.matcher.drift) + B + R ≤ w.map.params.scale * (N - 1)) :
    ∃ ss, Serves (ofFixed P) (ofFixed P).start hs ss := by
  obtain ⟨T, cfg, cfg', s, s', hP', -, htot⟩ := launched_fixed_as_growing hw hk hsen ho hi hf c hc ha hF N hNok hl hW hH R B hR
  rw [hP, Option.some.injEq] at hP'
  subst hP'
  obtain ⟨-, s1', -, hs', -⟩ := htot (hs.map datum) (by rw [List.length_map]; exact hN) (by
    intro d hd
    obtain ⟨p, hp', rfl⟩ := List.mem_map.1 hd
    obtain ⟨e1, e2⟩ := hodo p hp'
    exact ⟨e1, e2, hmsg p hp'⟩)
  exact serves_of_run (P := ofFixed ⟨cellKind w.map.cell, impactOf oie, T, cfg', s'⟩)
    (fun s l => Mach.runFixed cfg' s (l.map datum)) (fun _ _ _ => rfl) hs s' s1' hs'

/-- **A whole run on a map of fixed size (C97)**, plain or lazily tiled: as `runner_single_total`; the map must have at least
`2 N + 1` cells along each axis (C96). -/
theorem runner_fixed_total {P : MProgram} (h : Setup env fs argv props (ofFixed P) rs)
    (hP : launchFixed stod rad rnd wenv sample props = some P) (hw : Config.init1h stod rad rnd props = some w)
    (hk : w.map.kind = .plain ∨ w.map.kind = .lazyTiled) (hsen : Sensible (grown w))
    (ho : w.matcher.spe.oope = .std oope oie) (hi : Fits (cellKind w.map.cell) (impactOf oie)) (hf : 0 < wenv.cellFuel)
    (c : ℝ) (hc : 0 ≤ c)
    (ha : (w.matcher.algo = .idle ∧ c = 0) ∨ ∃ seed transl rot failed total b, w.matcher.algo = .monteCarlo seed transl rot failed total ∧
      wenv.fuel = total + 1 ∧ 0 ≤ b ∧ (∀ n x y, Matcher.WithinShift b (sample seed n x y)) ∧ c = total * b)
    (hF : 7 ≤ wenv.fuel) (N : Int) (hNok : ∀ v, |v| ≤ 6 * N → wenv.ok v = true) (hl : 4 * N + 2 ≤ wenv.lineFuel)
    (hW : 2 * N + 1 ≤ w.map.params.width) (hH : 2 * N + 1 ≤ w.map.params.height)
    (R B : ℝ) (hR : 0 ≤ R) (hp : Bag.Patient (reader env props) rs)
    (hok : ∀ m ∈ Bag.msgs rs, ∃ x, (reader env props).lookup (Bag.cacheAfter (reader env props) rs) m = .ok x)
    (hodo : ∀ p, Found (reader env props) rs p → |p.2.x| ≤ B ∧ |p.2.y| ≤ B)
    (hmsg : ∀ m ∈ Bag.msgs rs, GoodMsg P.cfg.slam R m.body)
    (hN : (Bag.msgs rs).length * (c + driftReach w.matcher.drift) + B + R ≤ w.map.params.scale * (N - 1)) :
    (main env fs argv).exit = some 0 ∧
    ∃ hs ss poses, hs.map Prod.fst = Bag.msgs rs ∧ (∀ p ∈ hs, Found (reader env props) rs p) ∧
      Serves (ofFixed P) (ofFixed P).start hs ss ∧ ss.map (ofFixed P).pose = poses.map some ∧
      TrajectoryOf env argv (main env fs argv).fs (Bag.msgs rs) poses := by
  exact runner_all_handled h hp hok fun hs h1 h2 => by
    obtain ⟨ss, h3⟩ := fixed_serves hP hw hk hsen ho hi hf c hc ha hF N hNok hl hW hH R B hR hs (fun p hp => hodo p (h2 p hp))
      (fun p hp' => hmsg p.1 (by rw [← h1]; exact List.mem_map_of_mem hp')) (by
        rw [← List.length_map (f := Prod.fst), h1]; exact hN)
    exact ⟨ss, h3, ⟨_, some_poses (fun s : Mach (AnyMap P.kind.Cell) P.T => s.st.pose) ss⟩, _, rfl⟩

/-- **Every pixel of the map file shows a probability (C97)**: in what is drawn of a single-hypothesis SLAM's map, whatever its
matcher, a cell has an occupancy within `[0, 1]`, or the `-1` of a cell never observed. -/
theorem runner_single_probabilities {P : MProgram} (hw : Config.init1h stod rad rnd props = some w) (hsen : Sensible w)
    (ho : w.matcher.spe.oope = .std oope oie) (hi : Fits (cellKind w.map.cell) (impactOf oie)) (hf : 0 < wenv.cellFuel)
    (hP : launchAny stod rad rnd wenv sample props = some P) {hs : List (LaserMsg × Poses.Pose ℝ)} {ss : List (ofProgram P).S}
    (h : Serves (ofProgram P) (ofProgram P).start hs ss) {v : Dump.MapView ℝ}
    (hv : (ofProgram P).view (ss.getLastD (ofProgram P).start) = some v) (c : Grid.Coord) :
    (0 ≤ v.occ c ∧ v.occ c ≤ 1) ∨ (P.kind = .gmapping ∧ v.occ c = -1) := by
  have hr := run_last (P := ofProgram P) (run := fun s l => Mach.run P.cfg s (l.map datum)) (fun _ => rfl) (fun _ _ _ => rfl) h
  obtain ⟨cell, h1, h2, h3⟩ := (launched_any_behaves hw hsen ho hi hf hP).2 _ _ hr c
  cases hv
  simp only [viewOf, MapApi.shown]
  erw [h1]
  simp only [Option.map_some, Option.getD_some]
  cases hval : P.kind.value cell with
  | none => exact .inl ⟨by simp, by simp⟩
  | some x =>
    rcases h2 x hval with u | ⟨e1, e2, -⟩
    · exact .inl u
    · exact .inr ⟨e1, e2⟩

/-- **With the idle matcher the trajectory is the odometry (C97)**, without the drift detector: the pose after each message is the
odometry pose found for it. -/
theorem runner_odometry_only {P : MProgram} (hw : Config.init1h stod rad rnd props = some w) (hsen : Sensible w)
    (ho : w.matcher.spe.oope = .std oope oie) (hi : Fits (cellKind w.map.cell) (impactOf oie)) (hf : 0 < wenv.cellFuel)
    (hP : launchAny stod rad rnd wenv sample props = some P) (ha : w.matcher.algo = .idle) (hd : w.matcher.drift = false)
    {hs : List (LaserMsg × Poses.Pose ℝ)} {ss : List (ofProgram P).S} (h : Serves (ofProgram P) (ofProgram P).start hs ss) :
    ss.map (ofProgram P).pose = (hs.map Prod.snd).map some := by
  have horig : P.start.st.pose = ⟨0, 0, 0⟩ ∧ P.start.st.odom = ⟨0, 0, 0⟩ := (launched_any_behaves hw hsen ho hi hf hP).1.origin
  obtain ⟨b, hb, -, hidle, -⟩ := launched_any_matcher hw hP
  have hm := (hb hd).trans (hidle ha)
  obtain ⟨kind, impact, T, cfg, start⟩ := P
  simp only [MProgram.matching, Matching.mk.injEq] at hm
  obtain ⟨rfl, hm, -⟩ := hm
  have hm := eq_of_heq hm
  have key := serves_map (P := ofProgram ⟨kind, impact, Unit, cfg, start⟩) (fun s => s.st.pose = s.st.odom) (fun s => s.st.pose)
    (by
      intro s s1 d hs0 h1
      obtain ⟨scan, p, delta, best, q, us, -, ⟨p1, p2, p3⟩, h3, h4, h5, -⟩ := mach_message h1
      rw [hm] at h3
      simp only [Matcher.idleMachine, Option.some.injEq, Prod.mk.injEq] at h3
      obtain ⟨-, -, rfl, -⟩ := h3
      have hs1 : s.st.pose = s.st.odom := hs0
      rw [hs1] at p1 p2 p3
      have e : s1.st.pose = d.1 := by
        rw [h4]
        simp only [Poses.Pose.add, add_zero, p1, p2, p3]
        simp
      exact ⟨by rw [e, h5], e⟩) (show start.st.pose = start.st.odom by rw [show start.st.pose = _ from horig.1, show start.st.odom = _ from horig.2]) h
  exact (some_poses (S := Mach (AnyMap kind.Cell) Unit) (fun s => s.st.pose) ss).trans (congrArg _ key)

end

/-! ## GMapping -/

section
variable {stod : Str → Option ℝ} {wenv : Whole.Env} {rnd : ℝ → ℝ} {draws : Config.GmappingParams ℝ → Nat → Poses.Delta ℝ}
  {w : Config.World ℝ} {p : Config.GmappingParams ℝ} {n : Nat} {chance : Nat → Chance}
  {env : Env D C} {fs : Fs} {argv : List Str} {props : Table} {rs : List (Bag.Rec LaserMsg (TransformMsg D))}

/-- The messages with the random numbers, from the `k`-th on. -/
def drawn (chance : Nat → Chance) : Nat → List (LaserMsg × Poses.Pose ℝ) → List GMsg
  | _, [] => []
  | k, d :: ds => (chance k).msg (datum d) :: drawn chance (k + 1) ds

theorem drawn_mem {d : GMsg} : ∀ {l : List (LaserMsg × Poses.Pose ℝ)} {k : Nat}, d ∈ drawn chance k l →
    ∃ i, ∃ q ∈ l, d = (chance i).msg (datum q)
  | [], _, h => (by cases h)
  | q :: l, k, h => by
    rcases List.mem_cons.1 h with rfl | h
    · exact ⟨k, q, by simp, rfl⟩
    · obtain ⟨i, q', hq, e⟩ := drawn_mem h
      exact ⟨i, q', by simp [hq], e⟩

theorem drawn_odom : ∀ (l : List (LaserMsg × Poses.Pose ℝ)) (k : Nat), (drawn chance k l).map GMsg.odom = l.map Prod.snd
  | [], _ => rfl
  | q :: l, k => by rw [drawn, List.map_cons, List.map_cons, drawn_odom l]; rfl

theorem drawn_length (l : List (LaserMsg × Poses.Pose ℝ)) (k : Nat) : (drawn chance k l).length = l.length := by
  have := congrArg List.length (drawn_odom (chance := chance) l k)
  simpa using this

/-- A run of GMapping, with its count of the messages. -/
noncomputable def gmappingRun (chance : Nat → Chance) (P : GProgram) (s : (ofGmapping chance P).S) (l : List (LaserMsg × Poses.Pose ℝ)) :
    Option (ofGmapping chance P).S :=
  (GOwn.run P.cfg s.1 (drawn chance s.2 l)).map fun s' => (s', s.2 + l.length)

theorem gmapping_run_nil {P : GProgram} (s : (ofGmapping chance P).S) : gmappingRun chance P s [] = some s := rfl

theorem gmapping_run_cons {P : GProgram} (s : (ofGmapping chance P).S) (d : LaserMsg × Poses.Pose ℝ) (ds : List (LaserMsg × Poses.Pose ℝ)) :
    gmappingRun chance P s (d :: ds) = ((ofGmapping chance P).handle s (datum d)).bind fun s' => gmappingRun chance P s' ds := by
  obtain ⟨s, k⟩ := s
  show ((GOwn.handle P.cfg s ((chance k).msg (datum d))).bind fun s' => GOwn.run P.cfg s' (drawn chance (k + 1) ds)).map _ =
    ((GOwn.handle P.cfg s ((chance k).msg (datum d))).map fun s' => (s', k + 1)).bind _
  cases GOwn.handle P.cfg s ((chance k).msg (datum d)) with
  | none => rfl
  | some s' =>
    simp only [Option.bind_some, Option.map_some, gmappingRun, List.length_cons]
    congr 1
    funext x
    rw [Nat.add_right_comm, Nat.add_assoc]

/-- A configured GMapping serves all messages, as in `launched_gmapping_total`. -/
theorem gmapping_serves {P : GProgram}
    (hP : launchGmapping stod wenv rnd draws props = some P) (hrnd : ∀ x, Cells.Unit01 x → Cells.Unit01 (rnd x))
    (hw : Config.initGmapping stod props = some (w, p, n)) (hsen : GSensible w n) (V : Finset ℝ) (hV : ∀ x, Cells.Unit01 x → rnd x ∈ V)
    (h0 : rnd 0 = 0) (hfu : (V.card + 1) * 98 ≤ wenv.fuel) (N : Int) (hNok : ∀ v, |v| ≤ 6 * N → wenv.ok v = true)
    (hlf : 4 * N + 2 ≤ wenv.lineFuel) (hfull : -1 < P.start.matcher.pe.fullness) {R G S : ℝ} (hR : 0 ≤ R) (hG : 0 ≤ G) (hS : 0 ≤ S)
    (hch : ∀ k, (chance k).samples.length = n ∧ (∀ s ∈ (chance k).samples, 0 ≤ s ∧ s < 1) ∧
      ∀ i, |((chance k).guess i).x| ≤ G ∧ |((chance k).guess i).y| ≤ G)
    (hs : List (LaserMsg × Poses.Pose ℝ))
    (hodo : (⟨0, 0, 0⟩ :: hs.map Prod.snd : List (Poses.Pose ℝ)).IsChain fun a b => |b.x - a.x| + |b.y - a.y| ≤ S)
    (hmsg : ∀ q ∈ hs, GoodMsg P.cfg.slam R q.1.body)
    (hN : hs.length * (S + G + n * growth R w.map.params.scale P.start.matcher.pe.window) + R ≤ w.map.params.scale * (N - 1)) :
    ∃ ss, Serves (ofGmapping chance P) (ofGmapping chance P).start hs ss ∧
      ∀ t ∈ (ofGmapping chance P).start :: ss, (∃ x, (ofGmapping chance P).pose t = some x) ∧ ∃ v, (ofGmapping chance P).view t = some v := by
  have hgood : ∀ d ∈ drawn chance 0 hs,
      SamplesOk n d ∧ GoodMsg P.cfg.slam R d.msg ∧ ∀ i, |(d.guess i).x| ≤ G ∧ |(d.guess i).y| ≤ G := by
    intro d hd
    obtain ⟨i, q, hq, rfl⟩ := drawn_mem hd
    obtain ⟨c1, c2, c3⟩ := hch i
    exact ⟨⟨c1, c2⟩, hmsg q hq, c3⟩
  obtain ⟨s', hs'⟩ := launched_gmapping_total hrnd hw hsen V hV h0 hfu N hNok hlf hP hfull hR hG hS (drawn chance 0 hs)
    hgood (by
      rw [drawn_length]
      exact hN) (by
      unfold SmallMoves
      rw [drawn_odom]
      exact hodo)
  obtain ⟨ss, h3⟩ := serves_of_run (P := ofGmapping chance P) (gmappingRun chance P) gmapping_run_cons hs (ofGmapping chance P).start
    (s', 0 + hs.length) (by
      show (GOwn.run P.cfg P.start (drawn chance 0 hs)).map _ = _
      rw [hs']
      rfl)
  have hworld : ∀ t ∈ (ofGmapping chance P).start :: ss, ∃ u, t.1.st.filter.world = some u := by
    intro t ht
    obtain ⟨l', h4, h5⟩ := serves_prefix gmapping_run_nil gmapping_run_cons h3 t ht
    obtain ⟨t', h6, h7⟩ := Option.map_eq_some_iff.1 h5
    have hl' : ∀ d ∈ drawn chance 0 l', SamplesOk n d := by
      intro d hd
      obtain ⟨i, q, hq, rfl⟩ := drawn_mem hd
      exact ⟨(hch i).1, (hch i).2.1⟩
    obtain ⟨g1, -⟩ := launched_gmapping_behaves hrnd hw hsen hP (drawn chance 0 l') hl' h6
    have e : t.1 = t' := by rw [← h7]
    rw [e]
    have hids : t'.st.filter.ids ≠ [] := by
      intro e
      rw [Particle.Filter.particles, e] at g1
      have := hsen.particles
      simp at g1
      omega
    unfold Particle.Filter.world
    obtain ⟨i, is, hi⟩ := List.exists_cons_of_ne_nil hids
    rw [hi]
    obtain ⟨j, hj⟩ := heaviest_some t'.st.filter.heap is i
    exact ⟨_, by rw [Particle.heaviest, hj]; rfl⟩
  refine ⟨ss, h3, fun t ht => ?_⟩
  obtain ⟨u, hu⟩ := hworld t ht
  refine ⟨⟨u.pose, by show (Option.map _ t.1.st.filter.world) = _; rw [hu]; rfl⟩, Option.isSome_iff_exists.1 ?_⟩
  show (Option.map _ t.1.st.filter.world).isSome = true
  rw [hu]
  rfl

/-- **A whole run with GMapping (C97)**: the properties configure the program `P` (as in `launched_gmapping_total`, with its scores
rounded to finitely many values); no lookup in the bag fails or speaks of the past, and the transforms suffice for every scan; the
scans are well-formed with ranges up to `R`, the random numbers are within their bounds, the odometry moves by at most `S` between
scans, and the area reached stays within the integers the traversal copes with. Then the runner ends normally, has handled every
scan of the bag, and the trajectory file has one entry for each. -/
theorem runner_gmapping_total {P : GProgram} (h : Setup env fs argv props (ofGmapping chance P) rs)
    (hP : launchGmapping stod wenv rnd draws props = some P) (hrnd : ∀ x, Cells.Unit01 x → Cells.Unit01 (rnd x))
    (hw : Config.initGmapping stod props = some (w, p, n)) (hsen : GSensible w n) (V : Finset ℝ) (hV : ∀ x, Cells.Unit01 x → rnd x ∈ V)
    (h0 : rnd 0 = 0) (hfu : (V.card + 1) * 98 ≤ wenv.fuel) (N : Int) (hNok : ∀ v, |v| ≤ 6 * N → wenv.ok v = true)
    (hlf : 4 * N + 2 ≤ wenv.lineFuel) (hfull : -1 < P.start.matcher.pe.fullness) {R G S : ℝ} (hR : 0 ≤ R) (hG : 0 ≤ G) (hS : 0 ≤ S)
    (hch : ∀ k, (chance k).samples.length = n ∧ (∀ s ∈ (chance k).samples, 0 ≤ s ∧ s < 1) ∧
      ∀ i, |((chance k).guess i).x| ≤ G ∧ |((chance k).guess i).y| ≤ G)
    (hp : Bag.Patient (reader env props) rs)
    (hok : ∀ m ∈ Bag.msgs rs, ∃ x, (reader env props).lookup (Bag.cacheAfter (reader env props) rs) m = .ok x)
    (hodo : ∀ hs : List (LaserMsg × Poses.Pose ℝ), hs.map Prod.fst = Bag.msgs rs → (∀ p ∈ hs, Found (reader env props) rs p) →
      (⟨0, 0, 0⟩ :: hs.map Prod.snd : List (Poses.Pose ℝ)).IsChain fun a b => |b.x - a.x| + |b.y - a.y| ≤ S)
    (hmsg : ∀ m ∈ Bag.msgs rs, GoodMsg P.cfg.slam R m.body)
    (hN : (Bag.msgs rs).length * (S + G + n * growth R w.map.params.scale P.start.matcher.pe.window) + R ≤ w.map.params.scale * (N - 1)) :
    (main env fs argv).exit = some 0 ∧
    ∃ hs ss poses, hs.map Prod.fst = Bag.msgs rs ∧ (∀ p ∈ hs, Found (reader env props) rs p) ∧
      Serves (ofGmapping chance P) (ofGmapping chance P).start hs ss ∧ ss.map (ofGmapping chance P).pose = poses.map some ∧
      TrajectoryOf env argv (main env fs argv).fs (Bag.msgs rs) poses := by
  refine runner_all_handled h hp hok fun hs h1 h2 => ?_
  obtain ⟨ss, h3, h4⟩ := gmapping_serves hP hrnd hw hsen V hV h0 hfu N hNok hlf hfull hR hG hS hch hs (hodo hs h1 h2)
    (fun q hq => hmsg q.1 (by rw [← h1]; exact List.mem_map_of_mem hq)) (by
      rw [← List.length_map (f := Prod.fst), h1]; exact hN)
  refine ⟨ss, h3, all_some _ ss fun t ht => (h4 t (List.mem_cons_of_mem _ ht)).1, (h4 _ ?_).2⟩
  rcases ss with _ | ⟨a, l⟩
  · simp
  · exact List.mem_cons_of_mem _ (by simp [List.getLastD])

/-- **Every pixel of GMapping's map file shows a probability (C97)**, or the `-1` of a cell never observed. -/
theorem runner_gmapping_probabilities {P : GProgram} (hP : launchGmapping stod wenv rnd draws props = some P)
    (hrnd : ∀ x, Cells.Unit01 x → Cells.Unit01 (rnd x)) (hw : Config.initGmapping stod props = some (w, p, n)) (hsen : GSensible w n)
    (hch : ∀ k, (chance k).samples.length = n ∧ ∀ s ∈ (chance k).samples, 0 ≤ s ∧ s < 1)
    {hs : List (LaserMsg × Poses.Pose ℝ)} {ss : List (ofGmapping chance P).S}
    (h : Serves (ofGmapping chance P) (ofGmapping chance P).start hs ss) {v : Dump.MapView ℝ}
    (hv : (ofGmapping chance P).view (ss.getLastD (ofGmapping chance P).start) = some v) (c : Grid.Coord) :
    (0 ≤ v.occ c ∧ v.occ c ≤ 1) ∨ v.occ c = -1 := by
  have hr := run_last gmapping_run_nil gmapping_run_cons h
  obtain ⟨t', h6, h7⟩ := Option.map_eq_some_iff.1 hr
  obtain ⟨-, -, g3, -⟩ := launched_gmapping_behaves hrnd hw hsen hP (drawn chance 0 hs) (fun d hd => by
    obtain ⟨i, q, hq, rfl⟩ := drawn_mem hd
    exact hch i) h6
  obtain ⟨u, -, hu⟩ := Option.map_eq_some_iff.1 hv
  obtain ⟨cell, c1, c2⟩ := g3 c
  rw [← h7] at hu
  subst hu
  simp only [MapApi.shown]
  erw [c1]
  simp only [Option.map_some, Option.getD_some]
  rcases c2 with u | ⟨u, -⟩
  · exact .inl u
  · exact .inr u

end

end Slam.Runner
