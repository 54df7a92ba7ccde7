import Verif.Random.Gmapping
import Verif.Runner.Slams

/-!
# The bag runner with GMapping and its generators (C103)
-/

set_option autoImplicit false
set_option linter.unusedSectionVars false

namespace Slam.Random
open Slam.Config (Str Table)
open Slam.Particle (World)
open Slam.Whole (GMsg GOwn AnyMap GoodMsg growth GSensible)
open Slam.Runner (LaserMsg TransformMsg Env Fs Serves Setup Found datum reader TrajectoryOf main)

variable {E : Type} (N : Engine E)

/-! ## Model -/

/-- GMapping with its generators in the runner, src/ros/lslam2D_bag_runner.cpp:165-166, as `ofGmapping`; `res k` is the engine the
resampler makes at the `k`-th message. -/
noncomputable def ofSeededGmapping (res : Nat → E) (P : GSeededProgram E) : Runner.Engine where
  S := GSeeded E (AnyMap (Cells.GmCell ℝ)) × Nat
  start := (P.start, 0)
  handle := fun s d => (s.1.handle N P.cfg ⟨d.1, d.2, res s.2⟩).map fun s' => (s', s.2 + 1)
  pose := fun s => s.1.own.st.pose
  view := fun s => s.1.own.st.filter.world.map fun _ =>
    P.cfg.slam.api.shown s.1.own.st.map (P.cfg.dims s.1.own.st.map).width (P.cfg.dims s.1.own.st.map).height (P.cfg.origin s.1.own.st.map)
      P.cfg.slam.scale fun c => c.occ.prob

/-! ## Proofs -/

section
variable {N} {res : Nat → E} {stod : Str → Option ℝ} {wenv : Whole.Env} {rnd : ℝ → ℝ} {engines : Nat → E}
  {w : Config.World ℝ} {p : Config.GmappingParams ℝ} {n : Nat} {D C : Type}
  {env : Env D C} {fs : Fs} {argv : List Str} {props : Table} {rs : List (Bag.Rec LaserMsg (TransformMsg D))}

/-- The messages with the engines of the resampler, from the `k`-th on. -/
def seededMsgs (res : Nat → E) : Nat → List (LaserMsg × Poses.Pose ℝ) → List (SMsg E)
  | _, [] => []
  | k, d :: ds => ⟨(datum d).1, (datum d).2, res k⟩ :: seededMsgs res (k + 1) ds

theorem seededMsgs_mem {d : SMsg E} : ∀ {l : List (LaserMsg × Poses.Pose ℝ)} {k : Nat}, d ∈ seededMsgs res k l → ∃ q ∈ l, d.msg = q.1.body
  | [], _, h => (by cases h)
  | q :: l, k, h => by
    rcases List.mem_cons.1 h with rfl | h
    · exact ⟨q, by simp, rfl⟩
    · obtain ⟨q', hq, e⟩ := seededMsgs_mem h
      exact ⟨q', by simp [hq], e⟩

theorem seededMsgs_odom : ∀ (l : List (LaserMsg × Poses.Pose ℝ)) (k : Nat), (seededMsgs res k l).map SMsg.odom = l.map Prod.snd
  | [], _ => rfl
  | q :: l, k => by rw [seededMsgs, List.map_cons, List.map_cons, seededMsgs_odom l]; rfl

theorem seededMsgs_length (l : List (LaserMsg × Poses.Pose ℝ)) (k : Nat) : (seededMsgs res k l).length = l.length := by
  have := congrArg List.length (seededMsgs_odom (res := res) l k)
  simpa using this

/-- A run, with its count of the messages. -/
noncomputable def seededRun (N : Engine E) (res : Nat → E) (P : GSeededProgram E) (s : (ofSeededGmapping N res P).S)
    (l : List (LaserMsg × Poses.Pose ℝ)) : Option (ofSeededGmapping N res P).S :=
  (GSeeded.run N P.cfg s.1 (seededMsgs res s.2 l)).map fun s' => (s', s.2 + l.length)

theorem seeded_run_nil {P : GSeededProgram E} (s : (ofSeededGmapping N res P).S) : seededRun N res P s [] = some s := rfl

theorem seeded_run_cons {P : GSeededProgram E} (s : (ofSeededGmapping N res P).S) (d : LaserMsg × Poses.Pose ℝ)
    (ds : List (LaserMsg × Poses.Pose ℝ)) :
    seededRun N res P s (d :: ds) = ((ofSeededGmapping N res P).handle s (datum d)).bind fun s' => seededRun N res P s' ds := by
  obtain ⟨s, k⟩ := s
  show ((GSeeded.handle N P.cfg s ⟨(datum d).1, (datum d).2, res k⟩).bind fun s' => GSeeded.run N P.cfg s' (seededMsgs res (k + 1) ds)).map _ =
    ((GSeeded.handle N P.cfg s ⟨(datum d).1, (datum d).2, res k⟩).map fun s' => (s', k + 1)).bind _
  cases GSeeded.handle N P.cfg s ⟨(datum d).1, (datum d).2, res k⟩ with
  | none => rfl
  | some s' =>
    simp only [Option.bind_some, Option.map_some, seededRun, List.length_cons]
    congr 1
    funext x
    rw [Nat.add_right_comm, Nat.add_assoc]

/-- A configured GMapping with its generators serves all messages. -/
theorem seeded_gmapping_serves {P : GSeededProgram E} (hP : launchSeededGmapping N stod wenv rnd engines props = some P)
    (hrnd : ∀ x, Cells.Unit01 x → Cells.Unit01 (rnd x))
    (hw : Config.initGmapping stod props = some (w, p, n)) (hsen : GSensible w n) (hl : ∀ k, Lively N (engines k)) (V : Finset ℝ)
    (hV : ∀ x, Cells.Unit01 x → rnd x ∈ V)
    (h0 : rnd 0 = 0) (hfu : (V.card + 1) * 98 ≤ wenv.fuel) (B : Int) (hNok : ∀ v, |v| ≤ 6 * B → wenv.ok v = true)
    (hlf : 4 * B + 2 ≤ wenv.lineFuel) (hfull : -1 < P.start.own.matcher.pe.fullness) {R S : ℝ} (hR : 0 ≤ R) (hS : 0 ≤ S)
    (hs : List (LaserMsg × Poses.Pose ℝ))
    (hodo : (⟨0, 0, 0⟩ :: hs.map Prod.snd : List (Poses.Pose ℝ)).IsChain fun a b => |b.x - a.x| + |b.y - a.y| ≤ S)
    (hmsg : ∀ q ∈ hs, GoodMsg P.cfg.slam R q.1.body)
    (hN : hs.length * (S + (|p.meanXY| + 14 * |p.sigmaXY|) + n * growth R w.map.params.scale P.start.own.matcher.pe.window) + R ≤
      w.map.params.scale * (B - 1)) :
    ∃ ss, Serves (ofSeededGmapping N res P) (ofSeededGmapping N res P).start hs ss ∧
      ∀ t ∈ (ofSeededGmapping N res P).start :: ss, (∃ x, (ofSeededGmapping N res P).pose t = some x) ∧
        ∃ v, (ofSeededGmapping N res P).view t = some v := by
  obtain ⟨P', draws, Q, hP', hQ, hc, hst, htot⟩ := seeded_gmapping_total (N := N) (engines := engines) (env := wenv) hrnd hw hsen hl V hV h0 hfu B hNok hlf
  obtain rfl := Option.some.inj (hP.symm.trans hP')
  rw [hst] at hfull hN
  rw [hc] at hmsg
  obtain ⟨s', gs, hs', -, -⟩ := htot hfull hR hS (seededMsgs res 0 hs) (by
      intro d hd
      obtain ⟨q, hq, e⟩ := seededMsgs_mem hd
      rw [e]
      exact hmsg q hq) (by rw [seededMsgs_length]; exact hN) (by rw [seededMsgs_odom]; exact hodo)
  obtain ⟨ss, h3⟩ := Runner.serves_of_run (P := ofSeededGmapping N res P) (seededRun N res P) seeded_run_cons hs (ofSeededGmapping N res P).start
    (s', 0 + hs.length) (by
      show (GSeeded.run N P.cfg P.start (seededMsgs res 0 hs)).map _ = _
      rw [hs']
      rfl)
  have hworld : ∀ t ∈ (ofSeededGmapping N res P).start :: ss, ∃ u, t.1.own.st.filter.world = some u := by
    intro t ht
    obtain ⟨l', h4, h5⟩ := Runner.serves_prefix seeded_run_nil seeded_run_cons h3 t ht
    obtain ⟨t', h6, h7⟩ := Option.map_eq_some_iff.1 h5
    obtain ⟨g1, -⟩ := seeded_gmapping_behaves (N := N) (env := wenv) hrnd hw hsen hl hP (seededMsgs res 0 l') h6
    have e : t.1 = t' := by rw [← h7]
    rw [e]
    have hids : t'.own.st.filter.ids ≠ [] := by
      intro e
      rw [Particle.Filter.particles, e] at g1
      have := hsen.particles
      simp at g1
      omega
    unfold Particle.Filter.world
    obtain ⟨i, is, hi⟩ := List.exists_cons_of_ne_nil hids
    rw [hi]
    obtain ⟨j, hj⟩ := Runner.heaviest_some t'.own.st.filter.heap is i
    exact ⟨_, by rw [Particle.heaviest, hj]; rfl⟩
  refine ⟨ss, h3, fun t ht => ?_⟩
  obtain ⟨u, hu⟩ := hworld t ht
  refine ⟨⟨u.pose, by show (Option.map _ t.1.own.st.filter.world) = _; rw [hu]; rfl⟩, Option.isSome_iff_exists.1 ?_⟩
  show (Option.map _ t.1.own.st.filter.world).isSome = true
  rw [hu]
  rfl

/-- **A whole run of the bag runner with GMapping and its generators (C103)**: as `Runner.runner_gmapping_total`, but nothing is assumed of the
random numbers. The runner ends normally, has handled every scan of the bag, and the trajectory file has one entry for each. -/
theorem runner_seeded_gmapping_total {P : GSeededProgram E} (h : Setup env fs argv props (ofSeededGmapping N res P) rs)
    (hP : launchSeededGmapping N stod wenv rnd engines props = some P) (hrnd : ∀ x, Cells.Unit01 x → Cells.Unit01 (rnd x))
    (hw : Config.initGmapping stod props = some (w, p, n)) (hsen : GSensible w n) (hl : ∀ k, Lively N (engines k)) (V : Finset ℝ)
    (hV : ∀ x, Cells.Unit01 x → rnd x ∈ V)
    (h0 : rnd 0 = 0) (hfu : (V.card + 1) * 98 ≤ wenv.fuel) (B : Int) (hNok : ∀ v, |v| ≤ 6 * B → wenv.ok v = true)
    (hlf : 4 * B + 2 ≤ wenv.lineFuel) (hfull : -1 < P.start.own.matcher.pe.fullness) {R S : ℝ} (hR : 0 ≤ R) (hS : 0 ≤ S)
    (hp : Bag.Patient (reader env props) rs)
    (hok : ∀ m ∈ Bag.msgs rs, ∃ x, (reader env props).lookup (Bag.cacheAfter (reader env props) rs) m = .ok x)
    (hodo : ∀ hs : List (LaserMsg × Poses.Pose ℝ), hs.map Prod.fst = Bag.msgs rs → (∀ p ∈ hs, Found (reader env props) rs p) →
      (⟨0, 0, 0⟩ :: hs.map Prod.snd : List (Poses.Pose ℝ)).IsChain fun a b => |b.x - a.x| + |b.y - a.y| ≤ S)
    (hmsg : ∀ m ∈ Bag.msgs rs, GoodMsg P.cfg.slam R m.body)
    (hN : (Bag.msgs rs).length * (S + (|p.meanXY| + 14 * |p.sigmaXY|) + n * growth R w.map.params.scale P.start.own.matcher.pe.window) + R ≤
      w.map.params.scale * (B - 1)) :
    (main env fs argv).exit = some 0 ∧
    ∃ hs ss poses, hs.map Prod.fst = Bag.msgs rs ∧ (∀ p ∈ hs, Found (reader env props) rs p) ∧
      Serves (ofSeededGmapping N res P) (ofSeededGmapping N res P).start hs ss ∧ ss.map (ofSeededGmapping N res P).pose = poses.map some ∧
      TrajectoryOf env argv (main env fs argv).fs (Bag.msgs rs) poses := by
  refine Runner.runner_all_handled h hp hok fun hs h1 h2 => ?_
  obtain ⟨ss, h3, h4⟩ := seeded_gmapping_serves (res := res) hP hrnd hw hsen hl V hV h0 hfu B hNok hlf hfull hR hS hs (hodo hs h1 h2)
    (fun q hq => hmsg q.1 (by rw [← h1]; exact List.mem_map_of_mem hq)) (by
      rw [← List.length_map (f := Prod.fst), h1]; exact hN)
  refine ⟨ss, h3, Runner.all_some _ ss fun t ht => (h4 t (List.mem_cons_of_mem _ ht)).1, (h4 _ ?_).2⟩
  rcases ss with _ | ⟨a, l⟩
  · simp
  · exact List.mem_cons_of_mem _ (by simp [List.getLastD])

end

end Slam.Random
