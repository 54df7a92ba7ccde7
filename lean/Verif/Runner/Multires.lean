import Verif.Whole.MultiresLaunch
import Verif.Runner.Slams

/-!
# The bag runner and the nodes with the multi-resolution matcher (C104)

The SLAM with the multi-resolution matcher (C95) is a relation, as the order of nearly equal matches in its queue is not determined by what
is modelled. A program is some way to choose among the answers; what follows holds for every such choice.
-/

set_option autoImplicit false
set_option linter.unusedSectionVars false

namespace Slam.Runner
open Slam.Config (Str Table parseArgs)
open Slam.Grid (Coord)
open Slam.Whole
open Slam.Worlds (Msg)
open Slam.Multires (MMap)

variable {G H : Type}

/-! ## Model -/

/-- A way to choose: the state of the program is that of C95 together with anything else, `H` (such as how its queue is laid out). -/
structure Chooser (P : MrProgram G) (H : Type) where
  start : H
  pick : Mr (MMap ℝ P.kind.Cell × G) × H → Poses.Pose ℝ × Msg ℝ → Option (Mr (MMap ℝ P.kind.Cell × G) × H)

/-- The program handles a message by one of the answers its matcher can give. It stops only if there is none, or, in a build with
assertions, if the search on this scan at this pose can fail the assertion of `branch`
(src/core/scan_matchers/m3rsm_engine.h:350-353). -/
structure Chooser.Faithful {P : MrProgram G} (K : Chooser P H) (asserts : Prop) : Prop where
  answers : ∀ s d s', K.pick s d = some s' → ∃ prob, s.1.Step P.cfg d prob s'.1
  stops : ∀ s d, K.pick s d = none → (∀ prob s', ¬ s.1.Step P.cfg d prob s') ∨
    (asserts ∧ ∃ scan p, P.cfg.Fails s.1.weights scan p s.1.st.map)

/-- The program as the runner and the nodes use it, lslam2D_bag_runner.cpp:163-164; `extent` is the rectangle of cells that the map has
grown to, which is up to the rule by which it grows. A cell whose occupancy is NaN is drawn as if it were occupied (`viewOf`). -/
noncomputable def ofMultires (extent : G → Int × Int × Coord) (P : MrProgram G) (K : Chooser P H) : Engine where
  S := Mr (MMap ℝ P.kind.Cell × G) × H
  start := (P.start, K.start)
  handle := K.pick
  pose := fun s => some s.1.st.pose
  view := fun s => some (P.cfg.slam.api.shown s.1.st.map (extent s.1.st.map.2).1 (extent s.1.st.map.2).2.1 (extent s.1.st.map.2).2.2
    P.cfg.slam.scale fun c => (P.kind.value c).getD 1)

/-! ## Proofs -/

theorem mr_runs_append {C G : Type} {cfg : MrCfg C G} {s s1 s2 : Mr (MMap ℝ C × G)} {ds1 ds2 : List (Poses.Pose ℝ × Msg ℝ)}
    (h1 : Mr.Runs cfg s ds1 s1) (h2 : Mr.Runs cfg s1 ds2 s2) : Mr.Runs cfg s (ds1 ++ ds2) s2 := by
  induction h1 with
  | nil => exact h2
  | cons h _ ih => exact .cons h (ih h2)

/-- What relates the states before and after one message relates those before and after all. -/
theorem serves_related {P : Engine} (R : P.S → List (Poses.Pose ℝ × Msg ℝ) → P.S → Prop) (hn : ∀ s, R s [] s)
    (hc : ∀ s d s1 ds s2, P.handle s d = some s1 → R s1 ds s2 → R s (d :: ds) s2) {s : P.S} {hs : List (LaserMsg × Poses.Pose ℝ)}
    {ss : List P.S} (h : Serves P s hs ss) : ∀ i (hi : i < (s :: ss).length), R s ((hs.map datum).take i) (s :: ss)[i] := by
  induction h with
  | nil s =>
    intro i hi
    obtain rfl : i = 0 := by simpa using hi
    exact hn s
  | cons s s' m x l ss h1 h2 ih =>
    intro i hi
    cases i with
    | zero => exact hn s
    | succ i => exact hc s _ s' _ _ h1 (ih i (by simpa using hi))

theorem serves_same_length {P : Engine} {s : P.S} {hs : List (LaserMsg × Poses.Pose ℝ)} {ss : List P.S} (h : Serves P s hs ss) :
    hs.length = ss.length := by
  induction h with
  | nil => rfl
  | cons _ _ _ _ _ _ _ _ ih => simp [ih]

theorem serves_handles {P : Engine} {s : P.S} {hs : List (LaserMsg × Poses.Pose ℝ)} {ss : List P.S} (h : Serves P s hs ss) :
    ∀ i (hi : i < ss.length) (hi' : i < hs.length), P.handle ((s :: ss)[i]'(by simp; omega)) (datum hs[i]) = some ss[i] := by
  induction h with
  | nil s => exact fun i hi => absurd hi (by simp)
  | cons s s' m x l ss h1 h2 ih =>
    intro i hi hi'
    cases i with
    | zero => exact h1
    | succ i => exact ih i (by simpa using hi) (by simpa using hi')

section
variable {D C : Type} {cred : Bool} {stod : Str → Option ℝ} {rad : ℝ} {rnd : Nat} {menv : MrEnv G} {t : Table} {w : Config.World ℝ}
  {oie : Config.Oie} {x y rot ang trl : ℝ} {P : MrProgram G} {K : Chooser P H} {extent : G → Int × Int × Coord} {asserts : Prop}

/-- **What the program does is an execution of C95 (C104)**: the state after each message is one that the relation of C95 leads to. -/
theorem multires_runs (hK : K.Faithful asserts) {hs : List (LaserMsg × Poses.Pose ℝ)} {s : Mr (MMap ℝ P.kind.Cell × G) × H}
    {ss : List (Mr (MMap ℝ P.kind.Cell × G) × H)} (h : Serves (ofMultires extent P K) s hs ss) :
    ∀ i (hi : i < (s :: ss).length), Mr.Runs P.cfg s.1 ((hs.map datum).take i) ((s :: ss)[i]).1 :=
  serves_related (P := ofMultires extent P K) (fun a ds b => Mr.Runs P.cfg a.1 ds b.1) (fun _ => .nil _) (fun s d s1 ds s2 h1 h2 => by
    obtain ⟨prob, h3⟩ := hK.answers s d s1 h1
    exact .cons h3 h2) h

/-- A configured SLAM serves all messages, as in `launched_mr_total`. -/
theorem multires_serves (hw : assemble cred stod rad rnd t = some w) (h : SensibleMr menv w oie x y rot ang trl)
    (hP : launchMr cred stod rad rnd menv t = some P) (hK : K.Faithful asserts)
    (hno : asserts → ∀ ds s, Mr.Runs P.cfg P.start ds s → ∀ scan p, ¬ P.cfg.Fails s.weights scan p s.st.map)
    (N : Int) (hok : ∀ v, |v| ≤ 6 * N → menv.base.ok v = true) (hf : 4 * N + 2 ≤ menv.base.lineFuel) {R B : ℝ} (hR : 0 ≤ R)
    (hs : List (LaserMsg × Poses.Pose ℝ)) (hodo : ∀ p ∈ hs, |p.2.x| ≤ B ∧ |p.2.y| ≤ B)
    (hmsg : ∀ p ∈ hs, GoodMsg P.cfg.slam R p.1.body ∧ Looks P.cfg p.1.body)
    (hN : hs.length * max x y + B + R ≤ w.map.params.scale * (N - 1)) :
    ∃ ss, Serves (ofMultires extent P K) (ofMultires extent P K).start hs ss := by
  have key : ∀ (hs2 hs1 : List (LaserMsg × Poses.Pose ℝ)) (s : Mr (MMap ℝ P.kind.Cell × G) × H), hs1 ++ hs2 = hs →
      Mr.Runs P.cfg P.start (hs1.map datum) s.1 → ∃ ss, Serves (ofMultires extent P K) s hs2 ss := by
    intro hs2
    induction hs2 with
    | nil => exact fun _ s _ _ => ⟨[], Serves.nil (P := ofMultires extent P K) s⟩
    | cons d hs2 ih =>
      intro hs1 s e hr
      obtain ⟨s2, h2⟩ := launched_mr_total hw h hP N hok hf R B hR (hs1.map datum) ((d :: hs2).map datum)
        (by rw [← List.map_append, List.length_map, e]; exact hN) (by
          intro q hq
          rw [← List.map_append, e] at hq
          obtain ⟨p, hp, rfl⟩ := List.mem_map.1 hq
          exact ⟨(hmsg p hp).1, (hmsg p hp).2, (hodo p hp).1, (hodo p hp).2⟩) hr
      cases h2 with
      | cons h3 _ =>
        cases hc : K.pick s (datum d) with
        | none =>
          rcases hK.stops _ _ hc with h4 | ⟨h4, scan, p, h5⟩
          · exact absurd h3 (h4 _ _)
          · exact absurd h5 (hno h4 _ _ hr scan p)
        | some s' =>
          obtain ⟨prob, h4⟩ := hK.answers _ _ _ hc
          have hr' : Mr.Runs P.cfg P.start ((hs1 ++ [d]).map datum) s'.1 := by
            rw [List.map_append]
            exact mr_runs_append hr (.cons h4 (.nil _))
          obtain ⟨ss, h5⟩ := ih (hs1 ++ [d]) s' (by rw [List.append_assoc]; exact e) hr'
          exact ⟨s' :: ss, Serves.cons (P := ofMultires extent P K) s s' d.1 d.2 hs2 ss hc h5⟩
  exact key hs [] (P.start, K.start) rfl (.nil _)

/-- **A whole run with the multi-resolution matcher (C104)**: the bag runner's program is configured with `SensibleMr`, the transform of
every message is found, the odometry is within `B`, the messages are well-formed with ranges up to `R` and with a usable reading, and the
area reached stays within the integers the traversal copes with. Then, whichever of the possible answers the matcher gives, all messages
are handled, the exit code is 0 and the trajectory file has an entry for each message. A build with assertions needs that none fails. -/
theorem runner_multires_total {env : Env D C} {fs : Fs} {argv : List Str} {rs : List (Bag.Rec LaserMsg (TransformMsg D))}
    (hset : Setup env fs argv t (ofMultires extent P K) rs)
    (hw : assemble cred stod rad rnd t = some w) (h : SensibleMr menv w oie x y rot ang trl)
    (hP : launchMr cred stod rad rnd menv t = some P) (hK : K.Faithful asserts)
    (hno : asserts → ∀ ds s, Mr.Runs P.cfg P.start ds s → ∀ scan p, ¬ P.cfg.Fails s.weights scan p s.st.map)
    (N : Int) (hNok : ∀ v, |v| ≤ 6 * N → menv.base.ok v = true) (hf : 4 * N + 2 ≤ menv.base.lineFuel) {R B : ℝ} (hR : 0 ≤ R)
    (hp : Bag.Patient (reader env t) rs)
    (hok : ∀ m ∈ Bag.msgs rs, ∃ x, (reader env t).lookup (Bag.cacheAfter (reader env t) rs) m = .ok x)
    (hodo : ∀ p, Found (reader env t) rs p → |p.2.x| ≤ B ∧ |p.2.y| ≤ B)
    (hmsg : ∀ m ∈ Bag.msgs rs, GoodMsg P.cfg.slam R m.body ∧ Looks P.cfg m.body)
    (hN : (Bag.msgs rs).length * max x y + B + R ≤ w.map.params.scale * (N - 1)) :
    (main env fs argv).exit = some 0 ∧
    ∃ hs ss poses, hs.map Prod.fst = Bag.msgs rs ∧ (∀ p ∈ hs, Found (reader env t) rs p) ∧
      Serves (ofMultires extent P K) (ofMultires extent P K).start hs ss ∧ ss.map (ofMultires extent P K).pose = poses.map some ∧
      TrajectoryOf env argv (main env fs argv).fs (Bag.msgs rs) poses := by
  exact runner_all_handled hset hp hok fun hs h1 h2 => by
    obtain ⟨ss, h3⟩ := multires_serves (extent := extent) hw h hP hK hno N hNok hf hR hs (fun p hp => hodo p (h2 p hp))
      (fun p hp' => hmsg p.1 (by rw [← h1]; exact List.mem_map_of_mem hp')) (by
        rw [← List.length_map (f := Prod.fst), h1]; exact hN)
    exact ⟨ss, h3, ⟨_, some_poses (fun s : Mr (MMap ℝ P.kind.Cell × G) × H => s.1.st.pose) ss⟩, _, rfl⟩

/-- What is shown of the map in any state that is reached. -/
theorem multires_shown (hw : assemble cred stod rad rnd t = some w) (h : SensibleMr menv w oie x y rot ang trl)
    (hP : launchMr cred stod rad rnd menv t = some P) {ds : List (Poses.Pose ℝ × Msg ℝ)} {s : Mr (MMap ℝ P.kind.Cell × G) × H}
    (hr : Mr.Runs P.cfg P.start ds s.1) {v : Dump.MapView ℝ} (hv : (ofMultires extent P K).view s = some v) :
    v.scale = w.map.params.scale ∧ (v.width, v.height, v.origin) = extent s.1.st.map.2 ∧ ∀ c, 0 ≤ v.occ c ∧ v.occ c ≤ 1 := by
  obtain ⟨P', e, hc⟩ := launched_mr_starts hw h
  rw [hP, Option.some.injEq] at e
  subst e
  cases hv
  refine ⟨hc.scale, rfl, fun c => ?_⟩
  obtain ⟨cell, h1, h2, h3⟩ := (launched_mr_behaves hw h hP hr).1 c
  simp only [MapApi.shown]
  rw [h1]
  simp only [Option.map_some, Option.getD_some]
  cases hval : P.kind.value cell with
  | none => exact ⟨by simp, by simp⟩
  | some x => exact h2 x hval

/-- **Every pixel of the map file shows a probability (C104)**, with the multi-resolution matcher too; the file has the extent that the
map has grown to, and the configured scale. -/
theorem runner_multires_probabilities (hw : assemble cred stod rad rnd t = some w) (h : SensibleMr menv w oie x y rot ang trl)
    (hP : launchMr cred stod rad rnd menv t = some P) (hK : K.Faithful asserts) {hs : List (LaserMsg × Poses.Pose ℝ)}
    {ss : List (Mr (MMap ℝ P.kind.Cell × G) × H)} (hserv : Serves (ofMultires extent P K) (P.start, K.start) hs ss)
    {s : Mr (MMap ℝ P.kind.Cell × G) × H} (hs' : s ∈ (P.start, K.start) :: ss) {v : Dump.MapView ℝ}
    (hv : (ofMultires extent P K).view s = some v) :
    v.scale = w.map.params.scale ∧ (v.width, v.height, v.origin) = extent s.1.st.map.2 ∧ ∀ c, 0 ≤ v.occ c ∧ v.occ c ≤ 1 := by
  obtain ⟨i, hi, rfl⟩ := List.getElem_of_mem hs'
  exact multires_shown hw h hP (multires_runs hK hserv i hi) hv

/-- **Every message does what `MrMessage` says (C104)**: its answer lies within the window, is the mean impact at the pose taken, and no
other of the poses looked at is better (`MrMessage` of C95 says it in full). -/
theorem runner_multires_message (hw : assemble cred stod rad rnd t = some w) (h : SensibleMr menv w oie x y rot ang trl)
    (hP : launchMr cred stod rad rnd menv t = some P) (hK : K.Faithful asserts) {hs : List (LaserMsg × Poses.Pose ℝ)}
    {ss : List (Mr (MMap ℝ P.kind.Cell × G) × H)} (hserv : Serves (ofMultires extent P K) (P.start, K.start) hs ss) :
    hs.length = ss.length ∧ ∀ i (hi : i < ss.length) (hi' : i < hs.length), ∃ prob,
      MrMessage P.kind P.impact P.cfg P.levels (((P.start, K.start) :: ss)[i]'(by simp; omega)).1 (datum hs[i]) prob ss[i].1 := by
  have hlen := serves_same_length (P := ofMultires extent P K) hserv
  refine ⟨hlen, fun i hi hi' => ?_⟩
  have h1 := serves_handles (P := ofMultires extent P K) hserv i hi hi'
  obtain ⟨prob, h2⟩ := hK.answers _ _ _ h1
  exact ⟨prob, (launched_mr_behaves hw h hP (multires_runs hK hserv i (by simp; omega))).2 _ _ _ h2⟩

/-- There is a way to choose, whatever the configuration. -/
theorem multires_exists (P : MrProgram G) (h0 : H) (asserts : Prop) : ∃ K : Chooser P H, K.Faithful asserts := by
  classical
  refine ⟨⟨h0, fun s d => if h : ∃ s', ∃ prob, s.1.Step P.cfg d prob s' then some (h.choose, s.2) else none⟩, ⟨?_, ?_⟩⟩
  · intro s d s' h
    dsimp only at h
    split at h
    · rename_i hx
      cases h
      exact hx.choose_spec
    · cases h
  · intro s d h
    dsimp only at h
    split at h
    · cases h
    · rename_i hx
      exact .inl fun prob s' hst => hx ⟨s', prob, hst⟩

end

end Slam.Runner
