import Verif.Matcher.Roam
import Verif.Whole.MachineLaunch
import Verif.Whole.GmappingOwnTotal

/-!
# C100: the single-hypothesis SLAM never gets stuck, whatever its matcher

C93 has it for the idle and the Monte Carlo matcher. Here also for hill climbing (both implementations) and brute force, with or
without the drift detector: for every history of messages there is a number of iterations after which every matching has ended.
-/

set_option autoImplicit false
set_option linter.unusedSectionVars false

namespace Slam.Whole
open Slam.Grid Slam.Cells Slam.Poses Slam.Sensor Slam.Score Slam.ScanAdder Slam.Worlds Slam.Tbm Slam.Matcher

/-! ## Specification -/

/-- The odometry, starting at `p`, moves by at most `D` along each axis at each message. -/
def Strides (D : ℝ) (p : Poses.Pose ℝ) (ds : List (Poses.Pose ℝ × Msg ℝ)) : Prop :=
  (p :: ds.map Prod.fst).IsChain fun a b => |b.x - a.x| ≤ D ∧ |b.y - a.y| ≤ D

/-- The map was told sane observations of cells within `U` only. -/
def ToldWithin {C M : Type} (api : MapApi C M) (scale : ℝ) (init : M) (U : ℝ) (m : M) : Prop :=
  ∃ us, api.tellAll init us = some m ∧ SaneT (us.map Prod.snd) ∧ ∀ u ∈ us, CellWithin scale U u.1

/-- The program with another matcher. -/
def MachCfg.withMachine {C M T : Type} (cfg : MachCfg C M T) (m : Machine C T) : MachCfg C M T :=
  { cfg with
    machine := m }

/-- The states after each of the messages. -/
def Mach.Visits {C M T : Type} (cfg : MachCfg C M T) : Mach M T → List (Poses.Pose ℝ × Msg ℝ) → List (Mach M T) → Prop
  | _, [], [] => True
  | s, d :: ds, s' :: ss => s.handle cfg d = some s' ∧ Mach.Visits cfg s' ds ss
  | _, _, _ => False

/-- By how much what may be known grows with a message: strides of the odometry `D`, of the matcher `b`, ranges `R`. -/
noncomputable def spread (D b R scale : ℝ) : ℝ := D + b + 3 * R + 4 * scale

/-! ## Lemmas -/

variable {M T : Type} {k : CellKind} {i : Impact} {init : M}

theorem told_flat (hk : k ≠ .gmapping) {api : MapApi k.Cell M} (hL : Lawful api k.upd k.proto init) {scale U : ℝ} {m : M}
    (h : ToldWithin api scale init U m) : Flat scale U (seenProb k i api m) := by
  classical
  obtain ⟨us, h1, -, h3⟩ := h
  obtain ⟨m', e1, e2⟩ := hL us
  rw [h1, Option.some.injEq] at e1
  subst e1
  have hq : ∀ (q q' : Grid.Point ℝ) cell, k.impact i q cell = k.impact i q' cell := by
    intro q q' cell
    cases i with
    | occupancy =>
      cases k with
      | tbm k => cases k <;> rfl
      | _ => rfl
    | discrepancy =>
      cases k with
      | gmapping => exact absurd rfl hk
      | tbm k => cases k <;> rfl
      | _ => rfl
  have hout : ∀ q c, c ∉ us.map Prod.fst → seenProb k i api m q c = ((k.impact i ⟨0, 0⟩ k.proto)).getD 0 := by
    intro q c hc
    have ha : about c us = [] := by
      unfold about
      rw [List.map_eq_nil_iff, List.filter_eq_nil_iff]
      intro u hu
      simp only [decide_eq_true_eq]
      rintro rfl
      exact hc (List.mem_map.2 ⟨u, hu, rfl⟩)
    simp only [seenProb, e2 c, ha, List.foldl_nil, Option.bind_some]
    rw [hq]
  refine ⟨⟨insert (((k.impact i ⟨0, 0⟩ k.proto)).getD 0) ((us.map fun u => seenProb k i api m ⟨0, 0⟩ u.1).toFinset),
    fun q c => ?_⟩, _, fun q c hc => hout q c fun hm => ?_⟩
  · rw [Finset.mem_insert, List.mem_toFinset]
    by_cases hc : c ∈ us.map Prod.fst
    · right
      obtain ⟨u, hu, rfl⟩ := List.mem_map.1 hc
      refine List.mem_map.2 ⟨u, hu, ?_⟩
      simp only [seenProb, e2 u.1, Option.bind_some]
      rw [hq]
    · exact .inl (hout q c hc)
  · obtain ⟨u, hu, rfl⟩ := List.mem_map.1 hm
    exact hc (h3 u hu)

/-- What is inserted is near the robot. -/
theorem append_within {C : Type} {cfg : Cfg C M} {m : M} (hs : 0 < cfg.scale) (hA : SoundFor cfg.adder cfg.scale) {N : Int}
    (hok : ∀ v, |v| ≤ 6 * N → cfg.ok v = true) (hfu : 4 * N + 2 ≤ cfg.fuel) {R X U U' : ℝ} (hR : 0 ≤ R)
    (hX : X + R ≤ cfg.scale * (N - 1)) (hU : U ≤ U') (hU' : X + 2 * R + 3 * cfg.scale ≤ U')
    (hm : ToldWithin cfg.api cfg.scale init U m) {hist : Option Hist} {p : Poses.Pose ℝ} {scan : List ScanPoint}
    (h4 : Ranged R scan) (hp : PoseWithin X p) {q : ℝ} (hq : Unit01 q) {margin : Nat} {r : M × Option Hist}
    (h : cfg.append hist m p scan q margin = some r) : ToldWithin cfg.api cfg.scale init U' r.1 := by
  obtain ⟨px, py⟩ := hp
  obtain ⟨us, u1, u2⟩ := append_spec h
  obtain ⟨vs, v1, v2, v3⟩ := hm
  refine ⟨vs ++ us, by rw [tellAll_append, v1]; exact u2, ?_, ?_⟩
  · rw [List.map_append]
    exact sane_append v2 (u1.sane hA hq)
  · intro u hu
    rcases List.mem_append.1 hu with hu | hu
    · exact ⟨(v3 u hu).1.trans hU, (v3 u hu).2.trans hU⟩
    · rcases u1 with ⟨-, rfl⟩ | ⟨-, h, h', k, -, hap⟩
      · cases hu
      · obtain ⟨pt, hpt, cells, hw, hmem⟩ := appendScan_cells hap u hu
        obtain ⟨n1, n2⟩ := worldPoints_near ⟨p.x, p.y, p.theta⟩ scan R h4 pt hpt
        have hd : |pt.at_.x - p.x| ≤ R ∧ |pt.at_.y - p.y| ≤ R := by
          rw [worldPoints_rigid, List.mem_map] at hpt
          obtain ⟨sp, hsp, rfl⟩ := hpt
          have := seenAt_near (h4 sp hsp) p
          simp only [seenAt, add_sub_cancel_left] at this
          simpa only [add_sub_cancel_right] using this
        have ir1 : InRange N cfg.scale ⟨p.x, p.y⟩ := cell_in_range _ hs N _ (by simp only; linarith) (by simp only; linarith)
        have ir2 : InRange N cfg.scale pt.at_ :=
          cell_in_range _ hs N _ (by simp only at n1; linarith) (by simp only at n2; linarith)
        obtain ⟨cells', c1, c2, c3⟩ := Line.world_to_cells_connects cfg.ok N hok (ScanAdder.exactFP cfg.scale) cfg.scale
          p.x p.y pt.at_.x pt.at_.y cfg.fuel ir1.1 ir1.2 ir2.1 ir2.2
          (fuel_in_range cfg.scale N _ _ ir1 ir2 cfg.fuel hfu)
        rw [hw, Option.some.injEq] at c1
        subst c1
        obtain ⟨d1, d2⟩ := chain_near cells _ c2.first c2.steps u.1 hmem
        have s1 := cells_apart hs _ _ hd.1
        have s2 := cells_apart hs _ _ hd.2
        have b1 := cell_of_point hs _ px
        have b2 := cell_of_point hs _ py
        have hc3 : (cells.length : ℝ) - 1 ≤ ((⌊pt.at_.x / cfg.scale⌋ - ⌊p.x / cfg.scale⌋).natAbs : ℝ) +
            ((⌊pt.at_.y / cfg.scale⌋ - ⌊p.y / cfg.scale⌋).natAbs : ℝ) := by
          have : (cells.length : ℝ) ≤ ((⌊pt.at_.x / cfg.scale⌋ - ⌊p.x / cfg.scale⌋).natAbs : ℝ) +
            ((⌊pt.at_.y / cfg.scale⌋ - ⌊p.y / cfg.scale⌋).natAbs : ℝ) + 1 := by exact_mod_cast c3
          linarith
        have key : ∀ (a b : Int), |a - b| ≤ (cells.length : Int) - 1 → cfg.scale * |(b : ℝ)| ≤ X + cfg.scale →
            cfg.scale * |(a : ℝ)| ≤ U' := by
          intro a b hab hb
          have h1 : |(a : ℝ) - b| ≤ (cells.length : ℝ) - 1 := by exact_mod_cast hab
          have h2 : |(a : ℝ)| ≤ |(b : ℝ)| + ((cells.length : ℝ) - 1) := by
            have := abs_sub_abs_le_abs_sub (a : ℝ) b
            linarith
          have h3 := mul_le_mul_of_nonneg_left (h2.trans (add_le_add_right hc3 _)) hs.le
          nlinarith
        exact ⟨key _ _ d1 b1, key _ _ d2 b2⟩

/-- The last of the visited states is the result of the run. -/
theorem Mach.Visits.run {C : Type} {cfg : MachCfg C M T} {ds : List (Poses.Pose ℝ × Msg ℝ)} : ∀ {s : Mach M T} {ss : List (Mach M T)},
    s.Visits cfg ds ss → s.run cfg ds = some (ss.getLastD s) ∧ ss.length = ds.length := by
  induction ds with
  | nil =>
    intro s ss h
    cases ss with
    | nil => exact ⟨rfl, rfl⟩
    | cons a l => exact h.elim
  | cons d ds ih =>
    intro s ss h
    cases ss with
    | nil => exact h.elim
    | cons a l =>
      obtain ⟨h1, h2⟩ := h
      obtain ⟨e1, e2⟩ := ih h2
      refine ⟨?_, by simp [e2]⟩
      change (s.handle cfg d).bind _ = _
      rw [h1]
      change a.run cfg ds = _
      rw [e1]
      cases l <;> rfl

/-! ## All messages are handled -/

/-- What holds in a state when everything is within `X`. -/
structure Roaming (cfg : MachCfg k.Cell M T) (ok : ℝ → T → Prop) (init : M) (R X : ℝ) (s : Mach M T) : Prop where
  pose : PoseWithin X s.st.pose
  map : ToldWithin cfg.slam.api cfg.slam.scale init (X - R - cfg.slam.scale) s.st.map
  state : ok X s.state
  weights : Spw.Ok s.weights
  hist : HistOk s.st.hist

variable {cfg : MachCfg k.Cell M T} {m : Nat → Machine k.Cell T} {flat : Prop} {ok : ℝ → T → Prop} {b : ℝ}

/-- One message. -/
theorem roam_handle_total (hc : ∀ f, MachStarted k i (cfg.withMachine (m f)) init) (hm : Roams m cfg.matcher.imp flat ok b)
    (hflat : flat → k ≠ .gmapping) (hb : 0 ≤ b) (N : Int) (hok : ∀ v, |v| ≤ 6 * N → cfg.slam.ok v = true)
    (hf : 4 * N + 2 ≤ cfg.slam.fuel) {R D X : ℝ} (hR : 0 ≤ R) (hD : 0 ≤ D) (hX : X + D + b + R ≤ cfg.slam.scale * (N - 1))
    {s : Mach M T} (hs : Roaming cfg ok init R X s) (d : Poses.Pose ℝ × Msg ℝ) (hg : GoodMsg cfg.slam R d.2)
    (hx : |d.1.x - s.st.odom.x| ≤ D) (hy : |d.1.y - s.st.odom.y| ≤ D) :
    ∃ F s', (∀ f, F ≤ f → s.handle (cfg.withMachine (m f)) d = some s') ∧
      Roaming cfg ok init R (X + spread D b R cfg.slam.scale) s' ∧ s'.st.odom = d.1 := by
  have hc0 := hc 0
  have hscale : 0 < cfg.slam.scale := hc0.scale
  obtain ⟨pts, scan, h1, h2, h3, h4⟩ := good_scan hg
  set p := s.st.pose.add (d.1.sub s.st.odom) with hp
  have hpw : PoseWithin (X + D) p :=
    ⟨(abs_add_le _ _).trans (add_le_add hs.pose.1 hx), (abs_add_le _ _).trans (add_le_add hs.pose.2 hy)⟩
  have htold : SaneTold cfg.slam.api init s.st.map := by
    obtain ⟨us, e1, e2, -⟩ := hs.map
    exact ⟨us, e1, e2⟩
  obtain ⟨hmono, ⟨rs, hrs⟩, hproc⟩ := hm
  have hshow : Shows (cfg.view s.st.map) cfg.matcher.imp (seenProb k i cfg.slam.api s.st.map) :=
    mach_shows (cfg := cfg.withMachine (m 0)) hc0 htold
  have hstate : ok (X + D) (rs s.state) := (hrs 0).2 _ _ (hmono _ _ _ (by linarith) hs.state)
  obtain ⟨F, w', t', delta, sc, g1, g2, g3⟩ := hproc (cfg.view s.st.map) _ (X - R - cfg.slam.scale) R (X + D) hshow hscale
    (fun hfl => told_flat (hflat hfl) hc0.lawful hs.map) (by
      have : (cfg.view s.st.map).scale = cfg.slam.scale := rfl
      rw [this]; linarith) s.weights hs.weights (rs s.state) hstate scan h4 p hpw
  have hX' : X + D + b + R ≤ cfg.slam.scale * (N - 1) := by linarith
  obtain ⟨m', hist', hap, -, hh'⟩ := append_total (cfg := cfg.slam) hc0.lawful hscale N hok hf R (X + D + b) hX' hR
    (by obtain ⟨us, e, -⟩ := htold; exact ⟨us, e⟩) hs.hist h4 g2.1 g2.2
    (if delta.toBool then cfg.slam.props.localizedQuality else cfg.slam.props.rawQuality) cfg.slam.props.margin (by
      rcases hg.margin pts h1 with rfl | hmg
      · rw [List.length_nil, List.length_eq_zero_iff] at h3
        exact .inl h3
      · exact .inr (by omega))
  refine ⟨F, ⟨⟨d.1, p.add delta, m', hist'⟩, w', t'⟩, ?_, ?_, rfl⟩
  · intro f hF
    unfold Mach.handle
    change (msg2scan d.2 cfg.slam.skipMax cfg.slam.tol).bind _ = _
    rw [h1, Option.bind_some, h2, Option.bind_some]
    have hmt : (cfg.withMachine (m f)).matching s scan (s.st.pose.add (observerStep s.st.odom d.1).2) s.st.map =
        some (w', t', delta, sc) := by
      have := g1 f hF
      rw [← (hrs f).1] at this
      exact this
    simp only [hmt, Option.bind_some]
    change (cfg.slam.append s.st.hist s.st.map (p.add delta) scan _ cfg.slam.props.margin).map _ = _
    have hq : (cfg.withMachine (m f)).slam = cfg.slam := rfl
    rw [hq, hap]
    rfl
  · have hkey := append_within (cfg := cfg.slam) (init := init) hscale hc0.adder hok hf hR hX' (U := X - R - cfg.slam.scale)
      (U' := X + spread D b R cfg.slam.scale - R - cfg.slam.scale) (by unfold spread; linarith) (by unfold spread; linarith) hs.map h4 g2 (by
        by_cases hz : delta.toBool = true
        · rw [if_pos hz]; exact hc0.qualities.1
        · rw [if_neg hz]; exact hc0.qualities.2) hap
    refine ⟨g2.mono (by unfold spread; linarith), hkey, hmono _ _ _ (by unfold spread; linarith) g3, ?_, hh'⟩
    have hg1 : (m F).process (cfg.view s.st.map) s.weights (rs s.state) scan p = some (w', t', delta, sc) := g1 F le_rfl
    exact (hc F).keeps _ _ hshow hscale _ hs.weights _ _ _ _ _ _ _ hg1

/-- **No message makes the program fail, and every matching ends (C100).** For a matcher that roams (`Roams`), messages the program
is ready for, with ranges up to `R`, and strides of the odometry up to `D`, as long as the area that may be reached stays within the
integers the traversal copes with: there is a number of iterations `F` such that with this bound or any higher one all messages are
handled, always with the same states; after the first message the robot is within `X + spread`, and so on. -/
theorem roam_total (hc : ∀ f, MachStarted k i (cfg.withMachine (m f)) init) (hm : Roams m cfg.matcher.imp flat ok b)
    (hflat : flat → k ≠ .gmapping) (hb : 0 ≤ b) (N : Int) (hok : ∀ v, |v| ≤ 6 * N → cfg.slam.ok v = true)
    (hf : 4 * N + 2 ≤ cfg.slam.fuel) {R D : ℝ} (hR : 0 ≤ R) (hD : 0 ≤ D) (ds : List (Poses.Pose ℝ × Msg ℝ)) : ∀ (X : ℝ),
    X + ds.length * spread D b R cfg.slam.scale ≤ cfg.slam.scale * (N - 1) → ∀ (s : Mach M T), Roaming cfg ok init R X s →
    Strides D s.st.odom ds → (∀ d ∈ ds, GoodMsg cfg.slam R d.2) →
    ∃ F ss, (∀ f, F ≤ f → s.Visits (cfg.withMachine (m f)) ds ss) ∧
      Roaming cfg ok init R (X + ds.length * spread D b R cfg.slam.scale) (ss.getLastD s) ∧
      ∀ (j : Nat) (s' : Mach M T), ss[j]? = some s' → PoseWithin (X + (j + 1) * spread D b R cfg.slam.scale) s'.st.pose := by
  have hscale : 0 < cfg.slam.scale := (hc 0).scale
  induction ds with
  | nil => intro X hN s hs _ _; exact ⟨0, [], fun _ _ => trivial, by simpa using hs, fun j s' h => by simp at h⟩
  | cons d ds ih =>
    intro X hN s hs hst hd
    simp only [List.length_cons, Nat.cast_add, Nat.cast_one] at hN ⊢
    rw [Strides, List.map_cons, List.isChain_cons_cons] at hst
    have hsp : 0 ≤ spread D b R cfg.slam.scale := by unfold spread; positivity
    have hlen : 0 ≤ (ds.length : ℝ) * spread D b R cfg.slam.scale := by positivity
    obtain ⟨F1, s1, h1, h2, h3⟩ := roam_handle_total hc hm hflat hb N hok hf hR hD (by
      have : X + spread D b R cfg.slam.scale ≤ cfg.slam.scale * (N - 1) := by nlinarith
      unfold spread at this
      linarith) hs d (hd d (by simp)) hst.1.1 hst.1.2
    obtain ⟨F2, ss, h4, h5, h6⟩ := ih (X + spread D b R cfg.slam.scale) (by nlinarith) s1 h2 (by rw [h3]; exact hst.2)
      fun d' hd' => hd d' (by simp [hd'])
    refine ⟨max F1 F2, s1 :: ss, fun f hF => ⟨h1 f ((le_max_left _ _).trans hF), h4 f ((le_max_right _ _).trans hF)⟩, ?_, ?_⟩
    · have : X + spread D b R cfg.slam.scale + ds.length * spread D b R cfg.slam.scale =
        X + (ds.length + 1) * spread D b R cfg.slam.scale := by ring
      rw [← this]
      cases ss <;> exact h5
    · intro j s' hj
      cases j with
      | zero =>
        rw [List.getElem?_cons_zero, Option.some.injEq] at hj
        subst hj
        simpa using h2.pose
      | succ j =>
        rw [List.getElem?_cons_succ] at hj
        exact (h6 j s' hj).mono (le_of_eq (by push_cast; ring))

end Slam.Whole
