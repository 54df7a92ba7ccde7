import Verif.Whole.FixedLaunch
import Verif.Whole.RoamLaunch
import Verif.Matcher.RoamAround

/-!
# C111: maps of fixed size, whatever the matcher

C96 has it for the idle and the Monte Carlo matcher that a map of fixed size is as good as a growing one as long as everything stays
within it. Here also for hill climbing (both implementations) and brute force, with or without the drift detector.
-/

set_option autoImplicit false
set_option linter.unusedSectionVars false

namespace Slam.Whole
open Slam.Grid Slam.Cells Slam.Poses Slam.Sensor Slam.Score Slam.ScanAdder Slam.Worlds Slam.Tbm Slam.Matcher Slam.ScanMatch

section
variable {M M' T : Type} {k : CellKind} {i : Impact} {init : M} {init' : M'} {w h : Nat}
  {cfg : MachCfg k.Cell M T} {cfg' : MachCfg k.Cell M' T} {m : Nat → Machine k.Cell T} {flat : Prop} {ok : ℝ → T → Prop} {b c : ℝ}

theorem Twin.withMachine (tw : Twin cfg cfg') (a : Machine k.Cell T) : Twin (cfg.withMachine a) (cfg'.withMachine a) :=
  ⟨tw.scale, tw.adder, tw.ok, tw.fuel, tw.props, tw.skipMax, tw.tol, tw.matcher, rfl⟩

theorem Same.withMachine {s : Mach M T} {s' : Mach M' T} (hs : Same cfg cfg' init init' w h s s') (a : Machine k.Cell T) :
    Same (cfg.withMachine a) (cfg'.withMachine a) init init' w h s s' :=
  ⟨hs.pose, hs.odom, hs.hist, hs.weights, hs.state, hs.maps⟩

theorem Same.ofMachine {s : Mach M T} {s' : Mach M' T} {a : Machine k.Cell T}
    (hs : Same (cfg.withMachine a) (cfg'.withMachine a) init init' w h s s') : Same cfg cfg' init init' w h s s' :=
  ⟨hs.pose, hs.odom, hs.hist, hs.weights, hs.state, hs.maps⟩

/-- One message. -/
theorem fixed_roam_handle (hc : ∀ f, MachStarted k i (cfg.withMachine (m f)) init) (tw : Twin cfg cfg')
    (hF : Holds cfg' k.upd k.proto w h init') (hm : Roams m cfg.matcher.imp flat ok b) (hl : LooksWithin m cfg.matcher.imp flat ok c)
    (hflat : flat → k ≠ .gmapping) (hb : 0 ≤ b) (N : Int) (hok : ∀ v, |v| ≤ 6 * N → cfg.slam.ok v = true)
    (hf : 4 * N + 2 ≤ cfg.slam.fuel) (hw : 2 * N + 1 ≤ w) (hh : 2 * N + 1 ≤ h) {R D X : ℝ} (hR : 0 ≤ R) (hD : 0 ≤ D)
    (hc0 : 0 ≤ c) (hX : X + spread D b R cfg.slam.scale + c + R ≤ cfg.slam.scale * (N - 1))
    {s : Mach M T} {s' : Mach M' T} (hs : Roaming cfg ok init R X s) (hss : Same cfg cfg' init init' w h s s')
    (d : Poses.Pose ℝ × Msg ℝ) (hg : GoodMsg cfg.slam R d.2) (hx : |d.1.x - s.st.odom.x| ≤ D) (hy : |d.1.y - s.st.odom.y| ≤ D) :
    ∃ F s1 s1', (∀ f, F ≤ f → s.handle (cfg.withMachine (m f)) d = some s1 ∧ s'.handleFixed (cfg'.withMachine (m f)) d = some s1') ∧
      Roaming cfg ok init R (X + spread D b R cfg.slam.scale) s1 ∧ Same cfg cfg' init init' w h s1 s1' ∧ s1.st.odom = d.1 := by
  have hscale : 0 < cfg.slam.scale := (hc 0).scale
  have hsp : 0 ≤ spread D b R cfg.slam.scale := by unfold spread; positivity
  obtain ⟨F, s1, h1, h2, h3⟩ := roam_handle_total hc hm hflat hb N hok hf hR hD (by unfold spread at hX; linarith) hs d hg hx hy
  obtain ⟨pts, scan, g1, g2, -, g4⟩ := good_scan hg
  have huniq : ∀ scan', ScanOf cfg.slam d.2 scan' → scan' = scan := by
    rintro scan' ⟨pts', k1, k2⟩
    rw [g1, Option.some.injEq] at k1
    subst k1
    rw [g2, Option.some.injEq] at k2
    exact k2.symm
  have hreach : ∀ q : Poses.Pose ℝ, PoseWithin (X + spread D b R cfg.slam.scale + c) q →
      (InRange N cfg.slam.scale ⟨q.x, q.y⟩ ∧ Within w h (worldToCell cfg.slam.scale ⟨q.x, q.y⟩)) ∧
      ∀ sp ∈ scan, InRange N cfg.slam.scale (seenAt q sp) ∧ Within w h (worldToCell cfg.slam.scale (seenAt q sp)) := by
    intro q ⟨q1, q2⟩
    have hq : InRange N cfg.slam.scale ⟨q.x, q.y⟩ :=
      cell_in_range cfg.slam.scale hscale N _ (by simp only; linarith) (by simp only; linarith)
    refine ⟨⟨hq, within_square N w h hw hh _ hq.1 hq.2⟩, fun sp hsp => ?_⟩
    obtain ⟨n1, n2⟩ := point_seen_near (p := q) g4 sp hsp
    have hin : InRange N cfg.slam.scale (seenAt q sp) :=
      cell_in_range cfg.slam.scale hscale N _ (by linarith) (by linarith)
    exact ⟨hin, within_square N w h hw hh _ hin.1 hin.2⟩
  have hpw : PoseWithin (X + D) (s.st.pose.add (d.1.sub s.st.odom)) :=
    ⟨(abs_add_le _ _).trans (add_le_add hs.pose.1 hx), (abs_add_le _ _).trans (add_le_add hs.pose.2 hy)⟩
  have hDs : D ≤ spread D b R cfg.slam.scale := by unfold spread; linarith
  have htold : SaneTold cfg.slam.api init s.st.map := by
    obtain ⟨us, e1, e2, -⟩ := hs.map
    exact ⟨us, e1, e2⟩
  have hshow : Shows (cfg.view s.st.map) cfg.matcher.imp (seenProb k i cfg.slam.api s.st.map) :=
    mach_shows (cfg := cfg.withMachine (m 0)) (hc 0) htold
  obtain ⟨rs, hrs⟩ := hm.2.1
  have hstate : ok (X + D) (rs s.state) := (hrs 0).2 _ _ (hm.1 _ _ _ (by linarith) hs.state)
  have ha : Alike cfg cfg' k.proto w h s s' := same_alike (upd := k.upd) (hc 0).lawful hF hss
  have hU : X - R - cfg.slam.scale + (cfg.view s.st.map).scale + R ≤ X + D := by
    have : (cfg.view s.st.map).scale = cfg.slam.scale := rfl
    rw [this]; linarith
  have hfl : flat → Flat (cfg.view s.st.map).scale (X - R - cfg.slam.scale) (seenProb k i cfg.slam.api s.st.map) :=
    fun hfl => told_flat (hflat hfl) (hc 0).lawful hs.map
  have hfix : ∀ f r, (m f).process (cfg.view s.st.map) s.weights (rs s.state) scan (s.st.pose.add (d.1.sub s.st.odom)) = some r →
      (m f).process (cfg'.fixedView s'.st.map) s.weights (rs s.state) scan (s.st.pose.add (d.1.sub s.st.odom)) = some r := by
    intro f r hr
    refine hl (cfg.view s.st.map) (cfg'.fixedView s'.st.map) _ (X - R - cfg.slam.scale) R (X + D) hshow hscale hfl hU s.weights hs.weights _ hstate _ g4 _ hpw
      tw.scale.symm ?_ ?_ f r hr
    · intro sp hsp
      exact ((fixed_hasCell ha _).2 ((hreach _ (hpw.mono (by linarith))).2 sp hsp).2).symm
    · intro q hq sp hsp x hx
      obtain ⟨cell, c1, c2⟩ := ha.inside _ ((hreach q (hq.mono (by linarith))).2 sp hsp).2
      change cfg.slam.api.read s.st.map _ = some x at hx
      rw [← hx]
      exact c1.trans c2.symm
  obtain ⟨F2, w', t', delta, sc, k1, -, -⟩ := hm.2.2 (cfg.view s.st.map) _ (X - R - cfg.slam.scale) R (X + D) hshow hscale hfl hU
    s.weights hs.weights (rs s.state) hstate scan g4 _ hpw
  obtain ⟨s1', e1, e2⟩ := handle_on_fixed_of (upd := k.upd) (proto := k.proto) (tw.withMachine (m (max F F2))) hF
    (hss.withMachine (m (max F F2))) (h1 _ (le_max_left _ _)) (by
      intro scan' hscan r hr
      have e := huniq scan' hscan
      subst e
      change (m (max F F2)).process (cfg.view s.st.map) s.weights ((m (max F F2)).reset s.state) _ _ = some r at hr
      change (m (max F F2)).process (cfg'.fixedView s'.st.map) s.weights ((m (max F F2)).reset s.state) _ _ = some r
      rw [(hrs _).1] at hr ⊢
      exact hfix _ r hr) (by
      intro scan' quality us hscan hins
      have e := huniq scan' hscan
      subst e
      have hq := hreach s1.st.pose (h2.pose.mono (by linarith))
      exact inserted_within (cfg := cfg.slam) N hok hf hins hq.1.1 hq.1.2 (fun sp hsp => (hq.2 sp hsp).1) fun sp hsp => (hq.2 sp hsp).2)
  refine ⟨max F F2, s1, s1', fun f hle => ⟨h1 f ((le_max_left _ _).trans hle), ?_⟩, h2, e2.ofMachine, h3⟩
  have hpr : ∀ f, F2 ≤ f → (cfg'.withMachine (m f)).machine.process ((cfg'.withMachine (m f)).fixedView s'.st.map) s'.weights
      ((cfg'.withMachine (m f)).machine.reset s'.state) scan (s'.st.pose.add (observerStep s'.st.odom d.1).2) =
        some (w', t', delta, sc) := by
    intro f hle
    rw [hss.weights, hss.state, hss.pose, hss.odom]
    change (m f).process (cfg'.fixedView s'.st.map) s.weights ((m f).reset s.state) scan (s.st.pose.add (d.1.sub s.st.odom)) = _
    rw [(hrs f).1]
    exact hfix f _ (k1 f hle)
  have hg1 : ∀ f, msg2scan d.2 (cfg'.withMachine (m f)).slam.skipMax (cfg'.withMachine (m f)).slam.tol = some pts := by
    intro f
    change msg2scan d.2 cfg'.slam.skipMax cfg'.slam.tol = some pts
    rw [tw.skipMax, tw.tol]
    exact g1
  rw [← e1]
  unfold Mach.handleFixed Mach.handleSeeing
  simp only [hg1, Option.bind_some, g2, hpr f ((le_max_right _ _).trans hle), hpr _ (le_max_right F F2)]
  rfl

/-- **A map of fixed size is as good as a growing one, whatever the matcher (C111).** Let the matcher roam by at most `b` (`Roams`,
C100) and look at most `c` beyond the poses from where known cells can be seen (`LooksWithin`). Let the messages be ready for the
program with ranges up to `R`, and the odometry make strides of at most `D`. If what may be reached and looked at is within `N` cells,
and the map has `N` cells in each direction, both programs handle all messages, with every bound on the iterations from some `F` on,
with the same states, and end alike. -/
theorem fixed_roam_total (hc : ∀ f, MachStarted k i (cfg.withMachine (m f)) init) (tw : Twin cfg cfg')
    (hF : Holds cfg' k.upd k.proto w h init') (hm : Roams m cfg.matcher.imp flat ok b) (hl : LooksWithin m cfg.matcher.imp flat ok c)
    (hflat : flat → k ≠ .gmapping) (hb : 0 ≤ b) (hc0 : 0 ≤ c) (N : Int) (hok : ∀ v, |v| ≤ 6 * N → cfg.slam.ok v = true)
    (hf : 4 * N + 2 ≤ cfg.slam.fuel) (hw : 2 * N + 1 ≤ w) (hh : 2 * N + 1 ≤ h) {R D : ℝ} (hR : 0 ≤ R) (hD : 0 ≤ D)
    (ds : List (Poses.Pose ℝ × Msg ℝ)) : ∀ (X : ℝ),
    X + ds.length * spread D b R cfg.slam.scale + c + R ≤ cfg.slam.scale * (N - 1) → ∀ (s : Mach M T) (s' : Mach M' T),
    Roaming cfg ok init R X s → Same cfg cfg' init init' w h s s' → Strides D s.st.odom ds → (∀ d ∈ ds, GoodMsg cfg.slam R d.2) →
    ∃ F s1 s1', (∀ f, F ≤ f → s.run (cfg.withMachine (m f)) ds = some s1 ∧ s'.runFixed (cfg'.withMachine (m f)) ds = some s1') ∧
      Same cfg cfg' init init' w h s1 s1' := by
  have hscale : 0 < cfg.slam.scale := (hc 0).scale
  have hsp : 0 ≤ spread D b R cfg.slam.scale := by unfold spread; positivity
  induction ds with
  | nil => intro X hN s s' _ hss _ _; exact ⟨0, s, s', fun _ _ => ⟨rfl, rfl⟩, hss⟩
  | cons d ds ih =>
    intro X hN s s' hs hss hst hd
    simp only [List.length_cons, Nat.cast_add, Nat.cast_one] at hN
    rw [Strides, List.map_cons, List.isChain_cons_cons] at hst
    have hlen : 0 ≤ (ds.length : ℝ) * spread D b R cfg.slam.scale := by positivity
    obtain ⟨F1, s1, s1', h1, h2, h3, h4⟩ := fixed_roam_handle hc tw hF hm hl hflat hb N hok hf hw hh hR hD hc0 (by nlinarith) hs hss d
      (hd d (by simp)) hst.1.1 hst.1.2
    obtain ⟨F2, s2, s2', h5, h6⟩ := ih (X + spread D b R cfg.slam.scale) (by nlinarith) s1 s1' h2 h3 (by rw [h4]; exact hst.2)
      fun d' hd' => hd d' (by simp [hd'])
    refine ⟨max F1 F2, s2, s2', fun f hle => ?_, h6⟩
    obtain ⟨a1, a2⟩ := h1 f ((le_max_left _ _).trans hle)
    obtain ⟨a3, a4⟩ := h5 f ((le_max_right _ _).trans hle)
    constructor
    · change (s.handle (cfg.withMachine (m f)) d).bind _ = _
      rw [a1]
      exact a3
    · change (s'.handleFixed (cfg'.withMachine (m f)) d).bind _ = _
      rw [a2]
      exact a4

end

/-! ## From the configuration -/

section
variable {stod : Config.Str → Option ℝ} {rad : ℝ} {rnd : Nat} {env : Env} {sample : Int → Nat → ℝ → ℝ → Delta ℝ}
  {t : Config.Table} {w : Config.World ℝ} {oope : Config.Oope} {oie : Config.Oie} {b : ℝ}

theorem base_looks {C : Type} {cfg : Matcher.Cfg C} (hf : 0 < cfg.cellFuel) {algo : Config.Algo ℝ} (h : MatcherReach sample b algo) :
    ∃ (T : Type) (m : Nat → Machine C T) (st : T) (flat : Prop) (ok : ℝ → T → Prop),
      (∀ f, baseOf cfg f sample algo = some ⟨T, m f, st⟩) ∧ Roams m cfg.imp flat ok b ∧ LooksWithin m cfg.imp flat ok (2 * b) ∧ Steady m ∧
      ok 0 st ∧ (flat → Climbs algo) := by
  have hb := h.nonneg
  cases algo with
  | idle =>
    rw [show b = 0 from h]
    exact ⟨_, _, _, _, _, fun _ => rfl, idle_roams, (looks_of_reads fun _ => idle_near.1).mono (by norm_num), idle_steady, trivial, fun h => h.elim⟩
  | monteCarlo seed tr rot failed total =>
    obtain ⟨c, h1, h2, rfl⟩ := h
    exact ⟨_, _, _, _, _, fun _ => rfl, monte_carlo_roams hf failed total tr rot (sample seed) c h1 h2,
      (looks_of_reads fun f => (monte_carlo_local hf failed total tr rot (sample seed) c h1 h2 f).1).mono (by linarith), enum_steady _, trivial,
      fun h => h.elim⟩
  | hillClimbing failed d r al =>
    rw [show b = |d| from h]
    exact ⟨_, _, _, _, _, fun _ => rfl, hill_climbing_roams hf failed d r, hill_climbing_looks hf failed d r, enum_steady _, trivial, fun h => h⟩
  | hcFixed =>
    rw [show b = 16 / 100 from h]
    exact ⟨_, _, _, _, _, fun _ => rfl, fixed_roams hf, (fixed_looks hf).mono (by norm_num), fixed_steady, trivial, fun h => h⟩
  | bruteForce x y th =>
    exact ⟨_, _, _, _, _, fun _ => rfl, brute_force_roams hf _ h.1 h.2.2 h.2.1, (brute_force_looks hf _ h.1 h.2.2 h.2.1).mono (by linarith),
      enum_steady _, (fun p hp => by cases hp), fun h => h.elim⟩
  | m3rsm a b c d e => exact h.elim

theorem matching_looks {C : Type} {cfg : Matcher.Cfg C} (hf : 0 < cfg.cellFuel) {mc : Config.Matcher ℝ} (h : MatcherReach sample b mc.algo) :
    ∃ (T : Type) (m : Nat → Machine C T) (st : T) (flat : Prop) (ok : ℝ → T → Prop),
      (∀ f, matchingOf cfg f sample mc = some ⟨T, m f, st⟩) ∧ Roams m cfg.imp flat ok (b + driftReach mc.drift) ∧
      LooksWithin m cfg.imp flat ok (2 * b + driftReach mc.drift) ∧ ok 0 st ∧ (flat → Climbs mc.algo) := by
  have hb := h.nonneg
  obtain ⟨T, m, st, flat, ok, h1, h2, h3, h4, h5, h6⟩ := base_looks (sample := sample) hf h
  by_cases hd : mc.drift = true
  · refine ⟨T, fun f => driftMachine cfg f (m f), st, flat, ok, fun f => ?_, ?_, ?_, h5, h6⟩
    · simp only [matchingOf, h1 f, Option.map_some, if_pos hd]
    · rw [driftReach, if_pos hd]
      exact drift_roams hf (fun f => baseOf_keeps (h1 f)) h2
    · rw [driftReach, if_pos hd]
      exact (drift_looks hf h4 h2 h3).mono (max_le (by linarith) (by linarith))
  · refine ⟨T, m, st, flat, ok, fun f => ?_, ?_, ?_, h5, h6⟩
    · simp only [matchingOf, h1 f, Option.map_some, if_neg hd]
    · rw [driftReach, if_neg hd, add_zero]
      exact h2
    · rw [driftReach, if_neg hd, add_zero]
      exact h3

/-- **A configured SLAM on a map of fixed size, whatever its matcher (C111)** (but the multi-resolution one), plain or lazily tiled,
with or without the drift detector; a matcher that climbs needs cells other than GMapping's. Let messages be ready for it, with ranges
up to `R` and odometry in strides of at most `D`. If what the robot may reach, and what the matcher may look at from there, is within
`N` cells, and the map has at least `2 N + 1` cells along each axis, it handles all messages, with every bound on the iterations from
some `F` on, and ends as the SLAM configured with the growing map of the same family does: the same pose, the same cells within the
map; outside, the growing map has learnt nothing. -/
theorem launched_fixed_roams (hw : Config.init1h stod rad rnd t = some w)
    (hk : w.map.kind = .plain ∨ w.map.kind = .lazyTiled) (h : Sensible (grown w))
    (ho : w.matcher.spe.oope = .std oope oie) (hi : Fits (cellKind w.map.cell) (impactOf oie)) (hf : 0 < env.cellFuel)
    (hm : MatcherReach sample b w.matcher.algo) (hg : Climbs w.matcher.algo → w.map.cell ≠ .gmapping)
    (N : Int) (hok : ∀ v, |v| ≤ 6 * N → env.ok v = true) (hl : 4 * N + 2 ≤ env.lineFuel)
    (hW : 2 * N + 1 ≤ w.map.params.width) (hH : 2 * N + 1 ≤ w.map.params.height) {R D : ℝ} (hR : 0 ≤ R) (hD : 0 ≤ D)
    (ds : List (Poses.Pose ℝ × Msg ℝ)) (hstr : Strides D ⟨0, 0, 0⟩ ds)
    (hd : ∀ d ∈ ds, Ready (skipExceeding t) env.tol w.margin R d.2)
    (hN : ds.length * spread D (b + driftReach w.matcher.drift) R w.map.params.scale + (2 * b + driftReach w.matcher.drift) + R ≤
      w.map.params.scale * (N - 1)) :
    ∃ (F : Nat) (T : Type) (cfg cfg' : Nat → MachCfg (cellKind w.map.cell).Cell (AnyMap (cellKind w.map.cell).Cell) T)
      (s s' s1 s1' : Mach (AnyMap (cellKind w.map.cell).Cell) T),
      (∀ f, launchFixed stod rad rnd { env with fuel := f } sample t =
        some ⟨cellKind w.map.cell, impactOf oie, T, cfg' f, s'⟩) ∧
      (∀ f, anyOf { env with fuel := f } (skipExceeding t) (grown w) oope oie sample =
        some ⟨cellKind w.map.cell, impactOf oie, T, cfg f, s⟩) ∧
      ∀ f, F ≤ f → s.run (cfg f) ds = some s1 ∧ s'.runFixed (cfg' f) ds = some s1' ∧
        Alike (cfg f) (cfg' f) (cellKind w.map.cell).proto w.map.params.width.toNat w.map.params.height.toNat s1 s1' := by
  have hr0 : 0 ≤ driftReach w.matcher.drift := by unfold driftReach; by_cases e : w.matcher.drift = true <;> simp [e]
  have hb := hm.nonneg
  obtain ⟨T, m, st, flat, ok, h1, h2, h3, h4, h5⟩ :=
    matching_looks (sample := sample) (cfg := (configured env (skipExceeding t) idleEnumerator w oope oie).matcher) hf hm
  obtain ⟨cfg, cfg', s, s', e1, e2, e3, e4, e5, e6, e7, e8, e9, e10, e11, e12, e13, e14, -, e15, e16, e17, e18, e19, e20⟩ :=
    launched_pairs hw hk h ho hi hf (h1 env.fuel)
  have hst : ∀ f, MachStarted (cellKind w.map.cell) (impactOf oie) (cfg.withMachine (m f)) s.st.map := by
    intro f
    refine ⟨e10.fits, e10.impact, e10.lawful, e10.adder, e10.qualities, e10.scale, e10.fuel, ?_⟩
    change (m f).Keeps cfg.matcher.imp
    rw [e4]
    exact matchingOf_keeps (h1 f)
  obtain ⟨F, s1, s1', k1, k2⟩ := fixed_roam_total (cfg := cfg) (cfg' := cfg') hst e13 e14 (by rw [e4]; exact h2) (by rw [e4]; exact h3)
    (fun hfl => by
      have := hg (h5 hfl)
      intro e
      cases hc : w.map.cell <;> rw [hc] at e this <;> first | exact this rfl | cases e)
    (add_nonneg hb hr0) (by linarith) N (by rw [e5]; exact hok) (by rw [e6]; exact hl) (by omega) (by omega) hR hD ds 0
    (by rw [e7, zero_add]; exact hN) s s'
    ⟨by rw [e8]; simp [PoseWithin], ⟨[], rfl, by simp [SaneT], by simp⟩, by rw [e16]; exact h4, e11, e12⟩ e15 (by rw [e9]; exact hstr)
    (fun d hd' => ⟨(hd d hd').nan, by rw [e18]; exact (hd d hd').angles, (hd d hd').min, (hd d hd').max, by
      rw [e17, e18, e19]; exact (hd d hd').margin⟩)
  refine ⟨F, T, fun f => cfg.withMachine (m f), fun f => cfg'.withMachine (m f), s, s', s1, s1', fun f => (e20 f (m f) (h1 f)).1,
    fun f => (e20 f (m f) (h1 f)).2, fun f hle => ⟨(k1 f hle).1, (k1 f hle).2, ?_⟩⟩
  exact same_alike (upd := (cellKind w.map.cell).upd) (hst f).lawful e14 (k2.withMachine (m f))

end

end Slam.Whole
