import Verif.Whole.StillDemo
import Verif.Whole.MachineShipped

/-!
# The SLAM that a configuration starts, standing still
-/

set_option autoImplicit false
set_option linter.unusedSectionVars false

namespace Slam.Whole
open Slam.Grid Slam.Cells Slam.Poses Slam.Sensor Slam.Score Slam.ScanAdder Slam.Worlds Slam.Tbm Slam.Matcher Slam.Line Slam.ScanMatch

section
variable {stod : Config.Str → Option ℝ} {rad : ℝ} {rnd : Nat} {env : Env} {sample : Int → Nat → ℝ → ℝ → Delta ℝ}
  {t : Config.Table} {w : Config.World ℝ} {oope : Config.Oope} {oie : Config.Oie}

theorem baseOf_stays {C : Type} {cfg : Matcher.Cfg C} (hf : 0 < cfg.cellFuel) {fuel : Nat} {algo : Config.Algo ℝ} {m : Matching C}
    (h : baseOf cfg fuel sample algo = some m) : m.machine.StaysPut cfg := by
  cases algo <;> simp only [baseOf, Option.some.injEq, reduceCtorEq] at h <;> subst h
  · exact enum_stays_put hf _ _
  · exact enum_stays_put hf _ _
  · exact enum_stays_put hf _ _
  · exact idle_stays_put
  · exact fixed_stays_put hf _

theorem matchingOf_stays {C : Type} {cfg : Matcher.Cfg C} (hf : 0 < cfg.cellFuel) {fuel : Nat} (hfuel : 7 ≤ fuel)
    {mc : Config.Matcher ℝ} {m : Matching C} (h : matchingOf cfg fuel sample mc = some m) : m.machine.StaysPut cfg := by
  simp only [matchingOf, Option.map_eq_some_iff] at h
  obtain ⟨b, h1, h2⟩ := h
  by_cases hd : mc.drift = true
  · rw [if_pos hd] at h2
    subst h2
    exact drift_stays_put hf _ hfuel (baseOf_keeps h1) (baseOf_stays hf h1)
  · rw [if_neg hd] at h2
    subst h2
    exact baseOf_stays hf h1

/-- Every matcher a configuration can make (but the multi-resolution one) stays where the scan fits perfectly. -/
theorem launched_stays (hw : Config.init1h stod rad rnd t = some w) (ho : w.matcher.spe.oope = .std oope oie)
    (hf : 0 < env.cellFuel) (hfuel : 7 ≤ env.fuel) {P : MProgram} (hP : launchAny stod rad rnd env sample t = some P) :
    P.cfg.machine.StaysPut P.cfg.matcher := by
  obtain ⟨s, m, h1, h2, rfl⟩ := launchAny_some hw ho hP
  exact matchingOf_stays hf hfuel h2

/-- **A configured SLAM follows the odometry where the scan fits perfectly (C112)**, whatever its cells and its matcher (but the
multi-resolution one), with or without the drift detector, in every state it reaches. -/
theorem launched_perfect_fit (hw : Config.init1h stod rad rnd t = some w) (h : Sensible w)
    (ho : w.matcher.spe.oope = .std oope oie) (hi : Fits (cellKind w.map.cell) (impactOf oie)) (hf : 0 < env.cellFuel)
    (hfuel : 7 ≤ env.fuel) {P : MProgram} (hP : launchAny stod rad rnd env sample t = some P) (ds : List (Poses.Pose ℝ × Msg ℝ))
    {s1 s2 : Mach (AnyMap P.kind.Cell) P.T} (h1 : P.start.run P.cfg ds = some s1) (d : Poses.Pose ℝ × Msg ℝ)
    (h2 : s1.handle P.cfg d = some s2) {scan : List ScanPoint} (hscan : ScanOf P.cfg.slam d.2 scan) (p : Poses.Pose ℝ)
    (hp : p = ⟨s1.st.pose.x + (d.1.x - s1.st.odom.x), s1.st.pose.y + (d.1.y - s1.st.odom.y),
      s1.st.pose.theta + (d.1.theta - s1.st.odom.theta)⟩) (u : ℝ)
    (hfit : PerfectFit (seenProb P.kind P.impact P.cfg.slam.api s1.st.map) P.cfg.slam.scale (P.cfg.usable p scan) p u) :
    s2.st.pose = p ∧ s2.st.odom = d.1 ∧ ∃ us, Inserted P.cfg.slam p scan P.cfg.slam.props.rawQuality P.cfg.slam.props.margin us ∧
      P.cfg.slam.api.tellAll s1.st.map us = some s2.st.map := by
  obtain ⟨g1, g2, -⟩ := launchAny_started hw h ho hi hf hP
  exact perfect_fit_follows_odometry g1 (launched_stays hw ho hf hfuel hP) ds rfl g2 h1 d h2 hscan p hp u hfit

theorem still_program {P : MProgram} (hkind : P.kind = .mean) (hc : MachStarted P.kind P.impact P.cfg P.start.st.map)
    (hm : P.cfg.machine.StaysPut P.cfg.matcher) {occ empty : Occ ℝ} {blur : ℝ} {maxRange : Option ℝ}
    (hA : P.cfg.slam.adder = ⟨constEstimate occ empty, blur, maxRange⟩) (h0 : 0 ≤ empty.prob) (hle : empty.prob ≤ occ.prob)
    (hhalf : 1 / 2 ≤ occ.prob) {N : Int} (hok : ∀ v, |v| ≤ 6 * N → P.cfg.slam.ok v = true)
    (hw : Spw.Ok P.start.weights) (hh : P.start.st.hist = none)
    {msg : Msg ℝ} {scan : List ScanPoint} (hscan : ScanOf P.cfg.slam msg scan) (hmargin : P.cfg.slam.props.margin < scan.length)
    (hb : InRange N P.cfg.slam.scale ⟨P.start.st.pose.x, P.start.st.pose.y⟩)
    (hr : ∀ sp ∈ scan, InRange N P.cfg.slam.scale (seenAt P.start.st.pose sp) ∧
      fuelFor (worldToCell P.cfg.slam.scale ⟨P.start.st.pose.x, P.start.st.pose.y⟩)
        (worldToCell P.cfg.slam.scale (seenAt P.start.st.pose sp)) ≤ P.cfg.slam.fuel)
    (hv : ClearView P.cfg.slam P.start.st.pose scan (P.cfg.ends P.start.st.pose scan)) (n : Nat) {s' : Mach (AnyMap P.kind.Cell) P.T}
    (h : P.start.run P.cfg (List.replicate n (P.start.st.odom, msg)) = some s') :
    s'.st.pose = P.start.st.pose ∧ ∀ c, ∃ cell v, P.cfg.slam.api.read s'.st.map c = some cell ∧ P.kind.value cell = some v ∧
      v ≤ level occ.prob P.cfg.slam.props.rawQuality ∧
      (0 < n → P.cfg.ends P.start.st.pose scan c → v = level occ.prob P.cfg.slam.props.rawQuality) := by
  obtain ⟨kind, impact, T, cfg, start⟩ := P
  simp only at hkind
  subst hkind
  obtain ⟨k1, k2⟩ := standing_still_clear_view hc hm hA h0 hle hhalf hok (s := start) rfl hw hh hscan hmargin hb hr hv n h
  refine ⟨k1, fun c => ?_⟩
  obtain ⟨cell, e1, e2, e3⟩ := k2 c
  exact ⟨cell, cell.occ.prob, e1, rfl, e2, e3⟩

/-- **A configured SLAM standing still with a clear view (C112)**: averaging cells, constant estimations of the occupancy with
"occupied" at least a half and at least "empty", no weighting of the directions, any of the matchers but the multi-resolution one, with
or without the drift detector, any blur, margin, point estimator and weighting of the points. While the odometry does not change and the
same scan comes again and again, such that every beam that runs through a cell with a usable point ends there at an obstacle, the
robot stays at the origin, and the cells with usable points show the discounted probability of "occupied" from the first scan on. -/
theorem launched_standing_still (hw : Config.init1h stod rad rnd t = some w) (h : Sensible w)
    (ho : w.matcher.spe.oope = .std oope oie) (hi : Fits (cellKind w.map.cell) (impactOf oie)) (hf : 0 < env.cellFuel)
    (hfuel : 7 ≤ env.fuel) (hcell : w.map.cell = .mean) (harea : w.adder.area = false) (hahr : w.adder.ahr = false)
    (hle : w.adder.emptyProb ≤ w.adder.occProb) (hhalf : 1 / 2 ≤ w.adder.occProb)
    {N : Int} (hN : 0 ≤ N) (hok : ∀ v, |v| ≤ 6 * N → env.ok v = true) {P : MProgram}
    (hP : launchAny stod rad rnd env sample t = some P) {msg : Msg ℝ} {scan : List ScanPoint} (hscan : ScanOf P.cfg.slam msg scan)
    (hmargin : w.margin < scan.length)
    (hr : ∀ sp ∈ scan, InRange N w.map.params.scale (seenAt ⟨0, 0, 0⟩ sp) ∧
      fuelFor ⟨0, 0⟩ (worldToCell w.map.params.scale (seenAt ⟨0, 0, 0⟩ sp)) ≤ env.lineFuel)
    (hv : ClearView P.cfg.slam ⟨0, 0, 0⟩ scan (P.cfg.ends ⟨0, 0, 0⟩ scan)) (n : Nat) {s' : Mach (AnyMap P.kind.Cell) P.T}
    (hrun : P.start.run P.cfg (List.replicate n (⟨0, 0, 0⟩, msg)) = some s') :
    s'.st.pose = ⟨0, 0, 0⟩ ∧ ∀ c, ∃ cell v, P.cfg.slam.api.read s'.st.map c = some cell ∧ P.kind.value cell = some v ∧
      v ≤ level w.adder.occProb w.rawQuality ∧
      (0 < n → P.cfg.ends ⟨0, 0, 0⟩ scan c → v = level w.adder.occProb w.rawQuality) := by
  obtain ⟨g1, g2, g3⟩ := launchAny_started hw h ho hi hf hP
  have g4 := launched_stays hw ho hf hfuel hP
  have horigin : worldToCell w.map.params.scale ⟨0, 0⟩ = ⟨0, 0⟩ := by simp [worldToCell]
  obtain ⟨s, m, h1, h2, e⟩ := launchAny_some hw ho hP
  have hs : P.start.st.pose = ⟨0, 0, 0⟩ ∧ P.start.st.odom = ⟨0, 0, 0⟩ ∧ P.start.st.hist = none := by
    simp only [configuredStart, Option.map_eq_some_iff] at h1
    obtain ⟨m', -, rfl⟩ := h1
    rw [e]
    refine ⟨rfl, rfl, ?_⟩
    simp [histOf, hahr]
  have hkind : P.kind = .mean := by rw [e]; simp only [hcell]; rfl
  have hA : P.cfg.slam.adder = ⟨constEstimate ⟨w.adder.occProb, w.adder.occQual⟩ ⟨w.adder.emptyProb, w.adder.emptyQual⟩, w.adder.blur,
      w.adder.maxRange⟩ := by
    rw [e]
    simp only [configured, adderOf, harea, Bool.false_eq_true, if_false]
  have hscale : P.cfg.slam.scale = w.map.params.scale := by rw [e]; rfl
  have hprops : P.cfg.slam.props = ⟨w.localizedQuality, w.rawQuality, w.margin⟩ := by rw [e]; rfl
  have hok' : ∀ v, |v| ≤ 6 * N → P.cfg.slam.ok v = true := by rw [e]; exact hok
  have hline : P.cfg.slam.fuel = env.lineFuel := by rw [e]; rfl
  clear e h1 h2
  have := still_program hkind g1 g4 hA h.empty.1.1 hle hhalf hok' g2 hs.2.2 hscan (by rw [hprops]; exact hmargin)
    (by rw [hs.1, hscale, InRange, horigin]; simpa using hN)
    (by rw [hs.1, hscale, hline, horigin]; exact hr) (by rw [hs.1]; exact hv) n (by rw [hs.2.1]; exact hrun)
  rw [hs.1, hprops] at this
  exact this

end

/-! ## TinySLAM as shipped, with the drift detector -/

theorem tiny_ahead : seenAt ⟨0, 0, 0⟩ (.polar 4 0 true 1) = ⟨4, 0⟩ := by simp [seenAt, ScanPoint.x, ScanPoint.y]

theorem tiny_behind : seenAt ⟨0, 0, 0⟩ (.polar 4 Real.pi true 1) = ⟨-4, 0⟩ := by simp [seenAt, ScanPoint.x, ScanPoint.y]

theorem tiny_cell_here : worldToCell (1 / 10 : ℝ) ⟨0, 0⟩ = ⟨0, 0⟩ := by simp [worldToCell]

theorem tiny_cell_ahead : worldToCell (1 / 10 : ℝ) ⟨4, 0⟩ = ⟨40, 0⟩ := by
  simp [worldToCell, Int.floor_eq_iff]; norm_num

theorem tiny_cell_behind : worldToCell (1 / 10 : ℝ) ⟨-4, 0⟩ = ⟨-40, 0⟩ := by
  simp [worldToCell, Int.floor_eq_iff]; norm_num

theorem tiny_beams_where {sp : ScanPoint} (h : sp ∈ twoBeams) : sp.occupied = true ∧
    (seenAt ⟨0, 0, 0⟩ sp = ⟨4, 0⟩ ∨ seenAt ⟨0, 0, 0⟩ sp = ⟨-4, 0⟩) := by
  simp only [twoBeams, List.mem_cons, List.not_mem_nil, or_false] at h
  rcases h with rfl | rfl
  · exact ⟨rfl, .inl tiny_ahead⟩
  · exact ⟨rfl, .inr tiny_behind⟩

theorem tiny_beams_range {sp : ScanPoint} (h : sp ∈ twoBeams) :
    InRange 1000000 (1 / 10 : ℝ) (seenAt ⟨0, 0, 0⟩ sp) ∧
      fuelFor ⟨0, 0⟩ (worldToCell (1 / 10 : ℝ) (seenAt ⟨0, 0, 0⟩ sp)) ≤ 4000002 := by
  rcases (tiny_beams_where h).2 with e | e
  · rw [e, InRange, tiny_cell_ahead]
    simp [fuelFor]
  · rw [e, InRange, tiny_cell_behind]
    simp [fuelFor]

theorem tiny_beams_clear {C M T : Type} {cfg : MachCfg C M T} (hs : cfg.slam.scale = 1 / 10) (hmar : cfg.slam.props.margin = 0)
    (hmax : cfg.slam.adder.maxRange = none) (hfuel : cfg.slam.fuel = 4000002)
    (hok : ∀ v, |v| ≤ 6 * 1000000 → cfg.slam.ok v = true) :
    ClearView cfg.slam ⟨0, 0, 0⟩ twoBeams (cfg.ends ⟨0, 0, 0⟩ twoBeams) := by
  have hends : ∀ c, cfg.ends ⟨0, 0, 0⟩ twoBeams c →
      ∃ sp ∈ twoBeams, worldToCell (1 / 10 : ℝ) (seenAt ⟨0, 0, 0⟩ sp) = c := by
    rintro c ⟨sp, hsp, rfl⟩
    exact ⟨sp, usable_subset _ _ _ _ _ sp hsp, by rw [hs]⟩
  constructor
  · intro c hc
    obtain ⟨sp, hsp, e⟩ := hends c hc
    obtain ⟨j, hj⟩ := List.mem_iff_getElem?.1 hsp
    refine ⟨sp, ⟨j, hj, by rw [hmar]; exact Nat.zero_le _, ?_⟩, (tiny_beams_where hsp).1, by rw [hs]; exact e, by
      intro r hr; rw [hmax] at hr; cases hr⟩
    have := (List.getElem?_eq_some_iff.1 hj).1
    rw [hmar]
    omega
  · rintro c hc sp cells ⟨j, hj, -⟩ hcells hin
    have hsp := List.mem_of_getElem? hj
    obtain ⟨sp', hsp', e'⟩ := hends c hc
    rw [hs, hfuel] at hcells
    have hbox := world_to_cells_in_box cfg.slam.ok 1000000 hok (ScanAdder.exactFP (1 / 10 : ℝ)) (1 / 10 : ℝ) 0 0
      (seenAt ⟨0, 0, 0⟩ sp).x (seenAt ⟨0, 0, 0⟩ sp).y 4000002
      (by change |(worldToCell (1 / 10 : ℝ) ⟨0, 0⟩).x| ≤ 1000000; rw [tiny_cell_here]; simp)
      (by change |(worldToCell (1 / 10 : ℝ) ⟨0, 0⟩).y| ≤ 1000000; rw [tiny_cell_here]; simp)
      (tiny_beams_range hsp).1.1 (tiny_beams_range hsp).1.2 (by
        change fuelFor (worldToCell (1 / 10 : ℝ) ⟨0, 0⟩) _ ≤ _
        rw [tiny_cell_here]; exact (tiny_beams_range hsp).2) hcells c hin
    change Between (worldToCell (1 / 10 : ℝ) ⟨0, 0⟩) (worldToCell (1 / 10 : ℝ) (seenAt ⟨0, 0, 0⟩ sp)) c at hbox
    refine ⟨?_, (tiny_beams_where hsp).1⟩
    rw [hs]
    subst e'
    rw [tiny_cell_here] at hbox
    rcases (tiny_beams_where hsp).2 with e1 | e1 <;> rcases (tiny_beams_where hsp').2 with e2 | e2 <;>
      simp only [e1, e2, tiny_cell_ahead, tiny_cell_behind, Between] at hbox ⊢ <;> norm_num at hbox

open Slam.Config (stodDec) in
/-- TinySLAM as shipped, with the drift detector, drawing any numbers up to a metre: it handles any number of up to 900 scans
between two walls, stays at the origin, and shows the walls with probability 1/2 + 0.45 * 0.6 = 0.77 from the first scan on. -/
example (sample : Int → Nat → ℝ → ℝ → Delta ℝ) (hsam : ∀ s n x y, WithinShift 1 (sample s n x y)) :
    ∃ P, launchAny (stodDec id) (1 / 60) 7 exampleEnv sample
      (Config.listed ((chars% "slam/scmtch/use_amb_drift_detector", chars% "true") :: Config.tinyProps)) = some P ∧
    ∀ n ≤ 900, ∃ s', P.start.run P.cfg (List.replicate n (⟨0, 0, 0⟩, twoWalls)) = some s' ∧ s'.st.pose = ⟨0, 0, 0⟩ ∧
      ∀ c, P.cfg.ends ⟨0, 0, 0⟩ twoBeams c → 0 < n → ∃ cell, P.cfg.slam.api.read s'.st.map c = some cell ∧
        P.kind.value cell = some (77 / 100) := by
  obtain ⟨n, hn, -, hw⟩ := Config.tiny_drift_world Config.fair_id (1 / 60) 7
  have := tiny_sensible Config.fair_id 7 n (by omega)
  have hsen : Sensible ({ Config.tinyWorld id 7 n with
      matcher := ⟨.monteCarlo (Config.unsignedToInt 7) (id (1 / 5)) (id (1 / 10)) 20 100, ⟨.std .obstacle .discrepancy, .even, 0, -1⟩, true⟩ }) :=
    ⟨this.growing, this.single, this.size, this.scale, this.occupied, this.empty, this.qualities⟩
  obtain ⟨P, h1, h2⟩ := launched_any_total (env := exampleEnv) (sample := sample) hw hsen rfl trivial (by decide) 100
    (by norm_num) (.inr ⟨_, _, _, _, _, 1, rfl, rfl, by norm_num, by intro n x y; exact hsam _ n x y, by norm_num⟩)
    (by norm_num [exampleEnv]) 1000000 (by intro v hv; simp only [exampleEnv, decide_eq_true_eq]; omega) (by decide) 30 1000
    (by norm_num)
  refine ⟨P, h1, fun k hk => ?_⟩
  have hP := h1
  obtain ⟨s, m, -, -, e⟩ := launchAny_some hw rfl hP
  have e1 : P.cfg.slam.scale = 1 / 10 := by rw [e]; rfl
  have e2 : P.cfg.slam.props.margin = 0 := by rw [e]; rfl
  have e3 : P.cfg.slam.adder.maxRange = none := by rw [e]; rfl
  have e4 : P.cfg.slam.fuel = 4000002 := by rw [e]; rfl
  have e5 : ∀ v, |v| ≤ 6 * 1000000 → P.cfg.slam.ok v = true := by
    rw [e]; intro v hv; simp only [configured, exampleEnv, decide_eq_true_eq]; omega
  have e6 : P.cfg.slam.skipMax = false := by rw [e]; simp [configured]; decide +kernel
  have e7 : P.cfg.slam.tol = 0 := by rw [e]; rfl
  clear e
  have hscan : msg2scan twoWalls P.cfg.slam.skipMax P.cfg.slam.tol = some [⟨some 4, 0, true⟩, ⟨some 4, Real.pi, true⟩] := by
    rw [e6, e7]
    norm_num [msg2scan, convert, twoWalls]
  obtain ⟨s', h3⟩ := h2 (List.replicate k (⟨0, 0, 0⟩, twoWalls)) (by
      have : (k : ℝ) ≤ 900 := by exact_mod_cast hk
      simp only [List.length_replicate]
      norm_num [driftReach, Config.tinyWorld]
      linarith) (by
      intro d hd
      rw [List.mem_replicate] at hd
      rw [hd.2]
      refine ⟨by norm_num, by norm_num, by simp [twoWalls], ?_, by norm_num [twoWalls], by norm_num [twoWalls], ?_⟩
      · simp only [twoWalls, List.length_cons, List.length_nil]
        norm_num
        rw [show 2 * Real.pi - Real.pi - Real.pi = 0 by ring]
        simp [e7]
      · intro pts hpts
        rw [hscan, Option.some.injEq] at hpts
        subst hpts
        right
        simp [e2])
  obtain ⟨k1, k2⟩ := launched_standing_still hw hsen rfl trivial (by decide) (by decide) rfl rfl rfl (by norm_num [Config.tinyWorld])
    (by norm_num [Config.tinyWorld]) (N := 1000000) (by norm_num) (by intro v hv; simp only [exampleEnv, decide_eq_true_eq]; omega)
    hP (msg := twoWalls) (scan := twoBeams) ⟨_, hscan, rfl⟩ (by simp [twoBeams, Config.tinyWorld])
    (fun sp hsp => tiny_beams_range hsp) (tiny_beams_clear e1 e2 e3 e4 e5) k h3
  refine ⟨s', h3, k1, fun c hc hk0 => ?_⟩
  obtain ⟨cell, v, a1, a2, -, a4⟩ := k2 c
  refine ⟨cell, a1, ?_⟩
  rw [a2, a4 hk0 hc]
  norm_num [level, Config.tinyWorld]

end Slam.Whole
