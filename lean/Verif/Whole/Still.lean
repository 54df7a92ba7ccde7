import Verif.Matcher.Stay
import Verif.Whole.Machine

/-!
# A robot that stands still

If the scan fits the map at the odometry's pose as well as it fits anywhere, the program follows the odometry. A robot that stands
still in front of an unchanging scene, with averaging cells, is never moved by its own matcher, provided no beam runs through a cell
in which another one ends.
-/

set_option autoImplicit false
set_option linter.unusedSectionVars false

namespace Slam.Whole
open Slam.Grid Slam.Cells Slam.Poses Slam.Sensor Slam.Score Slam.ScanAdder Slam.Worlds Slam.Tbm Slam.Matcher Slam.Line

section
variable {C M T : Type} {k : CellKind} {i : Impact} {init : M}

/-! ## Any cells -/

/-- **A perfect fit keeps the odometry's pose (C112).** In every state reached from the start, with any cells and any matcher that
stays: if no cell of the map shows more than `u`, and from the pose the odometry predicts every usable point of the scan falls into a
cell that shows `u`, the robot goes to that very pose, and the scan enters as one of an uncorrected pose. -/
theorem perfect_fit_follows_odometry {cfg : MachCfg k.Cell M T} (hc : MachStarted k i cfg init)
    (hm : cfg.machine.StaysPut cfg.matcher) (ds : List (Poses.Pose ℝ × Msg ℝ)) {s s1 s2 : Mach M T} (hs : s.st.map = init)
    (hw : Spw.Ok s.weights) (h1 : s.run cfg ds = some s1) (d : Poses.Pose ℝ × Msg ℝ) (h2 : s1.handle cfg d = some s2)
    {scan : List ScanPoint} (hscan : ScanOf cfg.slam d.2 scan) (p : Poses.Pose ℝ)
    (hp : p = ⟨s1.st.pose.x + (d.1.x - s1.st.odom.x), s1.st.pose.y + (d.1.y - s1.st.odom.y),
      s1.st.pose.theta + (d.1.theta - s1.st.odom.theta)⟩) (u : ℝ)
    (hfit : PerfectFit (seenProb k i cfg.slam.api s1.st.map) cfg.slam.scale (cfg.usable p scan) p u) :
    s2.st.pose = p ∧ s2.st.odom = d.1 ∧ ∃ us, Inserted cfg.slam p scan cfg.slam.props.rawQuality cfg.slam.props.margin us ∧
      cfg.slam.api.tellAll s1.st.map us = some s2.st.map := by
  subst hs
  have hs1 := mach_run_sound hc ds (mach_start_sound cfg s hw) h1
  obtain ⟨scan', p', delta, best, q, us, ⟨pts', a1, a2⟩, ⟨b1, b2, b3⟩, c1, c2, c3, -, c5, c6, c7⟩ := mach_message h2
  obtain ⟨pts, e1, e2⟩ := hscan
  rw [e1, Option.some.injEq] at a1
  subst a1
  rw [e2, Option.some.injEq] at a2
  subst a2
  have hpp : p' = p := by
    rw [hp]
    obtain ⟨x, y, z⟩ := p'
    simp only [Poses.Pose.mk.injEq]
    exact ⟨b1, b2, b3⟩
  subst hpp
  have hd := hm _ _ (mach_shows hc hs1.map) hc.scale _ hs1.weights _ _ (scanOf_polar e2) _ u hfit _ _ _ _ c1
  subst hd
  have hpose : s2.st.pose = p' := by rw [c2]; simp [Poses.Pose.add]
  rw [c5 zero_toBool, hpose] at c6
  exact ⟨hpose, c3, us, c6, c7⟩

end

/-! ## Averaging cells -/

section
variable {M T : Type} {i : Impact} {init : M}

/-- What averaging cells make of an observation: the probability, drawn towards a half by the lack of quality. -/
noncomputable def level (prob quality : ℝ) : ℝ := 1 / 2 + (prob - 1 / 2) * quality

/-- The updates of a scan leave the value `v` in all cells of `ends`, and nowhere more. -/
structure Levels (us : List (Coord × Aoo ℝ)) (ends : Coord → Prop) (v : ℝ) : Prop where
  half : 1 / 2 ≤ v
  hit : ∀ c, ends c → ∃ a o, (c, a) ∈ us ∧ a.occ = some o
  same : ∀ c a o, (c, a) ∈ us → ends c → a.occ = some o → level o.prob a.quality = v
  less : ∀ c a o, (c, a) ∈ us → a.occ = some o → level o.prob a.quality ≤ v

theorem mem_about {c : Coord} {us : List (Coord × Aoo ℝ)} {a : Aoo ℝ} : a ∈ about c us ↔ (c, a) ∈ us := by
  simp only [about, List.mem_map, List.mem_filter, decide_eq_true_eq]
  constructor
  · rintro ⟨⟨c', a'⟩, ⟨h1, rfl⟩, rfl⟩
    exact h1
  · intro h
    exact ⟨(c, a), ⟨h, rfl⟩, rfl⟩

theorem mean_between {l : List ℝ} (hl : l ≠ []) {lo hi : ℝ} (h : ∀ x ∈ l, lo ≤ x ∧ x ≤ hi) : lo ≤ mean l ∧ mean l ≤ hi := by
  have hpos : (0 : ℝ) < (l.length : ℝ) := by exact_mod_cast List.length_pos_iff.mpr hl
  unfold mean
  rw [le_div_iff₀ hpos, div_le_iff₀ hpos]
  clear hl hpos
  induction l with
  | nil => simp
  | cons x l ih =>
    have h1 := h x (by simp)
    have h2 := ih fun y hy => h y (by simp [hy])
    simp only [List.sum_cons, List.length_cons]
    push_cast
    constructor <;> nlinarith [h1.1, h1.2, h2.1, h2.2]

/-- A cell that has been told the updates of a scan several times. -/
theorem told_level {us : List (Coord × Aoo ℝ)} {ends : Coord → Prop} {v : ℝ} (h : Levels us ends v) (vs : List (Coord × Aoo ℝ))
    (hvs : ∀ x, x ∈ vs → x ∈ us) (c : Coord) :
    ((about c vs).foldl MeanCell.observe MeanCell.create).occ.prob ≤ v ∧
      (us ⊆ vs → ends c → ((about c vs).foldl MeanCell.observe MeanCell.create).occ.prob = v) := by
  rw [mean_cell_is_mean]
  have hval : ∀ x ∈ (valids (about c vs)).map discounted, x ≤ v ∧ (ends c → x = v) := by
    intro x hx
    simp only [valids, List.mem_map, List.mem_filterMap, Option.map_eq_some_iff] at hx
    obtain ⟨w, ⟨a, ha, o, ho, rfl⟩, rfl⟩ := hx
    have hin := hvs _ (mem_about.1 ha)
    have e : discounted (⟨o.prob, a.quality, a.obst⟩ : Valid ℝ) = level o.prob a.quality := by
      simp only [discounted, level]; ring
    rw [e]
    exact ⟨h.less c a o hin ho, fun he => h.same c a o hin he ho⟩
  by_cases hn : valids (about c vs) = []
  · rw [if_pos hn]
    refine ⟨h.half, fun hsub he => ?_⟩
    obtain ⟨a, o, ha, ho⟩ := h.hit c he
    have : (⟨o.prob, a.quality, a.obst⟩ : Valid ℝ) ∈ valids (about c vs) := by
      simp only [valids, List.mem_filterMap, Option.map_eq_some_iff]
      exact ⟨a, mem_about.2 (hsub ha), o, ho, rfl⟩
    rw [hn] at this
    cases this
  · rw [if_neg hn]
    have hne : (valids (about c vs)).map discounted ≠ [] := by simpa using hn
    constructor
    · have hb := mean_between (l := (valids (about c vs)).map discounted) hne
        (lo := -(((valids (about c vs)).map discounted).map fun x => |x|).sum) (hi := v) (by
          intro x hx
          refine ⟨?_, (hval x hx).1⟩
          have h1 : |x| ≤ (((valids (about c vs)).map discounted).map fun x => |x|).sum :=
            List.single_le_sum (by simp) _ (List.mem_map.2 ⟨x, hx, rfl⟩)
          have h2 := neg_abs_le x
          linarith)
      exact hb.2
    · intro _ he
      have hb := mean_between (l := (valids (about c vs)).map discounted) hne (lo := v) (hi := v) (by
        intro x hx
        rw [(hval x hx).2 he]
        exact ⟨le_refl _, le_refl _⟩)
      exact le_antisymm hb.2 hb.1

/-- Averaging cells are seen as they are. -/
theorem mean_seen {api : MapApi (CellKind.Cell .mean) M} (hf : Fits .mean i) (hL : Lawful api (CellKind.upd .mean) (CellKind.proto .mean) init)
    {vs : List (Coord × Aoo ℝ)} {m : M} (h : api.tellAll init vs = some m) (hs : SaneT (vs.map Prod.snd)) (q : Grid.Point ℝ) (c : Coord) :
    seenProb .mean i api m q c = ((about c vs).foldl MeanCell.observe MeanCell.create).occ.prob := by
  obtain ⟨m', e1, e2⟩ := hL vs
  rw [h, Option.some.injEq] at e1
  subst e1
  obtain ⟨-, h2, -, -, -, h6⟩ := impact_meaning (about c vs) (about_sane hs c) q
  have h2' := h2 _ rfl
  cases i with
  | discrepancy =>
    simp only [seenProb, e2 c, Option.bind_some]
    exact (congrArg (fun o => Option.getD o 0) h2').trans rfl
  | occupancy =>
    simp only [seenProb, e2 c, Option.bind_some, h6]
    rfl

/-- The cells the usable points fall into. -/
def MachCfg.ends {C : Type} (cfg : MachCfg C M T) (p : Poses.Pose ℝ) (scan : List ScanPoint) (c : Coord) : Prop :=
  ∃ sp ∈ cfg.usable p scan, c = worldToCell cfg.slam.scale (seenAt p sp)

/-- What holds after `m` equal messages. -/
structure StillAt (cfg : MachCfg (CellKind.Cell .mean) M T) (init : M) (odom pose : Poses.Pose ℝ) (us : List (Coord × Aoo ℝ))
    (m : Nat) (s : Mach M T) : Prop where
  odom : s.st.odom = odom
  pose : s.st.pose = pose
  hist : s.st.hist = none
  weights : Spw.Ok s.weights
  told : cfg.slam.api.tellAll init (List.replicate m us).flatten = some s.st.map

theorem told_sub {us : List (Coord × Aoo ℝ)} (m : Nat) : ∀ x, x ∈ (List.replicate m us).flatten → x ∈ us := by
  intro x hx
  simp only [List.mem_flatten, List.mem_replicate] at hx
  obtain ⟨l, ⟨-, rfl⟩, hx⟩ := hx
  exact hx

theorem sane_many {us : List (Coord × Aoo ℝ)} (h : SaneT (us.map Prod.snd)) (m : Nat) :
    SaneT (((List.replicate m us).flatten).map Prod.snd) := by
  intro a ha
  simp only [List.mem_map] at ha
  obtain ⟨x, hx, rfl⟩ := ha
  exact h _ (List.mem_map.2 ⟨x, told_sub m x hx, rfl⟩)

/-- After `m` messages from the same pose the scan fits perfectly. -/
theorem still_fits {cfg : MachCfg (CellKind.Cell .mean) M T} (hc : MachStarted .mean i cfg init)
    {odom pose : Poses.Pose ℝ} {us : List (Coord × Aoo ℝ)} {scan : List ScanPoint} {v : ℝ} (hsane : SaneT (us.map Prod.snd))
    (hl : Levels us (cfg.ends pose scan) v) {m : Nat} {s : Mach M T} (hs : StillAt cfg init odom pose us m s) :
    ∃ u, PerfectFit (seenProb .mean i cfg.slam.api s.st.map) cfg.slam.scale (cfg.usable pose scan) pose u := by
  have hseen := fun q c => mean_seen hc.fits hc.lawful hs.told (sane_many hsane m) q c
  cases m with
  | zero =>
    refine ⟨1 / 2, fun q c => ?_, fun sp _ => ?_⟩
    · rw [hseen]; simp [about, MeanCell.create]
    · rw [hseen]; simp [about, MeanCell.create]
  | succ m =>
    have hlev := fun c => told_level hl _ (told_sub (m + 1)) c
    refine ⟨v, fun q c => ?_, fun sp hsp => ?_⟩
    · rw [hseen]; exact (hlev c).1
    · rw [hseen]
      exact (hlev _).2 (by intro x hx; simp [List.replicate_succ, hx]) ⟨sp, hsp, rfl⟩

theorem still_step {cfg : MachCfg (CellKind.Cell .mean) M T} (hc : MachStarted .mean i cfg init)
    (hm : cfg.machine.StaysPut cfg.matcher) {odom pose : Poses.Pose ℝ} {us : List (Coord × Aoo ℝ)} {msg : Msg ℝ}
    {scan : List ScanPoint} {v : ℝ} (hscan : ScanOf cfg.slam msg scan)
    (hus : cfg.slam.adder.appendScan cfg.slam.ok cfg.slam.fuel cfg.slam.scale ⟨pose.x, pose.y⟩ idleQuality
      cfg.slam.props.rawQuality (cfg.slam.props.margin : ℝ) (worldPoints ⟨pose.x, pose.y, pose.theta⟩ scan) = some us)
    (hl : Levels us (cfg.ends pose scan) v) {m : Nat} {s s' : Mach M T} (hs : StillAt cfg init odom pose us m s)
    (h : s.handle cfg (odom, msg) = some s') : StillAt cfg init odom pose us (m + 1) s' := by
  have hsane : SaneT (us.map Prod.snd) := appendScan_sane hc.adder _ _ _ idleQuality
    (quality_unit scan none (none, idleQuality) rfl) _ hc.qualities.2 _ _ us hus
  obtain ⟨u, hfit⟩ := still_fits hc hsane hl hs
  obtain ⟨pts, e1, e2⟩ := hscan
  simp only [Mach.handle, e1, e2, Option.bind_some, Option.bind_eq_some_iff, Option.map_eq_some_iff] at h
  obtain ⟨⟨w', t', delta, best⟩, h3, ⟨m', hist'⟩, h4, rfl⟩ := h
  have hpose : s.st.pose.add (observerStep s.st.odom odom).2 = pose := by
    rw [hs.odom, hs.pose]
    simp [observerStep, Poses.Pose.add, Poses.Pose.sub]
  rw [hpose] at h3 h4
  have hsound : SaneTold cfg.slam.api init s.st.map := ⟨_, hs.told, sane_many hsane m⟩
  have hd := hm _ _ (mach_shows hc hsound) hc.scale _ hs.weights _ _ (scanOf_polar e2) _ u hfit _ _ _ _ h3
  subst hd
  have hp0 : pose.add (⟨0, 0, 0⟩ : Delta ℝ) = pose := by simp [Poses.Pose.add]
  have hkeep := hc.keeps _ _ (mach_shows hc hsound) hc.scale _ hs.weights _ _ _ _ _ _ _ h3
  rw [if_neg (by rw [zero_toBool]; simp), hp0, hs.hist] at h4
  have hap : cfg.slam.api.tellAll s.st.map us = some m' ∧ hist' = none := by
    unfold Cfg.append at h4
    by_cases hemp : scan.isEmpty = true
    · rw [if_pos hemp, Option.some.injEq, Prod.mk.injEq] at h4
      obtain ⟨rfl, rfl⟩ := h4
      have : scan = [] := by simpa using hemp
      subst this
      simp only [worldPoints, List.map_nil, Adder.appendScan, List.isEmpty_nil, if_true, Option.some.injEq] at hus
      subst hus
      exact ⟨rfl, rfl⟩
    · rw [if_neg hemp] at h4
      simp only [qualityOf, Option.bind_some, hus, Option.map_eq_some_iff, Prod.mk.injEq] at h4
      obtain ⟨a, h5, rfl, rfl⟩ := h4
      exact ⟨h5, rfl⟩
  refine ⟨rfl, ?_, hap.2, hkeep, ?_⟩
  · rw [← hp0, ← hpose]
  · rw [List.replicate_succ', List.flatten_concat, tellAll_append, hs.told]
    exact hap.1

/-- **A robot that stands still is left alone (C112).** With averaging cells, any matcher that stays, no weighting of the
directions, an empty map and the same message again and again at the same odometry pose, such that entering the scan leaves the same
value in all cells the usable points fall into, and nowhere more: the pose never changes, the cells of the usable points show that
value from the first message on, and no cell ever shows more. -/
theorem standing_still {cfg : MachCfg (CellKind.Cell .mean) M T} (hc : MachStarted .mean i cfg init)
    (hm : cfg.machine.StaysPut cfg.matcher) {s : Mach M T} (hs : s.st.map = init) (hw : Spw.Ok s.weights) (hh : s.st.hist = none)
    {msg : Msg ℝ} {scan : List ScanPoint} (hscan : ScanOf cfg.slam msg scan) {us : List (Coord × Aoo ℝ)} {v : ℝ}
    (hus : cfg.slam.adder.appendScan cfg.slam.ok cfg.slam.fuel cfg.slam.scale ⟨s.st.pose.x, s.st.pose.y⟩ idleQuality
      cfg.slam.props.rawQuality (cfg.slam.props.margin : ℝ) (worldPoints ⟨s.st.pose.x, s.st.pose.y, s.st.pose.theta⟩ scan) = some us)
    (hl : Levels us (cfg.ends s.st.pose scan) v) (n : Nat) {s' : Mach M T}
    (h : s.run cfg (List.replicate n (s.st.odom, msg)) = some s') :
    s'.st.pose = s.st.pose ∧ ∀ c, ∃ cell : MeanCell ℝ, cfg.slam.api.read s'.st.map c = some cell ∧ cell.occ.prob ≤ v ∧
      (0 < n → cfg.ends s.st.pose scan c → cell.occ.prob = v) := by
  have key : ∀ (n m : Nat) (s1 s' : Mach M T), StillAt cfg init s.st.odom s.st.pose us m s1 →
      s1.run cfg (List.replicate n (s.st.odom, msg)) = some s' → StillAt cfg init s.st.odom s.st.pose us (m + n) s' := by
    intro n
    induction n with
    | zero =>
      intro m s1 s' h1 h
      simp only [List.replicate_zero, Mach.run, Option.some.injEq] at h
      subst h
      exact h1
    | succ n ih =>
      intro m s1 s' h1 h
      simp only [List.replicate_succ, Mach.run, Option.bind_eq_some_iff] at h
      obtain ⟨s2, h2, h3⟩ := h
      have := ih (m + 1) s2 s' (still_step hc hm hscan hus hl h1 h2) h3
      rwa [show m + 1 + n = m + (n + 1) by omega] at this
  have h0 : StillAt cfg init s.st.odom s.st.pose us 0 s := ⟨rfl, rfl, hh, hw, by simp [MapApi.tellAll, hs]⟩
  have hn := key n 0 s s' h0 h
  rw [Nat.zero_add] at hn
  refine ⟨hn.pose, fun c => ?_⟩
  obtain ⟨m', e1, e2⟩ := hc.lawful (List.replicate n us).flatten
  rw [hn.told, Option.some.injEq] at e1
  subst e1
  obtain ⟨l1, l2⟩ := told_level hl _ (told_sub n) c
  refine ⟨_, e2 c, l1, fun hpos he => l2 ?_ he⟩
  intro x hx
  simp only [List.mem_flatten, List.mem_replicate]
  exact ⟨us, ⟨by omega, rfl⟩, hx⟩

end

end Slam.Whole
