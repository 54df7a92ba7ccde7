import Verif.GraphSlam.Props
import Verif.Matcher.RoamReads
import Verif.Whole.Multires

/-!
# C106: the graph SLAM handles every history within its bounds
-/

set_option autoImplicit false
set_option linter.unusedSectionVars false

namespace Slam.GraphSlam
open Slam.Grid Slam.Cells Slam.Poses Slam.Sensor Slam.Score Slam.ScanAdder Slam.Worlds Slam.Matcher Slam.Whole Slam.Tbm

variable {T : Type}

/-! ## The rasterised map -/

/-- The impact of an obstacle on a plain cell, src/core/scan_matchers/observation_impact_estimators.h:14-28. -/
noncomputable def baseImpact : Impact → Grid.Point ℝ → BaseCell ℝ → Option ℝ
  | .discrepancy => fun obst c => discrepancyOie c.discrepancy obst
  | .occupancy => fun _ c => c.occ.bind fun o => occupancyImpact o.prob

theorem base_impact (i : Impact) (p q : ℝ) (u : Bool) (hp : Unit01 p) (obst : Grid.Point ℝ) :
    baseImpact i obst ⟨some ⟨p, q⟩, u⟩ = some p := by
  have h : 1 - |p - 1| = p := by
    rw [abs_of_nonpos (by linarith [hp.2])]; ring
  cases i with
  | discrepancy => simp only [baseImpact, discrepancyOie, BaseCell.discrepancy, Option.map_some, discrepancyImpact, h]
  | occupancy => rfl

/-- A cell told valid observations shows a probability. -/
theorem base_cell_shows (as : List (Aoo ℝ)) (hs : SaneT as) (ht : ∀ a ∈ as, a.occ ≠ none) (c : BaseCell ℝ) (o : Occ ℝ)
    (hc : c.occ = some o) (ho : Unit01 o.prob) : ∃ o', (as.foldl BaseCell.observe c).occ = some o' ∧ Unit01 o'.prob := by
  induction as generalizing c o with
  | nil => exact ⟨o, hc, ho⟩
  | cons a as ih =>
    obtain ⟨o1, h1⟩ := Option.ne_none_iff_exists'.1 (ht a (by simp))
    exact ih (fun b hb => hs b (by simp [hb])) (fun b hb => ht b (by simp [hb])) (c.observe a) o1 h1 (hs a (by simp) o1 h1).1

theorem writes_sane {cfg : GraphCfg T} (hA : SoundFor cfg.adder (1 / 10)) {p : Poses.Pose ℝ}
    {scan : List ScanPoint} {margin : Nat} {us : List (Coord × Aoo ℝ)} (h : Inserted cfg.slam p scan 1 margin us) :
    SaneT (us.map Prod.snd) := by
  rcases h with ⟨-, rfl⟩ | ⟨-, h0, h', k, hk, ha⟩
  · intro a ha; simp at ha
  · exact appendScan_sane hA _ _ _ _ (quality_unit _ _ _ hk) 1 ⟨zero_le_one, le_rfl⟩ _ _ _ ha

/-- A scan with ranges up to `R`. -/
def Ranged (R : ℝ) (scan : List ScanPoint) : Prop := ∀ sp ∈ scan, ∃ r a o, sp = .polar r a o 1 ∧ 0 ≤ r ∧ r ≤ R

theorem near_within {p : Poses.Pose ℝ} {scan : List ScanPoint} {R D : ℝ} (hR : 0 ≤ R) (hD : D + R ≤ 498 / 10) (hs : Ranged R scan)
    (hx : |p.x| ≤ D) (hy : |p.y| ≤ D) :
    (InRange 499 (1 / 10 : ℝ) ⟨p.x, p.y⟩ ∧ Within 1000 1000 (worldToCell (1 / 10 : ℝ) ⟨p.x, p.y⟩)) ∧
    ∀ sp ∈ scan, InRange 499 (1 / 10 : ℝ) (seenAt p sp) ∧ Within 1000 1000 (worldToCell (1 / 10 : ℝ) (seenAt p sp)) := by
  have hq : InRange 499 (1 / 10 : ℝ) ⟨p.x, p.y⟩ :=
    cell_in_range (1 / 10) (by norm_num) 499 _ (by push_cast; linarith) (by push_cast; linarith)
  refine ⟨⟨hq, within_square 499 1000 1000 (by norm_num) (by norm_num) _ hq.1 hq.2⟩, fun sp hsp => ?_⟩
  obtain ⟨n1, n2⟩ := point_seen_near (p := p) hs sp hsp
  have hin : InRange 499 (1 / 10 : ℝ) (seenAt p sp) :=
    cell_in_range (1 / 10) (by norm_num) 499 _ (by push_cast; linarith) (by push_cast; linarith)
  exact ⟨hin, within_square 499 1000 1000 (by norm_num) (by norm_num) _ hin.1 hin.2⟩

/-- The scan before can be rasterised, and the result shows the probabilities told last. -/
theorem raster_total {cfg : GraphCfg T} (hA : SoundFor cfg.adder (1 / 10)) (hT : AlwaysTells cfg.adder (1 / 10))
    (hok : ∀ v, |v| ≤ 2994 → cfg.ok v = true) (hf : 1998 ≤ cfg.fuel) {R D : ℝ} (hR : 0 ≤ R) (hD : D + R ≤ 498 / 10)
    {hist : Option Hist} (hh : HistOk hist) {motion : Delta ℝ} (hx : |motion.x| ≤ D) (hy : |motion.y| ≤ D)
    {before : List ScanPoint} (hb : Ranged R before) (hmg : before = [] ∨ cfg.margin < before.length) :
    ∃ m hist' us, cfg.raster hist motion before = some (m, hist') ∧ HistOk hist' ∧ SaneT (us.map Prod.snd) ∧
      (∀ u ∈ us, u.2.occ ≠ none) ∧ (m.width = 1000 ∧ m.height = 1000 ∧ m.origin = ⟨500, 500⟩) ∧
      (∀ c, Within 1000 1000 c → m.readBounded c =
        some ((about c us).foldl BaseCell.observe (BaseCell.create (some ⟨0, 0⟩)))) ∧
      Inserted cfg.slam motion.neg before 1 cfg.margin us := by
  have nx : |motion.neg.x| ≤ D := by simpa [Poses.Pose.neg] using hx
  have ny : |motion.neg.y| ≤ D := by simpa [Poses.Pose.neg] using hy
  obtain ⟨⟨r1, r2⟩, r3⟩ := near_within hR hD hb nx ny
  unfold GraphCfg.raster
  rw [append_writes]
  have hw : ∃ us hist', cfg.slam.writes hist motion.neg before 1 cfg.margin = some (us, hist') ∧ HistOk hist' := by
    unfold Whole.Cfg.writes
    by_cases he : before.isEmpty = true
    · rw [if_pos he]
      exact ⟨_, _, rfl, hh⟩
    · rw [if_neg he]
      have hne : before ≠ [] := by simpa using he
      obtain ⟨h', k, q1, q2, q3⟩ := quality_total hist hh before
      have hlen : (worldPoints ⟨motion.neg.x, motion.neg.y, motion.neg.theta⟩ before).length = before.length := by simp [worldPoints]
      obtain ⟨us, i1, -⟩ := scan_insertion cfg.adder cfg.ok 499 (by simpa using hok) (1 / 10 : ℝ) (by norm_num)
        ⟨motion.neg.x, motion.neg.y⟩ cfg.fuel r1 k 1 cfg.margin (worldPoints ⟨motion.neg.x, motion.neg.y, motion.neg.theta⟩ before) (by
          right
          rw [hlen]
          exact hmg.resolve_left hne)
        (fun i hi => q3 i (by rw [hlen] at hi; exact hi))
        (fun p hp => by
          obtain ⟨sp, hsp, e⟩ := worldPoints_seenAt motion.neg before hp
          have hin : InRange 499 (1 / 10 : ℝ) p.at_ := by rw [e]; exact (r3 sp hsp).1
          exact ⟨hin, fuel_in_range (1 / 10) 499 _ _ r1 hin cfg.fuel (by omega)⟩)
      refine ⟨us, h', ?_, q2⟩
      rw [q1, Option.bind_some]
      exact (congrArg (Option.map fun us => (us, h')) i1)
  obtain ⟨us, hist', w1, w2⟩ := hw
  have hins := writes_inserted w1
  have hin : ∀ u ∈ us, Within 1000 1000 u.1 :=
    inserted_within 499 (fun v hv => hok v (by simpa using hv)) (by change (4 * 499 + 2 : Int) ≤ cfg.fuel; omega) hins r1 r2 (fun sp h => (r3 sp h).1) fun sp h => (r3 sp h).2
  obtain ⟨m, b1, b2, b3, b4, b5⟩ := bounded_holds BaseCell.observe 1000 1000 (BaseCell.create (some ⟨0, 0⟩)) us hin
  refine ⟨m, hist', us, ?_, w2, writes_sane hA hins, inserted_tells hT hins, ⟨b2, b3, by rw [b4]; rfl⟩, b5, hins⟩
  rw [w1, Option.bind_some]
  change ((boundedApi BaseCell.observe).tellAll blank us).map _ = _
  unfold blank
  rw [b1]
  rfl

/-- Cells told by a scan with ranges up to `R`, from within `D` of the origin. -/
theorem told_within {cfg : GraphCfg T} (hok : ∀ v, |v| ≤ 2994 → cfg.ok v = true) (hf : 1998 ≤ cfg.fuel) {R D : ℝ} (hR : 0 ≤ R)
    (hD : D + R ≤ 498 / 10) {p : Poses.Pose ℝ} (hx : |p.x| ≤ D) (hy : |p.y| ≤ D) {before : List ScanPoint} (hb : Ranged R before)
    {us : List (Coord × Aoo ℝ)} (h : Inserted cfg.slam p before 1 cfg.margin us) :
    ∀ u ∈ us, CellWithin (1 / 10) (D + R + 1 / 5) u.1 := by
  have h0 : 0 ≤ D + R := by linarith [abs_nonneg p.x]
  obtain ⟨n, hn, hn1, hn2⟩ : ∃ n : Nat, n ≤ 499 ∧ (D + R) ≤ 1 / 10 * (((n : Int) : ℝ) - 1) ∧ 1 / 10 * (n : ℝ) ≤ D + R + 1 / 5 := by
    refine ⟨⌈10 * (D + R)⌉₊ + 1, ?_, ?_, ?_⟩
    · have : ⌈10 * (D + R)⌉₊ ≤ 498 := Nat.ceil_le.2 (by push_cast; linarith)
      omega
    · have := Nat.le_ceil (10 * (D + R))
      push_cast
      linarith
    · have := (Nat.ceil_lt_add_one (a := 10 * (D + R)) (by linarith)).le
      push_cast
      linarith
  have hin : ∀ q : Grid.Point ℝ, |q.x| ≤ D + R → |q.y| ≤ D + R →
      InRange (n : Int) (1 / 10 : ℝ) q ∧ Within (2 * n + 1) (2 * n + 1) (worldToCell (1 / 10 : ℝ) q) := by
    intro q h1 h2
    have hq := cell_in_range (1 / 10) (by norm_num) (n : Int) q (h1.trans hn1) (h2.trans hn1)
    exact ⟨hq, within_square (n : Int) _ _ (by push_cast; omega) (by push_cast; omega) _ hq.1 hq.2⟩
  obtain ⟨r1, r2⟩ := hin ⟨p.x, p.y⟩ (by simpa using hx.trans (by linarith)) (by simpa using hy.trans (by linarith))
  have r3 : ∀ sp ∈ before, InRange (n : Int) (1 / 10 : ℝ) (seenAt p sp) ∧
      Within (2 * n + 1) (2 * n + 1) (worldToCell (1 / 10 : ℝ) (seenAt p sp)) := by
    intro sp hsp
    obtain ⟨n1, n2⟩ := point_seen_near (p := p) hb sp hsp
    exact hin _ (by linarith) (by linarith)
  intro u hu
  have hw := inserted_within (n : Int) (fun v hv => hok v (by omega)) (by change (4 * (n : Int) + 2 : Int) ≤ cfg.fuel; omega) h r1 r2
    (fun sp h => (r3 sp h).1) (fun sp h => (r3 sp h).2) u hu
  have e1 : |u.1.x| ≤ (n : Int) := by
    have := hw.1; have := hw.2.1
    rw [abs_le]; constructor <;> omega
  have e2 : |u.1.y| ≤ (n : Int) := by
    have := hw.2.2.1; have := hw.2.2.2
    rw [abs_le]; constructor <;> omega
  have c1 : |(u.1.x : ℝ)| ≤ (n : ℝ) := by exact_mod_cast e1
  have c2 : |(u.1.y : ℝ)| ≤ (n : ℝ) := by exact_mod_cast e2
  constructor <;> linarith

/-- The rasterised map is that part of an unlimited one that is within its bounds; little of that is known. -/
theorem raster_shown {cfg : GraphCfg T} (i : Impact) (hA : SoundFor cfg.adder (1 / 10)) (hT : AlwaysTells cfg.adder (1 / 10))
    (hok : ∀ v, |v| ≤ 2994 → cfg.ok v = true) (hf : 1998 ≤ cfg.fuel) {R D : ℝ} (hR : 0 ≤ R) (hD : D + R ≤ 498 / 10)
    {hist : Option Hist} (hh : HistOk hist) {motion : Delta ℝ} (hx : |motion.x| ≤ D) (hy : |motion.y| ≤ D)
    {before : List ScanPoint} (hb : Ranged R before) (hmg : before = [] ∨ cfg.margin < before.length) :
    ∃ m hist' v prob, cfg.raster hist motion before = some (m, hist') ∧ HistOk hist' ∧ v.scale = 1 / 10 ∧
      (∀ c, v.hasCell c = (rasterView m).hasCell c) ∧ Shows v (baseImpact i) prob ∧ Flat (1 / 10) (D + R + 1 / 5) prob ∧
      ∀ c, Within 1000 1000 c → Below v (rasterView m) c := by
  classical
  obtain ⟨m, hist', us, r1, r2, r3, r4, ⟨r5, r6, r7⟩, r8, r9⟩ := raster_total hA hT hok hf hR hD hh hx hy hb hmg
  let v : Matcher.View (BaseCell ℝ) := ⟨⟨m.width, m.height⟩, m.origin, 1 / 10, fun c => (Dims.mk m.width m.height).hasCell m.origin c,
    fun c => some ((about c us).foldl BaseCell.observe (BaseCell.create (some ⟨0, 0⟩)))⟩
  have hcell : ∀ c, ∃ o', ((about c us).foldl BaseCell.observe (BaseCell.create (some ⟨0, 0⟩))).occ = some o' ∧ Unit01 o'.prob := by
    intro c
    have hsub : ∀ a ∈ about c us, a ∈ us.map Prod.snd := by
      intro a ha
      obtain ⟨u, hu, rfl⟩ := List.mem_map.1 ha
      exact List.mem_map.2 ⟨u, (List.mem_filter.1 hu).1, rfl⟩
    refine base_cell_shows _ (fun a ha => r3 a (hsub a ha)) (fun a ha => ?_) _ ⟨0, 0⟩ rfl ⟨le_rfl, zero_le_one⟩
    obtain ⟨u, hu, rfl⟩ := List.mem_map.1 (hsub a ha)
    exact r4 u hu
  choose oc ho1 ho2 using hcell
  have hshow : Shows v (baseImpact i) fun _ c => (oc c).prob := by
    intro c
    refine ⟨_, rfl, fun obst => ⟨?_, ho2 c⟩⟩
    have := base_impact i (oc c).prob (oc c).qual ((about c us).foldl BaseCell.observe (BaseCell.create (some ⟨0, 0⟩))).unknown
      (ho2 c) obst
    rw [← this]
    have e : ∀ x : BaseCell ℝ, x.occ = some (oc c) → x = ⟨some ⟨(oc c).prob, (oc c).qual⟩, x.unknown⟩ := by
      rintro ⟨o, u⟩ rfl
      rfl
    exact congrArg (baseImpact i obst) (e _ (ho1 c))
  have huntold : ∀ c, (∀ u ∈ us, u.1 ≠ c) → (oc c).prob = 0 := by
    intro c hc
    have he : about c us = [] := by
      unfold about
      rw [List.map_eq_nil_iff, List.filter_eq_nil_iff]
      intro u hu
      simpa using hc u hu
    have h1 := ho1 c
    rw [he] at h1
    have h2 : (some ⟨0, 0⟩ : Option (Occ ℝ)) = some (oc c) := h1
    rw [Option.some.injEq] at h2
    rw [← h2]
  have nx : |motion.neg.x| ≤ D := by simpa [Poses.Pose.neg] using hx
  have ny : |motion.neg.y| ≤ D := by simpa [Poses.Pose.neg] using hy
  have htold := told_within hok hf hR hD nx ny hb r9
  refine ⟨m, hist', v, fun _ c => (oc c).prob, r1, r2, rfl, fun _ => rfl, hshow, ⟨?_, 0, fun _ c hc => ?_⟩, fun c hc x hxx => ?_⟩
  · refine ⟨insert 0 ((us.map fun u => (oc u.1).prob).toFinset), fun _ c => ?_⟩
    by_cases hc : ∀ u ∈ us, u.1 ≠ c
    · rw [huntold c hc]; simp
    · push Not at hc
      obtain ⟨u, hu, rfl⟩ := hc
      refine Finset.mem_insert_of_mem ?_
      rw [List.mem_toFinset]
      exact List.mem_map.2 ⟨u, hu, rfl⟩
  · refine huntold c fun u hu e => hc ?_
    rw [← e]
    exact htold u hu
  · change m.readBounded _ = some x
    rw [← hxx]
    exact r8 _ hc

/-! ## The refinement -/

/-- A matcher for the rasterised maps: it answers on maps that can be read everywhere, with shifts of at most `b` along an axis, reads
the map only near, and keeps the weighting usable. -/
structure Suits (m : Machine (BaseCell ℝ) T) (i : Impact) (b : ℝ) : Prop where
  safe : m.Safe (baseImpact i) b
  near : m.Reads (Near b)
  keeps : m.Keeps (baseImpact i)

/-- The same SLAM with another matcher. -/
noncomputable def GraphCfg.matching (cfg : GraphCfg T) (m : Machine (BaseCell ℝ) T) : GraphCfg T := { cfg with machine := m }

/-- With the matcher `m`, given with a bound on its iterations, every increment of at most `D` along each axis is refined if the ranges
are at most `R`, after enough iterations and by at most `b`. -/
def Refines (cfg : GraphCfg T) (m : Nat → Machine (BaseCell ℝ) T) (R D b : ℝ) : Prop :=
  ∀ hist, HistOk hist → ∀ w, Spw.Ok w → ∀ (t : T) (motion : Delta ℝ), |motion.x| ≤ D → |motion.y| ≤ D → ∀ before now, Ranged R before →
    (before = [] ∨ cfg.margin < before.length) → Ranged R now →
    ∃ F c hist' w' t', (∀ fuel, F ≤ fuel → (cfg.matching (m fuel)).estimate hist w t motion before now = some (c, hist', w', t')) ∧
      HistOk hist' ∧ Spw.Ok w' ∧ |c.x| ≤ b ∧ |c.y| ≤ b

theorem estimate_total {cfg : GraphCfg T} {m : Machine (BaseCell ℝ) T} {i : Impact} {b : ℝ} (hm : Suits m i b)
    (hA : SoundFor cfg.adder (1 / 10)) (hT : AlwaysTells cfg.adder (1 / 10)) (hok : ∀ v, |v| ≤ 2994 → cfg.ok v = true)
    (hf : 1998 ≤ cfg.fuel) {R D : ℝ} (hR : 0 ≤ R) (hD : D + R ≤ 498 / 10) (hbR : b + R ≤ 498 / 10) :
    Refines cfg (fun _ => m) R D b := by
  intro hist hh w hw t motion hx hy before now hbe hmg hno
  obtain ⟨ma, hist', v, prob, r1, r2, r3, r4, hshow, -, r5⟩ := raster_shown i hA hT hok hf hR hD hh hx hy hbe hmg
  obtain ⟨w', t', c, q, p1, p2, p3⟩ := hm.safe v _ hshow (by rw [r3]; norm_num) w hw t now (fun sp hsp => by
    obtain ⟨r, a, o, rfl, -⟩ := hno sp hsp
    rfl) Poses.Pose.zero
  have hkeep := hm.keeps v _ hshow (by rw [r3]; norm_num) w hw t now _ _ _ _ _ p1
  have hproc : m.process (rasterView ma) w t now Poses.Pose.zero = some (w', t', c, q) := by
    refine hm.near v (rasterView ma) w t now Poses.Pose.zero _ r3 (fun _ _ => r4 _) (fun p hp sp hsp => ?_) p1
    rw [r3]
    exact r5 _ ((near_within hR hbR hno (p := p) (by simpa [Near, Poses.Pose.zero] using hp.1)
      (by simpa [Near, Poses.Pose.zero] using hp.2)).2 sp hsp).2
  refine ⟨0, c, hist', w', t', fun _ _ => ?_, r2, hkeep, p2, p3⟩
  have r1' : (cfg.matching m).raster hist motion before = some (ma, hist') := r1
  unfold GraphCfg.estimate
  rw [r1', Option.bind_some]
  change (m.process (rasterView ma) w t now Poses.Pose.zero).map _ = _
  rw [hproc]
  rfl

/-- Hill climbing refines, too: it does not get far from where the cells of the rasterised map can be seen. -/
theorem climb_refines {cfg : GraphCfg (ScanMatch.HCState ℝ)} (i : Impact) (mc : Matcher.Cfg (BaseCell ℝ)) (hi : mc.imp = baseImpact i)
    (hcf : 0 < mc.cellFuel) (F : Nat) (d r : ℝ) (hA : SoundFor cfg.adder (1 / 10)) (hT : AlwaysTells cfg.adder (1 / 10))
    (hok : ∀ v, |v| ≤ 2994 → cfg.ok v = true) (hf : 1998 ≤ cfg.fuel) {R D : ℝ} (hR : 0 ≤ R) (hDn : 0 ≤ D)
    (hD : D + 3 * R + 2 * |d| ≤ 495 / 10) :
    Refines cfg (fun fuel => enumMachine mc (ScanMatch.hillClimbing F d r) fuel) R D (D + 2 * R + 3 / 10 + |d|) := by
  have hd := abs_nonneg d
  intro hist hh w hw t motion hx hy before now hbe hmg hno
  obtain ⟨ma, hist', v, prob, r1, r2, r3, r4, hshow, hflat, r5⟩ := raster_shown i hA hT hok hf hR (by linarith) hh hx hy hbe hmg
  have hpos : 0 < v.scale := by rw [r3]; norm_num
  rw [← hi] at hshow
  obtain ⟨G, w', t', c, q, p1, p2, p3⟩ := hill_climbing_reads hcf F d r (v' := rasterView ma) hshow hpos (by rw [r3]; exact hflat)
    (R := R) (Y := D + 2 * R + 3 / 10) (by rw [r3]; linarith) hw t hno (p := Poses.Pose.zero)
    ⟨by simp [Poses.Pose.zero]; linarith, by simp [Poses.Pose.zero]; linarith⟩ r3 (fun _ _ => r4 _) (fun p hp sp hsp => by
      rw [r3]
      exact r5 _ ((near_within hR (D := D + 2 * R + 3 / 10 + 2 * |d|) (by linarith) hno (p := p) hp.1 hp.2).2 sp hsp).2)
  have hkeep := enum_keeps (cfg := mc) (ScanMatch.hillClimbing F d r) G v _ hshow hpos w hw t now _ _ _ _ _ p2
  refine ⟨G, c, hist', w', t', fun fuel hle => ?_, r2, hkeep, by simpa [Poses.Pose.zero, Poses.Pose.add] using p3.1,
    by simpa [Poses.Pose.zero, Poses.Pose.add] using p3.2⟩
  have r1' : (cfg.matching (enumMachine mc (ScanMatch.hillClimbing F d r) fuel)).raster hist motion before = some (ma, hist') := r1
  unfold GraphCfg.estimate
  rw [r1', Option.bind_some]
  change ((enumMachine mc (ScanMatch.hillClimbing F d r) fuel).process (rasterView ma) w t now Poses.Pose.zero).map _ = _
  rw [p1 fuel hle]
  rfl

/-! ## Histories -/

/-- The odometry moves by at most `D` along each axis from one message to the next. -/
def Steady (D : ℝ) (ds : List (Poses.Pose ℝ × Msg ℝ)) : Prop :=
  ∀ (i : Nat) (a b : Poses.Pose ℝ × Msg ℝ), ds[i]? = some a → ds[i + 1]? = some b → |b.1.x - a.1.x| ≤ D ∧ |b.1.y - a.1.y| ≤ D

/-- With a matcher that refines, every history is handled, after enough iterations for each match. -/
theorem graph_total_of {cfg : GraphCfg T} {mm : Nat → Machine (BaseCell ℝ) T} {R D b : ℝ} (hE : Refines cfg mm R D b)
    {hist : Option Hist} (hh : HistOk hist) {w : Spw} (hw : Spw.Ok w) (t : T)
    (ds : List (Poses.Pose ℝ × Msg ℝ)) (hg : ∀ d ∈ ds, GoodMsg cfg.slam R d.2) (hst : Steady D ds) :
    ∃ F s, (∀ fuel, F ≤ fuel → (GraphSt.start hist w t).run (cfg.matching (mm fuel)) ds = some s) ∧
      |s.pose.x - s.odom.x| ≤ (ds.length - 1 : Nat) * b ∧ |s.pose.y - s.odom.y| ≤ (ds.length - 1 : Nat) * b := by
  have key : ∀ ds : List (Poses.Pose ℝ × Msg ℝ), (∀ d ∈ ds, GoodMsg cfg.slam R d.2) → Steady D ds →
      ∃ F s, (∀ fuel, F ≤ fuel → (GraphSt.start hist w t).run (cfg.matching (mm fuel)) ds = some s) ∧ HistOk s.hist ∧ Spw.Ok s.weights ∧ (∃ ps, IsChain s.graph ps) ∧
        s.odom = (ds.map Prod.fst).getLastD Poses.Pose.zero ∧ (s.last = none ↔ ds = []) ∧
        (∀ l, s.last = some l → Ranged R l ∧ (l = [] ∨ cfg.margin < l.length)) ∧
        |s.pose.x - s.odom.x| ≤ (ds.length - 1 : Nat) * b ∧ |s.pose.y - s.odom.y| ≤ (ds.length - 1 : Nat) * b := by
    intro ds
    induction ds using List.reverseRecOn with
    | nil =>
      intro _ _
      refine ⟨0, _, fun _ _ => rfl, hh, hw, ⟨[], chain_empty⟩, rfl, by simp [GraphSt.start], by simp [GraphSt.start], ?_⟩
      simp [GraphSt.start, Poses.Pose.zero]
    | append_singleton ds d ih =>
      intro hg hst
      obtain ⟨F1, s, h1, h2, h3, ⟨ps, h4⟩, h5, h6, h7, h8, h9⟩ := ih (fun x hx => hg x (by simp [hx])) (fun j a b' ha hb' => by
        have l1 : j < ds.length := (List.getElem?_eq_some_iff.1 ha).1
        have l2 : j + 1 < ds.length := (List.getElem?_eq_some_iff.1 hb').1
        exact hst j a b' (by rw [List.getElem?_append_left l1]; exact ha) (by rw [List.getElem?_append_left l2]; exact hb'))
      obtain ⟨pts, scan, g1, g2, g3, g4⟩ := good_scan (hg d (by simp))
      have hmg : scan = [] ∨ cfg.margin < scan.length := by
        rcases (hg d (by simp)).margin pts g1 with e | e
        · left; rw [← List.length_eq_zero_iff, g3, e]; rfl
        · right; rw [g3]; exact e
      set m := d.1.sub s.odom with hmo
      have href : ∃ F2 c hist' w' t', (∀ fuel, F2 ≤ fuel → (cfg.matching (mm fuel)).refine s m scan = some (c, hist', w', t')) ∧ HistOk hist' ∧ Spw.Ok w' ∧
          |c.x| ≤ (if ds = [] then 0 else b) ∧ |c.y| ≤ (if ds = [] then 0 else b) := by
        unfold GraphCfg.refine
        cases hl : s.last with
        | none =>
          rw [if_pos (h6.1 hl)]
          exact ⟨0, _, _, _, _, fun _ _ => rfl, h2, h3, by simp [Poses.Pose.zero], by simp [Poses.Pose.zero]⟩
        | some l =>
          have hne : ds ≠ [] := fun e => by rw [h6.2 e] at hl; cases hl
          rw [if_neg hne]
          obtain ⟨k1, k2⟩ := h7 l hl
          have hpos : 0 < ds.length := List.length_pos_iff.2 hne
          have hprev : ∃ a, ds[ds.length - 1]? = some a ∧ s.odom = a.1 := by
            refine ⟨ds.getLast hne, by rw [← List.getLast?_eq_getElem?, List.getLast?_eq_getLast_of_ne_nil hne], ?_⟩
            rw [h5]
            conv_lhs => rw [← List.dropLast_append_getLast hne]
            simp
          obtain ⟨a, ha, hoa⟩ := hprev
          have hd := hst (ds.length - 1) a d (by rw [List.getElem?_append_left (by omega)]; exact ha) (by
            rw [Nat.sub_add_cancel hpos]; simp)
          exact hE _ h2 _ h3 s.state m (by rw [hmo, hoa]; exact hd.1) (by rw [hmo, hoa]; exact hd.2) l scan k1 k2 g4
      obtain ⟨F2, c, hist', w', t', e1, e2, e3, e4, e5⟩ := href
      have hgr : ∃ g, (if (oracle ⟨1 / 2, 1 / 2, 1 / 2⟩ s.acc m).2 = true then s.graph.addNode ((s.pose.add m).add c) else some s.graph) =
          some g ∧ ∃ ps, IsChain g ps := by
        by_cases ho : (oracle ⟨1 / 2, 1 / 2, 1 / 2⟩ s.acc m).2 = true
        · rw [if_pos ho]
          obtain ⟨g, k1, k2⟩ := chain_addNode s.graph ps h4 ((s.pose.add m).add c)
          exact ⟨g, k1, _, k2⟩
        · rw [if_neg ho]
          exact ⟨_, rfl, ps, h4⟩
      obtain ⟨g, gr1, gr2⟩ := hgr
      refine ⟨max F1 F2, ⟨d.1, (s.pose.add m).add c, some scan, (oracle ⟨1 / 2, 1 / 2, 1 / 2⟩ s.acc m).1, g, hist', w', t'⟩, ?_, e2, e3, gr2,
        by simp, by simp, ?_, ?_⟩
      · intro fuel hle
        rw [run_snoc, h1 fuel ((le_max_left _ _).trans hle), Option.bind_some]
        unfold GraphSt.handle
        have g1' : msg2scan d.2 (cfg.matching (mm fuel)).skipMax (cfg.matching (mm fuel)).tol = some pts := g1
        rw [g1', Option.bind_some, g2, Option.bind_some]
        have hob : (observerStep s.odom d.1).2 = m := rfl
        simp only [hob, e1 fuel ((le_max_right _ _).trans hle), Option.bind_some]
        rw [gr1]
        rfl
      · intro l hl
        rw [Option.some.injEq] at hl
        subst hl
        exact ⟨g4, hmg⟩
      · have hlen : ((ds.length - 1 : Nat) : ℝ) * b + (if ds = [] then 0 else b) ≤ ((ds ++ [d]).length - 1 : Nat) * b := by
          by_cases hne : ds = []
          · subst hne; simp
          · rw [if_neg hne]
            have hpos : 0 < ds.length := List.length_pos_iff.2 hne
            have : ((ds ++ [d]).length - 1 : Nat) = (ds.length - 1) + 1 := by simp; omega
            rw [this]; push_cast; linarith
        have ex : ((s.pose.add m).add c).x - d.1.x = (s.pose.x - s.odom.x) + c.x := by
          simp only [Poses.Pose.add, hmo, Poses.Pose.sub]; ring
        have ey : ((s.pose.add m).add c).y - d.1.y = (s.pose.y - s.odom.y) + c.y := by
          simp only [Poses.Pose.add, hmo, Poses.Pose.sub]; ring
        refine ⟨?_, ?_⟩
        · change |((s.pose.add m).add c).x - d.1.x| ≤ _
          rw [ex]; linarith [abs_add_le (s.pose.x - s.odom.x) c.x]
        · change |((s.pose.add m).add c).y - d.1.y| ≤ _
          rw [ey]; linarith [abs_add_le (s.pose.y - s.odom.y) c.y]
  obtain ⟨F, s, h1, -, -, -, -, -, -, h8, h9⟩ := key ds hg hst
  exact ⟨F, s, h1, h8, h9⟩


/-- **C106: the graph SLAM handles every history.** Let the matcher answer with shifts of at most `b` and look at the map only that
far along each axis, let the ranges be at most `R` and the odometry move by at most `D` from one message to the next. If `D + R` and
`b + R` are at most 49.8 (the rasterised map is 100 wide), then every history of such messages, however long and however far the robot
gets, is handled to the end; and the pose is off the odometry by at most `b` for each message but the first. -/
theorem graph_slam_total {cfg : GraphCfg T} {i : Impact} {b : ℝ} (hm : Suits cfg.machine i b) (hA : SoundFor cfg.adder (1 / 10))
    (hT : AlwaysTells cfg.adder (1 / 10)) (hok : ∀ v, |v| ≤ 2994 → cfg.ok v = true) (hf : 1998 ≤ cfg.fuel) {R D : ℝ} (hR : 0 ≤ R)
    (hD : D + R ≤ 498 / 10) (hbR : b + R ≤ 498 / 10) {hist : Option Hist} (hh : HistOk hist) {w : Spw} (hw : Spw.Ok w) (t : T)
    (ds : List (Poses.Pose ℝ × Msg ℝ)) (hg : ∀ d ∈ ds, GoodMsg cfg.slam R d.2) (hst : Steady D ds) :
    ∃ s, (GraphSt.start hist w t).run cfg ds = some s ∧
      |s.pose.x - s.odom.x| ≤ (ds.length - 1 : Nat) * b ∧ |s.pose.y - s.odom.y| ≤ (ds.length - 1 : Nat) * b := by
  obtain ⟨F, s, h1, h2⟩ := graph_total_of (estimate_total hm hA hT hok hf hR hD hbR) hh hw t ds hg hst
  exact ⟨s, h1 F le_rfl, h2⟩

/-- **Hill climbing (C110)**: the steps are `d` at first. If the odometry increments and three times the ranges are together at most
49.5, less two steps, every history is handled to the end, with enough iterations for each match. -/
theorem graph_climb_total {cfg : GraphCfg (ScanMatch.HCState ℝ)} (i : Impact) (mc : Matcher.Cfg (BaseCell ℝ)) (hi : mc.imp = baseImpact i)
    (hcf : 0 < mc.cellFuel) (F : Nat) (d r : ℝ) (hA : SoundFor cfg.adder (1 / 10)) (hT : AlwaysTells cfg.adder (1 / 10))
    (hok : ∀ v, |v| ≤ 2994 → cfg.ok v = true) (hf : 1998 ≤ cfg.fuel) {R D : ℝ} (hR : 0 ≤ R) (hDn : 0 ≤ D)
    (hD : D + 3 * R + 2 * |d| ≤ 495 / 10) {hist : Option Hist} (hh : HistOk hist) {w : Spw} (hw : Spw.Ok w) (t : ScanMatch.HCState ℝ)
    (ds : List (Poses.Pose ℝ × Msg ℝ)) (hg : ∀ d ∈ ds, GoodMsg cfg.slam R d.2) (hst : Steady D ds) :
    ∃ N s, (∀ fuel, N ≤ fuel → (GraphSt.start hist w t).run
        (cfg.matching (enumMachine mc (ScanMatch.hillClimbing F d r) fuel)) ds = some s) ∧
      |s.pose.x - s.odom.x| ≤ (ds.length - 1 : Nat) * (D + 2 * R + 3 / 10 + |d|) ∧
      |s.pose.y - s.odom.y| ≤ (ds.length - 1 : Nat) * (D + 2 * R + 3 / 10 + |d|) :=
  graph_total_of (climb_refines i mc hi hcf F d r hA hT hok hf hR hDn hD) hh hw t ds hg hst

end Slam.GraphSlam
