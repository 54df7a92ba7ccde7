import Verif.ScanGen.Props
import Verif.ScanAdder.Exact
import Verif.ScanAdder.Whole

/-!
# C66: a scan generated from a map, inserted at the same pose, agrees with the map
-/

set_option autoImplicit false
set_option linter.unusedSectionVars false

namespace Slam.ScanGen
open Slam.Grid Slam.Line Slam.Estimator Slam.Sensor Slam.Poses Slam.ScanAdder Slam.Cells

/-- A point on the way to a point of the line is a point of the line. -/
theorem along_along (b e : Point ℝ) (t s : ℝ) : along b (along b e t) s = along b e (s * t) := by
  simp only [along]; congr 1 <;> ring

/-- The cells on the way to the point a beam yields: free ones, and the occupied one in which it ends. -/
theorem way_to_point (m : ℝ) (hm : 0 < m) (occ : Coord → ℝ) (thr : ℝ) (pose : Pose ℝ) (e : Point ℝ) (c : Coord)
    (p : ScanPoint) (hit : FirstHit m occ thr (here pose) e c) (mid : MiddleOf m pose e c p) (q : Point ℝ)
    (hq : q = ⟨(p.moveRot pose.x pose.y pose.theta).1, (p.moveRot pose.x pose.y pose.theta).2⟩)
    (hin : worldToCell m q = c) :
    ∀ d, Passes m (here pose) q d → d ≠ c → occ d < thr := by
  obtain ⟨hocc, th, th0, th1, hth, hfree⟩ := hit
  obtain ⟨t0, t1, h0, h01, hch, hmv⟩ := mid
  rw [hmv] at hq
  have hqa : q = along (here pose) e ((t0 + t1) / 2) := hq
  set tm := (t0 + t1) / 2 with htm
  have htm0 : 0 < tm := by rw [htm]; linarith
  rintro d ⟨s, s0, s1, hs⟩ hne
  rw [hqa, along_along] at hs
  by_cases hlt : s * tm < th
  · have := hfree (s * tm) (by positivity) hlt (by rw [hs]; exact hne)
    rwa [hs] at this
  · push Not at hlt
    exfalso
    apply hne
    have hle : s * tm ≤ tm := by nlinarith
    rw [hqa] at hin
    have q1 := (cell_in1 m hm _ _ th c).1 hth
    have q2 := (cell_in1 m hm _ _ tm c).1 hin
    have := (cell_in1 m hm _ _ (s * tm) c).2 ⟨in1_convex m c.x _ _ th tm _ q1.1 q2.1 hlt hle,
      in1_convex m c.y _ _ th tm _ q1.2 q2.2 hlt hle⟩
    rw [← hs, this]

section
variable {K : Type} [Field K] [LinearOrder K] [IsStrictOrderedRing K] [FloorRing K]

/-- The observations of a sequence of beams are those of the single beams. -/
theorem mem_beamSequence (A : Adder K) (ok : Int → Bool) (fuel : Nat) (scale : K) (robot : Point K)
    (ps : List (WPoint K × K)) (us : List (Coord × Aoo K)) (h : beamSequence A ok fuel scale robot ps = some us)
    (u : Coord × Aoo K) :
    u ∈ us ↔ ∃ p ∈ ps, ∃ v, A.beamUpdates ok fuel scale p.1.occ p.2 ⟨robot, p.1.at_⟩ = some v ∧ u ∈ v := by
  induction ps generalizing us with
  | nil => simp [beamSequence] at h; subst h; simp
  | cons p ps ih =>
    unfold beamSequence at h ih
    rw [List.mapM_cons] at h
    cases hp : A.beamUpdates ok fuel scale p.1.occ p.2 ⟨robot, p.1.at_⟩ with
    | none => rw [hp] at h; simp at h
    | some v =>
      rw [hp] at h
      simp only [Option.bind_eq_bind, Option.bind_some, Option.map_bind] at h
      obtain ⟨vs, hvs, e⟩ := Option.bind_eq_some_iff.1 h
      simp only [Function.comp_apply, Option.pure_def, Option.map_some, List.flatten_cons, Option.some.injEq] at e
      rw [← e, List.mem_append, ih vs.flatten (by rw [hvs]; rfl)]
      constructor
      · rintro (h | ⟨q, hq, w, hw, hu⟩)
        · exact ⟨p, by simp, v, hp, h⟩
        · exact ⟨q, by simp [hq], w, hw, hu⟩
      · rintro ⟨q, hq, w, hw, hu⟩
        rcases List.mem_cons.1 hq with rfl | hq
        · rw [hp] at hw; cases hw; exact Or.inl hu
        · exact Or.inr ⟨q, hq, w, hw, hu⟩

/-- Without blurring nothing but the end of a beam is told to be occupied. -/
theorem beam_observations (A : Adder K) (hblur : A.blur = 0) (ok : Int → Bool) (M : Int)
    (hok : ∀ v, |v| ≤ 6 * M → ok v = true) (scale : K) (hs : 0 < scale) (isOcc : Bool) (quality : K) (beam : Beam K)
    (hb : InRange M scale beam.beg) (he : InRange M scale beam.fin) (fuel : Nat)
    (hf : fuelFor (worldToCell scale beam.beg) (worldToCell scale beam.fin) ≤ fuel) (hnt : NoTie scale beam)
    (hlen : ∀ r, A.maxRange = some r → beamSq beam ≤ r ^ 2) :
    ∃ us, A.beamUpdates ok fuel scale isOcc quality beam = some us ∧
      (∀ u ∈ us, Passes scale beam.beg beam.fin u.1 ∧
        u.2.isOcc = (isOcc && decide (u.1 = worldToCell scale beam.fin))) ∧
      (∀ c, Passes scale beam.beg beam.fin c → ∃ a, (c, a) ∈ us) := by
  obtain ⟨us, h1, h2, h3, h4⟩ := beam_updates_cells_passed A ok M hok scale hs isOcc quality beam hb he fuel hf hnt hlen
  refine ⟨us, h1, fun u hu => ?_, fun c hc => ?_⟩
  · have hpass := (h3 u.1).1 (List.mem_map_of_mem hu)
    refine ⟨hpass, ?_⟩
    have ht := (tell_nodup (fun (_ : Option (Aoo K)) a => some a) us (fun _ => none) h2).2 u hu
    obtain ⟨-, g2, g3⟩ := h4 (fun (_ : Option (Aoo K)) a => some a) (fun _ => none)
    by_cases hend : u.1 = worldToCell scale beam.fin
    · rw [hend, g2] at ht
      have := Option.some.inj ht
      rw [← this]
      simp [endObservation, hend]
    · obtain ⟨a, ha, hta⟩ := g3 u.1 hpass hend
      rw [ht] at hta
      have := Option.some.inj hta
      rw [this]
      have hnw : ¬ InWall A scale beam isOcc u.1 := by
        rintro ⟨hw, -⟩
        have : holeWidth A scale beam isOcc = 0 := by
          unfold holeWidth
          rw [hblur]
          cases isOcc <;> simp
        rw [this] at hw
        have h0 : (0 : K) ≤ ScanAdder.cellSq u.1 (worldToCell scale beam.fin) := by
          unfold ScanAdder.cellSq; positivity
        simp at hw
        linarith
      rw [(ha.2.2.1 hnw).1]
      simp [hend]
  · obtain ⟨u, hu, e⟩ := List.mem_map.1 ((h3 c).2 hc)
    exact ⟨u.2, by rw [← e]; exact hu⟩

end

/-- C66: from a map (with occupancies `occ`) generate a scan and insert it, at the same pose, with an adder that blurs
nothing. No assertion fails, and of the cells of the source map
* every cell told to be occupied is occupied, every cell told to be empty is free, and
* the first occupied cell on every generated beam is told to be occupied.
Preconditions: those of `generated_scan`; the inserted beams are within the adder's range, end in the range of an `int`
and show no tie in the traversal. -/
theorem generated_scan_agrees_with_map (ok : Int → Bool) (M : Int) (hok : ∀ v, |v| ≤ 6 * M → ok v = true)
    (m : ℝ) (hm : 0 < m) (occ : Coord → ℝ) (thr : ℝ) (S : Scanner)
    (hS : 0 < S.maxDist) (hinc : 0 < S.angleInc) (pose : Pose ℝ)
    (hgx : ∀ k : Int, pose.x ≠ (k : ℝ) * m) (hgy : ∀ k : Int, pose.y ≠ (k : ℝ) * m)
    (hfree : occ (worldToCell m (here pose)) < thr)
    (hnc : ∀ k : Nat, -S.hsector + (k : ℝ) * S.angleInc ≤ S.hsector → (k : ℝ) * S.angleInc < 2 * Real.pi →
      ¬ HitsCorner m (here pose) (beamEnd S pose (-S.hsector + (k : ℝ) * S.angleInc)))
    (A : Adder ℝ) (hblur : A.blur = 0) (hrob : InRange M m (here pose)) (quality : ℝ) :
    ∃ N, ∀ fuel, N ≤ fuel → ∃ ps, laserScan exactCmp ok fuel S m occ pose thr = some ps ∧
      ∀ fuel', (∀ p ∈ worldPoints ⟨pose.x, pose.y, pose.theta⟩ ps, InRange M m p.at_ ∧ NoTie m ⟨here pose, p.at_⟩ ∧
          (∀ r, A.maxRange = some r → beamSq (Beam.mk (here pose) p.at_) ≤ r ^ 2) ∧
          fuelFor (worldToCell m (here pose)) (worldToCell m p.at_) ≤ fuel') →
        ∃ us, A.appendScan ok fuel' m (here pose) idleQuality quality 0
            (worldPoints ⟨pose.x, pose.y, pose.theta⟩ ps) = some us ∧
          (∀ u ∈ us, (u.2.isOcc = true → thr ≤ occ u.1) ∧ (u.2.isOcc = false → occ u.1 < thr)) ∧
          (∀ (k : Nat) (c : Coord), -S.hsector + (k : ℝ) * S.angleInc ≤ S.hsector →
            (k : ℝ) * S.angleInc < 2 * Real.pi →
            FirstHit m occ thr (here pose) (beamEnd S pose (-S.hsector + (k : ℝ) * S.angleInc)) c →
            ∃ a, (c, a) ∈ us ∧ a.isOcc = true) := by
  obtain ⟨N, hN⟩ := generated_scan ok m hm occ thr S hS hinc pose hgx hgy hfree hnc
  refine ⟨N, fun fuel hf => ?_⟩
  obtain ⟨n, o, hn, hscan, hspec⟩ := hN fuel hf
  refine ⟨_, hscan, fun fuel' hpts => ?_⟩
  set ps := (List.range n).filterMap o with hps
  set wps := worldPoints ⟨pose.x, pose.y, pose.theta⟩ ps with hwps
  -- the insertion
  have happ := scan_margin A ok fuel' m (here pose) (fun _ => (1 : ℝ)) quality 0 wps (by
    rcases List.eq_nil_or_concat wps with h | ⟨l, x, h⟩
    · exact Or.inl h
    · right; rw [h]; simp)
  have hall : wps.zipIdx.filter (fun p => decide (0 ≤ p.2 ∧ p.2 + 0 + 1 ≤ wps.length)) = wps.zipIdx := by
    rw [List.filter_eq_self]
    intro p hp
    have := List.mem_zipIdx_iff_getElem?.1 hp
    have hlt : p.2 < wps.length := (List.getElem?_eq_some_iff.1 this).1
    simp only [decide_eq_true_eq]
    omega
  rw [hall, Nat.cast_zero] at happ
  obtain ⟨us, hus, -⟩ := beams_insertion A ok M hok m hm (here pose) fuel' hrob
    (wps.zipIdx.map fun p => (p.1, quality * 1)) (by
      intro p hp
      obtain ⟨x, hx, rfl⟩ := List.mem_map.1 hp
      have hx' : x.1 ∈ wps := (List.mem_iff_getElem?.2 ⟨x.2, List.mem_zipIdx_iff_getElem?.1 hx⟩)
      obtain ⟨a1, -, -, a4⟩ := hpts x.1 hx'
      exact ⟨a1, a4⟩)
  have hmem := mem_beamSequence A ok fuel' m (here pose) _ us hus
  -- each point of the scan
  have hpoint : ∀ k < n, ∀ p, o k = some p → ∃ c w, w ∈ wps ∧ w.occ = true ∧
      FirstHit m occ thr (here pose) (beamEnd S pose (-S.hsector + (k : ℝ) * S.angleInc)) c ∧
      worldToCell m w.at_ = c ∧ (∀ d, Passes m (here pose) w.at_ d → d ≠ c → occ d < thr) ∧
      w = ⟨⟨(p.moveBy pose.x pose.y (Raw.sin ⟨pose.theta⟩) (Raw.cos ⟨pose.theta⟩)).1,
        (p.moveBy pose.x pose.y (Raw.sin ⟨pose.theta⟩) (Raw.cos ⟨pose.theta⟩)).2⟩, p.occupied⟩ := by
    intro k hk p hp
    have hs := hspec k hk
    rw [hp] at hs
    obtain ⟨-, hocc, c, hhit, hmid⟩ := hs
    refine ⟨c, ⟨⟨(p.moveBy pose.x pose.y (Raw.sin ⟨pose.theta⟩) (Raw.cos ⟨pose.theta⟩)).1,
        (p.moveBy pose.x pose.y (Raw.sin ⟨pose.theta⟩) (Raw.cos ⟨pose.theta⟩)).2⟩, p.occupied⟩, ?_, hocc, hhit, ?_, ?_, rfl⟩
    · rw [hwps]
      unfold worldPoints
      refine List.mem_map.2 ⟨p, List.mem_filterMap.2 ⟨k, List.mem_range.2 hk, hp⟩, rfl⟩
    · rw [(moves_agree p pose.x pose.y pose.theta).1]
      obtain ⟨t0, t1, h0, h01, hch, hmv⟩ := hmid
      rw [hmv]
      apply inside_cell m hm
      have hb0 := (hch t0).2 ⟨le_refl _, h01.le⟩
      have hb1 := (hch t1).2 ⟨h01.le, le_refl _⟩
      have hoff : (⟨⟨pose.x, pose.y⟩, beamDir S pose (-S.hsector + (k : ℝ) * S.angleInc)⟩ : Ray ℝ).Off
          (worldCellBounds m c) := by
        constructor <;> intro _ <;> constructor <;> simp only [worldCellBounds]
        · rw [mul_comm]; exact hgy c.y
        · have := hgy (c.y + 1); push_cast at this; rwa [mul_comm] at this
        · rw [mul_comm]; exact hgx c.x
        · have := hgx (c.x + 1); push_cast at this; rwa [mul_comm] at this
      rw [along_eq_at] at hb0 hb1
      have := midpoint_inside _ _ hoff t0 t1 h01.ne hb0 hb1
      rw [← along_eq_at] at this
      exact this
    · apply way_to_point m hm occ thr pose _ c p hhit hmid
      · rw [(moves_agree p pose.x pose.y pose.theta).1]
      · rw [(moves_agree p pose.x pose.y pose.theta).1]
        obtain ⟨t0, t1, h0, h01, hch, hmv⟩ := hmid
        rw [hmv]
        apply inside_cell m hm
        have hb0 := (hch t0).2 ⟨le_refl _, h01.le⟩
        have hb1 := (hch t1).2 ⟨h01.le, le_refl _⟩
        have hoff : (⟨⟨pose.x, pose.y⟩, beamDir S pose (-S.hsector + (k : ℝ) * S.angleInc)⟩ : Ray ℝ).Off
            (worldCellBounds m c) := by
          constructor <;> intro _ <;> constructor <;> simp only [worldCellBounds]
          · rw [mul_comm]; exact hgy c.y
          · have := hgy (c.y + 1); push_cast at this; rwa [mul_comm] at this
          · rw [mul_comm]; exact hgx c.x
          · have := hgx (c.x + 1); push_cast at this; rwa [mul_comm] at this
        rw [along_eq_at] at hb0 hb1
        have := midpoint_inside _ _ hoff t0 t1 h01.ne hb0 hb1
        rw [← along_eq_at] at this
        exact this
  refine ⟨us, ?_, ?_, ?_⟩
  · exact happ.trans hus
  · intro u hu
    obtain ⟨x, hx, v, hv, huv⟩ := (hmem u).1 hu
    obtain ⟨y, hy, rfl⟩ := List.mem_map.1 hx
    have hyw : y.1 ∈ wps := (List.mem_iff_getElem?.2 ⟨y.2, List.mem_zipIdx_iff_getElem?.1 hy⟩)
    obtain ⟨p, hp, hyp⟩ := List.mem_map.1 (show y.1 ∈ List.map _ ps from hyw)
    obtain ⟨k, hk, hok'⟩ := List.mem_filterMap.1 hp
    obtain ⟨c, w, hw, hwo, hhit, hwc, hway, hweq⟩ := hpoint k (List.mem_range.1 hk) p hok'
    have hyw' : y.1 = w := by rw [hweq, ← hyp]
    obtain ⟨a1, a2, a3, a4⟩ := hpts y.1 hyw
    obtain ⟨v', e1, e2, -⟩ := beam_observations A hblur ok M hok m hm y.1.occ (quality * 1) ⟨here pose, y.1.at_⟩ hrob a1 fuel'
      a4 a2 a3
    have : v' = v := by
      have := e1.symm.trans hv
      exact Option.some.inj this
    subst this
    obtain ⟨f1, f2⟩ := e2 u huv
    simp only [hyw'] at f1 f2
    rw [hwo, hwc, Bool.true_and] at f2
    constructor
    · intro h
      rw [f2] at h
      rw [of_decide_eq_true h]
      exact hhit.1
    · intro h
      rw [f2] at h
      exact hway u.1 f1 (of_decide_eq_false h)
  · intro k c hk1 hk2 hhit
    have hk := (hn k).2 ⟨hk1, hk2⟩
    cases hok' : o k with
    | none =>
      exfalso
      have hs := hspec k hk
      rw [hok'] at hs
      obtain ⟨h1, t, t0, t1, ht, -⟩ := hhit
      have := hs t t0 t1
      rw [ht] at this
      exact absurd this (not_lt.2 h1)
    | some p =>
      obtain ⟨c', w, hw, hwo, hhit', hwc, hway, -⟩ := hpoint k hk p hok'
      have hcc : c = c' := by
        -- the first occupied cell is unique
        obtain ⟨h1, t, t0, t1, ht, hfr⟩ := hhit
        obtain ⟨h1', t', t0', t1', ht', hfr'⟩ := hhit'
        by_contra hne
        rcases lt_trichotomy t t' with hlt | heq | hgt
        · have := hfr' t t0 hlt (by rw [ht]; exact hne)
          rw [ht] at this
          exact absurd this (not_lt.2 h1)
        · rw [heq, ht'] at ht; exact hne ht.symm
        · have := hfr t' t0' hgt (by rw [ht']; exact fun h => hne h.symm)
          rw [ht'] at this
          exact absurd this (not_lt.2 h1')
      subst hcc
      obtain ⟨a1, a2, a3, a4⟩ := hpts w hw
      obtain ⟨v, e1, e2, e3⟩ := beam_observations A hblur ok M hok m hm w.occ (quality * 1) ⟨here pose, w.at_⟩ hrob a1 fuel'
        a4 a2 a3
      obtain ⟨a, ha⟩ := e3 c ⟨1, by norm_num, le_refl _, by
        rw [show along (here pose) w.at_ 1 = w.at_ by simp [along]]; exact hwc⟩
      refine ⟨a, (hmem (c, a)).2 ?_, ?_⟩
      · obtain ⟨i, hi⟩ := List.mem_iff_getElem?.1 hw
        exact ⟨(w, quality * 1), List.mem_map.2 ⟨(w, i), List.mem_zipIdx_iff_getElem?.2 hi, rfl⟩, v, e1, ha⟩
      · have := (e2 _ ha).2
        rw [this]
        simp [hwo, hwc]

/-- Non-vacuity: the preconditions on the map, the robot and the scanner are met by the example after `generated_scan`;
those on the inserted points by the point such a scanner sees in the cell two cells ahead. -/
example (A : Adder ℝ) (hA : A.maxRange = some 15) :
    ∀ p ∈ worldPoints ⟨1 / 2, 1 / 2, 0⟩ [ScanPoint.polar 2 0 true 1], InRange 300000000 1 p.at_ ∧
      NoTie 1 ⟨here ⟨1 / 2, 1 / 2, 0⟩, p.at_⟩ ∧
      (∀ r, A.maxRange = some r → beamSq (Beam.mk (here ⟨1 / 2, 1 / 2, 0⟩) p.at_) ≤ r ^ 2) ∧
      fuelFor (worldToCell (1 : ℝ) (here ⟨1 / 2, 1 / 2, 0⟩)) (worldToCell 1 p.at_) ≤ 100 := by
  intro p hp
  simp only [worldPoints, List.map_cons, List.map_nil, List.mem_singleton] at hp
  have hc : worldToCell (1 : ℝ) ⟨5 / 2, 1 / 2⟩ = ⟨2, 0⟩ := by
    rw [cell_iff 1 one_pos]; norm_num
  have hc0 : worldToCell (1 : ℝ) ⟨1 / 2, 1 / 2⟩ = ⟨0, 0⟩ := by
    rw [cell_iff 1 one_pos]; norm_num
  have hat : p.at_ = ⟨5 / 2, 1 / 2⟩ := by
    rw [hp]
    simp only [ScanPoint.moveBy, ScanPoint.range, ScanPoint.angle, Raw.sin, Raw.cos, add_zero, Real.sin_zero, Real.cos_zero]
    norm_num
  simp only [hat, here]
  refine ⟨?_, ?_, ?_, ?_⟩
  · unfold InRange; rw [hc]; decide
  · left; right; rfl
  · intro r hr
    rw [hA] at hr
    cases hr
    simp only [beamSq]; norm_num
  · rw [hc, hc0]; decide

end Slam.ScanGen
