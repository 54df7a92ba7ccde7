import Verif.ScanAdder.Model
import Verif.Line.Props
import Verif.PlainMap.Props
import Verif.LazyMap.Props
import Mathlib.Data.List.Sort

/-!
# C16, C17: what inserting a beam or a scan does to a map
-/

set_option autoImplicit false
set_option linter.unusedSectionVars false

namespace Slam.ScanAdder
open Slam.Grid Slam.Line Slam.Rect Slam.Cells

variable {K : Type} [Field K] [LinearOrder K] [IsStrictOrderedRing K] [FloorRing K]

/-! ## Specification -/

/-- The coordinates a point of the world may have so that the 32-bit integers of the traversal do not overflow. -/
def InRange (M : Int) (scale : K) (p : Point K) : Prop :=
  |(worldToCell scale p).x| ≤ M ∧ |(worldToCell scale p).y| ≤ M

/-- The squared length of a beam. -/
def beamSq (beam : Beam K) : K := (beam.fin.x - beam.beg.x) ^ 2 + (beam.fin.y - beam.beg.y) ^ 2

/-- The squared distance of two cells, in cells. -/
def cellSq (a b : Coord) : K := ((a.x - b.x : Int) : K) ^ 2 + ((a.y - b.y : Int) : K) ^ 2

theorem lengthSq_eq (beam : Beam K) : beam.lengthSq = beamSq beam := rfl
theorem distSq_eq (a b : Coord) : (distSq a b : K) = cellSq a b := rfl

/-- Width of the blurred wall in cells: the configured distance, or, if it is negative, its magnitude scaled by the
squared length of the beam; nothing is blurred without a wall. -/
def holeWidth (A : Adder K) (scale : K) (beam : Beam K) (isOcc : Bool) : K :=
  if isOcc = false then 0 else if 0 ≤ A.blur then A.blur / scale else |A.blur| / scale * beamSq beam

/-- Is a cell part of the blurred wall: nearer to the obstacle than the width of the wall, which does not reach the
robot. -/
def InWall (A : Adder K) (scale : K) (beam : Beam K) (isOcc : Bool) (c : Coord) : Prop :=
  (cellSq c (worldToCell scale beam.fin) : K) < holeWidth A scale beam isOcc ^ 2 ∧
  holeWidth A scale beam isOcc ^ 2 < (cellSq (worldToCell scale beam.beg) (worldToCell scale beam.fin) : K)

/-- What the obstacle's cell is told. -/
def endObservation (A : Adder K) (scale : K) (isOcc : Bool) (quality : K) (beam : Beam K) : Aoo K :=
  ⟨isOcc, A.estimate beam (worldCellBounds scale (worldToCell scale beam.fin)) isOcc, beam.fin, quality⟩

/-- What another cell of the beam is told: it is empty, if it is not in the blurred wall. -/
def IsPassObservation (A : Adder K) (scale : K) (isOcc : Bool) (quality : K) (beam : Beam K) (c : Coord)
    (a : Aoo K) : Prop :=
  a.obst = beam.fin ∧ a.quality = quality ∧
  (¬ InWall A scale beam isOcc c →
    a.isOcc = false ∧ a.occ = A.estimate beam (worldCellBounds scale c) false) ∧
  (InWall A scale beam isOcc c →
    a.isOcc = true ∧
    ∀ o, a.occ = some o ↔
      ∃ b e, A.estimate beam (worldCellBounds scale (worldToCell scale beam.fin)) isOcc = some b ∧
        A.estimate beam (worldCellBounds scale c) false = some e ∧
        o.qual = e.qual ∧
        o.prob = b.prob * (1 - cellSq c (worldToCell scale beam.fin) / holeWidth A scale beam isOcc ^ 2))

/-- Tell a map (a total function from cells to values) a list of observations. -/
def tell {C : Type} (upd : C → Aoo K → C) (f : Coord → C) (us : List (Coord × Aoo K)) : Coord → C :=
  PlainMap.specRun upd f (asOps us)

/-! ## Lemmas -/

theorem blurCellDist_eq (A : Adder K) (scale : K) (hs : 0 < scale) (beam : Beam K) (isOcc : Bool) :
    A.blurCellDist scale beam isOcc = holeWidth A scale beam isOcc := by
  unfold Adder.blurCellDist holeWidth
  cases isOcc with
  | false => simp
  | true =>
    simp only [Bool.not_true, Bool.false_eq_true, if_false, reduceCtorEq]
    by_cases h : 0 ≤ A.blur
    · rw [if_pos h, if_neg (not_lt.2 (div_nonneg h hs.le))]
    · have h' := not_le.1 h
      rw [if_neg h, if_pos (div_neg_of_neg_of_pos h' hs), abs_of_neg h', neg_div]
      rw [lengthSq_eq]; ring

theorem specRun_cons {C : Type} (upd : C → Aoo K → C) (f : Coord → C) (u : Coord × Aoo K)
    (us : List (Coord × Aoo K)) :
    tell upd f (u :: us) = tell upd (fun d => if d = u.1 then upd (f u.1) u.2 else f d) us := rfl

/-- A list of updates of different cells: each gets its one observation. -/
theorem tell_nodup {C : Type} (upd : C → Aoo K → C) (us : List (Coord × Aoo K)) :
    ∀ f : Coord → C, (us.map Prod.fst).Nodup →
      (∀ c, c ∉ us.map Prod.fst → tell upd f us c = f c) ∧
      (∀ u ∈ us, tell upd f us u.1 = upd (f u.1) u.2) := by
  induction us with
  | nil => intro f _; exact ⟨fun _ _ => rfl, by simp⟩
  | cons u us ih =>
    intro f hn
    rw [List.map_cons, List.nodup_cons] at hn
    obtain ⟨h1, h2⟩ := ih (fun d => if d = u.1 then upd (f u.1) u.2 else f d) hn.2
    rw [specRun_cons]
    refine ⟨fun c hc => ?_, fun v hv => ?_⟩
    · rw [List.map_cons, List.mem_cons, not_or] at hc
      rw [h1 c hc.2, if_neg hc.1]
    · rcases List.mem_cons.1 hv with rfl | hv
      · rw [h1 _ hn.1, if_pos rfl]
      · rw [h2 v hv, if_neg]
        rintro e
        exact hn.1 (e ▸ List.mem_map_of_mem hv)

theorem tell_append {C : Type} (upd : C → Aoo K → C) (f : Coord → C) (us vs : List (Coord × Aoo K)) :
    tell upd f (us ++ vs) = tell upd (tell upd f us) vs := by
  unfold tell asOps PlainMap.specRun
  rw [List.map_append, List.foldl_append]

/-! ## C16 -/

/-- C16: inserting a beam. For every estimator, blur setting, scale and beam (whose ends have cell coordinates an `int`
can handle) the insertion succeeds. A beam longer than the usable range has no effect. Otherwise the observed cells
are exactly those of the discretised beam, each told something exactly once: the last one (the cell of the obstacle)
what the estimator says for the obstacle, the others what `IsPassObservation` says; and the map changes accordingly,
cells off the beam keeping their values. -/
theorem beam_insertion (A : Adder K) (ok : Int → Bool) (M : Int) (hok : ∀ v, |v| ≤ 6 * M → ok v = true)
    (scale : K) (hs : 0 < scale) (isOcc : Bool) (quality : K) (beam : Beam K)
    (hb : InRange M scale beam.beg) (he : InRange M scale beam.fin) (fuel : Nat)
    (hf : fuelFor (worldToCell scale beam.beg) (worldToCell scale beam.fin) ≤ fuel) :
    ∃ us, A.beamUpdates ok fuel scale isOcc quality beam = some us ∧
      ((∃ r, A.maxRange = some r ∧ r ^ 2 < beamSq beam) → us = []) ∧
      ((∀ r, A.maxRange = some r → beamSq beam ≤ r ^ 2) →
        ∃ cells, worldToCells ok (exactFP scale) fuel scale beam.beg.x beam.beg.y beam.fin.x beam.fin.y =
            some cells ∧
          Connects (worldToCell scale beam.beg) (worldToCell scale beam.fin) cells ∧
          (us.map Prod.fst).Perm cells ∧
          (∀ {C : Type} (upd : C → Aoo K → C) (f : Coord → C),
            (∀ c, c ∉ cells → tell upd f us c = f c) ∧
            tell upd f us (worldToCell scale beam.fin) =
              upd (f (worldToCell scale beam.fin)) (endObservation A scale isOcc quality beam) ∧
            (∀ c ∈ cells, c ≠ worldToCell scale beam.fin →
              ∃ a, IsPassObservation A scale isOcc quality beam c a ∧ tell upd f us c = upd (f c) a))) := by
  obtain ⟨cells, hc, hconn, -⟩ := world_to_cells_connects ok M hok (exactFP scale) scale beam.beg.x beam.beg.y
    beam.fin.x beam.fin.y fuel hb.1 hb.2 he.1 he.2 hf
  have hlast := hconn.last
  have hcell : (exactFP scale).cell beam.fin.x beam.fin.y = worldToCell scale beam.fin := rfl
  rw [hcell] at hlast
  by_cases hl : A.tooLong beam = true
  · refine ⟨[], by unfold Adder.beamUpdates; rw [if_pos hl], fun _ => rfl, fun h => ?_⟩
    unfold Adder.tooLong at hl
    cases hr : A.maxRange with
    | none => rw [hr] at hl; simp at hl
    | some r =>
      rw [hr] at hl
      exact absurd (of_decide_eq_true hl) (not_lt.2 (h r hr))
  · have hne : cells ≠ [] := by rintro rfl; simp at hlast
    have hgl : cells.dropLast ++ [worldToCell scale beam.fin] = cells := by
      conv_rhs => rw [← List.dropLast_append_getLast hne]
      rw [List.getLast?_eq_some_getLast hne] at hlast
      rw [Option.some.inj hlast]
    refine ⟨_, by
      unfold Adder.beamUpdates
      rw [if_neg hl, hc]
      simp only [Option.bind_some, hlast, Option.map_some]
      rfl, ?_, fun _ => ⟨cells, hc, hconn, ?_, ?_⟩⟩
    · rintro ⟨r, hr, hlt⟩
      exact absurd (by unfold Adder.tooLong; rw [hr]; exact decide_eq_true hlt) hl
    · rw [List.map_cons, List.map_map]
      have : (cells.dropLast.map (Prod.fst ∘ fun pt => (pt, A.passed scale beam quality
          (distSq (worldToCell scale beam.beg) (worldToCell scale beam.fin))
          (A.blurCellDist scale beam isOcc ^ 2)
          (A.estimate beam (worldCellBounds scale (worldToCell scale beam.fin)) isOcc)
          (worldToCell scale beam.fin) pt))) = cells.dropLast := by
        rw [show (Prod.fst ∘ fun pt => (pt, A.passed scale beam quality
          (distSq (worldToCell scale beam.beg) (worldToCell scale beam.fin))
          (A.blurCellDist scale beam isOcc ^ 2)
          (A.estimate beam (worldCellBounds scale (worldToCell scale beam.fin)) isOcc)
          (worldToCell scale beam.fin) pt)) = id from rfl, List.map_id]
      rw [this]
      conv_rhs => rw [← hgl]
      exact (List.perm_append_comm (l₁ := [worldToCell scale beam.fin]) (l₂ := cells.dropLast))
    · intro C upd f
      have hperm : ((((worldToCell scale beam.fin, (⟨isOcc, A.estimate beam
          (worldCellBounds scale (worldToCell scale beam.fin)) isOcc, beam.fin, quality⟩ : Aoo K)) ::
          cells.dropLast.map fun pt => (pt, A.passed scale beam quality
          (distSq (worldToCell scale beam.beg) (worldToCell scale beam.fin))
          (A.blurCellDist scale beam isOcc ^ 2)
          (A.estimate beam (worldCellBounds scale (worldToCell scale beam.fin)) isOcc)
          (worldToCell scale beam.fin) pt)).map Prod.fst).Perm cells) := by
        rw [List.map_cons, List.map_map]
        rw [show (Prod.fst ∘ fun pt => (pt, A.passed scale beam quality
          (distSq (worldToCell scale beam.beg) (worldToCell scale beam.fin))
          (A.blurCellDist scale beam isOcc ^ 2)
          (A.estimate beam (worldCellBounds scale (worldToCell scale beam.fin)) isOcc)
          (worldToCell scale beam.fin) pt)) = id from rfl, List.map_id]
        conv_rhs => rw [← hgl]
        exact (List.perm_append_comm (l₁ := [worldToCell scale beam.fin]) (l₂ := cells.dropLast))
      obtain ⟨t1, t2⟩ := tell_nodup upd _ f (hperm.nodup_iff.2 hconn.nodup)
      refine ⟨fun c hcn => t1 c (fun h => hcn (hperm.mem_iff.1 h)), t2 _ List.mem_cons_self, fun c hcm hne' => ?_⟩
      have hcd : c ∈ cells.dropLast := by
        rw [← hgl, List.mem_append, List.mem_singleton] at hcm
        exact hcm.resolve_right hne'
      refine ⟨_, ?_, t2 (c, _) (List.mem_cons_of_mem _ (List.mem_map_of_mem hcd))⟩
      unfold Adder.passed IsPassObservation InWall
      simp only [blurCellDist_eq A scale hs]
      by_cases hw : (distSq c (worldToCell scale beam.fin) : K) < holeWidth A scale beam isOcc ^ 2 ∧
          holeWidth A scale beam isOcc ^ 2 < (distSq (worldToCell scale beam.beg) (worldToCell scale beam.fin) : K)
      · rw [if_pos hw]
        refine ⟨rfl, rfl, fun h => absurd hw h, fun _ => ⟨rfl, fun o => ?_⟩⟩
        simp only [Option.bind_eq_some_iff, Option.map_eq_some_iff]
        constructor
        · rintro ⟨b, h1, e, h2, rfl⟩; exact ⟨b, e, h1, h2, rfl, rfl⟩
        · rintro ⟨b, e, h1, h2, h3, h4⟩
          refine ⟨b, h1, e, h2, ?_⟩
          cases o; simp only at h3 h4; rw [h3, h4, distSq_eq]
      · rw [if_neg hw]
        exact ⟨rfl, rfl, fun _ => ⟨rfl, rfl⟩, fun h => absurd h hw⟩

/-! ## C17 -/

/-- The observations a sequence of beams produces, one beam after another. -/
def beamSequence (A : Adder K) (ok : Int → Bool) (fuel : Nat) (scale : K) (robot : Point K)
    (ps : List (WPoint K × K)) : Option (List (Coord × Aoo K)) :=
  (ps.mapM fun p => A.beamUpdates ok fuel scale p.1.occ p.2 ⟨robot, p.1.at_⟩).map List.flatten

theorem insertAll_eq (A : Adder K) (ok : Int → Bool) (fuel : Nat) (scale : K) (robot : Point K)
    (quality : Nat → K) (scanQuality : K) (pts : List (WPoint K)) (is : List Nat)
    (h : ∀ i ∈ is, i < pts.length) :
    A.insertAll ok fuel scale robot (fun i => some (quality i)) scanQuality pts is =
      beamSequence A ok fuel scale robot
        (is.filterMap fun i => (pts[i]?).map fun p => (p, scanQuality * quality i)) := by
  induction is with
  | nil => simp [Adder.insertAll, beamSequence]
  | cons i is ih =>
    obtain ⟨p, hi⟩ : ∃ p, pts[i]? = some p := ⟨_, List.getElem?_eq_getElem (h i (by simp))⟩
    have hr := ih (fun j hj => h j (by simp [hj]))
    rw [List.filterMap_cons, hi]
    simp only [Option.map_some]
    unfold Adder.insertAll beamSequence
    rw [hi, hr, List.mapM_cons]
    unfold beamSequence
    simp only [Option.bind_some]
    cases A.beamUpdates ok fuel scale p.occ (scanQuality * quality i) ⟨robot, p.at_⟩ with
    | none => rfl
    | some us =>
      simp only [Option.bind_some, Option.bind_eq_bind]
      cases (List.mapM _ _ : Option (List (List (Coord × Aoo K)))) with
      | none => rfl
      | some vs => simp

theorem toSize_eq (v : K) (n : Nat) (h1 : (n : K) ≤ v) (h2 : v < n + 1) : toSize v = some n := by
  unfold toSize
  have h0 : (0 : K) ≤ (n : K) := Nat.cast_nonneg n
  rw [if_pos (by linarith)]
  have : ⌊v⌋ = (n : Int) := by
    rw [Int.floor_eq_iff]; push_cast; exact ⟨h1, h2⟩
  rw [this]; simp

theorem range'_eq_filter (n first last : Nat) (h : last < n) :
    List.range' first (last + 1 - first) = (List.range n).filter fun i => decide (first ≤ i ∧ i ≤ last) := by
  apply List.Pairwise.eq_of_mem_iff (r := (· < ·))
  · exact List.pairwise_lt_range' _
  · exact List.Pairwise.filter _ List.pairwise_lt_range
  · intro a
    simp only [List.mem_range'_1, List.mem_filter, List.mem_range, decide_eq_true_eq]
    omega

theorem zipIdx_filterMap (pts : List (WPoint K)) (g : WPoint K × Nat → Bool) (k : Nat → Bool)
    (hg : ∀ p i, g (p, i) = k i) :
    ((List.range pts.length).filter k).filterMap (fun i => (pts[i]?).map fun p => (p, i)) = pts.zipIdx.filter g := by
  have hz : pts.zipIdx = (List.range pts.length).filterMap (fun i => (pts[i]?).map fun p => (p, i)) := by
    have e : (List.range pts.length).filterMap (fun i => (pts[i]?).map fun p => (p, i)) =
        (List.range pts.length).map fun i => if h : i < pts.length then (pts[i], i) else (⟨⟨0, 0⟩, false⟩, i) := by
      rw [← List.filterMap_eq_map]
      apply List.filterMap_congr
      intro i hi
      rw [List.mem_range] at hi
      simp [hi]
    rw [e]
    apply List.ext_getElem?
    intro j
    rw [List.getElem?_zipIdx, List.getElem?_map]
    by_cases hj : j < pts.length
    · simp [hj]
    · simp [hj]
  rw [hz, List.filter_filterMap, List.filterMap_filter]
  apply List.filterMap_congr
  intro i hi
  rw [List.mem_range] at hi
  simp only [List.getElem?_eq_getElem hi, Option.map_some]
  rw [Option.filter_some, hg]

/-- C17 for an arbitrary margin: it is truncated to an integer at the beginning of the scan, while at the end the
position `n - margin - 1` is. -/
theorem scan_margin_general (A : Adder K) (ok : Int → Bool) (fuel : Nat) (scale : K) (robot : Point K)
    (quality : Nat → K) (scanQuality margin : K) (pts : List (WPoint K)) (hn : pts ≠ [])
    (h0 : 0 ≤ margin) (h1 : margin < pts.length) :
    A.appendScan ok fuel scale robot (fun i => some (quality i)) scanQuality margin pts =
      beamSequence A ok fuel scale robot
        ((pts.zipIdx.filter fun p => decide (⌊margin⌋₊ ≤ p.2 ∧ p.2 ≤ ⌊(pts.length : K) - margin - 1⌋₊)).map
          fun p => (p.1, scanQuality * quality p.2)) := by
  have hlen : 0 < pts.length := List.length_pos_iff.2 hn
  unfold Adder.appendScan
  rw [if_neg (by simpa using hn)]
  have e1 : toSize margin = some ⌊margin⌋₊ := by
    unfold toSize
    rw [if_pos (by linarith)]; rfl
  have e2 : toSize ((pts.length : K) - margin - 1) = some ⌊(pts.length : K) - margin - 1⌋₊ := by
    unfold toSize
    rw [if_pos (by linarith)]; rfl
  rw [e1, e2]
  simp only [Option.bind_some]
  have hlast : ⌊(pts.length : K) - margin - 1⌋₊ < pts.length := by
    rw [Nat.floor_lt' hlen.ne']
    linarith
  rw [range'_eq_filter pts.length _ _ hlast, insertAll_eq]
  · rw [← zipIdx_filterMap pts (fun p => decide (⌊margin⌋₊ ≤ p.2 ∧ p.2 ≤ ⌊(pts.length : K) - margin - 1⌋₊))
      (fun i => decide (⌊margin⌋₊ ≤ i ∧ i ≤ ⌊(pts.length : K) - margin - 1⌋₊)) (fun _ _ => rfl),
      List.map_filterMap]
    congr 1
    apply List.filterMap_congr
    intro i _
    cases pts[i]? <;> rfl
  · intro i hi
    exact List.mem_range.1 (List.mem_filter.1 hi).1

/-- C17: appending a scan of `n` points with an integer margin `m < n` inserts exactly the points of the indices
`m, …, n - 1 - m`, each once, in order, with the scan's quality times the point's quality. An empty scan has no
effect whatever the margin is. For a margin of at least `n` see
`scan_margin_too_wide_counterexample`. -/
theorem scan_margin (A : Adder K) (ok : Int → Bool) (fuel : Nat) (scale : K) (robot : Point K)
    (quality : Nat → K) (scanQuality : K) (m : Nat) (pts : List (WPoint K)) (h : pts = [] ∨ m < pts.length) :
    A.appendScan ok fuel scale robot (fun i => some (quality i)) scanQuality (m : K) pts =
      beamSequence A ok fuel scale robot
        ((pts.zipIdx.filter fun p => decide (m ≤ p.2 ∧ p.2 + m + 1 ≤ pts.length)).map
          fun p => (p.1, scanQuality * quality p.2)) := by
  rcases h with rfl | h
  · simp [Adder.appendScan, beamSequence]
  · have hne : pts ≠ [] := by rintro rfl; simp at h
    rw [scan_margin_general A ok fuel scale robot quality scanQuality (m : K) pts hne (Nat.cast_nonneg m)
      (by exact_mod_cast h)]
    have e : (pts.length : K) - m - 1 = ((pts.length - m - 1 : Nat) : K) := by
      rw [Nat.sub_sub, Nat.cast_sub (by omega)]; push_cast; ring
    rw [e, Nat.floor_natCast, Nat.floor_natCast]
    congr 2
    apply List.filter_congr
    intro p _
    congr 1
    apply propext
    omega

/-- C17 is false of the code for wide margins: when a scan that is not empty has at most as many points as the margin,
`append_scan` converts a negative number to an unsigned one, which is undefined (instead of doing nothing). -/
theorem scan_margin_too_wide_counterexample (A : Adder K) (ok : Int → Bool) (fuel : Nat) (scale : K)
    (robot : Point K) (quality : Nat → Option K) (scanQuality margin : K) (pts : List (WPoint K)) (hn : pts ≠ [])
    (h : (pts.length : K) ≤ margin) :
    A.appendScan ok fuel scale robot quality scanQuality margin pts = none := by
  unfold Adder.appendScan toSize
  rw [if_neg (by simpa using hn), if_neg (by linarith)]
  rfl

/-! ## Whole scans -/

/-- The beams of a sequence of points, of which every end is in the range of the integers. -/
def Reaches (M : Int) (scale : K) (fuel : Nat) (robot : Point K) (ps : List (WPoint K × K)) : Prop :=
  ∀ p ∈ ps, InRange M scale p.1.at_ ∧ fuelFor (worldToCell scale robot) (worldToCell scale p.1.at_) ≤ fuel

/-- C16, C17: inserting a sequence of beams succeeds and is the succession of the single insertions; a cell no beam
crosses keeps its value. -/
theorem beams_insertion (A : Adder K) (ok : Int → Bool) (M : Int) (hok : ∀ v, |v| ≤ 6 * M → ok v = true)
    (scale : K) (hs : 0 < scale) (robot : Point K) (fuel : Nat) (hrob : InRange M scale robot)
    (ps : List (WPoint K × K)) (hps : Reaches M scale fuel robot ps) :
    ∃ us, beamSequence A ok fuel scale robot ps = some us ∧
      ∀ {C : Type} (upd : C → Aoo K → C) (f : Coord → C),
        tell upd f us = ps.foldl (fun f p =>
          match A.beamUpdates ok fuel scale p.1.occ p.2 ⟨robot, p.1.at_⟩ with
          | some u => tell upd f u
          | none => f) f ∧
        ∀ c, (∀ p ∈ ps, ∀ cells, worldToCells ok (exactFP scale) fuel scale robot.x robot.y p.1.at_.x p.1.at_.y =
            some cells → c ∉ cells) → tell upd f us c = f c := by
  induction ps with
  | nil => exact ⟨[], rfl, fun upd f => ⟨rfl, fun _ _ => rfl⟩⟩
  | cons p ps ih =>
    obtain ⟨us, h1, h2⟩ := ih (fun q hq => hps q (by simp [hq]))
    obtain ⟨hr, hfu⟩ := hps p (by simp)
    obtain ⟨u, g1, g2, g3⟩ := beam_insertion A ok M hok scale hs p.1.occ p.2 ⟨robot, p.1.at_⟩ hrob hr fuel hfu
    refine ⟨u ++ us, ?_, fun upd f => ⟨?_, fun c hc => ?_⟩⟩
    · unfold beamSequence at h1 ⊢
      rw [List.mapM_cons, g1]
      simp only [Option.bind_eq_bind, Option.bind_some]
      obtain ⟨vs, e1, e2⟩ := Option.map_eq_some_iff.1 h1
      rw [e1]
      simp [← e2]
    · rw [tell_append, List.foldl_cons, g1, (h2 upd _).1]
    · rw [tell_append, (h2 upd _).2 c (fun q hq => hc q (by simp [hq]))]
      by_cases hlong : ∃ r, A.maxRange = some r ∧ r ^ 2 < (Beam.mk robot p.1.at_).lengthSq
      · rw [g2 hlong]; rfl
      · obtain ⟨cells, k1, -, -, k2⟩ := g3 (fun r hr => not_lt.1 fun h => hlong ⟨r, hr, h⟩)
        exact (k2 upd f).1 c (hc p (by simp) cells k1)

/-- C16, C17, in the auto-growing plain map: after any history, appending a scan leaves a map that reads, at every
coordinate, what the observations of the scan make of the former value. -/
theorem scan_into_plain_map {C : Type} (rate : Nat → ℚ) (upd : C → Aoo K → C) (w h : Nat) (proto : C)
    (ops : List (PlainMap.Op C (Aoo K))) (us : List (Coord × Aoo K)) :
    ∃ m m', PlainMap.runUnbounded rate upd (PlainMap.create w h proto) ops = some m ∧
      PlainMap.runUnbounded rate upd m (asOps us) = some m' ∧
      ∀ f : Coord → C, (∀ d, m.readUnbounded d = some (f d)) →
        ∀ d, m'.readUnbounded d = some (tell upd f us d) := by
  obtain ⟨m, h1, h2⟩ := PlainMap.unbounded_plain_map_refines rate upd w h proto ops
  obtain ⟨m', h3, h4⟩ := PlainMap.unbounded_plain_map_refines rate upd w h proto (ops ++ asOps us)
  refine ⟨m, m', h1, ?_, fun f hf d => ?_⟩
  · have hrun : ∀ (a b : List (PlainMap.Op C (Aoo K))) (m0 : PlainMap.PMap C),
        PlainMap.runUnbounded rate upd m0 (a ++ b) =
          (PlainMap.runUnbounded rate upd m0 a).bind fun m => PlainMap.runUnbounded rate upd m b := by
      intro a b
      induction a with
      | nil => intro m0; rfl
      | cons op a ih =>
        intro m0
        simp only [List.cons_append, PlainMap.runUnbounded]
        cases PlainMap.stepUnbounded rate upd m0 op with
        | none => rfl
        | some m1 => simp only [Option.bind_some]; exact ih m1
    rw [hrun, h1] at h3
    exact h3
  · rw [h4]
    have : f = PlainMap.specRun upd (fun _ => proto) ops := by
      funext e; have := hf e; rw [h2] at this; exact (Option.some.inj this).symm
    rw [this]
    unfold tell PlainMap.specRun
    rw [List.foldl_append]

/-- C16, C17, in the auto-growing lazily tiled map (tiles of `S × S` cells): the same. -/
theorem scan_into_lazy_map {C : Type} (S : Nat) (hS : 0 < S) (upd : C → Aoo K → C) (w h : Nat) (proto : C)
    (us : List (Coord × Aoo K)) :
    ∃ st, LazyMap.runL S upd LazyMap.emptySt
        (.create true w h proto :: us.map fun u => .update 0 u.1 u.2) = some st ∧
      ∀ d, LazyMap.readL S st 0 d = some (tell upd (fun _ => proto) us d) := by
  have hspec : ∀ (us : List (Coord × Aoo K)) (f : Coord → C),
      LazyMap.specRunL upd [some ⟨none, f⟩] (us.map fun u => .update 0 u.1 u.2) =
        some [some ⟨none, tell upd f us⟩] := by
    intro us
    induction us with
    | nil => intro f; rfl
    | cons u us ih =>
      intro f
      rw [List.map_cons, LazyMap.specRunL]
      have : LazyMap.specStepL upd [some ⟨none, f⟩] (.update 0 u.1 u.2) =
          some [some ⟨none, fun d => if d = u.1 then upd (f u.1) u.2 else f d⟩] := by
        simp [LazyMap.specStepL, LazyMap.AMap.Covers]
      rw [this, Option.bind_some, ih, specRun_cons]
  obtain ⟨st, h1, h2⟩ := LazyMap.lazy_maps_refine S hS upd
    (.create true w h proto :: us.map fun u => .update 0 u.1 u.2) [some ⟨none, tell upd (fun _ => proto) us⟩] (by
      rw [LazyMap.specRunL]
      simp only [LazyMap.specStepL, Option.bind_some, List.nil_append, if_true]
      exact hspec us _)
  exact ⟨st, h1, fun d => h2 0 _ rfl d trivial⟩

/-! ## Concrete cases -/

/-- `ConstOccupancyEstimator`, const_occupancy_estimator.h:11-15. -/
def constEstimate (occ empty : Occ K) (_ : Beam K) (_ : Bounds K) (isOcc : Bool) : Option (Occ K) :=
  some (if isOcc then occ else empty)

/-- An adder with a constant estimator, walls 2 metres wide. -/
def exampleAdder : Adder ℚ := ⟨constEstimate ⟨9 / 10, 1⟩ ⟨1 / 10, 1 / 2⟩, 2, some 100⟩

/-- A beam along a row: the end is occupied, one cell before it is in the blurred wall, the others are empty. -/
example : (exampleAdder.beamUpdates int32 100 1 true 1 ⟨⟨1 / 2, 1 / 2⟩, ⟨7 / 2, 1 / 2⟩⟩).map
      (List.map fun u => (u.1, u.2.isOcc, u.2.occ)) =
    some [(⟨3, 0⟩, true, some ⟨9 / 10, 1⟩), (⟨0, 0⟩, false, some ⟨1 / 10, 1 / 2⟩),
      (⟨1, 0⟩, false, some ⟨1 / 10, 1 / 2⟩), (⟨2, 0⟩, true, some ⟨27 / 40, 1 / 2⟩)] := by decide +kernel

/-- The hypotheses of `beam_insertion` hold for it. -/
example : (∀ v, |v| ≤ 6 * 300000000 → int32 v = true) ∧ (0 : ℚ) < 1 ∧
    InRange 300000000 (1 : ℚ) ⟨1 / 2, 1 / 2⟩ ∧ InRange 300000000 (1 : ℚ) ⟨7 / 2, 1 / 2⟩ ∧
    fuelFor (worldToCell (1 : ℚ) ⟨1 / 2, 1 / 2⟩) (worldToCell (1 : ℚ) ⟨7 / 2, 1 / 2⟩) ≤ 100 ∧
    (∀ r, exampleAdder.maxRange = some r → (Beam.mk (⟨1 / 2, 1 / 2⟩ : Point ℚ) ⟨7 / 2, 1 / 2⟩).lengthSq ≤ r ^ 2) := by
  refine ⟨fun v hv => by rw [abs_le] at hv; simp [int32]; omega, by norm_num, ?_, ?_, ?_, ?_⟩
  · unfold InRange; decide +kernel
  · unfold InRange; decide +kernel
  · decide +kernel
  · intro r hr
    simp only [exampleAdder, Option.some.injEq] at hr
    subst hr
    norm_num [Beam.lengthSq]

/-- A scan of four points with margin one: the inner two are inserted. -/
example : ((exampleAdder.appendScan int32 100 1 ⟨1 / 2, 1 / 2⟩ (fun _ => some 1) 1 1
      [⟨⟨7 / 2, 1 / 2⟩, true⟩, ⟨⟨1 / 2, 5 / 2⟩, true⟩, ⟨⟨-3 / 2, 1 / 2⟩, false⟩, ⟨⟨1 / 2, -9 / 2⟩, true⟩]).map
        (List.map Prod.fst)) =
    some [⟨0, 2⟩, ⟨0, 0⟩, ⟨0, 1⟩, ⟨-2, 0⟩, ⟨0, 0⟩, ⟨-1, 0⟩] := by decide +kernel

/-- A scan of one point with a margin of one. -/
example : exampleAdder.appendScan int32 100 1 ⟨1 / 2, 1 / 2⟩ (fun _ => some 1) 1 1
    [⟨⟨7 / 2, 1 / 2⟩, true⟩] = none :=
  scan_margin_too_wide_counterexample _ _ _ _ _ _ _ _ _ (by simp) (by simp)

end Slam.ScanAdder
