import Verif.GraphSlam.Model
import Verif.Pose.Props
import Verif.Whole.FixedProps

/-!
# C106: what the graph SLAM world does with a history of messages
-/

set_option autoImplicit false
set_option linter.unusedSectionVars false

namespace Slam.GraphSlam
open Slam.Grid Slam.Cells Slam.Poses Slam.Sensor Slam.Score Slam.ScanAdder Slam.Worlds Slam.Matcher Slam.Whole

variable {T : Type}

/-! ## Specification -/

/-- The motion reported with each message: the difference of its odometry pose to the one before, starting at the origin. -/
noncomputable def moves (odoms : List (Poses.Pose ℝ)) : List (Delta ℝ) := List.zipWith Poses.Pose.sub odoms (Poses.Pose.zero :: odoms)

/-- Less than half a metre along each axis and less than half a radian. -/
def Small (d : Delta ℝ) : Prop := |d.x| < 1 / 2 ∧ |d.y| < 1 / 2 ∧ |d.theta| < 1 / 2

/-- The (signed) motion reported with messages `k` to `j`. -/
noncomputable def stretch (ds : List (Delta ℝ)) (k j : Nat) : Delta ℝ := total ((ds.take (j + 1)).drop k)

/-- The messages, from the `k`-th on, at which the motion since the message after the previous one of them (at first: since the
`k`-th message) stops being small. -/
def NodeTimes (ds : List (Delta ℝ)) : Nat → List Nat → Prop
  | k, [] => ∀ j, k ≤ j → j < ds.length → Small (stretch ds k j)
  | k, i :: is => k ≤ i ∧ i < ds.length ∧ (∀ j, k ≤ j → j < i → Small (stretch ds k j)) ∧ ¬ Small (stretch ds k i) ∧
      NodeTimes ds (i + 1) is

/-- They are determined by the motions. -/
theorem node_times_unique (ds : List (Delta ℝ)) (is : List Nat) : ∀ (is' : List Nat) (k : Nat),
    NodeTimes ds k is → NodeTimes ds k is' → is = is' := by
  induction is with
  | nil =>
    intro is' k h h'
    cases is' with
    | nil => rfl
    | cons i is' =>
      obtain ⟨h1, h2, -, h4, -⟩ := h'
      exact absurd (h i h1 h2) h4
  | cons i is ih =>
    intro is' k h h'
    obtain ⟨h1, h2, h3, h4, h5⟩ := h
    cases is' with
    | nil => exact absurd (h' i h1 h2) h4
    | cons i' is' =>
      obtain ⟨g1, g2, g3, g4, g5⟩ := h'
      have e : i = i' := by
        rcases lt_trichotomy i i' with hlt | heq | hgt
        · exact absurd (g3 i h1 hlt) h4
        · exact heq
        · exact absurd (h3 i' g1 hgt) g4
      subst e
      rw [ih is' (i + 1) h5 g5]

/-- The observations the scan adder makes of a scan seen from `(x, y, theta)`, with cells of 0.1 and the quality 1. -/
def Observations (cfg : GraphCfg T) (x y theta : ℝ) (scan : List ScanPoint) (us : List (Coord × Aoo ℝ)) : Prop :=
  (scan = [] ∧ us = []) ∨ (scan ≠ [] ∧ ∃ h h' k, qualityOf scan h = some (h', k) ∧
    cfg.adder.appendScan cfg.ok cfg.fuel (1 / 10) ⟨x, y⟩ k 1 (cfg.margin : ℝ) (worldPoints ⟨x, y, theta⟩ scan) = some us)

/-- The cells of a map of 1000 by 1000 around the origin. -/
def InRaster (c : Coord) : Prop := -500 ≤ c.x ∧ c.x < 500 ∧ -500 ≤ c.y ∧ c.y < 500

/-- A cell that keeps what it was told last; it starts with occupancy and quality 0. -/
noncomputable def keptLast : List (Aoo ℝ) → BaseCell ℝ
  | [] => ⟨some ⟨0, 0⟩, true⟩
  | a :: as => ⟨((a :: as).getLast (by simp)).occ, false⟩

/-- The matcher looks at a map of 1000 by 1000 cells of 0.1 that shows the observations and nothing else. -/
structure ShowsLast (v : View (BaseCell ℝ)) (us : List (Coord × Aoo ℝ)) : Prop where
  scale : v.scale = 1 / 10
  has : ∀ c, v.hasCell c = true ↔ InRaster c
  inside : ∀ c, InRaster c → v.read c = some (keptLast (about c us))
  outside : ∀ c, ¬ InRaster c → v.read c = none

/-- What is known about a correction: the matcher's answer, called at the origin, on the scan before put into an empty map as seen
from the negated motion; for any state of matcher and adder. -/
def CorrectionOf (cfg : GraphCfg T) (before now : List ScanPoint) (motion c : Delta ℝ) : Prop :=
  ∃ us v w t w' t' q, Observations cfg (-motion.x) (-motion.y) (-motion.theta) before us ∧ ShowsLast v us ∧
    cfg.machine.process v w t now ⟨0, 0, 0⟩ = some (w', t', c, q)

/-! ## Lemmas -/

theorem observe_all (as : List (Aoo ℝ)) : as.foldl BaseCell.observe (BaseCell.create (some ⟨0, 0⟩)) = keptLast as := by
  have gen : ∀ (as : List (Aoo ℝ)) (a : Aoo ℝ) (c : BaseCell ℝ), (a :: as).foldl BaseCell.observe c = keptLast (a :: as) := by
    intro as
    induction as with
    | nil => intro a c; rfl
    | cons b as ih =>
      intro a c
      rw [List.foldl_cons, ih b]
      rfl
  cases as with
  | nil => rfl
  | cons a as => exact gen as a _

theorem raster_shows (cfg : GraphCfg T) {hist hist' : Option Hist} {motion : Delta ℝ} {before : List ScanPoint}
    {m : PlainMap.PMap (BaseCell ℝ)} (h : cfg.raster hist motion before = some (m, hist')) :
    ∃ us, Observations cfg (-motion.x) (-motion.y) (-motion.theta) before us ∧ ShowsLast (rasterView m) us := by
  unfold GraphCfg.raster at h
  rw [append_writes, Option.bind_eq_some_iff] at h
  obtain ⟨r, h1, h2⟩ := h
  rw [Option.map_eq_some_iff] at h2
  obtain ⟨m1, h2, e⟩ := h2
  have e1 : m1 = m := (Prod.mk.inj e).1
  subst e1
  have h3 : (boundedApi BaseCell.observe).tellAll (PlainMap.create 1000 1000 (BaseCell.create (some ⟨0, 0⟩))) r.1 = some m1 := h2
  obtain ⟨i1, i2⟩ := bounded_refuses BaseCell.observe 1000 1000 (BaseCell.create (some ⟨0, 0⟩)) r.1 h3
  obtain ⟨m', b1, b2, b3, b4, b5⟩ := bounded_holds BaseCell.observe 1000 1000 (BaseCell.create (some ⟨0, 0⟩)) r.1 i1
  rw [h3, Option.some.injEq] at b1
  subst b1
  have hin : ∀ c, Within 1000 1000 c ↔ InRaster c := by
    intro c
    unfold Within InRaster
    omega
  refine ⟨r.1, writes_inserted h1, rfl, fun c => ?_, fun c hc => ?_, fun c hc => ?_⟩
  · rw [← hin, ← within_iff]
    simp only [rasterView, b2, b3, b4]
  · rw [← observe_all]
    exact b5 c ((hin c).2 hc)
  · exact i2 c fun h => hc ((hin c).1 h)

theorem moves_snoc (l : List (Poses.Pose ℝ)) (x : Poses.Pose ℝ) :
    moves (l ++ [x]) = moves l ++ [x.sub (l.getLastD Poses.Pose.zero)] := by
  have gen : ∀ (l : List (Poses.Pose ℝ)) (a : Poses.Pose ℝ), List.zipWith Poses.Pose.sub (l ++ [x]) (a :: (l ++ [x])) =
      List.zipWith Poses.Pose.sub l (a :: l) ++ [x.sub (l.getLastD a)] := by
    intro l
    induction l with
    | nil => intro a; simp
    | cons b l ih =>
      intro a
      rw [List.cons_append, List.zipWith_cons_cons, ih b, List.zipWith_cons_cons, List.cons_append]
      cases l <;> simp [List.getLastD]
  exact gen l _

theorem moves_length (l : List (Poses.Pose ℝ)) : (moves l).length = l.length := by simp [moves]

theorem total_snoc (ds : List (Delta ℝ)) (d : Delta ℝ) : total (ds ++ [d]) = (total ds).add d := by
  simp [total, Poses.Pose.add]

theorem stretch_old (ds : List (Delta ℝ)) (d : Delta ℝ) (k j : Nat) (h : j < ds.length) : stretch (ds ++ [d]) k j = stretch ds k j := by
  unfold stretch
  rw [List.take_append_of_le_length (by omega)]

theorem stretch_new (ds : List (Delta ℝ)) (d : Delta ℝ) (k : Nat) (h : k ≤ ds.length) :
    stretch (ds ++ [d]) k ds.length = (total (ds.drop k)).add d := by
  unfold stretch
  rw [List.take_of_length_le (by simp), List.drop_append_of_le_length h, total_snoc]

/-- Where the motion not yet used up begins. -/
def since : Nat → List Nat → Nat
  | k, [] => k
  | _, i :: is => since (i + 1) is

theorem since_snoc (is : List Nat) (i : Nat) : ∀ k, since k (is ++ [i]) = i + 1 := by
  induction is with
  | nil => intro k; rfl
  | cons a is ih => intro k; exact ih _

theorem since_le (ds : List (Delta ℝ)) (is : List Nat) : ∀ k, k ≤ ds.length → NodeTimes ds k is → since k is ≤ ds.length := by
  induction is with
  | nil => intro k hk _; exact hk
  | cons i is ih =>
    intro k hk h
    exact ih (i + 1) h.2.1 h.2.2.2.2

theorem node_times_old (ds : List (Delta ℝ)) (d : Delta ℝ) (is : List Nat) : ∀ k, k ≤ ds.length → NodeTimes ds k is →
    Small ((total (ds.drop (since k is))).add d) → NodeTimes (ds ++ [d]) k is := by
  induction is with
  | nil =>
    intro k hk h hs j h1 h2
    rw [List.length_append, List.length_singleton] at h2
    rcases Nat.lt_succ_iff_lt_or_eq.1 h2 with h2 | h2
    · rw [stretch_old _ _ _ _ h2]
      exact h j h1 h2
    · rw [h2, stretch_new _ _ _ hk]
      exact hs
  | cons i is ih =>
    rintro k hk ⟨h1, h2, h3, h4, h5⟩ hs
    refine ⟨h1, by rw [List.length_append]; omega, fun j j1 j2 => ?_, ?_, ih (i + 1) h2 h5 hs⟩
    · rw [stretch_old _ _ _ _ (by omega)]
      exact h3 j j1 j2
    · rw [stretch_old _ _ _ _ h2]
      exact h4

theorem node_times_new (ds : List (Delta ℝ)) (d : Delta ℝ) (is : List Nat) : ∀ k, k ≤ ds.length → NodeTimes ds k is →
    ¬ Small ((total (ds.drop (since k is))).add d) → NodeTimes (ds ++ [d]) k (is ++ [ds.length]) := by
  induction is with
  | nil =>
    intro k hk h hs
    refine ⟨hk, by simp, fun j j1 j2 => ?_, ?_, fun j j1 j2 => ?_⟩
    · rw [stretch_old _ _ _ _ j2]
      exact h j j1 j2
    · rw [stretch_new _ _ _ hk]
      exact hs
    · simp at j2
      omega
  | cons i is ih =>
    rintro k hk ⟨h1, h2, h3, h4, h5⟩ hs
    refine ⟨h1, by rw [List.length_append]; omega, fun j j1 j2 => ?_, ?_, ih (i + 1) h2 h5 hs⟩
    · rw [stretch_old _ _ _ _ (by omega)]
      exact h3 j j1 j2
    · rw [stretch_old _ _ _ _ h2]
      exact h4

theorem node_times_lt (ds : List (Delta ℝ)) (is : List Nat) : ∀ k, NodeTimes ds k is → ∀ i ∈ is, i < ds.length := by
  induction is with
  | nil => intro k _ i hi; simp at hi
  | cons a is ih =>
    rintro k ⟨-, h2, -, -, h5⟩ i hi
    rcases List.mem_cons.1 hi with rfl | hi
    · exact h2
    · exact ih _ h5 i hi

theorem oracle_small (acc d : Delta ℝ) : (Small (acc.add d) → oracle ⟨1 / 2, 1 / 2, 1 / 2⟩ acc d = (acc.add d, false)) ∧
    (¬ Small (acc.add d) → oracle ⟨1 / 2, 1 / 2, 1 / 2⟩ acc d = (Poses.Pose.zero, true)) := by
  have e : (acc.add d).isAbsLess ⟨1 / 2, 1 / 2, 1 / 2⟩ = true ↔ Small (acc.add d) := by
    rw [is_abs_less_iff, Small]
    simp only [abs_of_pos (show (0 : ℝ) < 1 / 2 by norm_num)]
  constructor
  · intro h
    simp only [oracle]
    rw [if_pos (e.2 h)]
  · intro h
    simp only [oracle]
    rw [if_neg (fun h' => h (e.1 h'))]

theorem run_snoc (cfg : GraphCfg T) (s : GraphSt T) (ds : List (Poses.Pose ℝ × Msg ℝ)) (d : Poses.Pose ℝ × Msg ℝ) :
    s.run cfg (ds ++ [d]) = (s.run cfg ds).bind fun s => s.handle cfg d := by
  induction ds generalizing s with
  | nil =>
    simp only [List.nil_append, GraphSt.run, Option.bind_some]
    cases s.handle cfg d <;> rfl
  | cons a ds ih =>
    simp only [List.cons_append, GraphSt.run]
    cases s.handle cfg a with
    | none => rfl
    | some s1 => exact ih s1

/-- What holds after a history. -/
structure Upheld (cfg : GraphCfg T) (ds : List (Poses.Pose ℝ × Msg ℝ)) (s : GraphSt T) (scans : List (List ScanPoint))
    (cs : List (Delta ℝ)) (nodes : List Nat) : Prop where
  scansLen : scans.length = ds.length
  csLen : cs.length = ds.length
  scan : ∀ (i : Nat) (d : Poses.Pose ℝ × Msg ℝ), ds[i]? = some d → ∃ scan, scans[i]? = some scan ∧ ScanOf cfg.slam d.2 scan
  first : ∀ c, cs[0]? = some c → c = Poses.Pose.zero
  later : ∀ i c, cs[i + 1]? = some c → ∃ before now motion, scans[i]? = some before ∧ scans[i + 1]? = some now ∧
    (moves (ds.map Prod.fst))[i + 1]? = some motion ∧ CorrectionOf cfg before now motion c
  times : NodeTimes (moves (ds.map Prod.fst)) 0 nodes
  chain : IsChain s.graph (nodes.map fun i => (total ((moves (ds.map Prod.fst)).take (i + 1))).add (total (cs.take (i + 1))))
  pose : s.pose = (total (moves (ds.map Prod.fst))).add (total cs)
  odom : s.odom = (ds.map Prod.fst).getLastD Poses.Pose.zero
  acc : s.acc = total ((moves (ds.map Prod.fst)).drop (since 0 nodes))
  last : s.last = scans.getLast?

theorem inv_start (cfg : GraphCfg T) (hist : Option Hist) (w : Spw) (t : T) :
    Upheld cfg [] (GraphSt.start hist w t) [] [] [] where
  scansLen := rfl
  csLen := rfl
  scan i d h := by simp at h
  first c h := by simp at h
  later i c h := by simp at h
  times := by intro j _ h; simp [moves] at h
  chain := chain_empty
  pose := by simp [GraphSt.start, moves, total, Poses.Pose.add, Poses.Pose.zero]
  odom := rfl
  acc := by simp [GraphSt.start, moves, total, Poses.Pose.zero]
  last := rfl

theorem getElem?_snoc {α : Type*} (l : List α) (a : α) (i : Nat) (x : α) (h : (l ++ [a])[i]? = some x) :
    (l[i]? = some x ∧ i < l.length) ∨ (i = l.length ∧ x = a) := by
  rcases Nat.lt_or_ge i l.length with h' | h'
  · rw [List.getElem?_append_left h'] at h
    exact .inl ⟨h, h'⟩
  · rw [List.getElem?_append_right h'] at h
    have : i - l.length = 0 := by
      by_contra hne
      rw [List.getElem?_eq_none (by simp; omega)] at h
      cases h
    rw [this] at h
    simp at h
    exact .inr ⟨by omega, h.symm⟩

theorem inv_handle (cfg : GraphCfg T) {ds : List (Poses.Pose ℝ × Msg ℝ)} {s s1 : GraphSt T} {scans : List (List ScanPoint)}
    {cs : List (Delta ℝ)} {nodes : List Nat} (hi : Upheld cfg ds s scans cs nodes) (d : Poses.Pose ℝ × Msg ℝ)
    (h : s.handle cfg d = some s1) : ∃ scan c nodes', Upheld cfg (ds ++ [d]) s1 (scans ++ [scan]) (cs ++ [c]) nodes' := by
  simp only [GraphSt.handle, Option.bind_eq_some_iff, Option.map_eq_some_iff] at h
  obtain ⟨pts, e1, scan, e2, r, e3, g, e4, rfl⟩ := h
  set m := d.1.sub s.odom with hm
  have hmoves : moves ((ds ++ [d]).map Prod.fst) = moves (ds.map Prod.fst) ++ [m] := by
    rw [List.map_append, List.map_singleton, moves_snoc, ← hi.odom]
  have hlen : (moves (ds.map Prod.fst)).length = ds.length := by rw [moves_length, List.length_map]
  have hk : since 0 nodes ≤ (moves (ds.map Prod.fst)).length := since_le _ _ 0 (Nat.zero_le _) hi.times
  have hpose : (s.pose.add m).add r.1 = (total (moves ((ds ++ [d]).map Prod.fst))).add (total (cs ++ [r.1])) := by
    rw [hmoves, total_snoc, total_snoc, hi.pose]
    ext <;> simp [Poses.Pose.add] <;> ring
  have hold : ∀ i ∈ nodes, (total ((moves ((ds ++ [d]).map Prod.fst)).take (i + 1))).add (total ((cs ++ [r.1]).take (i + 1))) =
      (total ((moves (ds.map Prod.fst)).take (i + 1))).add (total (cs.take (i + 1))) := by
    intro i hin
    have := node_times_lt _ _ _ hi.times i hin
    rw [hmoves, List.take_append_of_le_length (by omega), List.take_append_of_le_length (by rw [hi.csLen]; omega)]
  have hchain : IsChain s.graph (nodes.map fun i => (total ((moves ((ds ++ [d]).map Prod.fst)).take (i + 1))).add
      (total ((cs ++ [r.1]).take (i + 1)))) := by
    have := hi.chain
    rw [← List.map_congr_left hold] at this
    exact this
  have hscan : ∀ (i : Nat) (d' : Poses.Pose ℝ × Msg ℝ), (ds ++ [d])[i]? = some d' → ∃ sc, (scans ++ [scan])[i]? = some sc ∧ ScanOf cfg.slam d'.2 sc := by
    intro i d' hd'
    rcases getElem?_snoc _ _ _ _ hd' with ⟨h1, h2⟩ | ⟨rfl, rfl⟩
    · obtain ⟨sc, k1, k2⟩ := hi.scan i d' h1
      exact ⟨sc, by rw [List.getElem?_append_left (by rw [hi.scansLen]; exact h2)]; exact k1, k2⟩
    · exact ⟨scan, by rw [← hi.scansLen]; simp, pts, e1, e2⟩
  have hfirst : ∀ c, (cs ++ [r.1])[0]? = some c → c = Poses.Pose.zero := by
    intro c hc
    rcases getElem?_snoc _ _ _ _ hc with ⟨h1, -⟩ | ⟨h1, rfl⟩
    · exact hi.first c h1
    · have : scans = [] := List.length_eq_zero_iff.1 (by rw [hi.scansLen, ← hi.csLen, ← h1])
      have hl := hi.last
      rw [this] at hl
      simp only [GraphCfg.refine, hl, List.getLast?_nil, Option.some.injEq] at e3
      rw [← e3]
  have hlater : ∀ i c, (cs ++ [r.1])[i + 1]? = some c → ∃ before now motion, (scans ++ [scan])[i]? = some before ∧
      (scans ++ [scan])[i + 1]? = some now ∧ (moves ((ds ++ [d]).map Prod.fst))[i + 1]? = some motion ∧
      CorrectionOf cfg before now motion c := by
    intro i c hc
    rcases getElem?_snoc _ _ _ _ hc with ⟨h1, h2⟩ | ⟨h1, rfl⟩
    · obtain ⟨b, n, mo, k1, k2, k3, k4⟩ := hi.later i c h1
      have hl : i + 1 < ds.length := by rw [← hi.csLen]; exact h2
      refine ⟨b, n, mo, ?_, ?_, ?_, k4⟩
      · rw [List.getElem?_append_left (by rw [hi.scansLen]; omega)]; exact k1
      · rw [List.getElem?_append_left (by rw [hi.scansLen]; omega)]; exact k2
      · rw [hmoves, List.getElem?_append_left (by omega)]; exact k3
    · rw [hi.csLen] at h1
      have hl := hi.last
      have hsl := hi.scansLen
      rw [List.getLast?_eq_getElem?, hsl, ← h1, Nat.add_sub_cancel] at hl
      have hlt : i < scans.length := by omega
      rw [List.getElem?_eq_getElem hlt] at hl
      simp only [GraphCfg.refine, hl, GraphCfg.estimate, Option.bind_eq_some_iff, Option.map_eq_some_iff] at e3
      obtain ⟨⟨mm, hh⟩, a1, ⟨w', t', c', q⟩, a2, rfl⟩ := e3
      obtain ⟨us, o1, o2⟩ := raster_shows cfg a1
      refine ⟨scans[i], scan, m, ?_, ?_, ?_, us, _, s.weights, s.state, w', t', q, o1, o2, a2⟩
      · rw [List.getElem?_append_left hlt, List.getElem?_eq_getElem hlt]
      · rw [h1, ← hsl]; simp
      · rw [hmoves, h1, ← hlen]; simp
  have hodom : d.1 = ((ds ++ [d]).map Prod.fst).getLastD Poses.Pose.zero := by simp
  have hlast : some scan = (scans ++ [scan]).getLast? := by simp
  change (if (oracle ⟨1 / 2, 1 / 2, 1 / 2⟩ s.acc m).2 = true then s.graph.addNode ((s.pose.add m).add r.1) else some s.graph) = some g
    at e4
  change ∃ scan' c nodes', Upheld cfg (ds ++ [d]) ⟨d.1, (s.pose.add m).add r.1, some scan, (oracle ⟨1 / 2, 1 / 2, 1 / 2⟩ s.acc m).1, g,
    r.2.1, r.2.2.1, r.2.2.2⟩ (scans ++ [scan']) (cs ++ [c]) nodes'
  by_cases hs : Small (s.acc.add m)
  · rw [(oracle_small _ _).1 hs] at e4 ⊢
    simp only [Bool.false_eq_true, if_false, Option.some.injEq] at e4
    subst e4
    refine ⟨scan, r.1, nodes, by simp [hi.scansLen], by simp [hi.csLen], hscan, hfirst, hlater, ?_, hchain, hpose, hodom, ?_, hlast⟩
    · rw [hmoves]
      refine node_times_old _ _ _ 0 (Nat.zero_le _) hi.times ?_
      rw [← hi.acc]
      exact hs
    · rw [hmoves, List.drop_append_of_le_length hk, total_snoc, ← hi.acc]
  · rw [(oracle_small _ _).2 hs] at e4 ⊢
    simp only [if_true] at e4
    obtain ⟨g', k1, k2⟩ := chain_addNode s.graph _ hchain ((s.pose.add m).add r.1)
    rw [e4, Option.some.injEq] at k1
    subst k1
    refine ⟨scan, r.1, nodes ++ [ds.length], by simp [hi.scansLen], by simp [hi.csLen], hscan, hfirst, hlater, ?_, ?_, hpose, hodom,
      ?_, hlast⟩
    · rw [hmoves, ← hlen]
      refine node_times_new _ _ _ 0 (Nat.zero_le _) hi.times ?_
      rw [← hi.acc]
      exact hs
    · rw [List.map_append, List.map_singleton]
      have : (total ((moves ((ds ++ [d]).map Prod.fst)).take (ds.length + 1))).add (total ((cs ++ [r.1]).take (ds.length + 1))) =
          (s.pose.add m).add r.1 := by
        rw [hpose, List.take_of_length_le (by rw [hmoves]; simp [hlen]), List.take_of_length_le (by simp [hi.csLen])]
      rw [this]
      exact k2
    · rw [since_snoc, hmoves, List.drop_of_length_le (by simp [hlen])]
      rfl

/-! ## Theorems -/

/-- **C106: every history of the graph SLAM.** Whatever messages have been handled: one scan and one correction belong to each of
them; the first scan is not matched, every other correction is the matcher's answer for this scan, the one before, and the odometry
between them; the pose is the sum of all motions and corrections; nodes are created exactly at the messages at which the odometry
since the previous node stops being small, whatever the corrections; and the graph is the chain of the poses, after refinement, at
these messages. -/
theorem graph_slam_history (cfg : GraphCfg T) (hist : Option Hist) (w : Spw) (t : T) (ds : List (Poses.Pose ℝ × Msg ℝ))
    (s : GraphSt T) (h : (GraphSt.start hist w t).run cfg ds = some s) :
    ∃ (scans : List (List ScanPoint)) (cs : List (Delta ℝ)) (nodes : List Nat),
      scans.length = ds.length ∧ cs.length = ds.length ∧
      (∀ (i : Nat) (d : Poses.Pose ℝ × Msg ℝ), ds[i]? = some d → ∃ scan, scans[i]? = some scan ∧ ScanOf cfg.slam d.2 scan) ∧
      (∀ c, cs[0]? = some c → c = ⟨0, 0, 0⟩) ∧
      (∀ i c, cs[i + 1]? = some c → ∃ before now motion, scans[i]? = some before ∧ scans[i + 1]? = some now ∧
        (moves (ds.map Prod.fst))[i + 1]? = some motion ∧ CorrectionOf cfg before now motion c) ∧
      s.pose = (total (moves (ds.map Prod.fst))).add (total cs) ∧
      NodeTimes (moves (ds.map Prod.fst)) 0 nodes ∧
      IsChain s.graph (nodes.map fun i => (total ((moves (ds.map Prod.fst)).take (i + 1))).add (total (cs.take (i + 1)))) := by
  have key : ∀ (ds : List (Poses.Pose ℝ × Msg ℝ)) (s : GraphSt T), (GraphSt.start hist w t).run cfg ds = some s →
      ∃ scans cs nodes, Upheld cfg ds s scans cs nodes := by
    intro ds
    induction ds using List.reverseRecOn with
    | nil =>
      intro s h
      simp only [GraphSt.run, Option.some.injEq] at h
      subst h
      exact ⟨[], [], [], inv_start cfg hist w t⟩
    | append_singleton ds d ih =>
      intro s h
      rw [run_snoc, Option.bind_eq_some_iff] at h
      obtain ⟨s0, h0, h1⟩ := h
      obtain ⟨scans, cs, nodes, hi⟩ := ih s0 h0
      obtain ⟨scan, c, nodes', hi'⟩ := inv_handle cfg hi d h1
      exact ⟨_, _, _, hi'⟩
  obtain ⟨scans, cs, nodes, hi⟩ := key ds s h
  exact ⟨scans, cs, nodes, hi.scansLen, hi.csLen, hi.scan, hi.first, hi.later, hi.pose, hi.times, hi.chain⟩

/-- The motions add up to the last odometry pose. -/
theorem moves_total (odoms : List (Poses.Pose ℝ)) : total (moves odoms) = odoms.getLastD ⟨0, 0, 0⟩ := by
  induction odoms using List.reverseRecOn with
  | nil => simp [moves, total]
  | append_singleton l x ih =>
    rw [moves_snoc, total_snoc, ih]
    ext <;> simp [Poses.Pose.add, Poses.Pose.sub, Poses.Pose.zero]

end Slam.GraphSlam
