import Verif.Nodes.Model
import Verif.Dump.Props
import Verif.Pose.Props
import Mathlib.Tactic.Linarith

/-!
# Views of maps and graphs (C70, C71)
-/

set_option autoImplicit false
set_option linter.unusedSectionVars false

namespace Slam.Nodes

open Slam.Grid Slam.Dump Slam.Poses

section Console

variable {K : Type*} [Field K] [LinearOrder K] [IsStrictOrderedRing K] [FloorRing K]

/-- Specification: the text of `rows` lines of `cols` characters each, every line ended by a newline; `ch r c` is the
character of line `r` (from the top) at column `c` (from the left). -/
def textOf (rows cols : Nat) (ch : Nat → Nat → Char) : List Char :=
  (List.range rows).flatMap fun (r : Nat) => ((List.range cols).map fun (c : Nat) => ch r c) ++ ['\n']

/-- Specification: what a character says of a cell, which is the centre of the view or not. -/
def Depicts (ch : Char) (isCenter : Prop) (occ : K) : Prop :=
  (ch = 'C' ↔ isCenter) ∧ (ch = '#' ↔ ¬ isCenter ∧ 3 / 4 < occ) ∧ (ch = '.' ↔ ¬ isCenter ∧ occ < 1 / 4) ∧
    (ch = '~' ↔ ¬ isCenter ∧ 1 / 4 ≤ occ ∧ occ ≤ 3 / 4)

theorem symbol_depicts (center coord : Coord) (occ : K) :
    Depicts (symbol center coord occ) (coord = center) occ := by
  have h14 : (1 : K) / 4 < 3 / 4 := by
    rw [div_lt_div_iff_of_pos_right (by norm_num)]; norm_num
  unfold symbol Depicts
  generalize (1 : K) / 4 = a at h14 ⊢
  generalize (3 : K) / 4 = b at h14 ⊢
  by_cases h : center = coord
  · rw [if_pos h]; simp [h]
  · have h' : coord ≠ center := fun e => h e.symm
    rw [if_neg h]
    by_cases h1 : b < occ
    · rw [if_pos h1]
      have : ¬ occ < a := not_lt.2 (le_trans h14.le h1.le)
      simp [h', h1, this]
    · rw [if_neg h1]
      by_cases h2 : occ < a
      · rw [if_pos h2]; simp [h', h1, h2]
      · rw [if_neg h2]; simp [h', h1, h2, not_lt.1 h1, not_lt.1 h2]

/-- **The console view (C70)**: for every map, centre and window whose four extents are not negative, the text has
one line per row of cells and one character per column: `⌊up⌋ + 1 + ⌊down⌋` lines of `⌊left⌋ + 1 + ⌊right⌋` characters
(in cells). Line `r`, column `c` depicts the cell `r` rows below the top and `c` columns right of the left side, the
cell of the centre being `⌊up⌋` rows below and `⌊left⌋` columns right. -/
theorem console_view (scale : K) (hs : 0 < scale) (occ : Coord → K) (cx cy dxLeft dxRight dyUp dyDown : K)
    (h1 : 0 ≤ dxLeft) (h2 : 0 ≤ dxRight) (h3 : 0 ≤ dyUp) (h4 : 0 ≤ dyDown) :
    ∃ (left right above below : Nat) (ch : Nat → Nat → Char),
      (left : Int) = ⌊dxLeft / scale⌋ ∧ (right : Int) = ⌊dxRight / scale⌋ ∧
      (above : Int) = ⌊dyUp / scale⌋ ∧ (below : Int) = ⌊dyDown / scale⌋ ∧
      showMap scale occ cx cy dxLeft dxRight dyUp dyDown = textOf (above + 1 + below) (left + 1 + right) ch ∧
      ∀ r c : Nat, Depicts (ch r c) (r = above ∧ c = left)
        (occ ⟨⌊cx / scale⌋ - left + c, ⌊cy / scale⌋ + above - r⟩) := by
  obtain ⟨left, hl⟩ := Int.eq_ofNat_of_zero_le (Int.floor_nonneg.2 (div_nonneg h1 hs.le))
  obtain ⟨right, hr⟩ := Int.eq_ofNat_of_zero_le (Int.floor_nonneg.2 (div_nonneg h2 hs.le))
  obtain ⟨above, ha⟩ := Int.eq_ofNat_of_zero_le (Int.floor_nonneg.2 (div_nonneg h3 hs.le))
  obtain ⟨below, hb⟩ := Int.eq_ofNat_of_zero_le (Int.floor_nonneg.2 (div_nonneg h4 hs.le))
  refine ⟨left, right, above, below, fun r c =>
    symbol ⟨⌊cx / scale⌋, ⌊cy / scale⌋⟩ ⟨⌊cx / scale⌋ - left + c, ⌊cy / scale⌋ + above - r⟩
      (occ ⟨⌊cx / scale⌋ - left + c, ⌊cy / scale⌋ + above - r⟩), hl.symm, hr.symm, ha.symm, hb.symm, ?_, ?_⟩
  · unfold showMap textOf worldToCell upTo
    simp only [hl, hr, ha, hb]
    have e1 : ((above : Nat) : Int) = (-(below : Int)) + ((above + 1 + below : Nat) : Int) - 1 := by push_cast; omega
    have e2 : (right : Int) + 1 = (-(left : Int)) + ((left + 1 + right : Nat) : Int) := by push_cast; omega
    have d : down (above : Int) (-(below : Int)) =
        (List.range (above + 1 + below)).map fun (i : Nat) => (above : Int) - (i : Int) := by
      conv_lhs => rw [e1]
      rw [down_eq]
      apply List.map_congr_left
      intro i _
      push_cast; omega
    rw [d, e2, up_eq, List.flatMap_map]
    congr 1
    funext r
    rw [List.map_map]
    congr 1
    apply List.map_congr_left
    intro c _
    simp only [Function.comp_apply]
    have ex : ⌊cx / scale⌋ + (-(left : Int) + (c : Int)) = ⌊cx / scale⌋ - left + c := by omega
    have ey : ⌊cy / scale⌋ + ((above : Int) - (r : Int)) = ⌊cy / scale⌋ + above - r := by omega
    rw [ex, ey]
  · intro r c
    have := symbol_depicts ⟨⌊cx / scale⌋, ⌊cy / scale⌋⟩ ⟨⌊cx / scale⌋ - left + c, ⌊cy / scale⌋ + above - r⟩
      (occ ⟨⌊cx / scale⌋ - left + c, ⌊cy / scale⌋ + above - r⟩)
    have e : ((⟨⌊cx / scale⌋ - left + c, ⌊cy / scale⌋ + above - r⟩ : Coord) = ⟨⌊cx / scale⌋, ⌊cy / scale⌋⟩) ↔
        (r = above ∧ c = left) := by
      rw [Coord.mk.injEq]; omega
    unfold Depicts at this ⊢
    rw [e] at this
    exact this

/-- A window of 3 rows and 4 columns. -/
example : (showMap (1 / 2 : ℚ) (fun c => if c.x = 3 then 1 else if c.y = 5 then 1 / 2 else 0)
    (11 / 10) (21 / 10) (1 / 2) 1 (7 / 10) (1 / 2)) =
    ['~', '~', '#', '~', '\n', '.', 'C', '#', '.', '\n', '.', '.', '#', '.', '\n'] := by
  have f1 : ⌊(11 / 10 : ℚ) / (1 / 2)⌋ = 2 := by norm_num [Int.floor_eq_iff]
  have f2 : ⌊(21 / 10 : ℚ) / (1 / 2)⌋ = 4 := by norm_num [Int.floor_eq_iff]
  have f3 : ⌊(1 / 2 : ℚ) / (1 / 2)⌋ = 1 := by norm_num [Int.floor_eq_iff]
  have f4 : ⌊(1 : ℚ) / (1 / 2)⌋ = 2 := by norm_num [Int.floor_eq_iff]
  have f5 : ⌊(7 / 10 : ℚ) / (1 / 2)⌋ = 1 := by norm_num [Int.floor_eq_iff]
  have s1 : ∀ a b : Coord, symbol a b (1 : ℚ) = if a = b then 'C' else '#' := by
    intro a b; unfold symbol; norm_num
  have s2 : ∀ a b : Coord, symbol a b (1 / 2 : ℚ) = if a = b then 'C' else '~' := by
    intro a b; unfold symbol; norm_num
  have s3 : ∀ a b : Coord, symbol a b (0 : ℚ) = if a = b then 'C' else '.' := by
    intro a b; unfold symbol; norm_num
  simp only [showMap, worldToCell, f1, f2, f3, f4, f5, upTo]
  have d : down 1 (-1) = [1, 0, -1] := by simp [down]
  have u : up (-1) (2 + 1) = [-1, 0, 1, 2] := by simp [up]
  rw [d, u]
  simp [s1, s3, -one_div, s2]

end Console

/-! ## C71: graph viewer -/

section Viewer

variable {K : Type*} [Field K] [LinearOrder K] [IsStrictOrderedRing K]

/-- Specification: a point on the plane of the map. -/
def AtPose (p : Pose K) (pt : Pt K) : Prop := pt.x = p.x ∧ pt.y = p.y ∧ pt.z = 0

/-- Specification: the segments of a polyline, each as two successive points, from the later to the earlier one. -/
def chainSegments : List (Pt K) → List (Pt K)
  | a :: b :: rest => b :: a :: chainSegments (b :: rest)
  | _ => []

theorem mapM_index {α β : Type*} (f : α → Option β) (s : Nat → β) :
    ∀ (l : List α) (k : Nat), (∀ i a, l[i]? = some a → f a = some (s (k + i))) →
      l.mapM f = some ((List.range l.length).map fun (i : Nat) => s (k + i)) := by
  intro l
  induction l with
  | nil => intro k _; rfl
  | cons a l ih =>
    intro k h
    rw [List.mapM_cons, h 0 a rfl, ih (k + 1) (fun i b hb => by
      have := h (i + 1) b (by simpa using hb)
      rw [this]; congr 2; omega)]
    simp only [List.length_cons, List.range_succ_eq_map, List.map_cons, List.map_map]
    change some _ = some _
    congr 2
    apply List.map_congr_left
    intro i _
    simp only [Function.comp_apply]
    congr 1; omega

theorem chainSegments_eq (d : Pt K) (l : List (Pt K)) :
    chainSegments l = (List.range (l.length - 1)).flatMap fun (i : Nat) => [l.getD (i + 1) d, l.getD i d] := by
  induction l with
  | nil => rfl
  | cons a l ih =>
    cases l with
    | nil => rfl
    | cons b l =>
      have e : (a :: b :: l).length - 1 = ((b :: l).length - 1) + 1 := by simp
      rw [chainSegments, ih, e, List.range_succ_eq_map, List.flatMap_cons, List.flatMap_map]
      rfl

/-- The points of the edges of a chain. -/
theorem edgePoints_chain (g : Graph K) (ps : List (Pose K)) (h : Slam.Poses.IsChain g ps) :
    edgePoints g = some (chainSegments (ps.map make2D)) := by
  have hnode : ∀ (i : Nat) (p : Pose K), ps[i]? = some p → ∃ n : Node K, g.nodes[i]? = some n ∧ n.pose = p := by
    intro i p hp
    rw [← h.nodes, List.getElem?_map] at hp
    cases hn : g.nodes[i]? with
    | none => rw [hn] at hp; cases hp
    | some n => rw [hn] at hp; exact ⟨n, rfl, by simpa using hp⟩
  let d : Pt K := ⟨0, 0, 0⟩
  let l := ps.map make2D
  unfold edgePoints
  rw [mapM_index _ (fun (i : Nat) => [l.getD (i + 1) d, l.getD i d]) g.edges 0]
  · rw [h.edges_length, chainSegments_eq d]
    simp [l, List.flatMap, Option.map]
  · intro i e he
    have hi : i < ps.length - 1 := by
      rw [← h.edges_length]; exact (List.getElem?_eq_some_iff.1 he).1
    have hp : ps[i]? = some ps[i] := List.getElem?_eq_getElem (by omega)
    have hq : ps[i + 1]? = some ps[i + 1] := List.getElem?_eq_getElem (by omega)
    obtain ⟨e', he', hs, ht, _⟩ := h.edge i _ _ hp hq
    rw [he] at he'
    obtain rfl : e = e' := by simpa using he'
    obtain ⟨n, hn, hnp⟩ := hnode _ _ hp
    obtain ⟨m, hm, hmp⟩ := hnode _ _ hq
    rw [hs, ht, hn, hm]
    have g1 : l.getD i d = make2D n.pose := by
      simp only [l, List.getD_eq_getElem?_getD, List.getElem?_map, hp, hnp]; rfl
    have g2 : l.getD (i + 1) d = make2D m.pose := by
      simp only [l, List.getD_eq_getElem?_getD, List.getElem?_map, hq, hmp]; rfl
    simp only [Nat.zero_add, g1, g2]
    rfl

/-- The viewer over a history: before each update a list of poses was added to the graph. -/
def viewRun : Graph K → Viewer K → List (List (Pose K) × K × K) → Option (Graph K × Viewer K)
  | g, v, [] => some (g, v)
  | g, v, (ps, checked, stored) :: rest =>
    (g.build ps).bind fun g' => (v.onMapUpdate g' checked stored).bind fun v' => viewRun g' v' rest

/-- Specification: the poses added up to each update, in order. -/
def histories : List (Pose K) → List (List (Pose K) × K × K) → List (K × List (Pose K))
  | _, [] => []
  | acc, (ps, checked, _) :: rest => (checked, acc ++ ps) :: histories (acc ++ ps) rest

/-- Specification: a message shows a history: one point per node in order, and one line per pair of successive
nodes. -/
def ShowsGraph (ps : List (Pose K)) (nodes edges : List (Pt K)) : Prop :=
  List.Forall₂ AtPose ps nodes ∧ edges = chainSegments nodes

theorem build_chain (g : Graph K) (acc ps : List (Pose K)) (h : Slam.Poses.IsChain g acc) :
    ∃ g', g.build ps = some g' ∧ Slam.Poses.IsChain g' (acc ++ ps) := by
  induction ps generalizing g acc with
  | nil => exact ⟨g, rfl, by simpa using h⟩
  | cons p ps ih =>
    obtain ⟨g1, e1, h1⟩ := chain_addNode g acc h p
    obtain ⟨g2, e2, h2⟩ := ih g1 (acc ++ [p]) h1
    refine ⟨g2, ?_, by simpa using h2⟩
    simp only [Graph.build, e1, Option.bind_some, e2]

theorem viewer_step (v : Viewer K) (g : Graph K) (ps : List (Pose K)) (h : Slam.Poses.IsChain g ps)
    (checked stored : K) :
    v.onMapUpdate g checked stored = some (if checked - v.last < 3 then v
      else ⟨stored, v.sent ++ [(checked, ps.map make2D, chainSegments (ps.map make2D))]⟩) := by
  unfold Viewer.onMapUpdate
  by_cases hc : checked - v.last < 3
  · rw [if_pos hc, if_pos hc]
  · rw [if_neg hc, if_neg hc, edgePoints_chain g ps h]
    have : nodePoints g = ps.map make2D := by
      rw [nodePoints, ← h.nodes, List.map_map]; rfl
    rw [this]; rfl

/-- **The graph viewer (C71)**: over any history of updates with a clock that does not run back, the viewer never
touches a dangling node; each message shows the whole graph as it was at one of the updates, in order: a point for
every node and a line between each two successive nodes; and two messages are at least 3 seconds apart. -/
theorem graph_view (start : K) (us : List (List (Pose K) × K × K)) (hclock : ∀ u ∈ us, u.2.1 ≤ u.2.2) :
    ∃ g v, viewRun Graph.empty ⟨start, []⟩ us = some (g, v) ∧
      (v.sent.map Prod.fst).IsChain (fun a b => 3 ≤ b - a) ∧
      ∃ hs : List (K × List (Pose K)), hs.Sublist (histories [] us) ∧
        List.Forall₂ (fun u m => m.1 = u.1 ∧ ShowsGraph u.2 m.2.1 m.2.2) hs v.sent := by
  suffices H : ∀ (us : List (List (Pose K) × K × K)) (g : Graph K) (acc : List (Pose K)) (v : Viewer K)
      (done : List (K × List (Pose K))), Slam.Poses.IsChain g acc → (∀ u ∈ us, u.2.1 ≤ u.2.2) →
      (v.sent.map Prod.fst).IsChain (fun a b => 3 ≤ b - a) →
      (∀ a, (v.sent.map Prod.fst).getLast? = some a → a ≤ v.last) →
      (List.Forall₂ (fun u m => m.1 = u.1 ∧ ShowsGraph u.2 m.2.1 m.2.2) done v.sent) →
      ∃ g' v', viewRun g v us = some (g', v') ∧
        (v'.sent.map Prod.fst).IsChain (fun a b => 3 ≤ b - a) ∧
        ∃ hs : List (K × List (Pose K)), hs.Sublist (histories acc us) ∧
          List.Forall₂ (fun u m => m.1 = u.1 ∧ ShowsGraph u.2 m.2.1 m.2.2) (done ++ hs) v'.sent by
    obtain ⟨g, v, h1, h2, hs, h3, h4⟩ := H us Graph.empty [] ⟨start, []⟩ [] chain_empty hclock (by simp) (by simp)
      List.Forall₂.nil
    exact ⟨g, v, h1, h2, hs, h3, by simpa using h4⟩
  intro us
  induction us with
  | nil =>
    intro g acc v done hg _ hch _ hf
    exact ⟨g, v, rfl, hch, [], List.Sublist.refl _, by simpa using hf⟩
  | cons u us ih =>
    obtain ⟨ps, checked, stored⟩ := u
    intro g acc v done hg hc hch hl hf
    obtain ⟨g1, e1, h1⟩ := build_chain g acc ps hg
    have hu : checked ≤ stored := hc _ (List.mem_cons_self ..)
    have hc' := fun u hu => hc u (List.mem_cons_of_mem _ hu)
    have estep := viewer_step v g1 _ h1 checked stored
    by_cases h : checked - v.last < 3
    · rw [if_pos h] at estep
      obtain ⟨g', v', r1, r2, hs, r3, r4⟩ := ih g1 (acc ++ ps) v done h1 hc' hch hl hf
      refine ⟨g', v', ?_, r2, hs, ?_, r4⟩
      · simp only [viewRun, e1, Option.bind_some, estep]; exact r1
      · simp only [histories]; exact r3.trans (List.sublist_cons_self ..)
    · rw [if_neg h] at estep
      have hshow : ShowsGraph (acc ++ ps) ((acc ++ ps).map make2D) (chainSegments ((acc ++ ps).map make2D)) := by
        refine ⟨?_, rfl⟩
        generalize acc ++ ps = l
        induction l with
        | nil => exact List.Forall₂.nil
        | cons p l ih => exact List.Forall₂.cons ⟨rfl, rfl, rfl⟩ ih
      obtain ⟨g', v', r1, r2, hs, r3, r4⟩ := ih g1 (acc ++ ps)
        ⟨stored, v.sent ++ [(checked, (acc ++ ps).map make2D, chainSegments ((acc ++ ps).map make2D))]⟩
        (done ++ [(checked, acc ++ ps)]) h1 hc'
        (by
          simp only [List.map_append, List.map_cons, List.map_nil]
          rw [List.isChain_append]
          refine ⟨hch, List.isChain_singleton _, fun a ha b hb => ?_⟩
          simp only [List.head?_cons, Option.mem_def, Option.some.injEq] at hb
          have := hl a ha
          rw [← hb]
          linarith [not_lt.1 h])
        (by
          intro a ha
          simp only [List.map_append, List.map_cons, List.map_nil, List.getLast?_concat, Option.some.injEq] at ha
          rw [← ha]; exact hu)
        (List.rel_append hf (List.Forall₂.cons ⟨rfl, hshow⟩ List.Forall₂.nil))
      refine ⟨g', v', ?_, r2, (checked, acc ++ ps) :: hs, ?_, ?_⟩
      · simp only [viewRun, e1, Option.bind_some, estep]; exact r1
      · simp only [histories]; exact List.Sublist.cons_cons _ r3
      · simpa using r4

/-- **No update is withheld for longer (C71)**: an update at least 3 seconds after the last message is published. -/
theorem graph_view_published (v : Viewer K) (g : Graph K) (ps : List (Pose K))
    (h : Slam.Poses.IsChain g ps) (checked stored : K) (hlate : 3 ≤ checked - v.last) :
    ∃ nodes edges, v.onMapUpdate g checked stored = some ⟨stored, v.sent ++ [(checked, nodes, edges)]⟩ ∧
      ShowsGraph ps nodes edges := by
  refine ⟨ps.map make2D, chainSegments (ps.map make2D), ?_, ?_, rfl⟩
  · rw [viewer_step v g ps h, if_neg (not_lt.2 hlate)]
  · clear h
    induction ps with
    | nil => exact List.Forall₂.nil
    | cons p l ih => exact List.Forall₂.cons ⟨rfl, rfl, rfl⟩ ih

example : (viewRun (Graph.empty : Graph ℚ) ⟨0, []⟩
      [([⟨1, 1, 0⟩, ⟨2, 1, 0⟩], 5, 5), ([⟨3, 1, 0⟩], 7, 7), ([⟨4, 2, 0⟩], 9, 9)]).map (fun r => r.2.sent) =
    some [(5, [⟨1, 1, 0⟩, ⟨2, 1, 0⟩], [⟨2, 1, 0⟩, ⟨1, 1, 0⟩]),
      (9, [⟨1, 1, 0⟩, ⟨2, 1, 0⟩, ⟨3, 1, 0⟩, ⟨4, 2, 0⟩],
        [⟨2, 1, 0⟩, ⟨1, 1, 0⟩, ⟨3, 1, 0⟩, ⟨2, 1, 0⟩, ⟨4, 2, 0⟩, ⟨3, 1, 0⟩])] := by decide +kernel

end Viewer

end Slam.Nodes
