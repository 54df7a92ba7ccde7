import Verif.Pose.Model
import Mathlib.Tactic.Ring
import Mathlib.Tactic.Linarith
import Mathlib.Data.Rat.Floor
import Mathlib.Algebra.BigOperators.Group.List.Basic

/-! # C50, C51 -/

set_option autoImplicit false
set_option linter.unusedSectionVars false

namespace Slam.Poses
open Slam.Grid Slam.Rect

variable {K : Type*} [Field K] [LinearOrder K] [IsStrictOrderedRing K]

/-- Componentwise sum of a list of deltas (specification). -/
def total (ds : List (Delta K)) : Delta K :=
  ⟨(ds.map (·.x)).sum, (ds.map (·.y)).sum, (ds.map (·.theta)).sum⟩

/-- C50: adding a delta and subtracting poses are mutually inverse. -/
theorem pose_add_sub_inverse (p q d : Pose K) :
    q.add (p.sub q) = p ∧ (p.add d).sub p = d ∧ (p.add d).add d.neg = p ∧ p.sub q = (q.sub p).neg := by
  refine ⟨?_, ?_, ?_, ?_⟩ <;> ext <;> simp [Pose.add, Pose.sub, Pose.neg]

/-- C50: a sequence of deltas accumulates to the componentwise sum, whatever the grouping: applying the deltas
of consecutive groups one after another is the same as applying each group's total. -/
theorem pose_accumulates (p : Pose K) (groups : List (List (Delta K))) :
    groups.flatten.foldl Pose.add p = p.add (total groups.flatten) ∧
    groups.flatten.foldl Pose.add p = (groups.map total).foldl Pose.add p := by
  have h1 : ∀ (ds : List (Delta K)) (p : Pose K), ds.foldl Pose.add p = p.add (total ds) := by
    intro ds
    induction ds with
    | nil => intro p; ext <;> simp [Pose.add, total]
    | cons d ds ih => intro p; rw [List.foldl_cons, ih]; ext <;> simp [Pose.add, total] <;> ring
  refine ⟨h1 _ _, ?_⟩
  induction groups generalizing p with
  | nil => rfl
  | cons g gs ih => simp only [List.flatten_cons, List.foldl_append, List.map_cons, List.foldl_cons, ih, h1 g]

/-- C50: the order of the deltas does not matter. -/
theorem pose_accumulates_perm (p : Pose K) (ds es : List (Delta K)) (h : ds.Perm es) :
    ds.foldl Pose.add p = es.foldl Pose.add p := by
  have := (pose_accumulates p [ds]).1
  have h2 := (pose_accumulates p [es]).1
  simp only [List.flatten_cons, List.flatten_nil, List.append_nil] at this h2
  rw [this, h2]
  simp [total, (h.map _).sum_eq]

/-- C50: the threshold test. -/
theorem is_abs_less_iff (d t : Delta K) :
    d.isAbsLess t = true ↔ |d.x| < |t.x| ∧ |d.y| < |t.y| ∧ |d.theta| < |t.theta| := by
  simp [Pose.isAbsLess, and_assoc]

/-- C50: the test for motion: false exactly if every component is within the tolerance 1e-7 of zero (for
components below one in magnitude), and false for no motion at all. -/
theorem motion_test (d : Delta K) :
    (d.toBool = false ↔ areEqual d.x 0 = true ∧ areEqual d.y 0 = true ∧ areEqual d.theta 0 = true) ∧
    (Pose.zero : Delta K).toBool = false ∧ d.toBool = !d.tolEq Pose.zero := by
  refine ⟨by simp [Pose.toBool, and_assoc], by simp [Pose.toBool, Pose.zero, areEqual], ?_⟩
  simp [Pose.toBool, Pose.tolEq, Pose.zero, Bool.not_and]

/-- C50: the squared distance of a difference of poses is the squared Euclidean distance of their positions, it
vanishes exactly for equal positions, and does not depend on the order of the two poses; taking magnitudes of the
components of an increment keeps it. -/
theorem sq_dist_spec (p q : Pose K) :
    (p.sub q).sqDist = (p.x - q.x) ^ 2 + (p.y - q.y) ^ 2 ∧
    ((p.sub q).sqDist = 0 ↔ p.x = q.x ∧ p.y = q.y) ∧
    (p.sub q).sqDist = (q.sub p).sqDist ∧ p.abs.sqDist = p.sqDist ∧ p.neg.sqDist = p.sqDist ∧
    (p.abs.x = |p.x| ∧ p.abs.y = |p.y| ∧ p.abs.theta = |p.theta|) := by
  unfold Pose.sqDist Pose.sub Pose.abs Pose.neg
  refine ⟨by ring, ⟨fun h => ?_, ?_⟩, by ring, ?_, by ring, rfl, rfl, rfl⟩
  · simp only at h
    have h1 := mul_self_nonneg (p.x - q.x)
    have h2 := mul_self_nonneg (p.y - q.y)
    exact ⟨sub_eq_zero.1 (mul_self_eq_zero.1 (by linarith)), sub_eq_zero.1 (mul_self_eq_zero.1 (by linarith))⟩
  · rintro ⟨h1, h2⟩; simp [h1, h2]
  · simp only [abs_mul_abs_self]

example : ((⟨1, 2, 3⟩ : Pose ℚ).sub ⟨4, 6, 0⟩).sqDist = 25 := by norm_num [Pose.sqDist, Pose.sub]


/-- C50: the tolerance test against zero means what it says. -/
theorem are_equal_zero_iff (v : K) : areEqual v 0 = true ↔ |v| ≤ 1 / 10 ^ 7 := by
  simp only [areEqual, decide_eq_true_eq, sub_zero, abs_zero]
  have h0 := abs_nonneg v
  rw [max_eq_left h0]
  rcases le_total |v| 1 with h | h
  · rw [max_eq_left h, mul_one]
  · rw [max_eq_right h]
    constructor
    · intro h2
      exfalso
      have : (1 : K) / 10 ^ 7 < 1 := by norm_num
      nlinarith
    · intro h2
      exfalso
      have : (1 : K) / 10 ^ 7 < 1 := by norm_num
      linarith

/-! ## C51 -/

/-- Specification: the chain graph of a list of poses. -/
structure IsChain (g : Graph K) (ps : List (Pose K)) : Prop where
  /-- nodes are exactly the given poses, in order -/
  nodes : g.nodes.map (·.pose) = ps
  /-- one edge per pair of successive nodes and no other -/
  edges_length : g.edges.length = ps.length - 1
  /-- the i-th edge leads from node i+1 back to node i with the pose difference -/
  edge : ∀ i p q, ps[i]? = some p → ps[i + 1]? = some q →
    ∃ e, g.edges[i]? = some e ∧ e.source = i + 1 ∧ e.target = i ∧ e.delta = q.sub p
  /-- a node knows exactly the edges to its predecessor and to its successor -/
  incident : ∀ i n, g.nodes[i]? = some n →
    n.edges = (if 0 < i then [i - 1] else []) ++ (if i + 1 < ps.length then [i] else [])
  /-- the current node is the last one -/
  current : g.current = if ps.length = 0 then none else some (ps.length - 1)

theorem chain_empty : IsChain (Graph.empty : Graph K) [] := by
  constructor <;> simp [Graph.empty]

theorem chain_addNode (g : Graph K) (ps : List (Pose K)) (h : IsChain g ps) (p : Pose K) :
    ∃ g', g.addNode p = some g' ∧ IsChain g' (ps ++ [p]) := by
  have hlen : g.nodes.length = ps.length := by rw [← h.nodes]; simp
  rcases Nat.eq_zero_or_pos ps.length with h0 | hpos
  · have hps : ps = [] := List.length_eq_zero_iff.1 h0
    subst hps
    have hcur : g.current = none := by rw [h.current]; simp
    have hn : g.nodes = [] := List.length_eq_zero_iff.1 (by rw [hlen]; rfl)
    have he : g.edges = [] := List.length_eq_zero_iff.1 (by rw [h.edges_length]; rfl)
    refine ⟨⟨some 0, [⟨p, []⟩], []⟩, ?_, ?_⟩
    · simp [Graph.addNode, hcur, hn, he]
    · constructor
      · simp
      · simp
      · intro i a b h1 h2; simp at h2
      · intro i n hi
        cases i with
        | zero => simp at hi; subst hi; simp
        | succ i => simp at hi
      · simp
  · have hcur : g.current = some (ps.length - 1) := by rw [h.current, if_neg (by omega)]
    obtain ⟨last, hlast⟩ : ∃ q, g.nodes[ps.length - 1]? = some q :=
      ⟨_, List.getElem?_eq_getElem (by omega)⟩
    have hpose : ps[ps.length - 1]? = some last.pose := by
      rw [← h.nodes, List.getElem?_map]
      have : (List.map (fun x : Node K => x.pose) g.nodes).length - 1 = ps.length - 1 := by rw [h.nodes]
      rw [this, hlast]; rfl
    have hlink : ∀ (ns : List (Node K)) n e, (linkEdge ns n e).map (·.pose) = ns.map (·.pose) := by
      intro ns n e
      apply List.ext_getElem?
      intro i
      simp only [linkEdge, List.getElem?_map, List.getElem?_modify]
      cases ns[i]? with
      | none => rfl
      | some a => simp only [Option.map_some, Option.some.injEq]; split <;> rfl
    set ns := g.nodes ++ [(⟨p, []⟩ : Node K)] with hns
    have e1 : ns[ps.length]? = some ⟨p, []⟩ := by rw [hns, ← hlen]; simp
    have e2 : ns[ps.length - 1]? = some last := by
      rw [hns, List.getElem?_append_left (by omega)]; exact hlast
    refine ⟨⟨some ps.length, linkEdge (linkEdge ns ps.length g.edges.length) (ps.length - 1) g.edges.length,
      g.edges ++ [⟨ps.length, ps.length - 1, p.sub last.pose⟩]⟩, ?_, ?_⟩
    · simp only [Graph.addNode, hcur, hlen, Graph.addEdge]
      rw [← hns, e1, e2]
      simp
    · constructor
      · simp only [hlink, hns, List.map_append, h.nodes]; rfl
      · simp [h.edges_length]; omega
      · intro i a b h1 h2
        by_cases hi : i + 1 < ps.length
        · rw [List.getElem?_append_left (by omega)] at h1 h2
          obtain ⟨e, he, h3⟩ := h.edge i a b h1 h2
          refine ⟨e, ?_, h3⟩
          simp only
          rw [List.getElem?_append_left (by rw [h.edges_length]; omega)]
          exact he
        · have : i + 1 < (ps ++ [p]).length := by
            by_contra hc; rw [List.getElem?_eq_none (by omega)] at h2; cases h2
          simp at this
          have hi' : i = ps.length - 1 := by omega
          subst hi'
          rw [List.getElem?_append_left (by omega), hpose] at h1
          have hb : b = p := by
            rw [show ps.length - 1 + 1 = ps.length by omega] at h2
            simp at h2; exact h2.symm
          simp only [Option.some.injEq] at h1
          subst h1 hb
          refine ⟨⟨ps.length, ps.length - 1, b.sub last.pose⟩, ?_, ?_, rfl, rfl⟩
          · simp only; rw [← h.edges_length]; simp
          · simp only; omega
      · intro i n hi
        have hel : g.edges.length = ps.length - 1 := h.edges_length
        simp only [linkEdge, List.getElem?_modify] at hi
        by_cases hip : i = ps.length
        · subst hip
          rw [e1] at hi
          have hn : ¬ (ps.length - 1 = ps.length) := by omega
          simp only [Option.map_eq_map, Option.map_some, Option.some.injEq, hn, if_false, if_true] at hi
          subst hi
          simp [hel, hpos]
        · rw [hns] at hi
          by_cases hil : i < ps.length
          · rw [List.getElem?_append_left (by omega)] at hi
            obtain ⟨m, hm⟩ : ∃ m, g.nodes[i]? = some m := ⟨_, List.getElem?_eq_getElem (by omega)⟩
            have hinc := h.incident i m hm
            rw [hm] at hi
            have hn : ¬ (ps.length = i) := by omega
            simp only [Option.map_eq_map, Option.map_some, Option.some.injEq, hn, if_false] at hi
            simp only [List.length_append, List.length_cons, List.length_nil]
            rw [if_pos (show i + 1 < ps.length + (0 + 1) by omega)]
            by_cases hi2 : i + 1 < ps.length
            · rw [if_neg (by omega)] at hi
              rw [if_pos hi2] at hinc
              subst hi; exact hinc
            · rw [if_pos (by omega)] at hi
              rw [if_neg hi2] at hinc
              subst hi
              simp only [hinc, List.append_nil, hel, id]
              congr 2
              omega
          · rw [List.getElem?_eq_none (by simp; omega)] at hi
            simp at hi
      · simp

/-- C51: after any sequence of node creations the pose graph is the chain over the created poses: one node per
pose, exactly one edge between successive nodes, with the difference of the poses, known to exactly its two
nodes. -/
theorem pose_graph_is_chain (ps : List (Pose K)) :
    ∃ g, Graph.empty.build ps = some g ∧ IsChain g ps := by
  have gen : ∀ (qs : List (Pose K)) (g : Graph K) (ps : List (Pose K)), IsChain g ps →
      ∃ g', g.build qs = some g' ∧ IsChain g' (ps ++ qs) := by
    intro qs
    induction qs with
    | nil => intro g ps h; exact ⟨g, rfl, by simpa using h⟩
    | cons q qs ih =>
      intro g ps h
      obtain ⟨g1, h1, h2⟩ := chain_addNode g ps h q
      obtain ⟨g2, h3, h4⟩ := ih g1 _ h2
      exact ⟨g2, by simp [Graph.build, h1, h3], by simpa using h4⟩
  simpa using gen ps _ _ chain_empty

/-- C51: following the edges from the first node reproduces every node's pose. -/
theorem pose_graph_integrates (ps : List (Pose K)) (g : Graph K) (hg : Graph.empty.build ps = some g)
    (p : Pose K) (h0 : ps[0]? = some p) (i : Nat) (q : Pose K) (hi : ps[i]? = some q) :
    ((g.edges.take i).map (·.delta)).foldl Pose.add p = q := by
  obtain ⟨g', h1, h⟩ := pose_graph_is_chain ps
  rw [hg, Option.some.injEq] at h1
  subst h1
  induction i generalizing q with
  | zero => rw [h0, Option.some.injEq] at hi; subst hi; simp
  | succ i ih =>
    have hlt : i < ps.length := by
      by_contra hc; rw [List.getElem?_eq_none (by omega)] at hi; cases hi
    obtain ⟨r, hr⟩ : ∃ r, ps[i]? = some r := ⟨_, List.getElem?_eq_getElem hlt⟩
    obtain ⟨e, he, _, _, hd⟩ := h.edge i r q hr hi
    rw [List.take_add_one, he]
    simp only [Option.toList_some, List.map_append, List.map_cons, List.map_nil, List.foldl_append,
      List.foldl_cons, List.foldl_nil]
    rw [ih r hr, hd]
    exact (pose_add_sub_inverse q r q).1

/-- C51: a node is created exactly when the motion accumulated since the previous creation is not below the
limit in every component: for a stretch of motions `ds` after a creation, none of whose proper prefixes
reached the limit, the answers are all "no" but the last one, which is "yes" iff the total reached it. -/
theorem node_creation_rule (limit : Delta K) (ds : List (Delta K)) (d : Delta K)
    (h : ∀ pre suf, ds = pre ++ suf → pre ≠ [] → (total pre).isAbsLess limit = true) :
    oracleRun limit Pose.zero (ds ++ [d])
      = List.replicate ds.length false ++ [!(total (ds ++ [d])).isAbsLess limit] := by
  have gen : ∀ (ds : List (Delta K)) (done : List (Delta K)),
      (∀ pre suf, ds = pre ++ suf → pre ≠ [] → (total (done ++ pre)).isAbsLess limit = true) →
      oracleRun limit (total done) (ds ++ [d])
        = List.replicate ds.length false ++ [!(total (done ++ ds ++ [d])).isAbsLess limit] := by
    intro ds
    have hadd : ∀ (a : List (Delta K)) (x : Delta K), (total a).add x = total (a ++ [x]) := by
      intro a x; ext <;> simp [total, Pose.add]
    induction ds with
    | nil =>
      intro done _
      simp only [List.nil_append, oracleRun, oracle, hadd, List.append_nil, List.length_nil,
        List.replicate_zero]
      split <;> rename_i hc <;> simp [hc]
    | cons a ds ih =>
      intro done hp
      have ha := hp [a] ds rfl (by simp)
      have := ih (done ++ [a]) (fun pre suf e hne => by
        have := hp (a :: pre) suf (by rw [e]; rfl) (by simp)
        simpa using this)
      simp only [List.cons_append, oracleRun, oracle, hadd, ha, if_true]
      rw [this]
      simp [List.replicate_succ]
  have h0 : (Pose.zero : Delta K) = total [] := by ext <;> simp [total, Pose.zero]
  rw [h0]
  simpa using gen ds [] (by simpa using h)

/-- Non-vacuity: a three-node graph over ℚ. -/
example : ((Graph.empty.build [⟨0, 0, 0⟩, ⟨1, 2, 1 / 2⟩, ⟨3, 2, 1⟩] : Option (Graph ℚ)).map fun g =>
    g.edges.map fun e => (e.source, e.target, e.delta))
    = some [(1, 0, ⟨1, 2, 1 / 2⟩), (2, 1, ⟨2, 0, 1 / 2⟩)] := by decide +kernel

example : oracleRun (⟨1 / 2, 1 / 2, 1 / 2⟩ : Delta ℚ) Pose.zero
    [⟨1 / 4, 0, 0⟩, ⟨1 / 8, 0, 0⟩, ⟨1 / 4, 0, 0⟩, ⟨1 / 4, 0, 0⟩] = [false, false, true, false] := by
  decide +kernel

example : ∀ pre suf, [(⟨1 / 4, 0, 0⟩ : Delta ℚ)] = pre ++ suf → pre ≠ [] →
    (total pre).isAbsLess ⟨1 / 2, 1 / 2, 1 / 2⟩ = true := by
  intro pre suf h hne
  cases pre with
  | nil => exact absurd rfl hne
  | cons a t =>
    simp only [List.cons_append, List.cons.injEq] at h
    obtain ⟨rfl, h⟩ := h
    have : t = [] := by cases t with
      | nil => rfl
      | cons b t => simp at h
    subst this
    decide +kernel

end Slam.Poses
