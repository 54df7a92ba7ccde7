import Verif.Estimator.Tolerant

/-!
# Which part of the cell is taken for an occupied end (C62)
-/

set_option autoImplicit false
set_option linter.unusedSectionVars false

namespace Slam.Estimator
open Slam.Grid Slam.Rect Slam.Cells MeasureTheory

/-! ### Specification -/

/-- How far ahead of the end of the beam a point is, in the direction of the beam (times the length of the beam). -/
def ahead (beam : Seg ℝ) (w : Point ℝ) : ℝ :=
  (w.x - beam.fin.x) * (beam.fin.x - beam.beg.x) + (w.y - beam.fin.y) * (beam.fin.y - beam.beg.y)

/-- The part of the cell beyond the end of the beam. -/
def beyond (c : Bounds ℝ) (beam : Seg ℝ) : Set (ℝ × ℝ) := {w | InCell c ⟨w.1, w.2⟩ ∧ 0 ≤ ahead beam ⟨w.1, w.2⟩}

/-- The part of the cell before the end of the beam. -/
def before (c : Bounds ℝ) (beam : Seg ℝ) : Set (ℝ × ℝ) := {w | InCell c ⟨w.1, w.2⟩ ∧ ahead beam ⟨w.1, w.2⟩ ≤ 0}

/-- The edge of the cell a boundary point is on; a corner belongs to the upper edge, or to the left edge if it is a lower
left one, or to the lower edge. -/
noncomputable def edgeOf (c : Bounds ℝ) (p : Point ℝ) : Loc :=
  if p.y = c.top then .top else if p.x = c.left then .left else if p.y = c.bot then .bot else .right

/-- The corner between the edges of two boundary points; the left lower one if the edges are opposite. -/
noncomputable def cutCorner (c : Bounds ℝ) (p q : Point ℝ) : Point ℝ :=
  match edgeOf c p, edgeOf c q with
  | .left, .top | .top, .left => ⟨c.left, c.top⟩
  | .right, .top | .top, .right => ⟨c.right, c.top⟩
  | .right, .bot | .bot, .right => ⟨c.right, c.bot⟩
  | _, _ => ⟨c.left, c.bot⟩

/-- A corner in the part of the cell that is measured: the corner between the edges, the left lower one for a cut from
the lower to the upper edge, a lower one for a cut from the left to the right edge. -/
noncomputable def cutMark (c : Bounds ℝ) (p q : Point ℝ) : Point ℝ :=
  match edgeOf c p, edgeOf c q with
  | .left, .right | .right, .left => ⟨c.right, c.bot⟩
  | _, _ => cutCorner c p q

/-- The test of the code for turning to the other part: the beam is not perpendicular to a cut of slope 1, and the
beginning of the beam and the corner are strictly on the same side of the line `x + y = 0` **through the origin**. -/
def TurnsOver (beam : Seg ℝ) (corner : Point ℝ) : Prop :=
  (beam.fin.x - beam.beg.x) + (beam.fin.y - beam.beg.y) ≠ 0 ∧ 0 < (beam.beg.x + beam.beg.y) * (corner.x + corner.y)

/-- The part beyond the end is taken: the measured part is the one beyond the end and the test fails, or it is the other
one and the test succeeds. -/
def TakesBeyond (c : Bounds ℝ) (beam : Seg ℝ) (p q : Point ℝ) : Prop :=
  (0 < ahead beam (cutMark c p q)) ↔ ¬ TurnsOver beam (cutCorner c p q)

/-- `p` and `q` are the two ends of the cut: the points of the boundary on the perpendicular to the beam through its
end. -/
def CutEnds (c : Bounds ℝ) (beam : Seg ℝ) (p q : Point ℝ) : Prop :=
  p ≠ q ∧ (OnBoundary c p ∧ ahead beam p = 0) ∧ (OnBoundary c q ∧ ahead beam q = 0)

/-! ### Proofs -/

theorem edgeOf_onLoc (c : Bounds ℝ) (p : Point ℝ) (h : OnBoundary c p) : OnLoc c ⟨edgeOf c p, p⟩ := by
  obtain ⟨⟨h1, h2, h3, h4⟩, h5⟩ := h
  unfold OnLoc edgeOf
  by_cases a : p.y = c.top
  · simp [a]
  by_cases b : p.x = c.left
  · simp [a, b]
  by_cases d : p.y = c.bot
  · rw [if_neg a, if_neg b, if_pos d]; exact d
  · rw [if_neg a, if_neg b, if_neg d]
    by_contra e
    exact h5 ⟨lt_of_le_of_ne h1 (Ne.symm b), lt_of_le_of_ne h2 e, lt_of_le_of_ne h3 (Ne.symm d), lt_of_le_of_ne h4 a⟩

theorem uniqueFrom_drop (xs ys : List (Inter ℝ)) (u w last i : Inter ℝ) (h : u.pt = w.pt)
    (hi : i ∈ uniqueFrom exactCmp last (xs ++ u :: w :: ys)) : i ∈ xs ∨ i = u ∨ i ∈ ys := by
  have sub : ∀ (l : List (Inter ℝ)) (a : Inter ℝ), ∀ i ∈ uniqueFrom exactCmp a l, i ∈ l := by
    intro l a i hi
    have : i ∈ unique exactCmp (a :: l) := by unfold unique; exact List.mem_cons_of_mem _ hi
    clear this
    induction l generalizing a with
    | nil => simp [uniqueFrom] at hi
    | cons b l ih =>
      simp only [uniqueFrom] at hi
      by_cases hc : ptEq exactCmp a.pt b.pt = true
      · rw [if_pos hc] at hi; exact List.mem_cons_of_mem _ (ih _ hi)
      · rw [if_neg hc] at hi
        rcases List.mem_cons.1 hi with rfl | hi
        · simp
        · exact List.mem_cons_of_mem _ (ih _ hi)
  induction xs generalizing last with
  | nil =>
    simp only [List.nil_append, uniqueFrom] at hi
    by_cases hc : ptEq exactCmp last.pt u.pt = true
    · rw [if_pos hc, if_pos (by rw [← h]; exact hc)] at hi
      exact .inr (.inr (sub _ _ _ hi))
    · rw [if_neg hc] at hi
      have : ptEq exactCmp u.pt w.pt = true := by rw [ptEq_exact]; simp [h]
      rw [if_pos this] at hi
      rcases List.mem_cons.1 hi with rfl | hi
      · exact .inr (.inl rfl)
      · exact .inr (.inr (sub _ _ _ hi))
  | cons a xs ih =>
    simp only [List.cons_append, uniqueFrom] at hi
    by_cases hc : ptEq exactCmp last.pt a.pt = true
    · rw [if_pos hc] at hi
      rcases ih _ hi with h | h
      · exact .inl (List.mem_cons_of_mem _ h)
      · exact .inr h
    · rw [if_neg hc] at hi
      rcases List.mem_cons.1 hi with rfl | hi
      · exact .inl (by simp)
      · rcases ih _ hi with h | h
        · exact .inl (List.mem_cons_of_mem _ h)
        · exact .inr h

theorem unique_drop (xs ys : List (Inter ℝ)) (u w i : Inter ℝ) (h : u.pt = w.pt)
    (hi : i ∈ unique exactCmp (xs ++ u :: w :: ys)) : i ∈ xs ∨ i = u ∨ i ∈ ys := by
  cases xs with
  | nil =>
    simp only [List.nil_append, unique] at hi
    rcases List.mem_cons.1 hi with rfl | hi
    · exact .inr (.inl rfl)
    · simp only [uniqueFrom] at hi
      have : ptEq exactCmp u.pt w.pt = true := by rw [ptEq_exact]; simp [h]
      rw [if_pos this] at hi
      have : i ∈ uniqueFrom exactCmp u ([] ++ u :: w :: ys) := by
        simp only [List.nil_append, uniqueFrom]
        rw [if_pos (by rw [ptEq_exact]; simp), if_pos (by rw [ptEq_exact]; simp [h])]
        exact hi
      exact uniqueFrom_drop [] ys u w u i h this
  | cons a xs =>
    simp only [List.cons_append, unique] at hi
    rcases List.mem_cons.1 hi with rfl | hi
    · exact .inl (by simp)
    · rcases uniqueFrom_drop xs ys u w a i h hi with h | h
      · exact .inl (List.mem_cons_of_mem _ h)
      · exact .inr h

/-- Of two consecutive intersections at the same point the second is dropped. -/
theorem dedup_drop (xs ys : List (Inter ℝ)) (u w i : Inter ℝ) (h : u.pt = w.pt)
    (hi : i ∈ dedup exactCmp (xs ++ u :: w :: ys)) : i ∈ xs ∨ i = u ∨ i ∈ ys := by
  unfold dedup at hi
  simp only at hi
  have whole := unique_drop xs ys u w i h
  have cut : i ∈ unique exactCmp (xs ++ u :: w :: ys).dropLast → i ∈ xs ∨ i = u ∨ i ∈ ys := by
    intro hi
    rcases List.eq_nil_or_concat ys with rfl | ⟨ys', b, rfl⟩
    · have e : (xs ++ [u, w]).dropLast = xs ++ [u] := by
        rw [show xs ++ [u, w] = (xs ++ [u]) ++ [w] by simp, List.dropLast_concat]
      rw [e] at hi
      have := mem_unique _ _ _ hi
      simp only [List.mem_append, List.mem_singleton] at this
      tauto
    · have e : (xs ++ u :: w :: ys'.concat b).dropLast = xs ++ u :: w :: ys' := by
        rw [show xs ++ u :: w :: ys'.concat b = (xs ++ u :: w :: ys') ++ [b] by simp, List.dropLast_concat]
      rw [e] at hi
      rcases unique_drop xs ys' u w i h hi with h | h | h
      · exact .inl h
      · exact .inr (.inl h)
      · exact .inr (.inr (by simp [h]))
  cases hh : (xs ++ u :: w :: ys).head? with
  | none => rw [hh] at hi; exact whole hi
  | some a =>
    cases ht : (xs ++ u :: w :: ys).getLast? with
    | none => rw [hh, ht] at hi; exact whole hi
    | some b =>
      rw [hh, ht] at hi
      simp only at hi
      by_cases hc : (decide (1 < (xs ++ u :: w :: ys).length) && ptEq exactCmp a.pt b.pt) = true
      · rw [if_pos hc] at hi; exact cut hi
      · rw [if_neg hc] at hi; exact whole hi

/-- If the first and the last intersection are at the same point, the last is dropped. -/
theorem dedup_drop_last (u w i : Inter ℝ) (xs : List (Inter ℝ)) (h : u.pt = w.pt)
    (hi : i ∈ dedup exactCmp (u :: xs ++ [w])) : i ∈ u :: xs := by
  unfold dedup at hi
  simp only at hi
  have hh : (u :: xs ++ [w]).head? = some u := rfl
  have hb : (u :: xs ++ [w]).getLast? = some w := List.getLast?_concat ..
  rw [hh, hb] at hi
  simp only at hi
  have hc : (decide (1 < (u :: xs ++ [w]).length) && ptEq exactCmp u.pt w.pt) = true := by
    rw [ptEq_exact]; simp [h]
  rw [if_pos hc, List.dropLast_concat] at hi
  exact mem_unique _ _ _ hi

theorem single {l : List (Inter ℝ)} (h : l.length ≤ 1) {i : Inter ℝ} (hi : i ∈ l) : l = [i] := by
  match l with
  | [] => simp at hi
  | [a] => rw [List.mem_singleton] at hi; rw [hi]
  | a :: b :: l => simp at h

/-- The location of an intersection is the edge of the specification. -/
theorem rayInters_edgeOf (c : Bounds ℝ) (hx : c.left < c.right) (hy : c.bot < c.top) (r : Ray ℝ) (hoff : r.Off c)
    (l : List (Inter ℝ)) (h : rayInters exactCmp c r = some l) : ∀ i ∈ l, i.loc = edgeOf c i.pt := by
  have e1 : r.intersect exactCmp (topEdge c) .top = some (r.horiz exactCmp c.left c.right c.top .top) := by
    simp [Ray.intersect, Seg.isHoriz, topEdge, exactCmp]
  have e3 : r.intersect exactCmp (botEdge c) .bot = some (r.horiz exactCmp c.left c.right c.bot .bot) := by
    simp [Ray.intersect, Seg.isHoriz, botEdge, exactCmp]
  have e2 : r.intersect exactCmp (leftEdge c) .left = some (r.vert exactCmp c.bot c.top c.left .left) := by
    simp [Ray.intersect, Seg.isHoriz, Seg.isVert, leftEdge, exactCmp, hy.ne]
  have e4 : r.intersect exactCmp (rightEdge c) .right = some (r.vert exactCmp c.bot c.top c.right .right) := by
    simp [Ray.intersect, Seg.isHoriz, Seg.isVert, rightEdge, exactCmp, hy.ne]
  unfold rayInters at h
  simp only [e1, e2, e3, e4, Option.bind_some] at h
  set T := r.horiz exactCmp c.left c.right c.top .top with hT
  set L := r.vert exactCmp c.bot c.top c.left .left with hL
  set B := r.horiz exactCmp c.left c.right c.bot .bot with hB
  set R := r.vert exactCmp c.bot c.top c.right .right with hR
  split at h
  swap
  · simp at h
  simp only [Option.some.injEq] at h
  subst h
  have lT : T.length ≤ 1 := horiz_length_le ..
  have lL : L.length ≤ 1 := vert_length_le ..
  have lB : B.length ≤ 1 := horiz_length_le ..
  have lR : R.length ≤ 1 := vert_length_le ..
  have mT : ∀ i ∈ T, i.loc = .top := fun i hi => (horiz_mem _ _ _ _ _ _ _ hi).1
  have mL : ∀ i ∈ L, i.loc = .left := fun i hi => (vert_mem _ _ _ _ _ _ _ hi).1
  have mB : ∀ i ∈ B, i.loc = .bot := fun i hi => (horiz_mem _ _ _ _ _ _ _ hi).1
  have mR : ∀ i ∈ R, i.loc = .right := fun i hi => (vert_mem _ _ _ _ _ _ _ hi).1
  have offy : ∀ t, (r.at t).y = c.top ∨ (r.at t).y = c.bot → r.delta.y ≠ 0 := by
    intro t ht h0
    simp only [Ray.at, h0, mul_zero, add_zero] at ht
    rcases ht with ht | ht
    · exact (hoff.1 h0).2 ht
    · exact (hoff.1 h0).1 ht
  have offx : ∀ t, (r.at t).x = c.left ∨ (r.at t).x = c.right → r.delta.x ≠ 0 := by
    intro t ht h0
    simp only [Ray.at, h0, mul_zero, add_zero] at ht
    rcases ht with ht | ht
    · exact (hoff.2 h0).1 ht
    · exact (hoff.2 h0).2 ht
  intro i hi
  have hi' := mem_dedup _ _ _ hi
  simp only [List.mem_append] at hi'
  unfold edgeOf
  rcases hi' with ((hm | hm) | hm) | hm
  · rw [mT i hm, if_pos (horiz_mem _ _ _ _ _ _ _ hm).2.2.2]
  · obtain ⟨-, b1, b2, b3⟩ := vert_mem _ _ _ _ _ _ _ hm
    by_cases ht : i.pt.y = c.top
    · exfalso
      obtain ⟨-, -, -, -, t, he⟩ := (vert_pts _ _ _ _ _ _).1 ⟨i, hm, rfl⟩
      obtain ⟨u, hu, hup⟩ : ∃ u ∈ T, u.pt = i.pt :=
        (horiz_pts _ _ _ _ _ _).2 ⟨offy t (he ▸ .inl ht), ht, by rw [b3], by rw [b3]; exact hx.le, t, he⟩
      rw [single lT hu, single lL hm] at hi
      have := dedup_drop [] (B ++ R) u i i hup (by simpa using hi)
      simp only [List.not_mem_nil, false_or, List.mem_append] at this
      rcases this with e | e | e
      · have := mT u hu; rw [← e, mL i hm] at this; cases this
      · have := mB i e; rw [mL i hm] at this; cases this
      · have := mR i e; rw [mL i hm] at this; cases this
    · rw [mL i hm, if_neg ht, if_pos b3]
  · obtain ⟨-, b1, b2, b3⟩ := horiz_mem _ _ _ _ _ _ _ hm
    by_cases ht : i.pt.x = c.left
    · exfalso
      obtain ⟨-, -, -, -, t, he⟩ := (horiz_pts _ _ _ _ _ _).1 ⟨i, hm, rfl⟩
      obtain ⟨u, hu, hup⟩ : ∃ u ∈ L, u.pt = i.pt :=
        (vert_pts _ _ _ _ _ _).2 ⟨offx t (he ▸ .inl ht), ht, by rw [b3], by rw [b3]; exact hy.le, t, he⟩
      rw [single lL hu, single lB hm] at hi
      have := dedup_drop T R u i i hup (by simpa using hi)
      rcases this with e | e | e
      · have := mT i e; rw [mB i hm] at this; cases this
      · have := mL u hu; rw [← e, mB i hm] at this; cases this
      · have := mR i e; rw [mB i hm] at this; cases this
    · rw [mB i hm, if_neg (by rw [b3]; exact hy.ne), if_neg ht, if_pos b3]
  · obtain ⟨-, b1, b2, b3⟩ := vert_mem _ _ _ _ _ _ _ hm
    obtain ⟨-, -, -, -, t, he⟩ := (vert_pts _ _ _ _ _ _).1 ⟨i, hm, rfl⟩
    by_cases ht : i.pt.y = c.top
    · exfalso
      obtain ⟨u, hu, hup⟩ : ∃ u ∈ T, u.pt = i.pt :=
        (horiz_pts _ _ _ _ _ _).2 ⟨offy t (he ▸ .inl ht), ht, by rw [b3]; exact hx.le, by rw [b3], t, he⟩
      rw [single lT hu, single lR hm] at hi
      have := dedup_drop_last u i i (L ++ B) hup (by simpa using hi)
      simp only [List.mem_cons, List.mem_append] at this
      rcases this with e | e | e
      · have := mT u hu; rw [← e, mR i hm] at this; cases this
      · have := mL i e; rw [mR i hm] at this; cases this
      · have := mB i e; rw [mR i hm] at this; cases this
    · by_cases hb : i.pt.y = c.bot
      · exfalso
        obtain ⟨u, hu, hup⟩ : ∃ u ∈ B, u.pt = i.pt :=
          (horiz_pts _ _ _ _ _ _).2 ⟨offy t (he ▸ .inr hb), hb, by rw [b3]; exact hx.le, by rw [b3], t, he⟩
        rw [single lB hu, single lR hm] at hi
        have := dedup_drop (T ++ L) [] u i i hup (by simpa using hi)
        simp only [List.not_mem_nil, or_false, List.mem_append] at this
        rcases this with (e | e) | e
        · have := mT i e; rw [mR i hm] at this; cases this
        · have := mL i e; rw [mR i hm] at this; cases this
        · have := mB u hu; rw [← e, mR i hm] at this; cases this
      · rw [mR i hm, if_neg ht, if_neg (by rw [b3]; exact hx.ne'), if_neg hb]

theorem cutCorner_of (c : Bounds ℝ) (i j : Inter ℝ) (hi : i.loc = edgeOf c i.pt) (hj : j.loc = edgeOf c j.pt) :
    (if i.isHoriz != j.isHoriz then cornerOf c [i, j] else ⟨c.left, c.bot⟩) = cutCorner c i.pt j.pt := by
  unfold cutCorner
  rw [← hi, ← hj]
  obtain ⟨il, ip⟩ := i
  obtain ⟨jl, jp⟩ := j
  cases il <;> cases jl <;> rfl

theorem edgeOf_facts (c : Bounds ℝ) (p : Point ℝ) :
    (edgeOf c p = .left → p.y ≠ c.top) ∧ (edgeOf c p = .bot → p.x ≠ c.left) ∧
      (edgeOf c p = .right → p.y ≠ c.top ∧ p.y ≠ c.bot) := by
  unfold edgeOf
  split_ifs <;> simp_all

/-- The computed area, before it is decided whether to turn over: that of the part with the mark. -/
theorem rawArea_mark (c : Bounds ℝ) (hx : c.left < c.right) (hsq : vside c = hside c) (i j : Inter ℝ)
    (hi : InCell c i.pt) (hj : InCell c j.pt) (li : OnLoc c i) (lj : OnLoc c j)
    (ei : i.loc = edgeOf c i.pt) (ej : j.loc = edgeOf c j.pt)
    (hno : ¬ AlongEdgeLine c i.pt j.pt) (a : ℝ)
    (ha : a = (if i.isHoriz != j.isHoriz then
        1 / 2 * i.away (if i.isHoriz != j.isHoriz then cornerOf c [i, j] else ⟨c.left, c.bot⟩) *
          j.away (if i.isHoriz != j.isHoriz then cornerOf c [i, j] else ⟨c.left, c.bot⟩)
      else 1 / 2 * (c.top - c.bot) *
        (i.away (if i.isHoriz != j.isHoriz then cornerOf c [i, j] else ⟨c.left, c.bot⟩) +
          j.away (if i.isHoriz != j.isHoriz then cornerOf c [i, j] else ⟨c.left, c.bot⟩)))) :
    let m := cutMark c i.pt j.pt
    (0 < sideOf i.pt j.pt (m.x, m.y) ∧ a = areaOf (leftPart c i.pt j.pt)) ∨
      (sideOf i.pt j.pt (m.x, m.y) < 0 ∧ a = areaOf (leftPart c j.pt i.pt)) := by
  obtain ⟨il, ix, iy⟩ := i
  obtain ⟨jl, jx, jy⟩ := j
  have hy : c.bot < c.top := by unfold vside hside at hsq; linarith
  unfold vside hside at hsq
  obtain ⟨i1, i2, i3, i4⟩ := hi
  obtain ⟨j1, j2, j3, j4⟩ := hj
  unfold AlongEdgeLine at hno
  simp only at i1 i2 i3 i4 j1 j2 j3 j4 hno ei ej ⊢
  push Not at hno
  obtain ⟨nx, ny⟩ := hno
  obtain ⟨fi1, fi2, fi3⟩ := edgeOf_facts c ⟨ix, iy⟩
  obtain ⟨fj1, fj2, fj3⟩ := edgeOf_facts c ⟨jx, jy⟩
  rw [← ei] at fi1 fi2 fi3
  rw [← ej] at fj1 fj2 fj3
  have pos : ∀ u v : ℝ, u ≤ v → |v - u| = v - u := fun u v h => abs_of_nonneg (by linarith)
  have neg : ∀ u v : ℝ, v ≤ u → |v - u| = u - v := fun u v h => by rw [abs_of_nonpos (by linarith)]; ring
  unfold cutMark cutCorner
  rw [← ei, ← ej]
  cases il <;> cases jl <;>
    simp only [OnLoc, Inter.isHoriz, Inter.away, cornerOf, List.foldl_cons, List.foldl_nil, reduceCtorEq,
      decide_true, decide_false, Bool.or_true, Bool.or_false, Bool.true_or, bne_self_eq_false, Bool.false_eq_true, if_false,
      if_true, show (false != true) = true from rfl, show (true != false) = true from rfl, true_imp_iff,
      false_imp_iff] at li lj ha fi1 fi2 fi3 fj1 fj2 fj3 <;> simp only [sideOf]
  -- bot bot
  · exact absurd li (ny (by linarith)).1
  -- bot left
  · subst li lj; left
    have n1 : c.left < ix := lt_of_le_of_ne i1 (fun h => (nx h.symm).1 h.symm)
    have n2 : c.bot < jy := lt_of_le_of_ne j3 (fun h => (ny h).1 rfl)
    refine ⟨by nlinarith, ?_⟩
    rw [cut_left_bot c ix jy ⟨n1, i2⟩ ⟨n2, j4⟩, ha, pos _ _ n1.le, pos _ _ n2.le]
  -- bot top
  · subst li lj; left
    have n1 : c.left < ix := lt_of_le_of_ne i1 (Ne.symm fi2)
    refine ⟨by nlinarith, ?_⟩
    rw [cut_along c hy ix jx ⟨i1, i2⟩ ⟨j1, j2⟩, ha, pos _ _ i1, pos _ _ j1]
  -- bot right
  · subst li lj; right
    have n1 : ix < c.right := lt_of_le_of_ne i2 (fun h => (nx h).2 h)
    have n2 : c.bot < jy := lt_of_le_of_ne j3 (fun h => (ny h).1 rfl)
    refine ⟨by nlinarith, ?_⟩
    rw [cut_right_bot c ix jy ⟨i1, n1⟩ ⟨n2, j4⟩, ha, neg _ _ n1.le, pos _ _ n2.le]
  -- left bot
  · subst li lj; right
    have n1 : c.left < jx := lt_of_le_of_ne j1 (fun h => (nx h).1 rfl)
    have n2 : c.bot < iy := lt_of_le_of_ne i3 (fun h => (ny h.symm).1 h.symm)
    refine ⟨by nlinarith, ?_⟩
    rw [cut_left_bot c jx iy ⟨n1, j2⟩ ⟨n2, i4⟩, ha, pos _ _ n1.le, pos _ _ n2.le]; ring
  -- left left
  · exact absurd li (nx (by linarith)).1
  -- left top
  · subst li lj; left
    have n1 : c.left < jx := lt_of_le_of_ne j1 (fun h => (nx h).1 rfl)
    have n2 : iy < c.top := lt_of_le_of_ne i4 (fun h => (ny h).2 h)
    refine ⟨by nlinarith, ?_⟩
    rw [cut_left_top c jx iy ⟨n1, j2⟩ ⟨i3, n2⟩, ha, pos _ _ n1.le, neg _ _ n2.le]; ring
  -- left right
  · subst li lj; right
    have n1 : c.bot < jy := lt_of_le_of_ne j3 (Ne.symm fj3.2)
    refine ⟨by nlinarith, ?_⟩
    rw [cut_across c hx iy jy ⟨i3, i4⟩ ⟨j3, j4⟩, ha, pos _ _ i3, pos _ _ j3, hsq]
  -- top bot
  · subst li lj; right
    have n1 : c.left < jx := lt_of_le_of_ne j1 (Ne.symm fj2)
    refine ⟨by nlinarith, ?_⟩
    rw [cut_along c hy jx ix ⟨j1, j2⟩ ⟨i1, i2⟩, ha, pos _ _ i1, pos _ _ j1]; ring
  -- top left
  · subst li lj; right
    have n1 : c.left < ix := lt_of_le_of_ne i1 (fun h => (nx h.symm).1 h.symm)
    have n2 : jy < c.top := lt_of_le_of_ne j4 (fun h => (ny h.symm).2 rfl)
    refine ⟨by nlinarith, ?_⟩
    rw [cut_left_top c ix jy ⟨n1, i2⟩ ⟨j3, n2⟩, ha, pos _ _ n1.le, neg _ _ n2.le]
  -- top top
  · exact absurd li (ny (by linarith)).2
  -- top right
  · subst li lj; left
    have n1 : ix < c.right := lt_of_le_of_ne i2 (fun h => (nx h).2 h)
    have n2 : jy < c.top := lt_of_le_of_ne j4 (fun h => (ny h.symm).2 rfl)
    refine ⟨by nlinarith, ?_⟩
    rw [cut_right_top c ix jy ⟨i1, n1⟩ ⟨j3, n2⟩, ha, neg _ _ n1.le, neg _ _ n2.le]
  -- right bot
  · subst li lj; left
    have n1 : jx < c.right := lt_of_le_of_ne j2 (fun h => (nx h.symm).2 rfl)
    have n2 : c.bot < iy := lt_of_le_of_ne i3 (fun h => (ny h.symm).1 h.symm)
    refine ⟨by nlinarith, ?_⟩
    rw [cut_right_bot c jx iy ⟨j1, n1⟩ ⟨n2, i4⟩, ha, neg _ _ n1.le, pos _ _ n2.le]; ring
  -- right left
  · subst li lj; left
    have n1 : c.bot < iy := lt_of_le_of_ne i3 (Ne.symm fi3.2)
    refine ⟨by nlinarith, ?_⟩
    rw [cut_across c hx jy iy ⟨j3, j4⟩ ⟨i3, i4⟩, ha, pos _ _ i3, pos _ _ j3, hsq]; ring
  -- right top
  · subst li lj; right
    have n1 : jx < c.right := lt_of_le_of_ne j2 (fun h => (nx h.symm).2 rfl)
    have n2 : iy < c.top := lt_of_le_of_ne i4 (fun h => (ny h).2 h)
    refine ⟨by nlinarith, ?_⟩
    rw [cut_right_top c jx iy ⟨j1, n1⟩ ⟨i3, n2⟩, ha, neg _ _ n1.le, neg _ _ n2.le]; ring
  -- right right
  · exact absurd li (nx (by linarith)).2

theorem sameSide_iff (a b p q : Point ℝ) :
    sameSide a b p q = true ↔ (b.y - a.y) - (b.x - a.x) ≠ 0 ∧ 0 < (p.x + p.y) * (q.x + q.y) := by
  unfold sameSide
  simp only [decide_eq_true_eq]
  have e : (((b.y - a.y) * p.y - (b.x - a.x) * p.x + (b.y - a.y) * p.x - (b.x - a.x) * p.y) *
      ((b.y - a.y) * q.y - (b.x - a.x) * q.x + (b.y - a.y) * q.x - (b.x - a.x) * q.y)) =
      ((b.y - a.y) - (b.x - a.x)) ^ 2 * ((p.x + p.y) * (q.x + q.y)) := by ring
  rw [e]
  constructor
  · intro h
    have h0 : (b.y - a.y) - (b.x - a.x) ≠ 0 := by rintro h0; rw [h0] at h; simp at h
    have : 0 < ((b.y - a.y) - (b.x - a.x)) ^ 2 := by positivity
    exact ⟨h0, (mul_pos_iff_of_pos_left this).1 h⟩
  · rintro ⟨h0, h1⟩
    have : 0 < ((b.y - a.y) - (b.x - a.x)) ^ 2 := by positivity
    exact mul_pos this h1

/-- Two points of the perpendicular through the end: sides of the line through them are signs of `ahead`. -/
theorem sideOf_ahead (beam : Seg ℝ) (hs : beam.beg ≠ beam.fin) (p q : Point ℝ) (hp : ahead beam p = 0)
    (hq : ahead beam q = 0) (hpq : p ≠ q) :
    ∃ k : ℝ, k ≠ 0 ∧ (∀ w, sideOf p q w = k * ahead beam ⟨w.1, w.2⟩) ∧
      (q.y - p.y) - (q.x - p.x) = -k * ((beam.fin.x - beam.beg.x) + (beam.fin.y - beam.beg.y)) := by
  obtain ⟨⟨bx, bY⟩, ⟨fx, fy⟩⟩ := beam
  obtain ⟨px, py⟩ := p
  obtain ⟨qx, qy⟩ := q
  simp only [ahead] at hp hq ⊢
  set u := fx - bx with hu
  set v := fy - bY with hv
  have hn : 0 < u ^ 2 + v ^ 2 := by
    by_contra h
    have h1 : u = 0 := by nlinarith [sq_nonneg u, sq_nonneg v]
    have h2 : v = 0 := by nlinarith [sq_nonneg u, sq_nonneg v]
    exact hs (point_ext (by simp only; linarith) (by simp only; linarith))
  have hperp : (qx - px) * u + (qy - py) * v = 0 := by linarith
  -- q - p = -k * (-v, u)
  have k1 : qx - px = ((qx - px) * v - (qy - py) * u) / (u ^ 2 + v ^ 2) * v := by
    field_simp
    linear_combination u * hperp
  have k2 : qy - py = -(((qx - px) * v - (qy - py) * u) / (u ^ 2 + v ^ 2)) * u := by
    field_simp
    linear_combination v * hperp
  set k := ((qx - px) * v - (qy - py) * u) / (u ^ 2 + v ^ 2) with hk
  refine ⟨k, ?_, ?_, ?_⟩
  · intro h0
    apply hpq
    rw [h0] at k1 k2
    exact point_ext (by simp only; linarith) (by simp only; linarith)
  · intro w
    simp only [sideOf]
    rw [k1, k2]
    linear_combination -k * hp
  · rw [k1, k2]; ring

theorem cut_symm (c : Bounds ℝ) (p q : Point ℝ) : cutCorner c p q = cutCorner c q p ∧ cutMark c p q = cutMark c q p := by
  have h : cutCorner c p q = cutCorner c q p := by
    unfold cutCorner
    cases edgeOf c p <;> cases edgeOf c q <;> rfl
  refine ⟨h, ?_⟩
  unfold cutMark
  rw [h]
  cases edgeOf c p <;> cases edgeOf c q <;> rfl

/-- The line across the beam at its end. -/
def acrossRay (beam : Seg ℝ) : Ray ℝ := ⟨beam.fin, ⟨beam.beg.y - beam.fin.y, beam.fin.x - beam.beg.x⟩⟩

theorem ahead_at (beam : Seg ℝ) (t : ℝ) : ahead beam ((acrossRay beam).at t) = 0 := by
  simp only [ahead, acrossRay, Ray.at]; ring

theorem at_of_ahead (beam : Seg ℝ) (hs : beam.beg ≠ beam.fin) (p : Point ℝ) (h : ahead beam p = 0) :
    ∃ t, p = (acrossRay beam).at t := by
  obtain ⟨⟨bx, bY⟩, ⟨fx, fy⟩⟩ := beam
  obtain ⟨px, py⟩ := p
  simp only [ahead, acrossRay, Ray.at] at h ⊢
  set u := fx - bx with hu
  set v := fy - bY with hv
  have hn : 0 < u ^ 2 + v ^ 2 := by
    by_contra h
    have h1 : u = 0 := by nlinarith [sq_nonneg u, sq_nonneg v]
    have h2 : v = 0 := by nlinarith [sq_nonneg u, sq_nonneg v]
    exact hs (point_ext (by simp only; linarith) (by simp only; linarith))
  have e : bY - fy = -v := by rw [hv]; ring
  refine ⟨((py - fy) * u - (px - fx) * v) / (u ^ 2 + v ^ 2), point_ext ?_ ?_⟩
  · simp only [e]; field_simp; linear_combination u * h
  · simp only; field_simp; linear_combination v * h

theorem across_inters (c : Bounds ℝ) (hx : c.left < c.right) (hy : c.bot < c.top) (beam : Seg ℝ)
    (hs : beam.beg ≠ beam.fin) (hf : Inside c beam.fin) :
    ∃ i j, rayInters exactCmp c (acrossRay beam) = some [i, j] ∧ (acrossRay beam).Off c ∧ CutEnds c beam i.pt j.pt ∧
      ∀ p, OnBoundary c p → ahead beam p = 0 → p = i.pt ∨ p = j.pt := by
  set r := acrossRay beam with hr
  have hd : r.delta.x ≠ 0 ∨ r.delta.y ≠ 0 := by
    by_contra h
    push Not at h
    refine hs (point_ext ?_ ?_)
    · have := h.2; simp only [hr, acrossRay] at this; linarith
    · have := h.1; simp only [hr, acrossRay] at this; linarith
  have hoff' : r.Off c := by
    obtain ⟨q1, q2, q3, q4⟩ := hf
    exact ⟨fun _ => ⟨q3.ne', q4.ne⟩, fun _ => ⟨q1.ne', q2.ne⟩⟩
  obtain ⟨l, l1, l2, l3, l4, l5⟩ := rayInters_spec c hx hy r
  obtain ⟨t, t0, tb, -⟩ := exit c r hf hd
  obtain ⟨u, u0, ub, -⟩ := exit c ⟨beam.fin, ⟨-r.delta.x, -r.delta.y⟩⟩ hf (by simpa only [ne_eq, neg_eq_zero] using hd)
  have eu : (⟨beam.fin, ⟨-r.delta.x, -r.delta.y⟩⟩ : Ray ℝ).at u = r.at (-u) := by
    simp only [Ray.at]; exact point_ext (by simp only [hr, acrossRay]; ring) (by simp only [hr, acrossRay]; ring)
  rw [eu] at ub
  have hne : r.at t ≠ r.at (-u) := by
    rw [ne_eq, at_inj _ hd]; intro h; linarith
  have hlen : l.length = 2 := by
    have := two_of_distinct l _ _ hne (l5 hd hoff' t tb) (l5 hd hoff' (-u) ub)
    omega
  obtain ⟨i, j, rfl⟩ := List.length_eq_two.1 hlen
  have all : ∀ p, OnBoundary c p → ahead beam p = 0 → p = i.pt ∨ p = j.pt := by
    intro p hp h0
    obtain ⟨t, rfl⟩ := at_of_ahead beam hs p h0
    obtain ⟨k, hk, e⟩ := l5 hd hoff' t hp
    rw [← e]
    simp only [List.mem_cons, List.not_mem_nil, or_false] at hk
    rcases hk with rfl | rfl
    · exact .inl rfl
    · exact .inr rfl
  have h1 := all _ tb (ahead_at beam t)
  have h2 := all _ ub (ahead_at beam _)
  have hij : i.pt ≠ j.pt := l3 i j rfl
  refine ⟨i, j, l1, hoff', ⟨hij, ?_, ?_⟩, all⟩
  · rcases h1 with h1 | h1
    · exact ⟨h1 ▸ tb, by rw [← h1]; exact ahead_at beam t⟩
    · rcases h2 with h2 | h2
      · exact ⟨h2 ▸ ub, by rw [← h2]; exact ahead_at beam _⟩
      · exact absurd (h1.trans h2.symm) hne
  · rcases h1 with h1 | h1
    · rcases h2 with h2 | h2
      · exact absurd (h1.trans h2.symm) hne
      · exact ⟨h2 ▸ ub, by rw [← h2]; exact ahead_at beam _⟩
    · exact ⟨h1 ▸ tb, by rw [← h1]; exact ahead_at beam t⟩

/-- The cut has exactly two ends on the boundary. -/
theorem cut_ends_exist (c : Bounds ℝ) (hx : c.left < c.right) (hy : c.bot < c.top) (beam : Seg ℝ)
    (hs : beam.beg ≠ beam.fin) (hf : Inside c beam.fin) : ∃ p q, CutEnds c beam p q := by
  obtain ⟨i, j, -, -, h, -⟩ := across_inters c hx hy beam hs hf
  exact ⟨_, _, h⟩

theorem beyond_before (c : Bounds ℝ) (hx : c.left < c.right) (hy : c.bot < c.top) (beam : Seg ℝ)
    (hs : beam.beg ≠ beam.fin) (p q : Point ℝ) (h : CutEnds c beam p q) :
    (∀ w : Point ℝ, 0 < sideOf p q (w.x, w.y) → (0 < ahead beam w ∧ leftPart c p q = beyond c beam) ∨
      (ahead beam w < 0 ∧ leftPart c p q = before c beam)) ∧
    (∀ w : Point ℝ, sideOf p q (w.x, w.y) < 0 → (0 < ahead beam w ∧ leftPart c q p = beyond c beam) ∨
      (ahead beam w < 0 ∧ leftPart c q p = before c beam)) ∧
    areaOf (beyond c beam) + areaOf (before c beam) = cellArea c := by
  obtain ⟨hpq, ⟨-, hp⟩, -, hq⟩ := h
  obtain ⟨k, k0, kw, -⟩ := sideOf_ahead beam hs p q hp hq hpq
  have hanti : ∀ w, sideOf q p w = - sideOf p q w := by intro w; unfold sideOf; ring
  have hadd := parts_add c hx hy.le p q hpq
  rcases lt_or_gt_of_ne k0 with hk | hk
  · have e1 : leftPart c p q = before c beam := by
      ext w
      simp only [leftPart, before, Set.mem_setOf_eq, kw]
      constructor
      · rintro ⟨a, b⟩; exact ⟨a, by by_contra h; push Not at h; nlinarith⟩
      · rintro ⟨a, b⟩; exact ⟨a, by nlinarith⟩
    have e2 : leftPart c q p = beyond c beam := by
      ext w
      simp only [leftPart, beyond, Set.mem_setOf_eq, hanti, kw]
      constructor
      · rintro ⟨a, b⟩; exact ⟨a, by by_contra h; push Not at h; nlinarith⟩
      · rintro ⟨a, b⟩; exact ⟨a, by nlinarith⟩
    refine ⟨fun w hw => .inr ⟨?_, e1⟩, fun w hw => .inl ⟨?_, e2⟩, ?_⟩
    · rw [kw] at hw; by_contra h; push Not at h; nlinarith
    · rw [kw] at hw; by_contra h; push Not at h; nlinarith
    · rw [← e1, ← e2, add_comm]; exact hadd
  · have e1 : leftPart c p q = beyond c beam := by
      ext w
      simp only [leftPart, beyond, Set.mem_setOf_eq, kw]
      constructor
      · rintro ⟨a, b⟩; exact ⟨a, by by_contra h; push Not at h; nlinarith⟩
      · rintro ⟨a, b⟩; exact ⟨a, by nlinarith⟩
    have e2 : leftPart c q p = before c beam := by
      ext w
      simp only [leftPart, before, Set.mem_setOf_eq, hanti, kw]
      constructor
      · rintro ⟨a, b⟩; exact ⟨a, by by_contra h; push Not at h; nlinarith⟩
      · rintro ⟨a, b⟩; exact ⟨a, by nlinarith⟩
    refine ⟨fun w hw => .inl ⟨?_, e1⟩, fun w hw => .inr ⟨?_, e2⟩, ?_⟩
    · rw [kw] at hw; by_contra h; push Not at h; nlinarith
    · rw [kw] at hw; by_contra h; push Not at h; nlinarith
    · rw [← e1, ← e2]; exact hadd

open Classical in
/-- The area taken from the two intersections of the cut. -/
theorem chunkArea_which (c : Bounds ℝ) (hx : c.left < c.right) (hsq : vside c = hside c) (beam : Seg ℝ)
    (hs : beam.beg ≠ beam.fin) (hf : Inside c beam.fin) (i j : Inter ℝ)
    (hl : rayInters exactCmp c (acrossRay beam) = some [i, j]) (hoff : (acrossRay beam).Off c)
    (hcut : CutEnds c beam i.pt j.pt) :
    chunkArea beam c true [i, j] =
      some (areaOf (if TakesBeyond c beam i.pt j.pt then beyond c beam else before c beam)) := by
  have hy : c.bot < c.top := by unfold vside hside at hsq; linarith
  have hin := rayInters_inCell exactCmp c _ hx.le hy.le _ hl
  have hon := rayInters_onLoc c hy _ _ hl
  have hed := rayInters_edgeOf c hx hy _ hoff _ hl
  have hij := hcut.1
  obtain ⟨k, k0, kw, kd⟩ := sideOf_ahead beam hs i.pt j.pt hcut.2.1.2 hcut.2.2.2 hij
  have hne : ¬ AlongEdgeLine c i.pt j.pt := by
    -- the end of the beam is on the cut and inside the cell
    have h0 : sideOf i.pt j.pt (beam.fin.x, beam.fin.y) = 0 := by rw [kw]; simp [ahead]
    obtain ⟨f1, f2, f3, f4⟩ := hf
    unfold sideOf at h0
    simp only at h0
    rintro (⟨e, h⟩ | ⟨e, h⟩)
    · rw [← e] at h0
      simp only [sub_self, zero_mul, zero_sub, neg_eq_zero] at h0
      rcases mul_eq_zero.1 h0 with h0 | h0
      · exact hij (point_ext e (by linarith))
      · rcases h with h | h <;> linarith
    · rw [← e] at h0
      simp only [sub_self, zero_mul, sub_zero] at h0
      rcases mul_eq_zero.1 h0 with h0 | h0
      · exact hij (point_ext (by linarith) e)
      · rcases h with h | h <;> linarith
  obtain ⟨a, ha⟩ : ∃ a, a = (if i.isHoriz != j.isHoriz then
        1 / 2 * i.away (if i.isHoriz != j.isHoriz then cornerOf c [i, j] else ⟨c.left, c.bot⟩) *
          j.away (if i.isHoriz != j.isHoriz then cornerOf c [i, j] else ⟨c.left, c.bot⟩)
      else 1 / 2 * (c.top - c.bot) *
        (i.away (if i.isHoriz != j.isHoriz then cornerOf c [i, j] else ⟨c.left, c.bot⟩) +
          j.away (if i.isHoriz != j.isHoriz then cornerOf c [i, j] else ⟨c.left, c.bot⟩))) := ⟨_, rfl⟩
  have hraw := rawArea_mark c hx hsq i j (hin i (by simp)) (hin j (by simp)) (hon i (by simp)) (hon j (by simp))
    (hed i (by simp)) (hed j (by simp)) hne a ha
  obtain ⟨b1, b2, b3⟩ := beyond_before c hx hy beam hs i.pt j.pt hcut
  have harea : area c = cellArea c := by unfold area hside vside cellArea; ring
  obtain ⟨x, hxa, -⟩ := chunkArea_part beam c true hx.le hsq [i, j] hin (by simp)
  have hval : x = if sameSide i.pt j.pt beam.beg (cutCorner c i.pt j.pt) = true then area c - a else a := by
    have hxa := hxa
    unfold chunkArea at hxa
    simp only [← ha, Bool.true_and] at hxa
    split at hxa
    swap
    · simp at hxa
    rw [Option.some.injEq, cutCorner_of c i j (hed i (by simp)) (hed j (by simp))] at hxa
    exact hxa.symm
  have hturn : sameSide i.pt j.pt beam.beg (cutCorner c i.pt j.pt) = true ↔ TurnsOver beam (cutCorner c i.pt j.pt) := by
    rw [sameSide_iff, kd]
    unfold TurnsOver
    rw [ne_eq, mul_eq_zero, not_or]
    constructor
    · rintro ⟨⟨-, h⟩, h'⟩; exact ⟨h, h'⟩
    · rintro ⟨h, h'⟩; exact ⟨⟨neg_ne_zero.2 k0, h⟩, h'⟩
  have hmark : (0 < ahead beam (cutMark c i.pt j.pt) ∧ a = areaOf (beyond c beam)) ∨
      (ahead beam (cutMark c i.pt j.pt) < 0 ∧ a = areaOf (before c beam)) := by
    rcases hraw with ⟨h1, h2⟩ | ⟨h1, h2⟩
    · rcases b1 _ h1 with ⟨q1, q2⟩ | ⟨q1, q2⟩
      · exact .inl ⟨q1, q2 ▸ h2⟩
      · exact .inr ⟨q1, q2 ▸ h2⟩
    · rcases b2 _ h1 with ⟨q1, q2⟩ | ⟨q1, q2⟩
      · exact .inl ⟨q1, q2 ▸ h2⟩
      · exact .inr ⟨q1, q2 ▸ h2⟩
  rw [hxa, hval]
  congr 1
  unfold TakesBeyond
  by_cases ht : TurnsOver beam (cutCorner c i.pt j.pt)
  · rw [if_pos (hturn.2 ht)]
    rcases hmark with ⟨h1, h2⟩ | ⟨h1, h2⟩
    · rw [if_neg (by simp only [h1, ht, not_true_eq_false, iff_false, not_true_eq_false, not_false_eq_true])]
      rw [h2, harea]; linarith
    · rw [if_pos (by simp only [not_lt.2 h1.le, ht, not_true_eq_false])]
      rw [h2, harea]; linarith
  · rw [if_neg (fun h => ht (hturn.1 h))]
    rcases hmark with ⟨h1, h2⟩ | ⟨h1, h2⟩
    · rw [if_pos (by simp only [h1, ht, not_false_eq_true])]; exact h2
    · rw [if_neg (by simp only [not_lt.2 h1.le, ht, not_false_eq_true, iff_true])]; exact h2

open Classical in
/-- **C62, occupied ends.** For every square cell and every beam that ends in its interior without having started there:
the quality is that of an occupied cell, and the probability is the larger of that of an empty cell and the share of the
part of the cell beyond the end of the beam if `TakesBeyond` holds, of the part before the end otherwise. -/
theorem occupied_share (E : Est ℝ) (c : Bounds ℝ) (hx : c.left < c.right) (hsq : vside c = hside c)
    (shift : ℝ) (beam : Seg ℝ) (hoff : ¬ AlongEdgeLine c beam.beg beam.fin)
    (hb : ¬ Inside c beam.beg) (hf : Inside c beam.fin) (p q : Point ℝ) (hcut : CutEnds c beam p q) :
    E.estimateWith exactCmp shift beam c true = some (some
      ⟨max (areaOf (if TakesBeyond c beam p q then beyond c beam else before c beam) / cellArea c) E.empty.prob,
        E.occ.qual⟩) := by
  have hy : c.bot < c.top := by unfold vside hside at hsq; linarith
  have hs : beam.beg ≠ beam.fin := by intro e; rw [e] at hb; exact hb hf
  have hn : notOnEdge exactCmp shift beam c = some beam := by
    have : hasOnEdgeLine exactCmp c beam = false := by
      rw [← Bool.not_eq_true, hasOnEdgeLine_exact c beam hs]; exact hoff
    unfold notOnEdge
    rw [this]; rfl
  obtain ⟨pos, p1, -, p3⟩ := classify_exact c hx hy beam hs hoff
  have hpos := p3.2 (.inl ⟨hb, hf⟩)
  subst hpos
  obtain ⟨i, j, hl, hoff', hij, hall⟩ := across_inters c hx hy beam hs hf
  have hsame : TakesBeyond c beam i.pt j.pt ↔ TakesBeyond c beam p q := by
    have e1 := hall p hcut.2.1.1 hcut.2.1.2
    have e2 := hall q hcut.2.2.1 hcut.2.2.2
    unfold TakesBeyond
    rcases e1 with rfl | rfl <;> rcases e2 with rfl | rfl
    · exact absurd rfl hcut.1
    · exact Iff.rfl
    · rw [(cut_symm c i.pt j.pt).1, (cut_symm c i.pt j.pt).2]
    · exact absurd rfl hcut.1
  have ha := chunkArea_which c hx hsq beam hs hf i j hl hoff' hij
  have harea : area c = cellArea c := by unfold area hside vside cellArea; ring
  have hchunk : E.byChunk exactCmp beam c true = some (E.byArea
      (areaOf (if TakesBeyond c beam p q then beyond c beam else before c beam)) (area c) true) := by
    unfold Est.byChunk
    rw [show chunkInters exactCmp beam c true = some [i, j] from hl]
    simp only [Option.bind_some, List.length_cons, List.length_nil]
    rw [if_neg (by norm_num), ha]
    simp only [hsame, Option.map_some]
  unfold Est.estimateWith
  rw [hn]
  simp only [Option.bind_some, p1, hchunk, Option.map_some, Est.byArea, if_true, harea]

/-- **C62, when the estimate is right.** The probability is the share of the cell beyond the obstacle whenever the test
about the origin happens to tell the measured part to be the wrong one. -/
theorem occupied_share_beyond (E : Est ℝ) (c : Bounds ℝ) (hx : c.left < c.right) (hsq : vside c = hside c)
    (shift : ℝ) (beam : Seg ℝ) (hoff : ¬ AlongEdgeLine c beam.beg beam.fin)
    (hb : ¬ Inside c beam.beg) (hf : Inside c beam.fin) (p q : Point ℝ) (hcut : CutEnds c beam p q)
    (ht : TakesBeyond c beam p q) :
    E.estimateWith exactCmp shift beam c true =
      some (some ⟨max (areaOf (beyond c beam) / cellArea c) E.empty.prob, E.occ.qual⟩) := by
  classical
  rw [occupied_share E c hx hsq shift beam hoff hb hf p q hcut, if_pos ht]

/-- **C62 with the comparisons of the code**: free beams. -/
theorem free_quality_is_smaller_share_code (E : Est ℝ) (c : Bounds ℝ) (hx : c.left < c.right) (hsq : vside c = hside c)
    (shift : ℝ) (beam : Seg ℝ) (hs : beam.beg ≠ beam.fin) (hoff : ¬ AlongEdgeLine c beam.beg beam.fin)
    (hc : Clear beam c)
    (hb : ¬ Inside c beam.beg) (hf : ¬ Inside c beam.fin) (hm : MeetsInterior c beam.beg beam.fin) :
    E.estimateWith codeCmp shift beam c false = some (some ⟨E.empty.prob, E.empty.qual *
      min (areaOf (leftPart c beam.beg beam.fin) / cellArea c) (areaOf (leftPart c beam.fin beam.beg) / cellArea c)⟩) := by
  have hy : c.bot < c.top := by unfold vside hside at hsq; linarith
  rw [estimate_tolerant_eq_exact E c hx hy shift beam hs hoff hc]
  exact free_quality_is_smaller_share E c hx hsq shift beam hs hoff hb hf hm

open Classical in
/-- **C62 with the comparisons of the code**: occupied ends. -/
theorem occupied_share_code (E : Est ℝ) (c : Bounds ℝ) (hx : c.left < c.right) (hsq : vside c = hside c)
    (shift : ℝ) (beam : Seg ℝ) (hoff : ¬ AlongEdgeLine c beam.beg beam.fin) (hc : Clear beam c)
    (hb : ¬ Inside c beam.beg) (hf : Inside c beam.fin) (p q : Point ℝ) (hcut : CutEnds c beam p q) :
    E.estimateWith codeCmp shift beam c true = some (some
      ⟨max (areaOf (if TakesBeyond c beam p q then beyond c beam else before c beam) / cellArea c) E.empty.prob,
        E.occ.qual⟩) := by
  have hy : c.bot < c.top := by unfold vside hside at hsq; linarith
  have hs : beam.beg ≠ beam.fin := by intro e; rw [e] at hb; exact hb hf
  rw [estimate_tolerant_eq_exact E c hx hy shift beam hs hoff hc]
  exact occupied_share E c hx hsq shift beam hoff hb hf p q hcut

/-! ### Concrete cases -/

/-- A beam from the left that ends in the right half of a cell far to the right and above of the origin: the test succeeds,
the measured part (to the left) is the one before the end, so the part beyond is taken. -/
example :
    let c : Bounds ℝ := ⟨10, 11, 10, 11⟩
    let beam : Seg ℝ := ⟨⟨9, 21 / 2⟩, ⟨43 / 4, 21 / 2⟩⟩
    vside c = hside c ∧ ¬ AlongEdgeLine c beam.beg beam.fin ∧ ¬ Inside c beam.beg ∧ Inside c beam.fin ∧
      CutEnds c beam ⟨43 / 4, 11⟩ ⟨43 / 4, 10⟩ ∧ TakesBeyond c beam ⟨43 / 4, 11⟩ ⟨43 / 4, 10⟩ := by
  refine ⟨by norm_num [vside, hside], by norm_num [AlongEdgeLine], by norm_num [Inside], by norm_num [Inside], ?_, ?_⟩
  · norm_num [CutEnds, OnBoundary, InCell, Inside, ahead]
  · norm_num [TakesBeyond, TurnsOver, ahead, cutMark, cutCorner, edgeOf]

/-- The same beam in the other direction, from the right: the part before the end is taken, three quarters instead of one
quarter. -/
theorem occupied_share_before_counterexample :
    ∃ (E : Est ℝ) (c : Bounds ℝ) (beam : Seg ℝ) (p q : Point ℝ), vside c = hside c ∧
      ¬ AlongEdgeLine c beam.beg beam.fin ∧ ¬ Inside c beam.beg ∧ Inside c beam.fin ∧ CutEnds c beam p q ∧
      areaOf (beyond c beam) / cellArea c = 1 / 4 ∧
      E.estimateWith exactCmp (1 / 100) beam c true = some (some ⟨3 / 4, 1⟩) := by
  have k1 : ¬ AlongEdgeLine (⟨10, 11, 10, 11⟩ : Bounds ℝ) ⟨12, 21 / 2⟩ ⟨41 / 4, 21 / 2⟩ := by norm_num [AlongEdgeLine]
  have k2 : ¬ Inside (⟨10, 11, 10, 11⟩ : Bounds ℝ) ⟨12, 21 / 2⟩ := by norm_num [Inside]
  have k3 : Inside (⟨10, 11, 10, 11⟩ : Bounds ℝ) ⟨41 / 4, 21 / 2⟩ := by norm_num [Inside]
  have k4 : CutEnds (⟨10, 11, 10, 11⟩ : Bounds ℝ) ⟨⟨12, 21 / 2⟩, ⟨41 / 4, 21 / 2⟩⟩ ⟨41 / 4, 10⟩ ⟨41 / 4, 11⟩ := by
    norm_num [CutEnds, OnBoundary, InCell, Inside, ahead]
  have k5 : ¬ TakesBeyond (⟨10, 11, 10, 11⟩ : Bounds ℝ) ⟨⟨12, 21 / 2⟩, ⟨41 / 4, 21 / 2⟩⟩ ⟨41 / 4, 10⟩ ⟨41 / 4, 11⟩ := by
    norm_num [TakesBeyond, TurnsOver, ahead, cutMark, cutCorner, edgeOf]
  have hsq : vside (⟨10, 11, 10, 11⟩ : Bounds ℝ) = hside (⟨10, 11, 10, 11⟩ : Bounds ℝ) := by norm_num [vside, hside]
  have hs : (⟨12, 21 / 2⟩ : Point ℝ) ≠ ⟨41 / 4, 21 / 2⟩ := by
    intro h; injection h with h; norm_num at h
  have area0 : areaOf (beyond (⟨10, 11, 10, 11⟩ : Bounds ℝ) ⟨⟨12, 21 / 2⟩, ⟨41 / 4, 21 / 2⟩⟩) = 1 / 4 := by
    have h := cut_along ⟨10, 11, 10, 11⟩ (by norm_num) (41 / 4) (41 / 4) (by norm_num) (by norm_num)
    simp only at h
    have e : beyond (⟨10, 11, 10, 11⟩ : Bounds ℝ) ⟨⟨12, 21 / 2⟩, ⟨41 / 4, 21 / 2⟩⟩ =
        leftPart ⟨10, 11, 10, 11⟩ ⟨41 / 4, 10⟩ ⟨41 / 4, 11⟩ := by
      ext w
      simp only [beyond, leftPart, ahead, sideOf, Set.mem_setOf_eq]
      constructor <;> rintro ⟨a, b⟩ <;> exact ⟨a, by linarith⟩
    rw [e, h]; norm_num
  have hsum := (beyond_before _ (by norm_num) (by norm_num) _ hs _ _ k4).2.2
  have hcell : cellArea (⟨10, 11, 10, 11⟩ : Bounds ℝ) = 1 := by norm_num [cellArea]
  refine ⟨⟨⟨95 / 100, 1⟩, ⟨1 / 100, 1⟩, 1 / 100, 1 / 2⟩, ⟨10, 11, 10, 11⟩, ⟨⟨12, 21 / 2⟩, ⟨41 / 4, 21 / 2⟩⟩,
    ⟨41 / 4, 10⟩, ⟨41 / 4, 11⟩, hsq, k1, k2, k3, k4, ?_, ?_⟩
  · rw [area0, hcell]; norm_num
  · classical
    rw [occupied_share _ _ (by norm_num) hsq _ _ k1 k2 k3 _ _ k4, if_neg k5, hcell]
    rw [area0, hcell] at hsum
    have : areaOf (before (⟨10, 11, 10, 11⟩ : Bounds ℝ) ⟨⟨12, 21 / 2⟩, ⟨41 / 4, 21 / 2⟩⟩) = 3 / 4 := by linarith
    rw [this]
    norm_num

/-! ### Free beams that begin or end inside the cell -/

theorem onLoc_not_inside (c : Bounds ℝ) (i : Inter ℝ) (h : OnLoc c i) : ¬ Inside c i.pt := by
  rintro ⟨h1, h2, h3, h4⟩
  unfold OnLoc at h
  cases hl : i.loc <;> rw [hl] at h <;> simp only at h <;> linarith

theorem between_inside (c : Bounds ℝ) (a b : Point ℝ) (ha : InCell c a) (hb : Inside c b) (t : ℝ) (h0 : 0 < t)
    (h1 : t ≤ 1) : Inside c (between a b t) := by
  obtain ⟨a1, a2, a3, a4⟩ := ha
  obtain ⟨b1, b2, b3, b4⟩ := hb
  refine ⟨?_, ?_, ?_, ?_⟩ <;> simp only [between] <;> nlinarith

theorem between_flip (a b : Point ℝ) (t : ℝ) : between a b t = between b a (1 - t) := by
  unfold between; exact point_ext (by simp only; ring) (by simp only; ring)

theorem between_sub (a b : Point ℝ) (t u : ℝ) (h : t ≠ 1) :
    between a b u = between (between a b t) b ((u - t) / (1 - t)) := by
  have : 1 - t ≠ 0 := sub_ne_zero.2 (Ne.symm h)
  unfold between
  refine point_ext ?_ ?_ <;> simp only <;> field_simp <;> ring

/-- No two points of the boundary on a segment that ends inside. -/
theorem one_crossing (c : Bounds ℝ) (a b : Point ℝ) (hb : Inside c b) (t u : ℝ) (ht1 : t ≤ 1) (hu1 : u ≤ 1)
    (ht : OnBoundary c (between a b t)) (hu : OnBoundary c (between a b u)) : t = u := by
  have e1 : between a b 1 = b := point_ext (by simp [between]) (by simp [between])
  have key : ∀ t u, t < u → u ≤ 1 → OnBoundary c (between a b t) → OnBoundary c (between a b u) → False := by
    intro t u htu hu1 ht hu
    have h1 : t ≠ 1 := by linarith
    have hpos : 0 < 1 - t := by linarith
    rw [between_sub a b t u h1] at hu
    exact hu.2 (between_inside c _ b ht.1 hb _ (div_pos (by linarith) hpos) (by rw [div_le_one hpos]; linarith))
  rcases lt_trichotomy t u with h | h | h
  · exact (key t u h hu1 ht hu).elim
  · exact h
  · exact (key u t h ht1 hu ht).elim

/-- **C62, free beams that begin or end inside the cell**: the probability of an empty cell with the quality for unknown
shares. -/
theorem free_end_inside (E : Est ℝ) (c : Bounds ℝ) (hx : c.left < c.right) (hy : c.bot < c.top)
    (shift : ℝ) (beam : Seg ℝ) (hs : beam.beg ≠ beam.fin) (hoff : ¬ AlongEdgeLine c beam.beg beam.fin)
    (hin : Inside c beam.beg ∨ Inside c beam.fin) :
    E.estimateWith exactCmp shift beam c false = some (some ⟨E.empty.prob, E.unknownQual⟩) := by
  have hn : notOnEdge exactCmp shift beam c = some beam := by
    have : hasOnEdgeLine exactCmp c beam = false := by
      rw [← Bool.not_eq_true, hasOnEdgeLine_exact c beam hs]; exact hoff
    unfold notOnEdge
    rw [this]; rfl
  have eb : between beam.beg beam.fin 0 = beam.beg := point_ext (by simp [between]) (by simp [between])
  have ef : between beam.beg beam.fin 1 = beam.fin := point_ext (by simp [between]) (by simp [between])
  have hmeet : MeetsInterior c beam.beg beam.fin := by
    rcases hin with h | h
    · exact ⟨0, le_rfl, zero_le_one, by rw [eb]; exact h⟩
    · exact ⟨1, zero_le_one, le_rfl, by rw [ef]; exact h⟩
  obtain ⟨pos, p1, p2, -⟩ := classify_exact c hx hy beam hs hoff
  have hpos : pos ≠ .unrelated ∧ pos ≠ .touches := by
    constructor <;> intro e <;> exact (p2.1 (by tauto)).1 hmeet
  obtain ⟨bi, ei, q1, q2, q3⟩ := isInside_exact c hx hy beam
  have hbyChunk : ¬ (Inside c beam.beg ∧ Inside c beam.fin) →
      E.byChunk exactCmp beam c false = some ⟨E.empty.prob, E.unknownQual⟩ := by
    intro hone
    obtain ⟨l', m1, -, m3, m4, m5⟩ := rayInters_spec c hx hy (Ray.ofSeg beam)
    have mon := rayInters_onLoc c hy _ _ m1
    have mcell := rayInters_inCell exactCmp c _ hx.le hy.le _ m1
    obtain ⟨l, l1, l2, l3, -⟩ := segInters_spec c hx hy beam hs hoff
    have hl : l = l'.filter fun i => beam.containsInters exactCmp i.pt := by
      unfold segInters at l1
      rw [m1] at l1
      exact (Option.some.inj l1).symm
    have hmem : ∀ i ∈ l, ∃ t, 0 ≤ t ∧ t ≤ 1 ∧ i.pt = between beam.beg beam.fin t ∧ OnBoundary c i.pt := by
      intro i hi
      rw [hl, List.mem_filter] at hi
      obtain ⟨t, ht⟩ := m4 i hi.1
      rw [ofSeg_at] at ht
      have := (containsInters_exact beam hs t).1 (ht ▸ hi.2)
      exact ⟨t, this.1, this.2, ht, mcell i hi.1, onLoc_not_inside c i (mon i hi.1)⟩
    have huniq : ∀ i ∈ l, ∀ j ∈ l, i.pt = j.pt := by
      intro i hi j hj
      obtain ⟨t, t0, t1, te, tb⟩ := hmem i hi
      obtain ⟨u, u0, u1, ue, ub⟩ := hmem j hj
      rw [te, ue]
      rw [te] at tb
      rw [ue] at ub
      rcases hin with h | h
      · rw [between_flip] at tb ub
        have := one_crossing c beam.fin beam.beg h _ _ (by linarith) (by linarith) tb ub
        rw [show t = u by linarith]
      · rw [one_crossing c beam.beg beam.fin h t u t1 u1 tb ub]
    have hex : ∃ i, i ∈ l := by
      -- the segment from the inside end to the other one leaves the cell
      have key : ∀ a b : Point ℝ, a ≠ b → Inside c a → ¬ Inside c b → ∃ t, 0 ≤ t ∧ t ≤ 1 ∧ OnBoundary c (between a b t) := by
        intro a b hab ha hb
        have hd : b.x - a.x ≠ 0 ∨ b.y - a.y ≠ 0 := by
          by_contra h; push Not at h
          exact hab (point_ext (by linarith [h.1]) (by linarith [h.2]))
        obtain ⟨t, t0, tb, ti⟩ := exit c ⟨a, ⟨b.x - a.x, b.y - a.y⟩⟩ ha hd
        refine ⟨t, t0.le, ?_, tb⟩
        by_contra h1
        push Not at h1
        have := ti 1 zero_le_one h1
        apply hb
        have e : (⟨a, ⟨b.x - a.x, b.y - a.y⟩⟩ : Ray ℝ).at 1 = b := by
          simp only [Ray.at]; exact point_ext (by simp) (by simp)
        rwa [e] at this
      rcases hin with h | h
      · obtain ⟨t, t0, t1, tb⟩ := key beam.beg beam.fin hs h (fun h' => hone ⟨h, h'⟩)
        obtain ⟨i, hi, -⟩ := l3 t t0 t1 tb
        exact ⟨i, hi⟩
      · obtain ⟨t, t0, t1, tb⟩ := key beam.fin beam.beg hs.symm h (fun h' => hone ⟨h', h⟩)
        rw [between_flip] at tb
        obtain ⟨i, hi, -⟩ := l3 (1 - t) (by linarith) (by linarith) tb
        exact ⟨i, hi⟩
    have hlen : l.length = 1 := by
      obtain ⟨i0, hi0⟩ := hex
      have h0 : l.length ≠ 0 := by
        intro h
        rw [List.length_eq_zero_iff] at h
        rw [h] at hi0
        exact List.not_mem_nil hi0
      have h2 : l.length ≠ 2 := by
        intro h2
        obtain ⟨i, j, hij⟩ := List.length_eq_two.1 h2
        have hfil : l'.length = 2 := by
          have h1 := List.length_filter_le (fun i => beam.containsInters exactCmp i.pt) l'
          rw [← hl, h2] at h1
          obtain ⟨_, m1', m2', -⟩ := rayInters_spec c hx hy (Ray.ofSeg beam)
          rw [m1] at m1'
          rw [← Option.some.inj m1'] at m2'
          omega
        have he : l' = [i, j] := by
          rw [← hij, hl]
          symm
          exact List.filter_sublist.eq_of_length (by rw [← hl, hfil, h2])
        exact m3 i j he (huniq i (by rw [hij]; simp) j (by rw [hij]; simp))
      omega
    unfold Est.byChunk
    rw [show chunkInters exactCmp beam c false = some l from l1]
    simp only [Option.bind_some, hlen, if_true, Bool.not_false]
  have hlies : pos = .liesInside ∨ ¬ (Inside c beam.beg ∧ Inside c beam.fin) := by
    by_contra h
    push Not at h
    obtain ⟨h1, h2, h3⟩ := h
    unfold classify at p1
    rw [q1] at p1
    simp only [Option.bind_some] at p1
    have e1 : bi = true := q2.2 h2
    have e2 : ei = true := by
      rw [q3]
      first | exact .inl h3 | exact h3 | tauto
    rw [e1, e2] at p1
    simp at p1
    exact h1 p1.symm
  unfold Est.estimateWith
  rw [hn]
  simp only [Option.bind_some, p1]
  rcases hlies with rfl | h
  · simp
  · cases pos
    case unrelated => exact absurd rfl hpos.1
    case touches => exact absurd rfl hpos.2
    case liesInside => simp
    all_goals simp only [Bool.false_eq_true, if_false, hbyChunk h, Option.map_some]

example : Inside (⟨0, 1, 0, 1⟩ : Bounds ℝ) ⟨1 / 2, 1 / 2⟩ ∧ ¬ AlongEdgeLine (⟨0, 1, 0, 1⟩ : Bounds ℝ) ⟨1 / 2, 1 / 2⟩ ⟨3, 1⟩ := by
  norm_num [Inside, AlongEdgeLine]

end Slam.Estimator
