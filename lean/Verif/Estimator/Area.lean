import Verif.Estimator.Parts

/-!
# The estimates are shares of the cell's area (C62)
-/

set_option autoImplicit false
set_option linter.unusedSectionVars false

namespace Slam.Estimator
open Slam.Grid Slam.Rect Slam.Cells MeasureTheory

theorem le_lin (a b u v x y : ℝ) (h : a < b) : y ≤ lin a b u v x ↔ (y - u) * (b - a) ≤ (v - u) * (x - a) := by
  have hb : 0 < b - a := by linarith
  unfold lin
  rw [← sub_le_iff_le_add', ← mul_div_assoc, le_div_iff₀ hb]

theorem lin_le (a b u v x y : ℝ) (h : a < b) : lin a b u v x ≤ y ↔ (v - u) * (x - a) ≤ (y - u) * (b - a) := by
  have hb : 0 < b - a := by linarith
  unfold lin
  rw [← le_sub_iff_add_le', ← mul_div_assoc, div_le_iff₀ hb]

theorem lin_const (a b u x : ℝ) : lin a b u u x = u := by simp [lin]

/-- Below a line from the left to the right edge. -/
theorem cut_across (c : Bounds ℝ) (hx : c.left < c.right) (y1 y2 : ℝ) (h1 : c.bot ≤ y1 ∧ y1 ≤ c.top)
    (h2 : c.bot ≤ y2 ∧ y2 ≤ c.top) :
    areaOf (leftPart c ⟨c.right, y2⟩ ⟨c.left, y1⟩) = 1 / 2 * (c.right - c.left) * ((y1 - c.bot) + (y2 - c.bot)) := by
  have : leftPart c ⟨c.right, y2⟩ ⟨c.left, y1⟩ = trap c.left c.right c.bot c.bot y1 y2 := by
    ext ⟨x, y⟩
    simp only [leftPart, trap, Set.mem_setOf_eq, InCell, sideOf, lin_const, le_lin _ _ _ _ _ _ hx]
    constructor
    · rintro ⟨⟨a1, a2, a3, a4⟩, h⟩
      exact ⟨⟨a1, a2⟩, a3, by linarith⟩
    · rintro ⟨⟨a1, a2⟩, a3, h⟩
      refine ⟨⟨a1, a2, a3, ?_⟩, by linarith⟩
      have hb : 0 < c.right - c.left := by linarith
      by_contra hc
      push Not at hc
      nlinarith
  rw [this, trap_area _ _ _ _ _ _ hx h1.1 h2.1]
  ring

/-- To the left of a line from the bottom to the top edge. -/
theorem cut_along (c : Bounds ℝ) (hy : c.bot < c.top) (x1 x2 : ℝ) (h1 : c.left ≤ x1 ∧ x1 ≤ c.right)
    (h2 : c.left ≤ x2 ∧ x2 ≤ c.right) :
    areaOf (leftPart c ⟨x1, c.bot⟩ ⟨x2, c.top⟩) = 1 / 2 * (c.top - c.bot) * ((x1 - c.left) + (x2 - c.left)) := by
  have : leftPart c ⟨x1, c.bot⟩ ⟨x2, c.top⟩ = Prod.swap ⁻¹' trap c.bot c.top c.left c.left x1 x2 := by
    ext ⟨x, y⟩
    simp only [leftPart, trap, Set.mem_setOf_eq, InCell, sideOf, lin_const, le_lin _ _ _ _ _ _ hy, Set.mem_preimage,
      Prod.swap_prod_mk]
    constructor
    · rintro ⟨⟨a1, a2, a3, a4⟩, h⟩
      exact ⟨⟨a3, a4⟩, a1, by linarith⟩
    · rintro ⟨⟨a1, a2⟩, a3, h⟩
      refine ⟨⟨a3, ?_, a1, a2⟩, by linarith⟩
      have hb : 0 < c.top - c.bot := by linarith
      by_contra hc
      push Not at hc
      nlinarith
  rw [this, trap_area_swap _ _ _ _ _ _ hy h1.1 h2.1]
  ring

/-- The triangle at the left bottom corner. -/
theorem cut_left_bot (c : Bounds ℝ) (hx vy : ℝ) (h1 : c.left < hx ∧ hx ≤ c.right) (h2 : c.bot < vy ∧ vy ≤ c.top) :
    areaOf (leftPart c ⟨hx, c.bot⟩ ⟨c.left, vy⟩) = 1 / 2 * (hx - c.left) * (vy - c.bot) := by
  have : leftPart c ⟨hx, c.bot⟩ ⟨c.left, vy⟩ = trap c.left hx c.bot c.bot vy c.bot := by
    ext ⟨x, y⟩
    simp only [leftPart, trap, Set.mem_setOf_eq, InCell, sideOf, lin_const, le_lin _ _ _ _ _ _ h1.1]
    constructor
    · rintro ⟨⟨a1, a2, a3, a4⟩, h⟩
      refine ⟨⟨a1, ?_⟩, a3, by linarith⟩
      by_contra hc
      push Not at hc
      nlinarith
    · rintro ⟨⟨a1, a2⟩, a3, h⟩
      refine ⟨⟨a1, by linarith, a3, ?_⟩, by linarith⟩
      by_contra hc
      push Not at hc
      nlinarith
  rw [this, trap_area _ _ _ _ _ _ h1.1 h2.1.le le_rfl]
  ring

/-- The triangle at the left top corner. -/
theorem cut_left_top (c : Bounds ℝ) (hx vy : ℝ) (h1 : c.left < hx ∧ hx ≤ c.right) (h2 : c.bot ≤ vy ∧ vy < c.top) :
    areaOf (leftPart c ⟨c.left, vy⟩ ⟨hx, c.top⟩) = 1 / 2 * (hx - c.left) * (c.top - vy) := by
  have : leftPart c ⟨c.left, vy⟩ ⟨hx, c.top⟩ = trap c.left hx vy c.top c.top c.top := by
    ext ⟨x, y⟩
    simp only [leftPart, trap, Set.mem_setOf_eq, InCell, sideOf, lin_const, lin_le _ _ _ _ _ _ h1.1]
    constructor
    · rintro ⟨⟨a1, a2, a3, a4⟩, h⟩
      refine ⟨⟨a1, ?_⟩, by linarith, a4⟩
      by_contra hc
      push Not at hc
      nlinarith
    · rintro ⟨⟨a1, a2⟩, h, a3⟩
      refine ⟨⟨a1, by linarith, ?_, a3⟩, by linarith⟩
      by_contra hc
      push Not at hc
      nlinarith
  rw [this, trap_area _ _ _ _ _ _ h1.1 h2.2.le le_rfl]
  ring

/-- The triangle at the right bottom corner. -/
theorem cut_right_bot (c : Bounds ℝ) (hx vy : ℝ) (h1 : c.left ≤ hx ∧ hx < c.right) (h2 : c.bot < vy ∧ vy ≤ c.top) :
    areaOf (leftPart c ⟨c.right, vy⟩ ⟨hx, c.bot⟩) = 1 / 2 * (c.right - hx) * (vy - c.bot) := by
  have : leftPart c ⟨c.right, vy⟩ ⟨hx, c.bot⟩ = trap hx c.right c.bot c.bot c.bot vy := by
    ext ⟨x, y⟩
    simp only [leftPart, trap, Set.mem_setOf_eq, InCell, sideOf, lin_const, le_lin _ _ _ _ _ _ h1.2]
    constructor
    · rintro ⟨⟨a1, a2, a3, a4⟩, h⟩
      refine ⟨⟨?_, a2⟩, a3, by linarith⟩
      by_contra hc
      push Not at hc
      nlinarith
    · rintro ⟨⟨a1, a2⟩, a3, h⟩
      refine ⟨⟨by linarith, a2, a3, ?_⟩, by linarith⟩
      by_contra hc
      push Not at hc
      nlinarith
  rw [this, trap_area _ _ _ _ _ _ h1.2 le_rfl h2.1.le]
  ring

/-- The triangle at the right top corner. -/
theorem cut_right_top (c : Bounds ℝ) (hx vy : ℝ) (h1 : c.left ≤ hx ∧ hx < c.right) (h2 : c.bot ≤ vy ∧ vy < c.top) :
    areaOf (leftPart c ⟨hx, c.top⟩ ⟨c.right, vy⟩) = 1 / 2 * (c.right - hx) * (c.top - vy) := by
  have : leftPart c ⟨hx, c.top⟩ ⟨c.right, vy⟩ = trap hx c.right c.top vy c.top c.top := by
    ext ⟨x, y⟩
    simp only [leftPart, trap, Set.mem_setOf_eq, InCell, sideOf, lin_const, lin_le _ _ _ _ _ _ h1.2]
    constructor
    · rintro ⟨⟨a1, a2, a3, a4⟩, h⟩
      refine ⟨⟨?_, a2⟩, by linarith, a4⟩
      by_contra hc
      push Not at hc
      nlinarith
    · rintro ⟨⟨a1, a2⟩, h, a3⟩
      refine ⟨⟨by linarith, a2, ?_, a3⟩, by linarith⟩
      by_contra hc
      push Not at hc
      nlinarith
  rw [this, trap_area _ _ _ _ _ _ h1.2 le_rfl h2.2.le]
  ring

/-! ### The computed area -/

/-- The intersection is on the edge its location names. -/
def OnLoc (c : Bounds ℝ) (i : Inter ℝ) : Prop :=
  match i.loc with
  | .bot => i.pt.y = c.bot
  | .top => i.pt.y = c.top
  | .left => i.pt.x = c.left
  | .right => i.pt.x = c.right

theorem rayInters_onLoc (c : Bounds ℝ) (hy : c.bot < c.top) (r : Ray ℝ) (l : List (Inter ℝ))
    (h : rayInters exactCmp c r = some l) : ∀ i ∈ l, OnLoc c i := by
  have e1 : r.intersect exactCmp (topEdge c) .top = some (r.horiz exactCmp c.left c.right c.top .top) := by
    simp [Ray.intersect, Seg.isHoriz, topEdge, exactCmp]
  have e3 : r.intersect exactCmp (botEdge c) .bot = some (r.horiz exactCmp c.left c.right c.bot .bot) := by
    simp [Ray.intersect, Seg.isHoriz, botEdge, exactCmp]
  have e2 : r.intersect exactCmp (leftEdge c) .left = some (r.vert exactCmp c.bot c.top c.left .left) := by
    simp [Ray.intersect, Seg.isHoriz, Seg.isVert, leftEdge, exactCmp, hy.ne]
  have e4 : r.intersect exactCmp (rightEdge c) .right = some (r.vert exactCmp c.bot c.top c.right .right) := by
    simp [Ray.intersect, Seg.isHoriz, Seg.isVert, rightEdge, exactCmp, hy.ne]
  unfold rayInters at h
  simp only [e1, e2, e3, e4, Option.bind_some] at h
  split at h
  swap
  · simp at h
  simp only [Option.some.injEq] at h
  subst h
  intro i hi
  have hi := mem_dedup _ _ _ hi
  simp only [List.mem_append] at hi
  unfold OnLoc
  rcases hi with ((hi | hi) | hi) | hi
  · obtain ⟨h1, -, -, h2⟩ := horiz_mem _ _ _ _ _ _ _ hi; rw [h1]; exact h2
  · obtain ⟨h1, -, -, h2⟩ := vert_mem _ _ _ _ _ _ _ hi; rw [h1]; exact h2
  · obtain ⟨h1, -, -, h2⟩ := horiz_mem _ _ _ _ _ _ _ hi; rw [h1]; exact h2
  · obtain ⟨h1, -, -, h2⟩ := vert_mem _ _ _ _ _ _ _ hi; rw [h1]; exact h2

/-- The area the estimator computes from two intersections that are on no common edge. -/
theorem rawArea (c : Bounds ℝ) (hx : c.left < c.right) (hsq : vside c = hside c) (i j : Inter ℝ)
    (hi : InCell c i.pt) (hj : InCell c j.pt) (li : OnLoc c i) (lj : OnLoc c j)
    (hno : ¬ AlongEdgeLine c i.pt j.pt) (a : ℝ)
    (ha : a = (if i.isHoriz != j.isHoriz then
        1 / 2 * i.away (if i.isHoriz != j.isHoriz then cornerOf c [i, j] else ⟨c.left, c.bot⟩) *
          j.away (if i.isHoriz != j.isHoriz then cornerOf c [i, j] else ⟨c.left, c.bot⟩)
      else 1 / 2 * (c.top - c.bot) *
        (i.away (if i.isHoriz != j.isHoriz then cornerOf c [i, j] else ⟨c.left, c.bot⟩) +
          j.away (if i.isHoriz != j.isHoriz then cornerOf c [i, j] else ⟨c.left, c.bot⟩)))) :
    a = areaOf (leftPart c i.pt j.pt) ∨ a = areaOf (leftPart c j.pt i.pt) := by
  obtain ⟨il, ix, iy⟩ := i
  obtain ⟨jl, jx, jy⟩ := j
  have hy : c.bot < c.top := by unfold vside hside at hsq; linarith
  unfold vside hside at hsq
  obtain ⟨i1, i2, i3, i4⟩ := hi
  obtain ⟨j1, j2, j3, j4⟩ := hj
  unfold AlongEdgeLine at hno
  simp only at i1 i2 i3 i4 j1 j2 j3 j4 hno ⊢
  push Not at hno
  obtain ⟨nx, ny⟩ := hno
  have pos : ∀ u v : ℝ, u ≤ v → |v - u| = v - u := fun u v h => abs_of_nonneg (by linarith)
  have neg : ∀ u v : ℝ, v ≤ u → |v - u| = u - v := fun u v h => by rw [abs_of_nonpos (by linarith)]; ring
  cases il <;> cases jl <;>
    simp only [OnLoc, Inter.isHoriz, Inter.away, cornerOf, List.foldl_cons, List.foldl_nil, reduceCtorEq,
      decide_true, decide_false, Bool.or_true, Bool.or_false, Bool.true_or, bne_self_eq_false, Bool.false_eq_true, if_false,
      if_true, show (false != true) = true from rfl, show (true != false) = true from rfl] at li lj ha
  -- bot bot
  · exact absurd li (ny (by linarith)).1
  -- bot left
  · subst li lj; left
    have n1 : c.left < ix := lt_of_le_of_ne i1 (fun h => (nx h.symm).1 h.symm)
    have n2 : c.bot < jy := lt_of_le_of_ne j3 (fun h => (ny h).1 rfl)
    rw [cut_left_bot c ix jy ⟨n1, i2⟩ ⟨n2, j4⟩, ha, pos _ _ n1.le, pos _ _ n2.le]
  -- bot top
  · subst li lj; left
    rw [cut_along c hy ix jx ⟨i1, i2⟩ ⟨j1, j2⟩, ha, pos _ _ i1, pos _ _ j1]
  -- bot right
  · subst li lj; right
    have n1 : ix < c.right := lt_of_le_of_ne i2 (fun h => (nx h).2 h)
    have n2 : c.bot < jy := lt_of_le_of_ne j3 (fun h => (ny h).1 rfl)
    rw [cut_right_bot c ix jy ⟨i1, n1⟩ ⟨n2, j4⟩, ha, neg _ _ n1.le, pos _ _ n2.le]
  -- left bot
  · subst li lj; right
    have n1 : c.left < jx := lt_of_le_of_ne j1 (fun h => (nx h).1 rfl)
    have n2 : c.bot < iy := lt_of_le_of_ne i3 (fun h => (ny h.symm).1 h.symm)
    rw [cut_left_bot c jx iy ⟨n1, j2⟩ ⟨n2, i4⟩, ha, pos _ _ n1.le, pos _ _ n2.le]; ring
  -- left left
  · exact absurd li (nx (by linarith)).1
  -- left top
  · subst li lj; left
    have n1 : c.left < jx := lt_of_le_of_ne j1 (fun h => (nx h).1 rfl)
    have n2 : iy < c.top := lt_of_le_of_ne i4 (fun h => (ny h).2 h)
    rw [cut_left_top c jx iy ⟨n1, j2⟩ ⟨i3, n2⟩, ha, pos _ _ n1.le, neg _ _ n2.le]; ring
  -- left right
  · subst li lj; right
    rw [cut_across c hx iy jy ⟨i3, i4⟩ ⟨j3, j4⟩, ha, pos _ _ i3, pos _ _ j3, hsq]
  -- top bot
  · subst li lj; right
    rw [cut_along c hy jx ix ⟨j1, j2⟩ ⟨i1, i2⟩, ha, pos _ _ i1, pos _ _ j1]; ring
  -- top left
  · subst li lj; right
    have n1 : c.left < ix := lt_of_le_of_ne i1 (fun h => (nx h.symm).1 h.symm)
    have n2 : jy < c.top := lt_of_le_of_ne j4 (fun h => (ny h.symm).2 rfl)
    rw [cut_left_top c ix jy ⟨n1, i2⟩ ⟨j3, n2⟩, ha, pos _ _ n1.le, neg _ _ n2.le]
  -- top top
  · exact absurd li (ny (by linarith)).2
  -- top right
  · subst li lj; left
    have n1 : ix < c.right := lt_of_le_of_ne i2 (fun h => (nx h).2 h)
    have n2 : jy < c.top := lt_of_le_of_ne j4 (fun h => (ny h.symm).2 rfl)
    rw [cut_right_top c ix jy ⟨i1, n1⟩ ⟨j3, n2⟩, ha, neg _ _ n1.le, neg _ _ n2.le]
  -- right bot
  · subst li lj; left
    have n1 : jx < c.right := lt_of_le_of_ne j2 (fun h => (nx h.symm).2 rfl)
    have n2 : c.bot < iy := lt_of_le_of_ne i3 (fun h => (ny h.symm).1 h.symm)
    rw [cut_right_bot c jx iy ⟨j1, n1⟩ ⟨n2, i4⟩, ha, neg _ _ n1.le, pos _ _ n2.le]; ring
  -- right left
  · subst li lj; left
    rw [cut_across c hx jy iy ⟨j3, j4⟩ ⟨i3, i4⟩, ha, pos _ _ i3, pos _ _ j3, hsq]; ring
  -- right top
  · subst li lj; right
    have n1 : jx < c.right := lt_of_le_of_ne j2 (fun h => (nx h.symm).2 rfl)
    have n2 : iy < c.top := lt_of_le_of_ne i4 (fun h => (ny h).2 h)
    rw [cut_right_top c jx iy ⟨j1, n1⟩ ⟨i3, n2⟩, ha, neg _ _ n1.le, neg _ _ n2.le]; ring
  -- right right
  · exact absurd li (nx (by linarith)).2

theorem sideOf_between (a b : Point ℝ) (t u : ℝ) (p : ℝ × ℝ) :
    sideOf (between a b t) (between a b u) p = (u - t) * sideOf a b p := by
  unfold sideOf between; ring

theorem leftPart_between (c : Bounds ℝ) (a b : Point ℝ) (t u : ℝ) (h : t ≠ u) :
    (t < u ∧ leftPart c (between a b t) (between a b u) = leftPart c a b) ∨
      (u < t ∧ leftPart c (between a b t) (between a b u) = leftPart c b a) := by
  have hanti : ∀ p, sideOf b a p = - sideOf a b p := by intro p; unfold sideOf; ring
  rcases lt_or_gt_of_ne h with h | h
  · left
    refine ⟨h, ?_⟩
    ext p
    simp only [leftPart, Set.mem_setOf_eq, sideOf_between]
    rw [mul_nonneg_iff_of_pos_left (by linarith)]
  · right
    refine ⟨h, ?_⟩
    ext p
    simp only [leftPart, Set.mem_setOf_eq, sideOf_between, hanti]
    constructor
    · rintro ⟨h1, h2⟩; exact ⟨h1, by nlinarith⟩
    · rintro ⟨h1, h2⟩; exact ⟨h1, by nlinarith⟩

/-- Two intersections of the line from `a` to `b` with the cell: the area computed is that of a part. -/
theorem chunkArea_is_part (c : Bounds ℝ) (hx : c.left < c.right) (hsq : vside c = hside c) (beam : Seg ℝ)
    (isOcc : Bool) (r : Ray ℝ) (hoff : r.Off c) (l : List (Inter ℝ)) (hl : rayInters exactCmp c r = some l)
    (i j : Inter ℝ) (hij : l = [i, j]) (x : ℝ) (h : chunkArea beam c isOcc [i, j] = some x) :
    x = areaOf (leftPart c r.beg (r.at 1)) ∨ x = areaOf (leftPart c (r.at 1) r.beg) := by
  have hy : c.bot < c.top := by unfold vside hside at hsq; linarith
  obtain ⟨l', h1, -, h3, h4, -⟩ := rayInters_spec c hx hy r
  rw [hl, Option.some.injEq] at h1
  subst h1 hij
  have hin := rayInters_inCell exactCmp c r hx.le hy.le _ hl
  have hon := rayInters_onLoc c hy r _ hl
  obtain ⟨t, ht⟩ := h4 i (by simp)
  obtain ⟨u, hu⟩ := h4 j (by simp)
  have htu : t ≠ u := by
    rintro rfl
    exact h3 i j rfl (ht.trans hu.symm)
  have hat : ∀ t, r.at t = between r.beg (r.at 1) t := by
    intro t; unfold Ray.at between; exact point_ext (by simp) (by simp)
  have hmid := midpoint_inside c r hoff t u htu (ht ▸ hin i (by simp)) (hu ▸ hin j (by simp))
  have hne : ¬ AlongEdgeLine c i.pt j.pt := by
    obtain ⟨m1, m2, m3, m4⟩ := hmid
    have ex : (r.at ((t + u) / 2)).x = (i.pt.x + j.pt.x) / 2 := by rw [ht, hu]; simp only [Ray.at]; ring
    have ey : (r.at ((t + u) / 2)).y = (i.pt.y + j.pt.y) / 2 := by rw [ht, hu]; simp only [Ray.at]; ring
    rw [ex] at m1 m2
    rw [ey] at m3 m4
    rintro (⟨e, h | h⟩ | ⟨e, h | h⟩) <;> linarith
  obtain ⟨a, ha⟩ : ∃ a, a = (if i.isHoriz != j.isHoriz then
        1 / 2 * i.away (if i.isHoriz != j.isHoriz then cornerOf c [i, j] else ⟨c.left, c.bot⟩) *
          j.away (if i.isHoriz != j.isHoriz then cornerOf c [i, j] else ⟨c.left, c.bot⟩)
      else 1 / 2 * (c.top - c.bot) *
        (i.away (if i.isHoriz != j.isHoriz then cornerOf c [i, j] else ⟨c.left, c.bot⟩) +
          j.away (if i.isHoriz != j.isHoriz then cornerOf c [i, j] else ⟨c.left, c.bot⟩))) := ⟨_, rfl⟩
  have hraw := rawArea c hx hsq i j (hin i (by simp)) (hin j (by simp)) (hon i (by simp)) (hon j (by simp)) hne a ha
  have hdist : r.beg ≠ r.at 1 := by
    intro e
    apply h3 i j rfl
    rw [ht, hu, hat t, hat u, ← e]
    simp [between]
  have hadd := parts_add c hx hy.le r.beg (r.at 1) hdist
  have harea : area c = (c.right - c.left) * (c.top - c.bot) := by unfold area hside vside; ring
  have hxa : x = a ∨ x = area c - a := by
    unfold chunkArea at h
    simp only [← ha] at h
    split at h
    swap
    · simp at h
    rw [Option.some.injEq] at h
    rw [← h]
    have : ∀ b : Bool, (if b = true then area c - a else a) = a ∨ (if b = true then area c - a else a) = area c - a := by
      intro b; cases b <;> simp
    exact this _
  rw [ht, hu, hat t, hat u] at hraw
  have e1 := leftPart_between c r.beg (r.at 1) t u htu
  have e2 := leftPart_between c r.beg (r.at 1) u t htu.symm
  have : a = areaOf (leftPart c r.beg (r.at 1)) ∨ a = areaOf (leftPart c (r.at 1) r.beg) := by
    rcases hraw with h | h
    · rcases e1 with ⟨-, e⟩ | ⟨-, e⟩ <;> rw [e] at h
      · exact .inl h
      · exact .inr h
    · rcases e2 with ⟨-, e⟩ | ⟨-, e⟩ <;> rw [e] at h
      · exact .inl h
      · exact .inr h
  rw [harea, ← hadd] at hxa
  rcases hxa with h | h <;> rcases this with h' | h'
  · left; rw [h, h']
  · right; rw [h, h']
  · right; rw [h, h']; ring
  · left; rw [h, h']; ring

/-- The area of the cell. -/
noncomputable def cellArea (c : Bounds ℝ) : ℝ := (c.right - c.left) * (c.top - c.bot)

/-- **C62, free beams.** For every square cell and every free beam through the interior of the cell with both ends not
in the interior: the probability is that of an empty cell, and the quality that of an empty cell times the smaller of
the two shares into which the beam divides the area of the cell. -/
theorem free_quality_is_smaller_share (E : Est ℝ) (c : Bounds ℝ) (hx : c.left < c.right) (hsq : vside c = hside c)
    (shift : ℝ) (beam : Seg ℝ) (hs : beam.beg ≠ beam.fin) (hoff : ¬ AlongEdgeLine c beam.beg beam.fin)
    (hb : ¬ Inside c beam.beg) (hf : ¬ Inside c beam.fin) (hm : MeetsInterior c beam.beg beam.fin) :
    E.estimateWith exactCmp shift beam c false = some (some ⟨E.empty.prob, E.empty.qual *
      min (areaOf (leftPart c beam.beg beam.fin) / cellArea c) (areaOf (leftPart c beam.fin beam.beg) / cellArea c)⟩) := by
  have hy : c.bot < c.top := by unfold vside hside at hsq; linarith
  have hn : notOnEdge exactCmp shift beam c = some beam := by
    have : hasOnEdgeLine exactCmp c beam = false := by
      rw [← Bool.not_eq_true, hasOnEdgeLine_exact c beam hs]; exact hoff
    unfold notOnEdge
    rw [this]; rfl
  obtain ⟨pos, p1, p2, -⟩ := classify_exact c hx hy beam hs hoff
  have hpos : pos ≠ .unrelated ∧ pos ≠ .touches := by
    constructor <;> intro e <;> exact (p2.1 (by tauto)).1 hm
  have hlie : pos ≠ .liesInside := by
    rintro rfl
    obtain ⟨bi, ei, q1, q2, q3⟩ := isInside_exact c hx hy beam
    unfold classify at p1
    rw [q1] at p1
    simp only [Option.bind_some] at p1
    cases bi
    · cases ei
      · simp only [bne_self_eq_false, Bool.false_eq_true, if_false] at p1
        cases hq : segInters exactCmp c beam with
        | none => rw [hq] at p1; simp at p1
        | some l =>
          rw [hq] at p1
          simp only [Option.bind_some] at p1
          split at p1 <;> simp at p1
      · simp at p1
    · exact hb (q2.1 rfl)
  obtain ⟨l, l1, l2, l3, l4⟩ := segInters_spec c hx hy beam hs hoff
  have hlen : l.length = 2 := by
    obtain ⟨t, u, htu, t0, t1, u0, u1, tb, ub⟩ := segInters_two c beam hs hb hf hm
    have hne : between beam.beg beam.fin t ≠ between beam.beg beam.fin u := by
      rw [← ofSeg_at, ← ofSeg_at, ne_eq, at_inj _ (ofSeg_delta beam hs)]; exact htu
    have := two_of_distinct l _ _ hne (l3 t t0 t1 tb) (l3 u u0 u1 ub)
    omega
  obtain ⟨i, j, rfl⟩ := List.length_eq_two.1 hlen
  obtain ⟨l', m1, m2, -, -, -⟩ := rayInters_spec c hx hy (Ray.ofSeg beam)
  have hl' : l' = [i, j] := by
    unfold segInters at l1
    rw [m1, Option.map_some, Option.some.injEq] at l1
    have := List.length_filter_le (fun i => beam.containsInters exactCmp i.pt) l'
    rw [l1] at this
    rw [← l1]
    symm
    exact List.filter_sublist.eq_of_length (by rw [l1]; simp at this ⊢; omega)
  have fin := segInters_inCell exactCmp c beam hx.le hy.le _ l1
  obtain ⟨a, ha, -⟩ := chunkArea_part beam c false hx.le hsq [i, j] fin (by simp)
  have hpart := chunkArea_is_part c hx hsq beam false (Ray.ofSeg beam) (ofSeg_off beam c hoff) l' m1 i j hl' a ha
  have hr1 : (Ray.ofSeg beam).at 1 = beam.fin := by
    rw [ofSeg_at]; exact point_ext (by simp [between]) (by simp [between])
  rw [hr1, show (Ray.ofSeg beam).beg = beam.beg from rfl] at hpart
  have hchunk : E.byChunk exactCmp beam c false = some (E.byArea a (area c) false) := by
    unfold Est.byChunk
    rw [show chunkInters exactCmp beam c false = some [i, j] from l1]
    simp only [Option.bind_some, List.length_cons, List.length_nil]
    rw [if_neg (by norm_num), ha]
    rfl
  have hadd := parts_add c hx hy.le beam.beg beam.fin hs
  have harea : area c = cellArea c := by unfold area hside vside cellArea; ring
  have hpos' : 0 < cellArea c := by unfold cellArea; exact mul_pos (by linarith) (by linarith)
  have hval : E.byArea a (area c) false = ⟨E.empty.prob, E.empty.qual *
      min (areaOf (leftPart c beam.beg beam.fin) / cellArea c) (areaOf (leftPart c beam.fin beam.beg) / cellArea c)⟩ := by
    have hsum : areaOf (leftPart c beam.beg beam.fin) / cellArea c + areaOf (leftPart c beam.fin beam.beg) / cellArea c = 1 := by
      rw [← add_div, hadd]; exact div_self hpos'.ne'
    unfold Est.byArea
    rw [harea]
    simp only [Bool.false_eq_true, if_false]
    congr 2
    rcases hpart with rfl | rfl
    · by_cases h : 1 / 2 < areaOf (leftPart c beam.beg beam.fin) / cellArea c
      · rw [if_pos h, min_eq_right (by linarith)]; linarith
      · rw [if_neg h, min_eq_left (by linarith)]
    · by_cases h : 1 / 2 < areaOf (leftPart c beam.fin beam.beg) / cellArea c
      · rw [if_pos h, min_eq_left (by linarith)]; linarith
      · rw [if_neg h, min_eq_right (by linarith)]
  unfold Est.estimateWith
  rw [hn]
  simp only [Option.bind_some, p1]
  cases pos
  case unrelated => exact absurd rfl hpos.1
  case touches => exact absurd rfl hpos.2
  case liesInside => exact absurd rfl hlie
  all_goals simp only [Bool.false_eq_true, if_false, hchunk, Option.map_some, hval]

/-- **C62, occupied ends, either part.** For every square cell and every beam that ends in its interior without having
started there: the quality is that of an occupied cell, and the probability is the larger of that of an empty cell and
the share of one of the two parts into which the line through the end, perpendicular to the beam, divides the cell.
Which part it is: `occupied_share` in `Which.lean`. -/
theorem occupied_share_either (E : Est ℝ) (c : Bounds ℝ) (hx : c.left < c.right) (hsq : vside c = hside c)
    (shift : ℝ) (beam : Seg ℝ) (hoff : ¬ AlongEdgeLine c beam.beg beam.fin)
    (hb : ¬ Inside c beam.beg) (hf : Inside c beam.fin) :
    ∃ q : Point ℝ, (q.x - beam.fin.x) * (beam.fin.x - beam.beg.x) + (q.y - beam.fin.y) * (beam.fin.y - beam.beg.y) = 0 ∧
      q ≠ beam.fin ∧ ∃ share, (share = areaOf (leftPart c beam.fin q) / cellArea c ∨
        share = areaOf (leftPart c q beam.fin) / cellArea c) ∧
      E.estimateWith exactCmp shift beam c true = some (some ⟨max share E.empty.prob, E.occ.qual⟩) := by
  have hy : c.bot < c.top := by unfold vside hside at hsq; linarith
  have hs : beam.beg ≠ beam.fin := by intro e; rw [e] at hb; exact hb hf
  have hn : notOnEdge exactCmp shift beam c = some beam := by
    have : hasOnEdgeLine exactCmp c beam = false := by
      rw [← Bool.not_eq_true, hasOnEdgeLine_exact c beam hs]; exact hoff
    unfold notOnEdge
    rw [this]; rfl
  obtain ⟨pos, p1, -, p3⟩ := classify_exact c hx hy beam hs hoff
  have hpos := p3.2 (.inl ⟨hb, hf⟩)
  subst hpos
  set r : Ray ℝ := ⟨beam.fin, ⟨beam.beg.y - beam.fin.y, beam.fin.x - beam.beg.x⟩⟩ with hr
  have hd : r.delta.x ≠ 0 ∨ r.delta.y ≠ 0 := by
    by_contra h
    push Not at h
    exact hs (point_ext (by have := h.2; simp only [hr] at this; linarith) (by have := h.1; simp only [hr] at this; linarith))
  have hoff' : r.Off c := by
    obtain ⟨q1, q2, q3, q4⟩ := hf
    exact ⟨fun _ => ⟨q3.ne', q4.ne⟩, fun _ => ⟨q1.ne', q2.ne⟩⟩
  obtain ⟨l, l1, l2, l3, l4, l5⟩ := rayInters_spec c hx hy r
  have hlen : l.length = 2 := by
    obtain ⟨t, t0, tb, -⟩ := exit c r hf hd
    obtain ⟨u, u0, ub, -⟩ := exit c ⟨beam.fin, ⟨-r.delta.x, -r.delta.y⟩⟩ hf (by simpa only [ne_eq, neg_eq_zero] using hd)
    have eu : (⟨beam.fin, ⟨-r.delta.x, -r.delta.y⟩⟩ : Ray ℝ).at u = r.at (-u) := by
      simp only [Ray.at]; exact point_ext (by ring) (by ring)
    rw [eu] at ub
    have hne : r.at t ≠ r.at (-u) := by
      rw [ne_eq, at_inj _ hd]; intro h; linarith
    have := two_of_distinct l _ _ hne (l5 hd hoff' t tb) (l5 hd hoff' (-u) ub)
    omega
  obtain ⟨i, j, rfl⟩ := List.length_eq_two.1 hlen
  have lin := rayInters_inCell exactCmp c r hx.le hy.le _ l1
  obtain ⟨a, ha, -⟩ := chunkArea_part beam c true hx.le hsq [i, j] lin (by simp)
  have hpart := chunkArea_is_part c hx hsq beam true r hoff' _ l1 i j rfl a ha
  have harea : area c = cellArea c := by unfold area hside vside cellArea; ring
  have hchunk : E.byChunk exactCmp beam c true = some (E.byArea a (area c) true) := by
    unfold Est.byChunk
    rw [show chunkInters exactCmp beam c true = some [i, j] from l1]
    simp only [Option.bind_some, List.length_cons, List.length_nil]
    rw [if_neg (by norm_num), ha]
    rfl
  refine ⟨r.at 1, ?_, ?_, a / cellArea c, ?_, ?_⟩
  · simp only [Ray.at, hr]; ring
  · intro e
    have e0 : r.at 0 = beam.fin := by simp [Ray.at, hr]
    rw [← e0, at_inj _ hd] at e
    exact one_ne_zero e
  · rcases hpart with h | h
    · left; rw [h]
    · right; rw [h]
  · unfold Est.estimateWith
    rw [hn]
    simp only [Option.bind_some, p1, hchunk, Option.map_some, Est.byArea, if_true, harea]

/-! ### Concrete cases -/

/-- The hypotheses of both theorems are met in the unit cell. -/
example :
    let c : Bounds ℝ := ⟨0, 1, 0, 1⟩
    vside c = hside c ∧ ¬ AlongEdgeLine c ⟨-1, 0⟩ ⟨2, 1⟩ ∧ ¬ Inside c ⟨-1, 0⟩ ∧ ¬ Inside c ⟨2, 1⟩ ∧
      MeetsInterior c ⟨-1, 0⟩ ⟨2, 1⟩ ∧ Inside c ⟨3 / 4, 1 / 2⟩ ∧ ¬ AlongEdgeLine c ⟨-1, 0⟩ ⟨3 / 4, 1 / 2⟩ := by
  refine ⟨by norm_num [vside, hside], by norm_num [AlongEdgeLine], by norm_num [Inside], by norm_num [Inside], ?_,
    by norm_num [Inside], by norm_num [AlongEdgeLine]⟩
  exact ⟨1 / 2, by norm_num, by norm_num, by norm_num [between, Inside]⟩

/-- A diagonal divides the unit cell into halves. -/
example : areaOf (leftPart ⟨0, 1, 0, 1⟩ ⟨0, 0⟩ ⟨1, 1⟩) = 1 / 2 := by
  have h := cut_along ⟨0, 1, 0, 1⟩ (by norm_num) 0 1 (by norm_num) (by norm_num)
  simp only at h
  rw [h]; norm_num

end Slam.Estimator
