import Verif.Rect.Spec
import Mathlib.Tactic.FieldSimp
import Mathlib.Tactic.Ring
import Mathlib.Tactic.Linarith
import Mathlib.Tactic.NormNum
import Mathlib.Algebra.Order.Ring.Rat
import Mathlib.Data.Rat.Floor

/-! # C06, C07: rectangle splitting, intersection and overlap -/

set_option autoImplicit false
set_option linter.unusedSectionVars false

namespace Slam.Rect
open Slam.Grid
variable {K : Type*} [Field K] [LinearOrder K] [IsStrictOrderedRing K]

/-! ## C06 -/

theorem center_between (r : Bounds K) (h : Proper r) :
    r.left ≤ (center r).x ∧ (center r).x ≤ r.right ∧ r.bot ≤ (center r).y ∧ (center r).y ≤ r.top := by
  obtain ⟨h1, h2⟩ := h
  simp only [center, hside, vside]
  refine ⟨by linarith, by linarith, by linarith, by linarith⟩

/-- C06: the vertical split tiles the rectangle with two halves. -/
theorem split_vert_tiles (r : Bounds K) (h : Proper r) :
    Tiles r (splitVert r) ∧ ∀ q ∈ splitVert r, area q = area r / 2 := by
  obtain ⟨c1, c2, c3, c4⟩ := center_between r h
  refine ⟨⟨?_, ?_, ?_, ?_⟩, ?_⟩
  · simp only [splitVert, List.mem_cons, List.not_mem_nil, or_false]
    rintro q (rfl | rfl)
    · exact ⟨c3, h.2⟩
    · exact ⟨c4, h.2⟩
  · intro p
    simp only [splitVert, List.mem_cons, List.not_mem_nil, or_false, exists_eq_or_imp, exists_eq_left, points,
      Set.mem_ofPred_eq]
    constructor
    · rintro ⟨a, b, c, d⟩
      rcases le_total p.y (center r).y with hh | hh
      · exact Or.inl ⟨a, b, c, hh⟩
      · exact Or.inr ⟨a, b, hh, d⟩
    · rintro (⟨a, b, c, d⟩ | ⟨a, b, c, d⟩)
      · exact ⟨a, b, c, le_trans d c4⟩
      · exact ⟨a, b, le_trans c3 c, d⟩
  · simp only [splitVert, List.pairwise_cons, List.mem_cons, List.not_mem_nil, or_false, forall_eq,
      IsEmpty.forall_iff, implies_true, List.Pairwise.nil, and_true, interior, Set.mem_ofPred_eq]
    rintro p ⟨⟨-, -, -, h1⟩, ⟨-, -, h2, -⟩⟩
    exact absurd h1 (not_lt.2 h2.le)
  · simp [splitVert, area, vside, hside, center]; ring
  · simp only [splitVert, List.mem_cons, List.not_mem_nil, or_false]
    rintro q (rfl | rfl) <;> simp only [area, vside, hside, center] <;> ring

/-- C06: the horizontal split tiles the rectangle with two halves. -/
theorem split_horz_tiles (r : Bounds K) (h : Proper r) :
    Tiles r (splitHorz r) ∧ ∀ q ∈ splitHorz r, area q = area r / 2 := by
  obtain ⟨c1, c2, c3, c4⟩ := center_between r h
  refine ⟨⟨?_, ?_, ?_, ?_⟩, ?_⟩
  · simp only [splitHorz, List.mem_cons, List.not_mem_nil, or_false]
    rintro q (rfl | rfl)
    · exact ⟨h.1, c1⟩
    · exact ⟨h.1, c2⟩
  · intro p
    simp only [splitHorz, List.mem_cons, List.not_mem_nil, or_false, exists_eq_or_imp, exists_eq_left, points,
      Set.mem_ofPred_eq]
    constructor
    · rintro ⟨a, b, c, d⟩
      rcases le_total p.x (center r).x with hh | hh
      · exact Or.inl ⟨a, hh, c, d⟩
      · exact Or.inr ⟨hh, b, c, d⟩
    · rintro (⟨a, b, c, d⟩ | ⟨a, b, c, d⟩)
      · exact ⟨a, le_trans b c2, c, d⟩
      · exact ⟨le_trans c1 a, b, c, d⟩
  · simp only [splitHorz, List.pairwise_cons, List.mem_cons, List.not_mem_nil, or_false, forall_eq,
      IsEmpty.forall_iff, implies_true, List.Pairwise.nil, and_true, interior, Set.mem_ofPred_eq]
    rintro p ⟨⟨-, h1, -, -⟩, ⟨h2, -, -, -⟩⟩
    exact absurd h1 (not_lt.2 h2.le)
  · simp [splitHorz, area, vside, hside, center]; ring
  · simp only [splitHorz, List.mem_cons, List.not_mem_nil, or_false]
    rintro q (rfl | rfl) <;> simp only [area, vside, hside, center] <;> ring

/-- C06: the even split tiles the rectangle with four quarters. -/
theorem split4_tiles (r : Bounds K) (h : Proper r) :
    Tiles r (split4 r) ∧ ∀ q ∈ split4 r, area q = area r / 4 := by
  obtain ⟨c1, c2, c3, c4⟩ := center_between r h
  refine ⟨⟨?_, ?_, ?_, ?_⟩, ?_⟩
  · simp only [split4, List.mem_cons, List.not_mem_nil, or_false]
    rintro q (rfl | rfl | rfl | rfl)
    · exact ⟨c3, c1⟩
    · exact ⟨c4, c1⟩
    · exact ⟨c3, c2⟩
    · exact ⟨c4, c2⟩
  · intro p
    simp only [split4, List.mem_cons, List.not_mem_nil, or_false, exists_eq_or_imp, exists_eq_left, points,
      Set.mem_ofPred_eq]
    constructor
    · rintro ⟨a, b, c, d⟩
      rcases le_total p.x (center r).x with hx | hx <;> rcases le_total p.y (center r).y with hy | hy
      · exact Or.inl ⟨a, hx, c, hy⟩
      · exact Or.inr (Or.inl ⟨a, hx, hy, d⟩)
      · exact Or.inr (Or.inr (Or.inl ⟨hx, b, c, hy⟩))
      · exact Or.inr (Or.inr (Or.inr ⟨hx, b, hy, d⟩))
    · rintro (⟨a, b, c, d⟩ | ⟨a, b, c, d⟩ | ⟨a, b, c, d⟩ | ⟨a, b, c, d⟩)
      · exact ⟨a, le_trans b c2, c, le_trans d c4⟩
      · exact ⟨a, le_trans b c2, le_trans c3 c, d⟩
      · exact ⟨le_trans c1 a, b, c, le_trans d c4⟩
      · exact ⟨le_trans c1 a, b, le_trans c3 c, d⟩
  · simp only [split4, List.pairwise_cons, List.mem_cons, List.not_mem_nil, or_false, forall_eq,
      IsEmpty.forall_iff, implies_true, List.Pairwise.nil, and_true, forall_eq_or_imp, interior,
      Set.mem_ofPred_eq]
    refine ⟨⟨?_, ?_, ?_⟩, ⟨?_, ?_⟩, ?_⟩ <;> rintro p ⟨⟨h1, h2, h3, h4⟩, ⟨h5, h6, h7, h8⟩⟩ <;>
      first
        | exact absurd h4 (not_lt.2 h7.le)
        | exact absurd h2 (not_lt.2 h5.le)
  · simp [split4, area, vside, hside, center]; ring
  · simp only [split4, List.mem_cons, List.not_mem_nil, or_false]
    rintro q (rfl | rfl | rfl | rfl) <;> simp only [area, vside, hside, center] <;> ring

/-- C06 (companions): moving the centre keeps the sides and puts the centre there; shrinking by a factor keeps the
centre and divides the sides. -/
theorem move_center_shrink (r : Bounds K) (c : Point K) (f : K) (hf : f ≠ 0) :
    center (moveCenter r c) = c ∧ vside (moveCenter r c) = vside r ∧ hside (moveCenter r c) = hside r ∧
    center (shrink r f) = center r ∧ vside (shrink r f) = vside r / f ∧ hside (shrink r f) = hside r / f := by
  refine ⟨?_, ?_, ?_, ?_, ?_, ?_⟩
  · simp only [center, moveCenter, vside, hside]
    cases c; congr 1 <;> ring
  · simp only [moveCenter, vside]; ring
  · simp only [moveCenter, hside]; ring
  · simp only [center, shrink, vside, hside]
    congr 1 <;> field_simp <;> ring
  · simp only [shrink, vside, center]; field_simp; ring
  · simp only [shrink, hside, center]; field_simp; ring

/-- Non-vacuity. -/
example : Proper (⟨0, 2, -1, 3⟩ : Bounds ℚ) := by constructor <;> norm_num

/-! ## C07 -/

/-- The tolerant comparison of the code decides separated numbers exactly. -/
theorem lessOrEqual_separated (a b : K) (h : Separated a b) : lessOrEqual a b = exactLe a b := by
  unfold lessOrEqual areEqual less exactLe
  rcases h with rfl | h
  · have : (0 : K) ≤ 1 / 10 ^ 7 * max 1 (max |a| |a|) :=
      mul_nonneg (by positivity) (le_trans zero_le_one (le_max_left _ _))
    simp only [sub_self, abs_zero, this, decide_true, Bool.true_or, le_refl]
  · have h1 : ¬ (|a - b| ≤ 1 / 10 ^ 7 * max 1 (max |a| |b|)) := not_le.2 h
    have h2 : (1 : K) / 10 ^ 7 ≤ 1 / 10 ^ 7 * max 1 (max |a| |b|) :=
      le_mul_of_one_le_right (by positivity) (le_max_left _ _)
    have h3 : (1 : K) / 2 ^ 52 < |a - b| := by
      refine lt_trans ?_ (lt_of_le_of_lt h2 h)
      rw [one_div_lt_one_div (by positivity) (by positivity)]
      norm_num
    simp only [h1, decide_false, Bool.false_or, decide_eq_decide]
    rcases le_or_gt a b with hab | hab
    · simp only [hab, iff_true]
      have : (0 : K) < 1 / 2 ^ 52 := by positivity
      linarith
    · simp only [not_le.2 hab, iff_false, not_lt]
      rw [abs_of_pos (by linarith)] at h3
      linarith

theorem separated_comm {a b : K} (h : Separated a b) : Separated b a := by
  rcases h with rfl | h
  · exact Or.inl rfl
  · right; rwa [abs_sub_comm, max_comm |b| |a|]

theorem separatedRects_comm {a b : Bounds K} (h : SeparatedRects a b) : SeparatedRects b a :=
  ⟨fun u hu v hv => separated_comm (h.1 v hv u hu), fun u hu v hv => separated_comm (h.2 v hv u hu)⟩

theorem contains_exact {a b : Bounds K} (h : SeparatedRects a b) (x y : K) (hx : x ∈ [b.left, b.right])
    (hy : y ∈ [b.bot, b.top]) : contains lessOrEqual a x y = contains exactLe a x y := by
  unfold contains areOrdered
  rw [lessOrEqual_separated _ _ (h.1 a.left (by simp) x hx),
    lessOrEqual_separated _ _ (separated_comm (h.1 a.right (by simp) x hx)),
    lessOrEqual_separated _ _ (h.2 a.bot (by simp) y hy),
    lessOrEqual_separated _ _ (separated_comm (h.2 a.top (by simp) y hy))]

theorem corners_exact {a b : Bounds K} (h : SeparatedRects a b) : corners lessOrEqual a b = corners exactLe a b := by
  unfold corners
  rw [contains_exact h _ _ (by simp) (by simp), contains_exact h _ _ (by simp) (by simp),
    contains_exact h _ _ (by simp) (by simp), contains_exact h _ _ (by simp) (by simp)]

theorem intersect_exact {a b : Bounds K} (h : SeparatedRects a b) :
    intersect lessOrEqual a b = intersect exactLe a b := by
  unfold intersect intersectRev
  rw [corners_exact h, corners_exact (separatedRects_comm h)]

theorem corners_abs (le : K → K → Bool) (a b m : Bounds K) (X1 X2 Y1 Y2 : Prop) [Decidable X1] [Decidable X2]
    [Decidable Y1] [Decidable Y2]
    (h11 : contains le a b.left b.bot = decide (X1 ∧ Y1)) (h21 : contains le a b.right b.bot = decide (X2 ∧ Y1))
    (h12 : contains le a b.left b.top = decide (X1 ∧ Y2)) (h22 : contains le a b.right b.top = decide (X2 ∧ Y2))
    (l1 : X1 → m.left = b.left) (l2 : ¬ X1 → X2 → m.left = a.left)
    (r1 : X2 → m.right = b.right) (r2 : ¬ X2 → X1 → m.right = a.right)
    (d1 : Y1 → m.bot = b.bot) (d2 : ¬ Y1 → Y2 → m.bot = a.bot)
    (t1 : Y2 → m.top = b.top) (t2 : ¬ Y2 → Y1 → m.top = a.top) :
    ((corners le a b).nm = 0 ∧ ((¬ X1 ∧ ¬ X2) ∨ (¬ Y1 ∧ ¬ Y2))) ∨
    (((corners le a b).nm = 1 ∨ (corners le a b).nm = 2 ∨ (corners le a b).nm = 4) ∧ (X1 ∨ X2) ∧ (Y1 ∨ Y2) ∧
      (corners le a b).r = m) := by
  obtain ⟨mb, mt, ml, mr⟩ := m
  simp only at l1 l2 r1 r2 d1 d2 t1 t2
  unfold corners
  rw [h11, h21, h12, h22]
  by_cases x1 : X1 <;> by_cases x2 : X2 <;> by_cases y1 : Y1 <;> by_cases y2 : Y2 <;>
    simp_all

/-- The corner analysis with exact comparisons: the counter is the product of the numbers of contained sides. -/
theorem corners_cases (a b : Bounds K) (ha : Proper a) (hb : Proper b) :
    ((corners exactLe a b).nm = 0 ∧
      ((¬ (a.left ≤ b.left ∧ b.left ≤ a.right) ∧ ¬ (a.left ≤ b.right ∧ b.right ≤ a.right)) ∨
       (¬ (a.bot ≤ b.bot ∧ b.bot ≤ a.top) ∧ ¬ (a.bot ≤ b.top ∧ b.top ≤ a.top)))) ∨
    (((corners exactLe a b).nm = 1 ∨ (corners exactLe a b).nm = 2 ∨ (corners exactLe a b).nm = 4) ∧
      (corners exactLe a b).r = ⟨max a.bot b.bot, min a.top b.top, max a.left b.left, min a.right b.right⟩ ∧
      max a.bot b.bot ≤ min a.top b.top ∧ max a.left b.left ≤ min a.right b.right) := by
  obtain ⟨ha1, ha2⟩ := ha
  obtain ⟨hb1, hb2⟩ := hb
  have hcon : ∀ x y, contains exactLe a x y
      = decide ((a.left ≤ x ∧ x ≤ a.right) ∧ (a.bot ≤ y ∧ y ≤ a.top)) := by
    intro x y; simp [contains, areOrdered, exactLe, Bool.decide_and]
  -- one axis
  have axis : ∀ l r l' r' : K, l ≤ r → l' ≤ r' →
      ((l ≤ l' ∧ l' ≤ r) → max l l' = l') ∧ (¬ (l ≤ l' ∧ l' ≤ r) → (l ≤ r' ∧ r' ≤ r) → max l l' = l) ∧
      ((l ≤ r' ∧ r' ≤ r) → min r r' = r') ∧ (¬ (l ≤ r' ∧ r' ≤ r) → (l ≤ l' ∧ l' ≤ r) → min r r' = r) ∧
      ((l ≤ l' ∧ l' ≤ r) ∨ (l ≤ r' ∧ r' ≤ r) → max l l' ≤ min r r') := by
    intro l r l' r' h h'
    refine ⟨fun h1 => max_eq_right h1.1, fun h1 h2 => max_eq_left ?_, fun h1 => min_eq_right h1.2,
      fun h1 h2 => min_eq_left ?_, ?_⟩
    · by_contra hh; exact h1 ⟨by linarith, by linarith [h2.2]⟩
    · by_contra hh; exact h1 ⟨by linarith [h2.1], by linarith⟩
    · rw [max_le_iff, le_min_iff, le_min_iff]
      rintro (⟨h1, h2⟩ | ⟨h1, h2⟩)
      · exact ⟨⟨h, by linarith⟩, h2, h'⟩
      · exact ⟨⟨h, h1⟩, by linarith, h'⟩
  obtain ⟨x1, x2, x3, x4, x5⟩ := axis a.left a.right b.left b.right ha2 hb2
  obtain ⟨y1, y2, y3, y4, y5⟩ := axis a.bot a.top b.bot b.top ha1 hb1
  rcases corners_abs exactLe a b ⟨max a.bot b.bot, min a.top b.top, max a.left b.left, min a.right b.right⟩
    (a.left ≤ b.left ∧ b.left ≤ a.right) (a.left ≤ b.right ∧ b.right ≤ a.right)
    (a.bot ≤ b.bot ∧ b.bot ≤ a.top) (a.bot ≤ b.top ∧ b.top ≤ a.top)
    (hcon _ _) (hcon _ _) (hcon _ _) (hcon _ _) x1 x2 x3 x4 y1 y2 y3 y4 with h | ⟨h1, h2, h3, h4⟩
  · exact Or.inl h
  · exact Or.inr ⟨h1, h4, y5 h3, x5 h2⟩

/-- C07: the intersection of two rectangles that have common points and are not placed crosswise contains exactly
the common points (no coordinates within tolerance of each other unless equal). -/
theorem intersection_exact (a b : Bounds K) (ha : Proper a) (hb : Proper b) (hs : SeparatedRects a b)
    (hne : ∃ p, p ∈ points a ∧ p ∈ points b) (hc : ¬ Cross a b) :
    ∃ r, intersect lessOrEqual a b = some r ∧ Proper r ∧ ∀ p, p ∈ points r ↔ (p ∈ points a ∧ p ∈ points b) := by
  rw [intersect_exact hs]
  have main : intersect exactLe a b
      = some ⟨max a.bot b.bot, min a.top b.top, max a.left b.left, min a.right b.right⟩ ∧
      max a.bot b.bot ≤ min a.top b.top ∧ max a.left b.left ≤ min a.right b.right := by
    unfold intersect
    rcases corners_cases a b ha hb with ⟨h0, hno⟩ | ⟨hn, hr, h1, h2⟩
    · simp only [h0]
      unfold intersectRev
      rcases corners_cases b a hb ha with ⟨h0', hno'⟩ | ⟨hn', hr', h1', h2'⟩
      · exfalso
        obtain ⟨p, ⟨p1, p2, p3, p4⟩, ⟨q1, q2, q3, q4⟩⟩ := hne
        apply hc
        rcases hno with ⟨n1, n2⟩ | ⟨n1, n2⟩ <;> rcases hno' with ⟨m1, m2⟩ | ⟨m1, m2⟩
        · exfalso
          rcases le_total a.left b.left with h | h
          · exact n1 ⟨h, by linarith⟩
          · exact m1 ⟨h, by linarith⟩
        · right
          refine ⟨?_, ?_, ?_, ?_⟩
          · by_contra h; exact n1 ⟨not_lt.1 h, by linarith⟩
          · by_contra h; exact n2 ⟨by linarith, not_lt.1 h⟩
          · by_contra h; exact m1 ⟨not_lt.1 h, by linarith⟩
          · by_contra h; exact m2 ⟨by linarith, not_lt.1 h⟩
        · left
          refine ⟨?_, ?_, ?_, ?_⟩
          · by_contra h; exact m1 ⟨not_lt.1 h, by linarith⟩
          · by_contra h; exact m2 ⟨by linarith, not_lt.1 h⟩
          · by_contra h; exact n1 ⟨not_lt.1 h, by linarith⟩
          · by_contra h; exact n2 ⟨by linarith, not_lt.1 h⟩
        · exfalso
          rcases le_total a.bot b.bot with h | h
          · exact n1 ⟨h, by linarith⟩
          · exact m1 ⟨h, by linarith⟩
      · have e : (corners exactLe b a).r = ⟨max a.bot b.bot, min a.top b.top, max a.left b.left, min a.right b.right⟩ := by
          rw [hr', max_comm, min_comm, max_comm b.left, min_comm b.right]
        rw [max_comm, min_comm b.top] at h1'
        rw [max_comm, min_comm b.right] at h2'
        rcases hn' with h | h | h <;> simp only [h, e, h1', h2', and_self, if_true]
    · rcases hn with h | h | h <;> simp only [h, hr, h1, h2, and_self, if_true]
  refine ⟨_, main.1, ⟨main.2.1, main.2.2⟩, fun p => ?_⟩
  simp only [points, Set.mem_ofPred_eq, max_le_iff, le_min_iff]
  tauto

/-- C07: without common points the result has zero area (it is the degenerate rectangle at the origin), so it never
invents an overlap; the internal assertions never fail on separated rectangles. -/
theorem intersection_total (a b : Bounds K) (ha : Proper a) (hb : Proper b) (hs : SeparatedRects a b) :
    ∃ r, intersect lessOrEqual a b = some r ∧ Proper r ∧
      ((∀ p, ¬ (p ∈ points a ∧ p ∈ points b)) ∨ Cross a b → r = ⟨0, 0, 0, 0⟩) := by
  by_cases hne : ∃ p, p ∈ points a ∧ p ∈ points b
  · by_cases hc : Cross a b
    · rw [intersect_exact hs]
      have h0 : (corners exactLe a b).nm = 0 := by
        rcases corners_cases a b ha hb with ⟨h0, -⟩ | ⟨-, hr, h1, h2⟩
        · exact h0
        · exfalso
          unfold corners contains areOrdered exactLe at hr
          obtain ⟨ha1, ha2⟩ := ha
          obtain ⟨hb1, hb2⟩ := hb
          rcases hc with ⟨c1, c2, c3, c4⟩ | ⟨c1, c2, c3, c4⟩
          · have n1 : ¬ (a.bot ≤ b.bot) := not_le.2 c3
            have n2 : ¬ (b.top ≤ a.top) := not_le.2 c4
            simp only [n1, n2, decide_false, Bool.false_and, Bool.and_false, Bool.false_eq_true, if_false] at hr
            have := congrArg Bounds.left hr
            simp only at this
            rw [max_eq_right c1.le] at this
            exact absurd this c1.ne
          · have n1 : ¬ (a.left ≤ b.left) := not_le.2 c1
            have n2 : ¬ (b.right ≤ a.right) := not_le.2 c2
            simp only [n1, n2, decide_false, Bool.false_and, Bool.and_false, Bool.false_eq_true, if_false] at hr
            have := congrArg Bounds.bot hr
            simp only at this
            rw [max_eq_right c3.le] at this
            exact absurd this c3.ne
      have h0' : (corners exactLe b a).nm = 0 := by
        rcases corners_cases b a hb ha with ⟨h0, -⟩ | ⟨-, hr, h1, h2⟩
        · exact h0
        · exfalso
          unfold corners contains areOrdered exactLe at hr
          obtain ⟨ha1, ha2⟩ := ha
          obtain ⟨hb1, hb2⟩ := hb
          rcases hc with ⟨c1, c2, c3, c4⟩ | ⟨c1, c2, c3, c4⟩
          · have n1 : ¬ (b.left ≤ a.left) := not_le.2 c1
            have n2 : ¬ (a.right ≤ b.right) := not_le.2 c2
            simp only [n1, n2, decide_false, Bool.false_and, Bool.and_false, Bool.false_eq_true, if_false] at hr
            have := congrArg Bounds.bot hr
            simp only at this
            rw [max_eq_right c3.le] at this
            exact absurd this c3.ne
          · have n1 : ¬ (b.bot ≤ a.bot) := not_le.2 c3
            have n2 : ¬ (a.top ≤ b.top) := not_le.2 c4
            simp only [n1, n2, decide_false, Bool.false_and, Bool.and_false, Bool.false_eq_true, if_false] at hr
            have := congrArg Bounds.left hr
            simp only at this
            rw [max_eq_right c1.le] at this
            exact absurd this c1.ne
      refine ⟨⟨0, 0, 0, 0⟩, ?_, ⟨le_rfl, le_rfl⟩, fun _ => rfl⟩
      unfold intersect intersectRev
      simp only [h0, h0']
    · obtain ⟨r, h1, h2, h3⟩ := intersection_exact a b ha hb hs hne hc
      refine ⟨r, h1, h2, fun h => ?_⟩
      rcases h with h | h
      · obtain ⟨p, hp⟩ := hne; exact absurd hp (h p)
      · exact absurd h hc
  · rw [intersect_exact hs]
    have no : ∀ c d : Bounds K, Proper c → Proper d → (¬ ∃ p, p ∈ points c ∧ p ∈ points d) →
        (corners exactLe c d).nm = 0 := by
      intro c d hc hd hcd
      rcases corners_cases c d hc hd with ⟨h0, -⟩ | ⟨-, -, h1, h2⟩
      · exact h0
      · exfalso
        apply hcd
        refine ⟨⟨max c.left d.left, max c.bot d.bot⟩, ?_⟩
        simp only [max_le_iff, le_min_iff] at h1 h2
        simp only [points, Set.mem_ofPred_eq, le_max_left, le_max_right, max_le_iff, true_and]
        exact ⟨⟨⟨hc.2, h2.1.2⟩, hc.1, h1.1.2⟩, ⟨h2.2.1, hd.2⟩, h1.2.1, hd.1⟩
    have h0 := no a b ha hb hne
    have h0' := no b a hb ha (fun ⟨p, h⟩ => hne ⟨p, h.2, h.1⟩)
    refine ⟨⟨0, 0, 0, 0⟩, ?_, ⟨le_rfl, le_rfl⟩, fun _ => rfl⟩
    unfold intersect intersectRev
    simp only [h0, h0']

/-- C07: the overlap ratio of a rectangle of positive area is within `[0,1]` for *every* placement, and for every
placement but the crosswise one it is the common area over the area of the rectangle. -/
theorem overlap_ratio (a b : Bounds K) (ha : Proper a) (hb : Proper b) (hs : SeparatedRects a b)
    (hpos : area a ≠ 0) :
    ∃ o, overlap lessOrEqual areEqual a b = some o ∧ 0 ≤ o ∧ o ≤ 1 ∧
      (¬ Cross a b → o = commonArea a b / area a) := by
  have hv : 0 ≤ vside a := by unfold vside; linarith [ha.1]
  have hh : 0 ≤ hside a := by unfold hside; linarith [ha.2]
  have hA : 0 < area a := lt_of_le_of_ne (mul_nonneg hv hh) (Ne.symm hpos)
  obtain ⟨r, e, hr, hz⟩ := intersection_total a b ha hb hs
  refine ⟨area r / area a, by unfold overlap; rw [if_pos hpos, e]; rfl, ?_⟩
  have hrv : 0 ≤ vside r := by unfold vside; linarith [hr.1]
  have hrh : 0 ≤ hside r := by unfold hside; linarith [hr.2]
  by_cases hne : ∃ p, p ∈ points a ∧ p ∈ points b
  · by_cases hc : Cross a b
    · rw [hz (Or.inr hc)]
      simp [area, vside, hside, hc]
    · obtain ⟨r', e', hr', hp⟩ := intersection_exact a b ha hb hs hne hc
      rw [e] at e'
      obtain rfl := Option.some.inj e'
      -- the corners of r are the max/min coordinates
      have sub : ∀ p, p ∈ points r → p ∈ points a := fun p h => ((hp p).1 h).1
      have subb : ∀ p, p ∈ points r → p ∈ points b := fun p h => ((hp p).1 h).2
      have c1 : (⟨r.left, r.bot⟩ : Point K) ∈ points r := ⟨le_rfl, hr.2, le_rfl, hr.1⟩
      have c2 : (⟨r.right, r.top⟩ : Point K) ∈ points r := ⟨hr.2, le_rfl, hr.1, le_rfl⟩
      obtain ⟨a1, a2, a3, a4⟩ := sub _ c1
      obtain ⟨b1, b2, b3, b4⟩ := sub _ c2
      obtain ⟨d1, d2, d3, d4⟩ := subb _ c1
      obtain ⟨e1, e2, e3, e4⟩ := subb _ c2
      simp only at a1 a2 a3 a4 b1 b2 b3 b4 d1 d2 d3 d4 e1 e2 e3 e4
      have m1 : (⟨max a.left b.left, max a.bot b.bot⟩ : Point K) ∈ points r := by
        rw [hp]
        simp only [points, Set.mem_ofPred_eq, le_max_left, le_max_right, max_le_iff, true_and]
        exact ⟨⟨⟨ha.2, le_trans d1 a2⟩, ha.1, le_trans d3 a4⟩,
          ⟨⟨le_trans a1 d2, hb.2⟩, le_trans a3 d4, hb.1⟩⟩
      have m2 : (⟨min a.right b.right, min a.top b.top⟩ : Point K) ∈ points r := by
        rw [hp]
        simp only [points, Set.mem_ofPred_eq, min_le_left, min_le_right, le_min_iff, and_true]
        exact ⟨⟨⟨ha.2, le_trans a1 d2⟩, trivial, ha.1, le_trans a3 d4⟩,
          ⟨⟨le_trans d1 a2, hb.2⟩, trivial, le_trans d3 a4, hb.1⟩⟩
      have f1 : r.left = max a.left b.left := le_antisymm m1.1 (max_le a1 d1)
      have f2 : r.bot = max a.bot b.bot := le_antisymm m1.2.2.1 (max_le a3 d3)
      have f3 : r.right = min a.right b.right := le_antisymm (le_min b2 e2) m2.2.1
      have f4 : r.top = min a.top b.top := le_antisymm (le_min b4 e4) m2.2.2.2
      refine ⟨div_nonneg (mul_nonneg hrv hrh) hA.le, ?_, fun _ => ?_⟩
      · rw [div_le_one hA]
        unfold area
        apply mul_le_mul _ _ hrh hv <;> simp only [vside, hside] <;> linarith
      · congr 1
        unfold area commonArea
        rw [← f1, ← f2, ← f3, ← f4, mul_comm]
        simp only [vside, hside] at hrv hrh ⊢
        rw [max_eq_right hrv, max_eq_right hrh]
  · rw [hz (Or.inl (fun p h => hne ⟨p, h⟩))]
    refine ⟨by simp [area, vside, hside], by simp [area, vside, hside], fun _ => ?_⟩
    have : commonArea a b = 0 := by
      unfold commonArea
      by_contra h
      obtain ⟨n1, n2⟩ := mul_ne_zero_iff.1 h
      have g1 : 0 < min a.right b.right - max a.left b.left := by
        by_contra hn; exact n1 (max_eq_left (not_lt.1 hn))
      have g2 : 0 < min a.top b.top - max a.bot b.bot := by
        by_contra hn; exact n2 (max_eq_left (not_lt.1 hn))
      rw [sub_pos, max_lt_iff, lt_min_iff, lt_min_iff] at g1 g2
      apply hne
      refine ⟨⟨max a.left b.left, max a.bot b.bot⟩, ?_⟩
      simp only [points, Set.mem_ofPred_eq, le_max_left, le_max_right, max_le_iff, true_and]
      exact ⟨⟨⟨ha.2, g1.2.1.le⟩, ha.1, g2.2.1.le⟩, ⟨⟨g1.1.2.le, hb.2⟩, g2.1.2.le, hb.1⟩⟩
    rw [this]
    simp [area, vside, hside]

/-- The common area grows with the other rectangle. -/
theorem commonArea_mono (a b b' : Bounds K) (h1 : b'.left ≤ b.left) (h2 : b.right ≤ b'.right) (h3 : b'.bot ≤ b.bot)
    (h4 : b.top ≤ b'.top) : commonArea a b ≤ commonArea a b' := by
  unfold commonArea
  have e1 : min a.right b.right - max a.left b.left ≤ min a.right b'.right - max a.left b'.left :=
    sub_le_sub (min_le_min le_rfl h2) (max_le_max le_rfl h1)
  have e2 : min a.top b.top - max a.bot b.bot ≤ min a.top b'.top - max a.bot b'.bot :=
    sub_le_sub (min_le_min le_rfl h4) (max_le_max le_rfl h3)
  exact mul_le_mul (max_le_max le_rfl e1) (max_le_max le_rfl e2) (le_max_left _ _) (le_max_left _ _)

/-- C07: the overlap ratio is monotone in the other rectangle, if neither is placed crosswise (see the
counterexample below). -/
theorem overlap_monotone (a b b' : Bounds K) (ha : Proper a) (hb : Proper b) (hb' : Proper b')
    (hs : SeparatedRects a b) (hs' : SeparatedRects a b') (hpos : area a ≠ 0) (hc' : ¬ Cross a b')
    (hsub : ∀ p, p ∈ points b → p ∈ points b') (o o' : K) (ho : overlap lessOrEqual areEqual a b = some o)
    (ho' : overlap lessOrEqual areEqual a b' = some o') : o ≤ o' := by
  obtain ⟨q, e, q0, q1, qe⟩ := overlap_ratio a b ha hb hs hpos
  obtain ⟨q', e', q0', q1', qe'⟩ := overlap_ratio a b' ha hb' hs' hpos
  rw [ho] at e; rw [ho'] at e'
  obtain rfl := Option.some.inj e
  obtain rfl := Option.some.inj e'
  have hA : 0 < area a := lt_of_le_of_ne
    (mul_nonneg (by unfold vside; linarith [ha.1]) (by unfold hside; linarith [ha.2])) (Ne.symm hpos)
  have c1 : (⟨b.left, b.bot⟩ : Point K) ∈ points b := ⟨le_rfl, hb.2, le_rfl, hb.1⟩
  have c2 : (⟨b.right, b.top⟩ : Point K) ∈ points b := ⟨hb.2, le_rfl, hb.1, le_rfl⟩
  obtain ⟨a1, a2, a3, a4⟩ := hsub _ c1
  obtain ⟨b1, b2, b3, b4⟩ := hsub _ c2
  by_cases hc : Cross a b
  · obtain ⟨r, er, -, hz⟩ := intersection_total a b ha hb hs
    rw [hz (Or.inr hc)] at er
    unfold overlap at ho
    rw [if_pos hpos, er] at ho
    have := Option.some.inj ho
    rw [← this]
    simpa [area, vside, hside] using q0'
  · rw [qe hc, qe' hc']
    exact div_le_div_of_nonneg_right (commonArea_mono a b b' a1 b2 a3 b4) hA.le

/-- C07: a point overlaps a rectangle of positive area completely or not at all, according to whether it lies in it. -/
theorem overlap_point (x y : K) (b : Bounds K) (hs : SeparatedRects b ⟨y, y, x, x⟩)
    (hpos : area b ≠ 0) :
    overlap lessOrEqual areEqual ⟨y, y, x, x⟩ b
      = some (@ite _ ((⟨x, y⟩ : Point K) ∈ points b) (Classical.dec _) 1 0) := by
  unfold overlap
  have h0 : ¬ area (⟨y, y, x, x⟩ : Bounds K) ≠ 0 := by simp [area, vside, hside]
  rw [if_neg h0, if_pos hpos, contains_exact hs x y (by simp) (by simp)]
  congr 1
  have : contains exactLe b x y = true ↔ (⟨x, y⟩ : Point K) ∈ points b := by
    simp [contains, areOrdered, exactLe, points, and_assoc]
  by_cases h : (⟨x, y⟩ : Point K) ∈ points b
  · rw [if_pos h, if_pos (this.2 h)]
  · rw [if_neg h, if_neg (fun hh => h (this.1 hh))]

/-- Nearly touching rectangles are outside of the claim for a reason: two unit squares that are 5e-8 apart trip the
constructor's assertion inside of `intersect`. -/
theorem near_touch_counterexample :
    intersect lessOrEqual (⟨0, 1, 0, 1⟩ : Bounds ℚ) ⟨0, 1, 1 + 5 / 10 ^ 8, 2⟩ = none := by
  decide +kernel

/-- C07 is false of the code for crosswise placements: the plus sign of two 3 × 1 bars has common area 1, but the
reported intersection is the degenerate rectangle at the origin and the overlap 0; enlarging the other rectangle thus
decreases the overlap. -/
theorem overlap_cross_counterexample :
    let a : Bounds ℚ := ⟨0, 1, 0, 3⟩
    let b : Bounds ℚ := ⟨-1, 2, 1, 2⟩
    let b' : Bounds ℚ := ⟨0, 1, 1, 2⟩
    intersect lessOrEqual a b = some ⟨0, 0, 0, 0⟩ ∧ overlap lessOrEqual areEqual a b = some 0 ∧
    commonArea a b = 1 ∧ overlap lessOrEqual areEqual a b' = some (1 / 3) := by
  decide +kernel

/-- Non-vacuity of `overlap_monotone` and `overlap_point`. -/
example : overlap lessOrEqual areEqual (⟨0, 2, 0, 2⟩ : Bounds ℚ) ⟨1, 3, 1, 5⟩ = some (1 / 4) ∧
    overlap lessOrEqual areEqual (⟨0, 2, 0, 2⟩ : Bounds ℚ) ⟨-1, 3, 1, 5⟩ = some (1 / 2) ∧
    overlap lessOrEqual areEqual (⟨1, 1, 1, 1⟩ : Bounds ℚ) ⟨0, 2, 0, 2⟩ = some 1 ∧
    overlap lessOrEqual areEqual (⟨1, 1, 3, 3⟩ : Bounds ℚ) ⟨0, 2, 0, 2⟩ = some 0 := by decide +kernel

/-- Non-vacuity: two partially overlapping rectangles. -/
example : overlap lessOrEqual areEqual (⟨0, 2, 0, 2⟩ : Bounds ℚ) ⟨1, 3, 1, 3⟩ = some (1 / 4) := by decide +kernel
example : SeparatedRects (⟨0, 2, 0, 2⟩ : Bounds ℚ) ⟨1, 3, 1, 3⟩ := by
  constructor <;> intro u hu v hv <;> simp only [List.mem_cons, List.not_mem_nil, or_false] at hu hv <;>
    rcases hu with rfl | rfl <;> rcases hv with rfl | rfl <;> right <;> norm_num

/-- C07: whatever the comparison, never do exactly three corners of a rectangle lie in another one: the assertion about
that cannot fail. -/
theorem never_three_corners (le : K → K → Bool) (a b : Bounds K) : (corners le a b).nm ≠ 3 := by
  unfold corners contains areOrdered
  cases h1 : (le a.left b.left && le b.left a.right) <;> cases h2 : (le a.left b.right && le b.right a.right) <;>
    cases h3 : (le a.bot b.bot && le b.bot a.top) <;> cases h4 : (le a.bot b.top && le b.top a.top) <;> simp

/-- C07: the overlap with something of no area, for something of no area itself: defined for two points only, and then it
says whether they are the same up to the tolerance of the comparison. -/
theorem overlap_degenerate (a b : Bounds K) (ha : area a = 0) (hb : area b = 0) :
    ((∃ x y x' y', a = ⟨y, y, x, x⟩ ∧ b = ⟨y', y', x', x'⟩ ∧
        overlap lessOrEqual areEqual a b = some (if areEqual x x' && areEqual y y' then 1 else 0)) ∨
      ((a.bot ≠ a.top ∨ a.left ≠ a.right ∨ b.bot ≠ b.top ∨ b.left ≠ b.right) ∧ overlap lessOrEqual areEqual a b = none)) := by
  obtain ⟨ab, at_, al, ar⟩ := a
  obtain ⟨bb, bt, bl, br⟩ := b
  unfold overlap
  rw [if_neg (not_not.2 ha), if_neg (not_not.2 hb)]
  simp only [isPoint, vside, hside, sub_eq_zero]
  by_cases h1 : at_ = ab
  · by_cases h2 : ar = al
    · by_cases h3 : bt = bb
      · by_cases h4 : br = bl
        · left
          subst h1 h2 h3 h4
          refine ⟨_, _, _, _, rfl, rfl, ?_⟩
          rw [if_pos (by simp)]
          cases hx : areEqual ar br <;> cases hy : areEqual at_ bt <;> simp [rectEq, hx, hy]
        · right; exact ⟨by simp [Ne.symm h4], by simp [h4]⟩
      · right; exact ⟨by simp [Ne.symm h3], by simp [h3]⟩
    · right; exact ⟨by simp [Ne.symm h2], by simp [h2]⟩
  · right; exact ⟨by simp [Ne.symm h1], by simp [h1]⟩

/-- A point and itself, a point and another one, a point and a line. -/
example : overlap lessOrEqual areEqual (⟨1, 1, 2, 2⟩ : Bounds ℚ) ⟨1, 1, 2, 2⟩ = some 1 ∧
    overlap lessOrEqual areEqual (⟨1, 1, 2, 2⟩ : Bounds ℚ) ⟨1, 1, 3, 3⟩ = some 0 ∧
    overlap lessOrEqual areEqual (⟨1, 1, 2, 2⟩ : Bounds ℚ) ⟨1, 1, 2, 3⟩ = none := by decide +kernel

end Slam.Rect
