import Verif.Estimator.Range
import Mathlib.Tactic.Tauto

/-!
# Intersections of lines and segments with a cell, for exact comparisons
-/

set_option autoImplicit false
set_option linter.unusedSectionVars false

namespace Slam.Estimator
open Slam.Grid Slam.Rect Slam.Cells

variable {K : Type*} [Field K] [LinearOrder K] [IsStrictOrderedRing K]

/-- Point of a ray. -/
def Ray.at (r : Ray K) (t : K) : Point K := ⟨r.beg.x + t * r.delta.x, r.beg.y + t * r.delta.y⟩

theorem point_ext {p q : Point K} (h1 : p.x = q.x) (h2 : p.y = q.y) : p = q := by
  cases p; cases q; simp_all

theorem ptEq_exact (p q : Point K) : ptEq (exactCmp : Cmp K) p q = decide (p = q) := by
  unfold ptEq exactCmp
  rw [Bool.eq_iff_iff]
  simp only [Bool.and_eq_true, decide_eq_true_eq]
  constructor
  · rintro ⟨h1, h2⟩; exact point_ext h1 h2
  · rintro rfl; exact ⟨rfl, rfl⟩

/-! ### Removal of duplicates -/

theorem uniqueFrom_pts (l : List (Inter K)) (last : Inter K) (p : Point K) :
    (last.pt = p ∨ ∃ i ∈ uniqueFrom exactCmp last l, i.pt = p) ↔ (last.pt = p ∨ ∃ i ∈ l, i.pt = p) := by
  induction l generalizing last with
  | nil => simp [uniqueFrom]
  | cons a l ih =>
    unfold uniqueFrom
    by_cases h : last.pt = a.pt
    · simp only [ptEq_exact, h, decide_true, if_true]
      rw [← h, ih]
      constructor
      · rintro (h1 | ⟨i, hi, h1⟩)
        · exact Or.inl h1
        · exact Or.inr ⟨i, List.mem_cons_of_mem _ hi, h1⟩
      · rintro (h1 | ⟨i, hi, h1⟩)
        · exact Or.inl h1
        · rcases List.mem_cons.1 hi with rfl | hi
          · exact Or.inl (h.trans h1)
          · exact Or.inr ⟨i, hi, h1⟩
    · simp only [ptEq_exact, h, decide_false, Bool.false_eq_true, if_false]
      have := ih a
      simp only [List.mem_cons, exists_eq_or_imp]
      exact or_congr Iff.rfl this

theorem unique_pts (l : List (Inter K)) (p : Point K) :
    (∃ i ∈ unique exactCmp l, i.pt = p) ↔ ∃ i ∈ l, i.pt = p := by
  cases l with
  | nil => simp [unique]
  | cons a l =>
    have := uniqueFrom_pts l a p
    unfold unique
    simp only [List.mem_cons, exists_eq_or_imp]
    exact this

theorem dedup_pts (l : List (Inter K)) (p : Point K) :
    (∃ i ∈ dedup exactCmp l, i.pt = p) ↔ ∃ i ∈ l, i.pt = p := by
  unfold dedup
  simp only []
  rw [unique_pts]
  rcases List.eq_nil_or_concat l with rfl | ⟨l', b, rfl⟩
  · simp
  · cases l' with
    | nil => simp
    | cons a l' =>
      have hh : (a :: l' ++ [b]).head? = some a := rfl
      have hb : (a :: l' ++ [b]).getLast? = some b := List.getLast?_concat ..
      simp only [List.concat_eq_append, hh, hb, ptEq_exact]
      by_cases h : a.pt = b.pt
      · have hlen : 1 < (a :: l' ++ [b]).length := by simp
        simp only [h, hlen, decide_true, Bool.and_self, if_true, List.dropLast_concat]
        constructor
        · rintro ⟨i, hi, h1⟩
          exact ⟨i, List.mem_append_left _ hi, h1⟩
        · rintro ⟨i, hi, h1⟩
          rcases List.mem_append.1 hi with hi | hi
          · exact ⟨i, hi, h1⟩
          · rw [List.mem_singleton] at hi
            subst hi
            exact ⟨a, List.mem_cons_self, h.trans h1⟩
      · simp only [h, decide_false, Bool.and_false, Bool.false_eq_true, if_false]

theorem uniqueFrom_head (l : List (Inter K)) (last j : Inter K) (m : List (Inter K))
    (h : uniqueFrom exactCmp last l = j :: m) : last.pt ≠ j.pt := by
  induction l with
  | nil => simp [uniqueFrom] at h
  | cons a l ih =>
    unfold uniqueFrom at h
    by_cases h1 : last.pt = a.pt
    · simp only [ptEq_exact, h1, decide_true, if_true] at h
      exact ih h
    · simp only [ptEq_exact, h1, decide_false, Bool.false_eq_true, if_false, List.cons.injEq] at h
      rw [← h.1]; exact h1

theorem dedup_two (l : List (Inter K)) (i j : Inter K) (h : dedup exactCmp l = [i, j]) : i.pt ≠ j.pt := by
  have key : ∀ m : List (Inter K), unique exactCmp m = [i, j] → i.pt ≠ j.pt := by
    intro m hm
    cases m with
    | nil => simp [unique] at hm
    | cons a m =>
      unfold unique at hm
      simp only [List.cons.injEq] at hm
      rw [← hm.1]
      exact uniqueFrom_head m a j [] hm.2
  exact key _ h

/-- `x` is between `a` and `b`, in either order. -/
def Btw (a x b : K) : Prop := (a ≤ x ∧ x ≤ b) ∨ (b ≤ x ∧ x ≤ a)

theorem at_inj (r : Ray K) (h : r.delta.x ≠ 0 ∨ r.delta.y ≠ 0) (t u : K) : r.at t = r.at u ↔ t = u := by
  constructor
  · intro e
    unfold Ray.at at e
    injection e with e1 e2
    rcases h with h | h
    · exact mul_right_cancel₀ h (add_left_cancel e1)
    · exact mul_right_cancel₀ h (add_left_cancel e2)
  · rintro rfl; rfl

theorem dedup_short (r : Ray K) (hd : r.delta.x ≠ 0 ∨ r.delta.y ≠ 0) (tT tL tB tR : K) (bT bL bB bR : Bool)
    (hx : tL ≠ tR) (hy : tB ≠ tT)
    (hT : bT = true → Btw tL tT tR) (hB : bB = true → Btw tL tB tR)
    (hL : bL = true → Btw tB tL tT) (hR : bR = true → Btw tB tR tT) :
    (dedup exactCmp ((if bT then [(⟨.top, r.at tT⟩ : Inter K)] else []) ++ (if bL then [⟨.left, r.at tL⟩] else []) ++
      (if bB then [⟨.bot, r.at tB⟩] else []) ++ (if bR then [⟨.right, r.at tR⟩] else []))).length < 3 := by
  unfold Btw at *
  have hx' : tR ≠ tL := hx.symm
  have hy' : tT ≠ tB := hy.symm
  have inj := at_inj r hd
  cases bT <;> cases bL <;> cases bB <;> cases bR <;>
    simp only [Bool.false_eq_true, false_imp_iff, true_imp_iff] at hT hB hL hR <;>
    simp only [dedup, List.head?, List.getLast?, List.nil_append, List.append_nil, List.cons_append,
      Bool.false_eq_true, if_false, if_true, List.length_cons, List.length_nil, ptEq_exact, inj, List.dropLast,
      List.getLast] <;>
    (try split_ifs) <;>
    simp only [unique, uniqueFrom, ptEq_exact, inj, decide_eq_true_eq] <;>
    clear inj hd <;> grind

theorem uniqueFrom_length_le (C : Cmp K) (l : List (Inter K)) (last : Inter K) : (uniqueFrom C last l).length ≤ l.length := by
  induction l generalizing last with
  | nil => simp [uniqueFrom]
  | cons a l ih =>
    unfold uniqueFrom
    by_cases h : ptEq C last.pt a.pt = true
    · rw [if_pos h]; exact (ih _).trans (by simp)
    · rw [if_neg h]; simpa using ih a

theorem dedup_length_le (C : Cmp K) (l : List (Inter K)) : (dedup C l).length ≤ l.length := by
  have h1 : ∀ m : List (Inter K), (unique C m).length ≤ m.length := by
    intro m
    cases m with
    | nil => simp [unique]
    | cons a m => simpa [unique] using uniqueFrom_length_le C m a
  unfold dedup
  simp only []
  refine (h1 _).trans ?_
  cases l.head? <;> cases l.getLast? <;> simp only [le_refl]
  rename_i a b
  by_cases hc : (decide (1 < l.length) && ptEq C a.pt b.pt) = true
  · rw [if_pos hc]; simp
  · rw [if_neg hc]

theorem horiz_pts (r : Ray K) (a b y : K) (loc : Loc) (p : Point K) :
    (∃ i ∈ r.horiz exactCmp a b y loc, i.pt = p) ↔
      r.delta.y ≠ 0 ∧ p.y = y ∧ a ≤ p.x ∧ p.x ≤ b ∧ ∃ t, p = r.at t := by
  constructor
  · rintro ⟨i, hi, rfl⟩
    obtain ⟨-, h1, h2, h3⟩ := horiz_mem _ _ _ _ _ _ _ hi
    unfold Ray.horiz at hi
    by_cases h0 : r.delta.y = 0
    · simp [exactCmp, h0] at hi
    · refine ⟨h0, h3, h1, h2, (y - r.beg.y) / r.delta.y, ?_⟩
      simp only [exactCmp, h0, decide_false, Bool.false_eq_true, if_false] at hi
      by_cases h4 : r.beg.x + (y - r.beg.y) / r.delta.y * r.delta.x < a ∨ b < r.beg.x + (y - r.beg.y) / r.delta.y * r.delta.x
      · simp [h4] at hi
      · simp only [h4, if_false, List.mem_singleton] at hi
        subst hi
        refine point_ext rfl ?_
        simp only [Ray.at]
        rw [div_mul_cancel₀ _ h0]; ring
  · rintro ⟨h0, h1, h2, h3, t, rfl⟩
    have ht : (y - r.beg.y) / r.delta.y = t := by
      rw [div_eq_iff h0, ← h1]; simp only [Ray.at]; ring
    refine ⟨⟨loc, r.at t⟩, ?_, rfl⟩
    unfold Ray.horiz
    simp only [exactCmp, h0, decide_false, Bool.false_eq_true, if_false, ht]
    have h4 : ¬ (r.beg.x + t * r.delta.x < a ∨ b < r.beg.x + t * r.delta.x) := by
      push Not; exact ⟨h2, h3⟩
    rw [if_neg h4, List.mem_singleton]
    simp only [Inter.mk.injEq, true_and]
    exact point_ext rfl h1

theorem vert_pts (r : Ray K) (a b x : K) (loc : Loc) (p : Point K) :
    (∃ i ∈ r.vert exactCmp a b x loc, i.pt = p) ↔
      r.delta.x ≠ 0 ∧ p.x = x ∧ a ≤ p.y ∧ p.y ≤ b ∧ ∃ t, p = r.at t := by
  constructor
  · rintro ⟨i, hi, rfl⟩
    obtain ⟨-, h1, h2, h3⟩ := vert_mem _ _ _ _ _ _ _ hi
    unfold Ray.vert at hi
    by_cases h0 : r.delta.x = 0
    · simp [exactCmp, h0] at hi
    · refine ⟨h0, h3, h1, h2, (x - r.beg.x) / r.delta.x, ?_⟩
      simp only [exactCmp, h0, decide_false, Bool.false_eq_true, if_false] at hi
      by_cases h4 : r.beg.y + (x - r.beg.x) / r.delta.x * r.delta.y < a ∨ b < r.beg.y + (x - r.beg.x) / r.delta.x * r.delta.y
      · simp [h4] at hi
      · simp only [h4, if_false, List.mem_singleton] at hi
        subst hi
        refine point_ext ?_ rfl
        simp only [Ray.at]
        rw [div_mul_cancel₀ _ h0]; ring
  · rintro ⟨h0, h1, h2, h3, t, rfl⟩
    have ht : (x - r.beg.x) / r.delta.x = t := by
      rw [div_eq_iff h0, ← h1]; simp only [Ray.at]; ring
    refine ⟨⟨loc, r.at t⟩, ?_, rfl⟩
    unfold Ray.vert
    simp only [exactCmp, h0, decide_false, Bool.false_eq_true, if_false, ht]
    have h4 : ¬ (r.beg.y + t * r.delta.y < a ∨ b < r.beg.y + t * r.delta.y) := by
      push Not; exact ⟨h2, h3⟩
    rw [if_neg h4, List.mem_singleton]
    simp only [Inter.mk.injEq, true_and]
    exact point_ext h1 rfl

theorem horiz_length_le (C : Cmp K) (r : Ray K) (a b y : K) (loc : Loc) : (r.horiz C a b y loc).length ≤ 1 := by
  unfold Ray.horiz
  by_cases h0 : C.eq r.delta.y 0 = true
  · rw [if_pos h0]; simp
  · rw [if_neg h0]
    simp only []
    split_ifs <;> simp

theorem vert_length_le (C : Cmp K) (r : Ray K) (a b y : K) (loc : Loc) : (r.vert C a b y loc).length ≤ 1 := by
  unfold Ray.vert
  by_cases h0 : C.eq r.delta.x 0 = true
  · rw [if_pos h0]; simp
  · rw [if_neg h0]
    simp only []
    split_ifs <;> simp

/-- Order of the parameters at which a line passes two parallel lines and a third one. -/
theorem btw_of (a b x0 d t : K) (hd : d ≠ 0) (h1 : a ≤ x0 + t * d) (h2 : x0 + t * d ≤ b) :
    Btw ((a - x0) / d) t ((b - x0) / d) := by
  rcases lt_or_gt_of_ne hd with h | h
  · right
    rw [div_le_iff_of_neg h, le_div_iff_of_neg h]
    constructor <;> linarith
  · left
    rw [div_le_iff₀ h, le_div_iff₀ h]
    constructor <;> linarith

theorem horiz_eq (r : Ray K) (a b y : K) (loc : Loc) (h0 : r.delta.y ≠ 0) :
    r.horiz exactCmp a b y loc =
      if decide (a ≤ r.beg.x + (y - r.beg.y) / r.delta.y * r.delta.x ∧ r.beg.x + (y - r.beg.y) / r.delta.y * r.delta.x ≤ b)
      then [⟨loc, r.at ((y - r.beg.y) / r.delta.y)⟩] else [] := by
  unfold Ray.horiz
  simp only [exactCmp, h0, decide_false, Bool.false_eq_true, if_false, decide_eq_true_eq]
  by_cases h : a ≤ r.beg.x + (y - r.beg.y) / r.delta.y * r.delta.x ∧ r.beg.x + (y - r.beg.y) / r.delta.y * r.delta.x ≤ b
  · rw [if_pos h, if_neg (by push Not; exact h)]
    have : (⟨r.beg.x + (y - r.beg.y) / r.delta.y * r.delta.x, y⟩ : Point K) = r.at ((y - r.beg.y) / r.delta.y) := by
      refine point_ext rfl ?_
      simp only [Ray.at]
      rw [div_mul_cancel₀ _ h0]; ring
    rw [this]
  · rw [if_neg h, if_pos]
    by_contra h'; push Not at h'; exact h h'

theorem vert_eq (r : Ray K) (a b x : K) (loc : Loc) (h0 : r.delta.x ≠ 0) :
    r.vert exactCmp a b x loc =
      if decide (a ≤ r.beg.y + (x - r.beg.x) / r.delta.x * r.delta.y ∧ r.beg.y + (x - r.beg.x) / r.delta.x * r.delta.y ≤ b)
      then [⟨loc, r.at ((x - r.beg.x) / r.delta.x)⟩] else [] := by
  unfold Ray.vert
  simp only [exactCmp, h0, decide_false, Bool.false_eq_true, if_false, decide_eq_true_eq]
  by_cases h : a ≤ r.beg.y + (x - r.beg.x) / r.delta.x * r.delta.y ∧ r.beg.y + (x - r.beg.x) / r.delta.x * r.delta.y ≤ b
  · rw [if_pos h, if_neg (by push Not; exact h)]
    have : (⟨x, r.beg.y + (x - r.beg.x) / r.delta.x * r.delta.y⟩ : Point K) = r.at ((x - r.beg.x) / r.delta.x) := by
      refine point_ext ?_ rfl
      simp only [Ray.at]
      rw [div_mul_cancel₀ _ h0]; ring
    rw [this]
  · rw [if_neg h, if_pos]
    by_contra h'; push Not at h'; exact h h'

/-- The line runs along no edge line of the cell. -/
def Ray.Off (r : Ray K) (c : Bounds K) : Prop :=
  (r.delta.y = 0 → r.beg.y ≠ c.bot ∧ r.beg.y ≠ c.top) ∧ (r.delta.x = 0 → r.beg.x ≠ c.left ∧ r.beg.x ≠ c.right)

/-- Intersections of a line with a cell: never more than two; distinct; and, for a line off the edge lines, exactly the
points of the line on the boundary. -/
theorem rayInters_spec (c : Bounds K) (hx : c.left < c.right) (hy : c.bot < c.top) (r : Ray K) :
    ∃ l, rayInters exactCmp c r = some l ∧ l.length ≤ 2 ∧ (∀ i j, l = [i, j] → i.pt ≠ j.pt) ∧
      (∀ i ∈ l, ∃ t, i.pt = r.at t) ∧
      ((r.delta.x ≠ 0 ∨ r.delta.y ≠ 0) → r.Off c → ∀ t, OnBoundary c (r.at t) → ∃ i ∈ l, i.pt = r.at t) := by
  have e1 : r.intersect exactCmp (topEdge c) .top = some (r.horiz exactCmp c.left c.right c.top .top) := by
    simp [Ray.intersect, Seg.isHoriz, topEdge, exactCmp]
  have e3 : r.intersect exactCmp (botEdge c) .bot = some (r.horiz exactCmp c.left c.right c.bot .bot) := by
    simp [Ray.intersect, Seg.isHoriz, botEdge, exactCmp]
  have e2 : r.intersect exactCmp (leftEdge c) .left = some (r.vert exactCmp c.bot c.top c.left .left) := by
    simp [Ray.intersect, Seg.isHoriz, Seg.isVert, leftEdge, exactCmp, hy.ne]
  have e4 : r.intersect exactCmp (rightEdge c) .right = some (r.vert exactCmp c.bot c.top c.right .right) := by
    simp [Ray.intersect, Seg.isHoriz, Seg.isVert, rightEdge, exactCmp, hy.ne]
  set T := r.horiz exactCmp c.left c.right c.top .top with hT
  set L := r.vert exactCmp c.bot c.top c.left .left with hL
  set B := r.horiz exactCmp c.left c.right c.bot .bot with hB
  set R := r.vert exactCmp c.bot c.top c.right .right with hR
  have hlen : (dedup exactCmp (T ++ L ++ B ++ R)).length < 3 := by
    by_cases dx : r.delta.x = 0
    · have hl0 : L = [] := by rw [hL]; simp [Ray.vert, exactCmp, dx]
      have hr0 : R = [] := by rw [hR]; simp [Ray.vert, exactCmp, dx]
      have := dedup_length_le exactCmp (T ++ L ++ B ++ R)
      have h1 := horiz_length_le exactCmp r c.left c.right c.top .top
      have h2 := horiz_length_le exactCmp r c.left c.right c.bot .bot
      rw [← hT] at h1
      rw [← hB] at h2
      rw [hl0, hr0] at this ⊢
      simp only [List.length_append, List.length_nil] at this
      omega
    · by_cases dy : r.delta.y = 0
      · have hl0 : T = [] := by rw [hT]; simp [Ray.horiz, exactCmp, dy]
        have hr0 : B = [] := by rw [hB]; simp [Ray.horiz, exactCmp, dy]
        have := dedup_length_le exactCmp (T ++ L ++ B ++ R)
        have h1 := vert_length_le exactCmp r c.bot c.top c.left .left
        have h2 := vert_length_le exactCmp r c.bot c.top c.right .right
        rw [← hL] at h1
        rw [← hR] at h2
        rw [hl0, hr0] at this ⊢
        simp only [List.length_append, List.length_nil] at this
        omega
      · rw [hT, hL, hB, hR, horiz_eq _ _ _ _ _ dy, vert_eq _ _ _ _ _ dx, horiz_eq _ _ _ _ _ dy, vert_eq _ _ _ _ _ dx]
        refine dedup_short r (Or.inl dx) _ _ _ _ _ _ _ _ ?_ ?_ ?_ ?_ ?_ ?_
        · intro h
          rw [div_left_inj' dx] at h
          linarith
        · intro h
          rw [div_left_inj' dy] at h
          linarith
        · intro h
          have h := of_decide_eq_true h
          exact btw_of _ _ _ _ _ dx h.1 h.2
        · intro h
          have h := of_decide_eq_true h
          exact btw_of _ _ _ _ _ dx h.1 h.2
        · intro h
          have h := of_decide_eq_true h
          exact btw_of _ _ _ _ _ dy h.1 h.2
        · intro h
          have h := of_decide_eq_true h
          exact btw_of _ _ _ _ _ dy h.1 h.2
  refine ⟨dedup exactCmp (T ++ L ++ B ++ R), ?_, by omega, ?_, ?_, ?_⟩
  · unfold rayInters
    rw [e1, e2, e3, e4]
    simp only [Option.bind_some, hlen, if_true]
  · intro i j h
    exact dedup_two _ i j h
  · intro i hi
    have := mem_dedup _ _ _ hi
    simp only [List.mem_append] at this
    rcases this with ((h | h) | h) | h
    · exact ((horiz_pts r _ _ _ _ i.pt).1 ⟨i, h, rfl⟩).2.2.2.2
    · exact ((vert_pts r _ _ _ _ i.pt).1 ⟨i, h, rfl⟩).2.2.2.2
    · exact ((horiz_pts r _ _ _ _ i.pt).1 ⟨i, h, rfl⟩).2.2.2.2
    · exact ((vert_pts r _ _ _ _ i.pt).1 ⟨i, h, rfl⟩).2.2.2.2
  · intro hd hoff t ht
    rw [dedup_pts]
    obtain ⟨⟨b1, b2, b3, b4⟩, hin⟩ := ht
    have pick : (∃ i ∈ T, i.pt = r.at t) ∨ (∃ i ∈ L, i.pt = r.at t) ∨ (∃ i ∈ B, i.pt = r.at t) ∨ (∃ i ∈ R, i.pt = r.at t) := by
      have hy0 : r.delta.y = 0 → (r.at t).y ≠ c.bot ∧ (r.at t).y ≠ c.top := by
        intro h; simp only [Ray.at, h, mul_zero, add_zero]; exact hoff.1 h
      have hx0 : r.delta.x = 0 → (r.at t).x ≠ c.left ∧ (r.at t).x ≠ c.right := by
        intro h; simp only [Ray.at, h, mul_zero, add_zero]; exact hoff.2 h
      by_cases q1 : (r.at t).y = c.top
      · left; exact (horiz_pts _ _ _ _ _ _).2 ⟨fun h => (hy0 h).2 q1, q1, b1, b2, t, rfl⟩
      by_cases q2 : (r.at t).y = c.bot
      · right; right; left; exact (horiz_pts _ _ _ _ _ _).2 ⟨fun h => (hy0 h).1 q2, q2, b1, b2, t, rfl⟩
      by_cases q3 : (r.at t).x = c.left
      · right; left; exact (vert_pts _ _ _ _ _ _).2 ⟨fun h => (hx0 h).1 q3, q3, b3, b4, t, rfl⟩
      by_cases q4 : (r.at t).x = c.right
      · right; right; right; exact (vert_pts _ _ _ _ _ _).2 ⟨fun h => (hx0 h).2 q4, q4, b3, b4, t, rfl⟩
      exact absurd ⟨lt_of_le_of_ne b1 (Ne.symm q3), lt_of_le_of_ne b2 q4, lt_of_le_of_ne b3 (Ne.symm q2), lt_of_le_of_ne b4 q1⟩ hin
    rcases pick with ⟨i, h, e⟩ | ⟨i, h, e⟩ | ⟨i, h, e⟩ | ⟨i, h, e⟩ <;> exact ⟨i, by simp [h], e⟩

end Slam.Estimator
