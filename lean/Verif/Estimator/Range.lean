import Verif.Estimator.Model
import Verif.Estimator.Spec
import Mathlib.Tactic.Linarith
import Mathlib.Tactic.Ring
import Mathlib.Tactic.NormNum
import Mathlib.Tactic.FieldSimp

/-!
# Every estimate is a pair of numbers in `[0, 1]`

For every comparison, tolerant or exact.
-/

set_option autoImplicit false
set_option linter.unusedSectionVars false

namespace Slam.Estimator
open Slam.Grid Slam.Rect Slam.Cells

variable {K : Type*} [Field K] [LinearOrder K] [IsStrictOrderedRing K]

theorem horiz_mem (C : Cmp K) (r : Ray K) (a b y : K) (loc : Loc) (i : Inter K) (h : i ∈ r.horiz C a b y loc) :
    i.loc = loc ∧ a ≤ i.pt.x ∧ i.pt.x ≤ b ∧ i.pt.y = y := by
  unfold Ray.horiz at h
  by_cases h0 : C.eq r.delta.y 0 = true
  · rw [if_pos h0] at h; simp at h
  · rw [if_neg h0] at h
    by_cases h1 : r.beg.x + (y - r.beg.y) / r.delta.y * r.delta.x < a ∨ b < r.beg.x + (y - r.beg.y) / r.delta.y * r.delta.x
    · simp [h1] at h
    · simp only [h1, if_false, List.mem_singleton] at h
      subst h
      push Not at h1
      exact ⟨rfl, h1.1, h1.2, rfl⟩

theorem vert_mem (C : Cmp K) (r : Ray K) (a b x : K) (loc : Loc) (i : Inter K) (h : i ∈ r.vert C a b x loc) :
    i.loc = loc ∧ a ≤ i.pt.y ∧ i.pt.y ≤ b ∧ i.pt.x = x := by
  unfold Ray.vert at h
  by_cases h0 : C.eq r.delta.x 0 = true
  · rw [if_pos h0] at h; simp at h
  · rw [if_neg h0] at h
    by_cases h1 : r.beg.y + (x - r.beg.x) / r.delta.x * r.delta.y < a ∨ b < r.beg.y + (x - r.beg.x) / r.delta.x * r.delta.y
    · simp [h1] at h
    · simp only [h1, if_false, List.mem_singleton] at h
      subst h
      push Not at h1
      exact ⟨rfl, h1.1, h1.2, rfl⟩

theorem mem_uniqueFrom (C : Cmp K) (l : List (Inter K)) (last i : Inter K) (h : i ∈ uniqueFrom C last l) : i ∈ l := by
  induction l generalizing last with
  | nil => simp [uniqueFrom] at h
  | cons a l ih =>
    unfold uniqueFrom at h
    by_cases h1 : ptEq C last.pt a.pt = true
    · rw [if_pos h1] at h; exact List.mem_cons_of_mem _ (ih _ h)
    · rw [if_neg h1] at h
      rcases List.mem_cons.1 h with rfl | h
      · exact List.mem_cons_self
      · exact List.mem_cons_of_mem _ (ih _ h)

theorem mem_unique (C : Cmp K) (l : List (Inter K)) (i : Inter K) (h : i ∈ unique C l) : i ∈ l := by
  cases l with
  | nil => simp [unique] at h
  | cons a l =>
    rcases List.mem_cons.1 h with rfl | h
    · exact List.mem_cons_self
    · exact List.mem_cons_of_mem _ (mem_uniqueFrom C l _ _ h)

theorem mem_dedup (C : Cmp K) (l : List (Inter K)) (i : Inter K) (h : i ∈ dedup C l) : i ∈ l := by
  have := mem_unique C _ _ h
  revert this
  cases l.head? <;> cases l.getLast? <;> simp only [] <;> try exact id
  rename_i a b
  by_cases hc : (decide (1 < l.length) && ptEq C a.pt b.pt) = true
  · rw [if_pos hc]; exact fun h => List.dropLast_subset _ h
  · rw [if_neg hc]; exact id

/-- Intersections of a line with the cell lie in the cell. -/
theorem rayInters_inCell (C : Cmp K) (c : Bounds K) (r : Ray K) (hx : c.left ≤ c.right) (hy : c.bot ≤ c.top)
    (l : List (Inter K)) (h : rayInters C c r = some l) : ∀ i ∈ l, InCell c i.pt := by
  unfold rayInters at h
  simp only [Option.bind_eq_some_iff] at h
  obtain ⟨a, ha, b, hb, d, hd, e, he, h⟩ := h
  by_cases hl : (dedup C (a ++ b ++ d ++ e)).length < 3
  swap
  · rw [if_neg hl] at h; exact absurd h (by simp)
  simp only [hl, if_true, Option.some.injEq] at h
  subst h
  have key : ∀ (s : Seg K) (loc : Loc) (l : List (Inter K)), r.intersect C s loc = some l →
      (s = topEdge c ∨ s = leftEdge c ∨ s = botEdge c ∨ s = rightEdge c) → ∀ i ∈ l, InCell c i.pt := by
    intro s loc l h hs i hi
    unfold Ray.intersect at h
    have cases : (i ∈ r.horiz C s.beg.x s.fin.x s.beg.y loc) ∨ (i ∈ r.vert C s.beg.y s.fin.y s.beg.x loc) := by
      by_cases h1 : s.isHoriz C = true
      · rw [if_pos h1] at h; left; simp only [Option.some.injEq] at h; rw [h]; exact hi
      · rw [if_neg h1] at h
        by_cases h2 : s.isVert C = true
        · rw [if_pos h2] at h; right; simp only [Option.some.injEq] at h; rw [h]; exact hi
        · rw [if_neg h2] at h; simp at h
    rcases cases with h | h
    · obtain ⟨-, h1, h2, h3⟩ := horiz_mem _ _ _ _ _ _ _ h
      rcases hs with rfl | rfl | rfl | rfl <;> simp only [topEdge, leftEdge, botEdge, rightEdge] at h1 h2 h3 <;>
        refine ⟨?_, ?_, ?_, ?_⟩ <;> linarith
    · obtain ⟨-, h1, h2, h3⟩ := vert_mem _ _ _ _ _ _ _ h
      rcases hs with rfl | rfl | rfl | rfl <;> simp only [topEdge, leftEdge, botEdge, rightEdge] at h1 h2 h3 <;>
        refine ⟨?_, ?_, ?_, ?_⟩ <;> linarith
  intro i hi
  have hi := mem_dedup _ _ _ hi
  simp only [List.mem_append] at hi
  rcases hi with ((hi | hi) | hi) | hi
  · exact key _ _ _ ha (by tauto) i hi
  · exact key _ _ _ hb (by tauto) i hi
  · exact key _ _ _ hd (by tauto) i hi
  · exact key _ _ _ he (by tauto) i hi

theorem abs_le_of_between {a b x y : K} (h1 : a ≤ x) (h2 : x ≤ b) (h3 : a ≤ y) (h4 : y ≤ b) : |x - y| ≤ b - a := by
  rw [abs_le]; constructor <;> linarith

theorem away_le (c : Bounds K) (i : Inter K) (corner : Point K) (hi : InCell c i.pt) (hk : InCell c corner) :
    0 ≤ i.away corner ∧ (i.isHoriz = true → i.away corner ≤ hside c) ∧ (i.isHoriz = false → i.away corner ≤ vside c) := by
  obtain ⟨h1, h2, h3, h4⟩ := hi
  obtain ⟨k1, k2, k3, k4⟩ := hk
  unfold Inter.away hside vside
  cases i.isHoriz
  · exact ⟨abs_nonneg _, by simp, fun _ => by simpa using abs_le_of_between h3 h4 k3 k4⟩
  · exact ⟨abs_nonneg _, fun _ => by simpa using abs_le_of_between h1 h2 k1 k2, by simp⟩

theorem cornerOf_inCell (c : Bounds K) (i j : Inter K) (hx : c.left ≤ c.right) (hy : c.bot ≤ c.top)
    (h : (i.isHoriz != j.isHoriz) = true) : InCell c (cornerOf c [i, j]) := by
  unfold Inter.isHoriz at h
  unfold cornerOf InCell
  rcases i with ⟨li, pi⟩
  rcases j with ⟨lj, pj⟩
  cases li <;> cases lj <;> simp at h <;> simp [hx, hy]

/-- The assertion of `compute_chunk_area` on the computed area never fails for points of a square cell, and the chunk is
a part of the cell. -/
theorem chunkArea_part (beam : Seg K) (c : Bounds K) (isOcc : Bool) (hx : c.left ≤ c.right) (hsq : vside c = hside c)
    (l : List (Inter K)) (hl : ∀ i ∈ l, InCell c i.pt) (hlen : l.length = 0 ∨ l.length = 2) :
    ∃ a, chunkArea beam c isOcc l = some a ∧ 0 ≤ a ∧ a ≤ area c := by
  have hy : c.bot ≤ c.top := by unfold vside hside at hsq; linarith
  have hs : 0 ≤ hside c := by unfold hside; linarith
  have har : area c = hside c * hside c := by unfold area; rw [hsq]
  have hpos : 0 ≤ area c := by rw [har]; exact mul_nonneg hs hs
  match l, hl, hlen with
  | [], _, _ => exact ⟨area c / 2, rfl, by linarith, by linarith⟩
  | [i, j], hl, _ =>
    have hi := hl i (by simp)
    have hj := hl j (by simp)
    have main : ∀ (a : K), a = (if i.isHoriz != j.isHoriz then 1 / 2 * i.away (if i.isHoriz != j.isHoriz then cornerOf c [i, j] else ⟨c.left, c.bot⟩) * j.away (if i.isHoriz != j.isHoriz then cornerOf c [i, j] else ⟨c.left, c.bot⟩)
      else 1 / 2 * (c.top - c.bot) * (i.away (if i.isHoriz != j.isHoriz then cornerOf c [i, j] else ⟨c.left, c.bot⟩) + j.away (if i.isHoriz != j.isHoriz then cornerOf c [i, j] else ⟨c.left, c.bot⟩))) → 0 ≤ a ∧ a ≤ area c := by
      intro a ha
      have bd : ∀ (k : Inter K) (q : Point K), InCell c k.pt → InCell c q → 0 ≤ k.away q ∧ k.away q ≤ hside c := by
        intro k q hk hq
        obtain ⟨h0, h1, h2⟩ := away_le c k q hk hq
        refine ⟨h0, ?_⟩
        cases hh : k.isHoriz
        · rw [← hsq]; exact h2 hh
        · exact h1 hh
      by_cases ht : (i.isHoriz != j.isHoriz) = true
      · simp only [ht, if_true] at ha
        have hk := cornerOf_inCell c i j hx hy ht
        obtain ⟨p1, p2⟩ := bd i _ hi hk
        obtain ⟨q1, q2⟩ := bd j _ hj hk
        have h1 := mul_nonneg p1 q1
        have h2 := mul_le_mul p2 q2 q1 hs
        rw [har, ha]
        constructor <;> nlinarith
      · simp only [ht, if_false] at ha
        have hk : InCell c (⟨c.left, c.bot⟩ : Point K) := ⟨le_refl _, hx, le_refl _, hy⟩
        obtain ⟨p1, p2⟩ := bd i _ hi hk
        obtain ⟨q1, q2⟩ := bd j _ hj hk
        have hv : c.top - c.bot = hside c := hsq
        simp only [Bool.false_eq_true, if_false] at ha
        rw [har, ha, hv]
        have h1 := mul_nonneg hs (add_nonneg p1 q1)
        have h2 := mul_le_mul_of_nonneg_left (add_le_add p2 q2) hs
        constructor <;> nlinarith
    obtain ⟨h1, h2⟩ := main _ rfl
    unfold chunkArea
    simp only [h1, h2, and_self, if_true]
    by_cases hh : (isOcc && sameSide i.pt j.pt beam.beg (if i.isHoriz != j.isHoriz then cornerOf c [i, j] else ⟨c.left, c.bot⟩)) = true
    · refine ⟨_, rfl, ?_⟩
      rw [if_pos hh]
      constructor <;> linarith
    · refine ⟨_, rfl, ?_⟩
      rw [if_neg hh]
      exact ⟨h1, h2⟩
  | [_], _, h => simp at h
  | _ :: _ :: _ :: _, _, h => simp at h

/-- The numbers an estimator is built from are probabilities. -/
structure Est.Unit (E : Est K) : Prop where
  occ : UnitOcc E.occ
  empty : UnitOcc E.empty
  unknown : 0 ≤ E.unknownQual ∧ E.unknownQual ≤ 1

theorem byArea_unit (E : Est K) (hE : E.Unit) (a t : K) (h0 : 0 ≤ a) (h1 : a ≤ t) (ht : 0 < t) (isOcc : Bool) :
    UnitOcc (E.byArea a t isOcc) := by
  have r0 : 0 ≤ a / t := div_nonneg h0 ht.le
  have r1 : a / t ≤ 1 := by rw [div_le_one ht]; exact h1
  unfold Est.byArea
  cases isOcc
  · refine ⟨hE.empty.1, ?_⟩
    have hr : 0 ≤ (if 1 / 2 < a / t then 1 - a / t else a / t) ∧ (if 1 / 2 < a / t then 1 - a / t else a / t) ≤ 1 := by
      by_cases h : 1 / 2 < a / t
      · rw [if_pos h]; constructor <;> linarith
      · rw [if_neg h]; exact ⟨r0, r1⟩
    obtain ⟨e0, e1⟩ := hE.empty.2
    exact ⟨mul_nonneg e0 hr.1, mul_le_one₀ e1 hr.1 hr.2⟩
  · exact ⟨⟨le_max_of_le_left r0, max_le r1 hE.empty.1.2⟩, hE.occ.2⟩

theorem chunkInters_inCell (C : Cmp K) (c : Bounds K) (s : Seg K) (isOcc : Bool) (hx : c.left ≤ c.right) (hy : c.bot ≤ c.top)
    (l : List (Inter K)) (h : chunkInters C s c isOcc = some l) : ∀ i ∈ l, InCell c i.pt := by
  unfold chunkInters at h
  cases isOcc
  · simp only [Bool.false_eq_true, if_false, Option.map_eq_some_iff] at h
    obtain ⟨l', h1, rfl⟩ := h
    intro i hi
    exact rayInters_inCell C c _ hx hy _ h1 i (List.mem_of_mem_filter hi)
  · simp only [if_true] at h
    exact rayInters_inCell C c _ hx hy _ h

theorem segInters_inCell (C : Cmp K) (c : Bounds K) (s : Seg K) (hx : c.left ≤ c.right) (hy : c.bot ≤ c.top)
    (l : List (Inter K)) (h : segInters C c s = some l) : ∀ i ∈ l, InCell c i.pt := by
  unfold segInters at h
  simp only [Option.map_eq_some_iff] at h
  obtain ⟨l', h1, rfl⟩ := h
  intro i hi
  exact rayInters_inCell C c _ hx hy _ h1 i (List.mem_of_mem_filter hi)

theorem chunkArea_range (beam : Seg K) (c : Bounds K) (isOcc : Bool) (hx : c.left ≤ c.right) (hsq : vside c = hside c)
    (l : List (Inter K)) (hl : ∀ i ∈ l, InCell c i.pt) (a : K) (h : chunkArea beam c isOcc l = some a) :
    0 ≤ a ∧ a ≤ area c := by
  by_cases hlen : l.length = 0 ∨ l.length = 2
  · obtain ⟨b, hb, h1⟩ := chunkArea_part beam c isOcc hx hsq l hl hlen
    rw [hb, Option.some.injEq] at h
    subst h; exact h1
  · match l, hlen, h with
    | [], hlen, _ => simp at hlen
    | [_], _, h => simp [chunkArea] at h
    | [_, _], hlen, _ => simp at hlen
    | _ :: _ :: _ :: _, _, h => simp [chunkArea] at h

theorem byChunk_unit (E : Est K) (hE : E.Unit) (C : Cmp K) (beam : Seg K) (c : Bounds K) (isOcc : Bool)
    (hx : c.left < c.right) (hsq : vside c = hside c) (o : Occ K) (h : E.byChunk C beam c isOcc = some o) : UnitOcc o := by
  have hy : c.bot ≤ c.top := by unfold vside hside at hsq; linarith
  have hs : 0 < hside c := by unfold hside; linarith
  have har : 0 < area c := by unfold area; rw [hsq]; exact mul_pos hs hs
  unfold Est.byChunk at h
  simp only [Option.bind_eq_some_iff] at h
  obtain ⟨l, hl, h⟩ := h
  have hin := chunkInters_inCell C c beam isOcc hx.le hy l hl
  by_cases h1 : l.length = 1
  · rw [if_pos h1] at h
    cases isOcc
    · simp only [Bool.not_false, if_true, Option.some.injEq] at h
      subst h
      exact ⟨hE.empty.1, hE.unknown⟩
    · simp only [Bool.not_true, Bool.false_eq_true, if_false, Option.bind_eq_some_iff] at h
      obtain ⟨raw, hraw, h⟩ := h
      have hrin := segInters_inCell C c beam hx.le hy raw hraw
      split at h
      · simp at h
      · simp only [Option.some.injEq] at h
        subst h
        exact byArea_unit E hE _ _ har.le (le_refl _) har _
      · simp only [Option.map_eq_some_iff] at h
        obtain ⟨a, ha, rfl⟩ := h
        obtain ⟨a0, a1⟩ := chunkArea_range _ _ _ hx.le hsq _ hrin _ ha
        exact byArea_unit E hE _ _ a0 a1 har _
      · simp only [Option.map_eq_some_iff] at h
        obtain ⟨a, ha, rfl⟩ := h
        obtain ⟨a0, a1⟩ := chunkArea_range _ _ _ hx.le hsq _ hin _ ha
        exact byArea_unit E hE _ _ a0 a1 har _
  · rw [if_neg h1] at h
    simp only [Option.map_eq_some_iff] at h
    obtain ⟨a, ha, rfl⟩ := h
    obtain ⟨a0, a1⟩ := chunkArea_range _ _ _ hx.le hsq _ hin _ ha
    exact byArea_unit E hE _ _ a0 a1 har _

/-- **C49, range.** Whatever the comparisons (in particular the code's tolerant ones), the beam, the static shift and the
square cell of positive size: an occupancy that is not invalid has probability and quality in `[0, 1]`. -/
theorem estimate_range (E : Est K) (hE : E.Unit) (C : Cmp K) (shift : K) (beam : Seg K) (c : Bounds K) (isOcc : Bool)
    (hx : c.left < c.right) (hsq : vside c = hside c) (o : Occ K)
    (h : E.estimateWith C shift beam c isOcc = some (some o)) : UnitOcc o := by
  unfold Est.estimateWith at h
  simp only [Option.bind_eq_some_iff] at h
  obtain ⟨b, -, pos, -, h⟩ := h
  have fin : (E.byChunk C b c isOcc).map some = some (some o) → UnitOcc o := by
    intro h
    simp only [Option.map_eq_some_iff, Option.some.injEq, exists_eq_right] at h
    exact byChunk_unit E hE C b c isOcc hx hsq o h
  have lies : (some ⟨E.empty.prob, E.unknownQual⟩ : Option (Occ K)) = some o → UnitOcc o := by
    intro h
    simp only [Option.some.injEq] at h
    subst h
    exact ⟨hE.empty.1, hE.unknown⟩
  cases pos
  · simp at h
  · cases isOcc
    · exact lies (by simpa using h)
    · simp at h
  · exact fin h
  · cases isOcc
    · exact fin (by simpa using h)
    · simp at h
  · cases isOcc
    · exact fin (by simpa using h)
    · simp at h
  · simp at h

end Slam.Estimator
