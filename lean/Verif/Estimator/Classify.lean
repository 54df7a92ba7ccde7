import Verif.Estimator.Geometry

/-!
# Classification of a beam against a cell, and freedom from assertion failures, for exact comparisons
-/

set_option autoImplicit false
set_option linter.unusedSectionVars false

namespace Slam.Estimator
open Slam.Grid Slam.Rect Slam.Cells

variable {K : Type*} [Field K] [LinearOrder K] [IsStrictOrderedRing K]

/-! ### Leaving a cell along a line -/

theorem exit1 (a b m d : K) (h1 : a < m) (h2 : m < b) (hd : d ≠ 0) :
    ∃ t, 0 < t ∧ (m + t * d = a ∨ m + t * d = b) ∧ ∀ u, 0 ≤ u → u < t → a < m + u * d ∧ m + u * d < b := by
  rcases lt_or_gt_of_ne hd with h | h
  · refine ⟨(a - m) / d, div_pos_of_neg_of_neg (by linarith) h, Or.inl ?_, ?_⟩
    · rw [div_mul_cancel₀ _ hd]; ring
    · intro u h0 hu
      rw [lt_div_iff_of_neg h] at hu
      have := mul_nonneg_of_nonpos_of_nonpos (neg_nonpos.2 h0) h.le
      constructor <;> nlinarith
  · refine ⟨(b - m) / d, div_pos (by linarith) h, Or.inr ?_, ?_⟩
    · rw [div_mul_cancel₀ _ hd]; ring
    · intro u h0 hu
      rw [lt_div_iff₀ h] at hu
      have := mul_nonneg h0 h.le
      constructor <;> nlinarith

theorem exit1_closed (a b m d t : K) (ht : 0 < t) (h : ∀ u, 0 ≤ u → u < t → a < m + u * d ∧ m + u * d < b)
    (h2 : m + t * d = a ∨ m + t * d = b) : a ≤ m + t * d ∧ m + t * d ≤ b := by
  have := h 0 (le_refl _) ht
  simp only [zero_mul, add_zero] at this
  rcases h2 with e | e <;> rw [e] <;> constructor <;> linarith

/-- A line through an interior point leaves the cell. -/
theorem exit (c : Bounds K) (r : Ray K) (hin : Inside c r.beg) (hd : r.delta.x ≠ 0 ∨ r.delta.y ≠ 0) :
    ∃ t, 0 < t ∧ OnBoundary c (r.at t) ∧ ∀ u, 0 ≤ u → u < t → Inside c (r.at u) := by
  obtain ⟨h1, h2, h3, h4⟩ := hin
  by_cases dx : r.delta.x = 0
  · have dy : r.delta.y ≠ 0 := by tauto
    obtain ⟨t, t0, t1, t2⟩ := exit1 c.bot c.top r.beg.y r.delta.y h3 h4 dy
    have t3 := exit1_closed _ _ _ _ _ t0 t2 t1
    refine ⟨t, t0, ⟨?_, ?_⟩, ?_⟩
    · simp only [InCell, Ray.at, dx, mul_zero, add_zero]
      exact ⟨h1.le, h2.le, t3.1, t3.2⟩
    · simp only [Inside, Ray.at]
      rintro ⟨-, -, a, b⟩
      rcases t1 with e | e <;> rw [e] at a b <;> exact lt_irrefl _ (by assumption)
    · intro u hu hut
      simp only [Inside, Ray.at, dx, mul_zero, add_zero]
      exact ⟨h1, h2, t2 u hu hut⟩
  · by_cases dy : r.delta.y = 0
    · obtain ⟨t, t0, t1, t2⟩ := exit1 c.left c.right r.beg.x r.delta.x h1 h2 dx
      have t3 := exit1_closed _ _ _ _ _ t0 t2 t1
      refine ⟨t, t0, ⟨?_, ?_⟩, ?_⟩
      · simp only [InCell, Ray.at, dy, mul_zero, add_zero]
        exact ⟨t3.1, t3.2, h3.le, h4.le⟩
      · simp only [Inside, Ray.at]
        rintro ⟨a, b, -, -⟩
        rcases t1 with e | e <;> rw [e] at a b <;> exact lt_irrefl _ (by assumption)
      · intro u hu hut
        simp only [Inside, Ray.at, dy, mul_zero, add_zero]
        exact ⟨(t2 u hu hut).1, (t2 u hu hut).2, h3, h4⟩
    · obtain ⟨t, t0, t1, t2⟩ := exit1 c.bot c.top r.beg.y r.delta.y h3 h4 dy
      have t3 := exit1_closed _ _ _ _ _ t0 t2 t1
      obtain ⟨s, s0, s1, s2⟩ := exit1 c.left c.right r.beg.x r.delta.x h1 h2 dx
      have s3 := exit1_closed _ _ _ _ _ s0 s2 s1
      rcases le_total s t with hst | hst
      · refine ⟨s, s0, ⟨?_, ?_⟩, ?_⟩
        · refine ⟨s3.1, s3.2, ?_⟩
          rcases lt_or_eq_of_le hst with hlt | rfl
          · exact ⟨(t2 s s0.le hlt).1.le, (t2 s s0.le hlt).2.le⟩
          · exact t3
        · simp only [Inside, Ray.at]
          rintro ⟨a, b, -, -⟩
          rcases s1 with e | e <;> rw [e] at a b <;> exact lt_irrefl _ (by assumption)
        · intro u hu hut
          exact ⟨(s2 u hu hut).1, (s2 u hu hut).2, t2 u hu (lt_of_lt_of_le hut hst)⟩
      · refine ⟨t, t0, ⟨?_, ?_⟩, ?_⟩
        · rcases lt_or_eq_of_le hst with hlt | rfl
          · exact ⟨(s2 t t0.le hlt).1.le, (s2 t t0.le hlt).2.le, t3⟩
          · exact ⟨s3.1, s3.2, t3⟩
        · simp only [Inside, Ray.at]
          rintro ⟨-, -, a, b⟩
          rcases t1 with e | e <;> rw [e] at a b <;> exact lt_irrefl _ (by assumption)
        · intro u hu hut
          exact ⟨(s2 u hu (lt_of_lt_of_le hut hst)).1, (s2 u hu (lt_of_lt_of_le hut hst)).2, t2 u hu hut⟩

/-- Two distinct points of the cell on a line off its edge lines enclose an interior point. -/
theorem midpoint_inside (c : Bounds K) (r : Ray K) (hoff : r.Off c) (t u : K) (htu : t ≠ u)
    (h1 : InCell c (r.at t)) (h2 : InCell c (r.at u)) : Inside c (r.at ((t + u) / 2)) := by
  obtain ⟨a1, a2, a3, a4⟩ := h1
  obtain ⟨b1, b2, b3, b4⟩ := h2
  simp only [Ray.at] at *
  have ex : r.beg.x + (t + u) / 2 * r.delta.x = ((r.beg.x + t * r.delta.x) + (r.beg.x + u * r.delta.x)) / 2 := by ring
  have ey : r.beg.y + (t + u) / 2 * r.delta.y = ((r.beg.y + t * r.delta.y) + (r.beg.y + u * r.delta.y)) / 2 := by ring
  have nx : ∀ v, r.beg.x + t * r.delta.x = v → r.beg.x + u * r.delta.x = v → v ≠ c.left ∧ v ≠ c.right := by
    intro v e1 e2
    have : (t - u) * r.delta.x = 0 := by rw [← e2] at e1; linarith
    have d0 : r.delta.x = 0 := (mul_eq_zero.1 this).resolve_left (sub_ne_zero.2 htu)
    rw [d0, mul_zero, add_zero] at e1
    rw [← e1]; exact hoff.2 d0
  have ny : ∀ v, r.beg.y + t * r.delta.y = v → r.beg.y + u * r.delta.y = v → v ≠ c.bot ∧ v ≠ c.top := by
    intro v e1 e2
    have : (t - u) * r.delta.y = 0 := by rw [← e2] at e1; linarith
    have d0 : r.delta.y = 0 := (mul_eq_zero.1 this).resolve_left (sub_ne_zero.2 htu)
    rw [d0, mul_zero, add_zero] at e1
    rw [← e1]; exact hoff.1 d0
  refine ⟨?_, ?_, ?_, ?_⟩ <;> by_contra hc <;> push Not at hc
  · simp only [ex] at hc
    exact (nx c.left (by linarith) (by linarith)).1 rfl
  · simp only [ex] at hc
    exact (nx c.right (by linarith) (by linarith)).2 rfl
  · simp only [ey] at hc
    exact (ny c.bot (by linarith) (by linarith)).1 rfl
  · simp only [ey] at hc
    exact (ny c.top (by linarith) (by linarith)).2 rfl

/-! ### Segments -/

theorem ofSeg_at (s : Seg K) (t : K) : (Ray.ofSeg s).at t = between s.beg s.fin t := rfl

theorem ofSeg_off (s : Seg K) (c : Bounds K) (h : ¬ AlongEdgeLine c s.beg s.fin) : (Ray.ofSeg s).Off c := by
  unfold AlongEdgeLine at h
  unfold Ray.Off Ray.ofSeg
  simp only
  constructor
  · intro h0
    have : s.beg.y = s.fin.y := by linarith
    tauto
  · intro h0
    have : s.beg.x = s.fin.x := by linarith
    tauto

theorem areOrdered_exact (a b c : K) : areOrdered (exactCmp : Cmp K).le a b c = true ↔ a ≤ b ∧ b ≤ c := by
  simp [areOrdered, exactCmp]

theorem btw_param (a b t : K) (h : a ≠ b) : Btw a (a + t * (b - a)) b ↔ 0 ≤ t ∧ t ≤ 1 := by
  unfold Btw
  rcases lt_or_gt_of_ne h with h | h
  · constructor
    · rintro (⟨h1, h2⟩ | ⟨h1, h2⟩)
      · constructor <;> by_contra hc <;> push Not at hc <;> nlinarith
      · linarith
    · rintro ⟨h1, h2⟩; left; constructor <;> nlinarith
  · constructor
    · rintro (⟨h1, h2⟩ | ⟨h1, h2⟩)
      · linarith
      · constructor <;> by_contra hc <;> push Not at hc <;> nlinarith
    · rintro ⟨h1, h2⟩; right; constructor <;> nlinarith

/-- A point of the line through a proper segment passes the segment's test iff it lies on the segment. -/
theorem containsInters_exact (s : Seg K) (hs : s.beg ≠ s.fin) (t : K) :
    s.containsInters exactCmp (between s.beg s.fin t) = true ↔ 0 ≤ t ∧ t ≤ 1 := by
  unfold Seg.containsInters
  simp only [Bool.and_eq_true, Bool.or_eq_true, areOrdered_exact, between]
  have e : ∀ a b x : K, ((a ≤ x ∧ x ≤ b) ∨ (b ≤ x ∧ x ≤ a)) ↔ Btw a x b := fun _ _ _ => Iff.rfl
  rw [e, e]
  by_cases hx : s.beg.x = s.fin.x
  · have hy : s.beg.y ≠ s.fin.y := fun hy => hs (point_ext hx hy)
    rw [btw_param _ _ _ hy]
    have : Btw s.beg.x (s.beg.x + t * (s.fin.x - s.beg.x)) s.fin.x := by
      rw [hx]; left; simp
    tauto
  · rw [btw_param _ _ _ hx]
    by_cases hy : s.beg.y = s.fin.y
    · have : Btw s.beg.y (s.beg.y + t * (s.fin.y - s.beg.y)) s.fin.y := by
        rw [hy]; left; simp
      tauto
    · rw [btw_param _ _ _ hy]; tauto

theorem ofSeg_delta (s : Seg K) (hs : s.beg ≠ s.fin) : (Ray.ofSeg s).delta.x ≠ 0 ∨ (Ray.ofSeg s).delta.y ≠ 0 := by
  by_contra h
  push Not at h
  simp only [Ray.ofSeg] at h
  exact hs (point_ext (by linarith [h.1]) (by linarith [h.2]))

/-- Two distinct points found in a list with at most two elements. -/
theorem two_of_distinct (l : List (Inter K)) (p q : Point K) (hpq : p ≠ q) (hp : ∃ i ∈ l, i.pt = p) (hq : ∃ i ∈ l, i.pt = q) :
    2 ≤ l.length := by
  match l, hp, hq with
  | [], ⟨i, h, _⟩, _ => simp at h
  | [a], ⟨i, h, e⟩, ⟨j, h', e'⟩ =>
    rw [List.mem_singleton] at h h'
    subst h; subst h'
    exact absurd (e.symm.trans e') hpq
  | _ :: _ :: _, _, _ => simp

/-- Intersections of a proper segment off the edge lines with a cell: at most two, found without failure; every boundary
point of the segment is among them; two of them mean that the segment passes through the interior. -/
theorem segInters_spec (c : Bounds K) (hx : c.left < c.right) (hy : c.bot < c.top) (s : Seg K) (hs : s.beg ≠ s.fin)
    (hoff : ¬ AlongEdgeLine c s.beg s.fin) :
    ∃ l, segInters exactCmp c s = some l ∧ l.length ≤ 2 ∧
      (∀ t, 0 ≤ t → t ≤ 1 → OnBoundary c (between s.beg s.fin t) → ∃ i ∈ l, i.pt = between s.beg s.fin t) ∧
      (l.length = 2 → MeetsInterior c s.beg s.fin) := by
  obtain ⟨l, h1, h2, h3, h4, h5⟩ := rayInters_spec c hx hy (Ray.ofSeg s)
  have hin := rayInters_inCell exactCmp c (Ray.ofSeg s) hx.le hy.le l h1
  refine ⟨l.filter fun i => s.containsInters exactCmp i.pt, ?_, ?_, ?_, ?_⟩
  · unfold segInters; rw [h1]; rfl
  · exact (List.length_filter_le _ _).trans h2
  · intro t t0 t1 hb
    obtain ⟨i, hi, e⟩ := h5 (ofSeg_delta s hs) (ofSeg_off s c hoff) t hb
    rw [ofSeg_at] at e
    refine ⟨i, ?_, e⟩
    rw [List.mem_filter]
    refine ⟨hi, ?_⟩
    rw [e]
    exact (containsInters_exact s hs t).2 ⟨t0, t1⟩
  · intro hlen
    have hle := List.length_filter_le (fun i => s.containsInters exactCmp i.pt) l
    have hl2 : l.length = 2 := by omega
    have hall : ∀ i ∈ l, s.containsInters exactCmp i.pt = true := by
      have : l.filter (fun i => s.containsInters exactCmp i.pt) = l :=
        List.filter_sublist.eq_of_length (by omega)
      rw [List.filter_eq_self] at this
      exact this
    obtain ⟨i, j, rfl⟩ := List.length_eq_two.1 hl2
    · obtain ⟨t, ht⟩ := h4 i (by simp)
      obtain ⟨u, hu⟩ := h4 j (by simp)
      have hne : t ≠ u := by
        rintro rfl
        exact h3 i j rfl (ht.trans hu.symm)
      have it := hin i (by simp)
      have ju := hin j (by simp)
      rw [ht] at it
      rw [hu] at ju
      have m := midpoint_inside c _ (ofSeg_off s c hoff) t u hne it ju
      have ct := hall i (by simp)
      have cu := hall j (by simp)
      rw [ht, ofSeg_at, containsInters_exact s hs] at ct
      rw [hu, ofSeg_at, containsInters_exact s hs] at cu
      exact ⟨(t + u) / 2, by linarith [ct.1, cu.1], by linarith [ct.2, cu.2], m⟩

/-- A segment through the interior whose ends are not interior has two intersections. -/
theorem segInters_two (c : Bounds K) (s : Seg K) (hs : s.beg ≠ s.fin)
    (hb : ¬ Inside c s.beg) (hf : ¬ Inside c s.fin) (hm : MeetsInterior c s.beg s.fin) :
    ∃ t u, t ≠ u ∧ 0 ≤ t ∧ t ≤ 1 ∧ 0 ≤ u ∧ u ≤ 1 ∧ OnBoundary c (between s.beg s.fin t) ∧ OnBoundary c (between s.beg s.fin u) := by
  obtain ⟨m, m0, m1, hm⟩ := hm
  have hd := ofSeg_delta s hs
  simp only [Ray.ofSeg] at hd
  obtain ⟨t, t0, tb, ti⟩ := exit c ⟨between s.beg s.fin m, ⟨s.fin.x - s.beg.x, s.fin.y - s.beg.y⟩⟩ hm hd
  obtain ⟨u, u0, ub, ui⟩ := exit c ⟨between s.beg s.fin m, ⟨-(s.fin.x - s.beg.x), -(s.fin.y - s.beg.y)⟩⟩ hm
    (by simpa only [ne_eq, neg_eq_zero] using hd)
  have et : ∀ t, (⟨between s.beg s.fin m, ⟨s.fin.x - s.beg.x, s.fin.y - s.beg.y⟩⟩ : Ray K).at t = between s.beg s.fin (m + t) := by
    intro t; simp only [Ray.at, between]; exact point_ext (by ring) (by ring)
  have eu : ∀ t, (⟨between s.beg s.fin m, ⟨-(s.fin.x - s.beg.x), -(s.fin.y - s.beg.y)⟩⟩ : Ray K).at t = between s.beg s.fin (m - t) := by
    intro t; simp only [Ray.at, between]; exact point_ext (by ring) (by ring)
  simp only [et] at tb ti
  simp only [eu] at ub ui
  have e0 : between s.beg s.fin 0 = s.beg := by simp [between]
  have e1 : between s.beg s.fin 1 = s.fin := point_ext (by simp [between]) (by simp [between])
  have ht1 : m + t ≤ 1 := by
    by_contra hc
    push Not at hc
    have := ti (1 - m) (by linarith) (by linarith)
    rw [show m + (1 - m) = 1 by ring, e1] at this
    exact hf this
  have hu1 : 0 ≤ m - u := by
    by_contra hc
    push Not at hc
    have := ui m m0 (by linarith)
    rw [sub_self, e0] at this
    exact hb this
  exact ⟨m + t, m - u, by intro h; linarith, by linarith, ht1, hu1, by linarith, tb, ub⟩

theorem onEdge_exact (c : Bounds K) (hx : c.left < c.right) (hy : c.bot < c.top) (p : Point K) :
    ∃ b, onEdge exactCmp c p = some b ∧ (b = true ↔ OnBoundary c p) := by
  have e1 : (botEdge c).contains exactCmp p = some (decide (p.y = c.bot) && (decide (c.left ≤ p.x) && decide (p.x ≤ c.right))) := by
    simp [Seg.contains, Seg.isHoriz, botEdge, exactCmp, areOrdered]
  have e2 : (topEdge c).contains exactCmp p = some (decide (p.y = c.top) && (decide (c.left ≤ p.x) && decide (p.x ≤ c.right))) := by
    simp [Seg.contains, Seg.isHoriz, topEdge, exactCmp, areOrdered]
  have e3 : (leftEdge c).contains exactCmp p = some (decide (p.x = c.left) && (decide (c.bot ≤ p.y) && decide (p.y ≤ c.top))) := by
    simp [Seg.contains, Seg.isHoriz, Seg.isVert, leftEdge, exactCmp, areOrdered, hy.ne]
  have e4 : (rightEdge c).contains exactCmp p = some (decide (p.x = c.right) && (decide (c.bot ≤ p.y) && decide (p.y ≤ c.top))) := by
    simp [Seg.contains, Seg.isHoriz, Seg.isVert, rightEdge, exactCmp, areOrdered, hy.ne]
  unfold onEdge
  simp only [onSome, e1, e2, e3, e4, Option.bind_some]
  have hB : OnBoundary c p ↔ (((p.y = c.bot ∧ c.left ≤ p.x ∧ p.x ≤ c.right) ∨ (p.y = c.top ∧ c.left ≤ p.x ∧ p.x ≤ c.right)) ∨
      (p.x = c.left ∧ c.bot ≤ p.y ∧ p.y ≤ c.top) ∨ (p.x = c.right ∧ c.bot ≤ p.y ∧ p.y ≤ c.top)) := by
    constructor
    · rintro ⟨⟨b1, b2, b3, b4⟩, hin⟩
      by_contra hc
      push Not at hc
      obtain ⟨⟨q1, q2⟩, q3, q4⟩ := hc
      refine hin ⟨lt_of_le_of_ne b1 ?_, lt_of_le_of_ne b2 ?_, lt_of_le_of_ne b3 ?_, lt_of_le_of_ne b4 ?_⟩
      · intro e; exact absurd b4 (not_le.2 (q3 e.symm b3))
      · intro e; exact absurd b4 (not_le.2 (q4 e b3))
      · intro e; exact absurd b2 (not_le.2 (q1 e.symm b1))
      · intro e; exact absurd b2 (not_le.2 (q2 e b1))
    · rintro ((⟨h1, h2, h3⟩ | ⟨h1, h2, h3⟩) | ⟨h1, h2, h3⟩ | ⟨h1, h2, h3⟩) <;>
        refine ⟨⟨?_, ?_, ?_, ?_⟩, ?_⟩ <;> first | linarith | (rintro ⟨a1, a2, a3, a4⟩; linarith)
  rw [hB]
  by_cases q1 : p.y = c.bot ∧ c.left ≤ p.x ∧ p.x ≤ c.right
  · exact ⟨true, by simp [q1], by simp [q1]⟩
  by_cases q2 : p.y = c.top ∧ c.left ≤ p.x ∧ p.x ≤ c.right
  · exact ⟨true, by simp [q2], by simp [q2]⟩
  by_cases q3 : p.x = c.left ∧ c.bot ≤ p.y ∧ p.y ≤ c.top
  · refine ⟨true, ?_, by simp [q3]⟩
    simp only [← Bool.decide_and, q1, q2, q3, decide_false, Bool.false_eq_true, if_false]
    simp
  by_cases q4 : p.x = c.right ∧ c.bot ≤ p.y ∧ p.y ≤ c.top
  · refine ⟨true, ?_, by simp [q4]⟩
    simp only [← Bool.decide_and, q1, q2, q3, q4, decide_false, Bool.false_eq_true, if_false]
    simp
  · refine ⟨false, ?_, by simp [q1, q2, q3, q4]⟩
    simp only [← Bool.decide_and, q1, q2, q3, q4, decide_false, Bool.false_eq_true, if_false]

theorem isInside_exact (c : Bounds K) (hx : c.left < c.right) (hy : c.bot < c.top) (s : Seg K) :
    ∃ bi ei, isInside exactCmp s c = some (bi, ei) ∧ (bi = true ↔ Inside c s.beg) ∧
      (ei = true ↔ Inside c s.fin ∨ (OnBoundary c s.fin ∧ ¬ InCell c s.beg)) := by
  obtain ⟨b, hb, hb'⟩ := onEdge_exact c hx hy s.beg
  obtain ⟨e, he, he'⟩ := onEdge_exact c hx hy s.fin
  have hc : ∀ p : Point K, contains (exactCmp : Cmp K).le c p.x p.y = true ↔ InCell c p := by
    intro p; unfold contains InCell; simp only [Bool.and_eq_true, areOrdered_exact]; tauto
  have hin : ∀ p, Inside c p → InCell c p := by
    rintro p ⟨h1, h2, h3, h4⟩; exact ⟨h1.le, h2.le, h3.le, h4.le⟩
  have hc1 := hc s.beg
  have hc2 := hc s.fin
  have i1 := hin s.beg
  have i2 := hin s.fin
  unfold OnBoundary at hb' he' ⊢
  unfold isInside
  rw [hb, he]
  simp only [Option.bind_some, Option.map_some]
  generalize contains (exactCmp : Cmp K).le c s.beg.x s.beg.y = x1 at *
  generalize contains (exactCmp : Cmp K).le c s.fin.x s.fin.y = x2 at *
  generalize Inside c s.beg = P1 at *
  generalize Inside c s.fin = P2 at *
  generalize InCell c s.beg = Q1 at *
  generalize InCell c s.fin = Q2 at *
  clear hb he hc hin hx hy
  cases b <;> cases e <;> cases x1 <;> cases x2 <;> simp at hb' he' hc1 hc2 ⊢ <;> tauto

/-- What the classification says, for a proper beam off the edge lines. -/
theorem classify_exact (c : Bounds K) (hx : c.left < c.right) (hy : c.bot < c.top) (s : Seg K) (hs : s.beg ≠ s.fin)
    (hoff : ¬ AlongEdgeLine c s.beg s.fin) :
    ∃ pos, classify exactCmp s c = some pos ∧
      ((pos = .unrelated ∨ pos = .touches) ↔
        ¬ MeetsInterior c s.beg s.fin ∧ ¬ (OnBoundary c s.fin ∧ ¬ InCell c s.beg)) ∧
      (pos = .stopsInside ↔ (¬ Inside c s.beg ∧ Inside c s.fin) ∨ (OnBoundary c s.fin ∧ ¬ InCell c s.beg)) := by
  obtain ⟨bi, ei, h1, h2, h3⟩ := isInside_exact c hx hy s
  have hin : ∀ p, Inside c p → InCell c p := by
    rintro p ⟨h1, h2, h3, h4⟩; exact ⟨h1.le, h2.le, h3.le, h4.le⟩
  have i1 := hin s.beg
  have mb : Inside c s.beg → MeetsInterior c s.beg s.fin := by
    intro h
    refine ⟨0, le_refl _, zero_le_one, ?_⟩
    have e0 : between s.beg s.fin 0 = s.beg := by simp [between]
    rw [e0]; exact h
  have mf : Inside c s.fin → MeetsInterior c s.beg s.fin := by
    intro h
    refine ⟨1, zero_le_one, le_refl _, ?_⟩
    have e1 : between s.beg s.fin 1 = s.fin := point_ext (by simp [between]) (by simp [between])
    rw [e1]; exact h
  unfold classify
  rw [h1]
  simp only [Option.bind_some]
  cases bi <;> cases ei <;> simp only [bne_self_eq_false, Bool.false_eq_true, if_false, false_iff, true_iff,
    if_true, show (false != true) = true from rfl, show (true != false) = true from rfl] at h2 h3 ⊢
  · obtain ⟨l, l1, l2, l3, l4⟩ := segInters_spec c hx hy s hs hoff
    rw [l1]
    simp only [Option.bind_some]
    have hf : ¬ Inside c s.fin := by tauto
    have lm : l.length = 2 ↔ MeetsInterior c s.beg s.fin := by
      constructor
      · exact l4
      · intro hm
        obtain ⟨t, u, htu, t0, t1, u0, u1, tb, ub⟩ := segInters_two c s hs h2 hf hm
        have hp := l3 t t0 t1 tb
        have hq := l3 u u0 u1 ub
        have hne : between s.beg s.fin t ≠ between s.beg s.fin u := by
          rw [← ofSeg_at, ← ofSeg_at, ne_eq, at_inj _ (ofSeg_delta s hs)]; exact htu
        have := two_of_distinct l _ _ hne hp hq
        omega
    have hlen : l.length = 0 ∨ l.length = 1 ∨ l.length = 2 := by omega
    rcases hlen with h | h | h <;> rw [h] at lm ⊢ <;> refine ⟨_, rfl, ?_, ?_⟩ <;> simp <;> simp at lm <;> tauto
  · refine ⟨_, rfl, ?_, ?_⟩ <;> simp <;> tauto
  · refine ⟨_, rfl, ?_, ?_⟩ <;> simp <;> tauto
  · refine ⟨_, rfl, ?_, ?_⟩ <;> simp <;> tauto

end Slam.Estimator
