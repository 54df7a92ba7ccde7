import Verif.Estimator.Classify
import Mathlib.Algebra.Order.Field.Rat

/-!
# Properties of the area based estimator
-/

set_option autoImplicit false
set_option linter.unusedSectionVars false

namespace Slam.Estimator
open Slam.Grid Slam.Rect Slam.Cells

variable {K : Type*} [Field K] [LinearOrder K] [IsStrictOrderedRing K]

/-- When the estimator is to give an occupancy for a free (`isOcc = false`) or an occupied (`isOcc = true`) end of a
beam from `a` to `b`. Free: the beam passes through the interior, or ends on the boundary coming from outside. Occupied:
the beam ends in the interior without having started there, or ends on the boundary coming from outside. -/
def Relevant (c : Bounds K) (a b : Point K) (isOcc : Bool) : Prop :=
  (OnBoundary c b ∧ ¬ InCell c a) ∨
    (if isOcc then ¬ Inside c a ∧ Inside c b else MeetsInterior c a b)

theorem hasOnEdgeLine_exact (c : Bounds K) (s : Seg K) (hs : s.beg ≠ s.fin) :
    hasOnEdgeLine exactCmp c s = true ↔ AlongEdgeLine c s.beg s.fin := by
  unfold hasOnEdgeLine Seg.isVert Seg.isHoriz AlongEdgeLine exactCmp
  by_cases h1 : s.beg.x = s.fin.x
  · have h2 : s.beg.y ≠ s.fin.y := fun h2 => hs (point_ext h1 h2)
    simp [h1, h2]
  · by_cases h2 : s.beg.y = s.fin.y
    · simp [h1, h2]
    · simp [h1, h2]

/-- Translation of a segment. -/
def Seg.moved (s : Seg K) (dx dy : K) : Seg K := ⟨⟨s.beg.x + dx, s.beg.y + dy⟩, ⟨s.fin.x + dx, s.fin.y + dy⟩⟩

/-- How a beam is moved off an edge line: towards the other side of the cell. -/
def Nudge (c : Bounds K) (shift : K) (s s' : Seg K) : Prop :=
  (s.beg.y = s.fin.y ∧ s.beg.y = c.top ∧ s' = s.moved 0 (-shift)) ∨
  (s.beg.y = s.fin.y ∧ s.beg.y = c.bot ∧ s' = s.moved 0 shift) ∨
  (s.beg.x = s.fin.x ∧ s.beg.x = c.right ∧ s' = s.moved (-shift) 0) ∨
  (s.beg.x = s.fin.x ∧ s.beg.x = c.left ∧ s' = s.moved shift 0)

theorem moved_ne (s : Seg K) (dx dy : K) (hs : s.beg ≠ s.fin) : (s.moved dx dy).beg ≠ (s.moved dx dy).fin := by
  intro h
  unfold Seg.moved at h
  injection h with h1 h2
  exact hs (point_ext (add_right_cancel h1) (add_right_cancel h2))

theorem notOnEdge_exact (c : Bounds K) (hx : c.left < c.right) (hy : c.bot < c.top) (shift : K) (s : Seg K) (hs : s.beg ≠ s.fin)
    (h0 : 0 < shift) (h1 : shift < hside c) (h2 : shift < vside c) :
    ∃ b, notOnEdge exactCmp shift s c = some b ∧ b.beg ≠ b.fin ∧ ¬ AlongEdgeLine c b.beg b.fin ∧
      (¬ AlongEdgeLine c s.beg s.fin → b = s) ∧ (AlongEdgeLine c s.beg s.fin → Nudge c shift s b) := by
  unfold hside at h1
  unfold vside at h2
  by_cases ha : AlongEdgeLine c s.beg s.fin
  swap
  · refine ⟨s, ?_, hs, ha, fun _ => rfl, fun h => absurd h ha⟩
    have : hasOnEdgeLine exactCmp c s = false := by
      rw [← Bool.not_eq_true, hasOnEdgeLine_exact c s hs]; exact ha
    unfold notOnEdge
    rw [this]; rfl
  have hon := (hasOnEdgeLine_exact c s hs).2 ha
  have step : ∀ dx dy : K, (if s.isHoriz exactCmp then some (⟨0, (if exactCmp.eq s.beg.y c.top then -1 else 1) * shift⟩ : Point K)
      else if s.isVert exactCmp then some ⟨(if exactCmp.eq s.beg.x c.right then -1 else 1) * shift, 0⟩ else none) = some ⟨dx, dy⟩ →
      ¬ AlongEdgeLine c (s.moved dx dy).beg (s.moved dx dy).fin → Nudge c shift s (s.moved dx dy) →
      ∃ b, notOnEdge exactCmp shift s c = some b ∧ b.beg ≠ b.fin ∧ ¬ AlongEdgeLine c b.beg b.fin ∧
      (¬ AlongEdgeLine c s.beg s.fin → b = s) ∧ (AlongEdgeLine c s.beg s.fin → Nudge c shift s b) := by
    intro dx dy hd hna hn
    refine ⟨s.moved dx dy, ?_, moved_ne s dx dy hs, hna, fun h => absurd ha h, fun _ => hn⟩
    have hno : hasOnEdgeLine exactCmp c (s.moved dx dy) = false := by
      rw [← Bool.not_eq_true, hasOnEdgeLine_exact c _ (moved_ne s dx dy hs)]; exact hna
    unfold notOnEdge
    simp only [hon, Bool.not_true, Bool.false_eq_true, if_false]
    rw [hd]
    simp only [Option.bind_some]
    unfold Seg.moved at hno ⊢
    simp only [hno, Bool.false_eq_true, if_false]
  by_cases hh : s.beg.y = s.fin.y
  · have hv : s.beg.x ≠ s.fin.x := fun h => hs (point_ext h hh)
    by_cases ht : s.beg.y = c.top
    · refine step 0 (-shift) ?_ ?_ ?_
      · simp [Seg.isHoriz, exactCmp, hh.symm, ht]
      · unfold AlongEdgeLine Seg.moved
        simp only
        rintro (⟨h, -⟩ | ⟨-, h | h⟩)
        · exact hv (by linarith)
        · linarith
        · linarith
      · left; exact ⟨hh, ht, rfl⟩
    · have hb : s.beg.y = c.bot := by unfold AlongEdgeLine at ha; tauto
      refine step 0 shift ?_ ?_ ?_
      · have : c.bot ≠ c.top := hy.ne
        simp [Seg.isHoriz, exactCmp, hh.symm, hb, this]
      · unfold AlongEdgeLine Seg.moved
        simp only
        rintro (⟨h, -⟩ | ⟨-, h | h⟩)
        · exact hv (by linarith)
        · linarith
        · linarith
      · right; left; exact ⟨hh, hb, rfl⟩
  · have hv : s.beg.x = s.fin.x := by unfold AlongEdgeLine at ha; tauto
    by_cases ht : s.beg.x = c.right
    · refine step (-shift) 0 ?_ ?_ ?_
      · simp [Seg.isHoriz, Seg.isVert, exactCmp, hh, hv.symm, ht]
      · unfold AlongEdgeLine Seg.moved
        simp only
        rintro (⟨-, h | h⟩ | ⟨h, -⟩)
        · linarith
        · linarith
        · exact hh (by linarith)
      · right; right; left; exact ⟨hv, ht, rfl⟩
    · have hb : s.beg.x = c.left := by unfold AlongEdgeLine at ha; tauto
      refine step shift 0 ?_ ?_ ?_
      · have : c.left ≠ c.right := hx.ne
        simp [Seg.isHoriz, Seg.isVert, exactCmp, hh, hv.symm, hb, this]
      · unfold AlongEdgeLine Seg.moved
        simp only
        rintro (⟨-, h | h⟩ | ⟨h, -⟩)
        · linarith
        · linarith
        · exact hh (by linarith)
      · right; right; right; exact ⟨hv, hb, rfl⟩

/-- The part after the classification does not fail for a beam that stops inside, or for a free beam. -/
theorem byChunk_total (E : Est K) (c : Bounds K) (hx : c.left < c.right) (hsq : vside c = hside c) (s : Seg K)
    (hs : s.beg ≠ s.fin) (hoff : ¬ AlongEdgeLine c s.beg s.fin) (isOcc : Bool)
    (hst : isOcc = true → InCell c s.fin) : ∃ o, E.byChunk exactCmp s c isOcc = some o := by
  have hy : c.bot < c.top := by unfold vside hside at hsq; linarith
  obtain ⟨f, f1, f2, f3, -⟩ := segInters_spec c hx hy s hs hoff
  have fin := segInters_inCell exactCmp c s hx.le hy.le f f1
  unfold Est.byChunk
  cases isOcc
  · have hch : chunkInters exactCmp s c false = some f := f1
    rw [hch]
    simp only [Option.bind_some, Bool.not_false, if_true]
    by_cases h1 : f.length = 1
    · rw [if_pos h1]; exact ⟨_, rfl⟩
    · rw [if_neg h1]
      obtain ⟨a, ha, -⟩ := chunkArea_part s c false hx.le hsq f fin (by omega)
      rw [ha]; exact ⟨_, rfl⟩
  · have hst := hst rfl
    obtain ⟨l, l1, l2, l3, l4, l5⟩ := rayInters_spec c hx hy ⟨s.fin, ⟨s.beg.y - s.fin.y, s.fin.x - s.beg.x⟩⟩
    have lin := rayInters_inCell exactCmp c _ hx.le hy.le l l1
    have hch : chunkInters exactCmp s c true = some l := l1
    rw [hch]
    simp only [Option.bind_some, Bool.not_true, Bool.false_eq_true, if_false]
    by_cases h1 : l.length = 1
    · rw [if_pos h1, f1]
      simp only [Option.bind_some]
      have hf0 : f.length ≠ 0 := by
        by_cases hin : Inside c s.fin
        · exfalso
          have hd : s.beg.y - s.fin.y ≠ 0 ∨ s.fin.x - s.beg.x ≠ 0 := by
            by_contra h
            push Not at h
            exact hs (point_ext (by linarith [h.2]) (by linarith [h.1]))
          have hoff' : (⟨s.fin, ⟨s.beg.y - s.fin.y, s.fin.x - s.beg.x⟩⟩ : Ray K).Off c := by
            obtain ⟨q1, q2, q3, q4⟩ := hin
            exact ⟨fun _ => ⟨q3.ne', q4.ne⟩, fun _ => ⟨q1.ne', q2.ne⟩⟩
          obtain ⟨t, t0, tb, -⟩ := exit c ⟨s.fin, ⟨s.beg.y - s.fin.y, s.fin.x - s.beg.x⟩⟩ hin hd
          obtain ⟨u, u0, ub, -⟩ := exit c ⟨s.fin, ⟨-(s.beg.y - s.fin.y), -(s.fin.x - s.beg.x)⟩⟩ hin
            (by simpa only [ne_eq, neg_eq_zero] using hd)
          have eu : (⟨s.fin, ⟨-(s.beg.y - s.fin.y), -(s.fin.x - s.beg.x)⟩⟩ : Ray K).at u =
              (⟨s.fin, ⟨s.beg.y - s.fin.y, s.fin.x - s.beg.x⟩⟩ : Ray K).at (-u) := by
            simp only [Ray.at]; exact point_ext (by ring) (by ring)
          rw [eu] at ub
          have hne : (⟨s.fin, ⟨s.beg.y - s.fin.y, s.fin.x - s.beg.x⟩⟩ : Ray K).at t ≠
              (⟨s.fin, ⟨s.beg.y - s.fin.y, s.fin.x - s.beg.x⟩⟩ : Ray K).at (-u) := by
            rw [ne_eq, at_inj _ hd]; intro h; linarith
          have := two_of_distinct l _ _ hne (l5 hd hoff' t tb) (l5 hd hoff' (-u) ub)
          omega
        · have e1 : between s.beg s.fin 1 = s.fin := point_ext (by simp [between]) (by simp [between])
          obtain ⟨i, hi, -⟩ := f3 1 zero_le_one (le_refl _) (by rw [e1]; exact ⟨hst, hin⟩)
          intro h
          rw [List.length_eq_zero_iff] at h
          rw [h] at hi
          simp at hi
      have hf : f.length = 1 ∨ f.length = 2 := by omega
      rcases hf with hf | hf <;> rw [hf]
      · exact ⟨_, rfl⟩
      · obtain ⟨a, ha, -⟩ := chunkArea_part s c false hx.le hsq f fin (by omega)
        simp only []
        rw [ha]; exact ⟨_, rfl⟩
    · rw [if_neg h1]
      obtain ⟨a, ha, -⟩ := chunkArea_part s c true hx.le hsq l lin (by omega)
      rw [ha]; exact ⟨_, rfl⟩

theorem estimate_after (E : Est K) (c : Bounds K) (hx : c.left < c.right) (hsq : vside c = hside c) (shift : K)
    (beam s : Seg K) (hn : notOnEdge exactCmp shift beam c = some s)
    (hs : s.beg ≠ s.fin) (hoff : ¬ AlongEdgeLine c s.beg s.fin) (isOcc : Bool) :
    ∃ r, E.estimateWith exactCmp shift beam c isOcc = some r ∧ (r.isSome = true ↔ Relevant c s.beg s.fin isOcc) := by
  have hy : c.bot < c.top := by unfold vside hside at hsq; linarith
  obtain ⟨pos, p1, p2, p3⟩ := classify_exact c hx hy s hs hoff
  have hm : Relevant c s.beg s.fin isOcc ↔
      (if isOcc then pos = .stopsInside else ¬ (pos = .unrelated ∨ pos = .touches)) := by
    unfold Relevant
    rw [p2, p3]
    cases isOcc
    · simp only [Bool.false_eq_true, if_false]; tauto
    · simp only [if_true]; tauto
  unfold Est.estimateWith
  rw [hn, hm]
  simp only [Option.bind_some, p1]
  have tot := byChunk_total E c hx hsq s hs hoff
  cases pos <;> cases isOcc <;> simp only [Bool.false_eq_true, if_true, if_false]
  case liesInside.false => exact ⟨_, rfl, by simp⟩
  case stopsInside.false =>
    obtain ⟨o, ho⟩ := tot false (by simp)
    rw [ho]; exact ⟨_, rfl, by simp⟩
  case startsInside.false =>
    obtain ⟨o, ho⟩ := tot false (by simp)
    rw [ho]; exact ⟨_, rfl, by simp⟩
  case pierces.false =>
    obtain ⟨o, ho⟩ := tot false (by simp)
    rw [ho]; exact ⟨_, rfl, by simp⟩
  case stopsInside.true =>
    have : InCell c s.fin := by
      rcases p3.1 rfl with h | h
      · exact ⟨h.2.1.le, h.2.2.1.le, h.2.2.2.1.le, h.2.2.2.2.le⟩
      · exact h.1.1
    obtain ⟨o, ho⟩ := tot true (fun _ => this)
    rw [ho]; exact ⟨_, rfl, by simp⟩
  all_goals exact ⟨_, rfl, by simp⟩

/-- **C49.** With exact comparisons, for every square cell of positive size, every beam of positive length that does
not run along an edge line of the cell, and every positive shift less than the cell's side: no assertion of the
estimator fails, and the estimate is invalid exactly when the beam is not relevant to the cell. -/
theorem estimate_valid_exact (E : Est K) (c : Bounds K) (hx : c.left < c.right) (hsq : vside c = hside c) (shift : K)
    (h0 : 0 < shift) (h1 : shift < vside c) (beam : Seg K) (hs : beam.beg ≠ beam.fin)
    (hoff : ¬ AlongEdgeLine c beam.beg beam.fin) (isOcc : Bool) :
    ∃ r, E.estimateWith exactCmp shift beam c isOcc = some r ∧
      (r.isSome = true ↔ Relevant c beam.beg beam.fin isOcc) := by
  have hy : c.bot < c.top := by unfold vside hside at hsq; linarith
  obtain ⟨b, b1, b2, b3, b4, -⟩ := notOnEdge_exact c hx hy shift beam hs h0 (hsq ▸ h1) h1
  rw [b4 hoff] at b1
  exact estimate_after E c hx hsq shift beam beam b1 hs hoff isOcc

/-- A beam along an edge line is treated as the same beam moved by the shift towards the opposite edge. -/
theorem estimate_along_edge (E : Est K) (c : Bounds K) (hx : c.left < c.right) (hsq : vside c = hside c) (shift : K)
    (h0 : 0 < shift) (h1 : shift < vside c) (beam : Seg K) (hs : beam.beg ≠ beam.fin)
    (hon : AlongEdgeLine c beam.beg beam.fin) (isOcc : Bool) :
    ∃ b r, Nudge c shift beam b ∧ E.estimateWith exactCmp shift beam c isOcc = some r ∧
      (r.isSome = true ↔ Relevant c b.beg b.fin isOcc) := by
  have hy : c.bot < c.top := by unfold vside hside at hsq; linarith
  obtain ⟨b, b1, b2, b3, -, b5⟩ := notOnEdge_exact c hx hy shift beam hs h0 (hsq ▸ h1) h1
  obtain ⟨r, r1, r2⟩ := estimate_after E c hx hsq shift beam b b1 b2 b3 isOcc
  exact ⟨b, r, b5 hon, r1, r2⟩

/-- A free beam strictly outside the closed cell, and one that only passes by a corner, give no estimate; one through
the interior always gives one. -/
theorem free_estimate_iff_crossing (E : Est K) (c : Bounds K) (hx : c.left < c.right) (hsq : vside c = hside c) (shift : K)
    (h0 : 0 < shift) (h1 : shift < vside c) (beam : Seg K) (hs : beam.beg ≠ beam.fin)
    (hoff : ¬ AlongEdgeLine c beam.beg beam.fin) (hend : ¬ OnBoundary c beam.fin) :
    ∃ r, E.estimateWith exactCmp shift beam c false = some r ∧
      (r.isSome = true ↔ MeetsInterior c beam.beg beam.fin) := by
  obtain ⟨r, r1, r2⟩ := estimate_valid_exact E c hx hsq shift h0 h1 beam hs hoff false
  refine ⟨r, r1, r2.trans ?_⟩
  unfold Relevant
  simp only [Bool.false_eq_true, if_false]
  tauto

/-! ### Concrete cases and counterexamples -/

/-- The estimator of the default configuration. -/
def demoEst : Est ℚ := ⟨⟨95 / 100, 1⟩, ⟨1 / 100, 1⟩, 1 / 100, 1 / 2⟩
/-- A unit cell. -/
def demoCell : Bounds ℚ := ⟨0, 1, 0, 1⟩

example : demoEst.Unit := ⟨⟨⟨by norm_num [demoEst], by norm_num [demoEst]⟩, ⟨by norm_num [demoEst], by norm_num [demoEst]⟩⟩,
  ⟨⟨by norm_num [demoEst], by norm_num [demoEst]⟩, ⟨by norm_num [demoEst], by norm_num [demoEst]⟩⟩,
  ⟨by norm_num [demoEst], by norm_num [demoEst]⟩⟩

/-- Hypotheses of the theorems above are met by beams that stop inside or pass through the cell. -/
example : demoCell.left < demoCell.right ∧ vside demoCell = hside demoCell ∧
    ¬ AlongEdgeLine demoCell ⟨-1, 0⟩ ⟨2, 1⟩ ∧ ¬ OnBoundary demoCell ⟨2, 1⟩ ∧ MeetsInterior demoCell ⟨-1, 0⟩ ⟨2, 1⟩ := by
  refine ⟨by norm_num [demoCell], by norm_num [demoCell, vside, hside], ?_, ?_, ?_⟩
  · norm_num [AlongEdgeLine]
  · norm_num [OnBoundary, InCell, demoCell]
  · exact ⟨1 / 2, by norm_num, by norm_num, by norm_num [between, demoCell, Inside]⟩

example : demoEst.estimateWith codeCmp (1 / 100) ⟨⟨-1, 1 / 2⟩, ⟨3 / 4, 1 / 2⟩⟩ demoCell true = some (some ⟨3 / 4, 1⟩) := by
  decide +kernel
example : demoEst.estimateWith exactCmp (1 / 100) ⟨⟨-1, 0⟩, ⟨2, 1⟩⟩ demoCell false = some (some ⟨1 / 100, 1 / 2⟩) := by
  decide +kernel
example : AlongEdgeLine demoCell ⟨-1, 0⟩ ⟨2, 0⟩ ∧
    demoEst.estimateWith exactCmp (1 / 100) ⟨⟨-1, 0⟩, ⟨2, 0⟩⟩ demoCell false = some (some ⟨1 / 100, 1 / 100⟩) :=
  ⟨by norm_num [AlongEdgeLine, demoCell], by decide +kernel⟩

/-- **C49, counterexample: the occupied estimate depends on the origin of coordinates.** Moving the beam and the cell
together changes the estimated probability from 3/4 to 1/4 (the part of the cell behind the obstacle). -/
theorem estimate_not_translation_invariant_counterexample :
    ∃ (E : Est ℚ) (c : Bounds ℚ) (beam : Seg ℚ) (d : ℚ),
      E.estimateWith codeCmp (1 / 100) beam c true ≠
        E.estimateWith codeCmp (1 / 100) (beam.moved d d) ⟨c.bot + d, c.top + d, c.left + d, c.right + d⟩ true := by
  refine ⟨demoEst, demoCell, ⟨⟨-1, 1 / 2⟩, ⟨3 / 4, 1 / 2⟩⟩, 10, ?_⟩
  decide +kernel

/-- **C49, counterexample: one estimate can spoil all later ones.** The shift is fixed by the first call of the process.
After a call for a cell of side 10, a beam along an edge of a cell of side 1/10 fails an assertion; as the first call, it
does not. -/
theorem static_shift_counterexample :
    ∃ (E : Est ℚ) (big small : Bounds ℚ) (b1 b2 : Seg ℚ),
      ((E.call codeCmp none b2 small false).1 ≠ none) ∧
      ((E.call codeCmp none b1 big false).1 ≠ none) ∧
      (E.call codeCmp (E.call codeCmp none b1 big false).2 b2 small false).1 = none := by
  refine ⟨demoEst, ⟨0, 10, 0, 10⟩, ⟨0, 1 / 10, 0, 1 / 10⟩, ⟨⟨-1, 5⟩, ⟨11, 5⟩⟩, ⟨⟨-1, 0⟩, ⟨1, 0⟩⟩, ?_⟩
  decide +kernel

/-- **C49, counterexample: a beam that only touches the cell gives an estimate.** The beam ends exactly on an edge,
coming from outside; it meets no interior point. -/
theorem touching_end_counterexample :
    ∃ (E : Est ℚ) (c : Bounds ℚ) (beam : Seg ℚ) (o : Occ ℚ), ¬ MeetsInterior c beam.beg beam.fin ∧
      E.estimateWith codeCmp (1 / 100) beam c false = some (some o) := by
  refine ⟨demoEst, demoCell, ⟨⟨-1, 1 / 2⟩, ⟨0, 1 / 2⟩⟩, ⟨1 / 100, 1 / 2⟩, ?_, by decide +kernel⟩
  rintro ⟨t, t0, t1, h, -⟩
  simp only [between, demoCell] at h
  linarith

/-- **C49, counterexample: a beam of length zero on the line of a vertical edge fails an assertion.** -/
theorem point_beam_counterexample :
    ∃ (E : Est ℚ) (c : Bounds ℚ) (p : Point ℚ), E.estimateWith codeCmp (1 / 100) ⟨p, p⟩ c false = none :=
  ⟨demoEst, demoCell, ⟨0, 5⟩, by decide +kernel⟩

end Slam.Estimator
