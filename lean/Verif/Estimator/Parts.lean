import Mathlib.MeasureTheory.Measure.Lebesgue.Basic
import Mathlib.MeasureTheory.Integral.IntervalIntegral.FundThmCalculus
import Mathlib.Analysis.SpecialFunctions.Integrals.Basic
import Verif.Estimator.Props

/-!
# The parts into which a line divides a cell, as areas of sets of points of the plane
-/

set_option autoImplicit false
set_option linter.unusedSectionVars false

namespace Slam.Estimator
open Slam.Grid Slam.Rect Slam.Cells MeasureTheory

/-! ### Specification -/

/-- Positive to the left of the line from `a` to `b`, zero on it, negative to the right of it. -/
def sideOf (a b : Point ℝ) (p : ℝ × ℝ) : ℝ := (b.x - a.x) * (p.2 - a.y) - (b.y - a.y) * (p.1 - a.x)

/-- The points of the cell to the left of the line from `a` to `b`, or on it. -/
def leftPart (c : Bounds ℝ) (a b : Point ℝ) : Set (ℝ × ℝ) := {p | InCell c ⟨p.1, p.2⟩ ∧ 0 ≤ sideOf a b p}

/-- The area of a set of points of the plane. -/
noncomputable def areaOf (S : Set (ℝ × ℝ)) : ℝ := (volume S).toReal

/-! ### Areas of trapezoids -/

/-- The value at `x` of the straight line with values `u` at `a` and `v` at `b`. -/
noncomputable def lin (a b u v x : ℝ) : ℝ := u + (v - u) * ((x - a) / (b - a))

theorem integral_lin (a b u v : ℝ) (h : a < b) : ∫ x in a..b, lin a b u v x = (b - a) * ((u + v) / 2) := by
  have hb : b - a ≠ 0 := by linarith [h]
  have e : ∀ x, lin a b u v x = (u - (v - u) * a / (b - a)) + (v - u) / (b - a) * x := by
    intro x; unfold lin; field_simp; ring
  simp only [e]
  rw [intervalIntegral.integral_add (by simp) (by apply Continuous.intervalIntegrable; fun_prop),
    intervalIntegral.integral_const, intervalIntegral.integral_const_mul, integral_id]
  simp only [smul_eq_mul]
  field_simp
  ring

/-- Points between the straight lines `f0 f1` and `g0 g1` over `[a, b]`. -/
def trap (a b f0 f1 g0 g1 : ℝ) : Set (ℝ × ℝ) :=
  {p | (a ≤ p.1 ∧ p.1 ≤ b) ∧ lin a b f0 f1 p.1 ≤ p.2 ∧ p.2 ≤ lin a b g0 g1 p.1}

theorem lin_cont (a b u v : ℝ) : Continuous (lin a b u v) := by unfold lin; fun_prop

theorem trap_measurable (a b f0 f1 g0 g1 : ℝ) : MeasurableSet (trap a b f0 f1 g0 g1) := by
  have h1 := lin_cont a b f0 f1
  have h2 := lin_cont a b g0 g1
  apply IsClosed.measurableSet
  unfold trap
  refine IsClosed.and (IsClosed.and ?_ ?_) (IsClosed.and ?_ ?_)
  · exact isClosed_le continuous_const continuous_fst
  · exact isClosed_le continuous_fst continuous_const
  · exact isClosed_le (h1.comp continuous_fst) continuous_snd
  · exact isClosed_le continuous_snd (h2.comp continuous_fst)

theorem lin_mono (a b u v u' v' x : ℝ) (h : a < b) (h0 : u ≤ u') (h1 : v ≤ v') (hx : a ≤ x) (hx' : x ≤ b) :
    lin a b u v x ≤ lin a b u' v' x := by
  unfold lin
  have t0 : 0 ≤ (x - a) / (b - a) := div_nonneg (by linarith) (by linarith)
  have t1 : (x - a) / (b - a) ≤ 1 := by rw [div_le_one (by linarith)]; linarith
  nlinarith

/-- The area of a trapezoid. -/
theorem trap_area (a b f0 f1 g0 g1 : ℝ) (h : a < b) (h0 : f0 ≤ g0) (h1 : f1 ≤ g1) :
    areaOf (trap a b f0 f1 g0 g1) = (b - a) * ((g0 - f0 + (g1 - f1)) / 2) := by
  unfold areaOf
  rw [show (volume : Measure (ℝ × ℝ)) = (volume : Measure ℝ).prod volume from rfl,
    Measure.prod_apply (trap_measurable a b f0 f1 g0 g1)]
  have hs : ∀ x, (volume : Measure ℝ) (Prod.mk x ⁻¹' trap a b f0 f1 g0 g1) =
      (Set.Icc a b).indicator (fun x => ENNReal.ofReal (lin a b g0 g1 x - lin a b f0 f1 x)) x := by
    intro x
    by_cases hx : x ∈ Set.Icc a b
    · rw [Set.indicator_of_mem hx]
      have : Prod.mk x ⁻¹' trap a b f0 f1 g0 g1 = Set.Icc (lin a b f0 f1 x) (lin a b g0 g1 x) := by
        ext y
        simp only [Set.mem_preimage, trap, Set.mem_setOf_eq, Set.mem_Icc]
        exact ⟨fun h => h.2, fun h => ⟨hx, h⟩⟩
      rw [this, Real.volume_Icc]
    · rw [Set.indicator_of_notMem hx]
      have : Prod.mk x ⁻¹' trap a b f0 f1 g0 g1 = ∅ := by
        ext y
        simp only [Set.mem_preimage, trap, Set.mem_setOf_eq, Set.mem_empty_iff_false, iff_false]
        exact fun h => hx h.1
      rw [this, measure_empty]
  simp only [hs]
  rw [lintegral_indicator measurableSet_Icc]
  have hnn : ∀ x ∈ Set.Icc a b, 0 ≤ lin a b g0 g1 x - lin a b f0 f1 x := by
    intro x hx
    exact sub_nonneg.2 (lin_mono a b f0 f1 g0 g1 x h h0 h1 hx.1 hx.2)
  have hcont : Continuous fun x => lin a b g0 g1 x - lin a b f0 f1 x := (lin_cont _ _ _ _).sub (lin_cont _ _ _ _)
  rw [← ofReal_integral_eq_lintegral_ofReal]
  · have : ∫ x in Set.Icc a b, (lin a b g0 g1 x - lin a b f0 f1 x) = (b - a) * ((g0 - f0 + (g1 - f1)) / 2) := by
      rw [integral_Icc_eq_integral_Ioc, ← intervalIntegral.integral_of_le h.le,
        intervalIntegral.integral_sub ((lin_cont _ _ _ _).intervalIntegrable _ _)
          ((lin_cont _ _ _ _).intervalIntegrable _ _), integral_lin _ _ _ _ h, integral_lin _ _ _ _ h]
      ring
    rw [this, ENNReal.toReal_ofReal]
    have : 0 ≤ b - a := by linarith
    have : 0 ≤ (g0 - f0 + (g1 - f1)) / 2 := by linarith
    positivity
  · exact hcont.continuousOn.integrableOn_Icc
  · rw [Filter.EventuallyLE, ae_restrict_iff' measurableSet_Icc]
    exact Filter.Eventually.of_forall hnn

/-- The same with the coordinates exchanged. -/
theorem trap_area_swap (a b f0 f1 g0 g1 : ℝ) (h : a < b) (h0 : f0 ≤ g0) (h1 : f1 ≤ g1) :
    areaOf (Prod.swap ⁻¹' trap a b f0 f1 g0 g1) = (b - a) * ((g0 - f0 + (g1 - f1)) / 2) := by
  rw [← trap_area a b f0 f1 g0 g1 h h0 h1]
  unfold areaOf
  have := (Measure.measurePreserving_swap (μ := (volume : Measure ℝ)) (ν := (volume : Measure ℝ))).measure_preimage
    (trap_measurable a b f0 f1 g0 g1).nullMeasurableSet
  rw [show (volume : Measure (ℝ × ℝ)) = (volume : Measure ℝ).prod volume from rfl, this]

/-! ### The two sides of a line -/

theorem sideOf_cont (a b : Point ℝ) : Continuous (sideOf a b) := by unfold sideOf; fun_prop

/-- A line has no area. -/
theorem line_null (a b : Point ℝ) (h : a ≠ b) : volume {p : ℝ × ℝ | sideOf a b p = 0} = 0 := by
  have hm : MeasurableSet {p : ℝ × ℝ | sideOf a b p = 0} :=
    (isClosed_eq (sideOf_cont a b) continuous_const).measurableSet
  rw [show (volume : Measure (ℝ × ℝ)) = (volume : Measure ℝ).prod volume from rfl]
  by_cases hx : b.x - a.x = 0
  · have hy : b.y - a.y ≠ 0 := fun hy => h (point_ext (by linarith) (by linarith))
    have : {p : ℝ × ℝ | sideOf a b p = 0} ⊆ {a.x} ×ˢ Set.univ := by
      rintro ⟨x, y⟩ hp
      simp only [Set.mem_setOf_eq, sideOf, hx, zero_mul, zero_sub, neg_eq_zero] at hp
      have := (mul_eq_zero.1 hp).resolve_left hy
      simp only [Set.mem_prod, Set.mem_singleton_iff, Set.mem_univ, and_true]
      linarith
    refine measure_mono_null this ?_
    rw [Measure.prod_prod, Real.volume_singleton, zero_mul]
  · rw [Measure.measure_prod_null hm]
    refine Filter.Eventually.of_forall fun x => ?_
    have : Prod.mk x ⁻¹' {p : ℝ × ℝ | sideOf a b p = 0} ⊆ {a.y + (b.y - a.y) * (x - a.x) / (b.x - a.x)} := by
      intro y hy
      simp only [Set.mem_preimage, Set.mem_setOf_eq, sideOf] at hy
      rw [Set.mem_singleton_iff]
      field_simp
      linarith
    exact measure_mono_null this Real.volume_singleton

theorem cell_area (c : Bounds ℝ) (hx : c.left < c.right) (hy : c.bot ≤ c.top) :
    areaOf {p | InCell c ⟨p.1, p.2⟩} = (c.right - c.left) * (c.top - c.bot) := by
  have : {p : ℝ × ℝ | InCell c ⟨p.1, p.2⟩} = trap c.left c.right c.bot c.bot c.top c.top := by
    ext p
    simp only [Set.mem_setOf_eq, InCell, trap, lin, sub_self, zero_mul, add_zero]
    tauto
  rw [this, trap_area _ _ _ _ _ _ hx hy hy]
  ring

theorem inCell_closed (c : Bounds ℝ) : IsClosed {p : ℝ × ℝ | InCell c ⟨p.1, p.2⟩} := by
  unfold InCell
  refine IsClosed.and ?_ (IsClosed.and ?_ (IsClosed.and ?_ ?_))
  · exact isClosed_le continuous_const continuous_fst
  · exact isClosed_le continuous_fst continuous_const
  · exact isClosed_le continuous_const continuous_snd
  · exact isClosed_le continuous_snd continuous_const

/-- The two parts make up the cell. -/
theorem parts_add (c : Bounds ℝ) (hx : c.left < c.right) (hy : c.bot ≤ c.top) (a b : Point ℝ) (h : a ≠ b) :
    areaOf (leftPart c a b) + areaOf (leftPart c b a) = (c.right - c.left) * (c.top - c.bot) := by
  have hcell := cell_area c hx hy
  have hfin : volume {p : ℝ × ℝ | InCell c ⟨p.1, p.2⟩} ≠ ⊤ := by
    intro e
    unfold areaOf at hcell
    have : {p : ℝ × ℝ | InCell c ⟨p.1, p.2⟩} ⊆ Set.Icc c.left c.right ×ˢ Set.Icc c.bot c.top := by
      rintro p ⟨h1, h2, h3, h4⟩; exact ⟨⟨h1, h2⟩, h3, h4⟩
    have h2 := measure_mono (μ := (volume : Measure (ℝ × ℝ))) this
    rw [e, show (volume : Measure (ℝ × ℝ)) = (volume : Measure ℝ).prod volume from rfl, Measure.prod_prod,
      Real.volume_Icc, Real.volume_Icc] at h2
    exact absurd (top_le_iff.1 h2) (ENNReal.mul_ne_top ENNReal.ofReal_ne_top ENNReal.ofReal_ne_top)
  have hanti : ∀ p, sideOf b a p = - sideOf a b p := by intro p; unfold sideOf; ring
  have hu : {p : ℝ × ℝ | InCell c ⟨p.1, p.2⟩} = leftPart c a b ∪ leftPart c b a := by
    ext p
    simp only [leftPart, Set.mem_setOf_eq, Set.mem_union, hanti]
    constructor
    · intro hp
      rcases le_total 0 (sideOf a b p) with h | h
      · exact .inl ⟨hp, h⟩
      · exact .inr ⟨hp, by linarith⟩
    · rintro (h | h) <;> exact h.1
  have hm : ∀ a b, MeasurableSet (leftPart c a b) := fun a b =>
    ((inCell_closed c).and (isClosed_le continuous_const (sideOf_cont a b))).measurableSet
  have hsub : ∀ a b, volume (leftPart c a b) ≠ ⊤ := fun a b =>
    ne_top_of_le_ne_top hfin (measure_mono fun p hp => hp.1)
  rw [hu] at hcell
  rw [← hcell]
  unfold areaOf
  rw [← ENNReal.toReal_add (hsub a b) (hsub b a)]
  congr 1
  rw [measure_union₀ (hm b a).nullMeasurableSet]
  refine measure_mono_null ?_ (line_null a b h)
  rintro p ⟨h1, h2⟩
  have h1 := h1.2
  have h2 := h2.2
  rw [hanti] at h2
  exact le_antisymm (by linarith) h1

end Slam.Estimator
