import Verif.Cells.Spec
import Mathlib.Tactic.FieldSimp
import Mathlib.Tactic.Ring
import Mathlib.Tactic.Linarith
import Mathlib.Tactic.Positivity
import Mathlib.Data.List.Perm.Basic
import Mathlib.Algebra.Order.BigOperators.Group.List
import Mathlib.Data.Rat.Defs
import Mathlib.Tactic.NormNum
import Mathlib.Algebra.Order.Ring.Rat

/-! # C18, C19, C23: properties of the naive and GMapping cells -/

set_option autoImplicit false
set_option linter.unusedSectionVars false

namespace Slam.Cells
open Slam.Grid
variable {K : Type*} [Field K] [LinearOrder K] [IsStrictOrderedRing K]

theorem valids_append (as : List (Aoo K)) (a : Aoo K) :
    valids (as ++ [a]) = valids as ++ valids [a] := by simp [valids, List.filterMap_append]

theorem valids_single_none (a : Aoo K) (h : a.occ = none) : valids [a] = [] := by simp [valids, h]

theorem valids_single_some (a : Aoo K) (o : Occ K) (h : a.occ = some o) :
    valids [a] = [⟨o.prob, a.quality, a.obst⟩] := by simp [valids, h]

theorem valids_perm {as bs : List (Aoo K)} (h : as.Perm bs) : (valids as).Perm (valids bs) :=
  h.filterMap _

/-- Means do not depend on the order. -/
theorem mean_perm {l l' : List K} (h : l.Perm l') : mean l = mean l' := by
  unfold mean; rw [h.sum_eq, h.length_eq]

/-- The mean of numbers in `[0,1]` is in `[0,1]`. -/
theorem mean_unit {l : List K} (hl : l ≠ []) (h : ∀ x ∈ l, Unit01 x) : Unit01 (mean l) := by
  have hpos : (0 : K) < (l.length : K) := by
    exact_mod_cast List.length_pos_iff.mpr hl
  have h1 : 0 ≤ l.sum := List.sum_nonneg fun x hx => (h x hx).1
  have h2 : l.sum ≤ l.length := by
    have := List.sum_le_card_nsmul l 1 (fun x hx => (h x hx).2)
    simpa [nsmul_eq_mul] using this
  constructor
  · exact div_nonneg h1 hpos.le
  · exact (div_le_one hpos).2 h2

/-! ## C18: affine merge cells -/

/-- One observation: the new occupancy lies between the old one and the observed one; invalid and
zero-quality observations do not change the occupancy; a full-quality one replaces it. -/
theorem affine_cell_step (c : AffineCell K) (a : Aoo K) (o : Occ K) (ho : a.occ = some o)
    (hq : Unit01 a.quality) :
    min c.occ.prob o.prob ≤ (c.observe a).occ.prob ∧ (c.observe a).occ.prob ≤ max c.occ.prob o.prob ∧
    (a.quality = 0 → (c.observe a).occ = c.occ) ∧ (a.quality = 1 → (c.observe a).occ.prob = o.prob) := by
  obtain ⟨h0, h1⟩ := hq
  unfold AffineCell.observe
  rw [ho]
  refine ⟨?_, ?_, ?_, ?_⟩
  · have e1 := min_le_left c.occ.prob o.prob
    have e2 := min_le_right c.occ.prob o.prob
    show _ ≤ (1 - a.quality) * c.occ.prob + a.quality * o.prob
    nlinarith
  · have e1 := le_max_left c.occ.prob o.prob
    have e2 := le_max_right c.occ.prob o.prob
    show (1 - a.quality) * c.occ.prob + a.quality * o.prob ≤ _
    nlinarith
  · intro h; simp [h]
  · intro h; simp [h]

/-- An invalid observation leaves the cell as it is. -/
theorem affine_cell_invalid (c : AffineCell K) (a : Aoo K) (ho : a.occ = none) : c.observe a = c := by
  simp [AffineCell.observe, ho]

/-- C18: through any history of observations (the invalid ones included) the occupancy of an affine cell that
starts as a probability stays one, and the cell becomes known exactly with the first valid observation. -/
theorem affine_cell_stays_probability (c : AffineCell K) (as : List (Aoo K)) (hs : Sane as)
    (hc : Unit01 c.occ.prob) :
    Unit01 (as.foldl AffineCell.observe c).occ.prob ∧
    (as.foldl AffineCell.observe c).occ.qual = c.occ.qual ∧
    ((as.foldl AffineCell.observe c).unknown = true ↔ c.unknown = true ∧ valids as = []) := by
  induction as generalizing c with
  | nil => simp [hc, valids]
  | cons a as ih =>
    have hs' : Sane as := fun v hv => hs v (by
      unfold valids at hv ⊢
      rw [List.filterMap_cons]
      split
      · exact hv
      · exact List.mem_cons_of_mem _ hv)
    rw [List.foldl_cons]
    cases ho : a.occ with
    | none =>
      rw [affine_cell_invalid c a ho]
      have : valids (a :: as) = valids as := by simp [valids, ho]
      rw [this]
      exact ih c hs' hc
    | some o =>
      have hv : valids (a :: as) = ⟨o.prob, a.quality, a.obst⟩ :: valids as := by simp [valids, ho]
      have hsv := hs ⟨o.prob, a.quality, a.obst⟩ (by rw [hv]; exact List.mem_cons_self ..)
      obtain ⟨s1, s2, -, -⟩ := affine_cell_step c a o ho hsv.2
      have hc' : Unit01 (c.observe a).occ.prob :=
        ⟨le_trans (le_min hc.1 hsv.1.1) s1, le_trans s2 (max_le hc.2 hsv.1.2)⟩
      obtain ⟨r1, r2, r3⟩ := ih (c.observe a) hs' hc'
      refine ⟨r1, ?_, ?_⟩
      · rw [r2]; simp [AffineCell.observe, ho]
      · rw [r3, hv]; simp [AffineCell.observe, ho]

/-- C18 for the plain `GridCell`: it holds exactly the last observation. -/
theorem base_cell_holds_last (c : BaseCell K) (as : List (Aoo K)) (a : Aoo K) :
    ((as ++ [a]).foldl BaseCell.observe c).occ = a.occ ∧
    ((as ++ [a]).foldl BaseCell.observe c).unknown = false := by
  simp [BaseCell.observe]

/-- Non-vacuity. -/
def demoObs : List (Aoo ℚ) :=
  [⟨true, some ⟨9/10, 1⟩, ⟨1, 2⟩, 1⟩, ⟨false, none, ⟨0, 0⟩, 1⟩, ⟨true, some ⟨3/5, 1⟩, ⟨3, 4⟩, 1/2⟩,
   ⟨false, some ⟨1/10, 1⟩, ⟨5, 5⟩, 1/4⟩]

theorem demoObs_valids : valids demoObs =
    [⟨9/10, 1, ⟨1, 2⟩⟩, ⟨3/5, 1/2, ⟨3, 4⟩⟩, ⟨1/10, 1/4, ⟨5, 5⟩⟩] := rfl

theorem demoObs_sane : Sane demoObs := by
  intro v hv
  simp only [valids, demoObs, List.filterMap_cons, Option.map_some, Option.map_none, List.filterMap_nil,
    List.mem_cons, List.not_mem_nil, or_false] at hv
  unfold Unit01
  rcases hv with rfl | rfl | rfl <;> norm_num

example : Unit01 (demoObs.foldl AffineCell.observe AffineCell.create).occ.prob :=
  (affine_cell_stays_probability AffineCell.create demoObs demoObs_sane
    (by unfold Unit01 AffineCell.create; norm_num)).1

/-! ## C19: mean cells -/

theorem mean_cell_state (as : List (Aoo K)) :
    (as.foldl MeanCell.observe MeanCell.create).n = ((valids as).length : K) ∧
    (as.foldl MeanCell.observe MeanCell.create).occ.prob * ((valids as).length : K)
      = ((valids as).map discounted).sum ∧
    (valids as = [] → (as.foldl MeanCell.observe (MeanCell.create : MeanCell K)) = MeanCell.create) ∧
    (as.foldl MeanCell.observe (MeanCell.create : MeanCell K)).occ.qual = 1 ∧
    (valids as ≠ [] → (as.foldl MeanCell.observe (MeanCell.create : MeanCell K)).unknown = false) := by
  induction as using List.reverseRecOn with
  | nil => simp [valids, MeanCell.create]
  | append_singleton as a ih =>
    rw [List.foldl_append, List.foldl_cons, List.foldl_nil, valids_append]
    obtain ⟨h1, h2, h3, h4, h5⟩ := ih
    cases ho : a.occ with
    | none =>
      rw [valids_single_none a ho, List.append_nil]
      simp only [MeanCell.observe, ho]
      exact ⟨h1, h2, h3, h4, h5⟩
    | some o =>
      rw [valids_single_some a o ho]
      simp only [MeanCell.observe, ho, List.length_append, List.length_cons, List.length_nil, h1]
      have hpos : ((valids as).length : K) + 1 ≠ 0 := by positivity
      refine ⟨by push_cast; ring, ?_, by simp, h4, by simp⟩
      push_cast
      rw [div_mul_cancel₀ _ hpos]
      rw [show ((valids as).length : K) + 1 - 1 = (valids as).length by ring, h2]
      simp [discounted]
      ring

/-- C19: the occupancy of a mean cell is the arithmetic mean of the quality-discounted observed probabilities
(1/2 without valid observations). -/
theorem mean_cell_is_mean (as : List (Aoo K)) :
    (as.foldl MeanCell.observe (MeanCell.create : MeanCell K)).occ.prob =
      if valids as = [] then 1 / 2 else mean ((valids as).map discounted) := by
  obtain ⟨h1, h2, h3, -, -⟩ := mean_cell_state as
  split
  · rename_i h; rw [h3 h]; rfl
  · rename_i h
    have hpos : (0 : K) < ((valids as).length : K) := by exact_mod_cast List.length_pos_iff.mpr h
    unfold mean
    rw [List.length_map, ← h2, mul_div_assoc, div_self hpos.ne', mul_one]

/-- C19: the whole cell, hence everything readable from it, is independent of the order of observations. -/
theorem mean_cell_order_independent (as bs : List (Aoo K)) (h : as.Perm bs) :
    as.foldl MeanCell.observe (MeanCell.create : MeanCell K) = bs.foldl MeanCell.observe MeanCell.create := by
  obtain ⟨a1, a2, a3, a4, a5⟩ := mean_cell_state as
  obtain ⟨b1, b2, b3, b4, b5⟩ := mean_cell_state bs
  have hp := valids_perm h
  by_cases hv : valids as = []
  · have hv' : valids bs = [] := by rw [hv] at hp; exact hp.nil_eq.symm
    rw [a3 hv, b3 hv']
  · have hv' : valids bs ≠ [] := fun h0 => hv (by rw [h0] at hp; exact hp.eq_nil)
    have hn : (as.foldl MeanCell.observe (MeanCell.create : MeanCell K)).n
        = (bs.foldl MeanCell.observe MeanCell.create).n := by rw [a1, b1, hp.length_eq]
    have hprob : (as.foldl MeanCell.observe (MeanCell.create : MeanCell K)).occ.prob
        = (bs.foldl MeanCell.observe MeanCell.create).occ.prob := by
      rw [mean_cell_is_mean, mean_cell_is_mean, if_neg hv, if_neg hv']
      exact mean_perm (hp.map _)
    have hq : (as.foldl MeanCell.observe (MeanCell.create : MeanCell K)).occ.qual
        = (bs.foldl MeanCell.observe MeanCell.create).occ.qual := by rw [a4, b4]
    have hu : (as.foldl MeanCell.observe (MeanCell.create : MeanCell K)).unknown
        = (bs.foldl MeanCell.observe MeanCell.create).unknown := by rw [a5 hv, b5 hv']
    generalize as.foldl MeanCell.observe (MeanCell.create : MeanCell K) = A at *
    generalize bs.foldl MeanCell.observe (MeanCell.create : MeanCell K) = B at *
    obtain ⟨⟨ap, aq⟩, au, an⟩ := A
    obtain ⟨⟨bp, bq⟩, bu, bn⟩ := B
    simp_all

/-- C19: it stays a probability. -/
theorem mean_cell_stays_probability (as : List (Aoo K)) (hs : Sane as) :
    Unit01 (as.foldl MeanCell.observe (MeanCell.create : MeanCell K)).occ.prob := by
  rw [mean_cell_is_mean]
  split
  · constructor <;> norm_num
  · rename_i h
    apply mean_unit (by simpa using h)
    intro x hx
    obtain ⟨v, hv, rfl⟩ := List.mem_map.1 hx
    obtain ⟨⟨p0, p1⟩, q0, q1⟩ := hs v hv
    unfold discounted
    constructor <;> nlinarith

/-- Non-vacuity/test. -/
example : (demoObs.foldl MeanCell.observe MeanCell.create).occ.prob = (9/10 + 11/20 + 2/5) / 3 := by
  rw [mean_cell_is_mean, demoObs_valids, if_neg (by simp)]; norm_num [mean, discounted]

/-! ## C23: GMapping cells -/

theorem gm_cell_state (as : List (Aoo K)) :
    (as.foldl GmCell.observe (GmCell.create : GmCell K)).tries = (valids as).length ∧
    (as.foldl GmCell.observe (GmCell.create : GmCell K)).hits = (hitsOf as).length ∧
    ((as.foldl GmCell.observe (GmCell.create : GmCell K)).unknown = true ↔ valids as = []) ∧
    (valids as = [] → (as.foldl GmCell.observe (GmCell.create : GmCell K)).occ.prob = -1) ∧
    (valids as ≠ [] → (as.foldl GmCell.observe (GmCell.create : GmCell K)).occ.prob
      * ((valids as).length : K) = ((valids as).map thresholded).sum) ∧
    (as.foldl GmCell.observe (GmCell.create : GmCell K)).obst.x * ((hitsOf as).length : K)
      = ((hitsOf as).map fun v => v.obst.x).sum ∧
    (as.foldl GmCell.observe (GmCell.create : GmCell K)).obst.y * ((hitsOf as).length : K)
      = ((hitsOf as).map fun v => v.obst.y).sum ∧
    (hitsOf as = [] → (as.foldl GmCell.observe (GmCell.create : GmCell K)).obst = ⟨0, 0⟩) := by
  induction as using List.reverseRecOn with
  | nil => simp [valids, hitsOf, GmCell.create]
  | append_singleton as a ih =>
    obtain ⟨h1, h2, h3, h4, h5, h6, h7, h8⟩ := ih
    rw [List.foldl_append, List.foldl_cons, List.foldl_nil]
    generalize as.foldl GmCell.observe (GmCell.create : GmCell K) = c at *
    unfold hitsOf at *
    rw [valids_append]
    cases ho : a.occ with
    | none =>
      rw [valids_single_none a ho, List.append_nil]
      simp only [GmCell.observe, ho]
      exact ⟨h1, h2, h3, h4, h5, h6, h7, h8⟩
    | some o =>
      rw [valids_single_some a o ho]
      have hpos : ((valids as).length : K) + 1 ≠ 0 := by positivity
      have key : ∀ p : K, p = thresholded ⟨o.prob, a.quality, a.obst⟩ →
          (c.occ.prob * (((c.tries + 1 : Nat) : K) - 1) + p) / ((c.tries + 1 : Nat) : K)
            * ((valids as ++ [Valid.mk o.prob a.quality a.obst]).length : K)
            = ((valids as ++ [Valid.mk o.prob a.quality a.obst]).map thresholded).sum := by
        intro p hp
        have e : ((valids as ++ [Valid.mk o.prob a.quality a.obst]).length : K) = ((valids as).length : K) + 1 := by
          simp
        rw [h1, e]
        push_cast
        rw [div_mul_cancel₀ _ hpos]
        rw [show ((valids as).length : K) + 1 - 1 = (valids as).length by ring]
        rw [List.map_append, List.sum_append, hp]
        by_cases hv : valids as = []
        · simp [hv]
        · rw [h5 hv]; simp
      by_cases hf : o.prob ≤ 1 / 2
      · have hf' : ¬ (1 / 2 < o.prob) := not_lt.2 hf
        simp only [GmCell.observe, ho, hf, decide_true, if_true]
        refine ⟨by simp [h1], ?_, by simp, by simp, ?_, ?_, ?_, ?_⟩
        · rw [h2, List.filter_append]; simp [hf', List.filter, -one_div]
        · intro _; exact key 0 (by simp [thresholded, hf', -one_div])
        · rw [List.filter_append]; simp only [List.filter, hf', decide_false, List.append_nil]; exact h6
        · rw [List.filter_append]; simp only [List.filter, hf', decide_false, List.append_nil]; exact h7
        · rw [List.filter_append]; simp only [List.filter, hf', decide_false, List.append_nil]; exact h8
      · have hf' : 1 / 2 < o.prob := not_le.1 hf
        have hposh : (((valids as).filter fun v => decide (1 / 2 < v.p)).length : K) + 1 ≠ 0 := by positivity
        simp only [GmCell.observe, ho, hf, decide_false, Bool.false_eq_true, if_false]
        refine ⟨by simp [h1], ?_, by simp, by simp, ?_, ?_, ?_, ?_⟩
        · rw [h2, List.filter_append]; simp [List.filter, hf', -one_div]
        · intro _; exact key _ (by simp [thresholded, hf', -one_div])
        · rw [List.filter_append]; simp only [List.filter, hf', decide_true, List.length_append,
            List.length_cons, List.length_nil, List.map_append, List.sum_append, h2]
          push_cast
          rw [div_mul_cancel₀ _ hposh]
          rw [add_sub_cancel_right, ← h6]; simp
        · rw [List.filter_append]; simp only [List.filter, hf', decide_true, List.length_append,
            List.length_cons, List.length_nil, List.map_append, List.sum_append, h2]
          push_cast
          rw [div_mul_cancel₀ _ hposh]
          rw [add_sub_cancel_right, ← h7]; simp
        · rw [List.filter_append]; simp [List.filter, hf', -one_div]

/-- C23: occupancy of a GMapping cell: -1 exactly while it has not been validly observed, and afterwards the mean
of the observed probabilities in which observations not above 1/2 count as 0. Needs observations whose
probabilities are non-negative only for the "exactly" part. -/
theorem gm_cell_occupancy (as : List (Aoo K)) :
    (as.foldl GmCell.observe (GmCell.create : GmCell K)).occ.prob =
      (if valids as = [] then -1 else mean ((valids as).map thresholded)) ∧
    ((as.foldl GmCell.observe (GmCell.create : GmCell K)).occ.prob = -1 ↔ valids as = []) ∧
    ((as.foldl GmCell.observe (GmCell.create : GmCell K)).unknown = true ↔ valids as = []) := by
  obtain ⟨-, -, h3, h4, h5, -, -, -⟩ := gm_cell_state as
  have main : (as.foldl GmCell.observe (GmCell.create : GmCell K)).occ.prob =
      (if valids as = [] then -1 else mean ((valids as).map thresholded)) := by
    split
    · rename_i h; exact h4 h
    · rename_i h
      have hpos : (0 : K) < ((valids as).length : K) := by exact_mod_cast List.length_pos_iff.mpr h
      unfold mean
      rw [List.length_map, ← h5 h, mul_div_assoc, div_self hpos.ne', mul_one]
  refine ⟨main, ⟨fun h => ?_, h4⟩, h3⟩
  by_contra hv
  rw [main, if_neg hv] at h
  have : 0 ≤ mean ((valids as).map thresholded) := by
    unfold mean
    apply div_nonneg
    · apply List.sum_nonneg
      intro x hx
      obtain ⟨v, -, rfl⟩ := List.mem_map.1 hx
      unfold thresholded
      split
      · rename_i hl; exact le_trans (by norm_num) hl.le
      · exact le_rfl
    · positivity
  rw [h] at this
  linarith

/-- C23: the occupancy is between half the hit ratio and the hit ratio, and is the hit ratio when every hit was
observed with probability one. -/
theorem gm_cell_hit_ratio (as : List (Aoo K)) (hv : valids as ≠ []) (hs : Sane as) :
    (1 / 2) * ((hitsOf as).length / (valids as).length : K) ≤
        (as.foldl GmCell.observe (GmCell.create : GmCell K)).occ.prob ∧
    (as.foldl GmCell.observe (GmCell.create : GmCell K)).occ.prob
        ≤ (hitsOf as).length / (valids as).length ∧
    ((∀ v ∈ hitsOf as, v.p = 1) →
      (as.foldl GmCell.observe (GmCell.create : GmCell K)).occ.prob
        = (hitsOf as).length / (valids as).length) := by
  have hpos : (0 : K) < ((valids as).length : K) := by exact_mod_cast List.length_pos_iff.mpr hv
  obtain ⟨e, -, -⟩ := gm_cell_occupancy as
  rw [e, if_neg hv]
  have gen : ∀ l : List (Valid K), (∀ v ∈ l, v.p ≤ 1) →
      (1 / 2) * (((l.filter fun v => decide (1 / 2 < v.p)).length : Nat) : K) ≤ (l.map thresholded).sum ∧
      (l.map thresholded).sum ≤ ((l.filter fun v => decide (1 / 2 < v.p)).length : Nat) ∧
      ((∀ v ∈ l.filter fun v => decide (1 / 2 < v.p), v.p = 1) →
        (l.map thresholded).sum = (((l.filter fun v => decide (1 / 2 < v.p)).length : Nat) : K)) := by
    intro l
    induction l with
    | nil => intro _; simp
    | cons v l ih =>
      intro hl
      obtain ⟨i1, i2, i3⟩ := ih (fun w hw => hl w (List.mem_cons_of_mem _ hw))
      have hv1 := hl v (List.mem_cons_self ..)
      rw [List.map_cons, List.sum_cons]
      by_cases h : 1 / 2 < v.p
      · rw [List.filter_cons_of_pos (by simpa using h), List.length_cons]
        have : thresholded v = v.p := by simp [thresholded, h, -one_div]
        rw [this]
        push_cast
        refine ⟨by linarith, by linarith, fun hall => ?_⟩
        rw [hall v (List.mem_cons_self ..), i3 (fun w hw => hall w (List.mem_cons_of_mem _ hw))]
        ring
      · rw [List.filter_cons_of_neg (by simpa using h)]
        have : thresholded v = 0 := by simp [thresholded, h, -one_div]
        rw [this, zero_add]
        exact ⟨i1, i2, i3⟩
  obtain ⟨g1, g2, g3⟩ := gen (valids as) (fun v hv => (hs v hv).1.2)
  unfold mean hitsOf
  rw [List.length_map]
  refine ⟨?_, ?_, fun hall => ?_⟩
  · rw [← mul_div_assoc]; exact div_le_div_of_nonneg_right g1 hpos.le
  · exact div_le_div_of_nonneg_right g2 hpos.le
  · rw [g3 hall]

/-- C23: the obstacle estimate is the mean of the obstacle positions of the hits (the origin without hits). -/
theorem gm_cell_obstacle (as : List (Aoo K)) :
    (as.foldl GmCell.observe (GmCell.create : GmCell K)).obst =
      if hitsOf as = [] then ⟨0, 0⟩
      else ⟨mean ((hitsOf as).map fun v => v.obst.x), mean ((hitsOf as).map fun v => v.obst.y)⟩ := by
  obtain ⟨-, -, -, -, -, h6, h7, h8⟩ := gm_cell_state as
  split
  · rename_i h; exact h8 h
  · rename_i h
    have hpos : (0 : K) < ((hitsOf as).length : K) := by exact_mod_cast List.length_pos_iff.mpr h
    unfold mean
    rw [List.length_map, List.length_map, ← h6, ← h7, mul_div_assoc, div_self hpos.ne', mul_one,
      mul_div_assoc, div_self hpos.ne', mul_one]

/-- C23, counterexample to "occupancy = hits / tries": one observation of probability 9/10. -/
theorem gm_cell_hit_ratio_counterexample :
    ([⟨true, some ⟨9/10, 1⟩, ⟨0, 0⟩, 1⟩].foldl GmCell.observe (GmCell.create : GmCell ℚ)).occ.prob = 9 / 10 := by
  norm_num [GmCell.observe, GmCell.create]

/-- Non-vacuity/test. -/
example : (demoObs.foldl GmCell.observe GmCell.create).occ.prob = (9/10 + 3/5 + 0) / 3 ∧
    (demoObs.foldl GmCell.observe GmCell.create).obst = ⟨2, 3⟩ := by
  constructor
  · rw [(gm_cell_occupancy demoObs).1, demoObs_valids, if_neg (by simp)]; norm_num [mean, thresholded]
  · have h : hitsOf demoObs = [⟨9/10, 1, ⟨1, 2⟩⟩, ⟨3/5, 1/2, ⟨3, 4⟩⟩] := by
      unfold hitsOf; rw [demoObs_valids]; norm_num [List.filter]
    rw [gm_cell_obstacle, h, if_neg (by simp)]; norm_num [mean]

end Slam.Cells
