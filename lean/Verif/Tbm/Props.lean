import Verif.Tbm.Lemmas
import Mathlib.Algebra.Order.Ring.Rat
import Mathlib.Data.List.Perm.Basic
import Mathlib.Algebra.BigOperators.Group.List.Basic
import Mathlib.Analysis.SpecialFunctions.Exp
import Verif.Cells.Props

/-! # C20, C21, C22: belief function cells, and the discrepancies of all cell kinds -/

set_option autoImplicit false
set_option linter.unusedSectionVars false

namespace Slam.Tbm
open Slam.Grid Slam.Cells
variable {K : Type*} [Field K] [LinearOrder K] [IsStrictOrderedRing K]

/-! ## C20 -/

/-- C20: on mass functions the code's conjunctive combination is the conjunctive rule on sets of hypotheses,
its disjunctive combination is the disjunctive rule, and both yield mass functions. -/
theorem combination_rules (l r : TBM K) (hl : IsMass l.mass) (hr : IsMass r.mass) :
    (conjunctive l r).mass = conjRule l.mass r.mass ∧ (disjunctive l r).mass = disjRule l.mass r.mass ∧
    IsMass (conjunctive l r).mass ∧ IsMass (disjunctive l r).mass := by
  refine ⟨?_, ?_, conj_isMass hl hr, disj_isMass hl hr⟩
  · rw [conj_eq l r hl.sum hr.sum]
    funext s
    unfold conjRule
    rw [Fintype.sum_prod_type]
    simp only [sum4]
    have hs : s ∈ (Finset.univ : Finset (Finset Bool)) := Finset.mem_univ s
    rw [univ4] at hs
    simp only [Finset.mem_insert, Finset.mem_singleton] at hs
    rcases hs with rfl | rfl | rfl | rfl <;> simp [TBM.mass, Finset.ext_iff] <;> ring
  · rw [disj_eq l r hl.sum hr.sum]
    funext s
    unfold disjRule
    rw [Fintype.sum_prod_type]
    simp only [sum4]
    have hs : s ∈ (Finset.univ : Finset (Finset Bool)) := Finset.mem_univ s
    rw [univ4] at hs
    simp only [Finset.mem_insert, Finset.mem_singleton] at hs
    rcases hs with rfl | rfl | rfl | rfl <;> simp [TBM.mass, Finset.ext_iff] <;> ring

/-- C20: both combinations are commutative (for arbitrary, even unnormalised, inputs). -/
theorem combination_comm (l r : TBM K) :
    conjunctive l r = conjunctive r l ∧ disjunctive l r = disjunctive r l := by
  constructor
  · obtain ⟨a0, a1, a2, a3⟩ := acc_or l r
    obtain ⟨b0, b1, b2, b3⟩ := acc_or r l
    unfold conjunctive
    simp only [a0, a1, a2, a3, b0, b1, b2, b3]
    congr 1
    apply TBM.ext' <;> simp only <;> ring
  · obtain ⟨a0, a1, a2, a3⟩ := acc_and l r
    obtain ⟨b0, b1, b2, b3⟩ := acc_and r l
    unfold disjunctive
    simp only [a0, a1, a2, a3, b0, b1, b2, b3]
    congr 1
    apply TBM.ext' <;> simp only <;> ring

/-- C20: both combinations are associative on mass functions. -/
theorem combination_assoc (a b c : TBM K) (ha : IsMass a.mass) (hb : IsMass b.mass) (hc : IsMass c.mass) :
    conjunctive (conjunctive a b) c = conjunctive a (conjunctive b c) ∧
    disjunctive (disjunctive a b) c = disjunctive a (disjunctive b c) := by
  constructor
  · rw [conj_eq _ c (conj_isMass ha hb).sum hc.sum, conj_eq a _ ha.sum (conj_isMass hb hc).sum,
      conj_eq a b ha.sum hb.sum, conj_eq b c hb.sum hc.sum]
    apply TBM.ext' <;> simp only <;> ring
  · rw [disj_eq _ c (disj_isMass ha hb).sum hc.sum, disj_eq a _ ha.sum (disj_isMass hb hc).sum,
      disj_eq a b ha.sum hb.sum, disj_eq b c hb.sum hc.sum]
    apply TBM.ext' <;> simp only <;> ring

/-- C20: the default (vacuous) belief is neutral for the conjunctive combination; for the disjunctive one it is
absorbing. -/
theorem vacuous_neutral (t : TBM K) (ht : IsMass t.mass) :
    conjunctive TBM.dflt t = t ∧ conjunctive t TBM.dflt = t ∧ disjunctive TBM.dflt t = TBM.dflt := by
  have hd := dflt_isMass (K := K)
  have hts := ht.sum
  refine ⟨?_, ?_, ?_⟩
  · rw [conj_eq _ _ hd.sum hts]; apply TBM.ext' <;> simp [TBM.dflt]
  · rw [conj_eq _ _ hts hd.sum]; apply TBM.ext' <;> simp [TBM.dflt]
  · rw [disj_eq _ _ hd.sum hts]; apply TBM.ext' <;> simp [TBM.dflt, hts]

/-- C20: `normalize` and `normalize_conflict` make a mass function of any non-negative masses (even all zero);
the latter without conflict. -/
theorem normalize_is_mass (t : TBM K) (h : 0 ≤ t.unknown ∧ 0 ≤ t.empty ∧ 0 ≤ t.occupied ∧ 0 ≤ t.conflict) :
    IsMass t.normalize.mass ∧ IsMass t.normalizeConflict.mass ∧ t.normalizeConflict.conflict = 0 := by
  obtain ⟨h1, h2, h3, h4⟩ := h
  refine ⟨?_, ?_, ?_⟩
  · unfold TBM.normalize
    simp only
    split
    · exact dflt_isMass
    · rename_i hw
      have hw' : 0 < t.unknown + t.empty + t.occupied + t.conflict :=
        lt_of_le_of_ne (by positivity) (Ne.symm hw)
      rw [isMass_iff]
      refine ⟨div_nonneg h1 hw'.le, div_nonneg h2 hw'.le, div_nonneg h3 hw'.le, div_nonneg h4 hw'.le, ?_⟩
      field_simp
  · unfold TBM.normalizeConflict
    simp only
    split
    · exact dflt_isMass
    · rename_i hw
      have hw' : 0 < t.unknown + t.empty + t.occupied := lt_of_le_of_ne (by positivity) (Ne.symm hw)
      rw [isMass_iff]
      refine ⟨div_nonneg h1 hw'.le, div_nonneg h2 hw'.le, div_nonneg h3 hw'.le, le_rfl, ?_⟩
      field_simp; simp
  · unfold TBM.normalizeConflict
    simp only
    split <;> rfl

/-- C20: through any history of sane observations (invalid ones included) the belief of a cell of any kind is a
mass function without conflict. -/
theorem belief_stays_mass (k : Kind) (as : List (Aoo K)) (hs : SaneT as) :
    IsMass (TCell.run k as).belief.mass ∧ (TCell.run k as).belief.mass ∅ = 0 := by
  obtain ⟨h1, h2⟩ := run_isMass k as hs
  exact ⟨h1, by simpa [TBM.mass] using h2⟩

/-! ## C21 -/

/-- C21: the closed form of the belief: the (normalised) products of what every observation leaves plausible. -/
theorem belief_closed_form (k : Kind) (as : List (Aoo K)) (hs : SaneT as) (hc : ¬ Contradictory as) :
    0 < plOcc as + plEmpty as - ignorance as ∧
    (TCell.run k as).belief.mass {true, false} = ignorance as / (plOcc as + plEmpty as - ignorance as) ∧
    (TCell.run k as).belief.mass {true} = (plOcc as - ignorance as) / (plOcc as + plEmpty as - ignorance as) ∧
    (TCell.run k as).belief.mass {false}
      = (plEmpty as - ignorance as) / (plOcc as + plEmpty as - ignorance as) := by
  refine ⟨weight_pos as hs hc, ?_, ?_, ?_⟩ <;> rw [run_belief k as hs hc] <;> simp [TBM.mass]

theorem run_occ (k : Kind) (as : List (Aoo K)) :
    (TCell.run k as).occ = (if valids as = [] then (TCell.create k : TCell K).occ
      else toOcc k (TCell.run k as).belief) ∧
    ((TCell.run k as).unknown = true ↔ valids as = []) := by
  induction as using List.reverseRecOn with
  | nil => constructor <;> cases k <;> simp [valids, TCell.run, TCell.create]
  | append_singleton as a ih =>
    rw [run_append, valids_append]
    cases ho : a.occ with
    | none =>
      rw [valids_single_none a ho, List.append_nil]
      have : TCell.observe k (TCell.run k as) a = TCell.run k as := by simp [TCell.observe, ho]
      rw [this]; exact ih
    | some o =>
      rw [valids_single_some a o ho]
      simp [TCell.observe, ho]

/-- C21: without totally contradictory observations the whole cell (occupancy and belief) does not depend on the
order of the observations. -/
theorem belief_cell_order_independent (k : Kind) (as bs : List (Aoo K)) (h : as.Perm bs) (hs : SaneT as)
    (hc : ¬ Contradictory as) : TCell.run k as = TCell.run k bs := by
  have hs' : SaneT bs := fun a ha => hs a (h.mem_iff.2 ha)
  have hc' : ¬ Contradictory bs := fun ⟨⟨x, hx, h1⟩, ⟨y, hy, h2⟩⟩ =>
    hc ⟨⟨x, h.mem_iff.2 hx, h1⟩, ⟨y, h.mem_iff.2 hy, h2⟩⟩
  have hb : (TCell.run k as).belief = (TCell.run k bs).belief := by
    rw [run_belief k as hs hc, run_belief k bs hs' hc']
    have e1 : ignorance as = ignorance bs := (h.map _).prod_eq
    have e2 : plOcc as = plOcc bs := (h.map _).prod_eq
    have e3 : plEmpty as = plEmpty bs := (h.map _).prod_eq
    rw [e1, e2, e3]
  have hp := valids_perm h
  have hv : valids as = [] ↔ valids bs = [] :=
    ⟨fun e => by rw [e] at hp; exact hp.nil_eq.symm, fun e => by rw [e] at hp; exact hp.eq_nil⟩
  obtain ⟨a1, a2⟩ := run_occ k as
  obtain ⟨b1, b2⟩ := run_occ k bs
  have ho : (TCell.run k as).occ = (TCell.run k bs).occ := by
    rw [a1, b1, hb]; simp only [hv]
  have hu : (TCell.run k as).unknown = (TCell.run k bs).unknown := by
    have : (TCell.run k as).unknown = true ↔ (TCell.run k bs).unknown = true := by rw [a2, b2, hv]
    exact Bool.eq_iff_iff.2 this
  generalize TCell.run k as = A at *
  generalize TCell.run k bs = B at *
  cases A; cases B; simp_all

/-- C21 is about non-contradictory observations only: with contradictory ones the order matters in all kinds. -/
theorem contradictory_order_counterexample (k : Kind) :
    let occ : Aoo ℚ := ⟨true, some ⟨1, 1⟩, ⟨0, 0⟩, 1⟩
    let emp : Aoo ℚ := ⟨false, some ⟨0, 1⟩, ⟨0, 0⟩, 1⟩
    (TCell.run k [occ, emp, occ]).belief ≠ (TCell.run k [occ, occ, emp]).belief := by
  cases k <;> decide +kernel

/-- C21: the occupancy of an unknown-even or credibilist cell is always a probability. -/
theorem even_cell_occupancy (k : Kind) (hk : k ≠ .consistent) (as : List (Aoo K)) (hs : SaneT as) :
    ∃ o, (TCell.run k as).occ = some o ∧ Unit01 o.prob ∧ o.qual = 1 ∧
      o.prob = (TCell.run k as).belief.mass {true} + (TCell.run k as).belief.mass {true, false} / 2 := by
  obtain ⟨h1, h2⟩ := run_isMass k as hs
  obtain ⟨a1, a2, a3, a4, a5⟩ := (isMass_iff _).1 h1
  have key : (TCell.run k as).occ = some ⟨(TCell.run k as).belief.occupied
      + 1 / 2 * (TCell.run k as).belief.unknown, 1⟩ := by
    rw [(run_occ k as).1]
    split
    · rename_i hv
      have hb : (TCell.run k as) = TCell.create k := by
        clear h1 h2 a1 a2 a3 a4 a5 hs
        induction as using List.reverseRecOn with
        | nil => rfl
        | append_singleton as a ih =>
          rw [valids_append] at hv
          obtain ⟨v1, v2⟩ := List.append_eq_nil_iff.1 hv
          have ho : a.occ = none := by
            cases ho : a.occ with
            | none => rfl
            | some o => rw [valids_single_some a o ho] at v2; simp at v2
          rw [run_append]
          simp only [TCell.observe, ho]
          exact ih v1
      rw [hb]
      cases k <;> first | contradiction | simp [TCell.create, toOcc, TBM.dflt]
    · cases k <;> first | contradiction | rfl
  refine ⟨_, key, ⟨by simp only; positivity, ?_⟩, rfl, ?_⟩
  · simp only; linarith
  · simp [TBM.mass]; ring

/-- C21: the occupancy of a consistent cell is a probability with a quality in `(0,1]`, or it is invalid (NaN);
the latter happens exactly if the cell has been validly observed and there is no evidence left in its belief. -/
theorem consistent_cell_occupancy (as : List (Aoo K)) (hs : SaneT as) :
    (∀ o, (TCell.run .consistent as).occ = some o → Unit01 o.prob ∧ 0 < o.qual ∧ o.qual ≤ 1) ∧
    ((TCell.run .consistent as).occ = none ↔
      valids as ≠ [] ∧ (TCell.run .consistent as).belief.mass {true, false} = 1) := by
  obtain ⟨h1, h2⟩ := run_isMass .consistent as hs
  obtain ⟨a1, a2, a3, a4, a5⟩ := (isMass_iff _).1 h1
  have hm : (TCell.run .consistent as).belief.mass {true, false} = (TCell.run .consistent as).belief.unknown := by
    simp [TBM.mass]
  rw [hm]
  rw [(run_occ .consistent as).1]
  by_cases hv : valids as = []
  · rw [if_pos hv]
    refine ⟨fun o ho => ?_, ?_⟩
    · simp only [TCell.create, Option.some.injEq] at ho
      subst ho
      refine ⟨⟨?_, ?_⟩, ?_, ?_⟩ <;> norm_num
    · simp [TCell.create, hv]
  · rw [if_neg hv]
    generalize (TCell.run .consistent as).belief = b at *
    unfold toOcc
    simp only
    by_cases hq : b.occupied + b.empty = 0
    · rw [if_pos hq]
      exact ⟨fun o ho => by simp at ho, ⟨fun _ => ⟨hv, by linarith⟩, fun _ => rfl⟩⟩
    · rw [if_neg hq]
      have hpos : 0 < b.occupied + b.empty := lt_of_le_of_ne (by positivity) (Ne.symm hq)
      refine ⟨fun o ho => ?_, ⟨fun h => by simp at h, fun h => absurd (by linarith [h.2] : b.occupied + b.empty = 0) hq⟩⟩
      rw [← Option.some.inj ho]
      exact ⟨⟨div_nonneg a3 hpos.le, (div_le_one hpos).2 (by linarith)⟩, hpos, by simp only; linarith⟩

/-- The invalid case is reachable: one observation of zero quality makes the consistent cell's occupancy NaN. -/
theorem consistent_cell_nan_counterexample :
    (TCell.run .consistent [(⟨true, some ⟨1, 1⟩, ⟨0, 0⟩, 0⟩ : Aoo ℚ)]).occ = none := by decide +kernel

/-! ## C22 -/

/-- C22, plain/affine/mean cells: the discrepancy with a valid observation is within `[0,1]`, and is zero iff the
observed probability equals that of the cell. -/
theorem naive_discrepancy (p : Occ K) (u : Bool) (a : Aoo K) (o : Occ K) (n : K) (ho : a.occ = some o)
    (hp : Unit01 p.prob) (hq : Unit01 o.prob) :
    ∃ d, (BaseCell.mk (some p) u).discrepancy a = some d ∧ (AffineCell.mk p u).discrepancy a = some d ∧
      (MeanCell.mk p u n).discrepancy a = some d ∧ Unit01 d ∧ (d = 0 ↔ o.prob = p.prob) := by
  refine ⟨|p.prob - o.prob|, by simp [BaseCell.discrepancy, ho], by simp [AffineCell.discrepancy, ho],
    by simp [MeanCell.discrepancy, ho], ⟨abs_nonneg _, ?_⟩, ?_⟩
  · rw [abs_le]; obtain ⟨p0, p1⟩ := hp; obtain ⟨q0, q1⟩ := hq; constructor <;> linarith
  · rw [abs_eq_zero, sub_eq_zero]; exact eq_comm

/-- C22, belief cells: the discrepancy between any reachable cell and any sane observation is within `[0,1]`, and it
is zero iff both are certain and say the same. -/
theorem tbm_discrepancy_bounded (k : Kind) (as : List (Aoo K)) (hs : SaneT as) (a : Aoo K) (ha : SaneT [a]) :
    Unit01 (tbmDiscrepancy (TCell.run k as) a) ∧
    (tbmDiscrepancy (TCell.run k as) a = 0 ↔
      (CertainOcc a ∧ (TCell.run k as).belief.mass {true} = 1) ∨
      (CertainEmpty a ∧ (TCell.run k as).belief.mass {false} = 1)) := by
  obtain ⟨h1, hcf⟩ := run_isMass k as hs
  have ht := aoo_isMass ha (List.mem_singleton.2 rfl)
  obtain ⟨w1, w2, w3⟩ := sane_bounds ha (List.mem_singleton.2 rfl)
  have hcO : obsOcc a = 1 ↔ CertainOcc a := by
    constructor
    · intro h; exact certainOcc_of ha (List.mem_singleton.2 rfl) (by rw [h]; ring)
    · rintro ⟨o, e1, e2, e3⟩; simp [obsOcc, e1, e2, e3]
  have hcE : obsWeight a - obsOcc a = 1 ↔ CertainEmpty a := by
    constructor
    · intro h; exact certainEmpty_of ha (List.mem_singleton.2 rfl) (by rw [h]; ring)
    · rintro ⟨o, e1, e2, e3⟩; simp [obsOcc, obsWeight, e1, e2, e3]
  have hm1 : (TCell.run k as).belief.mass {true} = (TCell.run k as).belief.occupied := by simp [TBM.mass]
  have hm2 : (TCell.run k as).belief.mass {false} = (TCell.run k as).belief.empty := by simp [TBM.mass]
  rw [← hcO, ← hcE, hm1, hm2]
  unfold tbmDiscrepancy
  simp only
  rw [conj_eq _ _ ht.sum h1.sum]
  obtain ⟨a1, a2, a3, -, a5⟩ := (isMass_iff _).1 h1
  rw [aoo_eq]
  simp only
  rw [hcf] at a5 ⊢
  generalize (TCell.run k as).belief.unknown = u at *
  generalize (TCell.run k as).belief.empty = e at *
  generalize (TCell.run k as).belief.occupied = o at *
  generalize obsWeight a = w at *
  generalize obsOcc a = q at *
  simp only [mul_zero, zero_mul, zero_add, add_zero]
  have hc0 : 0 ≤ (w - q) * o + q * e := by
    have := mul_nonneg (sub_nonneg.2 w2) a3
    have := mul_nonneg w1 a2
    linarith
  have hc1 : (w - q) * o + q * e ≤ 1 := by nlinarith
  have hd0 := abs_nonneg (q - o)
  have hd1 : |q - o| ≤ 1 := by rw [abs_le]; constructor <;> linarith
  have hx0 : 0 ≤ (1 - w + u) / 2 := by linarith
  have hx1 : (1 - w + u) / 2 ≤ 1 := by linarith
  generalize hx : (1 - w + u) / 2 = x at *
  generalize hcv : (w - q) * o + q * e = c at *
  generalize hdv : |q - o| = d at *
  have hk0 : 0 ≤ (1 - x) * (c + d) / 2 := by
    have := mul_nonneg (sub_nonneg.2 hx1) (add_nonneg hc0 hd0); linarith
  refine ⟨⟨by linarith, ?_⟩, ?_, ?_⟩
  · have : (1 - x) * (c + d) ≤ (1 - x) * 2 := mul_le_mul_of_nonneg_left (by linarith) (by linarith)
    linarith
  · intro h
    have hx00 : x = 0 := by linarith
    subst hx00
    have hw : w = 1 := by linarith
    have hu : u = 0 := by linarith
    subst hw hu
    have : c + d = 0 := by linarith
    have hc00 : c = 0 := by linarith
    have hd00 : d = 0 := by linarith
    subst hc00 hd00
    have hqo : q = o := by
      have := abs_eq_zero.1 hdv; linarith
    subst hqo
    have he : e = 1 - q := by linarith
    subst he
    have : q * (1 - q) = 0 := by linarith
    rcases mul_eq_zero.1 this with h0 | h0
    · right; exact ⟨by linarith, by linarith⟩
    · left; exact ⟨by linarith, by linarith⟩
  · rintro (⟨h1, h2⟩ | ⟨h1, h2⟩)
    · have hw : w = 1 := by linarith
      have hu : u = 0 := by linarith
      have he : e = 0 := by linarith
      subst hw hu he h1 h2
      have hx00 : x = 0 := by linarith
      have hc00 : c = 0 := by linarith
      have hd00 : d = 0 := by rw [← hdv]; simp
      rw [hx00, hc00, hd00]; simp
    · have hw : w = 1 := by linarith
      have hu : u = 0 := by linarith
      have ho : o = 0 := by linarith
      have hq : q = 0 := by linarith
      subst hw hu ho hq h2
      have hx00 : x = 0 := by linarith
      have hc00 : c = 0 := by linarith
      have hd00 : d = 0 := by rw [← hdv]; simp
      rw [hx00, hc00, hd00]; simp

/-- C22, belief cells, upper end and middle of the scale: the discrepancy is one exactly when the cell and the
observation are certain and contradict each other, and it is one half when neither of them says anything. -/
theorem tbm_discrepancy_scale (k : Kind) (as : List (Aoo K)) (hs : SaneT as) (a : Aoo K) (ha : SaneT [a]) :
    (tbmDiscrepancy (TCell.run k as) a = 1 ↔
      (CertainOcc a ∧ (TCell.run k as).belief.mass {false} = 1) ∨
      (CertainEmpty a ∧ (TCell.run k as).belief.mass {true} = 1)) ∧
    (obsWeight a = 0 → (TCell.run k as).belief.mass {true, false} = 1 →
      tbmDiscrepancy (TCell.run k as) a = 1 / 2) := by
  obtain ⟨h1, hcf⟩ := run_isMass k as hs
  have ht := aoo_isMass ha (List.mem_singleton.2 rfl)
  obtain ⟨w1, w2, w3⟩ := sane_bounds ha (List.mem_singleton.2 rfl)
  have hcO : obsOcc a = 1 ↔ CertainOcc a := by
    constructor
    · intro h; exact certainOcc_of ha (List.mem_singleton.2 rfl) (by rw [h]; ring)
    · rintro ⟨o, e1, e2, e3⟩; simp [obsOcc, e1, e2, e3]
  have hcE : obsWeight a - obsOcc a = 1 ↔ CertainEmpty a := by
    constructor
    · intro h; exact certainEmpty_of ha (List.mem_singleton.2 rfl) (by rw [h]; ring)
    · rintro ⟨o, e1, e2, e3⟩; simp [obsOcc, obsWeight, e1, e2, e3]
  have hm1 : (TCell.run k as).belief.mass {true} = (TCell.run k as).belief.occupied := by simp [TBM.mass]
  have hm2 : (TCell.run k as).belief.mass {false} = (TCell.run k as).belief.empty := by simp [TBM.mass]
  have hm3 : (TCell.run k as).belief.mass {true, false} = (TCell.run k as).belief.unknown := by simp [TBM.mass]
  rw [← hcO, ← hcE, hm1, hm2, hm3]
  unfold tbmDiscrepancy
  simp only
  rw [conj_eq _ _ ht.sum h1.sum]
  obtain ⟨a1, a2, a3, -, a5⟩ := (isMass_iff _).1 h1
  rw [aoo_eq]
  simp only
  rw [hcf] at a5 ⊢
  generalize (TCell.run k as).belief.unknown = u at *
  generalize (TCell.run k as).belief.empty = e at *
  generalize (TCell.run k as).belief.occupied = o at *
  generalize obsWeight a = w at *
  generalize obsOcc a = q at *
  simp only [mul_zero, zero_mul, zero_add, add_zero]
  refine ⟨⟨fun h => ?_, ?_⟩, ?_⟩
  · have hc1 : (w - q) * o + q * e ≤ 1 := by nlinarith
    have hd1 : |q - o| ≤ 1 := by rw [abs_le]; constructor <;> linarith
    have hx0 : 0 ≤ (1 - w + u) / 2 := by linarith
    have hx1 : (1 - w + u) / 2 ≤ 1 := by linarith
    generalize hx : (1 - w + u) / 2 = x at *
    generalize hcv : (w - q) * o + q * e = c at *
    generalize hdv : |q - o| = d at *
    have : (1 - x) * (c + d) ≤ (1 - x) * 2 := mul_le_mul_of_nonneg_left (by linarith) (by linarith)
    have hx00 : x = 0 := by linarith
    subst hx00
    have hd00 : d = 1 := by linarith
    subst hd00
    rcases abs_eq (zero_le_one) |>.1 hdv with h | h
    · left; exact ⟨by linarith, by linarith⟩
    · right; exact ⟨by linarith, by linarith⟩
  · rintro (⟨h1, h2⟩ | ⟨h1, h2⟩)
    · obtain rfl : w = 1 := by linarith
      obtain rfl : u = 0 := by linarith
      obtain rfl : o = 0 := by linarith
      subst h1 h2; norm_num
    · obtain rfl : w = 1 := by linarith
      obtain rfl : u = 0 := by linarith
      obtain rfl : e = 0 := by linarith
      obtain rfl : q = 0 := by linarith
      obtain rfl : o = 1 := by linarith
      norm_num
  · intro hw hu
    obtain rfl : q = 0 := by linarith
    obtain rfl : o = 0 := by linarith
    subst hw hu
    norm_num

example : (tbmDiscrepancy (TCell.run .consistent [(⟨true, some ⟨0, 1⟩, ⟨0, 0⟩, 1⟩ : Aoo ℚ)])
    ⟨true, some ⟨1, 1⟩, ⟨0, 0⟩, 1⟩ = 1) ∧
    (tbmDiscrepancy (TCell.run .consistent ([] : List (Aoo ℚ))) ⟨true, none, ⟨0, 0⟩, 1⟩ = 1 / 2) := by
  decide +kernel

/-- C22, credibilist cells: within `[0,1]`; zero only when both are certain of "occupied". -/
theorem credibilist_discrepancy_bounded (k : Kind) (as : List (Aoo K)) (hs : SaneT as) (a : Aoo K)
    (ha : SaneT [a]) :
    Unit01 (credDiscrepancy (TCell.run k as) a) ∧
    credDiscrepancy (TCell.run k as) a = 1 - obsOcc a * (TCell.run k as).belief.mass {true} := by
  obtain ⟨h1, hcf⟩ := run_isMass k as hs
  have ht := aoo_isMass ha (List.mem_singleton.2 rfl)
  have hd := disj_isMass ht h1
  obtain ⟨b1, b2, b3, b4, b5⟩ := (isMass_iff _).1 hd
  refine ⟨⟨?_, ?_⟩, ?_⟩
  · unfold credDiscrepancy; linarith
  · unfold credDiscrepancy; linarith
  · unfold credDiscrepancy
    rw [disj_eq _ _ ht.sum h1.sum, aoo_eq, hcf]
    simp [TBM.mass]

/-- C22, credibilist cells: the discrepancy is zero exactly if the observation and the cell are both certain of
"occupied". -/
theorem credibilist_zero_iff (k : Kind) (as : List (Aoo K)) (hs : SaneT as) (a : Aoo K) (ha : SaneT [a]) :
    credDiscrepancy (TCell.run k as) a = 0 ↔ CertainOcc a ∧ (TCell.run k as).belief.mass {true} = 1 := by
  obtain ⟨-, he⟩ := credibilist_discrepancy_bounded k as hs a ha
  obtain ⟨h1, -⟩ := run_isMass k as hs
  have ht := aoo_isMass ha (List.mem_singleton.2 rfl)
  rw [aoo_eq] at ht
  obtain ⟨a1, a2, a3, a4, a5⟩ := (isMass_iff _).1 h1
  obtain ⟨b1, b2, b3, b4, b5⟩ := (isMass_iff _).1 ht
  simp only at b1 b2 b3 b5
  have hm : (TCell.run k as).belief.mass {true} = (TCell.run k as).belief.occupied := by simp [TBM.mass]
  rw [he, hm]
  have key : 1 - obsOcc a * (TCell.run k as).belief.occupied = 0 ↔
      obsOcc a = 1 ∧ (TCell.run k as).belief.occupied = 1 := by
    constructor
    · intro h
      have h2 : obsOcc a ≤ 1 := by linarith
      have h3 : (TCell.run k as).belief.occupied ≤ 1 := by linarith
      have h4 := mul_nonneg b3 (sub_nonneg.2 h3)
      have h5 := mul_nonneg a3 (sub_nonneg.2 h2)
      constructor <;> linarith
    · rintro ⟨h, h'⟩; rw [h, h']; ring
  rw [key]
  apply and_congr_left
  intro _
  unfold obsOcc CertainOcc
  cases h : a.occ with
  | none => simp
  | some o =>
    obtain ⟨⟨p1, p2⟩, ⟨q1, q2⟩, ⟨r1, r2⟩⟩ := ha a (List.mem_singleton.2 rfl) o h
    simp only [Option.some.injEq, exists_eq_left']
    constructor
    · intro e
      have w1 : 0 ≤ o.qual * a.quality := mul_nonneg q1 r1
      have w2 : o.qual * a.quality ≤ 1 := by nlinarith
      have := mul_nonneg w1 (sub_nonneg.2 p2)
      have := mul_nonneg p1 (sub_nonneg.2 w2)
      constructor <;> linarith
    · rintro ⟨e, e'⟩; rw [e, e']; ring

example :
    let occ : Aoo ℚ := ⟨true, some ⟨1, 1⟩, ⟨0, 0⟩, 1⟩
    SaneT [occ] ∧ CertainOcc occ ∧ (TCell.run .credibilist [occ]).belief.mass {true} = 1 ∧
      credDiscrepancy (TCell.run .credibilist [occ]) occ = 0 := by
  refine ⟨?_, ⟨⟨1, 1⟩, rfl, rfl, by norm_num⟩, by decide +kernel, by decide +kernel⟩
  intro a ha o ho
  simp only [List.mem_singleton] at ha
  subst ha
  simp only [Option.some.injEq] at ho
  subst ho
  refine ⟨⟨?_, ?_⟩, ⟨?_, ?_⟩, ⟨?_, ?_⟩⟩ <;> norm_num

/-- C22 fails in its second half for credibilist cells: a cell that is certainly empty has the *maximal*
discrepancy with a certain observation of emptiness. -/
theorem credibilist_agreement_counterexample :
    let emp : Aoo ℚ := ⟨false, some ⟨0, 1⟩, ⟨0, 0⟩, 1⟩
    (TCell.run .credibilist [emp]).belief.mass {false} = 1 ∧
    credDiscrepancy (TCell.run .credibilist [emp]) emp = 1 := by decide +kernel

/-- `GmappingBaseCell::discrepancy`, src/slams/gmapping/gmapping_grid_cell.h:35-38 (`DIST_VARIANCE`: line 12),
over the reals. -/
noncomputable def gmDiscrepancy (c : GmCell ℝ) (a : Aoo ℝ) : ℝ :=
  1 - Real.exp (-(distSq c.obst a.obst) / (5 / 100))

/-- C22, GMapping cells: within `[0,1)`, zero exactly if the observed obstacle is at the mean obstacle position, and
monotone in the distance between them. -/
theorem gm_discrepancy_bounded (c : GmCell ℝ) (a b : Aoo ℝ) :
    0 ≤ gmDiscrepancy c a ∧ gmDiscrepancy c a < 1 ∧ (gmDiscrepancy c a = 0 ↔ a.obst = c.obst) ∧
    (gmDiscrepancy c a ≤ gmDiscrepancy c b ↔
      (c.obst.x - a.obst.x) ^ 2 + (c.obst.y - a.obst.y) ^ 2 ≤ (c.obst.x - b.obst.x) ^ 2 + (c.obst.y - b.obst.y) ^ 2) ∧
    gmDiscrepancy c a = 1 - Real.exp (-20 * ((c.obst.x - a.obst.x) ^ 2 + (c.obst.y - a.obst.y) ^ 2)) := by
  have hd : 0 ≤ distSq c.obst a.obst := by unfold distSq; positivity
  unfold gmDiscrepancy
  refine ⟨?_, ?_, ?_, ?_, ?_⟩
  · have : Real.exp (-(distSq c.obst a.obst) / (5 / 100)) ≤ 1 :=
      Real.exp_le_one_iff.2 (div_nonpos_of_nonpos_of_nonneg (by linarith) (by norm_num))
    linarith
  · have := Real.exp_pos (-(distSq c.obst a.obst) / (5 / 100)); linarith
  · rw [sub_eq_zero, eq_comm, Real.exp_eq_one_iff]
    constructor
    · intro h
      have h0 : distSq c.obst a.obst = 0 := by
        have : -(distSq c.obst a.obst) = 0 := by
          rcases div_eq_zero_iff.1 h with h | h
          · exact h
          · norm_num at h
        linarith
      unfold distSq at h0
      have e1 : (c.obst.x - a.obst.x) ^ 2 = 0 := by nlinarith [sq_nonneg (c.obst.x - a.obst.x), sq_nonneg (c.obst.y - a.obst.y)]
      have e2 : (c.obst.y - a.obst.y) ^ 2 = 0 := by nlinarith [sq_nonneg (c.obst.x - a.obst.x), sq_nonneg (c.obst.y - a.obst.y)]
      have f1 := pow_eq_zero_iff (two_ne_zero) |>.1 e1
      have f2 := pow_eq_zero_iff (two_ne_zero) |>.1 e2
      cases ha : a.obst; cases hc : c.obst
      rw [ha, hc] at f1 f2
      simp only at f1 f2
      congr 1 <;> linarith
    · intro h; rw [h]; simp [distSq]
  · rw [sub_le_sub_iff_left, Real.exp_le_exp, div_le_div_iff_of_pos_right (by norm_num)]
    unfold distSq
    constructor <;> intro h <;> linarith
  · congr 2
    unfold distSq
    ring

/-- Non-vacuity/test: a history with invalid and partial observations satisfies the hypotheses. -/
theorem demoObs_saneT : SaneT demoObs := by
  intro a ha o ho
  simp only [demoObs, List.mem_cons, List.not_mem_nil, or_false] at ha
  unfold Unit01
  rcases ha with rfl | rfl | rfl | rfl <;> simp only [Option.some.injEq, reduceCtorEq] at ho
  all_goals subst ho; norm_num

theorem demoObs_noncontradictory : ¬ Contradictory demoObs := by
  rintro ⟨⟨a, ha, o, h1, h2, h3⟩, -⟩
  simp only [demoObs, List.mem_cons, List.not_mem_nil, or_false] at ha
  rcases ha with rfl | rfl | rfl | rfl <;> simp only [Option.some.injEq, reduceCtorEq] at h1
  all_goals subst h1; norm_num at h2

example : TCell.run .unknownEven demoObs = TCell.run .unknownEven demoObs.reverse :=
  belief_cell_order_independent _ _ _ (List.reverse_perm _).symm demoObs_saneT demoObs_noncontradictory

end Slam.Tbm
