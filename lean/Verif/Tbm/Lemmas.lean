import Verif.Tbm.Spec
import Mathlib.Tactic.FieldSimp
import Mathlib.Tactic.Ring
import Mathlib.Tactic.Linarith
import Mathlib.Tactic.Positivity
import Mathlib.Algebra.Order.BigOperators.GroupWithZero.List

/-! # Lemmas about the belief masses -/

set_option autoImplicit false
set_option linter.unusedSectionVars false

namespace Slam.Tbm
open Slam.Grid Slam.Cells
variable {K : Type*} [Field K] [LinearOrder K] [IsStrictOrderedRing K]

theorem TBM.ext' {a b : TBM K} (h1 : a.unknown = b.unknown) (h2 : a.empty = b.empty)
    (h3 : a.occupied = b.occupied) (h4 : a.conflict = b.conflict) : a = b := by
  cases a; cases b; simp_all

theorem range4 : List.range 4 = [0, 1, 2, 3] := rfl

/-- The raw result of the conjunctive loop. -/
theorem acc_or (l r : TBM K) :
    accumulate (fun i j => i ||| j) l r 0 = l.unknown * r.unknown ∧
    accumulate (fun i j => i ||| j) l r 1 = l.unknown * r.empty + l.empty * r.unknown + l.empty * r.empty ∧
    accumulate (fun i j => i ||| j) l r 2
      = l.unknown * r.occupied + l.occupied * r.unknown + l.occupied * r.occupied ∧
    accumulate (fun i j => i ||| j) l r 3
      = l.unknown * r.conflict + l.empty * r.occupied + l.empty * r.conflict + l.occupied * r.empty
        + l.occupied * r.conflict + l.conflict * r.unknown + l.conflict * r.empty
        + l.conflict * r.occupied + l.conflict * r.conflict := by
  unfold accumulate
  rw [range4]
  simp [TBM.get]

/-- The raw result of the disjunctive loop. -/
theorem acc_and (l r : TBM K) :
    accumulate (fun i j => i &&& j) l r 0
      = l.unknown * r.unknown + l.unknown * r.empty + l.unknown * r.occupied + l.unknown * r.conflict
        + l.empty * r.unknown + l.empty * r.occupied + l.occupied * r.unknown + l.occupied * r.empty
        + l.conflict * r.unknown ∧
    accumulate (fun i j => i &&& j) l r 1 = l.empty * r.empty + l.empty * r.conflict + l.conflict * r.empty ∧
    accumulate (fun i j => i &&& j) l r 2
      = l.occupied * r.occupied + l.occupied * r.conflict + l.conflict * r.occupied ∧
    accumulate (fun i j => i &&& j) l r 3 = l.conflict * r.conflict := by
  unfold accumulate
  rw [range4]
  simp [TBM.get]

theorem univ4 : (Finset.univ : Finset (Finset Bool)) = {∅, {true}, {false}, {true, false}} := by decide

theorem sum4 (f : Finset Bool → K) :
    ∑ s, f s = f ∅ + f {true} + f {false} + f {true, false} := by
  rw [univ4, Finset.sum_insert (by decide), Finset.sum_insert (by decide), Finset.sum_insert (by decide),
    Finset.sum_singleton]
  ring

theorem isMass_iff (t : TBM K) :
    IsMass t.mass ↔ 0 ≤ t.unknown ∧ 0 ≤ t.empty ∧ 0 ≤ t.occupied ∧ 0 ≤ t.conflict ∧
      t.unknown + t.empty + t.occupied + t.conflict = 1 := by
  unfold IsMass
  rw [sum4]
  constructor
  · rintro ⟨h, hs⟩
    refine ⟨h {true, false}, h {false}, h {true}, h ∅, ?_⟩
    rw [← hs]
    simp [TBM.mass]
    ring
  · rintro ⟨h1, h2, h3, h4, h5⟩
    refine ⟨fun s => ?_, ?_⟩
    · unfold TBM.mass; split <;> split <;> assumption
    · rw [← h5]; simp [TBM.mass]; ring

theorem normalize_of_sum_one (t : TBM K) (h : t.unknown + t.empty + t.occupied + t.conflict = 1) :
    t.normalize = t := by
  unfold TBM.normalize
  simp only [h]
  rw [if_neg one_ne_zero]
  simp

theorem conj_eq (l r : TBM K) (hl : l.unknown + l.empty + l.occupied + l.conflict = 1)
    (hr : r.unknown + r.empty + r.occupied + r.conflict = 1) :
    conjunctive l r =
      ⟨l.unknown * r.unknown, l.unknown * r.empty + l.empty * r.unknown + l.empty * r.empty,
       l.unknown * r.occupied + l.occupied * r.unknown + l.occupied * r.occupied,
       l.unknown * r.conflict + l.empty * r.occupied + l.empty * r.conflict + l.occupied * r.empty
        + l.occupied * r.conflict + l.conflict * r.unknown + l.conflict * r.empty
        + l.conflict * r.occupied + l.conflict * r.conflict⟩ := by
  obtain ⟨e0, e1, e2, e3⟩ := acc_or l r
  unfold conjunctive
  simp only [e0, e1, e2, e3]
  apply normalize_of_sum_one
  calc _ = (l.unknown + l.empty + l.occupied + l.conflict) * (r.unknown + r.empty + r.occupied + r.conflict) := by
        ring
    _ = 1 := by rw [hl, hr, one_mul]

theorem disj_eq (l r : TBM K) (hl : l.unknown + l.empty + l.occupied + l.conflict = 1)
    (hr : r.unknown + r.empty + r.occupied + r.conflict = 1) :
    disjunctive l r =
      ⟨l.unknown * r.unknown + l.unknown * r.empty + l.unknown * r.occupied + l.unknown * r.conflict
        + l.empty * r.unknown + l.empty * r.occupied + l.occupied * r.unknown + l.occupied * r.empty
        + l.conflict * r.unknown,
       l.empty * r.empty + l.empty * r.conflict + l.conflict * r.empty,
       l.occupied * r.occupied + l.occupied * r.conflict + l.conflict * r.occupied,
       l.conflict * r.conflict⟩ := by
  obtain ⟨e0, e1, e2, e3⟩ := acc_and l r
  unfold disjunctive
  simp only [e0, e1, e2, e3]
  apply normalize_of_sum_one
  calc _ = (l.unknown + l.empty + l.occupied + l.conflict) * (r.unknown + r.empty + r.occupied + r.conflict) := by
        ring
    _ = 1 := by rw [hl, hr, one_mul]

theorem IsMass.sum {t : TBM K} (h : IsMass t.mass) : t.unknown + t.empty + t.occupied + t.conflict = 1 :=
  ((isMass_iff t).1 h).2.2.2.2

theorem conj_isMass {l r : TBM K} (hl : IsMass l.mass) (hr : IsMass r.mass) : IsMass (conjunctive l r).mass := by
  rw [conj_eq l r hl.sum hr.sum, isMass_iff]
  obtain ⟨a1, a2, a3, a4, a5⟩ := (isMass_iff l).1 hl
  obtain ⟨b1, b2, b3, b4, b5⟩ := (isMass_iff r).1 hr
  refine ⟨by positivity, by positivity, by positivity, by positivity, ?_⟩
  calc _ = (l.unknown + l.empty + l.occupied + l.conflict) * (r.unknown + r.empty + r.occupied + r.conflict) := by
        ring
    _ = 1 := by rw [a5, b5, one_mul]

theorem disj_isMass {l r : TBM K} (hl : IsMass l.mass) (hr : IsMass r.mass) : IsMass (disjunctive l r).mass := by
  rw [disj_eq l r hl.sum hr.sum, isMass_iff]
  obtain ⟨a1, a2, a3, a4, a5⟩ := (isMass_iff l).1 hl
  obtain ⟨b1, b2, b3, b4, b5⟩ := (isMass_iff r).1 hr
  refine ⟨by positivity, by positivity, by positivity, by positivity, ?_⟩
  calc _ = (l.unknown + l.empty + l.occupied + l.conflict) * (r.unknown + r.empty + r.occupied + r.conflict) := by
        ring
    _ = 1 := by rw [a5, b5, one_mul]

theorem dflt_isMass : IsMass (TBM.dflt : TBM K).mass := by
  rw [isMass_iff]; simp [TBM.dflt]

theorem normalizeConflict_isMass {t : TBM K} (h : IsMass t.mass) :
    IsMass t.normalizeConflict.mass ∧ t.normalizeConflict.conflict = 0 := by
  obtain ⟨a1, a2, a3, a4, a5⟩ := (isMass_iff t).1 h
  unfold TBM.normalizeConflict
  simp only
  split
  · exact ⟨dflt_isMass, rfl⟩
  · rename_i hw
    have hw' : 0 < t.unknown + t.empty + t.occupied := lt_of_le_of_ne (by positivity) (Ne.symm hw)
    refine ⟨?_, rfl⟩
    rw [isMass_iff]
    refine ⟨div_nonneg a1 hw'.le, div_nonneg a2 hw'.le, div_nonneg a3 hw'.le, le_rfl, ?_⟩
    field_simp
    simp

theorem aoo_eq (a : Aoo K) :
    aooToTbm a = ⟨1 - obsWeight a, obsWeight a - obsOcc a, obsOcc a, 0⟩ := by
  unfold aooToTbm obsWeight obsOcc
  cases h : a.occ with
  | none => simp [TBM.dflt]
  | some o => refine TBM.ext' ?_ ?_ rfl rfl <;> simp only <;> ring

/-- Bounds of the weights of sane observations. -/
theorem sane_bounds {as : List (Aoo K)} (hs : SaneT as) {a : Aoo K} (ha : a ∈ as) :
    0 ≤ obsOcc a ∧ obsOcc a ≤ obsWeight a ∧ obsWeight a ≤ 1 := by
  unfold obsOcc obsWeight
  cases h : a.occ with
  | none => simp
  | some o =>
    obtain ⟨⟨p0, p1⟩, ⟨e0, e1⟩, ⟨q0, q1⟩⟩ := hs a ha o h
    have hw : 0 ≤ o.qual * a.quality := mul_nonneg e0 q0
    refine ⟨mul_nonneg p0 hw, ?_, mul_le_one₀ e1 q0 q1⟩
    exact mul_le_of_le_one_left hw p1

theorem aoo_isMass {as : List (Aoo K)} (hs : SaneT as) {a : Aoo K} (ha : a ∈ as) : IsMass (aooToTbm a).mass := by
  obtain ⟨h1, h2, h3⟩ := sane_bounds hs ha
  rw [aoo_eq, isMass_iff]
  refine ⟨by linarith, by linarith, h1, le_rfl, by ring⟩

theorem certainEmpty_of {as : List (Aoo K)} (hs : SaneT as) {a : Aoo K} (ha : a ∈ as)
    (h : 1 - (obsWeight a - obsOcc a) = 0) : CertainEmpty a := by
  unfold obsOcc obsWeight at h
  cases ho : a.occ with
  | none => rw [ho] at h; simp at h
  | some o =>
    rw [ho] at h
    simp only at h
    obtain ⟨⟨p0, p1⟩, ⟨e0, e1⟩, ⟨q0, q1⟩⟩ := hs a ha o ho
    have hw1 : o.qual * a.quality ≤ 1 := mul_le_one₀ e1 q0 q1
    have hw : 0 ≤ o.qual * a.quality := mul_nonneg e0 q0
    have hp := mul_nonneg p0 hw
    have e : o.qual * a.quality = 1 := le_antisymm hw1 (by linarith)
    refine ⟨o, ho, ?_, e⟩
    rw [e] at h; linarith

theorem certainOcc_of {as : List (Aoo K)} (hs : SaneT as) {a : Aoo K} (ha : a ∈ as)
    (h : 1 - obsOcc a = 0) : CertainOcc a := by
  unfold obsOcc at h
  cases ho : a.occ with
  | none => rw [ho] at h; simp at h
  | some o =>
    rw [ho] at h
    simp only at h
    obtain ⟨⟨p0, p1⟩, ⟨e0, e1⟩, ⟨q0, q1⟩⟩ := hs a ha o ho
    have hw1 : o.qual * a.quality ≤ 1 := mul_le_one₀ e1 q0 q1
    have hw : 0 ≤ o.qual * a.quality := mul_nonneg e0 q0
    have hp : o.prob * (o.qual * a.quality) ≤ o.qual * a.quality := mul_le_of_le_one_left hw p1
    have e : o.qual * a.quality = 1 := le_antisymm hw1 (by linarith)
    refine ⟨o, ho, ?_, e⟩
    rw [e] at h; linarith

theorem pl_bounds (as : List (Aoo K)) (hs : SaneT as) :
    0 ≤ ignorance as ∧ ignorance as ≤ plOcc as ∧ ignorance as ≤ plEmpty as ∧
    (plOcc as = 0 → ∃ a ∈ as, CertainEmpty a) ∧ (plEmpty as = 0 → ∃ a ∈ as, CertainOcc a) := by
  have key : ∀ bs : List (Aoo K), (∀ a ∈ bs, a ∈ as) →
      0 ≤ ignorance bs ∧ ignorance bs ≤ plOcc bs ∧ ignorance bs ≤ plEmpty bs ∧
      (plOcc bs = 0 → ∃ a ∈ bs, CertainEmpty a) ∧ (plEmpty bs = 0 → ∃ a ∈ bs, CertainOcc a) := by
    intro bs
    induction bs with
    | nil => intro _; simp [ignorance, plOcc, plEmpty]
    | cons a bs ih =>
      intro hb
      obtain ⟨i1, i2, i3, i4, i5⟩ := ih (fun x hx => hb x (List.mem_cons_of_mem _ hx))
      have ha := hb a (List.mem_cons_self ..)
      obtain ⟨b1, b2, b3⟩ := sane_bounds hs ha
      have e1 : ignorance (a :: bs) = (1 - obsWeight a) * ignorance bs := by simp [ignorance]
      have e2 : plOcc (a :: bs) = (1 - (obsWeight a - obsOcc a)) * plOcc bs := by simp [plOcc]
      have e3 : plEmpty (a :: bs) = (1 - obsOcc a) * plEmpty bs := by simp [plEmpty]
      rw [e1, e2, e3]
      refine ⟨mul_nonneg (by linarith) i1, mul_le_mul (by linarith) i2 i1 (by linarith),
        mul_le_mul (by linarith) i3 i1 (by linarith), fun h => ?_, fun h => ?_⟩
      · rcases mul_eq_zero.1 h with h | h
        · exact ⟨a, List.mem_cons_self .., certainEmpty_of hs ha h⟩
        · obtain ⟨x, hx, hc⟩ := i4 h; exact ⟨x, List.mem_cons_of_mem _ hx, hc⟩
      · rcases mul_eq_zero.1 h with h | h
        · exact ⟨a, List.mem_cons_self .., certainOcc_of hs ha h⟩
        · obtain ⟨x, hx, hc⟩ := i5 h; exact ⟨x, List.mem_cons_of_mem _ hx, hc⟩
  exact key as (fun a ha => ha)

theorem weight_pos (as : List (Aoo K)) (hs : SaneT as) (hc : ¬ Contradictory as) :
    0 < plOcc as + plEmpty as - ignorance as := by
  obtain ⟨h1, h2, h3, h4, h5⟩ := pl_bounds as hs
  by_contra hn
  have e1 : plOcc as = 0 := by linarith
  have e2 : plEmpty as = 0 := by linarith
  exact hc ⟨h5 e2, h4 e1⟩

theorem run_append (k : Kind) (as : List (Aoo K)) (a : Aoo K) :
    TCell.run k (as ++ [a]) = TCell.observe k (TCell.run k as) a := by
  simp [TCell.run]

/-- Reachable beliefs are conflict-free mass functions. -/
theorem run_isMass (k : Kind) (as : List (Aoo K)) (hs : SaneT as) :
    IsMass (TCell.run k as).belief.mass ∧ (TCell.run k as).belief.conflict = 0 := by
  induction as using List.reverseRecOn with
  | nil => cases k <;> exact ⟨dflt_isMass, rfl⟩
  | append_singleton as a ih =>
    rw [run_append]
    obtain ⟨i1, i2⟩ := ih (fun x hx => hs x (by simp [hx]))
    unfold TCell.observe
    cases ho : a.occ with
    | none => exact ⟨i1, i2⟩
    | some o => exact normalizeConflict_isMass (conj_isMass i1 (aoo_isMass hs (by simp)))

/-- The closed form of the belief. -/
theorem run_belief (k : Kind) (as : List (Aoo K)) (hs : SaneT as) (hc : ¬ Contradictory as) :
    (TCell.run k as).belief =
      ⟨ignorance as / (plOcc as + plEmpty as - ignorance as),
       (plEmpty as - ignorance as) / (plOcc as + plEmpty as - ignorance as),
       (plOcc as - ignorance as) / (plOcc as + plEmpty as - ignorance as), 0⟩ := by
  induction as using List.reverseRecOn with
  | nil => cases k <;> simp [TCell.run, TCell.create, TBM.dflt, ignorance, plOcc, plEmpty]
  | append_singleton as a ih =>
    have hs' : SaneT as := fun x hx => hs x (by simp [hx])
    have hc' : ¬ Contradictory as := fun ⟨⟨x, hx, h1⟩, ⟨y, hy, h2⟩⟩ =>
      hc ⟨⟨x, by simp [hx], h1⟩, ⟨y, by simp [hy], h2⟩⟩
    have hW := weight_pos as hs' hc'
    have hW' := weight_pos _ hs hc
    have ihb := ih hs' hc'
    rw [run_append]
    have e1 : ignorance (as ++ [a]) = ignorance as * (1 - obsWeight a) := by simp [ignorance]
    have e2 : plOcc (as ++ [a]) = plOcc as * (1 - (obsWeight a - obsOcc a)) := by simp [plOcc]
    have e3 : plEmpty (as ++ [a]) = plEmpty as * (1 - obsOcc a) := by simp [plEmpty]
    rw [e1, e2, e3] at hW' ⊢
    have hocc : ∀ o, a.occ = some o → (TCell.observe k (TCell.run k as) a).belief
        = (conjunctive (TCell.run k as).belief (aooToTbm a)).normalizeConflict := by
      intro o h; simp [TCell.observe, h]
    cases ho : a.occ with
    | none =>
      have : TCell.observe k (TCell.run k as) a = TCell.run k as := by simp [TCell.observe, ho]
      rw [this, ihb]
      simp [obsWeight, obsOcc, ho]
    | some o =>
      rw [hocc o ho]
      obtain ⟨m1, m2⟩ := run_isMass k as hs'
      rw [conj_eq _ _ m1.sum (aoo_isMass hs (by simp)).sum, ihb, aoo_eq]
      generalize plOcc as = PO at *
      generalize plEmpty as = PE at *
      generalize ignorance as = U at *
      generalize obsWeight a = w at *
      generalize obsOcc a = q at *
      set W := PO + PE - U with hWdef
      set W' := PO * (1 - (w - q)) + PE * (1 - q) - U * (1 - w) with hWd'
      unfold TBM.normalizeConflict
      simp only
      have hsum : U / W * (1 - w) + (U / W * (w - q) + (PE - U) / W * (1 - w) + (PE - U) / W * (w - q))
          + (U / W * q + (PO - U) / W * (1 - w) + (PO - U) / W * q) = W' / W := by
        rw [hWd']; field_simp; ring
      rw [hsum, if_neg (div_pos hW' hW).ne']
      have hWne := hW.ne'
      have hWne' := hW'.ne'
      apply TBM.ext' <;> simp only <;> field_simp <;> ring

end Slam.Tbm
