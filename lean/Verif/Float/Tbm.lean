import Verif.Float.Weights
import Verif.Tbm.Spec

/-!
# Belief masses, computed in `double`

`src/core/maps/transferable_belief_model.h`, `src/core/maps/tbm_grid_cells.h`,
`src/slams/credibilist/TBM_prob_conversion.h` and `grid_cell.h` again, every arithmetic operation rounded by `r` in the
order the code performs them. With `r = id` these are the exact models (`observe_exact`).
-/

set_option autoImplicit false
set_option linter.unusedSectionVars false

namespace Slam.Float
open Slam.Grid Slam.Cells Slam.Tbm

variable {K : Type*} [Field K] [LinearOrder K] [IsStrictOrderedRing K] [FloorRing K]

/-- `normalize`, transferable_belief_model.h:102-112. -/
def tbmNormalizeF (r : K → K) (t : TBM K) : TBM K :=
  let tot := r (r (r (t.unknown + t.empty) + t.occupied) + t.conflict)
  if tot = 0 then TBM.dflt
  else ⟨r (t.unknown / tot), r (t.empty / tot), r (t.occupied / tot), r (t.conflict / tot)⟩

/-- `normalize_conflict`, transferable_belief_model.h:114-124. -/
def tbmNormalizeConflictF (r : K → K) (t : TBM K) : TBM K :=
  let w := r (r (t.unknown + t.empty) + t.occupied)
  if w = 0 then TBM.dflt
  else ⟨r (t.unknown / w), r (t.empty / w), r (t.occupied / w), 0⟩

/-- The double loop of both combination rules, transferable_belief_model.h:130-138 and 149-157. -/
def accumulateF (r : K → K) (op : Nat → Nat → Nat) (l m : TBM K) : Nat → K :=
  (List.range 4).foldl (fun tmp i =>
    (List.range 4).foldl (fun tmp j =>
      fun k => if k = op i j then r (tmp k + r (l.get i * m.get j)) else tmp k) tmp) (fun _ => 0)

/-- `conjunctive`, transferable_belief_model.h:126-143. -/
def conjunctiveF (r : K → K) (l m : TBM K) : TBM K :=
  let t := accumulateF r (fun i j => i ||| j) l m
  tbmNormalizeF r ⟨t 0, t 1, t 2, t 3⟩

/-- `disjunctive`, transferable_belief_model.h:145-162. -/
def disjunctiveF (r : K → K) (l m : TBM K) : TBM K :=
  let t := accumulateF r (fun i j => i &&& j) l m
  tbmNormalizeF r ⟨t 0, t 1, t 2, t 3⟩

/-- `aoo2tbm`, tbm_grid_cells.h:57-67, and `AOO_to_TBM`, TBM_prob_conversion.h:13-22. -/
def aooToTbmF (r : K → K) (a : Aoo K) : TBM K :=
  match a.occ with
  | none => TBM.dflt
  | some oc =>
    let q := r (oc.qual * a.quality)
    let o := r (oc.prob * q)
    let e := r (r (1 - oc.prob) * q)
    ⟨r (r (1 - o) - e), e, o, 0⟩

/-- `tbm2occ`, tbm_grid_cells.h:89-93 and 104-106; `TBM_to_O`, TBM_prob_conversion.h:8-10. -/
def toOccF (r : K → K) (k : Kind) (t : TBM K) : Option (Occ K) :=
  match k with
  | .consistent =>
    let qual := r (t.occupied + t.empty)
    if qual = 0 then none else some ⟨r (t.occupied / qual), qual⟩
  | .unknownEven => some ⟨r (t.occupied + r (1 / 2 * t.unknown)), 1⟩
  | .credibilist => some ⟨r (t.occupied + r (1 / 2 * t.unknown)), 1⟩

/-- `operator+=`, tbm_grid_cells.h:12-19, credibilist/grid_cell.h:23-29. -/
def observeF (r : K → K) (k : Kind) (c : TCell K) (a : Aoo K) : TCell K :=
  match a.occ with
  | none => c
  | some _ =>
    let b := tbmNormalizeConflictF r (conjunctiveF r c.belief (aooToTbmF r a))
    ⟨toOccF r k b, false, b⟩

theorem observe_exact (k : Kind) (c : TCell K) (a : Aoo K) : observeF id k c a = c.observe k a := rfl

/-! ## Specification -/

/-- Observations whose probability and qualities are doubles in [0, 1]. -/
def DObsT (as : List (Aoo K)) : Prop :=
  ∀ a ∈ as, ∀ o, a.occ = some o → DProb o.prob ∧ DProb o.qual ∧ DProb a.quality

/-- All masses are doubles in [0, 1]. -/
def DMass (t : TBM K) : Prop := DProb t.unknown ∧ DProb t.empty ∧ DProb t.occupied ∧ DProb t.conflict

/-! ## Proofs -/

section
variable {r : K → K}

theorem dprob_zero : DProb (0 : K) := ⟨isDouble_zero, le_rfl, zero_le_one⟩
theorem dprob_one : DProb (1 : K) := ⟨isDouble_one, zero_le_one, le_rfl⟩

theorem dflt_dmass : DMass (TBM.dflt : TBM K) := ⟨dprob_one, dprob_zero, dprob_zero, dprob_zero⟩

theorem DMass.get {t : TBM K} (h : DMass t) (i : Nat) : DProb (t.get i) := by
  obtain ⟨h1, h2, h3, h4⟩ := h
  match i with
  | 0 => exact h1
  | 1 => exact h2
  | 2 => exact h3
  | _ + 3 => exact h4

/-- The masses of an observation. -/
theorem aooToTbmF_dmass (R : Nearest r) (a : Aoo K) (ha : ∀ o, a.occ = some o → DProb o.prob ∧ DProb o.qual ∧ DProb a.quality) :
    DMass (aooToTbmF r a) := by
  unfold aooToTbmF
  match hao : a.occ with
  | none => exact dflt_dmass
  | some oc =>
    obtain ⟨⟨p0, p1, p2⟩, ⟨q0, q1, q2⟩, ⟨s0, s1, s2⟩⟩ := ha oc hao
    simp only []
    have hq0 : 0 ≤ r (oc.qual * a.quality) := R.nonneg (mul_nonneg q1 s1)
    have hq1 : r (oc.qual * a.quality) ≤ 1 := R.le_of_le isDouble_one (by nlinarith)
    generalize r (oc.qual * a.quality) = q at *
    have ho0 : 0 ≤ r (oc.prob * q) := R.nonneg (mul_nonneg p1 hq0)
    have ho1 : r (oc.prob * q) ≤ oc.prob := mul_le_left R p0 p1 hq1
    have hn0 : 0 ≤ r (1 - oc.prob) := R.nonneg (by linarith)
    have hn1 : r (1 - oc.prob) ≤ 1 := R.le_of_le isDouble_one (by linarith)
    have he0 : 0 ≤ r (r (1 - oc.prob) * q) := R.nonneg (mul_nonneg hn0 hq0)
    have he1 : r (r (1 - oc.prob) * q) ≤ r (1 - oc.prob) := mul_le_left R (R.dbl _) hn0 hq1
    have hm : r (1 - oc.prob) ≤ r (1 - r (oc.prob * q)) := R.mono (by linarith)
    have hm1 : r (1 - r (oc.prob * q)) ≤ 1 := R.le_of_le isDouble_one (by linarith)
    exact ⟨⟨R.dbl _, R.nonneg (by linarith), R.le_of_le isDouble_one (by linarith)⟩, ⟨R.dbl _, he0, by linarith⟩,
      ⟨R.dbl _, ho0, by linarith⟩, dprob_zero⟩

theorem accumulateF_dnonneg (R : Nearest r) (op : Nat → Nat → Nat) (l m : TBM K) (hl : DMass l) (hm : DMass m) (k : Nat) :
    IsDouble (accumulateF r op l m k) ∧ 0 ≤ accumulateF r op l m k := by
  have inner : ∀ (i : Nat) (js : List Nat) (tmp : Nat → K), (∀ k, IsDouble (tmp k) ∧ 0 ≤ tmp k) →
      ∀ k, IsDouble (js.foldl (fun tmp j => fun k => if k = op i j then r (tmp k + r (l.get i * m.get j)) else tmp k) tmp k) ∧
        0 ≤ js.foldl (fun tmp j => fun k => if k = op i j then r (tmp k + r (l.get i * m.get j)) else tmp k) tmp k := by
    intro i js
    induction js with
    | nil => intro tmp h; exact h
    | cons j js ih =>
      intro tmp h
      refine ih _ ?_
      intro k
      by_cases hk : k = op i j
      · beta_reduce
        rw [if_pos hk]
        exact ⟨R.dbl _, R.nonneg (add_nonneg (h k).2 (R.nonneg (mul_nonneg (hl.get i).2.1 (hm.get j).2.1)))⟩
      · beta_reduce
        rw [if_neg hk]; exact h k
  have outer : ∀ (is : List Nat) (tmp : Nat → K), (∀ k, IsDouble (tmp k) ∧ 0 ≤ tmp k) →
      ∀ k, IsDouble (is.foldl (fun tmp i => (List.range 4).foldl (fun tmp j => fun k => if k = op i j
        then r (tmp k + r (l.get i * m.get j)) else tmp k) tmp) tmp k) ∧ 0 ≤ is.foldl (fun tmp i => (List.range 4).foldl
        (fun tmp j => fun k => if k = op i j then r (tmp k + r (l.get i * m.get j)) else tmp k) tmp) tmp k := by
    intro is
    induction is with
    | nil => intro tmp h; exact h
    | cons i is ih => intro tmp h; exact ih _ (inner i _ tmp h)
  exact outer _ _ (fun _ => ⟨isDouble_zero, le_rfl⟩) k

theorem quot_dprob (R : Nearest r) {a w : K} (ha : 0 ≤ a) (hw : 0 < w) (h : a ≤ w) : DProb (r (a / w)) :=
  ⟨R.dbl _, R.nonneg (div_nonneg ha hw.le), R.le_of_le isDouble_one ((div_le_one hw).2 h)⟩

/-- The rounded total is at least each mass. -/
theorem total_ge (R : Nearest r) {a b c d : K} (ha : IsDouble a ∧ 0 ≤ a) (hb : IsDouble b ∧ 0 ≤ b) (hc : IsDouble c ∧ 0 ≤ c)
    (hd : IsDouble d ∧ 0 ≤ d) :
    (a ≤ r (r (a + b) + c) ∧ b ≤ r (r (a + b) + c) ∧ c ≤ r (r (a + b) + c)) ∧
    (a ≤ r (r (r (a + b) + c) + d) ∧ b ≤ r (r (r (a + b) + c) + d) ∧ c ≤ r (r (r (a + b) + c) + d) ∧
      d ≤ r (r (r (a + b) + c) + d)) := by
  have h1 : a ≤ r (a + b) := R.ge_of_ge ha.1 (by linarith [hb.2])
  have h2 : b ≤ r (a + b) := R.ge_of_ge hb.1 (by linarith [ha.2])
  have h0 : 0 ≤ r (a + b) := ha.2.trans h1
  have h3 : r (a + b) ≤ r (r (a + b) + c) := R.ge_of_ge (R.dbl _) (by linarith [hc.2])
  have h4 : c ≤ r (r (a + b) + c) := R.ge_of_ge hc.1 (by linarith)
  have h5 : r (r (a + b) + c) ≤ r (r (r (a + b) + c) + d) := R.ge_of_ge (R.dbl _) (by linarith [hd.2])
  have h6 : d ≤ r (r (r (a + b) + c) + d) := R.ge_of_ge hd.1 (by linarith [hc.2])
  refine ⟨⟨?_, ?_, ?_⟩, ?_, ?_, ?_, ?_⟩ <;> linarith

theorem tbmNormalizeF_dmass (R : Nearest r) (t : TBM K) (h1 : IsDouble t.unknown ∧ 0 ≤ t.unknown)
    (h2 : IsDouble t.empty ∧ 0 ≤ t.empty) (h3 : IsDouble t.occupied ∧ 0 ≤ t.occupied)
    (h4 : IsDouble t.conflict ∧ 0 ≤ t.conflict) : DMass (tbmNormalizeF r t) := by
  obtain ⟨-, a, b, c, d⟩ := total_ge R h1 h2 h3 h4
  unfold tbmNormalizeF
  simp only []
  by_cases h0 : r (r (r (t.unknown + t.empty) + t.occupied) + t.conflict) = 0
  · rw [if_pos h0]; exact dflt_dmass
  · rw [if_neg h0]
    have hp : 0 < r (r (r (t.unknown + t.empty) + t.occupied) + t.conflict) := lt_of_le_of_ne (h1.2.trans a) (Ne.symm h0)
    exact ⟨quot_dprob R h1.2 hp a, quot_dprob R h2.2 hp b, quot_dprob R h3.2 hp c, quot_dprob R h4.2 hp d⟩

theorem conjunctiveF_dmass (R : Nearest r) (l m : TBM K) (hl : DMass l) (hm : DMass m) : DMass (conjunctiveF r l m) :=
  tbmNormalizeF_dmass R _ (accumulateF_dnonneg R (fun i j => i ||| j) l m hl hm 0) (accumulateF_dnonneg R (fun i j => i ||| j) l m hl hm 1)
    (accumulateF_dnonneg R (fun i j => i ||| j) l m hl hm 2) (accumulateF_dnonneg R (fun i j => i ||| j) l m hl hm 3)

theorem disjunctiveF_dmass (R : Nearest r) (l m : TBM K) (hl : DMass l) (hm : DMass m) : DMass (disjunctiveF r l m) :=
  tbmNormalizeF_dmass R _ (accumulateF_dnonneg R (fun i j => i &&& j) l m hl hm 0) (accumulateF_dnonneg R (fun i j => i &&& j) l m hl hm 1)
    (accumulateF_dnonneg R (fun i j => i &&& j) l m hl hm 2) (accumulateF_dnonneg R (fun i j => i &&& j) l m hl hm 3)

/-- Half the ignorance and the mass of "occupied", after the removal of the conflict, do not exceed one by more than the
last rounding removes. -/
theorem even_le_one (R : Nearest r) {U E O : K} (hU : IsDouble U ∧ 0 ≤ U) (hE : IsDouble E ∧ 0 ≤ E)
    (hO : IsDouble O ∧ 0 ≤ O) (hw : 0 < r (r (U + E) + O)) :
    r (r (O / r (r (U + E) + O)) + r (1 / 2 * r (U / r (r (U + E) + O)))) ≤ 1 := by
  obtain ⟨⟨a1, -, a3⟩, -⟩ := total_ge R hU hE hO ⟨isDouble_zero, le_rfl⟩
  have hUE : U ≤ r (U + E) := R.ge_of_ge hU.1 (by linarith [hE.2])
  have hsum : r (U + O) ≤ r (r (U + E) + O) := R.mono (by linarith)
  have hrel := (abs_le.1 (R.rel_add hU.1 hO.1)).1
  rw [abs_of_nonneg (add_nonneg hU.2 hO.2)] at hrel
  generalize r (r (U + E) + O) = w at *
  refine R.le_one ?_
  have s0 : 0 ≤ U / w := div_nonneg hU.2 hw.le
  have o0 : 0 ≤ O / w := div_nonneg hO.2 hw.le
  have s1 : U / w ≤ 1 := (div_le_one hw).2 a1
  have o1 : O / w ≤ 1 := (div_le_one hw).2 a3
  have hso : (O / w + U / w) * (1 - 2 ^ (-53 : ℤ)) ≤ 1 := by
    rw [← add_div, div_mul_eq_mul_div, div_le_one hw]
    linarith
  generalize U / w = s at *
  generalize O / w = o at *
  have k0 : (2 : K) ^ ((0 : ℤ) - 54) = 1 / 2 * 2 ^ (-53 : ℤ) := by norm_num
  have eO := (abs_le.1 (R.err (k := 0) (x := o) (by norm_num) (by rw [zpow_zero, abs_of_nonneg o0]; exact o1))).2
  have eU := (abs_le.1 (R.err (k := 0) (x := s) (by norm_num) (by rw [zpow_zero, abs_of_nonneg s0]; exact s1))).2
  rw [k0] at eO eU
  have rO : r o ≤ 1 := R.le_of_le isDouble_one o1
  have rU : r s ≤ 1 := R.le_of_le isDouble_one s1
  have rU0 : 0 ≤ r s := R.nonneg s0
  have d1 : IsDouble (7 / 4 * 2 ^ (-53 : ℤ) : K) := ⟨7, -55, by norm_num, by norm_num, by norm_num⟩
  have d2 : IsDouble (7 / 8 * 2 ^ (-53 : ℤ) : K) := ⟨7, -56, by norm_num, by norm_num, by norm_num⟩
  have hu0 : (0 : K) < 2 ^ (-53 : ℤ) := two_zpow_pos _
  have hu1 : (2 : K) ^ (-53 : ℤ) ≤ 1 / 1000 := by
    have := two_zpow_le (K := K) (a := -53) (b := -10) (by norm_num)
    exact this.trans (by norm_num)
  rcases le_or_gt s (7 / 4 * 2 ^ (-53 : ℤ)) with h | h
  · have h1 : r s ≤ 7 / 4 * 2 ^ (-53 : ℤ) := R.le_of_le d1 h
    have h2 : r (1 / 2 * r s) ≤ 7 / 8 * 2 ^ (-53 : ℤ) := R.le_of_le d2 (by linarith)
    linarith
  · have h1 : 7 / 4 * 2 ^ (-53 : ℤ) ≤ r s := R.ge_of_ge d1 h.le
    have hmin : (2 : K) ^ (-1022 : ℤ) ≤ 7 / 8 * 2 ^ (-53 : ℤ) := by
      have h54 : (2 : K) ^ (-1022 : ℤ) ≤ 2 ^ (-54 : ℤ) := two_zpow_le (by norm_num)
      have : (2 : K) ^ (-54 : ℤ) = 1 / 2 * 2 ^ (-53 : ℤ) := by norm_num
      refine h54.trans ?_
      rw [this]; linarith
    have h3 := R.rel (x := 1 / 2 * r s) (by
      rw [abs_of_nonneg (by linarith)]
      refine hmin.trans ?_
      linarith)
    clear hmin
    rw [abs_of_nonneg (show 0 ≤ 1 / 2 * r s by linarith)] at h3
    have h4 := (abs_le.1 h3).2
    clear h3 d1 d2 k0
    generalize (2 : K) ^ (-53 : ℤ) = u at *
    have hos : o + s ≤ 1 + 101 / 100 * u := by
      by_contra hc
      have hc := not_le.1 hc
      have : (1 + 101 / 100 * u) * (1 - u) < (o + s) * (1 - u) := mul_lt_mul_of_pos_right hc (by linarith)
      nlinarith
    have h5 : u * (1 / 2 * r s) ≤ u * (1 / 2 * (s + 1 / 2 * u)) := mul_le_mul_of_nonneg_left (by linarith) hu0.le
    have h6 : 7 / 4 * u * (1 - u) ≤ s * (1 - u) := mul_le_mul_of_nonneg_right h.le (by linarith)
    nlinarith

/-- A cell whose belief came from rounded operations. -/
structure Sound (k : Kind) (c : TCell K) : Prop where
  mass : DMass c.belief
  noConflict : c.belief.conflict = 0
  occ : ∀ o, c.occ = some o → DProb o.prob
  some : k ≠ .consistent → c.occ ≠ none

theorem observeF_sound (R : Nearest r) (k : Kind) (c : TCell K) (a : Aoo K) (hc : Sound k c)
    (ha : ∀ o, a.occ = some o → DProb o.prob ∧ DProb o.qual ∧ DProb a.quality) : Sound k (observeF r k c a) := by
  unfold observeF
  match hao : a.occ with
  | none => exact hc
  | some o =>
    simp only []
    have ht := conjunctiveF_dmass R c.belief (aooToTbmF r a) hc.mass (aooToTbmF_dmass R a ha)
    generalize conjunctiveF r c.belief (aooToTbmF r a) = t at *
    obtain ⟨t1, t2, t3, t4⟩ := ht
    have g1 : IsDouble t.unknown ∧ 0 ≤ t.unknown := ⟨t1.1, t1.2.1⟩
    have g2 : IsDouble t.empty ∧ 0 ≤ t.empty := ⟨t2.1, t2.2.1⟩
    have g3 : IsDouble t.occupied ∧ 0 ≤ t.occupied := ⟨t3.1, t3.2.1⟩
    obtain ⟨⟨b1, b2, b3⟩, -⟩ := total_ge R g1 g2 g3 ⟨isDouble_zero, le_rfl⟩
    have hmass : DMass (tbmNormalizeConflictF r t) ∧ (tbmNormalizeConflictF r t).conflict = 0 ∧
        r ((tbmNormalizeConflictF r t).occupied + r (1 / 2 * (tbmNormalizeConflictF r t).unknown)) ≤ 1 := by
      unfold tbmNormalizeConflictF
      simp only []
      by_cases h0 : r (r (t.unknown + t.empty) + t.occupied) = 0
      · rw [if_pos h0]
        refine ⟨dflt_dmass, rfl, ?_⟩
        simp only [TBM.dflt, zero_add, mul_one]
        rw [R.fix isDouble_half, R.fix isDouble_half]; norm_num
      · rw [if_neg h0]
        have hp : 0 < r (r (t.unknown + t.empty) + t.occupied) := lt_of_le_of_ne (g1.2.trans b1) (Ne.symm h0)
        exact ⟨⟨quot_dprob R g1.2 hp b1, quot_dprob R g2.2 hp b2, quot_dprob R g3.2 hp b3, dprob_zero⟩, rfl,
          even_le_one R g1 g2 g3 hp⟩
    generalize tbmNormalizeConflictF r t = b at *
    obtain ⟨hm, hcf, hle⟩ := hmass
    obtain ⟨m1, m2, m3, m4⟩ := hm
    have heven : DProb (r (b.occupied + r (1 / 2 * b.unknown))) :=
      ⟨R.dbl _, R.nonneg (add_nonneg m3.2.1 (R.nonneg (mul_nonneg (by norm_num) m1.2.1))), hle⟩
    refine ⟨⟨m1, m2, m3, m4⟩, hcf, ?_, ?_⟩
    · intro o' ho'
      cases k with
      | unknownEven => simp only [toOccF, Option.some.injEq] at ho'; rw [← ho']; exact heven
      | credibilist => simp only [toOccF, Option.some.injEq] at ho'; rw [← ho']; exact heven
      | consistent =>
        simp only [toOccF] at ho'
        by_cases h0 : r (b.occupied + b.empty) = 0
        · rw [if_pos h0] at ho'; cases ho'
        · rw [if_neg h0] at ho'
          simp only [Option.some.injEq] at ho'
          rw [← ho']
          have hge : b.occupied ≤ r (b.occupied + b.empty) := R.ge_of_ge m3.1 (by linarith [m2.2.1])
          exact quot_dprob R m3.2.1 (lt_of_le_of_ne (m3.2.1.trans hge) (Ne.symm h0)) hge
    · intro hk
      cases k with
      | unknownEven => simp [toOccF]
      | credibilist => simp [toOccF]
      | consistent => exact absurd rfl hk

theorem create_sound (k : Kind) : Sound k (TCell.create k : TCell K) := by
  cases k
  · refine ⟨dflt_dmass, rfl, ?_, by simp [TCell.create]⟩
    intro o ho; simp only [TCell.create, Option.some.injEq] at ho; rw [← ho]
    exact ⟨isDouble_half, by norm_num, by norm_num⟩
  · refine ⟨dflt_dmass, rfl, ?_, by simp [TCell.create]⟩
    intro o ho; simp only [TCell.create, Option.some.injEq] at ho; rw [← ho]
    exact ⟨isDouble_half, by norm_num, by norm_num⟩
  · refine ⟨dflt_dmass, rfl, ?_, by simp [TCell.create, toOcc]⟩
    intro o ho; simp only [TCell.create, toOcc, TBM.dflt, zero_add, mul_one, Option.some.injEq] at ho; rw [← ho]
    exact ⟨isDouble_half, by norm_num, by norm_num⟩

/-- **C79.** After every history of observations made of doubles, rounding included: all masses of a belief cell are doubles
in [0, 1], the conflict is zero, and the occupancy shown — if there is one; for the cells that split the ignorance evenly
there always is — has a probability in [0, 1]. -/
theorem belief_rounded (R : Nearest r) (k : Kind) (as : List (Aoo K)) (h : DObsT as) :
    let c := as.foldl (observeF r k) (TCell.create k)
    DMass c.belief ∧ c.belief.conflict = 0 ∧ (∀ o, c.occ = some o → DProb o.prob) ∧ (k ≠ .consistent → c.occ ≠ none) := by
  have key : ∀ (as : List (Aoo K)) (c : TCell K), DObsT as → Sound k c → Sound k (as.foldl (observeF r k) c) := by
    intro as
    induction as with
    | nil => intro c _ hc; exact hc
    | cons a as ih =>
      intro c h hc
      exact ih _ (fun b hb => h b (List.mem_cons_of_mem _ hb)) (observeF_sound R k c a hc (h a List.mem_cons_self))
  obtain ⟨s1, s2, s3, s4⟩ := key as _ h (create_sound k)
  exact ⟨s1, s2, s3, s4⟩

/-- **C79, the total.** The masses of a belief add up to one up to 2^-50 after every observation that counts: they are the
program's own normalisation of three numbers (or the initial belief). -/
theorem belief_rounded_sum (R : Nearest r) (k : Kind) (as : List (Aoo K)) (h : DObsT as) :
    let b := (as.foldl (observeF r k) (TCell.create k)).belief
    |b.unknown + b.empty + b.occupied + b.conflict - 1| ≤ 4 * 2 ^ (-52 : ℤ) := by
  have tiny : (0 : K) ≤ 4 * 2 ^ (-52 : ℤ) := mul_nonneg (by norm_num) (two_zpow_pos _).le
  have hdflt : |(TBM.dflt : TBM K).unknown + (TBM.dflt : TBM K).empty + (TBM.dflt : TBM K).occupied +
      (TBM.dflt : TBM K).conflict - 1| ≤ 4 * 2 ^ (-52 : ℤ) := by simpa [TBM.dflt] using tiny
  have hcreate : (TCell.create k : TCell K).belief = TBM.dflt := by cases k <;> rfl
  have key : ∀ (as : List (Aoo K)) (c : TCell K), DObsT as → Sound k c →
      |c.belief.unknown + c.belief.empty + c.belief.occupied + c.belief.conflict - 1| ≤ 4 * 2 ^ (-52 : ℤ) →
      |(as.foldl (observeF r k) c).belief.unknown + (as.foldl (observeF r k) c).belief.empty +
        (as.foldl (observeF r k) c).belief.occupied + (as.foldl (observeF r k) c).belief.conflict - 1| ≤
          4 * 2 ^ (-52 : ℤ) := by
    intro as
    induction as with
    | nil => intro c _ _ h; exact h
    | cons a as ih =>
      intro c h hc h1
      exact ih _ (fun b hb => h b (List.mem_cons_of_mem _ hb)) (observeF_sound R k c a hc (h a List.mem_cons_self))
        (step_sum R k c a hc.mass h1 (h a List.mem_cons_self))
  exact key as _ h (create_sound k) (by rw [hcreate]; exact hdflt)
where
  step_sum (R : Nearest r) (k : Kind) (c : TCell K) (a : Aoo K) (hc : DMass c.belief)
      (h1 : |c.belief.unknown + c.belief.empty + c.belief.occupied + c.belief.conflict - 1| ≤ 4 * 2 ^ (-52 : ℤ))
      (ha : ∀ o, a.occ = some o → DProb o.prob ∧ DProb o.qual ∧ DProb a.quality) :
      |(observeF r k c a).belief.unknown + (observeF r k c a).belief.empty + (observeF r k c a).belief.occupied +
        (observeF r k c a).belief.conflict - 1| ≤ 4 * 2 ^ (-52 : ℤ) := by
    unfold observeF
    match hao : a.occ with
    | none => exact h1
    | some o =>
      simp only []
      have ht := conjunctiveF_dmass R c.belief (aooToTbmF r a) hc (aooToTbmF_dmass R a ha)
      generalize conjunctiveF r c.belief (aooToTbmF r a) = t at *
      obtain ⟨t1, t2, t3, t4⟩ := ht
      unfold tbmNormalizeConflictF
      simp only []
      have g1 : IsDouble t.unknown ∧ 0 ≤ t.unknown := ⟨t1.1, t1.2.1⟩
      have g2 : IsDouble t.empty ∧ 0 ≤ t.empty := ⟨t2.1, t2.2.1⟩
      have g3 : IsDouble t.occupied ∧ 0 ≤ t.occupied := ⟨t3.1, t3.2.1⟩
      obtain ⟨⟨b1, b2, b3⟩, -⟩ := total_ge R g1 g2 g3 ⟨isDouble_zero, le_rfl⟩
      by_cases h0 : r (r (t.unknown + t.empty) + t.occupied) = 0
      · rw [if_pos h0]
        have : (0 : K) ≤ 4 * 2 ^ (-52 : ℤ) := mul_nonneg (by norm_num) (two_zpow_pos _).le
        simpa [TBM.dflt] using this
      · rw [if_neg h0]
        have hp : 0 < r (r (t.unknown + t.empty) + t.occupied) := lt_of_le_of_ne (g1.2.trans b1) (Ne.symm h0)
        have hsumF : sumF r 0 [t.unknown, t.empty, t.occupied] = r (r (t.unknown + t.empty) + t.occupied) := by
          simp only [sumF, List.foldl_cons, List.foldl_nil, zero_add]
          rw [R.fix t1.1]
        have hd : DNonneg [t.unknown, t.empty, t.occupied] := by
          intro w hw
          simp only [List.mem_cons, List.not_mem_nil, or_false] at hw
          rcases hw with rfl | rfl | rfl
          · exact g1
          · exact g2
          · exact g3
        have hpos : ∃ w ∈ [t.unknown, t.empty, t.occupied], 0 < w := by
          by_contra hc
          push Not at hc
          have z1 := le_antisymm (hc _ (by simp)) g1.2
          have z2 := le_antisymm (hc t.empty (by simp)) g2.2
          have z3 := le_antisymm (hc t.occupied (by simp)) g3.2
          rw [z1, z2, z3] at h0
          simp only [add_zero, R.fix isDouble_zero, not_true_eq_false] at h0
        have := normalize_rounded_sum R _ hd hpos (by norm_num)
        unfold normalizeF at this
        rw [hsumF] at this
        simp only [List.map_cons, List.map_nil, List.sum_cons, List.sum_nil, List.length_cons, List.length_nil] at this
        refine le_trans (le_of_eq ?_) (this.trans (le_of_eq ?_))
        · congr 1; ring
        · push_cast; ring

end

/-- Not vacuous: observations of doubles. -/
example : DObsT [(⟨true, some ⟨1 / 2, 1⟩, ⟨0, 0⟩, 1⟩ : Aoo ℚ)] := by
  intro a ha o ho
  simp only [List.mem_singleton] at ha
  subst ha
  simp only [Option.some.injEq] at ho
  subst ho
  exact ⟨⟨isDouble_half, by norm_num, by norm_num⟩, dprob_one, dprob_one⟩

/-- The sum of the masses need not be one: after one observation of a probability of 0.7 with quality 0.7. -/
theorem belief_sum_counterexample :
    let b := (observeF rne .unknownEven (TCell.create .unknownEven)
      (⟨true, some ⟨rne (7 / 10), 1⟩, ⟨0, 0⟩, rne (7 / 10)⟩ : Aoo ℚ)).belief
    b.unknown + b.empty + b.occupied + b.conflict ≠ 1 := by decide +kernel

end Slam.Float
