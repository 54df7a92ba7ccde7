import Verif.Float.Round
import Verif.Cells.Model

/-!
# The occupancy cells, computed in `double`

`src/core/maps/naive_grid_cells.h`, `src/slams/gmapping/gmapping_grid_cell.h` again, every arithmetic operation rounded
by `r` in the order the code performs them. With `r = id` these are the exact models of `Verif.Cells.Model`
(`affine_exact`, `mean_exact`, `gm_exact`).
-/

set_option autoImplicit false
set_option linter.unusedSectionVars false

namespace Slam.Float
open Slam.Grid Slam.Cells

variable {K : Type*} [Field K] [LinearOrder K] [IsStrictOrderedRing K] [FloorRing K]

/-- `AffineQualityMergeCell::operator+=`, naive_grid_cells.h:14-20. -/
def affineF (r : K → K) (c : AffineCell K) (a : Aoo K) : AffineCell K :=
  match a.occ with
  | none => c
  | some o => ⟨⟨r (r (r (1 - a.quality) * c.occ.prob) + r (a.quality * o.prob)), c.occ.qual⟩, false⟩

/-- `MeanProbabilityCell::operator+=`, naive_grid_cells.h:33-40; the counter is a `double`. -/
def meanF (r : K → K) (c : MeanCell K) (a : Aoo K) : MeanCell K :=
  match a.occ with
  | none => c
  | some o =>
    let n := r (c.n + 1)
    let thatP := r (1 / 2 + r (r (o.prob - 1 / 2) * a.quality))
    ⟨⟨r (r (r (c.occ.prob * r (n - 1)) + thatP) / n), c.occ.qual⟩, false, n⟩

/-- `GmappingBaseCell::operator+=`, gmapping_grid_cell.h:20-33 (the counters are `int`s; they convert to `double`
exactly). -/
def gmF (r : K → K) (c : GmCell K) (a : Aoo K) : GmCell K :=
  match a.occ with
  | none => c
  | some o =>
    let tries := c.tries + 1
    let isFree : Bool := decide (o.prob ≤ 1 / 2)
    let p : K := if isFree then 0 else o.prob
    let c' : GmCell K :=
      { c with unknown := false, tries := tries
               occ := ⟨r (r (r (c.occ.prob * ((tries : K) - 1)) + p) / (tries : K)), c.occ.qual⟩ }
    if isFree then c'
    else
      let hits := c.hits + 1
      { c' with hits := hits
                obst := ⟨r (r (r (c.obst.x * ((hits : K) - 1)) + a.obst.x) / (hits : K)),
                         r (r (r (c.obst.y * ((hits : K) - 1)) + a.obst.y) / (hits : K))⟩ }

/-! Without rounding these are the exact models. -/

theorem affine_exact : affineF (id : K → K) = AffineCell.observe := rfl
theorem mean_exact : meanF (id : K → K) = MeanCell.observe := rfl
theorem gm_exact : gmF (id : K → K) = GmCell.observe := rfl

/-! ## Specification -/

/-- A probability stored in a `double`. -/
def DProb (p : K) : Prop := IsDouble p ∧ 0 ≤ p ∧ p ≤ 1

/-- Observations made of doubles: probabilities and qualities are doubles in [0, 1], obstacles are doubles. -/
def DObs (as : List (Aoo K)) : Prop :=
  ∀ a ∈ as, (∀ o, a.occ = some o → DProb o.prob ∧ DProb a.quality) ∧ IsDouble a.obst.x ∧ IsDouble a.obst.y

/-! ## Affine cells -/

section
variable {r : K → K}

theorem mul_le_left (R : Nearest r) {a b : K} (ha : IsDouble a) (ha0 : 0 ≤ a) (hb : b ≤ 1) : r (a * b) ≤ a :=
  R.le_of_le ha (mul_le_of_le_one_right ha0 hb)

theorem one_sub_err (R : Nearest r) {q : K} (h0 : 0 ≤ q) (h1 : q ≤ 1) : r (1 - q) ≤ 1 - q + 2 ^ (-54 : ℤ) := by
  have := R.err (k := 0) (x := 1 - q) (by norm_num) (by rw [zpow_zero, abs_le]; constructor <;> linarith)
  have := le_abs_self (r (1 - q) - (1 - q))
  have e : (2 : K) ^ ((0 : ℤ) - 54) = 2 ^ (-54 : ℤ) := by norm_num
  linarith

theorem affine_step (R : Nearest r) (c : AffineCell K) (a : Aoo K) (hc : DProb c.occ.prob)
    (ha : ∀ o, a.occ = some o → DProb o.prob ∧ DProb a.quality) : DProb (affineF r c a).occ.prob := by
  unfold affineF
  match hao : a.occ with
  | none => exact hc
  | some o =>
    obtain ⟨⟨_, ho0, ho1⟩, hq, hq0, hq1⟩ := ha o hao
    refine ⟨R.dbl _, ?_, ?_⟩
    · refine R.nonneg (add_nonneg (R.nonneg (mul_nonneg (R.nonneg (by linarith)) hc.2.1)) (R.nonneg (mul_nonneg hq0 ho0)))
    · refine R.le_one ?_
      have h1 : r (r (1 - a.quality) * c.occ.prob) ≤ r (1 - a.quality) :=
        mul_le_left R (R.dbl _) (R.nonneg (by linarith)) hc.2.2
      have h2 : r (a.quality * o.prob) ≤ a.quality := mul_le_left R hq hq0 ho1
      have h3 := one_sub_err R hq0 hq1
      have h4 : (2 : K) ^ (-54 : ℤ) < 2 ^ (-53 : ℤ) := zpow_lt_zpow_right₀ (by norm_num) (by norm_num)
      linarith

/-- A cell merging by quality shows a probability after every history, rounding included. -/
theorem affine_rounded_probability (R : Nearest r) (as : List (Aoo K)) (h : DObs as) :
    DProb (as.foldl (affineF r) AffineCell.create).occ.prob := by
  have key : ∀ (as : List (Aoo K)) (c : AffineCell K), DObs as → DProb c.occ.prob → DProb (as.foldl (affineF r) c).occ.prob := by
    intro as
    induction as with
    | nil => intro c _ hc; exact hc
    | cons a as ih =>
      intro c h hc
      exact ih _ (fun b hb => h b (List.mem_cons_of_mem _ hb)) (affine_step R c a hc (h a List.mem_cons_self).1)
  exact key as _ h ⟨isDouble_half, by norm_num [AffineCell.create], by norm_num [AffineCell.create]⟩

/-! ## Means -/

/-- The rounded `(p * (n - 1) + t) / n`. -/
theorem running_mean (R : Nearest r) {p t : K} {n : Nat} (hn : 1 ≤ n) (hn53 : n ≤ 2 ^ 53) (hp : 0 ≤ p ∧ p ≤ 1 ∨ n = 1)
    (ht : 0 ≤ t ∧ t ≤ 1) : DProb (r (r (r (p * ((n : K) - 1)) + t) / (n : K))) := by
  have hn0 : (0 : K) < n := by exact_mod_cast hn
  have hn1 : ((n : K) - 1) = ((n - 1 : Nat) : K) := by rw [Nat.cast_sub hn]; simp
  have hd1 : IsDouble ((n : K) - 1) := by rw [hn1]; exact isDouble_nat (by omega)
  have hge : (0 : K) ≤ (n : K) - 1 := by rw [hn1]; positivity
  have hb : 0 ≤ r (p * ((n : K) - 1)) ∧ r (p * ((n : K) - 1)) ≤ (n : K) - 1 := by
    rcases hp with hp | rfl
    · exact ⟨R.nonneg (mul_nonneg hp.1 hge), R.le_of_le hd1 (mul_le_of_le_one_left hge hp.2)⟩
    · simp [R.fix isDouble_zero]
  have hs0 : 0 ≤ r (r (p * ((n : K) - 1)) + t) := R.nonneg (add_nonneg hb.1 ht.1)
  have hs1 : r (r (p * ((n : K) - 1)) + t) ≤ n := R.le_of_le (isDouble_nat hn53) (by linarith [hb.2, ht.2])
  exact ⟨R.dbl _, R.nonneg (div_nonneg hs0 hn0.le), R.le_of_le isDouble_one ((div_le_one hn0).2 hs1)⟩

/-- The observed value of a mean cell. -/
theorem mean_value (R : Nearest r) {p q : K} (hp : DProb p) (hq : DProb q) :
    0 ≤ r (1 / 2 + r (r (p - 1 / 2) * q)) ∧ r (1 / 2 + r (r (p - 1 / 2) * q)) ≤ 1 := by
  have hh := isDouble_half (K := K)
  have h1 : -(1 / 2) ≤ r (p - 1 / 2) := R.ge_of_ge hh.neg (by linarith [hp.2.1])
  have h2 : r (p - 1 / 2) ≤ 1 / 2 := R.le_of_le hh (by linarith [hp.2.2])
  have h3 : |r (p - 1 / 2) * q| ≤ 1 / 2 := by
    rw [abs_mul, abs_of_nonneg hq.2.1]
    have : |r (p - 1 / 2)| ≤ 1 / 2 := abs_le.2 ⟨h1, h2⟩
    nlinarith [hq.2.1, hq.2.2, abs_nonneg (r (p - 1 / 2))]
  rw [abs_le] at h3
  have h4 : -(1 / 2) ≤ r (r (p - 1 / 2) * q) := R.ge_of_ge hh.neg h3.1
  have h5 : r (r (p - 1 / 2) * q) ≤ 1 / 2 := R.le_of_le hh h3.2
  exact ⟨R.nonneg (by linarith), R.le_of_le isDouble_one (by linarith)⟩

/-- What holds of a mean cell: the counter is a natural number up to 2^53. -/
def MeanOk (c : MeanCell K) : Prop := DProb c.occ.prob ∧ ∃ n : Nat, n ≤ 2 ^ 53 ∧ c.n = n

theorem rne_saturates : rne ((2 ^ 53 : K) + 1) = 2 ^ 53 := by
  have hlog : Int.log 2 |(2 ^ 53 : K) + 1| = 53 := by
    have h : ((2 ^ 53 : K) + 1) = (((2 ^ 53 + 1 : Nat)) : K) := by push_cast; ring
    rw [h, abs_of_nonneg (by positivity), Int.log_natCast]
    have : Nat.log 2 (2 ^ 53 + 1) = 53 := by
      rw [Nat.log_eq_iff (Or.inl (by norm_num))]; norm_num
    rw [this]; norm_num
  have hl : lastPlace ((2 ^ 53 : K) + 1) = 1 := by unfold lastPlace; rw [hlog]; norm_num
  unfold rne; rw [hl]
  have hf : ⌊((2 ^ 53 : K) + 1) / 2 ^ (1 : ℤ)⌋ = 4503599627370496 := by
    rw [Int.floor_eq_iff]; norm_num
  have : halfEven (((2 ^ 53 : K) + 1) / 2 ^ (1 : ℤ)) = 4503599627370496 := by
    unfold halfEven; rw [hf]; norm_num
  rw [this]; norm_num

theorem mean_step (c : MeanCell K) (a : Aoo K) (hc : MeanOk c)
    (ha : ∀ o, a.occ = some o → DProb o.prob ∧ DProb a.quality) : MeanOk (meanF rne c a) := by
  have R := rne_nearest (K := K)
  unfold meanF
  match hao : a.occ with
  | none => exact hc
  | some o =>
    obtain ⟨ho, hq⟩ := ha o hao
    obtain ⟨hp, n, hn, hcn⟩ := hc
    have hN : ∃ m : Nat, 1 ≤ m ∧ m ≤ 2 ^ 53 ∧ rne (c.n + 1) = (m : K) := by
      rcases hn.eq_or_lt with h | h
      · refine ⟨2 ^ 53, by norm_num, le_rfl, ?_⟩
        rw [hcn, h]; have := rne_saturates (K := K); norm_num at this ⊢; exact this
      · refine ⟨n + 1, by omega, h, ?_⟩
        rw [hcn]
        have := R.fix (isDouble_nat (K := K) (n := n + 1) h)
        push_cast at this ⊢
        exact this
    obtain ⟨m, hm1, hm, he⟩ := hN
    simp only [he]
    have hm' : rne ((m : K) - 1) = (m : K) - 1 := by
      have hmc : ((m : K) - 1) = ((m - 1 : Nat) : K) := by rw [Nat.cast_sub hm1]; simp
      rw [hmc]; exact R.fix (isDouble_nat (by omega))
    rw [hm']
    exact ⟨running_mean R hm1 hm (Or.inl hp.2) (mean_value R ho hq), m, hm, rfl⟩

/-- A mean cell shows a probability after every history, rounding included, even when its counter (a `double`) has
stopped counting. -/
theorem mean_rounded_probability (as : List (Aoo K)) (h : DObs as) :
    DProb (as.foldl (meanF rne) MeanCell.create).occ.prob := by
  have key : ∀ (as : List (Aoo K)) (c : MeanCell K), DObs as → MeanOk c → MeanOk (as.foldl (meanF rne) c) := by
    intro as
    induction as with
    | nil => intro c _ hc; exact hc
    | cons a as ih =>
      intro c h hc
      exact ih _ (fun b hb => h b (List.mem_cons_of_mem _ hb)) (mean_step c a hc (h a List.mem_cons_self).1)
  exact (key as _ h ⟨⟨isDouble_half, by norm_num [MeanCell.create], by norm_num [MeanCell.create]⟩, 0, by norm_num,
    by simp [MeanCell.create]⟩).1

/-! ## GMapping cells -/

theorem gm_step (R : Nearest r) (c : GmCell K) (a : Aoo K) (o : Occ K) (hao : a.occ = some o)
    (hc : DProb c.occ.prob ∨ c.tries = 0) (ht : c.tries < 2 ^ 53) (ho : DProb o.prob) :
    DProb (gmF r c a).occ.prob ∧ (gmF r c a).tries = c.tries + 1 := by
  unfold gmF
  rw [hao]
  have hm := running_mean R (p := c.occ.prob) (n := c.tries + 1) (t := if decide (o.prob ≤ 1 / 2) then 0 else o.prob)
    (by omega) ht (by rcases hc with h | h
                      · exact Or.inl h.2
                      · right; omega)
    (by by_cases h : decide (o.prob ≤ 1 / 2) = true
        · rw [if_pos h]; exact ⟨le_rfl, zero_le_one⟩
        · rw [if_neg h]; exact ho.2)
  simp only
  by_cases h : decide (o.prob ≤ 1 / 2) = true
  · rw [if_pos h] at hm ⊢
    rw [if_pos h]
    exact ⟨hm, rfl⟩
  · rw [if_neg h] at hm ⊢
    rw [if_neg h]
    exact ⟨hm, rfl⟩

/-- A GMapping cell shows a probability as soon as it has been observed, rounding included (at most 2^53
observations; the counter of the code is an `int`). -/
theorem gm_rounded_probability (R : Nearest r) (as : List (Aoo K)) (h : DObs as) (hl : as.length ≤ 2 ^ 53)
    (hv : ∃ a ∈ as, a.occ ≠ none) : DProb (as.foldl (gmF r) GmCell.create).occ.prob := by
  have key : ∀ (as : List (Aoo K)) (c : GmCell K), DObs as → (DProb c.occ.prob ∨ c.tries = 0) →
      c.tries + as.length ≤ 2 ^ 53 → (DProb c.occ.prob ∨ ∃ a ∈ as, a.occ ≠ none) →
      DProb (as.foldl (gmF r) c).occ.prob := by
    intro as
    induction as with
    | nil => intro c _ _ _ hv; rcases hv with h | ⟨a, ha, _⟩
             · exact h
             · cases ha
    | cons a as ih =>
      intro c h hc hl hv
      rw [List.length_cons] at hl
      have htl : DObs as := fun b hb => h b (List.mem_cons_of_mem _ hb)
      rw [List.foldl_cons]
      match hao : a.occ with
      | none =>
        have e : gmF r c a = c := by unfold gmF; rw [hao]
        rw [e]
        refine ih c htl hc (by omega) ?_
        rcases hv with hv | ⟨b, hb, hbo⟩
        · exact Or.inl hv
        · rcases List.mem_cons.1 hb with rfl | hb
          · exact absurd hao hbo
          · exact Or.inr ⟨b, hb, hbo⟩
      | some o =>
        have hs := gm_step R c a o hao hc (by omega) ((h a List.mem_cons_self).1 o hao).1
        exact ih _ htl (Or.inl hs.1) (by omega) (Or.inl hs.1)
  exact key as _ h (Or.inr rfl) (by simp [GmCell.create]; exact hl) (Or.inr hv)

/-! ## How far rounding takes a cell from the exact value -/

/-- One step of the merging cell. -/
theorem affine_err (R : Nearest r) {p p' q o : K} (hp : 0 ≤ p ∧ p ≤ 1) (hq : 0 ≤ q ∧ q ≤ 1) (ho : 0 ≤ o ∧ o ≤ 1) :
    |r (r (r (1 - q) * p) + r (q * o)) - ((1 - q) * p' + q * o)| ≤ |p - p'| + 5 * 2 ^ (-54 : ℤ) := by
  have hu := two_zpow_pos (K := K) (-54)
  have e1 : ∀ x : K, |x| ≤ 1 → |r x - x| ≤ 2 ^ (-54 : ℤ) := by
    intro x hx
    have := R.err (k := 0) (x := x) (by norm_num) (by rwa [zpow_zero])
    rwa [show (0 : ℤ) - 54 = -54 by norm_num] at this
  have e2 : ∀ x : K, |x| ≤ 2 → |r x - x| ≤ 2 * 2 ^ (-54 : ℤ) := by
    intro x hx
    have := R.err (k := 1) (x := x) (by norm_num) (by rwa [zpow_one])
    rwa [show (1 : ℤ) - 54 = 1 + -54 by norm_num, zpow_add₀ (by norm_num), zpow_one] at this
  have a0 : 0 ≤ r (1 - q) ∧ r (1 - q) ≤ 1 := ⟨R.nonneg (by linarith [hq.2]), R.le_of_le isDouble_one (by linarith [hq.1])⟩
  have a1 := e1 (1 - q) (by rw [abs_le]; constructor <;> linarith [hq.1, hq.2])
  have b0 : 0 ≤ r (1 - q) * p ∧ r (1 - q) * p ≤ 1 := ⟨mul_nonneg a0.1 hp.1, mul_le_one₀ a0.2 hp.1 hp.2⟩
  have b1 := e1 (r (1 - q) * p) (by rw [abs_le]; constructor <;> linarith [b0.1, b0.2])
  have b2 : 0 ≤ r (r (1 - q) * p) ∧ r (r (1 - q) * p) ≤ 1 := ⟨R.nonneg b0.1, R.le_of_le isDouble_one b0.2⟩
  have c0 : 0 ≤ q * o ∧ q * o ≤ 1 := ⟨mul_nonneg hq.1 ho.1, mul_le_one₀ hq.2 ho.1 ho.2⟩
  have c1 := e1 (q * o) (by rw [abs_le]; constructor <;> linarith [c0.1, c0.2])
  have c2 : 0 ≤ r (q * o) ∧ r (q * o) ≤ 1 := ⟨R.nonneg c0.1, R.le_of_le isDouble_one c0.2⟩
  have d1 := e2 (r (r (1 - q) * p) + r (q * o)) (by rw [abs_le]; constructor <;> linarith [b2.1, b2.2, c2.1, c2.2])
  have f1 : |(r (1 - q) - (1 - q)) * p| ≤ 2 ^ (-54 : ℤ) := by
    rw [abs_mul, abs_of_nonneg hp.1]
    exact (mul_le_of_le_one_right (abs_nonneg _) hp.2).trans a1
  have f2 : |(1 - q) * (p - p')| ≤ |p - p'| := by
    rw [abs_mul, abs_of_nonneg (by linarith [hq.2] : 0 ≤ 1 - q)]
    exact mul_le_of_le_one_left (abs_nonneg _) (by linarith [hq.1])
  have split : r (r (r (1 - q) * p) + r (q * o)) - ((1 - q) * p' + q * o) =
      (r (r (r (1 - q) * p) + r (q * o)) - (r (r (1 - q) * p) + r (q * o))) + (r (r (1 - q) * p) - r (1 - q) * p) +
      (r (q * o) - q * o) + (r (1 - q) - (1 - q)) * p + (1 - q) * (p - p') := by ring
  rw [split]
  refine (abs_add_le _ _).trans ?_
  refine (add_le_add_left (abs_add_le _ _) _).trans ?_
  refine (add_le_add_left (add_le_add_left (abs_add_le _ _) _) _).trans ?_
  refine (add_le_add_left (add_le_add_left (add_le_add_left (abs_add_le _ _) _) _) _).trans ?_
  linarith

/-- After `n` observations a merging cell differs from the exact value by at most `5 n 2^-54`. -/
theorem affine_rounded_accuracy (R : Nearest r) (as : List (Aoo K)) (h : DObs as) :
    |(as.foldl (affineF r) AffineCell.create).occ.prob - (as.foldl AffineCell.observe AffineCell.create).occ.prob| ≤
      5 * (as.length : K) * 2 ^ (-54 : ℤ) := by
  have hu := two_zpow_pos (K := K) (-54)
  have key : ∀ (as : List (Aoo K)) (c c' : AffineCell K), DObs as → DProb c.occ.prob →
      |(as.foldl (affineF r) c).occ.prob - (as.foldl AffineCell.observe c').occ.prob| ≤
        |c.occ.prob - c'.occ.prob| + 5 * (as.length : K) * 2 ^ (-54 : ℤ) := by
    intro as
    induction as with
    | nil => intro c c' _ _; simp
    | cons a as ih =>
      intro c c' h hc
      have htl : DObs as := fun b hb => h b (List.mem_cons_of_mem _ hb)
      rw [List.foldl_cons, List.foldl_cons]
      refine (ih _ _ htl (affine_step R c a hc (h a List.mem_cons_self).1)).trans ?_
      have : |(affineF r c a).occ.prob - (c'.observe a).occ.prob| ≤ |c.occ.prob - c'.occ.prob| + 5 * 2 ^ (-54 : ℤ) := by
        unfold affineF AffineCell.observe
        match hao : a.occ with
        | none => simp only; linarith
        | some o =>
          have ho := (h a List.mem_cons_self).1 o hao
          exact affine_err R hc.2 ho.2.2 ho.1.2
      rw [List.length_cons]; push_cast
      linarith
  have := key as AffineCell.create AffineCell.create h
    ⟨isDouble_half, by norm_num [AffineCell.create], by norm_num [AffineCell.create]⟩
  simpa using this

/-- One step of a running mean. -/
theorem running_err (R : Nearest r) {p p' t t' : K} {n : Nat} (hn : 1 ≤ n) (hp : 0 ≤ p ∧ p ≤ 1) (ht : 0 ≤ t ∧ t ≤ 1)
    (hn53 : n ≤ 2 ^ 53) :
    |r (r (r (p * ((n : K) - 1)) + t) / (n : K)) - (p' * ((n : K) - 1) + t') / (n : K)| ≤
      |p - p'| + |t - t'| + 3 * 2 ^ (-53 : ℤ) := by
  have hu := two_zpow_pos (K := K) (-53)
  have hn1' : (1 : K) ≤ n := by exact_mod_cast hn
  have hn0 : (0 : K) < n := by linarith
  have small : (2 : K) ^ (-1022 : ℤ) ≤ 1 := by
    have := two_zpow_le (K := K) (a := -1022) (b := 0) (by norm_num)
    rwa [zpow_zero] at this
  have hn1 : ((n : K) - 1) = ((n - 1 : Nat) : K) := by rw [Nat.cast_sub hn]; simp
  have hd1 : IsDouble ((n : K) - 1) := by rw [hn1]; exact isDouble_nat (by omega)
  have hge : (0 : K) ≤ (n : K) - 1 := by linarith
  have a0 : 0 ≤ p * ((n : K) - 1) ∧ p * ((n : K) - 1) ≤ (n : K) - 1 := ⟨mul_nonneg hp.1 hge, mul_le_of_le_one_left hge hp.2⟩
  have a1 := R.err_mul (x := p * ((n : K) - 1)) (B := n) (by linarith) (by rw [abs_le]; constructor <;> linarith [a0.1, a0.2])
  have a2 : 0 ≤ r (p * ((n : K) - 1)) ∧ r (p * ((n : K) - 1)) ≤ (n : K) - 1 := ⟨R.nonneg a0.1, R.le_of_le hd1 a0.2⟩
  set A := r (p * ((n : K) - 1))
  have b1 := R.err_mul (x := A + t) (B := n) (by linarith) (by rw [abs_le]; constructor <;> linarith [a2.1, a2.2, ht.1, ht.2])
  have b2 : 0 ≤ r (A + t) ∧ r (A + t) ≤ n := ⟨R.nonneg (by linarith [a2.1, ht.1]), R.le_of_le (isDouble_nat hn53) (by linarith [a2.2, ht.2])⟩
  set S := r (A + t)
  have c0 : 0 ≤ S / n ∧ S / n ≤ 1 := ⟨div_nonneg b2.1 hn0.le, (div_le_one hn0).2 b2.2⟩
  have c1 := R.err_mul (x := S / n) (B := 1) small (by rw [abs_le]; constructor <;> linarith [c0.1, c0.2])
  have d : |S - (p' * ((n : K) - 1) + t')| ≤ (n : K) * (|p - p'| + |t - t'| + 2 * 2 ^ (-53 : ℤ)) := by
    have e : S - (p' * ((n : K) - 1) + t') = (S - (A + t)) + (A - p * ((n : K) - 1)) + (p - p') * ((n : K) - 1) + (t - t') := by ring
    rw [e]
    refine (abs_add_le _ _).trans ?_
    refine (add_le_add_left (abs_add_le _ _) _).trans ?_
    refine (add_le_add_left (add_le_add_left (abs_add_le _ _) _) _).trans ?_
    rw [abs_mul, abs_of_nonneg hge]
    have h1 := abs_nonneg (p - p')
    have h2 := abs_nonneg (t - t')
    nlinarith
  have e : r (S / n) - (p' * ((n : K) - 1) + t') / (n : K) = (r (S / n) - S / n) + (S - (p' * ((n : K) - 1) + t')) / n := by
    field_simp; ring
  rw [e]
  refine (abs_add_le _ _).trans ?_
  rw [abs_div, abs_of_pos hn0]
  have : |S - (p' * ((n : K) - 1) + t')| / n ≤ |p - p'| + |t - t'| + 2 * 2 ^ (-53 : ℤ) := by
    rw [div_le_iff₀ hn0]; linarith [mul_comm (n : K) (|p - p'| + |t - t'| + 2 * 2 ^ (-53 : ℤ))]
  linarith

/-- The observed value of a mean cell. -/
theorem mean_value_err (R : Nearest r) {p q : K} (hp : DProb p) (hq : DProb q) :
    |r (1 / 2 + r (r (p - 1 / 2) * q)) - (1 / 2 + (p - 1 / 2) * q)| ≤ 3 * 2 ^ (-53 : ℤ) := by
  have hu := two_zpow_pos (K := K) (-53)
  have small : (2 : K) ^ (-1022 : ℤ) ≤ 1 := by
    have := two_zpow_le (K := K) (a := -1022) (b := 0) (by norm_num)
    rwa [zpow_zero] at this
  have hh := isDouble_half (K := K)
  have h1 : -(1 / 2) ≤ r (p - 1 / 2) := R.ge_of_ge hh.neg (by linarith [hp.2.1])
  have h2 : r (p - 1 / 2) ≤ 1 / 2 := R.le_of_le hh (by linarith [hp.2.2])
  have e1 := R.err_mul (x := p - 1 / 2) (B := 1) small (by rw [abs_le]; constructor <;> linarith [hp.2.1, hp.2.2])
  have h3 : |r (p - 1 / 2) * q| ≤ 1 / 2 := by
    rw [abs_mul, abs_of_nonneg hq.2.1]
    have : |r (p - 1 / 2)| ≤ 1 / 2 := abs_le.2 ⟨h1, h2⟩
    nlinarith [hq.2.1, hq.2.2, abs_nonneg (r (p - 1 / 2))]
  have e2 := R.err_mul (x := r (p - 1 / 2) * q) (B := 1) small (by linarith)
  rw [abs_le] at h3
  have h4 : -(1 / 2) ≤ r (r (p - 1 / 2) * q) := R.ge_of_ge hh.neg h3.1
  have h5 : r (r (p - 1 / 2) * q) ≤ 1 / 2 := R.le_of_le hh h3.2
  have e3 := R.err_mul (x := 1 / 2 + r (r (p - 1 / 2) * q)) (B := 1) small (by rw [abs_le]; constructor <;> linarith)
  have e4 : |(r (p - 1 / 2) - (p - 1 / 2)) * q| ≤ 2 ^ (-53 : ℤ) * 1 := by
    rw [abs_mul, abs_of_nonneg hq.2.1]
    exact (mul_le_of_le_one_right (abs_nonneg _) hq.2.2).trans e1
  have e : r (1 / 2 + r (r (p - 1 / 2) * q)) - (1 / 2 + (p - 1 / 2) * q) =
      (r (1 / 2 + r (r (p - 1 / 2) * q)) - (1 / 2 + r (r (p - 1 / 2) * q))) +
      (r (r (p - 1 / 2) * q) - r (p - 1 / 2) * q) + (r (p - 1 / 2) - (p - 1 / 2)) * q := by ring
  rw [e]
  refine (abs_add_le _ _).trans ?_
  refine (add_le_add_left (abs_add_le _ _) _).trans ?_
  linarith

/-- After `n` observations a mean cell differs from the exact mean by at most `6 n 2^-53`. -/
theorem mean_rounded_accuracy (R : Nearest r) (as : List (Aoo K)) (h : DObs as) (hl : as.length ≤ 2 ^ 53) :
    |(as.foldl (meanF r) MeanCell.create).occ.prob - (as.foldl MeanCell.observe MeanCell.create).occ.prob| ≤
      6 * (as.length : K) * 2 ^ (-53 : ℤ) := by
  have hu := two_zpow_pos (K := K) (-53)
  have key : ∀ (as : List (Aoo K)) (c c' : MeanCell K) (n : Nat), DObs as → DProb c.occ.prob → c.n = n → c'.n = n →
      n + as.length ≤ 2 ^ 53 →
      |(as.foldl (meanF r) c).occ.prob - (as.foldl MeanCell.observe c').occ.prob| ≤
        |c.occ.prob - c'.occ.prob| + 6 * (as.length : K) * 2 ^ (-53 : ℤ) := by
    intro as
    induction as with
    | nil => intro c c' n _ _ _ _ _; simp
    | cons a as ih =>
      intro c c' n h hc hn hn' hl
      have htl : DObs as := fun b hb => h b (List.mem_cons_of_mem _ hb)
      rw [List.length_cons] at hl
      rw [List.foldl_cons, List.foldl_cons, List.length_cons]
      match hao : a.occ with
      | none =>
        have e : meanF r c a = c := by unfold meanF; rw [hao]
        have e' : c'.observe a = c' := by unfold MeanCell.observe; rw [hao]
        rw [e, e']
        refine (ih c c' n htl hc hn hn' (by omega)).trans ?_
        push_cast; linarith
      | some o =>
        have ho := (h a List.mem_cons_self).1 o hao
        have hnn : r ((n : K) + 1) = ((n + 1 : Nat) : K) := by
          have := R.fix (isDouble_nat (K := K) (n := n + 1) (by omega)); push_cast at this ⊢; exact this
        have hnm : r (((n + 1 : Nat) : K) - 1) = ((n + 1 : Nat) : K) - 1 := by
          have : (((n + 1 : Nat) : K) - 1) = (n : K) := by push_cast; ring
          rw [this]; exact R.fix (isDouble_nat (by omega))
        have e : meanF r c a = ⟨⟨r (r (r (c.occ.prob * (((n + 1 : Nat) : K) - 1)) +
            r (1 / 2 + r (r (o.prob - 1 / 2) * a.quality))) / ((n + 1 : Nat) : K)), c.occ.qual⟩, false, ((n + 1 : Nat) : K)⟩ := by
          unfold meanF; rw [hao]; simp only [hn, hnn, hnm]
        have e' : c'.observe a = ⟨⟨(c'.occ.prob * (((n + 1 : Nat) : K) - 1) +
            (1 / 2 + (o.prob - 1 / 2) * a.quality)) / ((n + 1 : Nat) : K), c'.occ.qual⟩, false, ((n + 1 : Nat) : K)⟩ := by
          unfold MeanCell.observe; rw [hao]; simp only [hn']; push_cast; rfl
        rw [e, e']
        have hv := mean_value R ho.1 ho.2
        refine (ih _ _ (n + 1) htl (running_mean R (by omega) (by omega) (Or.inl hc.2) hv) rfl rfl (by omega)).trans ?_
        have h1 := running_err R (p := c.occ.prob) (p' := c'.occ.prob) (t := r (1 / 2 + r (r (o.prob - 1 / 2) * a.quality)))
          (t' := 1 / 2 + (o.prob - 1 / 2) * a.quality) (n := n + 1) (by omega) hc.2 hv (by omega)
        have h2 := mean_value_err R ho.1 ho.2
        simp only at h1 ⊢
        push_cast at h1 ⊢
        linarith
  have := key as MeanCell.create MeanCell.create 0 h
    ⟨isDouble_half, by norm_num [MeanCell.create], by norm_num [MeanCell.create]⟩ (by simp [MeanCell.create])
    (by simp [MeanCell.create]) (by omega)
  simpa using this

end

/-! ## Not vacuous -/

/-- Two doubles as observations: 3/4 with quality 1/2, then an invalid one, then 1 with quality 3/8. -/
def demoD : List (Aoo ℚ) :=
  [⟨true, some ⟨3 / 4, 1⟩, ⟨1, 2⟩, 1 / 2⟩, ⟨false, none, ⟨0, 0⟩, 1⟩, ⟨true, some ⟨1, 1⟩, ⟨1 / 2, 2⟩, 3 / 8⟩]

theorem demoD_obs : DObs demoD := by
  have q : ∀ (m e : ℤ) (x : ℚ), |m| ≤ 2 ^ 53 → -1074 ≤ e → x = (m : ℚ) * 2 ^ e → 0 ≤ x → x ≤ 1 → DProb x :=
    fun m e x a b c d f => ⟨⟨m, e, a, b, c⟩, d, f⟩
  intro a ha
  simp only [demoD, List.mem_cons, List.not_mem_nil, or_false] at ha
  rcases ha with rfl | rfl | rfl
  · refine ⟨fun o ho => ?_, ⟨1, 0, by norm_num, by norm_num, by norm_num⟩, ⟨2, 0, by norm_num, by norm_num, by norm_num⟩⟩
    simp only [Option.some.injEq] at ho; subst ho
    exact ⟨q 3 (-2) _ (by norm_num) (by norm_num) (by norm_num) (by norm_num) (by norm_num),
      q 1 (-1) _ (by norm_num) (by norm_num) (by norm_num) (by norm_num) (by norm_num)⟩
  · exact ⟨by simp, isDouble_zero, isDouble_zero⟩
  · refine ⟨fun o ho => ?_, ⟨1, -1, by norm_num, by norm_num, by norm_num⟩, ⟨2, 0, by norm_num, by norm_num, by norm_num⟩⟩
    simp only [Option.some.injEq] at ho; subst ho
    exact ⟨q 1 0 _ (by norm_num) (by norm_num) (by norm_num) (by norm_num) (by norm_num),
      q 3 (-3) _ (by norm_num) (by norm_num) (by norm_num) (by norm_num) (by norm_num)⟩

example : DProb (demoD.foldl (affineF rne) AffineCell.create).occ.prob :=
  affine_rounded_probability rne_nearest _ demoD_obs
example : DProb (demoD.foldl (gmF rne) GmCell.create).occ.prob :=
  gm_rounded_probability rne_nearest _ demoD_obs (by simp [demoD]) ⟨_, List.mem_cons_self, by simp⟩

end Slam.Float
