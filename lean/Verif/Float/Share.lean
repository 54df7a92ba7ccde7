import Verif.Float.Two

/-!
# The weights of particles over many scans, computed in `double`

The weight is multiplied by the score (src/slams/gmapping/gmapping_world.h:99), then all weights are normalised
(src/core/particle_filter.h:107-112), scan after scan, without resampling (C119).
-/

set_option autoImplicit false
set_option linter.unusedSectionVars false

namespace Slam.Float
open Slam.Particle

variable {K : Type*} [Field K] [LinearOrder K] [IsStrictOrderedRing K] [FloorRing K]

variable {r : K → K}

/-- One scan, `n` particles: `w i` is multiplied by the score `q i`, gmapping_world.h:99; then `normalize_weights`,
particle_filter.h:107-112. -/
def weighF (r : K → K) (n : Nat) (q w : Nat → K) : Nat → K := fun i =>
  r (r (q i * w i) / sumF r 0 ((List.range n).map fun j => r (q j * w j)))

/-- The weights are normalised with the model of C109. -/
theorem weighF_normalized (n : Nat) (q w : Nat → K) :
    (List.range n).map (weighF r n q w) = normalizeF r ((List.range n).map fun j => r (q j * w j)) := by
  simp [normalizeF, weighF, Function.comp_def]

/-- Scans one after another. -/
def weighAllF (r : K → K) (n : Nat) : (Nat → K) → List (Nat → K) → Nat → K
  | w, [] => w
  | w, q :: qs => weighAllF r n (weighF r n q w) qs

/-! ## Specification -/

/-- No weight gets so small that doubles lose precision: nothing falls below `2 ^ -1022`. -/
def Regular (r : K → K) (n : Nat) : (Nat → K) → List (Nat → K) → Prop
  | _, [] => True
  | w, q :: qs => (∀ i < n, 2 ^ (-1022 : ℤ) ≤ q i * w i ∧ 2 ^ (-1022 : ℤ) < weighF r n q w i) ∧ Regular r n (weighF r n q w) qs

/-- The product of the weight at the start and all scores. -/
def scoreProduct (w : Nat → K) (qs : List (Nat → K)) (i : Nat) : K := w i * (qs.map fun q => q i).prod

/-! ## Proofs -/

theorem positive_product (l : List K) (h : ∀ x ∈ l, 0 < x) : 0 < l.prod := by
  induction l with
  | nil => simp
  | cons a l ih =>
    rw [List.prod_cons]
    exact mul_pos (h a (by simp)) (ih fun x hx => h x (by simp [hx]))

/-- The ratio of two weights after one scan. -/
theorem weigh_ratio (R : Nearest r) {n : Nat} {q w : Nat → K}
    (h : ∀ i < n, 2 ^ (-1022 : ℤ) ≤ q i * w i ∧ 2 ^ (-1022 : ℤ) < weighF r n q w i) {i j : Nat} (hi : i < n) (hj : j < n)
    {u : K} (hu : u = 2 ^ (-53 : ℤ)) :
    weighF r n q w i * ((1 - u) ^ 2 * (q j * w j)) ≤ weighF r n q w j * ((1 + u) ^ 2 * (q i * w i)) := by
  have hu0 : 0 < u := by rw [hu]; exact two_zpow_pos _
  have hu1 : u < 1 := by rw [hu]; norm_num
  have hnn : DNonneg ((List.range n).map fun j => r (q j * w j)) := by
    intro x hx
    obtain ⟨k, hk, rfl⟩ := List.mem_map.1 hx
    exact ⟨R.dbl _, R.nonneg ((two_zpow_pos _).le.trans (h k (List.mem_range.1 hk)).1)⟩
  obtain ⟨-, -, hle⟩ := le_sumF R hnn isDouble_zero le_rfl
  set T := sumF r 0 ((List.range n).map fun j => r (q j * w j)) with hT
  have near : ∀ x : K, 2 ^ (-1022 : ℤ) ≤ x → (1 - u) * x ≤ r x ∧ r x ≤ (1 + u) * x := by
    intro x hx
    have hx0 : 0 < x := (two_zpow_pos _).trans_le hx
    have k := R.rel (x := x) (by rw [abs_of_pos hx0]; exact hx)
    rw [abs_of_pos hx0, ← hu] at k
    have k' := abs_le.1 k
    exact ⟨by linarith [k'.1], by linarith [k'.2]⟩
  have one : ∀ k < n, 0 < T ∧ (1 - u) ^ 2 * (q k * w k) ≤ weighF r n q w k * T ∧ weighF r n q w k * T ≤ (1 + u) ^ 2 * (q k * w k) := by
    intro k hk
    obtain ⟨h1, h2⟩ := h k hk
    obtain ⟨a1, a2⟩ := near _ h1
    have hp : 0 < q k * w k := (two_zpow_pos _).trans_le h1
    have hr0 : 0 < r (q k * w k) := lt_of_lt_of_le (mul_pos (by linarith) hp) a1
    have hT0 : 0 < T := hr0.trans_le (hle _ (List.mem_map.2 ⟨k, List.mem_range.2 hk, rfl⟩))
    have h3 : 2 ^ (-1022 : ℤ) ≤ r (q k * w k) / T := by
      by_contra hc
      have : weighF r n q w k ≤ 2 ^ (-1022 : ℤ) := R.le_of_le ⟨1, -1022, by norm_num, by norm_num, by simp⟩ (not_le.1 hc).le
      exact absurd h2 (not_lt.2 this)
    obtain ⟨b1, b2⟩ := near _ h3
    change (1 - u) * _ ≤ weighF r n q w k at b1
    change weighF r n q w k ≤ _ at b2
    have c1 : (1 - u) * r (q k * w k) ≤ weighF r n q w k * T := by
      have := mul_le_mul_of_nonneg_right b1 hT0.le
      rwa [mul_assoc, div_mul_cancel₀ _ hT0.ne'] at this
    have c2 : weighF r n q w k * T ≤ (1 + u) * r (q k * w k) := by
      have := mul_le_mul_of_nonneg_right b2 hT0.le
      rwa [mul_assoc, div_mul_cancel₀ _ hT0.ne'] at this
    refine ⟨hT0, ?_, ?_⟩
    · calc (1 - u) ^ 2 * (q k * w k) = (1 - u) * ((1 - u) * (q k * w k)) := by ring
        _ ≤ (1 - u) * r (q k * w k) := mul_le_mul_of_nonneg_left a1 (by linarith)
        _ ≤ _ := c1
    · calc weighF r n q w k * T ≤ (1 + u) * r (q k * w k) := c2
        _ ≤ (1 + u) * ((1 + u) * (q k * w k)) := mul_le_mul_of_nonneg_left a2 (by linarith)
        _ = _ := by ring
  obtain ⟨hT0, -, d1⟩ := one i hi
  obtain ⟨-, d2, -⟩ := one j hj
  have hwi : 0 < weighF r n q w i := (two_zpow_pos _).trans (h i hi).2
  have hwj : 0 < weighF r n q w j := (two_zpow_pos _).trans (h j hj).2
  refine le_of_mul_le_mul_right ?_ hT0
  calc weighF r n q w i * ((1 - u) ^ 2 * (q j * w j)) * T ≤ weighF r n q w i * (weighF r n q w j * T) * T :=
        mul_le_mul_of_nonneg_right (mul_le_mul_of_nonneg_left d2 hwi.le) hT0.le
    _ = weighF r n q w j * (weighF r n q w i * T) * T := by ring
    _ ≤ weighF r n q w j * ((1 + u) ^ 2 * (q i * w i)) * T :=
        mul_le_mul_of_nonneg_right (mul_le_mul_of_nonneg_left d1 hwj.le) hT0.le

/-- **In doubles (C119)**: after any number `k` of scans the ratio of two weights is that of the products of the scores, up to the factor
`((1 + u) / (1 - u)) ^ (2 k)` with `u = 2 ^ -53`, as long as no weight gets below the normal range. -/
theorem weights_ratio_rounded (R : Nearest r) (n : Nat) {u : K} (hu : u = 2 ^ (-53 : ℤ)) : ∀ (qs : List (Nat → K)) (w : Nat → K),
    (∀ i < n, 0 < w i) → (∀ q ∈ qs, ∀ i < n, 0 < q i) → Regular r n w qs → ∀ i < n, ∀ j < n,
    weighAllF r n w qs i * scoreProduct w qs j * (1 - u) ^ (2 * qs.length) ≤ weighAllF r n w qs j * scoreProduct w qs i * (1 + u) ^ (2 * qs.length)
  | [], w, _, _, _, i, _, j, _ => by
    simp only [weighAllF, scoreProduct, List.map_nil, List.prod_nil, mul_one, List.length_nil, mul_zero, pow_zero]
    exact (mul_comm _ _).le
  | q :: qs, w, hw, hq, h, i, hi, j, hj => by
    have hu0 : 0 < u := by rw [hu]; exact two_zpow_pos _
    have hu1 : u < 1 := by rw [hu]; norm_num
    obtain ⟨h1, h2⟩ := h
    have hw1 : ∀ k < n, 0 < weighF r n q w k := fun k hk => (two_zpow_pos _).trans (h1 k hk).2
    have hq' : ∀ q ∈ qs, ∀ i < n, 0 < q i := fun q hq2 => hq q (List.mem_cons_of_mem _ hq2)
    have ih := weights_ratio_rounded R n hu qs (weighF r n q w) hw1 hq' h2 i hi j hj
    have st := weigh_ratio R h1 hi hj hu
    have hpos : ∀ k < n, 0 < (qs.map fun q => q k).prod := by
      intro k hk
      apply positive_product
      intro x hx
      obtain ⟨q', hq2, rfl⟩ := List.mem_map.1 hx
      exact hq' q' hq2 k hk
    have hAi : 0 ≤ weighAllF r n (weighF r n q w) qs i ∧ 0 ≤ weighAllF r n (weighF r n q w) qs j := by
      have : ∀ (qs : List (Nat → K)) (w : Nat → K), (∀ i < n, 0 < w i) → Regular r n w qs → ∀ k < n, 0 < weighAllF r n w qs k := by
        intro qs
        induction qs with
        | nil => intro w hw _ k hk; exact hw k hk
        | cons q qs ih => intro w _ hr k hk; exact ih _ (fun i hi => (two_zpow_pos _).trans (hr.1 i hi).2) hr.2 k hk
      exact ⟨(this qs _ hw1 h2 i hi).le, (this qs _ hw1 h2 j hj).le⟩
    simp only [weighAllF, scoreProduct, List.map_cons, List.prod_cons, List.length_cons] at ih ⊢
    generalize weighAllF r n (weighF r n q w) qs i = A at *
    generalize weighAllF r n (weighF r n q w) qs j = B at *
    have vi := hw1 i hi
    have vj := hw1 j hj
    generalize weighF r n q w i = a at *
    generalize weighF r n q w j = b at *
    have pi := hpos i hi
    have pj := hpos j hj
    generalize (qs.map fun q => q i).prod = P at *
    generalize (qs.map fun q => q j).prod = Q at *
    have e1 : 0 ≤ (1 - u) ^ (2 * qs.length) := pow_nonneg (by linarith) _
    have e2 : 0 ≤ (1 + u) ^ (2 * qs.length) := pow_nonneg (by linarith) _
    have x1 : (1 - u) ^ (2 * (qs.length + 1)) = (1 - u) ^ (2 * qs.length) * (1 - u) ^ 2 := by rw [← pow_add]; ring_nf
    have x2 : (1 + u) ^ (2 * (qs.length + 1)) = (1 + u) ^ (2 * qs.length) * (1 + u) ^ 2 := by rw [← pow_add]; ring_nf
    rw [x1, x2]
    generalize (1 - u) ^ (2 * qs.length) = L at *
    generalize (1 + u) ^ (2 * qs.length) = H at *
    have gi : 0 < q i * w i := (two_zpow_pos _).trans_le (h1 i hi).1
    have gj : 0 < q j * w j := (two_zpow_pos _).trans_le (h1 j hj).1
    have hll : 0 ≤ (1 - u) ^ 2 := sq_nonneg _
    have hm := mul_le_mul ih st (mul_nonneg vi.le (mul_nonneg hll gj.le)) (mul_nonneg (mul_nonneg hAi.2 (mul_pos vi pi).le) e2)
    refine le_of_mul_le_mul_right ?_ (mul_pos vi vj)
    calc A * (w j * (q j * Q)) * (L * (1 - u) ^ 2) * (a * b) = A * (b * Q) * L * (a * ((1 - u) ^ 2 * (q j * w j))) := by ring
      _ ≤ _ := hm
      _ = B * (w i * (q i * P)) * (H * (1 + u) ^ 2) * (a * b) := by ring

/-- **The pose shown in doubles (C119)**: the product of the scores of a heaviest particle is, up to that factor, at least that of any
other. -/
theorem heaviest_rounded (R : Nearest r) (n : Nat) {u : K} (hu : u = 2 ^ (-53 : ℤ)) (qs : List (Nat → K)) (w : Nat → K)
    (hw : ∀ i < n, 0 < w i) (hq : ∀ q ∈ qs, ∀ i < n, 0 < q i) (h : Regular r n w qs) {b : Nat} (hb : b < n)
    (hmax : ∀ i < n, weighAllF r n w qs i ≤ weighAllF r n w qs b) (i : Nat) (hi : i < n) :
    scoreProduct w qs i * (1 - u) ^ (2 * qs.length) ≤ scoreProduct w qs b * (1 + u) ^ (2 * qs.length) := by
  have hu0 : 0 < u := by rw [hu]; exact two_zpow_pos _
  have k := weights_ratio_rounded R n hu qs w hw hq h b hb i hi
  have hpb : 0 ≤ scoreProduct w qs b := mul_nonneg (hw b hb).le (positive_product _ (by
    intro x hx
    obtain ⟨q, hq2, rfl⟩ := List.mem_map.1 hx
    exact hq q hq2 b hb)).le
  have hpos : ∀ (qs : List (Nat → K)) (w : Nat → K), (∀ i < n, 0 < w i) → Regular r n w qs → 0 < weighAllF r n w qs b := by
    intro qs
    induction qs with
    | nil => intro w hw _; exact hw b hb
    | cons q qs ih => intro w _ hr; exact ih _ (fun i hi => (two_zpow_pos _).trans (hr.1 i hi).2) hr.2
  have h1 := mul_le_mul_of_nonneg_right (hmax i hi) (mul_nonneg hpb (pow_nonneg (by linarith : 0 ≤ 1 + u) (2 * qs.length)))
  refine le_of_mul_le_mul_left ?_ (hpos qs w hw h)
  calc weighAllF r n w qs b * (scoreProduct w qs i * (1 - u) ^ (2 * qs.length)) = _ := (mul_assoc _ _ _).symm
    _ ≤ weighAllF r n w qs i * scoreProduct w qs b * (1 + u) ^ (2 * qs.length) := k
    _ = weighAllF r n w qs i * (scoreProduct w qs b * (1 + u) ^ (2 * qs.length)) := mul_assoc _ _ _
    _ ≤ _ := h1

/-- Without rounding it is the exact model's normalisation. -/
theorem weigh_exact (n : Nat) (q w : Nat → K) (h : ((List.range n).map fun j => q j * w j).sum ≠ 0) (i : Nat) :
    divN (mulN (some (q i)) (some (w i))) (sumN ((List.range n).map fun j => mulN (some (q j)) (some (w j)))) = some (weighF id n q w i) := by
  have e : ((List.range n).map fun j => mulN (some (q j)) (some (w j))) = ((List.range n).map fun j => q j * w j).map some := by
    rw [List.map_map]
    rfl
  rw [e, sum_exact, sumF_id, zero_add]
  simp only [mulN, divN, if_neg h, weighF, sumF_id, id, zero_add]

/-- Two particles, one scan: the scores are one and a half. -/
example : Regular (K := ℚ) rne 2 (fun _ => 1 / 2) [fun i => if i = 0 then 1 else 1 / 2] := by
  have one : ∀ x : ℚ, IsDouble x → rne x = x := fun x hx => rne_nearest.fix hx
  have d4 : rne (1 / 4 : ℚ) = 1 / 4 := one _ ⟨1, -2, by norm_num, by norm_num, by norm_num⟩
  have d2 : rne (1 / 2 : ℚ) = 1 / 2 := one _ isDouble_half
  have d3 : rne (3 / 4 : ℚ) = 3 / 4 := one _ ⟨3, -2, by norm_num, by norm_num, by norm_num⟩
  have lo : ∀ x : ℚ, 1 / 4 ≤ x → 2 ^ (-1022 : ℤ) < rne x := by
    intro x hx
    have h1 : (1 / 4 : ℚ) ≤ rne x := rne_nearest.ge_of_ge ⟨1, -2, by norm_num, by norm_num, by norm_num⟩ hx
    have h2 : (2 : ℚ) ^ (-1022 : ℤ) < 2 ^ (-2 : ℤ) := zpow_lt_zpow_right₀ (by norm_num) (by norm_num)
    have h3 : (2 : ℚ) ^ (-2 : ℤ) = 1 / 4 := by norm_num
    rw [h3] at h2
    exact h2.trans_le h1
  have small : ∀ x : ℚ, 1 / 4 ≤ x → (2 : ℚ) ^ (-1022 : ℤ) ≤ x := by
    intro x hx
    have h2 : (2 : ℚ) ^ (-1022 : ℤ) ≤ 2 ^ (-2 : ℤ) := two_zpow_le (by norm_num)
    have h3 : (2 : ℚ) ^ (-2 : ℤ) = 1 / 4 := by norm_num
    rw [h3] at h2
    exact h2.trans hx
  have hs : sumF rne 0 ((List.range 2).map fun j => rne ((if j = 0 then (1 : ℚ) else 1 / 2) * (1 / 2))) = 3 / 4 := by
    have : (1 / 2 + 1 / 4 : ℚ) = 3 / 4 := by norm_num
    have e : (1 / 2 * (1 / 2) : ℚ) = 1 / 4 := by norm_num
    simp only [List.range_succ, List.range_zero, List.nil_append, List.cons_append, List.map_cons, List.map_nil, sumF, List.foldl,
      if_true, one_mul, zero_add, d2, if_neg (by norm_num : ¬ (1 = 0)), e, d4, this, d3]
  refine ⟨fun i hi => ?_, trivial⟩
  obtain rfl | rfl : i = 0 ∨ i = 1 := by omega
  · refine ⟨small _ (by norm_num), ?_⟩
    unfold weighF
    rw [hs]
    simp only [if_true, one_mul, d2]
    exact lo _ (by norm_num)
  · refine ⟨small _ (by norm_num), ?_⟩
    unfold weighF
    rw [hs]
    have e : (1 / 2 * (1 / 2) : ℚ) = 1 / 4 := by norm_num
    simp only [if_neg (by norm_num : ¬ (1 = 0)), e, d4]
    exact lo _ (by norm_num)

end Slam.Float
