import Verif.Float.Required

/-!
# Two normalised weights in `double` never call for resampling

`normalize_weights` and `resampling_is_required`, src/core/particle_filter.h:34-43, 107-112, with one or two particles (C118).
-/

set_option autoImplicit false
set_option linter.unusedSectionVars false

namespace Slam.Float
open Slam.Particle

variable {K : Type*} [Field K] [LinearOrder K] [IsStrictOrderedRing K] [FloorRing K]

variable {r : K → K}

/-- The arithmetic of it. -/
theorem squares_arith {u x y : K} (hu0 : 0 < u) (hus : u ≤ 1 / 1000000) (hx0 : 0 ≤ x) (hy0 : 0 ≤ y) (hxh : 1 / 4 ≤ x) (hc : 16 * u ≤ y)
    (hxy : (1 - u) * (x + y) ≤ 1) :
    (1 + u) * (((1 + u) * x) * ((1 + u) * x)) + (1 + u) * (((1 + u) * y) * ((1 + u) * y)) < 1 + u := by
  have huu : u * u ≤ u * (1 / 1000000) := mul_le_mul_of_nonneg_left hus hu0.le
  have huu0 : 0 < u * u := mul_pos hu0 hu0
  have q1 : x + y ≤ 1 + 2 * u := by
    by_contra hcc
    push Not at hcc
    have h1 : (1 - u) * (1 + 2 * u) < (1 - u) * (x + y) := mul_lt_mul_of_pos_left hcc (by linarith)
    have h2 : (1 - u) * (1 + 2 * u) = 1 + u - 2 * (u * u) := by ring
    linarith
  have q2 : 4 * u ≤ x * y := by
    calc 4 * u = 1 / 4 * (16 * u) := by ring
      _ ≤ x * y := mul_le_mul hxh hc (by linarith) hx0
  have q3 : x * x + y * y ≤ 1 - 4 * u + 4 * (u * u) := by
    have h1 : (x + y) * (x + y) ≤ (1 + 2 * u) * (1 + 2 * u) := mul_self_le_mul_self (by linarith) q1
    have h2 : (x + y) * (x + y) = x * x + y * y + 2 * (x * y) := by ring
    have h3 : (1 + 2 * u) * (1 + 2 * u) = 1 + 4 * u + 4 * (u * u) := by ring
    linarith
  have q4 : x * x + y * y ≤ 1 - 3 * u - 1 / 2 * u := by linarith
  have c1 : (1 + u) * (1 + u) ≤ 1 + 2 * u + u * (1 / 1000000) := by
    have : (1 + u) * (1 + u) = 1 + 2 * u + u * u := by ring
    linarith
  have c2 : (1 + u) * (1 + u) * (x * x + y * y) ≤ (1 + 2 * u + u * (1 / 1000000)) * (1 - 3 * u - 1 / 2 * u) :=
    mul_le_mul c1 q4 (by positivity) (by positivity)
  have c3 : (1 + 2 * u + u * (1 / 1000000)) * (1 - 3 * u - 1 / 2 * u) < 1 := by
    have : (1 + 2 * u + u * (1 / 1000000)) * (1 - 3 * u - 1 / 2 * u) =
      1 - 3 / 2 * u + 1 / 1000000 * u - (7 + 7 / 2000000) * (u * u) := by ring
    rw [this]
    linarith
  calc (1 + u) * (((1 + u) * x) * ((1 + u) * x)) + (1 + u) * (((1 + u) * y) * ((1 + u) * y)) =
        (1 + u) * ((1 + u) * (1 + u) * (x * x + y * y)) := by ring
    _ < (1 + u) * 1 := mul_lt_mul_of_pos_left (c2.trans_lt c3) (by linarith)
    _ = 1 + u := by ring

/-- The squares of two normalised weights, the first at least as heavy as the second, do not add up to more than one and half the gap
above one. -/
theorem two_squares (R : Nearest r) {a b : K} (ha : IsDouble a) (hb : IsDouble b) (hb0 : 0 ≤ b) (hba : b ≤ a) (ha0 : 0 < a) :
    r (r (a / r (a + b)) * r (a / r (a + b))) + r (r (b / r (a + b)) * r (b / r (a + b))) < 1 + 2 ^ (-53 : ℤ) := by
  obtain ⟨u, hu⟩ : ∃ u : K, u = 2 ^ (-53 : ℤ) := ⟨_, rfl⟩
  rw [← hu]
  have hu0 : 0 < u := by rw [hu]; exact two_zpow_pos _
  have hus : u ≤ 1 / 1000000 := by rw [hu]; norm_num
  set t := r (a + b) with ht
  have hsum : 0 < a + b := by linarith
  have e1 := R.rel_add ha hb
  rw [← hu, abs_of_pos hsum] at e1
  have e1' := abs_le.1 e1
  have hta : a ≤ t := R.ge_of_ge ha (by linarith)
  have ht0 : 0 < t := ha0.trans_le hta
  have hlow : (1 - u) * (a + b) ≤ t := by linarith [e1'.1]
  have hhigh : t ≤ (1 + u) * (a + b) := by linarith [e1'.2]
  set x := a / t with hx
  set y := b / t with hy
  have hx1 : x ≤ 1 := (div_le_one ht0).2 hta
  have hx0 : 0 ≤ x := by positivity
  have hy0 : 0 ≤ y := by positivity
  have hyx : y ≤ x := div_le_div_of_nonneg_right hba ht0.le
  have hxy : (1 - u) * (x + y) ≤ 1 := by
    rw [hx, hy, ← add_div, ← mul_div_assoc, div_le_one ht0]
    exact hlow
  have hxy' : 1 ≤ (1 + u) * (x + y) := by
    rw [hx, hy, ← add_div, ← mul_div_assoc, one_le_div ht0]
    exact hhigh
  have hxh : 1 / 4 ≤ x := by
    by_contra hc
    push Not at hc
    have h1 : (1 + u) * (x + y) ≤ (1 + u) * (1 / 2) := mul_le_mul_of_nonneg_left (by linarith) (by linarith)
    have h2 : (1 + u) * (1 / 2) < 1 := by linarith
    linarith
  have hrx0 : 0 ≤ r x := R.nonneg hx0
  have hrx1 : r x ≤ 1 := R.le_of_le isDouble_one hx1
  have hA1 : r (r x * r x) ≤ 1 := R.le_of_le isDouble_one (mul_le_one₀ hrx1 hrx0 hrx1)
  have small : ∀ k : ℤ, -1074 ≤ k → IsDouble ((2 : K) ^ k) := fun k hk => ⟨1, k, by norm_num, hk, by simp⟩
  rcases le_or_gt y (2 ^ (-49 : ℤ)) with hc | hc
  · have h1 : r y ≤ 2 ^ (-49 : ℤ) := R.le_of_le (small _ (by norm_num)) hc
    have h0 : 0 ≤ r y := R.nonneg hy0
    have h2 : r y * r y ≤ 2 ^ (-98 : ℤ) := by
      calc r y * r y ≤ 2 ^ (-49 : ℤ) * 2 ^ (-49 : ℤ) := mul_le_mul h1 h1 h0 (two_zpow_pos _).le
        _ = 2 ^ (-98 : ℤ) := by rw [← zpow_add₀ (by norm_num)]; norm_num
    have h3 : r (r y * r y) ≤ 2 ^ (-98 : ℤ) := R.le_of_le (small _ (by norm_num)) h2
    have h4 : (2 : K) ^ (-98 : ℤ) < u := by rw [hu]; exact zpow_lt_zpow_right₀ (by norm_num) (by norm_num)
    linarith
  · have h16 : (2 : K) ^ (-49 : ℤ) = 16 * u := by rw [hu]; norm_num
    have up : ∀ z : K, 2 ^ (-49 : ℤ) ≤ z → r (r z * r z) ≤ (1 + u) * (((1 + u) * z) * ((1 + u) * z)) := by
      intro z hz
      have hz0 : 0 < z := (two_zpow_pos _).trans_le hz
      have k1 := R.rel (x := z) (by rw [abs_of_pos hz0]; exact (two_zpow_le (by norm_num)).trans hz)
      rw [abs_of_pos hz0, ← hu] at k1
      have k1' := (abs_le.1 k1).2
      have k2 : r z ≤ (1 + u) * z := by linarith
      have k3 : 2 ^ (-49 : ℤ) ≤ r z := R.ge_of_ge (small _ (by norm_num)) hz
      have k0 : 0 < r z := (two_zpow_pos _).trans_le k3
      have k4 : (2 : K) ^ (-98 : ℤ) ≤ r z * r z := by
        calc (2 : K) ^ (-98 : ℤ) = 2 ^ (-49 : ℤ) * 2 ^ (-49 : ℤ) := by rw [← zpow_add₀ (by norm_num)]; norm_num
          _ ≤ r z * r z := mul_le_mul k3 k3 (two_zpow_pos _).le k0.le
      have kp : 0 < r z * r z := mul_pos k0 k0
      have k5 := R.rel (x := r z * r z) (by rw [abs_of_pos kp]; exact (two_zpow_le (by norm_num)).trans k4)
      rw [abs_of_pos kp, ← hu] at k5
      have k5' := (abs_le.1 k5).2
      have k6 : r z * r z ≤ ((1 + u) * z) * ((1 + u) * z) := mul_le_mul k2 k2 k0.le (by positivity)
      calc r (r z * r z) ≤ (1 + u) * (r z * r z) := by linarith
        _ ≤ _ := mul_le_mul_of_nonneg_left k6 (by linarith)
    have hA := up x (by
      have : (2 : K) ^ (-49 : ℤ) ≤ 1 / 4 := by norm_num
      linarith)
    have hB := up y hc.le
    rw [h16] at hc
    exact (add_le_add hA hB).trans_lt (squares_arith hu0 hus hx0 hy0 hxh hc.le hxy)

/-- **In doubles (C118)**: one or two weights, normalised as the program does it, rounding included, call for no resampling; here the
sum of all weights is positive (otherwise they become NaN, and the comparison is false). -/
theorem two_keep_rounded (R : Nearest r) (ws : List K) (h : DNonneg ws) (hpos : ∃ w ∈ ws, 0 < w) (hlen : ws.length ≤ 2) :
    requiredF r (normalizeF r ws) = false := by
  have key : ∀ s : K, 0 ≤ s → s ≤ 1 → ∀ n : K, n ≤ 2 → (if s = 0 then false else decide (r (r (1 / s) * 2) < n)) = false := by
    intro s h0 h1 n hn
    by_cases hs : s = 0
    · rw [if_pos hs]
    · rw [if_neg hs]
      have hsp : 0 < s := lt_of_le_of_ne h0 (Ne.symm hs)
      have k1 : 1 ≤ r (1 / s) := R.ge_of_ge isDouble_one ((one_le_div hsp).2 h1)
      have k2 : (2 : K) ≤ r (r (1 / s) * 2) := R.ge_of_ge ⟨2, 0, by norm_num, by norm_num, by simp⟩ (by linarith)
      simpa using hn.trans k2
  match ws, hlen with
  | [], _ => simp at hpos
  | [a], _ =>
    have ha := h a (by simp)
    have ha0 : 0 < a := by simpa using hpos
    have e : normalizeF r [a] = [1] := by
      simp only [normalizeF, sumF, List.foldl, List.map, zero_add, R.fix ha.1, div_self ha0.ne', R.fix isDouble_one]
    rw [e]
    refine key _ ?_ ?_ _ ?_
    · simp [sumF, R.fix isDouble_one]
    · simp [sumF, R.fix isDouble_one]
    · norm_num
  | [a, b], _ =>
    have ha := h a (by simp)
    have hb := h b (by simp)
    have e : normalizeF r [a, b] = [r (a / r (a + b)), r (b / r (a + b))] := by
      simp only [normalizeF, sumF, List.foldl, List.map, zero_add, R.fix ha.1]
    rw [e]
    have es : sumF r 0 ([r (a / r (a + b)), r (b / r (a + b))].map fun w => r (w * w)) =
        r (r (r (a / r (a + b)) * r (a / r (a + b))) + r (r (b / r (a + b)) * r (b / r (a + b)))) := by
      simp only [sumF, List.foldl, List.map, zero_add, R.fix (R.dbl _)]
    unfold requiredF
    simp only
    rw [es]
    refine key _ (R.nonneg (add_nonneg (R.nonneg (mul_self_nonneg _)) (R.nonneg (mul_self_nonneg _)))) (R.le_one ?_) _ (by simp)
    rcases le_total b a with hba | hba
    · refine two_squares R ha.1 hb.1 hb.2 hba ?_
      rcases lt_or_eq_of_le ha.2 with h0 | h0
      · exact h0
      · obtain ⟨w, hw, hw0⟩ := hpos
        simp only [List.mem_cons, List.not_mem_nil, or_false] at hw
        rcases hw with rfl | rfl
        · exact hw0
        · linarith
    · rw [add_comm (r (r (a / r (a + b)) * _)), add_comm a b]
      refine two_squares R hb.1 ha.1 ha.2 hba ?_
      rcases lt_or_eq_of_le hb.2 with h0 | h0
      · exact h0
      · obtain ⟨w, hw, hw0⟩ := hpos
        simp only [List.mem_cons, List.not_mem_nil, or_false] at hw
        rcases hw with rfl | rfl
        · linarith
        · exact hw0

/-- Three weights that do, rounding included: two of them carry nothing. -/
example : requiredF rne (normalizeF rne ([1, 0, 0] : List ℚ)) = true := by
  have h1 : rne (1 : ℚ) = 1 := rne_nearest.fix isDouble_one
  have h0 : rne (0 : ℚ) = 0 := rne_nearest.fix isDouble_zero
  have h2 : rne (2 : ℚ) = 2 := rne_nearest.fix ⟨2, 0, by norm_num, by norm_num, by simp⟩
  simp [requiredF, normalizeF, sumF, h1, h0, h2]
  norm_num

/-- Two weights as different as can be. -/
example : requiredF rne (normalizeF rne ([1, 1 / 2 ^ 60] : List ℚ)) = false := by
  refine two_keep_rounded rne_nearest _ ?_ ⟨1, by simp, by norm_num⟩ (by simp)
  intro w hw
  fin_cases hw
  · exact ⟨isDouble_one, by norm_num⟩
  · exact ⟨⟨1, -60, by norm_num, by norm_num, by norm_num⟩, by norm_num⟩

end Slam.Float
