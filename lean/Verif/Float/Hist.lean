import Verif.Float.Round
import Verif.Score.Hist
import Mathlib.Analysis.Real.Pi.Bounds

/-!
# The angle histogram, computed in `double`

`estimate_ox_based_angle` and `hist_index` of src/core/features/angle_histogram.h with every arithmetic operation and the
square root rounded by `r`. The library's `acos` is a parameter: it is not required to be correctly rounded.
-/

set_option autoImplicit false
set_option linter.unusedSectionVars false

namespace Slam.Float
open Slam.Sensor Slam.Score

/-- `M_PI`: 3.141592653589793115997963468544185161590576171875. -/
def mPi {K : Type*} [Field K] : K := 884279719003555 / 281474976710656

/-- `angle_step`, angle_histogram.h:59-61 with `deg2rad`, math_utils.h:53-55. -/
def angleStepF {K : Type*} [Field K] (r : K → K) (n : Nat) : K := r (r (r (180 * mPi) / 180) / n)

/-- The index computed by `hist_index`, angle_histogram.h:93, before it is checked. -/
def rawIndexF {K : Type*} [Field K] [LinearOrder K] [FloorRing K] (r : K → K) (n : Nat) (angle : K) : ℤ :=
  ⌊r (angle / angleStepF r n)⌋

/-- `hist_index`, angle_histogram.h:91-96; `none` is a failed assertion. -/
def histIndexF {K : Type*} [Field K] [LinearOrder K] [FloorRing K] (r : K → K) (n : Nat) (angle : K) : Option Nat :=
  if 0 ≤ angle ∧ angle < mPi then
    if (rawIndexF r n angle).toNat < n then some (rawIndexF r n angle).toNat else none
  else none

open Classical in
/-- `estimate_ox_based_angle`, angle_histogram.h:71-88, for the Cartesian coordinates of the two points. -/
noncomputable def oxAngleF (r acos : ℝ → ℝ) (px py qx qy : ℝ) : ℝ :=
  let dx := r (qx - px)
  let dy := r (qy - py)
  if dy = 0 then 0
  else
    let dd := r (Real.sqrt (r (r (dx * dx) + r (dy * dy))))
    let angle := acos (r (dx / dd))
    if dy < 0 ∧ dx ≠ 0 then r (mPi - angle) else angle

/-! ## Specification -/

/-- What is assumed of the library's `acos`. -/
structure GoodAcos (acos : ℝ → ℝ) : Prop where
  near : ∀ v, -1 ≤ v → v ≤ 1 → |acos v - Real.arccos v| ≤ 2 ^ (-40 : ℤ)
  at_one : acos 1 = 0
  at_neg_one : acos (-1) = mPi

/-- The two points are at the same height, or the line through them is inclined to the x axis by more than 2^-24 (and the
difference is no tiny number). -/
def Inclined (r : ℝ → ℝ) (px py qx qy : ℝ) : Prop :=
  r (qy - py) = 0 ∨ (2 ^ (-24 : ℤ) * |r (qx - px)| ≤ |r (qy - py)| ∧ 2 ^ (-500 : ℤ) ≤ |r (qy - py)|)

/-! ## Proofs -/

theorem mPi_near : |mPi - Real.pi| ≤ 2 ^ (-52 : ℤ) := by
  have h1 := Real.pi_gt_d20
  have h2 := Real.pi_lt_d20
  rw [abs_le]
  unfold mPi
  norm_num at h1 h2 ⊢
  constructor <;> linarith

theorem mPi_double {K : Type*} [Field K] [LinearOrder K] [IsStrictOrderedRing K] : IsDouble (mPi : K) :=
  ⟨884279719003555, -48, by norm_num, by norm_num, by unfold mPi; norm_num⟩

/-- Far enough from the end of its domain the arc cosine is far from the end of its range. -/
theorem arccos_ge {v : ℝ} (h : -1 ≤ v) (hv : v ≤ 1 - 2 ^ (-53 : ℤ)) : 2 ^ (-26 : ℤ) ≤ Real.arccos v := by
  have h1 := Real.one_sub_sq_div_two_le_cos (x := Real.arccos v)
  have hp := two_zpow_pos (K := ℝ) (-53)
  rw [Real.cos_arccos h (by linarith)] at h1
  have h0 := Real.arccos_nonneg v
  have h2 : ((2 : ℝ) ^ (-26 : ℤ)) ^ 2 ≤ Real.arccos v ^ 2 := by
    have : ((2 : ℝ) ^ (-26 : ℤ)) ^ 2 = 2 * 2 ^ (-53 : ℤ) := by norm_num
    rw [this]; linarith
  exact (pow_le_pow_iff_left₀ (two_zpow_pos _).le h0 (by norm_num)).1 h2

theorem arccos_le {v : ℝ} (h : v ≤ 1) (hv : -(1 - 2 ^ (-53 : ℤ)) ≤ v) : Real.arccos v ≤ Real.pi - 2 ^ (-26 : ℤ) := by
  have := arccos_ge (v := -v) (by linarith) (by linarith)
  rw [Real.arccos_neg] at this
  linarith

section
variable {r : ℝ → ℝ}

/-- The quotient passed to `acos` stays away from ±1. -/
theorem quotient_inside (R : Nearest r) {x y : ℝ} (h1 : 2 ^ (-24 : ℤ) * |x| ≤ |y|) (h2 : 2 ^ (-500 : ℤ) ≤ |y|) :
    |r (x / r (Real.sqrt (r (r (x * x) + r (y * y)))))| ≤ 1 - 2 ^ (-53 : ℤ) := by
  have dbl : IsDouble (1 - 2 ^ (-53 : ℤ) : ℝ) := ⟨2 ^ 53 - 1, -53, by norm_num, by norm_num, by norm_num⟩
  have hu0 : (0 : ℝ) < 2 ^ (-53 : ℤ) := two_zpow_pos _
  have hu1 : (2 : ℝ) ^ (-53 : ℤ) ≤ 1 / 1000 := by norm_num
  have e24 : (2 : ℝ) ^ (-24 : ℤ) * 2 ^ (-24 : ℤ) = 32 * 2 ^ (-53 : ℤ) := by norm_num
  have p24 : (0 : ℝ) < 2 ^ (-24 : ℤ) := two_zpow_pos _
  have p500 : (0 : ℝ) < 2 ^ (-500 : ℤ) := two_zpow_pos _
  have e500 : (2 : ℝ) ^ (-500 : ℤ) * 2 ^ (-500 : ℤ) = 2 * 2 ^ (-1001 : ℤ) := by
    rw [← zpow_add₀ (by norm_num : (2 : ℝ) ≠ 0), show (-500 + -500 : ℤ) = -1001 + 1 by norm_num,
      zpow_add_one₀ (by norm_num)]; ring
  have p1001 : (0 : ℝ) < 2 ^ (-1001 : ℤ) := two_zpow_pos _
  have hm0 : (0 : ℝ) < 2 ^ (-1022 : ℤ) := two_zpow_pos _
  have hm1 : (2 : ℝ) ^ (-1022 : ℤ) ≤ 2 ^ (-1001 : ℤ) := two_zpow_le (by norm_num)
  have hm2 : (2 : ℝ) ^ (-1022 : ℤ) * 2 ^ (-1022 : ℤ) ≤ 2 ^ (-1001 : ℤ) := by
    rw [← zpow_add₀ (by norm_num : (2 : ℝ) ≠ 0)]; exact two_zpow_le (by norm_num)
  have rel := fun x => R.rel (x := x)
  have erm := fun x B => R.err_mul (x := x) (B := B)
  generalize (2 : ℝ) ^ (-53 : ℤ) = u at *
  generalize (2 : ℝ) ^ (-24 : ℤ) = c at *
  generalize (2 : ℝ) ^ (-500 : ℤ) = f at *
  generalize (2 : ℝ) ^ (-1001 : ℤ) = t at *
  generalize (2 : ℝ) ^ (-1022 : ℤ) = m at *
  have hy0 : 0 < |y| := lt_of_lt_of_le p500 h2
  have hyy : y * y = |y| * |y| := (abs_mul_abs_self y).symm
  have hxx : x * x = |x| * |x| := (abs_mul_abs_self x).symm
  obtain ⟨S, hS⟩ : ∃ S, S = x * x + y * y := ⟨_, rfl⟩
  have hS0 : 2 * t ≤ S := by
    have := mul_le_mul h2 h2 p500.le hy0.le
    rw [e500, ← hyy] at this
    linarith [mul_self_nonneg x]
  have hSmin : m ≤ S := by linarith
  have hSpos : 0 < S := by linarith
  have ex := erm (x * x) S hSmin (by rw [abs_of_nonneg (mul_self_nonneg x)]; linarith [mul_self_nonneg y])
  have ey := erm (y * y) S hSmin (by rw [abs_of_nonneg (mul_self_nonneg y)]; linarith [mul_self_nonneg x])
  have ex' := (abs_le.1 ex).1
  have ey' := (abs_le.1 ey).1
  generalize hA : r (x * x) + r (y * y) = A
  have hA1 : S * (1 - 2 * u) ≤ A := by linarith
  have hS2 : S * (1 / 2) ≤ S * (1 - 2 * u) := mul_le_mul_of_nonneg_left (by linarith) hSpos.le
  have hApos : 0 < A := by linarith
  have eA := rel A (by rw [abs_of_pos hApos]; linarith)
  rw [abs_of_pos hApos] at eA
  have eA' := (abs_le.1 eA).1
  generalize r A = B at *
  have hB1 : S * (1 - 3 * u) ≤ B := by
    have h3 : S * (1 - 2 * u) * (1 - u) ≤ A * (1 - u) := mul_le_mul_of_nonneg_right hA1 (by linarith)
    have h4 : 0 ≤ S * (2 * (u * u)) := mul_nonneg hSpos.le (by positivity)
    linarith
  have hS3 : S * (1 / 2) ≤ S * (1 - 3 * u) := mul_le_mul_of_nonneg_left (by linarith) hSpos.le
  have hBmin : t ≤ B := by linarith
  have hBpos : 0 < B := by linarith
  -- compare with |x|
  have hSx : |x| * |x| * (1 + 32 * u) ≤ S := by
    have hmul := mul_le_mul h1 h1 (mul_nonneg p24.le (abs_nonneg x)) hy0.le
    have e : c * |x| * (c * |x|) = c * c * (|x| * |x|) := by ring
    rw [e, e24] at hmul
    rw [hS, hxx, hyy]; linarith
  have hDD : Real.sqrt B * Real.sqrt B = B := Real.mul_self_sqrt hBpos.le
  have hD0 : 0 < Real.sqrt B := Real.sqrt_pos.2 hBpos
  generalize Real.sqrt B = D at *
  have hDx : |x| * (1 + 8 * u) ≤ D := by
    have h : (|x| * (1 + 8 * u)) * (|x| * (1 + 8 * u)) ≤ D * D := by
      rw [hDD]
      refine le_trans ?_ hB1
      have hx2 : 0 ≤ |x| * |x| := mul_nonneg (abs_nonneg _) (abs_nonneg _)
      have h3 : |x| * |x| * (1 + 32 * u) * (1 - 3 * u) ≤ S * (1 - 3 * u) :=
        mul_le_mul_of_nonneg_right hSx (by linarith)
      refine le_trans ?_ h3
      have : (1 + 8 * u) * (1 + 8 * u) ≤ (1 + 32 * u) * (1 - 3 * u) := by nlinarith
      calc _ = |x| * |x| * ((1 + 8 * u) * (1 + 8 * u)) := by ring
        _ ≤ |x| * |x| * ((1 + 32 * u) * (1 - 3 * u)) := mul_le_mul_of_nonneg_left this hx2
        _ = _ := by ring
    exact (mul_self_le_mul_self_iff (mul_nonneg (abs_nonneg _) (by linarith)) hD0.le).2 h
  -- the root is no tiny number
  have hDmin : m ≤ |D| := by
    rw [abs_of_pos hD0]
    by_contra hc
    have hc := not_le.1 hc
    have : D * D < m * m := mul_self_lt_mul_self hD0.le hc
    rw [hDD] at this
    linarith
  have eD := rel D hDmin
  rw [abs_of_pos hD0] at eD
  have eD' := (abs_le.1 eD).1
  generalize r D = d at *
  have hdx : |x| * (1 + 6 * u) ≤ d := by
    have : |x| * (1 + 6 * u) ≤ |x| * (1 + 8 * u) * (1 - u) := by
      rw [mul_assoc]
      exact mul_le_mul_of_nonneg_left (by nlinarith) (abs_nonneg _)
    have h4 : |x| * (1 + 8 * u) * (1 - u) ≤ D * (1 - u) := mul_le_mul_of_nonneg_right hDx (by linarith)
    linarith
  have hd0 : 0 < d := by
    have : 0 < D * (1 - u) := mul_pos hD0 (by linarith)
    linarith
  have hq : |x / d| ≤ 1 - u := by
    rw [abs_div, abs_of_pos hd0, div_le_iff₀ hd0]
    have h3 : (1 - u) * (|x| * (1 + 6 * u)) ≤ (1 - u) * d := mul_le_mul_of_nonneg_left hdx (by linarith)
    have h4 : |x| ≤ (1 - u) * (|x| * (1 + 6 * u)) := by
      have : 0 ≤ |x| * (5 * u - 6 * u * u) := mul_nonneg (abs_nonneg _) (by nlinarith)
      linarith
    linarith
  rw [abs_le] at hq ⊢
  exact ⟨R.ge_of_ge dbl.neg hq.1, R.le_of_le dbl hq.2⟩

/-- The direction stays away from π. -/
theorem angle_inside (R : Nearest r) {acos : ℝ → ℝ} (ha : GoodAcos acos) {px py qx qy : ℝ} (h : Inclined r px py qx qy) :
    0 ≤ oxAngleF r acos px py qx qy ∧ oxAngleF r acos px py qx qy ≤ Real.pi - 2 ^ (-27 : ℤ) := by
  unfold oxAngleF
  simp only []
  have hpi := Real.pi_gt_three
  by_cases h0 : r (qy - py) = 0
  · rw [if_pos h0]
    refine ⟨le_rfl, ?_⟩
    norm_num; linarith
  rw [if_neg h0]
  rcases h with h | ⟨h1, h2⟩
  · exact absurd h h0
  have hq := abs_le.1 (quotient_inside R h1 h2)
  clear h1 h2
  set q := r (r (qx - px) / r (Real.sqrt (r (r (r (qx - px) * r (qx - px)) + r (r (qy - py) * r (qy - py))))))
  have hp := two_zpow_pos (K := ℝ) (-53)
  have a1 := arccos_ge (v := q) (by linarith [hq.1]) hq.2
  have a2 := arccos_le (v := q) (by linarith [hq.2]) hq.1
  have a3 := abs_le.1 (ha.near q (by linarith [hq.1]) (by linarith [hq.2]))
  have e26 : (2 : ℝ) ^ (-26 : ℤ) = 8192 * 2 ^ (-39 : ℤ) := by norm_num
  have e27 : (2 : ℝ) ^ (-27 : ℤ) = 4096 * 2 ^ (-39 : ℤ) := by norm_num
  have e40 : (2 : ℝ) ^ (-40 : ℤ) = 1 / 2 * 2 ^ (-39 : ℤ) := by norm_num
  have e52 : (2 : ℝ) ^ (-52 : ℤ) = 1 / 8192 * 2 ^ (-39 : ℤ) := by norm_num
  have hm := abs_le.1 mPi_near
  have h39 := two_zpow_pos (K := ℝ) (-39)
  rw [e26] at a1 a2
  rw [e40] at a3
  rw [e52] at hm
  rw [e27]
  generalize (2 : ℝ) ^ (-39 : ℤ) = w at *
  by_cases hf : r (qy - py) < 0 ∧ r (qx - px) ≠ 0
  · rw [if_pos hf]
    have hx0 : 0 ≤ mPi - acos q := by linarith [hm.1, a3.2]
    have hx4 : |mPi - acos q| ≤ 2 ^ (2 : ℤ) := by
      have := Real.pi_lt_four
      have hpi4 : (2 : ℝ) ^ (2 : ℤ) = 4 := by norm_num
      have : (mPi : ℝ) ≤ 4 := by unfold mPi; norm_num
      rw [abs_of_nonneg hx0, hpi4]
      linarith [a3.1, Real.arccos_nonneg q]
    have er := abs_le.1 (R.err (k := 2) (by norm_num) hx4)
    refine ⟨R.nonneg hx0, ?_⟩
    have e : (2 : ℝ) ^ ((2 : ℤ) - 54) ≤ 1 / 8192 * w := by
      rw [show (2 : ℤ) - 54 = -52 by norm_num, e52]
    have er' := er.2.trans e
    have a3' := a3.1
    have hm' := hm.2
    clear e er e26 e27 e40 e52 hq hp
    linarith
  · rw [if_neg hf]
    constructor <;> linarith [a3.1, a3.2]

theorem step_near (R : Nearest r) {n : Nat} (hn : 0 < n) (hn2 : n ≤ 2 ^ 20) :
    mPi / n * (1 - 2 ^ (-50 : ℤ)) ≤ angleStepF r n := by
  have hm : (3 : ℝ) ≤ mPi := by unfold mPi; norm_num
  have hn0 : (0 : ℝ) < n := by exact_mod_cast hn
  have hn1 : (n : ℝ) ≤ 2 ^ 20 := by exact_mod_cast hn2
  set u : ℝ := 2 ^ (-53 : ℤ) with hu
  have hu0 : 0 < u := two_zpow_pos _
  have e50 : (2 : ℝ) ^ (-50 : ℤ) = 8 * u := by rw [hu]; norm_num
  have hu1 : u ≤ 1 / 1000 := by rw [hu]; norm_num
  have small : ∀ v : ℝ, 1 / 2 ^ 20 ≤ v → 2 ^ (-1022 : ℤ) ≤ |v| := by
    intro v hv
    rw [abs_of_nonneg (le_trans (by positivity) hv)]
    refine le_trans ?_ hv
    have := two_zpow_le (K := ℝ) (a := -1022) (b := -20) (by norm_num)
    refine this.trans (by norm_num)
  have low : ∀ v : ℝ, 1 / 2 ^ 20 ≤ v → v * (1 - u) ≤ r v := by
    intro v hv
    have h := R.rel (small v hv)
    rw [← hu, abs_of_nonneg (le_trans (by positivity : (0 : ℝ) ≤ 1 / 2 ^ 20) hv)] at h
    linarith [(abs_le.1 h).1]
  have h1 := low (180 * mPi) (by norm_num; linarith)
  clear_value u
  unfold angleStepF
  have h1' : mPi * (1 - u) ≤ r (180 * mPi) / 180 := by rw [le_div_iff₀ (by norm_num)]; linarith
  have h1'' : (2 : ℝ) ≤ mPi * (1 - u) := by nlinarith
  have h2 := low (r (180 * mPi) / 180) (by norm_num; linarith)
  set b := r (r (180 * mPi) / 180)
  have hb : mPi * (1 - u) * (1 - u) ≤ b := (mul_le_mul_of_nonneg_right h1' (by linarith)).trans h2
  have hb1 : (1 : ℝ) ≤ b := by nlinarith
  have h3 := low (b / n) (by
    rw [div_le_div_iff₀ (by positivity) hn0]
    nlinarith)
  refine le_trans ?_ h3
  rw [e50, div_mul_eq_mul_div, div_mul_eq_mul_div]
  refine div_le_div_of_nonneg_right ?_ hn0.le
  have h5 : mPi * (1 - u) * (1 - u) * (1 - u) ≤ b * (1 - u) := mul_le_mul_of_nonneg_right hb (by linarith)
  have h6 : (1 - 8 * u) ≤ (1 - u) * (1 - u) * (1 - u) := by nlinarith [mul_pos hu0 hu0]
  nlinarith

/-- **C78.** The histogram finds a bin for the direction of two points that are at the same height or on a line inclined
to the x axis by more than 2^-24: neither assertion fails. -/
theorem histogram_rounded (R : Nearest r) {acos : ℝ → ℝ} (ha : GoodAcos acos) {n : Nat} (hn : 0 < n) (hn2 : n ≤ 2 ^ 20)
    {px py qx qy : ℝ} (h : Inclined r px py qx qy) :
    ∃ k, histIndexF r n (oxAngleF r acos px py qx qy) = some k ∧ k < n := by
  obtain ⟨h0, h1⟩ := angle_inside R ha h
  set a := oxAngleF r acos px py qx qy
  have hm := abs_le.1 mPi_near
  have hst := step_near R hn hn2
  have hn0 : (0 : ℝ) < n := by exact_mod_cast hn
  have e27 : (2 : ℝ) ^ (-27 : ℤ) = 2 ^ 25 * 2 ^ (-52 : ℤ) := by norm_num
  have e50 : (2 : ℝ) ^ (-50 : ℤ) = 4 * 2 ^ (-52 : ℤ) := by norm_num
  have e53 : (2 : ℝ) ^ (-53 : ℤ) = 1 / 2 * 2 ^ (-52 : ℤ) := by norm_num
  have h52 := two_zpow_pos (K := ℝ) (-52)
  have hsmall : (2 : ℝ) ^ (-52 : ℤ) ≤ 1 / 2 ^ 40 := by norm_num
  have hm3 : (3 : ℝ) ≤ mPi := by unfold mPi; norm_num
  have hm4 : (mPi : ℝ) ≤ 4 := by unfold mPi; norm_num
  rw [e27] at h1
  rw [e50] at hst
  have hlt : a < mPi := by
    have : (2 : ℝ) ^ (-52 : ℤ) < 2 ^ 25 * 2 ^ (-52 : ℤ) := by nlinarith
    linarith [hm.1]
  have hstep0 : 0 < angleStepF r n := by
    refine lt_of_lt_of_le (mul_pos (div_pos (by linarith) hn0) ?_) hst
    linarith
  have hz0 : 0 ≤ a / angleStepF r n := div_nonneg h0 hstep0.le
  have hz : a / angleStepF r n ≤ n * (1 - 2 ^ (-52 : ℤ)) := by
    rw [div_le_iff₀ hstep0]
    have h3 : n * (1 - 2 ^ (-52 : ℤ)) * (mPi / n * (1 - 4 * 2 ^ (-52 : ℤ))) ≤ n * (1 - 2 ^ (-52 : ℤ)) * angleStepF r n :=
      mul_le_mul_of_nonneg_left hst (mul_nonneg hn0.le (by linarith))
    refine le_trans ?_ h3
    have e : n * (1 - 2 ^ (-52 : ℤ)) * (mPi / n * (1 - 4 * 2 ^ (-52 : ℤ))) =
        mPi * ((1 - 2 ^ (-52 : ℤ)) * (1 - 4 * (2 : ℝ) ^ (-52 : ℤ))) := by field_simp
    rw [e]
    generalize (2 : ℝ) ^ (-52 : ℤ) = w at *
    have h4 : 1 - 5 * w ≤ (1 - w) * (1 - 4 * w) := by nlinarith
    have h5 : mPi * (1 - 5 * w) ≤ mPi * ((1 - w) * (1 - 4 * w)) := mul_le_mul_of_nonneg_left h4 (by linarith)
    have h6 : mPi * w ≤ 4 * w := mul_le_mul_of_nonneg_right hm4 h52.le
    linarith [hm.1]
  have hn1 : (1 : ℝ) ≤ n := by exact_mod_cast hn
  have her := R.err_mul (x := a / angleStepF r n) (B := n) (by
    refine le_trans ?_ hn1
    have := two_zpow_le (K := ℝ) (a := -1022) (b := 0) (by norm_num)
    simpa using this) (by
    rw [abs_of_nonneg hz0]
    refine hz.trans ?_
    nlinarith)
  have hraw : rawIndexF r n a < n := by
    unfold rawIndexF
    rw [Int.floor_lt]
    have h7 := (abs_le.1 her).2
    rw [e53] at h7
    have : 0 < (n : ℝ) * 2 ^ (-52 : ℤ) := mul_pos hn0 h52
    push_cast
    linarith
  have hraw0 : 0 ≤ rawIndexF r n a := Int.floor_nonneg.2 (R.nonneg hz0)
  have hk : (rawIndexF r n a).toNat < n := by omega
  refine ⟨(rawIndexF r n a).toNat, ?_, hk⟩
  unfold histIndexF
  rw [if_pos ⟨h0, hlt⟩, if_pos hk]

/-- The square of a tiny height is lost. -/
theorem lost_height (R : Nearest r) {y : ℝ} (hy : |y| ≤ 2 ^ (-27 : ℤ)) : r (Real.sqrt (r (r (1 * 1) + r (y * y)))) = 1 := by
  have d54 : IsDouble ((2 : ℝ) ^ (-54 : ℤ)) := ⟨1, -54, by norm_num, by norm_num, by norm_num⟩
  have hyy : y * y ≤ 2 ^ (-54 : ℤ) := by
    rw [← abs_mul_abs_self y]
    have := mul_le_mul hy hy (abs_nonneg _) (two_zpow_pos _).le
    refine this.trans (le_of_eq ?_)
    norm_num
  have h1 : r (y * y) ≤ 2 ^ (-54 : ℤ) := R.le_of_le d54 hyy
  have h2 : 0 ≤ r (y * y) := R.nonneg (mul_self_nonneg y)
  have e1 : r ((1 : ℝ) * 1) = 1 := by rw [mul_one]; exact R.fix isDouble_one
  rw [e1]
  have h54 : (2 : ℝ) ^ (-54 : ℤ) < 2 ^ (-53 : ℤ) := by norm_num
  have e2 : r (1 + r (y * y)) = 1 := le_antisymm (R.le_one (by linarith)) (R.ge_of_ge isDouble_one (by linarith))
  rw [e2, Real.sqrt_one]
  exact R.fix isDouble_one

/-- **C78, the opposite.** Two points one metre apart on a nearly horizontal line, the second to the left and higher by at
most 2^-27 m, or to the right and lower: the direction is rounded to π, and the assertion in `hist_index` fails, whatever
the number of bins. (Without rounding the direction is always below π: `direction_range`.) -/
theorem nearly_horizontal_counterexample (R : Nearest r) {acos : ℝ → ℝ} (ha : GoodAcos acos) (n : Nat) (px py qx qy : ℝ)
    (h : (r (qx - px) = -1 ∧ 0 < r (qy - py) ∧ r (qy - py) ≤ 2 ^ (-27 : ℤ)) ∨
      (r (qx - px) = 1 ∧ r (qy - py) < 0 ∧ -2 ^ (-27 : ℤ) ≤ r (qy - py))) :
    oxAngleF r acos px py qx qy = mPi ∧ histIndexF r n (oxAngleF r acos px py qx qy) = none := by
  have key : oxAngleF r acos px py qx qy = mPi := by
    unfold oxAngleF
    simp only []
    rcases h with ⟨h1, h2, h3⟩ | ⟨h1, h2, h3⟩
    · rw [if_neg h2.ne', if_neg (by intro h; linarith [h.1]), h1]
      have := lost_height R (y := r (qy - py)) (by rw [abs_of_pos h2]; exact h3)
      rw [show (-1 : ℝ) * -1 = 1 * 1 by ring, this, div_one, R.fix isDouble_one.neg, ha.at_neg_one]
    · rw [if_neg h2.ne, if_pos ⟨h2, by rw [h1]; norm_num⟩, h1]
      have := lost_height R (y := r (qy - py)) (by rw [abs_of_neg h2]; linarith)
      rw [this, div_one, R.fix isDouble_one, ha.at_one, sub_zero, R.fix mPi_double]
  refine ⟨key, ?_⟩
  rw [key]
  unfold histIndexF
  rw [if_neg (fun h => lt_irrefl _ h.2)]

end

/-- With assertions compiled out the index for the direction π and the default 20 bins is 20: one past the end of the
vector. -/
theorem index_past_end_counterexample : rawIndexF rne 20 (mPi : ℚ) = 20 := by decide +kernel

/-- The hypotheses about `acos` are met by the exact function, adjusted at -1. -/
example : GoodAcos (fun v => if v = -1 then mPi else Real.arccos v) where
  near v h1 h2 := by
    by_cases h : v = -1
    · simp only [h, if_true, Real.arccos_neg_one]
      exact mPi_near.trans (two_zpow_le (by norm_num))
    · simp only [h, if_false, sub_self, abs_zero]; exact (two_zpow_pos _).le
  at_one := by norm_num
  at_neg_one := by simp

/-- Two points on a line at 45 degrees; and two points on a wall one metre apart that differ in height by a nanometre. -/
example : Inclined (rne : ℝ → ℝ) 0 0 1 1 := by
  have h : rne ((1 : ℝ) - 0) = 1 := by rw [sub_zero]; exact rne_nearest.fix isDouble_one
  refine Or.inr ⟨?_, ?_⟩
  · rw [h, abs_one]; norm_num
  · rw [h, abs_one]
    have := two_zpow_le (K := ℝ) (a := -500) (b := 0) (by norm_num)
    simpa using this

example : rne ((0 : ℝ) - 1) = -1 ∧ 0 < rne ((2 : ℝ) ^ (-30 : ℤ) - 0) ∧ rne ((2 : ℝ) ^ (-30 : ℤ) - 0) ≤ 2 ^ (-27 : ℤ) := by
  have h : rne ((2 : ℝ) ^ (-30 : ℤ) - 0) = 2 ^ (-30 : ℤ) := by
    rw [sub_zero]; exact rne_nearest.fix ⟨1, -30, by norm_num, by norm_num, by norm_num⟩
  refine ⟨?_, ?_, ?_⟩
  · rw [zero_sub]; exact rne_nearest.fix isDouble_one.neg
  · rw [h]; exact two_zpow_pos _
  · rw [h]; exact two_zpow_le (by norm_num)

end Slam.Float
