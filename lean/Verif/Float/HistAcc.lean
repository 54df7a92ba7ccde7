import Verif.Float.Hist

/-!
# C78: which bin a direction falls into, rounding included
-/

set_option autoImplicit false
set_option linter.unusedSectionVars false

namespace Slam.Float
open Slam.Sensor Slam.Score

/-- Arc cosines of near numbers are near, except near the ends. -/
theorem arccos_near {c c' e s : ℝ} (h1 : -1 ≤ c) (h2 : c ≤ 1) (h1' : -1 ≤ c') (h2' : c' ≤ 1) (he : |c' - c| ≤ e)
    (hs : 0 < s) (hsin : s ≤ Real.sin (Real.arccos c)) :
    |Real.arccos c' - Real.arccos c| ≤ Real.pi * (e / s) := by
  have hc := Real.cos_arccos h1 h2
  have hc' := Real.cos_arccos h1' h2'
  have a0 := Real.arccos_nonneg c
  have a1 := Real.arccos_le_pi c
  have b0 := Real.arccos_nonneg c'
  have b1 := Real.arccos_le_pi c'
  generalize Real.arccos c = t at *
  generalize Real.arccos c' = t' at *
  have hpi := Real.pi_pos
  have hsub := Real.cos_sub_cos t' t
  rw [hc, hc'] at hsub
  have hmid : s / 2 ≤ Real.sin ((t' + t) / 2) := by
    have h2s : Real.sin t = 2 * Real.sin (t / 2) * Real.cos (t / 2) := by
      rw [← Real.sin_two_mul]; congr 1; ring
    have s0 : 0 ≤ Real.sin (t / 2) := Real.sin_nonneg_of_nonneg_of_le_pi (by linarith) (by linarith)
    have s1 := Real.sin_le_one (t / 2)
    have c0 : 0 ≤ Real.cos (t / 2) := Real.cos_nonneg_of_mem_Icc ⟨by linarith, by linarith⟩
    have c1 := Real.cos_le_one (t / 2)
    rcases le_or_gt ((t' + t) / 2) (Real.pi / 2) with h | h
    · have : Real.sin (t / 2) ≤ Real.sin ((t' + t) / 2) :=
        Real.sin_le_sin_of_le_of_le_pi_div_two (by linarith) h (by linarith)
      nlinarith
    · have : Real.sin (Real.pi / 2 - t / 2) ≤ Real.sin (Real.pi - (t' + t) / 2) :=
        Real.sin_le_sin_of_le_of_le_pi_div_two (by linarith) (by linarith) (by linarith)
      rw [Real.sin_pi_sub, Real.sin_pi_div_two_sub] at this
      nlinarith
  have hd : |t' - t| / Real.pi ≤ |Real.sin ((t' - t) / 2)| := by
    have hab : |t' - t| ≤ Real.pi := by rw [abs_le]; constructor <;> linarith
    have h := Real.mul_le_sin (x := |t' - t| / 2) (by positivity) (by linarith)
    have e1 : |Real.sin ((t' - t) / 2)| = Real.sin (|t' - t| / 2) := by
      rcases abs_cases (t' - t) with ⟨ha, hb⟩ | ⟨ha, hb⟩
      · rw [ha]; rw [abs_of_nonneg]
        exact Real.sin_nonneg_of_nonneg_of_le_pi (by linarith) (by linarith)
      · rw [ha, show -(t' - t) / 2 = -((t' - t) / 2) by ring, Real.sin_neg, abs_of_nonpos]
        exact Real.sin_nonpos_of_nonpos_of_neg_pi_le (by linarith) (by linarith)
    rw [e1]
    refine le_trans (le_of_eq ?_) h
    field_simp
  have habs : |c' - c| = 2 * Real.sin ((t' + t) / 2) * |Real.sin ((t' - t) / 2)| := by
    rw [hsub, abs_mul, abs_mul, abs_neg, abs_of_pos (by norm_num : (0 : ℝ) < 2), abs_of_pos (by linarith)]
  have h3 : s * (|t' - t| / Real.pi) ≤ e := by
    refine le_trans ?_ he
    rw [habs]
    have hp : 0 ≤ |t' - t| / Real.pi := div_nonneg (abs_nonneg _) hpi.le
    calc s * (|t' - t| / Real.pi) = 2 * (s / 2) * (|t' - t| / Real.pi) := by ring
      _ ≤ 2 * Real.sin ((t' + t) / 2) * (|t' - t| / Real.pi) := mul_le_mul_of_nonneg_right (by linarith) hp
      _ ≤ _ := mul_le_mul_of_nonneg_left hd (by linarith)
  have h4 : |t' - t| / Real.pi ≤ e / s := by rw [le_div_iff₀ hs]; linarith
  rw [div_le_iff₀ hpi] at h4
  linarith

section
variable {r : ℝ → ℝ}

/-- The quotient passed to `acos` is accurate. -/
theorem quotient_near (R : Nearest r) {x y : ℝ} (h2 : 2 ^ (-500 : ℤ) ≤ |y|) :
    |r (x / r (Real.sqrt (r (r (x * x) + r (y * y))))) - x / Real.sqrt (x * x + y * y)| ≤ 16 * 2 ^ (-53 : ℤ) := by
  have hu0 : (0 : ℝ) < 2 ^ (-53 : ℤ) := two_zpow_pos _
  have hu1 : (2 : ℝ) ^ (-53 : ℤ) ≤ 1 / 1000 := by norm_num
  have p500 : (0 : ℝ) < 2 ^ (-500 : ℤ) := two_zpow_pos _
  have e500 : (2 : ℝ) ^ (-500 : ℤ) * 2 ^ (-500 : ℤ) = 2 * 2 ^ (-1001 : ℤ) := by
    rw [← zpow_add₀ (by norm_num : (2 : ℝ) ≠ 0), show (-500 + -500 : ℤ) = -1001 + 1 by norm_num,
      zpow_add_one₀ (by norm_num)]; ring
  have p1001 : (0 : ℝ) < 2 ^ (-1001 : ℤ) := two_zpow_pos _
  have hm0 : (0 : ℝ) < 2 ^ (-1022 : ℤ) := two_zpow_pos _
  have hm1 : (2 : ℝ) ^ (-1022 : ℤ) ≤ 2 ^ (-1001 : ℤ) := two_zpow_le (by norm_num)
  have hm3 : (2 : ℝ) ^ (-1022 : ℤ) ≤ 2 := (two_zpow_le (b := 1) (by norm_num)).trans (by norm_num)
  have hm2 : (2 : ℝ) ^ (-1022 : ℤ) * 2 ^ (-1022 : ℤ) ≤ 2 ^ (-1001 : ℤ) := by
    rw [← zpow_add₀ (by norm_num : (2 : ℝ) ≠ 0)]; exact two_zpow_le (by norm_num)
  have rel := fun x => R.rel (x := x)
  have erm := fun x B => R.err_mul (x := x) (B := B)
  generalize (2 : ℝ) ^ (-53 : ℤ) = u at *
  generalize (2 : ℝ) ^ (-500 : ℤ) = f at *
  generalize (2 : ℝ) ^ (-1001 : ℤ) = t at *
  generalize (2 : ℝ) ^ (-1022 : ℤ) = m at *
  have uu : 0 ≤ u * u := mul_self_nonneg u
  have uu1 : u * u ≤ u * (1 / 1000) := mul_le_mul_of_nonneg_left hu1 hu0.le
  have n1 : (1 + 2 * u) * (1 + u) ≤ 1 + 4 * u := by linarith
  have n2 : (1 - 4 * u) * (1 - 4 * u) ≤ 1 - 3 * u := by linarith
  have n3 : 1 + 4 * u ≤ (1 + 2 * u) * (1 + 2 * u) := by linarith
  have n4 : 1 - 5 * u ≤ (1 - 4 * u) * (1 - u) := by linarith
  have hy0 : 0 < |y| := lt_of_lt_of_le p500 h2
  have hyy : y * y = |y| * |y| := (abs_mul_abs_self y).symm
  obtain ⟨S, hS⟩ : ∃ S, S = x * x + y * y := ⟨_, rfl⟩
  rw [← hS]
  have hS0 : 2 * t ≤ S := by
    have := mul_le_mul h2 h2 p500.le hy0.le
    rw [e500, ← hyy] at this
    linarith [mul_self_nonneg x]
  have hSmin : m ≤ S := by linarith
  have hSpos : 0 < S := by linarith
  have ex := abs_le.1 (erm (x * x) S hSmin (by rw [abs_of_nonneg (mul_self_nonneg x)]; linarith [mul_self_nonneg y]))
  have ey := abs_le.1 (erm (y * y) S hSmin (by rw [abs_of_nonneg (mul_self_nonneg y)]; linarith [mul_self_nonneg x]))
  generalize hA : r (x * x) + r (y * y) = A
  have hA1 : S * (1 - 2 * u) ≤ A := by linarith [ex.1, ey.1]
  have hA2 : A ≤ S * (1 + 2 * u) := by linarith [ex.2, ey.2]
  have hS2 : S * (1 / 2) ≤ S * (1 - 2 * u) := mul_le_mul_of_nonneg_left (by linarith) hSpos.le
  have hApos : 0 < A := by linarith
  have eA := rel A (by rw [abs_of_pos hApos]; linarith)
  rw [abs_of_pos hApos] at eA
  have eA' := abs_le.1 eA
  generalize r A = B at *
  have hB1 : S * (1 - 3 * u) ≤ B := by
    have h3 : S * (1 - 2 * u) * (1 - u) ≤ A * (1 - u) := mul_le_mul_of_nonneg_right hA1 (by linarith)
    have h4 : 0 ≤ S * (2 * (u * u)) := mul_nonneg hSpos.le (by positivity)
    linarith [eA'.1]
  have hB2 : B ≤ S * (1 + 4 * u) := by
    have h3 : A * (1 + u) ≤ S * (1 + 2 * u) * (1 + u) := mul_le_mul_of_nonneg_right hA2 (by linarith)
    have h4 : S * ((1 + 2 * u) * (1 + u)) ≤ S * (1 + 4 * u) := mul_le_mul_of_nonneg_left n1 hSpos.le
    linarith [eA'.2]
  have hS3 : S * (1 / 2) ≤ S * (1 - 3 * u) := mul_le_mul_of_nonneg_left (by linarith) hSpos.le
  have hBpos : 0 < B := by linarith
  have hDD : Real.sqrt B * Real.sqrt B = B := Real.mul_self_sqrt hBpos.le
  have hD0 : 0 < Real.sqrt B := Real.sqrt_pos.2 hBpos
  have hTT : Real.sqrt S * Real.sqrt S = S := Real.mul_self_sqrt hSpos.le
  have hT0 : 0 < Real.sqrt S := Real.sqrt_pos.2 hSpos
  generalize Real.sqrt B = D at *
  generalize Real.sqrt S = T at *
  have hxT : |x| ≤ T := by
    refine (mul_self_le_mul_self_iff (abs_nonneg _) hT0.le).2 ?_
    rw [hTT, abs_mul_abs_self, hS]; linarith [mul_self_nonneg y]
  have hD1 : T * (1 - 4 * u) ≤ D := by
    refine (mul_self_le_mul_self_iff (mul_nonneg hT0.le (by linarith)) hD0.le).2 ?_
    rw [hDD]
    refine le_trans ?_ hB1
    have : S * ((1 - 4 * u) * (1 - 4 * u)) ≤ S * (1 - 3 * u) := mul_le_mul_of_nonneg_left n2 hSpos.le
    calc _ = T * T * ((1 - 4 * u) * (1 - 4 * u)) := by ring
      _ ≤ _ := by rw [hTT]; exact this
  have hD2 : D ≤ T * (1 + 2 * u) := by
    refine (mul_self_le_mul_self_iff hD0.le (mul_nonneg hT0.le (by linarith))).2 ?_
    rw [hDD]
    refine hB2.trans ?_
    have : S * (1 + 4 * u) ≤ S * ((1 + 2 * u) * (1 + 2 * u)) := mul_le_mul_of_nonneg_left n3 hSpos.le
    calc _ ≤ S * ((1 + 2 * u) * (1 + 2 * u)) := this
      _ = T * T * ((1 + 2 * u) * (1 + 2 * u)) := by rw [hTT]
      _ = _ := by ring
  have hDmin : m ≤ |D| := by
    rw [abs_of_pos hD0]
    by_contra hc
    have hc := not_le.1 hc
    have : D * D < m * m := mul_self_lt_mul_self hD0.le hc
    rw [hDD] at this
    linarith
  have eD := rel D hDmin
  rw [abs_of_pos hD0] at eD
  have eD' := abs_le.1 eD
  generalize r D = d at *
  have hd1 : T * (1 - 5 * u) ≤ d := by
    have h4 : T * (1 - 4 * u) * (1 - u) ≤ D * (1 - u) := mul_le_mul_of_nonneg_right hD1 (by linarith)
    have h5 : T * (1 - 5 * u) ≤ T * ((1 - 4 * u) * (1 - u)) := mul_le_mul_of_nonneg_left n4 hT0.le
    linarith [eD'.1]
  have hd2 : d ≤ T * (1 + 4 * u) := by
    have h4 : D * (1 + u) ≤ T * (1 + 2 * u) * (1 + u) := mul_le_mul_of_nonneg_right hD2 (by linarith)
    have h5 : T * ((1 + 2 * u) * (1 + u)) ≤ T * (1 + 4 * u) := mul_le_mul_of_nonneg_left n1 hT0.le
    linarith [eD'.2]
  have hd0 : 0 < d := lt_of_lt_of_le (mul_pos hT0 (by linarith)) hd1
  have hdT : T ≤ 2 * d := by
    have : T * (1 / 2) ≤ T * (1 - 5 * u) := mul_le_mul_of_nonneg_left (by linarith) hT0.le
    linarith
  -- the exact quotients
  have hq : |x / d - x / T| ≤ 10 * u := by
    have e : x / d - x / T = x / d * ((T - d) / T) := by field_simp
    rw [e, abs_mul, abs_div, abs_div, abs_of_pos hd0, abs_of_pos hT0]
    have q1 : |x| / d ≤ 2 := by rw [div_le_iff₀ hd0]; linarith
    have q2 : |T - d| / T ≤ 5 * u := by
      have hTu : 0 < T * u := mul_pos hT0 hu0
      rw [div_le_iff₀ hT0, abs_le]; constructor <;> linarith
    calc _ ≤ 2 * (5 * u) := mul_le_mul q1 q2 (div_nonneg (abs_nonneg _) hT0.le) (by norm_num)
      _ = _ := by ring
  have hq2 : |x / d| ≤ 2 := by
    rw [abs_div, abs_of_pos hd0, div_le_iff₀ hd0]; linarith
  have her := erm (x / d) 2 hm3 hq2
  have hq' := abs_le.1 hq
  have her' := abs_le.1 her
  rw [abs_le]; constructor <;> linarith [hq'.1, hq'.2, her'.1, her'.2]

end

/-- `t` is the direction in [0, π) of the line along the step `(x, y)`. -/
def DirectionOf (t x y : ℝ) : Prop := (0 ≤ t ∧ t < Real.pi) ∧ ∃ k : ℝ, x = k * Real.cos t ∧ y = k * Real.sin t

section
variable {r : ℝ → ℝ}

/-- The computed direction is the exact direction of the computed differences up to 2^-21. -/
theorem angle_near (R : Nearest r) {acos : ℝ → ℝ} (ha : GoodAcos acos) {px py qx qy : ℝ} (h : Inclined r px py qx qy) :
    ∃ t, DirectionOf t (r (qx - px)) (r (qy - py)) ∧ |oxAngleF r acos px py qx qy - t| ≤ 2 ^ (-21 : ℤ) := by
  have hr := direction_range (.cartesian 0 0 true 1) (.cartesian (r (qx - px)) (r (qy - py)) true 1)
  have hd := direction_parallel (.cartesian 0 0 true 1) (.cartesian (r (qx - px)) (r (qy - py)) true 1)
  simp only [ScanPoint.x, ScanPoint.y, sub_zero] at hd
  refine ⟨_, ⟨hr, hd⟩, ?_⟩
  clear hr hd
  unfold oxAngle oxAngleF
  simp only [ScanPoint.x, ScanPoint.y, sub_zero]
  by_cases h0 : r (qy - py) = 0
  · rw [if_pos h0, if_pos h0, sub_zero, abs_zero]; exact (two_zpow_pos _).le
  rw [if_neg h0, if_neg h0]
  rcases h with h | ⟨h1, h2⟩
  · exact absurd h h0
  have hin := abs_le.1 (quotient_inside R h1 h2)
  have hne := quotient_near R (x := r (qx - px)) h2
  clear h2
  generalize r (qx - px) = x at *
  generalize r (qy - py) = y at *
  have hypos : 0 < |y| := abs_pos.2 h0
  have hyy : 0 < y * y := mul_self_pos.2 h0
  have hSpos : 0 < x * x + y * y := by linarith [mul_self_nonneg x]
  have hT0 : 0 < Real.sqrt (x * x + y * y) := Real.sqrt_pos.2 hSpos
  have hTT : Real.sqrt (x * x + y * y) * Real.sqrt (x * x + y * y) = x * x + y * y := Real.mul_self_sqrt hSpos.le
  have hxT : |x| ≤ Real.sqrt (x * x + y * y) := by
    rw [← Real.sqrt_mul_self_eq_abs]; exact Real.sqrt_le_sqrt (by linarith)
  have hsin : Real.sin (Real.arccos (x / Real.sqrt (x * x + y * y))) = |y| / Real.sqrt (x * x + y * y) := by
    rw [Real.sin_arccos]
    have : 1 - (x / Real.sqrt (x * x + y * y)) ^ 2 = (y / Real.sqrt (x * x + y * y)) ^ 2 := by
      rw [div_pow, div_pow, sq (Real.sqrt (x * x + y * y)), hTT]
      field_simp
      ring
    rw [this, Real.sqrt_sq_eq_abs, abs_div, abs_of_pos hT0]
  have hge : (2 : ℝ) ^ (-25 : ℤ) ≤ |y| / Real.sqrt (x * x + y * y) := by
    rw [le_div_iff₀ hT0]
    have hle : Real.sqrt (x * x + y * y) ≤ |x| + |y| := by
      refine (mul_self_le_mul_self_iff hT0.le (by positivity)).2 ?_
      rw [hTT, ← abs_mul_abs_self x, ← abs_mul_abs_self y]
      nlinarith [mul_nonneg (abs_nonneg x) hypos.le]
    have h3 : (2 : ℝ) ^ (-25 : ℤ) * Real.sqrt (x * x + y * y) ≤ 2 ^ (-25 : ℤ) * (|x| + |y|) :=
      mul_le_mul_of_nonneg_left hle (two_zpow_pos _).le
    have h4 : (2 : ℝ) ^ (-24 : ℤ) = 2 * 2 ^ (-25 : ℤ) := by norm_num
    have h5 : (2 : ℝ) ^ (-25 : ℤ) * |y| ≤ 1 / 2 * |y| := mul_le_mul_of_nonneg_right (by norm_num) hypos.le
    rw [h4] at h1
    clear h4 hin hne
    generalize (2 : ℝ) ^ (-25 : ℤ) = w at *
    linarith
  have habs := abs_le.1 hxT
  have c1 : -1 ≤ x / Real.sqrt (x * x + y * y) := by rw [le_div_iff₀ hT0]; linarith [habs.1]
  have c2 : x / Real.sqrt (x * x + y * y) ≤ 1 := by rw [div_le_iff₀ hT0]; linarith [habs.2]
  rw [← hsin] at hge
  clear hsin hxT habs h1
  generalize x / Real.sqrt (x * x + y * y) = c at *
  generalize r (x / r (Real.sqrt (r (r (x * x) + r (y * y))))) = q at *
  have hp := two_zpow_pos (K := ℝ) (-53)
  have q1 : -1 ≤ q := by linarith [hin.1]
  have q2 : q ≤ 1 := by linarith [hin.2]
  have hac := arccos_near c1 c2 q1 q2 hne (two_zpow_pos _) hge
  have hA := ha.near q q1 q2
  have hm := mPi_near
  have e53 : Real.pi * (16 * (2 : ℝ) ^ (-53 : ℤ) / 2 ^ (-25 : ℤ)) ≤ 1 / 2 * 2 ^ (-21 : ℤ) := by
    have : 16 * (2 : ℝ) ^ (-53 : ℤ) / 2 ^ (-25 : ℤ) = 1 / 8 * 2 ^ (-21 : ℤ) := by norm_num
    rw [this]
    have := mul_le_mul_of_nonneg_right Real.pi_lt_four.le (two_zpow_pos (K := ℝ) (-21)).le
    clear hne hin hp hac hA hm hge
    generalize (2 : ℝ) ^ (-21 : ℤ) = w at *
    linarith
  have e40 : (2 : ℝ) ^ (-40 : ℤ) ≤ 1 / 8 * 2 ^ (-21 : ℤ) := by norm_num
  have e52 : (2 : ℝ) ^ (-52 : ℤ) ≤ 1 / 8 * 2 ^ (-21 : ℤ) := by norm_num
  have b1 := abs_le.1 (hac.trans e53)
  have b2 := abs_le.1 (hA.trans e40)
  have b3 := abs_le.1 (hm.trans e52)
  have p22 := two_zpow_pos (K := ℝ) (-22)
  by_cases hf : y < 0 ∧ x ≠ 0
  · rw [if_pos hf, if_pos hf]
    have hx4 : |mPi - acos q| ≤ 2 ^ (2 : ℤ) := by
      have hpi4 : (2 : ℝ) ^ (2 : ℤ) = 4 := by norm_num
      have h1 : (mPi : ℝ) ≤ 3.2 := by unfold mPi; norm_num
      have h2 : (3 : ℝ) ≤ mPi := by unfold mPi; norm_num
      have h3 := Real.pi_lt_d2
      have h4 : (2 : ℝ) ^ (-21 : ℤ) ≤ 1 / 2 := by norm_num
      rw [hpi4, abs_le]
      constructor <;> linarith [b2.1, b2.2, Real.arccos_nonneg q, Real.arccos_le_pi q]
    have er := R.err (k := 2) (by norm_num) hx4
    rw [show (2 : ℤ) - 54 = -52 by norm_num] at er
    have b4 := abs_le.1 (er.trans e52)
    clear er e53 e40 e52 hac hA hm hne hin hp hx4 hge
    generalize (2 : ℝ) ^ (-21 : ℤ) = w at *
    rw [abs_le]
    constructor <;> linarith [b1.1, b1.2, b2.1, b2.2, b3.1, b3.2, b4.1, b4.2]
  · rw [if_neg hf, if_neg hf]
    clear e53 e40 e52 hac hA hm hne hin hp hge
    generalize (2 : ℝ) ^ (-21 : ℤ) = w at *
    rw [abs_le]
    constructor <;> linarith [b1.1, b1.2, b2.1, b2.2]

/-- The step of the histogram is accurate. -/
theorem step_near_both (R : Nearest r) {n : Nat} (hn : 0 < n) (hn2 : n ≤ 2 ^ 20) :
    mPi / n * (1 - 2 ^ (-50 : ℤ)) ≤ angleStepF r n ∧ angleStepF r n ≤ mPi / n * (1 + 2 ^ (-50 : ℤ)) := by
  refine ⟨step_near R hn hn2, ?_⟩
  have hm : (3 : ℝ) ≤ mPi := by unfold mPi; norm_num
  have hn0 : (0 : ℝ) < n := by exact_mod_cast hn
  have hn1 : (n : ℝ) ≤ 2 ^ 20 := by exact_mod_cast hn2
  set u : ℝ := 2 ^ (-53 : ℤ) with hu
  have hu0 : 0 < u := two_zpow_pos _
  have e50 : (2 : ℝ) ^ (-50 : ℤ) = 8 * u := by rw [hu]; norm_num
  have hu1 : u ≤ 1 / 1000 := by rw [hu]; norm_num
  have small : (2 : ℝ) ^ (-1022 : ℤ) ≤ 1 / 2 ^ 20 := by
    have := two_zpow_le (K := ℝ) (a := -1022) (b := -20) (by norm_num)
    refine this.trans (by norm_num)
  have up : ∀ v B : ℝ, 0 ≤ v → v ≤ B → 1 / 2 ^ 20 ≤ B → r v ≤ B * (1 + u) := by
    intro v B hv hvB hB
    have h := R.err_mul (x := v) (B := B) (small.trans hB) (by rw [abs_of_nonneg hv]; exact hvB)
    linarith [(abs_le.1 h).2]
  clear_value u
  unfold angleStepF
  have p1 : 0 ≤ r (180 * mPi) := R.nonneg (by linarith)
  have h1 := up (180 * mPi) (180 * mPi) (by linarith) le_rfl (by norm_num; linarith)
  have h1' : r (180 * mPi) / 180 ≤ mPi * (1 + u) := by rw [div_le_iff₀ (by norm_num)]; linarith
  have m1 : mPi ≤ mPi * (1 + u) := le_mul_of_one_le_right (by linarith) (by linarith)
  have h2 := up (r (180 * mPi) / 180) (mPi * (1 + u)) (by positivity) h1' (by norm_num; linarith)
  have p2 : 0 ≤ r (r (180 * mPi) / 180) := R.nonneg (by positivity)
  have m2 : mPi ≤ mPi * (1 + u) * (1 + u) := m1.trans (le_mul_of_one_le_right (by linarith) (by linarith))
  have h3 := up (r (r (180 * mPi) / 180) / n) (mPi * (1 + u) * (1 + u) / n) (div_nonneg p2 hn0.le)
    (div_le_div_of_nonneg_right h2 hn0.le) (by
      rw [div_le_div_iff₀ (by positivity) hn0]
      linarith)
  refine h3.trans ?_
  rw [e50, div_mul_eq_mul_div, div_mul_eq_mul_div]
  refine div_le_div_of_nonneg_right ?_ hn0.le
  have uu : u * u ≤ u * (1 / 1000) := mul_le_mul_of_nonneg_left hu1 hu0.le
  have uuu : u * u * u ≤ u * (1 / 1000) := by
    calc u * u * u ≤ u * u * 1 := mul_le_mul_of_nonneg_left (by linarith) (mul_self_nonneg u)
      _ ≤ _ := by linarith
  have h6 : (1 + u) * (1 + u) * (1 + u) ≤ 1 + 8 * u := by linarith
  calc mPi * (1 + u) * (1 + u) * (1 + u) = mPi * ((1 + u) * (1 + u) * (1 + u)) := by ring
    _ ≤ _ := mul_le_mul_of_nonneg_left h6 (by linarith)

/-- **C78, accuracy.** The bin found is the one of the exact direction of the computed differences, up to 2^-20: `k·π/n` and
`(k+1)·π/n` enclose that direction with this tolerance. -/
theorem histogram_rounded_accuracy (R : Nearest r) {acos : ℝ → ℝ} (ha : GoodAcos acos) {n : Nat} (hn : 0 < n)
    (hn2 : n ≤ 2 ^ 20) {px py qx qy : ℝ} (h : Inclined r px py qx qy) {k : Nat}
    (hk : histIndexF r n (oxAngleF r acos px py qx qy) = some k) :
    ∃ t, DirectionOf t (r (qx - px)) (r (qy - py)) ∧
      k * (Real.pi / n) - 2 ^ (-20 : ℤ) ≤ t ∧ t ≤ (k + 1) * (Real.pi / n) + 2 ^ (-20 : ℤ) := by
  obtain ⟨t, ht, hnear⟩ := angle_near R ha h
  refine ⟨t, ht, ?_⟩
  have hkn : k < n := by
    obtain ⟨k', h1, h2⟩ := histogram_rounded R ha hn hn2 h
    rw [h1] at hk; cases hk; exact h2
  obtain ⟨h0, h1⟩ := angle_inside R ha h
  obtain ⟨s1, s2⟩ := step_near_both R hn hn2
  generalize oxAngleF r acos px py qx qy = a at *
  unfold histIndexF at hk
  have hn0 : (0 : ℝ) < n := by exact_mod_cast hn
  have hn1 : (1 : ℝ) ≤ n := by exact_mod_cast hn
  have hm3 : (3 : ℝ) ≤ mPi := by unfold mPi; norm_num
  have hm4 : (mPi : ℝ) ≤ 4 := by unfold mPi; norm_num
  by_cases hc : 0 ≤ a ∧ a < mPi
  · rw [if_pos hc] at hk
    by_cases hc2 : (rawIndexF r n a).toNat < n
    · rw [if_pos hc2] at hk
      simp only [Option.some.injEq] at hk
      have hstep0 : 0 < angleStepF r n := by
        refine lt_of_lt_of_le (mul_pos (div_pos (by linarith) hn0) ?_) s1
        exact sub_pos.2 (by norm_num)
      have hz0 : 0 ≤ a / angleStepF r n := div_nonneg h0 hstep0.le
      have hraw0 : 0 ≤ rawIndexF r n a := Int.floor_nonneg.2 (R.nonneg hz0)
      have hraw : rawIndexF r n a = (k : ℤ) := by omega
      unfold rawIndexF at hraw
      have f1 := Int.floor_le (r (a / angleStepF r n))
      have f2 := Int.lt_floor_add_one (r (a / angleStepF r n))
      rw [hraw] at f1 f2
      push_cast at f1 f2
      have hz2 : a / angleStepF r n ≤ 2 * n := by
        rw [div_le_iff₀ hstep0]
        have h5 : 2 * (n : ℝ) * (mPi / n * (1 - 2 ^ (-50 : ℤ))) ≤ 2 * n * angleStepF r n :=
          mul_le_mul_of_nonneg_left s1 (by linarith)
        refine le_trans ?_ h5
        have e : 2 * (n : ℝ) * (mPi / n * (1 - 2 ^ (-50 : ℤ))) = mPi * (2 * (1 - 2 ^ (-50 : ℤ))) := by field_simp
        rw [e]
        have : (1 : ℝ) ≤ 2 * (1 - 2 ^ (-50 : ℤ)) := by norm_num
        exact hc.2.le.trans (le_mul_of_one_le_right (by linarith) this)
      have her := R.err_mul (x := a / angleStepF r n) (B := 2 * n) (by
        refine le_trans ?_ (show (1 : ℝ) ≤ 2 * n by linarith)
        have := two_zpow_le (K := ℝ) (a := -1022) (b := 0) (by norm_num)
        simpa using this) (by rw [abs_of_nonneg hz0]; exact hz2)
      have her' := abs_le.1 her
      have hza : a / angleStepF r n * angleStepF r n = a := div_mul_cancel₀ _ hstep0.ne'
      generalize a / angleStepF r n = z at *
      generalize r z = w at *
      clear hraw hraw0 hk hc2 h her hn2
      have e50 : (2 : ℝ) ^ (-50 : ℤ) = 8 * 2 ^ (-53 : ℤ) := by norm_num
      have e52 : (2 : ℝ) ^ (-52 : ℤ) = 2 * 2 ^ (-53 : ℤ) := by norm_num
      have e21 : 2 ^ (-20 : ℤ) = 2 * (2 : ℝ) ^ (-21 : ℤ) := by norm_num
      have hu0 := two_zpow_pos (K := ℝ) (-53)
      have hu1 : (2 : ℝ) ^ (-53 : ℤ) ≤ 1 / 1000 := by norm_num
      have hfin : 200 * (2 : ℝ) ^ (-53 : ℤ) ≤ 2 ^ (-21 : ℤ) := by norm_num
      have hp := abs_le.1 mPi_near
      rw [e50] at s1 s2
      rw [e52] at hp
      rw [e21]
      generalize (2 : ℝ) ^ (-53 : ℤ) = u at *
      generalize (2 : ℝ) ^ (-21 : ℤ) = v at *
      clear e50 e52 e21
      generalize angleStepF r n = s at *
      -- the step times n is π up to 40 u
      have ns : |s * n - Real.pi| ≤ 40 * u := by
        have a1 : mPi * (1 - 8 * u) ≤ s * n := by
          have := mul_le_mul_of_nonneg_right s1 hn0.le
          have e : mPi / n * (1 - 8 * u) * n = mPi * (1 - 8 * u) := by field_simp
          linarith
        have a2 : s * n ≤ mPi * (1 + 8 * u) := by
          have := mul_le_mul_of_nonneg_right s2 hn0.le
          have e : mPi / n * (1 + 8 * u) * n = mPi * (1 + 8 * u) := by field_simp
          linarith
        have a3 : mPi * u ≤ 4 * u := mul_le_mul_of_nonneg_right hm4 hu0.le
        rw [abs_le]; constructor <;> linarith [hp.1, hp.2]
      have hpin : Real.pi / n * n = Real.pi := div_mul_cancel₀ _ hn0.ne'
      have ds : |s - Real.pi / n| * n ≤ 40 * u := by
        rw [← abs_of_pos hn0, ← abs_mul, abs_of_pos hn0, sub_mul, hpin]; exact ns
      have hkK : (k : ℝ) + 1 ≤ n := by exact_mod_cast hkn
      have hk0 : (0 : ℝ) ≤ k := Nat.cast_nonneg _
      have dk : ∀ j : ℝ, 0 ≤ j → j ≤ n → |j * s - j * (Real.pi / n)| ≤ 40 * u := by
        intro j j0 j1
        rw [← mul_sub, abs_mul, abs_of_nonneg j0]
        calc j * |s - Real.pi / n| ≤ n * |s - Real.pi / n| := mul_le_mul_of_nonneg_right j1 (abs_nonneg _)
          _ = |s - Real.pi / n| * n := mul_comm _ _
          _ ≤ _ := ds
      have d1 := abs_le.1 (dk k hk0 (by linarith))
      have d2 := abs_le.1 (dk (k + 1) (by linarith) hkK)
      have ns' := abs_le.1 ns
      have hpi4 := Real.pi_lt_four
      have snu : u * (2 * n) * s ≤ 10 * u := by
        have : s * n ≤ 5 := by linarith [ns'.2]
        have := mul_le_mul_of_nonneg_left this hu0.le
        linarith
      have za := mul_le_mul_of_nonneg_right her'.1 hstep0.le
      have zb := mul_le_mul_of_nonneg_right her'.2 hstep0.le
      have fa := mul_le_mul_of_nonneg_right f1 hstep0.le
      have fb := mul_le_mul_of_nonneg_right f2.le hstep0.le
      have hb := abs_le.1 hnear
      constructor <;> linarith [d1.1, d1.2, d2.1, d2.2, hb.1, hb.2]
    · rw [if_neg hc2] at hk; cases hk
  · rw [if_neg hc] at hk; cases hk

end

/-- Not vacuous: the exact direction of a step at 45 degrees. -/
example : DirectionOf (Real.pi / 4) 1 1 := by
  refine ⟨⟨by positivity, by linarith [Real.pi_pos]⟩, Real.sqrt 2, ?_, ?_⟩
  · rw [Real.cos_pi_div_four]
    have := Real.mul_self_sqrt (show (0 : ℝ) ≤ 2 by norm_num)
    linarith
  · rw [Real.sin_pi_div_four]
    have := Real.mul_self_sqrt (show (0 : ℝ) ≤ 2 by norm_num)
    linarith

end Slam.Float
