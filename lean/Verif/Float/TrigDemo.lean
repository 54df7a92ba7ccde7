import Verif.Float.Trig

/-!
# Cached trigonometry in floating point: a case, and how far the angles are off
-/

set_option autoImplicit false
set_option linter.unusedSectionVars false

namespace Slam.Float
open Slam.Sensor Slam.Worlds

/-- A library that rounds correctly. -/
noncomputable def roundedLibm (r : ℝ → ℝ) : Libm := ⟨fun x => r (Real.sin x), fun x => r (Real.cos x)⟩

theorem roundedLibm_accurate {r : ℝ → ℝ} (R : Nearest r) : (roundedLibm r).Accurate (2 ^ (-54 : ℤ)) := by
  intro x
  have h1 := R.err (x := Real.sin x) (k := 0) (by norm_num) (by simpa using Real.abs_sin_le_one x)
  have h2 := R.err (x := Real.cos x) (k := 0) (by norm_num) (by simpa using Real.abs_cos_le_one x)
  exact ⟨by simpa [roundedLibm] using h1, by simpa [roundedLibm] using h2⟩

/-- Three beams, at -1/2, 0 and 1/2; the second one sees nothing. -/
noncomputable def demoMsg : Msg ℝ := ⟨-1 / 2, 1 / 2, 1 / 2, 0, 10, [some 1, some 20, some 3]⟩

theorem demoMsg_float : FloatMsg demoMsg where
  angleMin := ⟨-1, -1, by norm_num, by norm_num, by norm_num [demoMsg]⟩
  angleMax := ⟨1, -1, by norm_num, by norm_num, by norm_num [demoMsg]⟩
  increment := ⟨1, -1, by norm_num, by norm_num, by norm_num [demoMsg]⟩
  rangeMin := ⟨0, 0, by norm_num, by norm_num, by norm_num [demoMsg]⟩
  rangeMax := ⟨10, 0, by norm_num, by norm_num, by norm_num [demoMsg]⟩
  ranges := by
    intro v hv
    simp [demoMsg] at hv
    rcases hv with rfl | rfl | rfl
    · exact ⟨1, 0, by norm_num, by norm_num, by norm_num⟩
    · exact ⟨20, 0, by norm_num, by norm_num, by norm_num⟩
    · exact ⟨3, 0, by norm_num, by norm_num, by norm_num⟩

theorem demoMsg_spread : Spread demoMsg (1 / 60000) where
  min := by norm_num [demoMsg, abs_le]
  max := by norm_num [demoMsg, abs_le]
  apart := by norm_num [demoMsg]
  step := by norm_num [demoMsg]

/-- The node accepts it. -/
theorem demoMsg_accepted {r s : ℝ → ℝ} (R : Nearest r) (S : NearestSingle s) :
    msg2scanF r s demoMsg false (1 / 60000) =
      some [⟨some 1, -1 / 2, true⟩, ⟨some 10, 0, false⟩, ⟨some 3, 1 / 2, true⟩] := by
  have h0 : s (-1 / 2 - 1 / 2) = -1 := by
    have := S.fix (x := (-1 : ℝ)) ⟨-1, 0, by norm_num, by norm_num, by norm_num⟩
    norm_num; exact this
  have h1 : r (-1 + 1 / 2) = -1 / 2 := by
    have := R.fix (x := (-1 / 2 : ℝ)) ⟨-1, -1, by norm_num, by norm_num, by norm_num⟩
    norm_num at this ⊢; exact this
  have h2 : r (-1 / 2 + 1 / 2) = 0 := by
    have := R.fix (x := (0 : ℝ)) isDouble_zero
    norm_num; exact this
  have h3 : r (0 + 1 / 2) = 1 / 2 := by
    have := R.fix (x := (1 / 2 : ℝ)) isDouble_half
    norm_num at this ⊢; exact this
  have h4 : r (1 / 2 - 1 / 2) = 0 := by
    have := R.fix (x := (0 : ℝ)) isDouble_zero
    norm_num; exact this
  have c1 : ¬ (1 : ℝ) < 0 := by norm_num
  have c2 : ¬ (10 : ℝ) ≤ 1 := by norm_num
  have c3 : ¬ (20 : ℝ) < 0 := by norm_num
  have c4 : (10 : ℝ) ≤ 20 := by norm_num
  have c5 : ¬ (3 : ℝ) < 0 := by norm_num
  have c6 : ¬ (10 : ℝ) ≤ 3 := by norm_num
  have c7 : |(0 : ℝ)| ≤ 1 / 60000 := by norm_num
  simp only [msg2scanF, demoMsg, convertF, h0, h1, h2, h3, h4, c1, c2, c3, c4, c5, c6, c7, if_true, if_false,
    Bool.false_eq_true]

/-- Non-vacuity of C107: IEEE rounding, a correctly rounding library, the message above. -/
example : ∃ N, ∀ fuel, N ≤ fuel → ∃ c, providerF rne rneSingle (roundedLibm rne) demoMsg 1 fuel = some c ∧
    ∃ v, cosF rne c (1 / 2) = some v ∧ |v - Real.cos (1 + 1 / 2)| ≤ 5 * 2 ^ (-54 : ℤ) + 2 ^ (-25 : ℤ) := by
  obtain ⟨N, h⟩ := message_cache_rounded rne_nearest rneSingle_nearest (roundedLibm rne) (roundedLibm_accurate rne_nearest)
    (by norm_num) demoMsg false _ demoMsg_float demoMsg_spread _ (demoMsg_accepted rne_nearest rneSingle_nearest)
  refine ⟨N, fun fuel hf => ?_⟩
  obtain ⟨c, h1, h2⟩ := h fuel hf 1 (by norm_num)
  refine ⟨c, h1, ?_⟩
  have hb : beams demoMsg false = [⟨some 1, -1 / 2, true⟩, ⟨some 10, 0, false⟩, ⟨some 3, 1 / 2, true⟩] := by
    norm_num [beams, demoMsg, pointSpec, List.zipIdx, List.filterMap_cons]
  rw [hb] at h2
  cases h2 with
  | cons _ h2 =>
    cases h2 with
    | cons _ h2 =>
      cases h2 with
      | cons h3 _ => exact h3.2.2.2.2.1

/-! ## The angles are not the beams' to double precision -/

/-- Floats between four and eight are multiples of 2^-21. -/
theorem single_grid {x : ℝ} (h : IsSingle x) (h4 : 4 < |x|) : ∃ n : ℤ, x = n * 2 ^ (-21 : ℤ) := by
  obtain ⟨m, e, hm, he, rfl⟩ := h
  have hp := two_zpow_pos (K := ℝ) e
  have he' : -21 ≤ e := by
    by_contra hc
    have h1 : (2 : ℝ) ^ e ≤ 2 ^ (-22 : ℤ) := two_zpow_le (by omega)
    have h2 : |(m : ℝ)| ≤ 2 ^ 24 := by rw [← Int.cast_abs]; exact_mod_cast hm
    rw [abs_mul, abs_of_pos hp] at h4
    have := mul_le_mul h2 h1 hp.le (by norm_num)
    norm_num at this
    linarith
  refine ⟨m * 2 ^ (e + 21).toNat, ?_⟩
  push_cast
  rw [mul_assoc, ← zpow_natCast (2 : ℝ) (e + 21).toNat, ← zpow_add₀ (by norm_num : (2 : ℝ) ≠ 0)]
  congr 2; omega

/-- One beam at -4, step 1/8 + 2^-23. -/
noncomputable def offMsg : Msg ℝ := ⟨-4, -4, 1 / 8 + 1 / 8388608, 0, 10, [some 1]⟩

/-- C107, the microradian is real: the node subtracts the step from the first angle in single precision and then adds it in
double precision, so that a message can be accepted (whatever way ties are rounded) whose first point is not at the first
beam's angle, which is a float, but 2^-24 or more beside it, although a double would hold it exactly. -/
theorem beam_angle_counterexample {r s : ℝ → ℝ} (R : Nearest r) (S : NearestSingle s) :
    FloatMsg offMsg ∧ Spread offMsg (1 / 60000) ∧ ∃ p, msg2scanF r s offMsg false (1 / 60000) = some [p] ∧
      p.range = some 1 ∧ 2 ^ (-24 : ℤ) ≤ |p.angle - offMsg.angleMin| := by
  refine ⟨⟨⟨-4, 0, by norm_num, by norm_num, by norm_num [offMsg]⟩, ⟨-4, 0, by norm_num, by norm_num, by norm_num [offMsg]⟩,
    ⟨1048577, -23, by norm_num, by norm_num, by norm_num [offMsg]⟩, ⟨0, 0, by norm_num, by norm_num, by norm_num [offMsg]⟩,
    ⟨10, 0, by norm_num, by norm_num, by norm_num [offMsg]⟩, ?_⟩, ⟨by norm_num [offMsg, abs_le], by norm_num [offMsg, abs_le],
    by norm_num [offMsg], by norm_num [offMsg]⟩, ?_⟩
  · intro v hv
    simp [offMsg] at hv
    exact ⟨1, 0, by norm_num, by norm_num, by norm_num [hv]⟩
  obtain ⟨y, hy⟩ : ∃ y : ℝ, y = -4 - (1 / 8 + 1 / 8388608) := ⟨_, rfl⟩
  have hnear := S.near y (-33 / 8) ⟨-33, -3, by norm_num, by norm_num, by norm_num⟩
  have hn1 : |(-33 / 8 : ℝ) - y| = 1 / 8388608 := by rw [hy]; norm_num
  rw [hn1] at hnear
  obtain ⟨hlo, hhi⟩ := abs_le.1 hnear
  have hb : 4 < |s y| := by
    rw [abs_of_neg (by linarith)]; linarith
  obtain ⟨n, hn2⟩ := single_grid (S.flt y) hb
  have hoff : 1 / 8388608 ≤ |s y - y| := by
    by_contra hc
    have hc := abs_lt.1 (not_le.1 hc)
    have e : (2 : ℝ) ^ (-21 : ℤ) = 1 / 2097152 := by norm_num
    rw [hn2, hy, e] at hc
    have h1 : ((-8650753 : ℤ) : ℝ) < n := by push_cast; linarith [hc.1]
    have h2 : (n : ℝ) < ((-8650752 : ℤ) : ℝ) := by push_cast; linarith [hc.2]
    have h1' : -8650753 < n := by exact_mod_cast h1
    have h2' : n < -8650752 := by exact_mod_cast h2
    omega
  obtain ⟨z, hz⟩ : ∃ z : ℝ, z = s y + (1 / 8 + 1 / 8388608) := ⟨_, rfl⟩
  obtain ⟨zlo, zhi⟩ := abs_le.1 (R.err (x := z) (k := 3) (by norm_num) (by rw [abs_le]; norm_num; constructor <;> linarith))
  obtain ⟨wlo, whi⟩ := abs_le.1 (R.err (x := r z - -4) (k := 1) (by norm_num)
    (by rw [abs_le]; norm_num at zlo zhi ⊢; constructor <;> linarith))
  have hacc : |r (r z - -4)| ≤ 1 / 60000 := by
    rw [abs_le]; norm_num at wlo whi zlo zhi ⊢; constructor <;> linarith
  refine ⟨⟨some 1, r z, true⟩, ?_, rfl, ?_⟩
  · have c1 : ¬ (1 : ℝ) < 0 := by norm_num
    have c2 : ¬ (10 : ℝ) ≤ 1 := by norm_num
    simp only [msg2scanF, offMsg, convertF, ← hy, ← hz, c1, c2, if_false]
    rw [if_pos hacc]
  · show _ ≤ |r z - -4|
    have e : s y - y = z - -4 := by rw [hz, hy]; ring
    rw [e] at hoff
    have tri := abs_sub_abs_le_abs_sub (z - -4) (r z - -4)
    have hzz : |(z - -4) - (r z - -4)| ≤ 2 ^ (3 - 54 : ℤ) := by
      rw [abs_le]; constructor <;> linarith [zlo, zhi]
    norm_num at hzz ⊢
    norm_num at tri hoff
    linarith

end Slam.Float
