import Verif.Float.Round

/-!
# Rounding to single precision

The fields of `sensor_msgs::LaserScan` are `float`s, and `msg->angle_min - msg->angle_increment`,
`msg->angle_max + msg->angle_increment` (src/ros/laser_scan_observer.h:47, 80) are computed in single precision before the
result is converted to `double`. This is `Float/Round.lean` with 24 bits.
-/

set_option autoImplicit false
set_option linter.unusedSectionVars false

namespace Slam.Float

variable {K : Type*} [Field K] [LinearOrder K] [IsStrictOrderedRing K] [FloorRing K]

/-- The values of finite `float`s (without the upper bound of the exponent). -/
def IsSingle (x : K) : Prop := ∃ m e : ℤ, |m| ≤ 2 ^ 24 ∧ -149 ≤ e ∧ x = (m : K) * 2 ^ e

/-- `r` rounds to a nearest float, whatever it does with ties. -/
structure NearestSingle (r : K → K) : Prop where
  flt : ∀ x, IsSingle (r x)
  near : ∀ x y, IsSingle y → |r x - x| ≤ |y - x|

/-- The exponent of the last place of a float near `x`. -/
def lastPlaceSingle (x : K) : ℤ := max (Int.log 2 |x| - 23) (-149)

/-- Rounding to nearest, ties to even. -/
def rneSingle (x : K) : K := (halfEven (x / 2 ^ lastPlaceSingle x) : K) * 2 ^ lastPlaceSingle x

theorem rneSingle_nearest : NearestSingle (rneSingle : K → K) where
  flt x := by
    refine ⟨halfEven (x / 2 ^ lastPlaceSingle x), lastPlaceSingle x, ?_, le_max_right _ _, rfl⟩
    set e := lastPlaceSingle x with he
    have hp := two_zpow_pos (K := K) e
    have hx : |x / 2 ^ e| ≤ 2 ^ (24 : ℤ) := by
      rw [abs_div, abs_of_pos hp, div_le_iff₀ hp, ← zpow_add₀ (by norm_num)]
      exact (abs_lt_log x).le.trans (two_zpow_le (by have := le_max_left (Int.log 2 |x| - 23) (-149); unfold lastPlaceSingle at he; omega))
    rw [abs_le] at hx
    have h2 : ((2 : K) ^ (24 : ℤ)) = ((2 ^ 24 : ℤ) : K) := by norm_num
    rw [h2] at hx
    have hup := halfEven_near (x / 2 ^ e) (2 ^ 24)
    have hlo := halfEven_near (x / 2 ^ e) (-(2 ^ 24))
    rw [abs_of_nonneg (by linarith [hx.2] : (0 : K) ≤ ((2 ^ 24 : ℤ) : K) - x / 2 ^ e)] at hup
    rw [abs_of_nonpos (by push_cast at hx ⊢; linarith [hx.1] : (((-(2 ^ 24) : ℤ)) : K) - x / 2 ^ e ≤ 0)] at hlo
    rw [abs_le] at hup hlo ⊢
    constructor
    · have : (((-(2 ^ 24) : ℤ)) : K) ≤ (halfEven (x / 2 ^ e) : K) := by linarith [hlo.1]
      exact_mod_cast this
    · have : (halfEven (x / 2 ^ e) : K) ≤ ((2 ^ 24 : ℤ) : K) := by linarith [hup.2]
      exact_mod_cast this
  near x y hy := by
    by_cases hx : x = 0
    · subst hx
      have : rneSingle (0 : K) = 0 := by
        unfold rneSingle halfEven
        simp
      rw [this]; simp
    obtain ⟨m, f, hm, hf, rfl⟩ := hy
    set e := lastPlaceSingle x with he
    rcases le_or_gt e f with h | h
    · have hh : ((m : K) * 2 ^ f) = ((m * 2 ^ (f - e).toNat : ℤ) : K) * 2 ^ e := by
        push_cast
        rw [mul_assoc, ← zpow_natCast (2 : K) (f - e).toNat, ← zpow_add₀ (by norm_num : (2 : K) ≠ 0)]
        congr 2; omega
      rw [hh]
      exact grid_near x e _
    · have hk : e = Int.log 2 |x| - 23 := by unfold lastPlaceSingle at he; omega
      have hmK : |(m : K)| ≤ 2 ^ (24 : ℤ) := by
        have h2 : ((2 : K) ^ (24 : ℤ)) = ((2 ^ 24 : ℤ) : K) := by norm_num
        rw [h2, ← Int.cast_abs]; exact_mod_cast hm
      have hyk : |(m : K) * 2 ^ f| ≤ 2 ^ Int.log 2 |x| := by
        rw [abs_mul, abs_of_pos (two_zpow_pos f : (0 : K) < 2 ^ f)]
        calc |(m : K)| * 2 ^ f ≤ 2 ^ (24 : ℤ) * 2 ^ f := mul_le_mul_of_nonneg_right hmK (two_zpow_pos f).le
          _ = 2 ^ (24 + f) := (zpow_add₀ (by norm_num) _ _).symm
          _ ≤ _ := two_zpow_le (by omega)
      have hlog := log_le_abs hx
      set k := Int.log 2 |x| with hkdef
      have hgrid : ((2 : K) ^ k) = ((2 ^ 23 : ℤ) : K) * 2 ^ e := by
        rw [show ((2 ^ 23 : ℤ) : K) = 2 ^ (23 : ℤ) by norm_num, ← zpow_add₀ (by norm_num : (2 : K) ≠ 0)]
        congr 1; omega
      have tri : |x| - |(m : K) * 2 ^ f| ≤ |(m : K) * 2 ^ f - x| := by
        rw [abs_sub_comm]; exact abs_sub_abs_le_abs_sub x _
      rcases lt_or_gt_of_ne hx with neg | pos
      · have hg := grid_near x e (-(2 ^ 23))
        have hgrid' : (((-(2 ^ 23) : ℤ)) : K) * 2 ^ e = - 2 ^ k := by rw [hgrid]; push_cast; ring
        rw [hgrid'] at hg
        rw [abs_of_neg neg] at hlog tri
        rw [abs_of_nonneg (by linarith : 0 ≤ -2 ^ k - x)] at hg
        exact hg.trans (by linarith)
      · have hg := grid_near x e (2 ^ 23)
        rw [← hgrid] at hg
        rw [abs_of_pos pos] at hlog tri
        rw [abs_of_nonpos (by linarith : 2 ^ k - x ≤ 0)] at hg
        exact hg.trans (by linarith)

theorem isSingle_scaled {n e : ℤ} (hn : |n| ≤ 2 ^ 24) (he : -149 ≤ e) : IsSingle ((n : K) * 2 ^ e) := ⟨n, e, hn, he, rfl⟩

section
variable {r : K → K}

theorem NearestSingle.fix (R : NearestSingle r) {x : K} (h : IsSingle x) : r x = x := by
  have := R.near x x h
  rw [sub_self, abs_zero] at this
  exact sub_eq_zero.1 (abs_nonpos_iff.1 this)

/-- Absolute error. -/
theorem NearestSingle.err (R : NearestSingle r) {x : K} {k : ℤ} (hk : -125 ≤ k) (hx : |x| ≤ 2 ^ k) : |r x - x| ≤ 2 ^ (k - 25) := by
  have hp := two_zpow_pos (K := K) (k - 24)
  have hd : IsSingle ((halfEven (x / 2 ^ (k - 24)) : K) * 2 ^ (k - 24)) := by
    refine isSingle_scaled ?_ (by omega)
    have hx' : |x / 2 ^ (k - 24)| ≤ ((2 ^ 24 : ℤ) : K) := by
      rw [abs_div, abs_of_pos hp, div_le_iff₀ hp]
      refine hx.trans (le_of_eq ?_)
      rw [show ((2 ^ 24 : ℤ) : K) = 2 ^ (24 : ℤ) by norm_num, ← zpow_add₀ (by norm_num)]
      congr 1; ring
    rw [abs_le] at hx'
    have hup := halfEven_near (x / 2 ^ (k - 24)) (2 ^ 24)
    have hlo := halfEven_near (x / 2 ^ (k - 24)) (-(2 ^ 24))
    rw [abs_of_nonneg (by linarith [hx'.2] : (0 : K) ≤ ((2 ^ 24 : ℤ) : K) - _)] at hup
    rw [abs_of_nonpos (by push_cast at hx' ⊢; linarith [hx'.1] : (((-(2 ^ 24) : ℤ)) : K) - _ ≤ 0)] at hlo
    rw [abs_le] at hup hlo ⊢
    constructor
    · have : (((-(2 ^ 24) : ℤ)) : K) ≤ (halfEven (x / 2 ^ (k - 24)) : K) := by linarith [hlo.1]
      exact_mod_cast this
    · have : (halfEven (x / 2 ^ (k - 24)) : K) ≤ ((2 ^ 24 : ℤ) : K) := by linarith [hup.2]
      exact_mod_cast this
  refine (R.near x _ hd).trans ?_
  -- the nearest multiple is at most half a step away
  set z := x / 2 ^ (k - 24) with hz
  have hxz : x = z * 2 ^ (k - 24) := by rw [hz]; field_simp
  have h1 := halfEven_near z ⌊z⌋
  have h2 := halfEven_near z (⌊z⌋ + 1)
  have f0 := Int.floor_le z
  have f1 := Int.lt_floor_add_one z
  rw [abs_of_nonpos (by linarith : (⌊z⌋ : K) - z ≤ 0)] at h1
  rw [abs_of_nonneg (by push_cast; linarith : (0 : K) ≤ ((⌊z⌋ + 1 : ℤ) : K) - z)] at h2
  push_cast at h2
  have hh : |(halfEven z : K) - z| ≤ 1 / 2 := by linarith
  have h3 : (halfEven z : K) * 2 ^ (k - 24) - x = ((halfEven z : K) - z) * 2 ^ (k - 24) := by
    conv_lhs => rw [hxz]
    ring
  rw [h3, abs_mul, abs_of_pos hp]
  have h4 : (2 : K) ^ (k - 25) = 1 / 2 * 2 ^ (k - 24) := by
    rw [show k - 24 = (k - 25) + 1 by ring, zpow_add_one₀ (by norm_num)]; ring
  rw [h4]
  exact mul_le_mul_of_nonneg_right hh hp.le

end

/-- Every float is a double. -/
theorem IsSingle.double {x : K} (h : IsSingle x) : IsDouble x := by
  obtain ⟨m, e, hm, he, rfl⟩ := h
  exact ⟨m, e, hm.trans (by norm_num), by omega, rfl⟩

end Slam.Float
