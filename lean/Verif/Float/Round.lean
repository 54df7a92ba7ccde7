import Mathlib.Data.Int.Log
import Mathlib.Algebra.Order.Field.Basic
import Mathlib.Algebra.Order.Floor.Ring
import Mathlib.Data.Rat.Floor
import Mathlib.Tactic.Linarith
import Mathlib.Tactic.Ring
import Mathlib.Tactic.Positivity
import Mathlib.Tactic.NormNum
import Mathlib.Tactic.FieldSimp

/-!
# Rounding of `double`

The other parts of the model compute exactly. Here is what a `double` operation really returns: the exact result rounded
to 53 significant bits, to nearest, ties to even (IEEE 754 binary64, the default mode), down to the subnormal numbers.
Not modelled: overflow (every magnitude is below 2^1024), infinities, NaN, the sign of zero, and fused or extended
precision evaluation.

`IsDouble` and `Nearest` are the specification; `rne` is an executable definition that is proved to meet it.
-/

set_option autoImplicit false
set_option linter.unusedSectionVars false

namespace Slam.Float

variable {K : Type*} [Field K] [LinearOrder K] [IsStrictOrderedRing K] [FloorRing K]

/-- The values of finite `double`s (without the upper bound of the exponent). -/
def IsDouble (x : K) : Prop := ∃ m e : ℤ, |m| ≤ 2 ^ 53 ∧ -1074 ≤ e ∧ x = (m : K) * 2 ^ e

/-- `r` rounds to a nearest double, whatever it does with ties. -/
structure Nearest (r : K → K) : Prop where
  dbl : ∀ x, IsDouble (r x)
  near : ∀ x y, IsDouble y → |r x - x| ≤ |y - x|

/-- The nearest integer, the even one of two. -/
def halfEven (x : K) : ℤ :=
  if x - ⌊x⌋ < 1 / 2 then ⌊x⌋
  else if 1 / 2 < x - ⌊x⌋ then ⌊x⌋ + 1
  else if ⌊x⌋ % 2 = 0 then ⌊x⌋ else ⌊x⌋ + 1

/-- The exponent of the last place of a double near `x`. -/
def lastPlace (x : K) : ℤ := max (Int.log 2 |x| - 52) (-1074)

/-- Rounding to nearest, ties to even. -/
def rne (x : K) : K := (halfEven (x / 2 ^ lastPlace x) : K) * 2 ^ lastPlace x

/-! ## `rne` rounds to nearest -/

theorem halfEven_near (x : K) (j : ℤ) : |(halfEven x : K) - x| ≤ |(j : K) - x| := by
  have h0 := Int.floor_le x
  have h1 := Int.lt_floor_add_one x
  have key : |(halfEven x : K) - x| ≤ x - ⌊x⌋ ∧ |(halfEven x : K) - x| ≤ ⌊x⌋ + 1 - x := by
    unfold halfEven
    by_cases a : x - ⌊x⌋ < 1 / 2
    · rw [if_pos a, abs_le, abs_le]; constructor <;> constructor <;> linarith
    · rw [if_neg a]
      by_cases b : 1 / 2 < x - ⌊x⌋
      · rw [if_pos b, abs_le, abs_le]; push_cast; constructor <;> constructor <;> linarith
      · rw [if_neg b]
        have hh : x - ⌊x⌋ = 1 / 2 := le_antisymm (not_lt.1 b) (not_lt.1 a)
        by_cases c : ⌊x⌋ % 2 = 0
        · rw [if_pos c, abs_le, abs_le]; constructor <;> constructor <;> linarith
        · rw [if_neg c, abs_le, abs_le]; push_cast; constructor <;> constructor <;> linarith
  rcases le_or_gt j ⌊x⌋ with hj | hj
  · have : (j : K) ≤ ⌊x⌋ := by exact_mod_cast hj
    have : x - j ≤ |(j : K) - x| := by rw [abs_sub_comm]; exact le_abs_self _
    linarith [key.1]
  · have : ((⌊x⌋ + 1 : ℤ) : K) ≤ j := by exact_mod_cast hj
    push_cast at this
    have := le_abs_self ((j : K) - x)
    linarith [key.2]

theorem two_zpow_pos (e : ℤ) : (0 : K) < 2 ^ e := zpow_pos (by norm_num) e

theorem two_zpow_le {a b : ℤ} (h : a ≤ b) : (2 : K) ^ a ≤ 2 ^ b := zpow_le_zpow_right₀ (by norm_num) h

theorem abs_lt_log (x : K) : |x| < 2 ^ (Int.log 2 |x| + 1) := by
  exact_mod_cast Int.lt_zpow_succ_log_self (b := 2) (by norm_num) |x|

theorem log_le_abs {x : K} (h : x ≠ 0) : (2 : K) ^ Int.log 2 |x| ≤ |x| := by
  exact_mod_cast Int.zpow_log_le_self (b := 2) (by norm_num) (abs_pos.2 h)

/-- The multiple of `2^e` nearest to `x`. -/
theorem grid_near (x : K) (e j : ℤ) : |(halfEven (x / 2 ^ e) : K) * 2 ^ e - x| ≤ |(j : K) * 2 ^ e - x| := by
  have hp := two_zpow_pos (K := K) e
  have h := mul_le_mul_of_nonneg_right (halfEven_near (x / 2 ^ e) j) hp.le
  have e1 : ∀ n : ℤ, |(n : K) - x / 2 ^ e| * 2 ^ e = |(n : K) * 2 ^ e - x| := by
    intro n
    conv_lhs => rw [← abs_of_pos hp, ← abs_mul, abs_of_pos hp]
    congr 1; field_simp
  rwa [e1, e1] at h

theorem rne_nearest : Nearest (rne : K → K) where
  dbl x := by
    refine ⟨halfEven (x / 2 ^ lastPlace x), lastPlace x, ?_, le_max_right _ _, rfl⟩
    set e := lastPlace x with he
    have hp := two_zpow_pos (K := K) e
    have hx : |x / 2 ^ e| ≤ 2 ^ (53 : ℤ) := by
      rw [abs_div, abs_of_pos hp, div_le_iff₀ hp, ← zpow_add₀ (by norm_num)]
      exact (abs_lt_log x).le.trans (two_zpow_le (by have := le_max_left (Int.log 2 |x| - 52) (-1074); unfold lastPlace at he; omega))
    rw [abs_le] at hx
    have h2 : ((2 : K) ^ (53 : ℤ)) = ((2 ^ 53 : ℤ) : K) := by norm_num
    rw [h2] at hx
    have hup := halfEven_near (x / 2 ^ e) (2 ^ 53)
    have hlo := halfEven_near (x / 2 ^ e) (-(2 ^ 53))
    rw [abs_of_nonneg (by linarith [hx.2] : (0 : K) ≤ ((2 ^ 53 : ℤ) : K) - x / 2 ^ e)] at hup
    rw [abs_of_nonpos (by push_cast at hx ⊢; linarith [hx.1] : (((-(2 ^ 53) : ℤ)) : K) - x / 2 ^ e ≤ 0)] at hlo
    rw [abs_le] at hup hlo ⊢
    constructor
    · have : (((-(2 ^ 53) : ℤ)) : K) ≤ (halfEven (x / 2 ^ e) : K) := by linarith [hlo.1]
      exact_mod_cast this
    · have : (halfEven (x / 2 ^ e) : K) ≤ ((2 ^ 53 : ℤ) : K) := by linarith [hup.2]
      exact_mod_cast this
  near x y hy := by
    by_cases hx : x = 0
    · subst hx
      have : rne (0 : K) = 0 := by
        unfold rne halfEven
        simp
      rw [this]; simp
    obtain ⟨m, f, hm, hf, rfl⟩ := hy
    set e := lastPlace x with he
    rcases le_or_gt e f with h | h
    · have hh : ((m : K) * 2 ^ f) = ((m * 2 ^ (f - e).toNat : ℤ) : K) * 2 ^ e := by
        push_cast
        rw [mul_assoc, ← zpow_natCast (2 : K) (f - e).toNat, ← zpow_add₀ (by norm_num : (2 : K) ≠ 0)]
        congr 2; omega
      rw [hh]
      exact grid_near x e _
    · have hk : e = Int.log 2 |x| - 52 := by unfold lastPlace at he; omega
      have hmK : |(m : K)| ≤ 2 ^ (53 : ℤ) := by
        have h2 : ((2 : K) ^ (53 : ℤ)) = ((2 ^ 53 : ℤ) : K) := by norm_num
        rw [h2, ← Int.cast_abs]; exact_mod_cast hm
      have hyk : |(m : K) * 2 ^ f| ≤ 2 ^ Int.log 2 |x| := by
        rw [abs_mul, abs_of_pos (two_zpow_pos f : (0 : K) < 2 ^ f)]
        calc |(m : K)| * 2 ^ f ≤ 2 ^ (53 : ℤ) * 2 ^ f := mul_le_mul_of_nonneg_right hmK (two_zpow_pos f).le
          _ = 2 ^ (53 + f) := (zpow_add₀ (by norm_num) _ _).symm
          _ ≤ _ := two_zpow_le (by omega)
      have hlog := log_le_abs hx
      set k := Int.log 2 |x| with hkdef
      have hgrid : ((2 : K) ^ k) = ((2 ^ 52 : ℤ) : K) * 2 ^ e := by
        rw [show ((2 ^ 52 : ℤ) : K) = 2 ^ (52 : ℤ) by norm_num, ← zpow_add₀ (by norm_num : (2 : K) ≠ 0)]
        congr 1; omega
      have tri : |x| - |(m : K) * 2 ^ f| ≤ |(m : K) * 2 ^ f - x| := by
        rw [abs_sub_comm]; exact abs_sub_abs_le_abs_sub x _
      rcases lt_or_gt_of_ne hx with neg | pos
      · have hg := grid_near x e (-(2 ^ 52))
        have hgrid' : (((-(2 ^ 52) : ℤ)) : K) * 2 ^ e = - 2 ^ k := by rw [hgrid]; push_cast; ring
        rw [hgrid'] at hg
        rw [abs_of_neg neg] at hlog tri
        rw [abs_of_nonneg (by linarith : 0 ≤ -2 ^ k - x)] at hg
        exact hg.trans (by linarith)
      · have hg := grid_near x e (2 ^ 52)
        rw [← hgrid] at hg
        rw [abs_of_pos pos] at hlog tri
        rw [abs_of_nonpos (by linarith : 2 ^ k - x ≤ 0)] at hg
        exact hg.trans (by linarith)

/-! ## Which numbers are doubles -/

theorem isDouble_int {n : ℤ} (h : |n| ≤ 2 ^ 53) : IsDouble (n : K) := ⟨n, 0, h, by norm_num, by simp⟩

theorem isDouble_zero : IsDouble (0 : K) := ⟨0, 0, by norm_num, by norm_num, by simp⟩

theorem isDouble_one : IsDouble (1 : K) := ⟨1, 0, by norm_num, by norm_num, by simp⟩

theorem isDouble_nat {n : Nat} (h : n ≤ 2 ^ 53) : IsDouble (n : K) := by
  have := isDouble_int (K := K) (n := (n : ℤ)) (by rw [abs_of_nonneg (by positivity)]; exact_mod_cast h)
  exact_mod_cast this

theorem IsDouble.neg {x : K} (h : IsDouble x) : IsDouble (-x) := by
  obtain ⟨m, e, hm, he, rfl⟩ := h
  exact ⟨-m, e, by rwa [abs_neg], he, by push_cast; ring⟩

theorem isDouble_scaled {n e : ℤ} (hn : |n| ≤ 2 ^ 53) (he : -1074 ≤ e) : IsDouble ((n : K) * 2 ^ e) := ⟨n, e, hn, he, rfl⟩

theorem isDouble_half : IsDouble (1 / 2 : K) := ⟨1, -1, by norm_num, by norm_num, by norm_num⟩

/-- Doubles above one leave a gap. -/
theorem gap_above_one {y : K} (hy : IsDouble y) (h : 1 < y) : 1 + 2 ^ (-52 : ℤ) ≤ y := by
  obtain ⟨m, e, hm, he, rfl⟩ := hy
  have hp := two_zpow_pos (K := K) e
  have hmK : (m : K) ≤ 2 ^ (53 : ℤ) := by
    have h2 : ((2 : K) ^ (53 : ℤ)) = ((2 ^ 53 : ℤ) : K) := by norm_num
    rw [h2]; exact_mod_cast (le_abs_self m).trans hm
  rcases le_or_gt e (-53) with h1 | h1
  · exfalso
    have : (m : K) * 2 ^ e ≤ 2 ^ (53 : ℤ) * 2 ^ e := mul_le_mul_of_nonneg_right hmK hp.le
    rw [← zpow_add₀ (by norm_num)] at this
    have h2 : (2 : K) ^ (53 + e) ≤ 2 ^ (0 : ℤ) := two_zpow_le (by omega)
    rw [zpow_zero] at h2; linarith
  · have hh : (m : K) * 2 ^ e = ((m * 2 ^ (e + 52).toNat : ℤ) : K) * 2 ^ (-52 : ℤ) := by
      push_cast
      rw [mul_assoc, ← zpow_natCast (2 : K) (e + 52).toNat, ← zpow_add₀ (by norm_num : (2 : K) ≠ 0)]
      congr 2; omega
    rw [hh] at h ⊢
    set n := m * 2 ^ (e + 52).toNat
    have hp52 := two_zpow_pos (K := K) (-52)
    have h1' : ((2 ^ 52 : ℤ) : K) * 2 ^ (-52 : ℤ) = 1 := by norm_num
    have : ((2 ^ 52 : ℤ) : K) < (n : K) := by
      by_contra hc
      have := mul_le_mul_of_nonneg_right (not_lt.1 hc) hp52.le
      rw [h1'] at this; linarith
    have hn : (2 ^ 52 : ℤ) + 1 ≤ n := by have : (2 ^ 52 : ℤ) < n := by exact_mod_cast this
                                         omega
    have hnK : (((2 ^ 52 : ℤ) + 1 : ℤ) : K) ≤ (n : K) := by exact_mod_cast hn
    have := mul_le_mul_of_nonneg_right hnK hp52.le
    refine le_trans (le_of_eq ?_) this
    norm_num

/-! ## What any rounding to nearest does -/

section
variable {r : K → K} (R : Nearest r)

theorem Nearest.fix (R : Nearest r) {x : K} (h : IsDouble x) : r x = x := by
  have := R.near x x h
  rw [sub_self, abs_zero] at this
  exact sub_eq_zero.1 (abs_nonpos_iff.1 this)

theorem Nearest.mono (R : Nearest r) {x y : K} (h : x ≤ y) : r x ≤ r y := by
  rcases h.eq_or_lt with rfl | h
  · exact le_rfl
  by_contra hc
  have hc := not_le.1 hc
  have h1 := R.near x (r y) (R.dbl y)
  have h2 := R.near y (r x) (R.dbl x)
  have a1 : x ≥ (r x + r y) / 2 := by
    by_contra hx
    have hx := not_le.1 hx
    have e1 := le_abs_self (r x - x)
    have : |r y - x| < r x - x := by rw [abs_lt]; constructor <;> linarith
    linarith
  have a2 : y ≤ (r x + r y) / 2 := by
    by_contra hx
    have hx := not_le.1 hx
    have e1 := neg_abs_le (r y - y)
    have : |r x - y| < y - r y := by rw [abs_lt]; constructor <;> linarith
    linarith
  linarith

theorem Nearest.le_of_le (R : Nearest r) {x y : K} (hy : IsDouble y) (h : x ≤ y) : r x ≤ y := by
  have := R.mono h; rwa [R.fix hy] at this

theorem Nearest.ge_of_ge (R : Nearest r) {x y : K} (hy : IsDouble y) (h : y ≤ x) : y ≤ r x := by
  have := R.mono h; rwa [R.fix hy] at this

theorem Nearest.nonneg (R : Nearest r) {x : K} (h : 0 ≤ x) : 0 ≤ r x := R.ge_of_ge isDouble_zero h

theorem Nearest.le_one (R : Nearest r) {x : K} (h : x < 1 + 2 ^ (-53 : ℤ)) : r x ≤ 1 := by
  by_contra hc
  have hc := not_le.1 hc
  have hg := gap_above_one (R.dbl x) hc
  have hn := R.near x 1 isDouble_one
  have h53 : (2 : K) ^ (-52 : ℤ) = 2 * 2 ^ (-53 : ℤ) := by norm_num
  have hp := two_zpow_pos (K := K) (-53)
  rcases le_or_gt x 1 with hx | hx
  · exact absurd (R.le_of_le isDouble_one hx) (not_le.2 hc)
  · rw [abs_of_neg (by linarith : (1 : K) - x < 0), abs_of_pos (by linarith)] at hn
    linarith

/-- Absolute error. -/
theorem Nearest.err (R : Nearest r) {x : K} {k : ℤ} (hk : -1021 ≤ k) (hx : |x| ≤ 2 ^ k) : |r x - x| ≤ 2 ^ (k - 54) := by
  have hp := two_zpow_pos (K := K) (k - 53)
  have hd : IsDouble ((halfEven (x / 2 ^ (k - 53)) : K) * 2 ^ (k - 53)) := by
    refine isDouble_scaled ?_ (by omega)
    have hx' : |x / 2 ^ (k - 53)| ≤ ((2 ^ 53 : ℤ) : K) := by
      rw [abs_div, abs_of_pos hp, div_le_iff₀ hp]
      refine hx.trans (le_of_eq ?_)
      rw [show ((2 ^ 53 : ℤ) : K) = 2 ^ (53 : ℤ) by norm_num, ← zpow_add₀ (by norm_num)]
      congr 1; ring
    rw [abs_le] at hx'
    have hup := halfEven_near (x / 2 ^ (k - 53)) (2 ^ 53)
    have hlo := halfEven_near (x / 2 ^ (k - 53)) (-(2 ^ 53))
    rw [abs_of_nonneg (by linarith [hx'.2] : (0 : K) ≤ ((2 ^ 53 : ℤ) : K) - _)] at hup
    rw [abs_of_nonpos (by push_cast at hx' ⊢; linarith [hx'.1] : (((-(2 ^ 53) : ℤ)) : K) - _ ≤ 0)] at hlo
    rw [abs_le] at hup hlo ⊢
    constructor
    · have : (((-(2 ^ 53) : ℤ)) : K) ≤ (halfEven (x / 2 ^ (k - 53)) : K) := by linarith [hlo.1]
      exact_mod_cast this
    · have : (halfEven (x / 2 ^ (k - 53)) : K) ≤ ((2 ^ 53 : ℤ) : K) := by linarith [hup.2]
      exact_mod_cast this
  refine (R.near x _ hd).trans ?_
  -- the nearest multiple is at most half a step away
  set z := x / 2 ^ (k - 53) with hz
  have hxz : x = z * 2 ^ (k - 53) := by rw [hz]; field_simp
  have h1 := halfEven_near z ⌊z⌋
  have h2 := halfEven_near z (⌊z⌋ + 1)
  have f0 := Int.floor_le z
  have f1 := Int.lt_floor_add_one z
  rw [abs_of_nonpos (by linarith : (⌊z⌋ : K) - z ≤ 0)] at h1
  rw [abs_of_nonneg (by push_cast; linarith : (0 : K) ≤ ((⌊z⌋ + 1 : ℤ) : K) - z)] at h2
  push_cast at h2
  have hh : |(halfEven z : K) - z| ≤ 1 / 2 := by linarith
  have h3 : (halfEven z : K) * 2 ^ (k - 53) - x = ((halfEven z : K) - z) * 2 ^ (k - 53) := by
    conv_lhs => rw [hxz]
    ring
  rw [h3, abs_mul, abs_of_pos hp]
  have h4 : (2 : K) ^ (k - 54) = 1 / 2 * 2 ^ (k - 53) := by
    rw [show k - 53 = (k - 54) + 1 by ring, zpow_add_one₀ (by norm_num)]; ring
  rw [h4]
  exact mul_le_mul_of_nonneg_right hh hp.le

/-- Relative error of a result that is not subnormal. -/
theorem Nearest.rel (R : Nearest r) {x : K} (hx : 2 ^ (-1022 : ℤ) ≤ |x|) : |r x - x| ≤ 2 ^ (-53 : ℤ) * |x| := by
  have h0 : x ≠ 0 := by
    rintro rfl
    rw [abs_zero] at hx
    exact absurd hx (not_le.2 (two_zpow_pos _))
  have hk : -1022 ≤ Int.log 2 |x| := by
    by_contra hc
    have h1 := abs_lt_log x
    have h2 : (2 : K) ^ (Int.log 2 |x| + 1) ≤ 2 ^ (-1022 : ℤ) := two_zpow_le (by omega)
    linarith
  have h1 := R.err (k := Int.log 2 |x| + 1) (by omega) (abs_lt_log x).le
  refine h1.trans ?_
  have h2 := log_le_abs h0
  rw [show Int.log 2 |x| + 1 - 54 = -53 + Int.log 2 |x| by ring, zpow_add₀ (by norm_num)]
  exact mul_le_mul_of_nonneg_left h2 (two_zpow_pos _).le

/-- Error of a result of magnitude at most `B`. -/
theorem Nearest.err_mul (R : Nearest r) {x B : K} (hB : 2 ^ (-1022 : ℤ) ≤ B) (hx : |x| ≤ B) :
    |r x - x| ≤ 2 ^ (-53 : ℤ) * B := by
  rcases le_or_gt (2 ^ (-1022 : ℤ)) |x| with h | h
  · exact (R.rel h).trans (mul_le_mul_of_nonneg_left hx (two_zpow_pos _).le)
  · have h1 := R.err (k := -1021) (x := x) (by norm_num) (h.le.trans (two_zpow_le (by norm_num)))
    refine h1.trans ?_
    rw [show (-1021 : ℤ) - 54 = -53 + -1022 by norm_num, zpow_add₀ (by norm_num)]
    exact mul_le_mul_of_nonneg_left hB (two_zpow_pos _).le

/-- A sum of doubles has a small relative error even if it is subnormal. -/
theorem Nearest.rel_add (R : Nearest r) {x y : K} (hx : IsDouble x) (hy : IsDouble y) :
    |r (x + y) - (x + y)| ≤ 2 ^ (-53 : ℤ) * |x + y| := by
  rcases le_or_gt (2 ^ (-1022 : ℤ)) |x + y| with h | h
  · exact R.rel h
  · obtain ⟨m, e, hm, he, rfl⟩ := hx
    obtain ⟨n, f, hn, hf, rfl⟩ := hy
    have hs : ∀ (m e : ℤ), -1074 ≤ e → (m : K) * 2 ^ e = ((m * 2 ^ (e + 1074).toNat : ℤ) : K) * 2 ^ (-1074 : ℤ) := by
      intro m e he
      push_cast
      rw [mul_assoc, ← zpow_natCast (2 : K) (e + 1074).toNat, ← zpow_add₀ (by norm_num : (2 : K) ≠ 0)]
      congr 2; omega
    have hd : IsDouble ((m : K) * 2 ^ e + n * 2 ^ f) := by
      rw [hs m e he, hs n f hf, ← add_mul] at h ⊢
      rw [← Int.cast_add] at h ⊢
      refine isDouble_scaled ?_ (by norm_num)
      set t := m * 2 ^ (e + 1074).toNat + n * 2 ^ (f + 1074).toNat
      rw [abs_mul, abs_of_pos (two_zpow_pos (-1074) : (0 : K) < 2 ^ (-1074 : ℤ)), show (-1022 : ℤ) = 52 + -1074 by norm_num,
        zpow_add₀ (by norm_num : (2 : K) ≠ 0)] at h
      have h' := lt_of_mul_lt_mul_right h (two_zpow_pos (K := K) (-1074)).le
      have h2 : ((2 : K) ^ (52 : ℤ)) = ((2 ^ 52 : ℤ) : K) := by norm_num
      rw [h2, ← Int.cast_abs] at h'
      have h3 : |t| < 2 ^ 52 := by exact_mod_cast h'
      exact h3.le.trans (by norm_num)
    rw [R.fix hd, sub_self, abs_zero]
    positivity

end

/-- Not vacuous: the double next to 1/10, and the well known sum. -/
example : rne (1 / 10 : ℚ) = 3602879701896397 / 36028797018963968 := by
  have h : lastPlace (1 / 10 : ℚ) = -56 := by
    have : Int.log 2 |(1 / 10 : ℚ)| = -4 := by decide +kernel
    unfold lastPlace; rw [this]; norm_num
  unfold rne; rw [h]
  have : halfEven ((1 / 10 : ℚ) / 2 ^ (-56 : ℤ)) = 7205759403792794 := by decide +kernel
  rw [this]; norm_num

end Slam.Float
