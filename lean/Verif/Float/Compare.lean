import Verif.Float.Round
import Verif.Rect.Model
import Mathlib.Algebra.Order.Floor.Ring

/-!
# C92: comparing `double`s with a tolerance

`src/core/math_utils.h` with the arithmetic of IEEE 754: results are rounded to nearest and overflow to an infinity; NaN and the
infinities are values. Not modelled: the sign of zero (it decides the sign of the quotient by zero only, which no comparison here
can see).
-/

set_option autoImplicit false
set_option linter.unusedSectionVars false

namespace Slam.Float

/-! ## Model -/

/-- A `double`. -/
inductive Ext (K : Type*) where
  | nan
  | inf (neg : Bool)
  | fin (x : K)

section
variable {K : Type*} [Field K] [LinearOrder K] [IsStrictOrderedRing K] [FloorRing K]

/-- The result of an operation whose exact result is `x`: from 2^1024 on, an infinity. -/
def Ext.ofExact (r : K → K) (x : K) : Ext K := if |r x| < 2 ^ 1024 then .fin (r x) else .inf (decide (x < 0))

/-- The operator `-`. -/
def Ext.sub (r : K → K) : Ext K → Ext K → Ext K
  | .fin x, .fin y => ofExact r (x - y)
  | .inf s, .fin _ => .inf s
  | .fin _, .inf t => .inf !t
  | .inf s, .inf t => if s = t then .nan else .inf s
  | .nan, _ => .nan
  | _, .nan => .nan

/-- The operator `+` with a number on the right. -/
def Ext.addFin (r : K → K) : Ext K → K → Ext K
  | .fin x, y => ofExact r (x + y)
  | .inf s, _ => .inf s
  | .nan, _ => .nan

/-- The operator `*` with a positive number on the left. -/
def Ext.mulPos (r : K → K) (c : K) : Ext K → Ext K
  | .fin x => ofExact r (c * x)
  | .inf s => .inf s
  | .nan => .nan

/-- The operator `/`. -/
def Ext.div (r : K → K) : Ext K → Ext K → Ext K
  | .fin x, .fin y => if y = 0 then (if x = 0 then .nan else .inf (decide (x < 0))) else ofExact r (x / y)
  | .inf s, .fin y => .inf (xor s (decide (y < 0)))
  | .fin _, .inf _ => .fin 0
  | .inf _, .inf _ => .nan
  | .nan, _ => .nan
  | _, .nan => .nan

/-- `std::abs`. -/
def Ext.abs : Ext K → Ext K
  | .fin x => .fin |x|
  | .inf _ => .inf false
  | .nan => .nan

/-- `std::trunc`: towards zero. -/
def Ext.trunc : Ext K → Ext K
  | .fin x => .fin (if 0 ≤ x then (⌊x⌋ : K) else (⌈x⌉ : K))
  | v => v

/-- The operator `<`. -/
def Ext.lt : Ext K → Ext K → Bool
  | .fin x, .fin y => decide (x < y)
  | .inf s, .fin _ => s
  | .fin _, .inf t => !t
  | .inf s, .inf t => s && !t
  | .nan, _ => false
  | _, .nan => false

/-- The operator `<=`. -/
def Ext.le : Ext K → Ext K → Bool
  | .fin x, .fin y => decide (x ≤ y)
  | .inf s, .fin _ => s
  | .fin _, .inf t => !t
  | .inf s, .inf t => s || !t
  | .nan, _ => false
  | _, .nan => false

/-- `std::max(a, b)`: `a < b ? b : a`. -/
def Ext.max (a b : Ext K) : Ext K := if a.lt b then b else a
/-- `std::min(a, b)`: `b < a ? b : a`. -/
def Ext.min (a b : Ext K) : Ext K := if b.lt a then b else a

/-- `are_equal(a, b, eps)`, math_utils.h:9-12. -/
def equalWithin (r : K → K) (a b eps : Ext K) : Bool := (a.sub r b).abs.le eps

/-- `are_equal(a, b)`, math_utils.h:15-20. -/
def equalF (r : K → K) (a b : Ext K) : Bool :=
  equalWithin r a b (Ext.mulPos r (r (1 / 10 ^ 7)) (Ext.max (.fin 1) (Ext.max a.abs b.abs)))

/-- `less`, math_utils.h:22-25. -/
def lessF (r : K → K) (a b : Ext K) : Bool := a.lt (b.addFin r (1 / 2 ^ 52))

/-- `is_multiple_of`, math_utils.h:27-31. -/
def multipleF (r : K → K) (value factor : Ext K) : Bool := equalF r (value.div r factor) (value.div r factor).trunc

/-- `bound_value`, math_utils.h:33-35. -/
def boundF (left v right : Ext K) : Ext K := Ext.max left (Ext.min right v)

/-- `less_or_equal(a, b)`, math_utils.h:37-39. -/
def lessOrEqualF (r : K → K) (a b : Ext K) : Bool := equalF r a b || lessF r a b

/-- `are_strictly_ordered`, math_utils.h:45-47. -/
def strictlyOrderedF (r : K → K) (a b c : Ext K) : Bool := lessF r a b && lessF r b c

/-- `are_ordered`, math_utils.h:49-51. -/
def orderedF (r : K → K) (a b c : Ext K) : Bool := lessOrEqualF r a b && lessOrEqualF r b c

/-- `is_probality_bounded`, src/core/scan_matchers/grid_scan_matcher.h:69-71. -/
def probValidF (r : K → K) (v : Ext K) : Bool := lessOrEqualF r (.fin 0) v && lessOrEqualF r v (.fin 1)

/-! ## Specification -/

/-- A finite `double`. -/
def IsFinite (x : K) : Prop := IsDouble x ∧ |x| < 2 ^ 1024

/-- Two numbers within the relative (from 1 on) or absolute (below 1) distance `q`. -/
def Within (q a b : K) : Prop := |a - b| ≤ q * Max.max 1 (Max.max |a| |b|)

/-! ## Proofs -/

variable {r : K → K}

theorem ofExact_fin {x : K} (h : |r x| < 2 ^ 1024) : Ext.ofExact r x = .fin (r x) := if_pos h

theorem max_fin (x y : K) : Ext.max (.fin x) (.fin y) = .fin (Max.max x y) := by
  unfold Ext.max
  by_cases h : x < y
  · simp [Ext.lt, h, h.le]
  · simp [Ext.lt, h, not_lt.1 h]

theorem min_fin (x y : K) : Ext.min (.fin x) (.fin y) = .fin (Min.min x y) := by
  unfold Ext.min
  by_cases h : y < x
  · simp [Ext.lt, h, h.le]
  · simp [Ext.lt, h, not_lt.1 h]

theorem isDouble_abs {x : K} (h : IsDouble x) : IsDouble |x| := by
  rcases abs_choice x with e | e <;> rw [e]
  · exact h
  · exact h.neg

/-- The tolerance for two finite numbers. -/
theorem tolerance (R : Nearest r) {a b : K} (ha : IsFinite a) (hb : IsFinite b) :
    ∃ e, Ext.mulPos r (r (1 / 10 ^ 7)) (Ext.max (.fin 1) (Ext.max (Ext.fin a).abs (Ext.fin b).abs)) = .fin e ∧
      |e - 1 / 10 ^ 7 * Max.max 1 (Max.max |a| |b|)| ≤ 3 * 2 ^ (-53 : ℤ) * (1 / 10 ^ 7) * Max.max 1 (Max.max |a| |b|) := by
  simp only [Ext.abs, max_fin, Ext.mulPos]
  set M := Max.max 1 (Max.max |a| |b|) with hM
  have hM1 : 1 ≤ M := le_max_left _ _
  have hMd : IsDouble M := by
    rw [hM]
    rcases max_choice 1 (Max.max |a| |b|) with e | e <;> rw [e]
    · exact isDouble_one
    · rcases max_choice |a| |b| with e | e <;> rw [e]
      · exact isDouble_abs ha.1
      · exact isDouble_abs hb.1
  have hMt : M < 2 ^ 1024 := max_lt (one_lt_pow₀ (by norm_num) (by norm_num)) (max_lt ha.2 hb.2)
  set E := r (1 / 10 ^ 7) with hE
  have htiny : (2 : K) ^ (-1022 : ℤ) ≤ 1 / 10 ^ 7 / 2 := (two_zpow_le (by norm_num : (-1022 : ℤ) ≤ -25)).trans (by norm_num)
  have hq0 : (0 : K) < 1 / 10 ^ 7 := by positivity
  have hq1 : (1 : K) / 10 ^ 7 ≤ 1 / 2 := by norm_num
  have hrel := fun (x : K) => R.rel (x := x)
  have hu : (2 : K) ^ (-53 : ℤ) ≤ 1 / 2 := by norm_num
  have hu0 : (0 : K) < 2 ^ (-53 : ℤ) := two_zpow_pos _
  have hone := R.le_of_le (x := E * M) hMd
  have hnn := R.nonneg (x := E * M)
  generalize (2 : K) ^ (-53 : ℤ) = u at *
  generalize (2 : K) ^ (-1022 : ℤ) = t at *
  generalize (1 : K) / 10 ^ 7 = q at *
  have hEr : |E - q| ≤ u * q := by
    have := hrel q (by rw [abs_of_pos hq0]; linarith)
    rw [abs_of_pos hq0, ← hE] at this
    exact this
  obtain ⟨hE1, hE2⟩ := abs_le.1 hEr
  have huq : u * q ≤ q / 2 := by nlinarith
  have hElo : q / 2 ≤ E := by linarith
  have hEhi : E ≤ 1 := by linarith
  have hEM : q / 2 ≤ E * M := by nlinarith
  have hEM1 : E * M ≤ M := by nlinarith
  have h1 := hone hEM1
  have h0 := hnn (by linarith)
  refine ⟨r (E * M), ofExact_fin (by rw [abs_of_nonneg h0]; exact lt_of_le_of_lt h1 hMt), ?_⟩
  have h2 := hrel (E * M) (by rw [abs_of_nonneg (by linarith)]; linarith)
  rw [abs_of_nonneg (by linarith : 0 ≤ E * M)] at h2
  have h3 : |E * M - q * M| ≤ u * q * M := by
    rw [← sub_mul, abs_mul, abs_of_nonneg (by linarith : 0 ≤ M)]
    exact mul_le_mul_of_nonneg_right hEr (by linarith)
  have h4 : E * M ≤ 2 * (q * M) := by
    have : E ≤ 2 * q := by linarith
    nlinarith
  have h5 : u * (E * M) ≤ 2 * (u * (q * M)) := by nlinarith
  calc |r (E * M) - q * M| = |(r (E * M) - E * M) + (E * M - q * M)| := by congr 1; ring
    _ ≤ |r (E * M) - E * M| + |E * M - q * M| := abs_add_le _ _
    _ ≤ 2 * (u * (q * M)) + u * q * M := by linarith
    _ = 3 * u * q * M := by ring

theorem tol_arith {u D d T e : K} (hu0 : 0 < u) (hu : u ≤ 1 / 8) (hT : 0 ≤ T) (hD : 0 ≤ D) (hd : |d - D| ≤ u * D)
    (he : |e - T| ≤ 3 * u * T) : (D ≤ (1 - 8 * u) * T → d ≤ e ∧ d ≤ T) ∧ (d ≤ e → D ≤ (1 + 8 * u) * T) := by
  obtain ⟨d1, d2⟩ := abs_le.1 hd
  obtain ⟨e1, e2⟩ := abs_le.1 he
  have huT : 0 ≤ u * T := by positivity
  have huD : 0 ≤ u * D := by positivity
  have h8 : u * (u * T) ≤ 1 / 8 * (u * T) := mul_le_mul_of_nonneg_right hu huT
  constructor
  · intro h
    have h1 : u * D ≤ u * T := mul_le_mul_of_nonneg_left (by nlinarith) hu0.le
    have : d ≤ (1 - 7 * u) * T := by linarith
    constructor <;> linarith
  · intro h
    by_contra hc
    have hc := not_lt.1 (fun h' => hc (le_of_lt h'))
    have h1 : u * D ≤ 1 / 8 * D := mul_le_mul_of_nonneg_right hu hD
    have h2 : (1 - u) * ((1 + 8 * u) * T) ≤ (1 - u) * D := mul_le_mul_of_nonneg_left hc (by linarith)
    have h3 : (1 - u) * D ≤ (1 + 3 * u) * T := by linarith
    have h4 : (1 - u) * ((1 + 8 * u) * T) = T + 7 * (u * T) - 8 * (u * (u * T)) := by ring
    have h5 : (1 + 8 * u) * T ≤ D := hc
    have : D = (1 + 8 * u) * T ∨ (1 + 8 * u) * T < D := h5.eq_or_lt'.imp id id
    rcases this with e | e
    · exact absurd e.le (by assumption)
    · nlinarith

/-- **Equality with a tolerance (C92).** Two finite numbers are equal for the code if they are within 10⁻⁷ of each other, relative
to the larger one or, below 1, absolutely, and are not if they are further apart; rounding only matters in the last digits of
the tolerance. -/
theorem are_equal_finite (R : Nearest r) {a b : K} (ha : IsFinite a) (hb : IsFinite b) :
    (Within ((1 - 2 ^ (-50 : ℤ)) / 10 ^ 7) a b → equalF r (.fin a) (.fin b) = true) ∧
    (equalF r (.fin a) (.fin b) = true → Within ((1 + 2 ^ (-50 : ℤ)) / 10 ^ 7) a b) := by
  obtain ⟨e, he, hee⟩ := tolerance R ha hb
  unfold equalF equalWithin Within
  rw [he]
  have hM1 : 1 ≤ Max.max 1 (Max.max |a| |b|) := le_max_left _ _
  have hMt : Max.max 1 (Max.max |a| |b|) < 2 ^ 1024 := max_lt (one_lt_pow₀ (by norm_num) (by norm_num)) (max_lt ha.2 hb.2)
  generalize Max.max 1 (Max.max |a| |b|) = M at *
  have hrel := R.rel_add ha.1 hb.1.neg
  rw [← sub_eq_add_neg] at hrel
  have hu : (2 : K) ^ (-50 : ℤ) = 8 * 2 ^ (-53 : ℤ) := by norm_num
  have hu0 : (0 : K) < 2 ^ (-53 : ℤ) := two_zpow_pos _
  have hu1 : (2 : K) ^ (-53 : ℤ) ≤ 1 / 8 := by norm_num
  have hq1 : (1 : K) / 10 ^ 7 ≤ 1 := by norm_num
  have hq0 : (0 : K) ≤ 1 / 10 ^ 7 := by positivity
  rw [hu]
  generalize (2 : K) ^ (-53 : ℤ) = u at *
  have e1 : (1 - 8 * u) / 10 ^ 7 * M = (1 - 8 * u) * (1 / 10 ^ 7 * M) := by ring
  have e2 : (1 + 8 * u) / 10 ^ 7 * M = (1 + 8 * u) * (1 / 10 ^ 7 * M) := by ring
  rw [e1, e2]
  have hT : 1 / 10 ^ 7 * M ≤ M := by nlinarith
  have hT0 : 0 ≤ 1 / 10 ^ 7 * M := by positivity
  have e3 : 3 * u * (1 / 10 ^ 7) * M = 3 * u * (1 / 10 ^ 7 * M) := by ring
  rw [e3] at hee
  obtain ⟨A1, A2⟩ := tol_arith hu0 hu1 hT0 (abs_nonneg (a - b)) ((abs_abs_sub_abs_le _ _).trans hrel) hee
  constructor
  · intro h
    obtain ⟨h1, h2⟩ := A1 h
    simp only [Ext.sub, ofExact_fin (lt_of_le_of_lt (h2.trans hT) hMt), Ext.abs, Ext.le, decide_eq_true_eq]
    exact h1
  · intro h
    by_cases hb : |r (a - b)| < 2 ^ 1024
    · simp only [Ext.sub, ofExact_fin hb, Ext.abs, Ext.le, decide_eq_true_eq] at h
      exact A2 h
    · simp [Ext.sub, Ext.ofExact, hb, Ext.abs, Ext.le] at h

theorem within_self (q : K) (hq : 0 ≤ q) (a : K) : Within q a a := by
  unfold Within
  rw [sub_self, abs_zero]
  have : (0 : K) ≤ Max.max 1 (Max.max |a| |a|) := zero_le_one.trans (le_max_left _ _)
  positivity

/-- A finite number is equal to itself. -/
theorem are_equal_refl (R : Nearest r) {a : K} (ha : IsFinite a) : equalF r (.fin a) (.fin a) = true :=
  (are_equal_finite R ha ha).1 (within_self _ (div_nonneg (by norm_num) (by norm_num)) a)

/-- The comparison does not depend on the order of its arguments, whatever they are; `odd`: rounding is symmetric about 0, as in the
default mode. -/
theorem are_equal_comm (odd : ∀ x, r (-x) = -r x) (a b : Ext K) : equalF r a b = equalF r b a := by
  cases a with
  | nan => cases b <;> rfl
  | inf s => cases b with
    | nan => rfl
    | inf t => cases s <;> cases t <;> rfl
    | fin y => cases s <;> rfl
  | fin x => cases b with
    | nan => rfl
    | inf t => cases t <;> rfl
    | fin y =>
      unfold equalF equalWithin
      simp only [Ext.abs, max_fin, max_comm |x| |y|]
      congr 1
      have hr : r (x - y) = -r (y - x) := by rw [← odd, neg_sub]
      simp only [Ext.sub, Ext.ofExact, hr, abs_neg]
      by_cases h : |r (y - x)| < 2 ^ 1024
      · simp [h]
      · simp [h]

/-- **Infinities and NaN (C92).** For the code an infinity is equal to every number and to the opposite infinity, and not to itself;
NaN is equal to nothing. -/
theorem are_equal_special (a : Ext K) (x : K) (s t : Bool) :
    equalF r .nan a = false ∧ equalF r a .nan = false ∧ equalF r (.inf s) (.fin x) = true ∧ equalF r (.fin x) (.inf s) = true ∧
    (equalF r (.inf s) (.inf t) = true ↔ s ≠ t) := by
  refine ⟨by cases a <;> rfl, by cases a <;> rfl, ?_, ?_, ?_⟩
  · cases s <;> rfl
  · cases s <;> rfl
  · cases s <;> cases t <;> simp [equalF, equalWithin, Ext.sub, Ext.abs, Ext.le, Ext.max, Ext.lt, Ext.mulPos]

/-! ### `less` -/

theorem multiple_of_large {y : K} (hy : IsDouble y) (h : 4 ≤ |y|) : ∃ n : ℤ, y = n * 2 ^ (-50 : ℤ) := by
  obtain ⟨m, e, hm, he, rfl⟩ := hy
  have hp := two_zpow_pos (K := K) e
  have hmK : |(m : K)| ≤ 2 ^ (53 : ℤ) := by
    have h2 : ((2 : K) ^ (53 : ℤ)) = ((2 ^ 53 : ℤ) : K) := by norm_num
    rw [h2, ← Int.cast_abs]; exact_mod_cast hm
  rw [abs_mul, abs_of_pos hp] at h
  rcases le_or_gt (-50) e with h1 | h1
  · refine ⟨m * 2 ^ (e + 50).toNat, ?_⟩
    push_cast
    rw [mul_assoc, ← zpow_natCast (2 : K) (e + 50).toNat, ← zpow_add₀ (by norm_num : (2 : K) ≠ 0)]
    congr 2; omega
  · have h3 : |(m : K)| * 2 ^ e ≤ 2 ^ (53 + e) := by
      rw [zpow_add₀ (by norm_num)]
      exact mul_le_mul_of_nonneg_right hmK hp.le
    have h4 : (2 : K) ^ (2 : ℤ) ≤ 2 ^ (53 + e) := by
      have : (2 : K) ^ (2 : ℤ) = 4 := by norm_num
      linarith
    have h5 : 2 ≤ 53 + e := (zpow_le_zpow_iff_right₀ (by norm_num : (1 : K) < 2)).1 h4
    have he : e = -51 := by omega
    subst he
    have h6 : ((2 ^ 53 : ℤ) : K) ≤ |(m : K)| := by
      have e1 : (2 : K) ^ (-51 : ℤ) * 2 ^ (51 : ℤ) = 1 := by rw [← zpow_add₀ (by norm_num)]; norm_num
      have e2 : ((2 ^ 53 : ℤ) : K) = 4 * 2 ^ (51 : ℤ) := by norm_num
      rw [e2]
      calc 4 * (2 : K) ^ (51 : ℤ) ≤ |(m : K)| * 2 ^ (-51 : ℤ) * 2 ^ (51 : ℤ) := mul_le_mul_of_nonneg_right h (two_zpow_pos _).le
        _ = |(m : K)| := by rw [mul_assoc, e1, mul_one]
    rw [← Int.cast_abs] at h6
    have h7 : 2 ^ 53 ≤ |m| := by exact_mod_cast h6
    have h8 : |m| = 2 ^ 53 := le_antisymm hm h7
    have e3 : (2 : K) ^ (-51 : ℤ) = 2 ^ (-50 : ℤ) / 2 := by norm_num
    rcases abs_choice m with c | c
    · refine ⟨2 ^ 52, ?_⟩
      rw [c] at h8
      rw [h8, e3]; push_cast; ring
    · refine ⟨-2 ^ 52, ?_⟩
      rw [c] at h8
      rw [← neg_neg m, h8, e3]; push_cast; ring

theorem eps_eq : (1 : K) / 2 ^ 52 = 2 ^ (-52 : ℤ) := by norm_num

/-- Beyond 4 the addition of 2^-52 has no effect. -/
theorem add_eps_large (R : Nearest r) {b : K} (hb : IsDouble b) (h : 4 < |b|) : r (b + 1 / 2 ^ 52) = b := by
  have hn := R.near (b + 1 / 2 ^ 52) b hb
  have e0 : |b - (b + 1 / 2 ^ 52)| = 1 / 2 ^ 52 := by
    rw [sub_add_cancel_left, abs_neg, abs_of_pos (by positivity)]
  rw [e0] at hn
  by_contra hne
  set y := r (b + 1 / 2 ^ 52) with hy
  have h50 : (2 : K) ^ (-50 : ℤ) = 4 * (1 / 2 ^ 52) := by norm_num
  have hp : (0 : K) < 1 / 2 ^ 52 := by positivity
  obtain ⟨n, hn1⟩ := multiple_of_large hb h.le
  have h4 : (4 : K) = ((2 ^ 52 : ℤ) : K) * 2 ^ (-50 : ℤ) := by norm_num
  have hgap : 4 + 2 ^ (-50 : ℤ) ≤ |b| := by
    have e1 : |b| = ((|n| : ℤ) : K) * 2 ^ (-50 : ℤ) := by
      rw [hn1, abs_mul, abs_of_pos (two_zpow_pos _ : (0 : K) < 2 ^ (-50 : ℤ)), Int.cast_abs]
    rw [e1] at h ⊢
    rw [h4] at h ⊢
    have h5 : (2 ^ 52 : ℤ) < |n| := by
      have := lt_of_mul_lt_mul_right h (two_zpow_pos _).le
      exact_mod_cast this
    have h6 : (((2 ^ 52 + 1 : ℤ)) : K) ≤ ((|n| : ℤ) : K) := by exact_mod_cast h5
    calc ((2 ^ 52 : ℤ) : K) * 2 ^ (-50 : ℤ) + 2 ^ (-50 : ℤ) = ((2 ^ 52 + 1 : ℤ) : K) * 2 ^ (-50 : ℤ) := by push_cast; ring
      _ ≤ _ := mul_le_mul_of_nonneg_right h6 (two_zpow_pos _).le
  have hyb : |y - b| ≤ 2 * (1 / 2 ^ 52) := by
    calc |y - b| = |(y - (b + 1 / 2 ^ 52)) + 1 / 2 ^ 52| := by congr 1; ring
      _ ≤ |y - (b + 1 / 2 ^ 52)| + |1 / 2 ^ 52| := abs_add_le _ _
      _ ≤ _ := by rw [abs_of_pos hp]; linarith
  have hy4 : 4 ≤ |y| := by
    have h3 : |b| - |y| ≤ |y - b| := by rw [abs_sub_comm]; exact abs_sub_abs_le_abs_sub b y
    rw [h50] at hgap
    clear_value y
    generalize (1 : K) / 2 ^ 52 = ε at *
    linarith
  obtain ⟨k, hk⟩ := multiple_of_large (R.dbl (b + 1 / 2 ^ 52)) hy4
  rw [← hy] at hk
  have hkn : k ≠ n := by
    rintro rfl
    exact hne (hk.trans hn1.symm)
  have h1 : (1 : K) ≤ |((k - n : ℤ) : K)| := by
    rw [← Int.cast_abs]
    have : 1 ≤ |k - n| := Int.one_le_abs (sub_ne_zero.2 hkn)
    exact_mod_cast this
  have h2 : |y - b| = |((k - n : ℤ) : K)| * 2 ^ (-50 : ℤ) := by
    rw [hk, hn1, ← sub_mul, abs_mul, abs_of_pos (two_zpow_pos _ : (0 : K) < 2 ^ (-50 : ℤ))]
    push_cast; rfl
  rw [h2, h50] at hyb
  nlinarith

/-- Below 2 it has. -/
theorem add_eps_small (R : Nearest r) {b : K} (h : |b| < 2) : b < r (b + 1 / 2 ^ 52) := by
  have hp : (0 : K) < 1 / 2 ^ 52 := by positivity
  obtain ⟨b1, b2⟩ := abs_lt.1 h
  set n : ℤ := ⌊b * 2 ^ 52⌋ + 1 with hn
  have f1 := Int.floor_le (b * 2 ^ 52)
  have f2 := Int.lt_floor_add_one (b * 2 ^ 52)
  have hd : IsDouble ((n : K) * 2 ^ (-52 : ℤ)) := by
    refine isDouble_scaled ?_ (by norm_num)
    rw [abs_le]
    have u1 : b * 2 ^ 52 < 2 ^ 53 := by norm_num; linarith
    have u2 : -2 ^ 53 < b * 2 ^ 52 := by norm_num; linarith
    have v1 : ((⌊b * 2 ^ 52⌋ : ℤ) : K) < ((2 ^ 53 : ℤ) : K) := by push_cast; linarith
    have v2 : ((-2 ^ 53 : ℤ) : K) < ((⌊b * 2 ^ 52⌋ + 1 : ℤ) : K) := by push_cast; linarith
    have w1 : ⌊b * 2 ^ 52⌋ < 2 ^ 53 := by exact_mod_cast v1
    have w2 : -2 ^ 53 < ⌊b * 2 ^ 52⌋ + 1 := by exact_mod_cast v2
    constructor <;> omega
  have hnv : (n : K) * 2 ^ (-52 : ℤ) = ((⌊b * 2 ^ 52⌋ : ℤ) : K) * (1 / 2 ^ 52) + 1 / 2 ^ 52 := by
    rw [← eps_eq, hn]; push_cast; ring
  have g1 : b < (n : K) * 2 ^ (-52 : ℤ) := by
    rw [hnv]
    have : b = b * 2 ^ 52 * (1 / 2 ^ 52) := by field_simp
    rw [← add_one_mul]
    calc b = b * 2 ^ 52 * (1 / 2 ^ 52) := this
      _ < _ := mul_lt_mul_of_pos_right f2 hp
  have g2 : (n : K) * 2 ^ (-52 : ℤ) ≤ b + 1 / 2 ^ 52 := by
    rw [hnv]
    have : b = b * 2 ^ 52 * (1 / 2 ^ 52) := by field_simp
    have := mul_le_mul_of_nonneg_right f1 hp.le
    linarith
  exact g1.trans_le (R.ge_of_ge hd g2)

theorem add_eps_bounds (R : Nearest r) {b : K} (hb : IsDouble b) : b ≤ r (b + 1 / 2 ^ 52) ∧ r (b + 1 / 2 ^ 52) ≤ b + 1 / 2 ^ 51 := by
  have hp : (0 : K) < 1 / 2 ^ 52 := by positivity
  refine ⟨R.ge_of_ge hb (by linarith), ?_⟩
  have hn := R.near (b + 1 / 2 ^ 52) b hb
  rw [sub_add_cancel_left, abs_neg, abs_of_pos hp] at hn
  have h := (abs_le.1 hn).2
  have : (1 : K) / 2 ^ 51 = 2 * (1 / 2 ^ 52) := by norm_num
  linarith

theorem add_eps_finite (R : Nearest r) {b : K} (hb : IsFinite b) : Ext.addFin r (.fin b) (1 / 2 ^ 52) = .fin (r (b + 1 / 2 ^ 52)) := by
  refine ofExact_fin ?_
  rcases le_or_gt |b| 4 with h | h
  · obtain ⟨h1, h2⟩ := add_eps_bounds R hb.1
    obtain ⟨b1, b2⟩ := abs_le.1 h
    have h8 : (8 : K) < 2 ^ 1024 := by
      calc (8 : K) = 2 ^ 3 := by norm_num
        _ < 2 ^ 1024 := pow_lt_pow_right₀ (by norm_num) (by norm_num)
    have : (1 : K) / 2 ^ 51 ≤ 1 := by norm_num
    rw [abs_lt]
    generalize (2 : K) ^ 1024 = B at *
    generalize r (b + 1 / 2 ^ 52) = y at *
    generalize (1 : K) / 2 ^ 51 = ε at *
    constructor <;> linarith
  · rw [add_eps_large R hb.1 h]
    exact hb.2

/-- **Strict comparison (C92)** of finite numbers: what is smaller is found smaller, what is found smaller is less than 2^-51 above;
beyond 4 the comparison is exact, and below 2 every number is found smaller than itself. -/
theorem less_finite (R : Nearest r) {a b : K} (hb : IsFinite b) :
    (a < b → lessF r (.fin a) (.fin b) = true) ∧ (lessF r (.fin a) (.fin b) = true → a < b + 1 / 2 ^ 51) ∧
    (4 < |b| → (lessF r (.fin a) (.fin b) = true ↔ a < b)) ∧ (|b| < 2 → lessF r (.fin b) (.fin b) = true) := by
  unfold lessF
  rw [add_eps_finite R hb]
  simp only [Ext.lt, decide_eq_true_eq]
  obtain ⟨h1, h2⟩ := add_eps_bounds R hb.1
  exact ⟨fun h => h.trans_le h1, fun h => h.trans_le h2, fun h => by rw [add_eps_large R hb.1 h], fun h => add_eps_small R h⟩

/-- Strict comparison with infinities and NaN is the exact one. -/
theorem less_special (a : Ext K) (x : K) (s t : Bool) :
    lessF r .nan a = false ∧ lessF r a .nan = false ∧ lessF r (.fin x) (.inf s) = !s ∧ (lessF r (.inf s) (.inf t) = true ↔ s = true ∧ t = false) := by
  refine ⟨by cases a <;> rfl, by cases a <;> rfl, by cases s <;> rfl, by cases s <;> cases t <;> simp [lessF, Ext.lt, Ext.addFin]⟩

/-- **Comparison (C92)** of finite numbers: what is not greater is found so, and what is found so is greater by the tolerance at
most. -/
theorem less_or_equal_finite (R : Nearest r) {a b : K} (ha : IsFinite a) (hb : IsFinite b) :
    (a ≤ b → lessOrEqualF r (.fin a) (.fin b) = true) ∧
    (lessOrEqualF r (.fin a) (.fin b) = true → a ≤ b + (1 + 2 ^ (-50 : ℤ)) / 10 ^ 7 * Max.max 1 (Max.max |a| |b|)) := by
  unfold lessOrEqualF
  constructor
  · intro h
    rcases h.eq_or_lt with rfl | h
    · rw [are_equal_refl R ha]; rfl
    · rw [(less_finite R hb).1 h, Bool.or_true]
  · intro h
    rcases Bool.or_eq_true_iff.1 h with h | h
    · have := (are_equal_finite R ha hb).2 h
      unfold Within at this
      have := le_abs_self (a - b)
      linarith
    · have h1 := (less_finite R hb).2.1 h
      have h2 : (1 : K) / 2 ^ 51 ≤ (1 + 2 ^ (-50 : ℤ)) / 10 ^ 7 * 1 := by norm_num
      have h3 : (1 + (2 : K) ^ (-50 : ℤ)) / 10 ^ 7 * 1 ≤ (1 + 2 ^ (-50 : ℤ)) / 10 ^ 7 * Max.max 1 (Max.max |a| |b|) :=
        mul_le_mul_of_nonneg_left (le_max_left _ _) (div_nonneg (add_nonneg zero_le_one (two_zpow_pos _).le) (by norm_num))
      linarith

/-- With infinities: an infinity, of either sign, is below and above every number and the other infinity, and not below itself. -/
theorem less_or_equal_special (a : Ext K) (x : K) (s t : Bool) :
    lessOrEqualF r .nan a = false ∧ lessOrEqualF r a .nan = false ∧ lessOrEqualF r (.inf s) (.fin x) = true ∧
    lessOrEqualF r (.fin x) (.inf s) = true ∧ (lessOrEqualF r (.inf s) (.inf t) = true ↔ s ≠ t) := by
  obtain ⟨e1, e2, e3, e4, e5⟩ := are_equal_special (r := r) a x s t
  obtain ⟨l1, l2, -, l4⟩ := less_special (r := r) a x s t
  unfold lessOrEqualF
  refine ⟨by rw [e1, l1]; rfl, by rw [e2, l2]; rfl, by rw [e3]; rfl, by rw [e4]; rfl, ?_⟩
  rw [Bool.or_eq_true_iff, e5, l4]
  cases s <;> cases t <;> simp

/-- **Order of three numbers (C92)**: three finite numbers in order are found so. If three numbers are found in order, each of the
last two is at least the one before it, up to the tolerance of the comparison; if strictly, then up to `2^-51`. With a NaN among
them they are never in order. -/
theorem ordered_finite (R : Nearest r) {a b c : K} (ha : IsFinite a) (hb : IsFinite b) (hc : IsFinite c) :
    (a ≤ b → b ≤ c → orderedF r (.fin a) (.fin b) (.fin c) = true) ∧
    (orderedF r (.fin a) (.fin b) (.fin c) = true → a ≤ b + (1 + 2 ^ (-50 : ℤ)) / 10 ^ 7 * Max.max 1 (Max.max |a| |b|) ∧
      b ≤ c + (1 + 2 ^ (-50 : ℤ)) / 10 ^ 7 * Max.max 1 (Max.max |b| |c|)) ∧
    (a < b → b < c → strictlyOrderedF r (.fin a) (.fin b) (.fin c) = true) ∧
    (strictlyOrderedF r (.fin a) (.fin b) (.fin c) = true → a < b + 1 / 2 ^ 51 ∧ b < c + 1 / 2 ^ 51) := by
  obtain ⟨o1, o2⟩ := less_or_equal_finite R ha hb
  obtain ⟨o3, o4⟩ := less_or_equal_finite R hb hc
  obtain ⟨l1, l2, -⟩ := less_finite R (a := a) hb
  obtain ⟨l3, l4, -⟩ := less_finite R (a := b) hc
  unfold orderedF strictlyOrderedF
  simp only [Bool.and_eq_true]
  exact ⟨fun h h' => ⟨o1 h, o3 h'⟩, fun h => ⟨o2 h.1, o4 h.2⟩, fun h h' => ⟨l1 h, l3 h'⟩, fun h => ⟨l2 h.1, l4 h.2⟩⟩

theorem ordered_special (a b : Ext K) :
    (orderedF r .nan a b = false ∧ orderedF r a .nan b = false ∧ orderedF r a b .nan = false) ∧
    strictlyOrderedF r .nan a b = false ∧ strictlyOrderedF r a .nan b = false ∧ strictlyOrderedF r a b .nan = false := by
  obtain ⟨e1, e2, -⟩ := less_or_equal_special (r := r) a 0 false false
  obtain ⟨e3, e4, -⟩ := less_or_equal_special (r := r) b 0 false false
  obtain ⟨l1, l2, -⟩ := less_special (r := r) a 0 false false
  obtain ⟨l3, l4, -⟩ := less_special (r := r) b 0 false false
  simp [orderedF, strictlyOrderedF, e1, e2, e3, e4, l1, l2, l3, l4]

/-- The check of scores lets both infinities pass. -/
theorem infinite_score_counterexample (s : Bool) : probValidF r (.inf s) = true := by
  unfold probValidF
  rw [(less_or_equal_special (r := r) .nan 0 s s).2.2.2.1, (less_or_equal_special (r := r) .nan 1 s s).2.2.1]
  rfl

/-! ### `bound_value` -/

/-- **Clamping (C92)**: with `left ≤ right` a number becomes the nearest one of the interval, NaN becomes `right`, and infinities
the ends. -/
theorem bound_value_spec {left right : K} (h : left ≤ right) :
    (∀ v, ∃ w, boundF (.fin left) (.fin v) (.fin right) = .fin w ∧ left ≤ w ∧ w ≤ right ∧
      ∀ x, left ≤ x → x ≤ right → |w - v| ≤ |x - v|) ∧
    boundF (.fin left) .nan (.fin right) = .fin right ∧ boundF (.fin left) (.inf false) (.fin right) = .fin right ∧
    boundF (.fin left) (.inf true) (.fin right) = .fin left := by
  refine ⟨?_, ?_, ?_, ?_⟩
  · intro v
    refine ⟨Max.max left (Min.min right v), by unfold boundF; rw [min_fin, max_fin], le_max_left _ _,
      max_le h (min_le_left _ _), ?_⟩
    intro x h1 h2
    rcases le_total right v with a | a
    · rw [min_eq_left a, max_eq_right h, abs_of_nonpos (by linarith), abs_of_nonpos (by linarith)]
      linarith
    · rw [min_eq_right a]
      rcases le_total left v with b | b
      · rw [max_eq_right b, sub_self, abs_zero]
        exact abs_nonneg _
      · rw [max_eq_left b, abs_of_nonneg (by linarith), abs_of_nonneg (by linarith)]
        linarith
  · show Ext.max (.fin left) (.fin right) = _
    rw [max_fin, max_eq_right h]
  · show Ext.max (.fin left) (.fin right) = _
    rw [max_fin, max_eq_right h]
  · rfl

/-! ### `is_multiple_of` -/

theorem trunc_int (n : ℤ) : Ext.trunc (.fin (n : K)) = .fin (n : K) := by
  unfold Ext.trunc
  by_cases h : (0 : K) ≤ n
  · simp [h]
  · simp [h]

/-- **Multiples (C92).** A product of the factor by an integer (below 2^53) that is computed without rounding is recognised as a
multiple; nothing is a multiple of zero. -/
theorem multiple_recognised (R : Nearest r) {f : K} (hf : f ≠ 0) (n : ℤ) (hn : |n| ≤ 2 ^ 53) :
    multipleF r (.fin (n * f)) (.fin f) = true ∧ multipleF r (.fin f) (.fin 0) = false := by
  have hd : IsDouble (n : K) := isDouble_int hn
  have hfin : IsFinite (n : K) := by
    refine ⟨hd, ?_⟩
    have h1 : |(n : K)| ≤ 2 ^ 53 := by
      rw [← Int.cast_abs]
      exact_mod_cast hn
    exact h1.trans_lt (pow_lt_pow_right₀ (by norm_num) (by norm_num))
  constructor
  · unfold multipleF
    have e1 : Ext.div r (.fin (n * f)) (.fin f) = .fin (n : K) := by
      simp only [Ext.div, hf, if_false]
      rw [mul_div_cancel_right₀ _ hf, ofExact_fin (by rw [R.fix hd]; exact hfin.2), R.fix hd]
    rw [e1, trunc_int]
    exact are_equal_refl R hfin
  · unfold multipleF
    simp only [Ext.div, hf, if_true, if_false, Ext.trunc]
    rw [Bool.eq_false_iff, ne_eq, (are_equal_special (r := r) .nan 0 (decide (f < 0)) (decide (f < 0))).2.2.2.2]
    simp

/-- Truncation of a finite number. -/
theorem trunc_spec {x : K} (hx : IsFinite x) : ∃ n : ℤ, Ext.trunc (.fin x) = .fin (n : K) ∧ IsFinite (n : K) ∧ |(n : K)| ≤ |x| ∧ |x - n| < 1 := by
  have key : ∃ n : ℤ, Ext.trunc (.fin x) = .fin (n : K) ∧ |(n : K)| ≤ |x| ∧ |x - n| < 1 := by
    by_cases h : 0 ≤ x
    · refine ⟨⌊x⌋, by simp [Ext.trunc, h], ?_, ?_⟩
      · have h0 : (0 : K) ≤ (⌊x⌋ : K) := by exact_mod_cast Int.floor_nonneg.2 h
        rw [abs_of_nonneg h0, abs_of_nonneg h]
        exact Int.floor_le x
      · rw [abs_of_nonneg (by linarith [Int.floor_le x])]
        linarith [Int.lt_floor_add_one x]
    · have h' := not_le.1 h
      refine ⟨⌈x⌉, by simp [Ext.trunc, h], ?_, ?_⟩
      · have h0 : (⌈x⌉ : K) ≤ 0 := by
          have : ⌈x⌉ ≤ 0 := Int.ceil_le.2 (by simpa using h'.le)
          exact_mod_cast this
        rw [abs_of_nonpos h0, abs_of_neg h']
        linarith [Int.le_ceil x]
      · rw [abs_of_nonpos (by linarith [Int.le_ceil x])]
        linarith [Int.ceil_lt_add_one x]
  obtain ⟨n, h1, h2, h3⟩ := key
  refine ⟨n, h1, ⟨?_, h2.trans_lt hx.2⟩, h2, h3⟩
  obtain ⟨m, e, hm, he, rfl⟩ := hx.1
  have hp := two_zpow_pos (K := K) e
  rcases le_or_gt 0 e with h0 | h0
  · have hi : (m : K) * 2 ^ e = ((m * 2 ^ e.toNat : ℤ) : K) := by
      push_cast
      rw [← zpow_natCast (2 : K) e.toNat]
      congr 2; omega
    have : n = m * 2 ^ e.toNat := by
      rw [hi] at h3
      have h4 : |((m * 2 ^ e.toNat - n : ℤ) : K)| < 1 := by push_cast at h3 ⊢; exact h3
      rw [← Int.cast_abs] at h4
      have h5 : |m * 2 ^ e.toNat - n| < 1 := by exact_mod_cast h4
      have h6 := Int.abs_lt_one_iff.1 h5
      omega
    rw [this, ← hi]
    exact ⟨m, e, hm, he, rfl⟩
  · refine isDouble_int ?_
    have hmK : |(m : K)| ≤ ((2 ^ 53 : ℤ) : K) := by
      rw [← Int.cast_abs]; exact_mod_cast hm
    have h4 : |(n : K)| ≤ ((2 ^ 53 : ℤ) : K) := by
      refine h2.trans ?_
      rw [abs_mul, abs_of_pos hp]
      have : (2 : K) ^ e ≤ 2 ^ (0 : ℤ) := two_zpow_le h0.le
      rw [zpow_zero] at this
      calc |(m : K)| * 2 ^ e ≤ |(m : K)| * 1 := mul_le_mul_of_nonneg_left this (abs_nonneg _)
        _ ≤ _ := by rw [mul_one]; exact hmK
    rw [← Int.cast_abs] at h4
    exact_mod_cast h4

/-- What is recognised has a computed quotient within the tolerance of an integer that is not larger; and from a quotient of 2·10⁷
on everything is recognised. -/
theorem multiple_spec (R : Nearest r) {v f : K} (hf : f ≠ 0) (hb : |r (v / f)| < 2 ^ 1024) :
    (multipleF r (.fin v) (.fin f) = true →
      ∃ n : ℤ, |(n : K)| ≤ |r (v / f)| ∧ |r (v / f) - n| ≤ (1 + 2 ^ (-50 : ℤ)) / 10 ^ 7 * Max.max 1 |r (v / f)|) ∧
    (2 * 10 ^ 7 ≤ |r (v / f)| → multipleF r (.fin v) (.fin f) = true) := by
  unfold multipleF
  have e1 : Ext.div r (.fin v) (.fin f) = .fin (r (v / f)) := by
    simp only [Ext.div, hf, if_false]
    exact ofExact_fin hb
  rw [e1]
  have hx : IsFinite (r (v / f)) := ⟨R.dbl _, hb⟩
  obtain ⟨n, h1, h2, h3, h4⟩ := trunc_spec hx
  rw [h1]
  obtain ⟨a1, a2⟩ := are_equal_finite R hx h2
  unfold Within at a1 a2
  rw [max_eq_left h3] at a1 a2
  refine ⟨fun h => ⟨n, h3, a2 h⟩, fun h => a1 ?_⟩
  have h5 : (1 : K) ≤ (1 - 2 ^ (-50 : ℤ)) / 10 ^ 7 * (2 * 10 ^ 7) := by norm_num
  have h6 : (1 - 2 ^ (-50 : ℤ)) / 10 ^ 7 * (2 * 10 ^ 7) ≤ (1 - (2 : K) ^ (-50 : ℤ)) / 10 ^ 7 * Max.max 1 |r (v / f)| :=
    mul_le_mul_of_nonneg_left (h.trans (le_max_right _ _)) (div_nonneg (by norm_num) (by norm_num))
  linarith

/-- **Multiples (C92)** where the quotient is not a finite number: nothing is a multiple of zero, every number is a multiple of an
infinity, and infinities and NaN are multiples of nothing. -/
theorem multiple_special (a : Ext K) (x f : K) (s t : Bool) :
    multipleF r (.fin x) (.fin 0) = false ∧ (Nearest r → multipleF r (.fin x) (.inf s) = true) ∧
    multipleF r (.inf s) (.fin f) = false ∧ multipleF r (.inf s) (.inf t) = false ∧ multipleF r .nan a = false ∧
    multipleF r a .nan = false ∧ (f ≠ 0 → 2 ^ 1024 ≤ |r (x / f)| → multipleF r (.fin x) (.fin f) = false) := by
  have hinf : ∀ b : Bool, equalF r (.inf b) (.inf b) = false := by
    intro b
    rw [Bool.eq_false_iff, ne_eq, (are_equal_special (r := r) .nan 0 b b).2.2.2.2]
    simp
  have hnan : equalF r .nan .nan = false := (are_equal_special (r := r) .nan 0 s s).1
  unfold multipleF
  refine ⟨?_, fun R => ?_, hinf _, hnan, ?_, ?_, fun hf hb => ?_⟩
  · by_cases hx : x = 0
    · simp only [Ext.div, hx, if_true, Ext.trunc]
      exact hnan
    · simp only [Ext.div, hx, if_true, if_false, Ext.trunc]
      exact hinf _
  · have h0 : IsFinite (0 : K) := ⟨⟨0, 0, by norm_num, by norm_num, by norm_num⟩, by rw [abs_zero]; positivity⟩
    have ht : Ext.trunc (.fin (0 : K)) = .fin 0 := by simp [Ext.trunc]
    simp only [Ext.div, ht]
    exact are_equal_refl R h0
  · cases a <;> exact hnan
  · cases a <;> exact hnan
  · have e : Ext.div r (.fin x) (.fin f) = .inf (decide (x / f < 0)) := by
      simp [Ext.div, hf, Ext.ofExact, not_lt.2 hb]
    rw [e]
    exact hinf _

/-- The opposite number. -/
def Ext.neg : Ext K → Ext K
  | .fin x => .fin (-x)
  | .inf s => .inf !s
  | .nan => .nan

/-- **Differences (C92)**: exchanging the arguments changes the sign, for infinities and overflows as well. -/
theorem difference_antisymmetric (R : Nearest r) (odd : ∀ x, r (-x) = -r x) (a b : Ext K) : b.sub r a = (a.sub r b).neg := by
  cases a with
  | nan => cases b <;> rfl
  | inf s => cases b with
    | nan => rfl
    | inf t => cases s <;> cases t <;> rfl
    | fin y => rfl
  | fin x => cases b with
    | nan => rfl
    | inf t => cases t <;> rfl
    | fin y =>
      have hr : r (y - x) = -r (x - y) := by rw [← odd, neg_sub]
      simp only [Ext.sub, Ext.ofExact, hr, abs_neg]
      by_cases h : |r (x - y)| < 2 ^ 1024
      · simp [h, Ext.neg]
      · rw [if_neg h, if_neg h]
        have hne : x - y ≠ 0 := by
          intro h0
          apply h
          rw [h0, R.fix ⟨0, 0, by norm_num, by norm_num, by norm_num⟩, abs_zero]
          positivity
        have : decide (y - x < 0) = !decide (x - y < 0) := by
          rcases lt_or_gt_of_ne hne with h1 | h1
          · rw [decide_eq_true h1, decide_eq_false (by linarith)]; rfl
          · rw [decide_eq_false (not_lt.2 h1.le), decide_eq_true (by linarith)]; rfl
        show Ext.inf (decide (y - x < 0)) = Ext.inf (!decide (x - y < 0))
        rw [this]

/-! ### The comparisons without rounding -/

/-- Without rounding these are the comparisons of the other parts of the model (C49 and others). -/
theorem comparisons_exact {a b : K} (ha : |a| < 2 ^ 1000) (hb : |b| < 2 ^ 1000) :
    equalF id (.fin a) (.fin b) = Rect.areEqual a b ∧ lessF id (.fin a) (.fin b) = Rect.less a b ∧
    lessOrEqualF id (.fin a) (.fin b) = Rect.lessOrEqual a b := by
  have hB : (4 : K) * 2 ^ 1000 < 2 ^ 1024 := by
    rw [show (1024 : Nat) = 1000 + 24 from rfl, pow_add]
    rw [mul_comm]
    exact mul_lt_mul_of_pos_left (by norm_num) (by positivity)
  have hC : (1 : K) < 2 ^ 1000 := one_lt_pow₀ (by norm_num) (by norm_num)
  have hq : (1 : K) / 10 ^ 7 ≤ 1 := by norm_num
  have hq0 : (0 : K) ≤ 1 / 10 ^ 7 := by positivity
  have he : (1 : K) / 2 ^ 52 ≤ 1 := by norm_num
  have he0 : (0 : K) ≤ 1 / 2 ^ 52 := by positivity
  have hM : Max.max 1 (Max.max |a| |b|) < 2 ^ 1000 := max_lt hC (max_lt ha hb)
  have hM1 : 1 ≤ Max.max 1 (Max.max |a| |b|) := le_max_left _ _
  have e1 : equalF id (.fin a) (.fin b) = Rect.areEqual a b := by
    unfold equalF equalWithin Rect.areEqual
    simp only [Ext.abs, max_fin, Ext.mulPos, Ext.sub, Ext.ofExact, id]
    generalize Max.max 1 (Max.max |a| |b|) = M at *
    have h1 : |a - b| < 2 ^ 1024 := by
      have := abs_sub a b
      generalize (2 : K) ^ 1024 = B at *
      generalize (2 : K) ^ 1000 = C at *
      linarith
    have h2 : |1 / 10 ^ 7 * M| < 2 ^ 1024 := by
      generalize (1 : K) / 10 ^ 7 = q at *
      rw [abs_of_nonneg (mul_nonneg hq0 (by linarith))]
      have : q * M ≤ 1 * M := mul_le_mul_of_nonneg_right hq (by linarith)
      generalize (2 : K) ^ 1024 = B at *
      generalize (2 : K) ^ 1000 = C at *
      linarith
    rw [if_pos h1, if_pos h2]
    rfl
  have e2 : lessF id (.fin a) (.fin b) = Rect.less a b := by
    unfold lessF Rect.less
    simp only [Ext.addFin, Ext.ofExact, id]
    have h1 : |b + 1 / 2 ^ 52| < 2 ^ 1024 := by
      have := abs_add_le b (1 / 2 ^ 52)
      rw [abs_of_nonneg he0] at this
      generalize (1 : K) / 2 ^ 52 = e at *
      generalize (2 : K) ^ 1024 = B at *
      generalize (2 : K) ^ 1000 = C at *
      linarith
    rw [if_pos h1]
    rfl
  exact ⟨e1, e2, by unfold lessOrEqualF Rect.lessOrEqual; rw [e1, e2]⟩

/-! ### Rounding in the default mode -/

theorem halfEven_neg (x : K) : halfEven (-x) = -halfEven x := by
  by_cases hi : (⌊x⌋ : K) = x
  · have hint : ∀ n : ℤ, halfEven ((n : ℤ) : K) = n := by
      intro n
      unfold halfEven
      rw [Int.floor_intCast, sub_self, if_pos (by norm_num)]
    rw [← hi, hint, ← Int.cast_neg, hint]
  · have hlt : (⌊x⌋ : K) < x := lt_of_le_of_ne (Int.floor_le x) hi
    have hfl : ⌊-x⌋ = -⌊x⌋ - 1 := by
      rw [Int.floor_eq_iff]
      push_cast
      constructor <;> linarith [Int.lt_floor_add_one x]
    unfold halfEven
    rw [hfl]
    push_cast
    by_cases a : x - ⌊x⌋ < 1 / 2
    · rw [if_pos a, if_neg (by linarith), if_pos (by linarith)]
      ring
    · rw [if_neg a]
      by_cases b : 1 / 2 < x - ⌊x⌋
      · rw [if_pos b, if_pos (by linarith)]
        ring
      · rw [if_neg b, if_neg (by linarith), if_neg (by linarith)]
        by_cases c : ⌊x⌋ % 2 = 0
        · rw [if_pos c, if_neg (by omega)]
          ring
        · rw [if_neg c, if_pos (by omega)]
          ring

theorem rne_odd (x : K) : rne (-x) = -rne x := by
  unfold rne lastPlace
  rw [abs_neg, neg_div, halfEven_neg]
  push_cast
  ring

end

/-! ## Counterexamples and non-vacuity -/

theorem finite_small {x : ℚ} (n e : ℤ) (hn : |n| ≤ 2 ^ 53) (he : -1074 ≤ e) (he2 : e ≤ 0) (hx : x = n * 2 ^ e) : IsFinite x := by
  refine ⟨⟨n, e, hn, he, hx⟩, ?_⟩
  have h1 : |(n : ℚ)| ≤ 2 ^ 53 := by rw [← Int.cast_abs]; exact_mod_cast hn
  have h2 : (2 : ℚ) ^ e ≤ 2 ^ (0 : ℤ) := two_zpow_le he2
  rw [zpow_zero] at h2
  rw [hx, abs_mul, abs_of_pos (two_zpow_pos e : (0 : ℚ) < 2 ^ e)]
  calc |(n : ℚ)| * 2 ^ e ≤ |(n : ℚ)| * 1 := mul_le_mul_of_nonneg_left h2 (abs_nonneg _)
    _ ≤ 2 ^ 53 := by rw [mul_one]; exact h1
    _ < 2 ^ 1024 := pow_lt_pow_right₀ (by norm_num) (by norm_num)

/-- Equality with a tolerance is not transitive. -/
theorem are_equal_not_transitive_counterexample :
    equalF rne (.fin (0 : ℚ)) (.fin (1 / 2 ^ 24)) = true ∧ equalF rne (.fin (1 / 2 ^ 24 : ℚ)) (.fin (1 / 2 ^ 23)) = true ∧
    equalF rne (.fin (0 : ℚ)) (.fin (1 / 2 ^ 23)) = false := by
  have f0 : IsFinite (0 : ℚ) := finite_small 0 0 (by norm_num) (by norm_num) le_rfl (by norm_num)
  have f1 : IsFinite (1 / 2 ^ 24 : ℚ) := finite_small 1 (-24) (by norm_num) (by norm_num) (by norm_num) (by norm_num)
  have f2 : IsFinite (1 / 2 ^ 23 : ℚ) := finite_small 1 (-23) (by norm_num) (by norm_num) (by norm_num) (by norm_num)
  refine ⟨(are_equal_finite rne_nearest f0 f1).1 ?_, (are_equal_finite rne_nearest f1 f2).1 ?_, ?_⟩
  · unfold Within; norm_num [abs_of_nonneg]
  · unfold Within; norm_num [abs_of_nonneg]
  · rw [Bool.eq_false_iff]
    intro h
    have := (are_equal_finite rne_nearest f0 f2).2 h
    unfold Within at this
    norm_num [abs_of_nonneg] at this

/-- Non-vacuity: the two largest numbers of opposite signs are too far apart for a finite difference. -/
example : Ext.sub rne (.fin (-(2 ^ 53 - 1) * 2 ^ 971 : ℚ)) (.fin ((2 ^ 53 - 1) * 2 ^ 971)) = .inf true ∧
    Ext.sub rne (.fin ((2 ^ 53 - 1) * 2 ^ 971 : ℚ)) (.fin (-(2 ^ 53 - 1) * 2 ^ 971)) = .inf false := by
  have hd : IsDouble (((2 ^ 53 - 1 : ℤ) : ℚ) * 2 ^ (972 : ℤ)) := ⟨2 ^ 53 - 1, 972, by norm_num, by norm_num, rfl⟩
  have e : (((2 ^ 53 - 1 : ℤ) : ℚ) * 2 ^ (972 : ℤ)) = 2 * ((2 ^ 53 - 1) * 2 ^ 971) := by
    rw [show (972 : ℤ) = 971 + 1 from rfl, zpow_add₀ (by norm_num)]
    have : (2 : ℚ) ^ (971 : ℤ) = 2 ^ 971 := zpow_natCast 2 971
    rw [this]
    push_cast
    ring
  rw [e] at hd
  have hb : ¬ |2 * ((2 ^ 53 - 1) * 2 ^ 971 : ℚ)| < 2 ^ 1024 := by
    rw [abs_of_nonneg (by norm_num), not_lt, show (1024 : Nat) = 971 + 53 from rfl, pow_add]
    have : (0 : ℚ) < 2 ^ 971 := by positivity
    generalize (2 : ℚ) ^ 971 = x at *
    linarith
  have h1 : Ext.sub rne (.fin ((2 ^ 53 - 1) * 2 ^ 971 : ℚ)) (.fin (-(2 ^ 53 - 1) * 2 ^ 971)) = .inf false := by
    have e2 : ((2 ^ 53 - 1) * 2 ^ 971 : ℚ) - -(2 ^ 53 - 1) * 2 ^ 971 = 2 * ((2 ^ 53 - 1) * 2 ^ 971) := by ring
    simp only [Ext.sub, Ext.ofExact, e2, rne_nearest.fix hd]
    rw [if_neg hb, decide_eq_false (by norm_num)]
  refine ⟨?_, h1⟩
  rw [difference_antisymmetric rne_nearest rne_odd, h1]
  rfl

/-- A tenth of a metre is not in three tenths: `is_multiple_of(0.3, 0.1)` is false. -/
theorem multiple_counterexample : multipleF rne (.fin (rne (3 / 10 : ℚ))) (.fin (rne (1 / 10 : ℚ))) = false := by
  decide +kernel

/-- Non-vacuity of the theorems about finite numbers, in the default rounding mode. -/
example : equalF rne (.fin (1000 : ℚ)) (.fin (1000 + 1 / 2 ^ 14)) = true ∧ lessF rne (.fin (1 : ℚ)) (.fin 1) = true ∧
    lessF rne (.fin (5 : ℚ)) (.fin 5) = false ∧ strictlyOrderedF rne (.fin (1 : ℚ)) (.fin 1) (.fin 1) = true ∧
    lessOrEqualF rne (.fin (5 : ℚ)) (.fin 5) = true ∧ multipleF rne (.fin (3 / 4 : ℚ)) (.fin (1 / 4)) = true := by
  have f1 : IsFinite (1 : ℚ) := finite_small 1 0 (by norm_num) (by norm_num) le_rfl (by norm_num)
  have f5 : IsFinite (5 : ℚ) := finite_small 5 0 (by norm_num) (by norm_num) le_rfl (by norm_num)
  have fk : IsFinite (1000 : ℚ) := finite_small 1000 0 (by norm_num) (by norm_num) le_rfl (by norm_num)
  have fl : IsFinite (1000 + 1 / 2 ^ 14 : ℚ) :=
    finite_small (1000 * 2 ^ 14 + 1) (-14) (by norm_num) (by norm_num) (by norm_num) (by norm_num)
  have l1 := (less_finite (r := rne) rne_nearest (a := 1) f1).2.2.2 (by norm_num)
  refine ⟨(are_equal_finite rne_nearest fk fl).1 ?_, l1, ?_, by simp [strictlyOrderedF, l1],
    (less_or_equal_finite rne_nearest f5 f5).1 le_rfl, ?_⟩
  · unfold Within; norm_num [abs_of_nonneg, abs_of_nonpos]
  · rw [Bool.eq_false_iff]
    intro h
    have := ((less_finite rne_nearest (a := 5) f5).2.2.1 (by norm_num)).1 h
    exact lt_irrefl _ this
  · have := (multiple_recognised (r := rne) rne_nearest (f := (1 / 4 : ℚ)) (by norm_num) 3 (by norm_num)).1
    norm_num at this
    exact this

end Slam.Float
