import Verif.Float.Single
import Verif.World.Cache
import Mathlib.Analysis.SpecialFunctions.Trigonometric.Bounds

/-!
# Beam angles and cached trigonometry in floating point

`LaserScanObserver::msg2scan`, `LaserScanObserver::trig_provider` (src/ros/laser_scan_observer.h) and the trigonometry
providers (src/core/trigonometry_utils.h) with every operation rounded: `r` rounds to `double`, `s` to `float` (for the two
operations on message fields). The C library's `sin` and `cos` are arbitrary functions of some accuracy.
-/

set_option autoImplicit false
set_option linter.unusedSectionVars false

namespace Slam.Float
open Slam.Sensor Slam.Worlds

/-- The C library's sine and cosine. -/
structure Libm where
  sin : ℝ → ℝ
  cos : ℝ → ℝ

/-- `CachedTrigonometryProvider::sin`, trigonometry_utils.h:45-49, rounded. -/
noncomputable def sinF (r : ℝ → ℝ) (c : Cached) (a : ℝ) : Option ℝ :=
  let i := roundC (r (r (a - c.angleMin) / c.delta))
  (at? c.cosT i).bind fun co => (at? c.sinT i).map fun si => r (r (c.sinBase * co) + r (c.cosBase * si))

/-- `CachedTrigonometryProvider::cos`, trigonometry_utils.h:51-55, rounded. -/
noncomputable def cosF (r : ℝ → ℝ) (c : Cached) (a : ℝ) : Option ℝ :=
  let i := roundC (r (r (a - c.angleMin) / c.delta))
  (at? c.cosT i).bind fun co => (at? c.sinT i).map fun si => r (r (c.cosBase * co) - r (c.sinBase * si))

/-- `set_base_angle`, trigonometry_utils.h:57-60, with the library's functions. -/
def setBaseF (L : Libm) (c : Cached) (a : ℝ) : Cached := { c with sinBase := L.sin a, cosBase := L.cos a }

open Classical in
/-- The angles visited by the loop of `update`, trigonometry_utils.h:74, additions rounded; `none` if it runs longer than
`fuel`. -/
noncomputable def sweepF (r : ℝ → ℝ) (max inc : ℝ) : Nat → ℝ → Option (List ℝ)
  | 0, _ => none
  | fuel + 1, a => if a < max then (sweepF r max inc fuel (r (a + inc))).map (a :: ·) else some []

open Classical in
/-- `update`, trigonometry_utils.h:62-78. -/
noncomputable def updateF (r : ℝ → ℝ) (L : Libm) (c : Cached) (fuel : Nat) (aMin aMax aInc : ℝ) : Option Cached :=
  if aMin = c.angleMin ∧ aMax = c.angleMax ∧ aInc = c.delta then some c
  else (sweepF r aMax aInc fuel aMin).map fun as =>
    { c with
      sinT := as.map L.sin, cosT := as.map L.cos, angleMin := aMin, angleMax := aMax, delta := aInc }

/-- The constructor, trigonometry_utils.h:39-43. -/
def initF (L : Libm) : Cached := ⟨[], [], L.sin 0, L.cos 0, 0, 0, 0⟩

/-- `trig_provider` with the cache switched on, laser_scan_observer.h:78-82 (`angle_max + angle_increment` in single
precision), followed by `set_base_angle(b)`. -/
noncomputable def providerF (r s : ℝ → ℝ) (L : Libm) (m : Msg ℝ) (b : ℝ) (fuel : Nat) : Option Cached :=
  (updateF r L (initF L) fuel m.angleMin (s (m.angleMax + m.increment)) m.increment).map fun c => setBaseF L c b

/-- `RawTrigonometryProvider::sin`, trigonometry_utils.h:21-23, the sum rounded. -/
def rawSinF (r : ℝ → ℝ) (L : Libm) (b a : ℝ) : ℝ := L.sin (r (b + a))
/-- `RawTrigonometryProvider::cos`, trigonometry_utils.h:25-27, the sum rounded. -/
def rawCosF (r : ℝ → ℝ) (L : Libm) (b a : ℝ) : ℝ := L.cos (r (b + a))

/-- The loop of `msg2scan`, laser_scan_observer.h:48-67, the addition rounded. -/
noncomputable def convertF (r : ℝ → ℝ) (m : Msg ℝ) (skipMax : Bool) : ℝ → List (Option ℝ) → List (Point ℝ) × ℝ
  | a, [] => ([], a)
  | a, x :: xs =>
    let a := r (a + m.increment)
    let rest := convertF r m skipMax a xs
    match x with
    | none => (⟨none, a, true⟩ :: rest.1, rest.2)
    | some v =>
      if v < m.rangeMin then rest
      else if m.rangeMax ≤ v then
        if skipMax then rest else (⟨some m.rangeMax, a, false⟩ :: rest.1, rest.2)
      else (⟨some v, a, true⟩ :: rest.1, rest.2)

/-- `msg2scan`, laser_scan_observer.h:40-70: `angle_min - angle_increment` is rounded to single precision, the rest to
double. `none` if the assertion fails. -/
noncomputable def msg2scanF (r s : ℝ → ℝ) (m : Msg ℝ) (skipMax : Bool) (tol : ℝ) : Option (List (Point ℝ)) :=
  let x := convertF r m skipMax (s (m.angleMin - m.increment)) m.ranges
  if |r (x.2 - m.angleMax)| ≤ tol then some x.1 else none

theorem convert_exact (m : Msg ℝ) (skip : Bool) (a : ℝ) (xs : List (Option ℝ)) : convertF id m skip a xs = convert m skip a xs := by
  induction xs generalizing a with
  | nil => rfl
  | cons x xs ih =>
    simp only [convertF, convert, id, ih]
    cases x <;> rfl

/-- Without rounding this is the exact conversion. -/
theorem msg2scan_exact (m : Msg ℝ) (skip : Bool) (tol : ℝ) : msg2scanF id id m skip tol = msg2scan m skip tol := by
  simp only [msg2scanF, msg2scan, convert_exact, id]

theorem sweep_exact (max inc : ℝ) (fuel : Nat) (a : ℝ) : sweepF id max inc fuel a = sweep max inc fuel a := by
  induction fuel generalizing a with
  | zero => rfl
  | succ n ih => simp only [sweepF, sweep, id, ih]

/-- Without rounding and with exact functions this is the exact provider. -/
theorem provider_exact (m : Msg ℝ) (b : ℝ) (fuel : Nat) :
    providerF id id ⟨Real.sin, Real.cos⟩ m b fuel = Cached.run fuel Cached.init (providerCalls m b) := by
  simp only [providerF, updateF, initF, setBaseF, Cached.run, providerCalls, Cached.step, Cached.update, Cached.init,
    sweep_exact, id]
  by_cases h : m.angleMin = 0 ∧ m.angleMax + m.increment = 0 ∧ m.increment = 0
  · rw [if_pos h]; rfl
  · rw [if_neg h]
    cases sweep (m.angleMax + m.increment) m.increment fuel m.angleMin <;> rfl

theorem lookup_exact (c : Cached) (a : ℝ) : sinF id c a = c.sin a ∧ cosF id c a = c.cos a := ⟨rfl, rfl⟩

/-! ## Specification -/

/-- The library's functions are accurate to `τ`. -/
def Libm.Accurate (L : Libm) (τ : ℝ) : Prop := ∀ x, |L.sin x - Real.sin x| ≤ τ ∧ |L.cos x - Real.cos x| ≤ τ

/-- The fields of a message are floats. -/
structure FloatMsg (m : Msg ℝ) : Prop where
  angleMin : IsSingle m.angleMin
  angleMax : IsSingle m.angleMax
  increment : IsSingle m.increment
  rangeMin : IsSingle m.rangeMin
  rangeMax : IsSingle m.rangeMax
  ranges : ∀ v, some v ∈ m.ranges → IsSingle v

/-- A message whose angles stay within eight radians and whose beams, counter-clockwise, are further apart than the
tolerance of the node's angle check plus two microradians. -/
structure Spread (m : Msg ℝ) (tol : ℝ) : Prop where
  min : |m.angleMin| ≤ 8
  max : |m.angleMax| ≤ 8
  apart : tol + 2 ^ (-19 : ℤ) ≤ m.increment
  step : m.increment ≤ 2

/-- The points a message stands for, in exact arithmetic: beam `i` at `angle_min + i * angle_increment`. -/
noncomputable def beams (m : Msg ℝ) (skip : Bool) : List (Point ℝ) :=
  m.ranges.zipIdx.filterMap fun x => pointSpec m skip x.2 x.1

/-! ## Adding up angles -/

section
variable {r s : ℝ → ℝ}

/-- The angle after `k` rounded additions. -/
def turned (r : ℝ → ℝ) (d a : ℝ) (k : Nat) : ℝ := (fun a => r (a + d))^[k] a

theorem turned_zero (d a : ℝ) : turned r d a 0 = a := rfl

theorem turned_succ (d a : ℝ) (k : Nat) : turned r d a (k + 1) = r (turned r d a k + d) :=
  Function.iterate_succ_apply' _ _ _

theorem turned_next (d a : ℝ) (k : Nat) : turned r d (r (a + d)) k = turned r d a (k + 1) := rfl

theorem turned_double (R : Nearest r) (d : ℝ) {a : ℝ} (ha : IsDouble a) (k : Nat) : IsDouble (turned r d a k) := by
  cases k with
  | zero => exact ha
  | succ k => rw [turned_succ]; exact R.dbl _

theorem turned_le_succ (R : Nearest r) {d a : ℝ} (hd : 0 ≤ d) (ha : IsDouble a) (k : Nat) :
    turned r d a k ≤ turned r d a (k + 1) := by
  rw [turned_succ]
  exact R.ge_of_ge (turned_double R d ha k) (by linarith)

theorem turned_mono (R : Nearest r) {d a : ℝ} (hd : 0 ≤ d) (ha : IsDouble a) : Monotone (turned r d a) :=
  monotone_nat_of_le_succ (turned_le_succ R hd ha)

theorem turned_acc (R : Nearest r) {d a : ℝ} (hd : 0 ≤ d) (ha : IsDouble a) (h15 : -15 ≤ a) (k : Nat)
    (hk : turned r d a k ≤ 15) : |turned r d a k - (a + k * d)| ≤ k * 2 ^ (-50 : ℤ) := by
  induction k with
  | zero => simp [turned_zero]
  | succ k ih =>
    have h1 := turned_le_succ R hd ha k
    have ih := ih (h1.trans hk)
    have h2 : a ≤ turned r d a k := turned_mono R hd ha (Nat.zero_le k)
    rw [turned_succ] at hk ⊢
    set x := turned r d a k with hx
    have hx16 : x + d ≤ 16 := by
      by_contra hc
      have h16 : IsDouble (16 : ℝ) := by
        have := isDouble_int (K := ℝ) (n := 16) (by norm_num)
        exact_mod_cast this
      have := R.ge_of_ge h16 (le_of_lt (not_le.1 hc))
      linarith
    have he := R.err (x := x + d) (k := 4) (by norm_num) (by rw [abs_le]; constructor <;> norm_num <;> linarith)
    norm_num only [show (4 : ℤ) - 54 = -50 by norm_num] at he
    have : r (x + d) - (a + ((k + 1 : Nat) : ℝ) * d) = (r (x + d) - (x + d)) + (x - (a + k * d)) := by push_cast; ring
    rw [this]
    refine (abs_add_le _ _).trans ?_
    push_cast
    norm_num at he ih ⊢
    linarith

theorem turned_count (R : Nearest r) {d a : ℝ} (hd : 2 ^ (-19 : ℤ) ≤ d) (ha : IsDouble a) (h15 : -15 ≤ a) (k : Nat)
    (hk : turned r d a k ≤ 15) : (k : ℝ) ≤ 2 ^ 24 := by
  have hd0 : 0 ≤ d := (two_zpow_pos (-19)).le.trans hd
  have h := (abs_le.1 (turned_acc R hd0 ha h15 k hk)).1
  have hk0 : (0 : ℝ) ≤ k := Nat.cast_nonneg k
  have hm := mul_le_mul_of_nonneg_left hd hk0
  have e19 : (2 : ℝ) ^ (-19 : ℤ) = 1 / 524288 := by norm_num
  have e50 : (2 : ℝ) ^ (-50 : ℤ) = 1 / 1125899906842624 := by norm_num
  have e24 : (2 : ℝ) ^ 24 = 16777216 := by norm_num
  rw [e19] at hm
  rw [e50] at h
  rw [e24]
  linarith

/-- Up to fifteen radians, the sum is off by less than 2^-26. -/
theorem turned_near (R : Nearest r) {d a : ℝ} (hd : 2 ^ (-19 : ℤ) ≤ d) (ha : IsDouble a) (h15 : -15 ≤ a) (k : Nat)
    (hk : turned r d a k ≤ 15) : |turned r d a k - (a + k * d)| ≤ 2 ^ (-26 : ℤ) := by
  have hd0 : 0 ≤ d := (two_zpow_pos (-19)).le.trans hd
  refine (turned_acc R hd0 ha h15 k hk).trans ?_
  have := turned_count R hd ha h15 k hk
  have e : (2 : ℝ) ^ (-26 : ℤ) = 2 ^ 24 * 2 ^ (-50 : ℤ) := by norm_num
  rw [e]
  exact mul_le_mul_of_nonneg_right this (two_zpow_pos _).le

theorem sweepF_eq (max inc : ℝ) (k : Nat) (a : ℝ) (h1 : ∀ i < k, turned r inc a i < max) (h2 : max ≤ turned r inc a k)
    (fuel : Nat) (hf : k < fuel) : sweepF r max inc fuel a = some ((List.range k).map (turned r inc a)) := by
  induction k generalizing a fuel with
  | zero =>
    obtain ⟨f, rfl⟩ : ∃ f, fuel = f + 1 := ⟨fuel - 1, by omega⟩
    simp only [sweepF]
    rw [turned_zero] at h2
    rw [if_neg (not_lt.2 h2)]; rfl
  | succ k ih =>
    obtain ⟨f, rfl⟩ : ∃ f, fuel = f + 1 := ⟨fuel - 1, by omega⟩
    simp only [sweepF]
    have h0 : a < max := h1 0 (by omega)
    rw [if_pos h0, ih (r (a + inc)) (fun i hi => by rw [turned_next]; exact h1 _ (by omega))
      (by rw [turned_next]; exact h2) f (by omega), Option.map_some, List.range_succ_eq_map, List.map_cons, List.map_map]
    rfl

theorem convertF_spec (m : Msg ℝ) (skip : Bool) (a : ℝ) (xs : List (Option ℝ)) (k : Nat) :
    List.Forall₂ (fun p q : Point ℝ => p.range = q.range ∧ p.occupied = q.occupied ∧ ∃ i, i < k + xs.length ∧
        p.angle = turned r m.increment a (i + 1) ∧ q.angle = m.angleMin + i * m.increment)
      (convertF r m skip (turned r m.increment a k) xs).1 ((xs.zipIdx k).filterMap fun x => pointSpec m skip x.2 x.1) ∧
    (convertF r m skip (turned r m.increment a k) xs).2 = turned r m.increment a (k + xs.length) := by
  induction xs generalizing k with
  | nil => exact ⟨by simp [convertF], rfl⟩
  | cons x xs ih =>
    have hlen : k + (x :: xs).length = k + 1 + xs.length := by simp; omega
    obtain ⟨i1, i2⟩ := ih (k + 1)
    simp only [convertF]
    rw [← turned_succ (r := r), hlen, List.zipIdx_cons]
    have hi : k < k + 1 + xs.length := by omega
    cases x with
    | none =>
      refine ⟨?_, i2⟩
      rw [List.filterMap_cons_some (b := ⟨none, m.angleMin + k * m.increment, true⟩) (by simp [pointSpec])]
      exact .cons ⟨rfl, rfl, k, hi, rfl, rfl⟩ i1
    | some v =>
      simp only
      by_cases h1 : v < m.rangeMin
      · rw [if_pos h1, List.filterMap_cons_none (by simp [pointSpec, h1])]
        exact ⟨i1, i2⟩
      · rw [if_neg h1]
        by_cases h2 : m.rangeMax ≤ v
        · rw [if_pos h2]
          cases skip with
          | true =>
            rw [if_pos rfl, List.filterMap_cons_none (by simp [pointSpec, h1, not_lt.2 h2])]
            exact ⟨i1, i2⟩
          | false =>
            rw [if_neg (by simp), List.filterMap_cons_some (b := ⟨some m.rangeMax, m.angleMin + k * m.increment, false⟩)
              (by simp [pointSpec, h1, not_lt.2 h2])]
            exact ⟨.cons ⟨rfl, rfl, k, hi, rfl, rfl⟩ i1, i2⟩
        · rw [if_neg h2, List.filterMap_cons_some (b := ⟨some v, m.angleMin + k * m.increment, true⟩)
            (by simp [pointSpec, h1, not_le.1 h2])]
          exact ⟨.cons ⟨rfl, rfl, k, hi, rfl, rfl⟩ i1, i2⟩

/-! ## One lookup -/

theorem round_prod (R : Nearest r) {x : ℝ} (hx : |x| ≤ 2) : |r x - x| ≤ 2 ^ (-53 : ℤ) := by
  have := R.err (x := x) (k := 1) (by norm_num) (by norm_num; exact hx)
  norm_num at this ⊢; exact this

theorem prod_err {x y x' y' τ : ℝ} (hx : |x' - x| ≤ τ) (hy : |y' - y| ≤ τ) (hτ : τ ≤ 1 / 4) (h1 : |x| ≤ 1) (h2 : |y| ≤ 1) :
    |x' * y' - x * y| ≤ 9 / 4 * τ ∧ |x' * y'| ≤ 2 := by
  have h0 : 0 ≤ τ := (abs_nonneg _).trans hx
  have e : x' * y' - x * y = (x' - x) * (y' - y) + (x' - x) * y + x * (y' - y) := by ring
  have a1 : |(x' - x) * (y' - y)| ≤ τ * τ := by rw [abs_mul]; exact mul_le_mul hx hy (abs_nonneg _) h0
  have a2 : |(x' - x) * y| ≤ τ * 1 := by rw [abs_mul]; exact mul_le_mul hx h2 (abs_nonneg _) h0
  have a3 : |x * (y' - y)| ≤ 1 * τ := by rw [abs_mul]; exact mul_le_mul h1 hy (abs_nonneg _) (by norm_num)
  have hd : |x' * y' - x * y| ≤ 9 / 4 * τ := by
    rw [e]
    refine (abs_add_le _ _).trans ((add_le_add (abs_add_le _ _) le_rfl).trans ?_)
    nlinarith
  refine ⟨hd, ?_⟩
  have hxy : |x * y| ≤ 1 := by rw [abs_mul]; exact mul_le_one₀ h1 (abs_nonneg _) h2
  have := abs_add_le (x' * y' - x * y) (x * y)
  rw [sub_add_cancel] at this
  linarith

theorem mix_err (R : Nearest r) {u v u' v' τ : ℝ} (hu : |u' - u| ≤ 9 / 4 * τ ∧ |u'| ≤ 2) (hv : |v' - v| ≤ 9 / 4 * τ ∧ |v'| ≤ 2) :
    |r (r u' + r v') - (u + v)| ≤ 9 / 2 * τ + 2 ^ (-50 : ℤ) ∧ |r (r u' - r v') - (u - v)| ≤ 9 / 2 * τ + 2 ^ (-50 : ℤ) := by
  have e1 := abs_le.1 (round_prod R hu.2)
  have e2 := abs_le.1 (round_prod R hv.2)
  have f1 := abs_le.1 hu.1
  have f2 := abs_le.1 hv.1
  have g1 := abs_le.1 hu.2
  have g2 := abs_le.1 hv.2
  have k1 := R.err (x := r u' + r v') (k := 3) (by norm_num) (by rw [abs_le]; norm_num at e1 e2 ⊢; constructor <;> linarith)
  have k2 := R.err (x := r u' - r v') (k := 3) (by norm_num) (by rw [abs_le]; norm_num at e1 e2 ⊢; constructor <;> linarith)
  rw [abs_le] at k1 k2 ⊢
  rw [abs_le]
  norm_num at e1 e2 k1 k2 ⊢
  refine ⟨⟨?_, ?_⟩, ?_, ?_⟩ <;> linarith [e1.1, e1.2, e2.1, e2.2]

theorem sin_near (x y : ℝ) : |Real.sin x - Real.sin y| ≤ |x - y| := by
  have := Real.lipschitzWith_sin.dist_le_mul x y
  rwa [NNReal.coe_one, one_mul, Real.dist_eq, Real.dist_eq] at this
theorem cos_near (x y : ℝ) : |Real.cos x - Real.cos y| ≤ |x - y| := by
  have := Real.lipschitzWith_cos.dist_le_mul x y
  rwa [NNReal.coe_one, one_mul, Real.dist_eq, Real.dist_eq] at this

theorem lookup_err (R : Nearest r) (L : Libm) {τ : ℝ} (hL : L.Accurate τ) (hτ : τ ≤ 1 / 4) (b t θ : ℝ) (c : Cached)
    (hsb : c.sinBase = L.sin b) (hcb : c.cosBase = L.cos b) (a : ℝ) (i : Nat)
    (hi : roundC (r (r (a - c.angleMin) / c.delta)) = i) (hst : c.sinT[i]? = some (L.sin t))
    (hct : c.cosT[i]? = some (L.cos t)) (ht : |t - θ| ≤ 2 ^ (-26 : ℤ)) :
    (∃ v, sinF r c a = some v ∧ |v - Real.sin (b + θ)| ≤ 5 * τ + 2 ^ (-25 : ℤ)) ∧
    (∃ v, cosF r c a = some v ∧ |v - Real.cos (b + θ)| ≤ 5 * τ + 2 ^ (-25 : ℤ)) := by
  have h0 : 0 ≤ τ := (abs_nonneg _).trans (hL 0).1
  have ss := Real.abs_sin_le_one
  have cc := Real.abs_cos_le_one
  have hat : ∀ l : List ℝ, at? l (i : ℤ) = l[i]? := by intro l; simp [at?]
  have s1 := abs_le.1 ((sin_near (b + t) (b + θ)).trans ((congrArg _ (add_sub_add_left_eq_sub t θ b)).trans_le ht))
  have c1 := abs_le.1 ((cos_near (b + t) (b + θ)).trans ((congrArg _ (add_sub_add_left_eq_sub t θ b)).trans_le ht))
  constructor
  · refine ⟨r (r (L.sin b * L.cos t) + r (L.cos b * L.sin t)),
      by simp only [sinF, hi, hat, hct, hst, Option.bind_some, Option.map_some, hsb, hcb], ?_⟩
    have h := abs_le.1 (mix_err R (prod_err (hL b).1 (hL t).2 hτ (ss b) (cc t)) (prod_err (hL b).2 (hL t).1 hτ (cc b) (ss t))).1
    rw [← Real.sin_add] at h
    rw [abs_le]
    norm_num at h s1 ⊢
    constructor <;> linarith [h.1, h.2, s1.1, s1.2]
  · refine ⟨r (r (L.cos b * L.cos t) - r (L.sin b * L.sin t)),
      by simp only [cosF, hi, hat, hct, hst, Option.bind_some, Option.map_some, hsb, hcb], ?_⟩
    have h := abs_le.1 (mix_err R (prod_err (hL b).2 (hL t).2 hτ (cc b) (cc t)) (prod_err (hL b).1 (hL t).1 hτ (ss b) (ss t))).2
    rw [← Real.cos_add] at h
    rw [abs_le]
    norm_num at h c1 ⊢
    constructor <;> linarith [h.1, h.2, c1.1, c1.2]

theorem raw_err (R : Nearest r) (L : Libm) {τ : ℝ} (hL : L.Accurate τ) {b a θ : ℝ} (hb : |b| ≤ 2 ^ 20) (ha : |a| ≤ 16)
    (h : |a - θ| ≤ 2 ^ (-21 : ℤ) + 2 ^ (-26 : ℤ)) :
    |rawSinF r L b a - Real.sin (b + θ)| ≤ τ + 2 ^ (-20 : ℤ) ∧ |rawCosF r L b a - Real.cos (b + θ)| ≤ τ + 2 ^ (-20 : ℤ) := by
  have hb' := abs_le.1 hb
  have ha' := abs_le.1 ha
  have k1 := abs_le.1 (R.err (x := b + a) (k := 21) (by norm_num) (by rw [abs_le]; norm_num at hb' ⊢; constructor <;> linarith))
  have h' := abs_le.1 h
  have hd : |r (b + a) - (b + θ)| ≤ 2 ^ (-20 : ℤ) := by
    rw [abs_le]; norm_num at k1 h' ⊢; constructor <;> linarith
  constructor
  · have e := abs_le.1 (hL (r (b + a))).1
    have f := abs_le.1 ((sin_near (r (b + a)) (b + θ)).trans hd)
    unfold rawSinF
    rw [abs_le]; constructor <;> linarith
  · have e := abs_le.1 (hL (r (b + a))).2
    have f := abs_le.1 ((cos_near (r (b + a)) (b + θ)).trans hd)
    unfold rawCosF
    rw [abs_le]; constructor <;> linarith

/-! ## C107 -/

/-- C107: take a message whose fields are floats, whose angles are within eight radians and whose beams lie further apart
than the tolerance of the node's angle check plus two microradians (2^-19), and a C library whose sine and cosine are
accurate to `τ`. If the node accepts the message, computing in floating point, then its scan is, point by point, the
message's (the same ranges and marks) with every angle within a microradian (2^-20) of the beam's; the loop that fills the
cached provider's table ends; and for every base angle (up to 2^20) the cached provider answers for every point of the scan
without leaving its table, within 5τ + 2^-25 of the sine and cosine of base plus the beam's angle. The provider without a
table answers within τ + 2^-20. -/
theorem message_cache_rounded (R : Nearest r) (S : NearestSingle s) (L : Libm) {τ : ℝ} (hL : L.Accurate τ) (hτ : τ ≤ 1 / 4)
    (m : Msg ℝ) (skip : Bool) (tol : ℝ) (hm : FloatMsg m) (hs : Spread m tol) (ps : List (Point ℝ))
    (h : msg2scanF r s m skip tol = some ps) :
    ∃ N, ∀ fuel, N ≤ fuel → ∀ b, |b| ≤ 2 ^ 20 → ∃ c, providerF r s L m b fuel = some c ∧
      List.Forall₂ (fun p q : Point ℝ => p.range = q.range ∧ p.occupied = q.occupied ∧ |p.angle - q.angle| ≤ 2 ^ (-20 : ℤ) ∧
        (∃ v, sinF r c p.angle = some v ∧ |v - Real.sin (b + q.angle)| ≤ 5 * τ + 2 ^ (-25 : ℤ)) ∧
        (∃ v, cosF r c p.angle = some v ∧ |v - Real.cos (b + q.angle)| ≤ 5 * τ + 2 ^ (-25 : ℤ)) ∧
        |rawSinF r L b p.angle - Real.sin (b + q.angle)| ≤ τ + 2 ^ (-20 : ℤ) ∧
        |rawCosF r L b p.angle - Real.cos (b + q.angle)| ≤ τ + 2 ^ (-20 : ℤ)) ps (beams m skip) := by
  set d := m.increment with hd
  set a := s (m.angleMin - d) with ha
  set n := m.ranges.length with hn
  obtain ⟨c1, c2⟩ := convertF_spec (r := r) m skip a m.ranges 0
  rw [turned_zero, ← hd] at c1 c2
  simp only [Nat.zero_add, ← hn] at c1 c2
  unfold msg2scanF at h
  simp only [← hd, ← ha] at h
  by_cases hacc : |r ((convertF r m skip a m.ranges).2 - m.angleMax)| ≤ tol
  swap
  · rw [if_neg hacc] at h; cases h
  rw [if_pos hacc] at h
  injection h with h
  rw [h] at c1
  rw [c2] at hacc
  have htol : 0 ≤ tol := (abs_nonneg _).trans hacc
  have hstep := hs.step
  have hapart := hs.apart
  rw [← hd] at hstep hapart
  have hmin := abs_le.1 hs.min
  have hmax := abs_le.1 hs.max
  have hd19 : 2 ^ (-19 : ℤ) ≤ d := by linarith
  have hd0 : 0 < d := (two_zpow_pos (-19)).trans_le hd19
  have hmind : IsDouble m.angleMin := hm.angleMin.double
  have had : IsDouble a := (S.flt _).double
  have aerr := abs_le.1 (S.err (x := m.angleMin - d) (k := 4) (by norm_num) (by rw [abs_le]; norm_num; constructor <;> linarith))
  rw [← ha] at aerr
  have a15 : -15 ≤ a := by norm_num at aerr; linarith
  set E := s (m.angleMax + d) with hE
  have eerr := abs_le.1 (S.err (x := m.angleMax + d) (k := 4) (by norm_num) (by rw [abs_le]; norm_num; constructor <;> linarith))
  rw [← hE] at eerr
  have hacc' := abs_le.1 hacc
  have hlast : turned r d a n ≤ 15 := by
    by_contra hc
    have h7 : IsDouble (7 : ℝ) := by exact_mod_cast isDouble_int (K := ℝ) (n := 7) (by norm_num)
    have := R.ge_of_ge (x := turned r d a n - m.angleMax) h7 (by linarith [not_le.1 hc])
    have h0 : (0 : ℝ) < 2 ^ (-19 : ℤ) := two_zpow_pos _
    linarith
  have halow : a ≤ turned r d a n := turned_mono R hd0.le had (Nat.zero_le n)
  have lerr := abs_le.1 (R.err (x := turned r d a n - m.angleMax) (k := 5) (by norm_num)
    (by rw [abs_le]; norm_num; constructor <;> linarith))
  have lnear := abs_le.1 (turned_near R hd19 had a15 n hlast)
  have hE13 : E ≤ 13 := by norm_num at eerr; linarith
  -- the table reaches every beam
  have key : ∀ i : Nat, i < n → turned r d m.angleMin i ≤ 15 → turned r d m.angleMin i < E := by
    intro i hi h15
    have hnear := abs_le.1 (turned_near R hd19 hmind (by linarith) i h15)
    have hin : ((i : ℝ) + 1) ≤ n := by exact_mod_cast hi
    have hmul : ((i : ℝ) + 1) * d ≤ n * d := mul_le_mul_of_nonneg_right hin hd0.le
    norm_num at hnear lnear lerr aerr eerr hapart ⊢
    linarith [hnear.2, lnear.1, lerr.1, aerr.1, eerr.1]
  have hmin15 : -15 ≤ m.angleMin := by linarith
  have reach : ∀ i : Nat, i < n → turned r d m.angleMin i < E := by
    intro i
    induction i with
    | zero => exact fun hi => key 0 hi (by rw [turned_zero]; linarith)
    | succ i ih =>
      intro hi
      refine key _ hi ?_
      have h1 := ih (by omega)
      rw [turned_succ]
      have h15 : IsDouble (15 : ℝ) := by exact_mod_cast isDouble_int (K := ℝ) (n := 15) (by norm_num)
      exact R.le_of_le h15 (by linarith)
  have stop : ∃ K, E ≤ turned r d m.angleMin K := by
    by_contra hc
    push Not at hc
    have := turned_count R hd19 hmind hmin15 (2 ^ 24 + 1) (by linarith [hc (2 ^ 24 + 1)])
    norm_num at this
  classical
  set K := Nat.find stop with hK
  have hK1 : ∀ i < K, turned r d m.angleMin i < E := fun i hi => not_le.1 (Nat.find_min stop hi)
  have hK2 : E ≤ turned r d m.angleMin K := Nat.find_spec stop
  have hiK : ∀ i < n, i < K := by
    intro i hi
    by_contra hc
    have := turned_mono R hd0.le hmind (not_lt.1 hc)
    linarith [reach i hi]
  refine ⟨K + 1, fun fuel hf b hb => ?_⟩
  have hsweep := sweepF_eq (r := r) E d K m.angleMin hK1 hK2 fuel (by omega)
  refine ⟨setBaseF L ⟨((List.range K).map (turned r d m.angleMin)).map L.sin,
    ((List.range K).map (turned r d m.angleMin)).map L.cos, L.sin 0, L.cos 0, m.angleMin, E, d⟩ b, ?_, ?_⟩
  · unfold providerF updateF
    rw [if_neg (fun hc => hd0.ne' hc.2.2), ← hd, ← hE, hsweep]
    rfl
  · refine c1.imp ?_
    rintro p q ⟨h1, h2, i, hi, h3, h4⟩
    have hx15 : turned r d a (i + 1) ≤ 15 := (turned_mono R hd0.le had (by omega)).trans hlast
    have halo : a ≤ turned r d a (i + 1) := turned_mono R hd0.le had (Nat.zero_le _)
    have xnear := abs_le.1 (turned_near R hd19 had a15 (i + 1) hx15)
    rw [← h3] at xnear hx15 halo
    have hpq : |p.angle - q.angle| ≤ 2 ^ (-21 : ℤ) + 2 ^ (-26 : ℤ) := by
      rw [h4, abs_le]
      push_cast at xnear
      norm_num at xnear aerr ⊢
      constructor <;> linarith [xnear.1, xnear.2, aerr.1, aerr.2]
    have ht15 : turned r d m.angleMin i ≤ 15 := by linarith [reach i hi]
    have tnear := turned_near R hd19 hmind hmin15 i ht15
    rw [← h4] at tnear
    have hp16 : |p.angle| ≤ 16 := by rw [abs_le]; constructor <;> linarith
    have hidx : roundC (r (r (p.angle - m.angleMin) / d)) = i := by
      apply roundC_near
      have yerr := abs_le.1 (R.err (x := p.angle - m.angleMin) (k := 5) (by norm_num)
        (by rw [abs_le]; norm_num; constructor <;> linarith))
      have hpq' := abs_le.1 hpq
      have hinv : d⁻¹ ≤ 2 ^ 19 := by
        rw [inv_le_comm₀ hd0 (by norm_num)]
        norm_num at hd19 ⊢; exact hd19
      have hy : |r (p.angle - m.angleMin) - i * d| ≤ 2 ^ (-21 : ℤ) + 2 ^ (-26 : ℤ) + 2 ^ (-49 : ℤ) := by
        rw [h4] at hpq'
        rw [abs_le]
        norm_num at yerr hpq' ⊢
        constructor <;> linarith [yerr.1, yerr.2, hpq'.1, hpq'.2]
      have hq : |r (p.angle - m.angleMin) / d - i| ≤ 3 / 8 := by
        have e : r (p.angle - m.angleMin) / d - i = (r (p.angle - m.angleMin) - i * d) * d⁻¹ := by
          field_simp
        rw [e, abs_mul, abs_of_pos (inv_pos.2 hd0)]
        refine (mul_le_mul hy hinv (inv_pos.2 hd0).le (by positivity)).trans ?_
        norm_num
      have hcount := turned_count R hd19 had a15 n hlast
      have hin : (i : ℝ) ≤ n := by exact_mod_cast hi.le
      have hq' := abs_le.1 hq
      have hi0 : (0 : ℝ) ≤ i := Nat.cast_nonneg i
      have qerr := abs_le.1 (R.err (x := r (p.angle - m.angleMin) / d) (k := 25) (by norm_num)
        (by
          have e25 : (2 : ℝ) ^ (25 : ℤ) = 2 * 2 ^ 24 := by norm_num
          have e24 : (1 : ℝ) ≤ 2 ^ 24 := by norm_num
          rw [abs_le, e25]; constructor <;> linarith))
      rw [abs_lt]
      norm_num at qerr ⊢
      constructor <;> linarith [qerr.1, qerr.2]
    have hget : ∀ f : ℝ → ℝ, (((List.range K).map (turned r d m.angleMin)).map f)[i]? = some (f (turned r d m.angleMin i)) := by
      intro f
      rw [List.getElem?_map, List.getElem?_map, List.getElem?_range (hiK i hi)]
      rfl
    obtain ⟨l1, l2⟩ := lookup_err R L hL hτ b (turned r d m.angleMin i) q.angle
      (setBaseF L ⟨((List.range K).map (turned r d m.angleMin)).map L.sin,
        ((List.range K).map (turned r d m.angleMin)).map L.cos, L.sin 0, L.cos 0, m.angleMin, E, d⟩ b) rfl rfl p.angle i hidx
      (hget L.sin) (hget L.cos) tnear
    obtain ⟨w1, w2⟩ := raw_err R L hL hb hp16 hpq
    refine ⟨h1, h2, hpq.trans ?_, l1, l2, w1, w2⟩
    norm_num

end

end Slam.Float
