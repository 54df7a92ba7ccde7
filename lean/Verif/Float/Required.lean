import Verif.Float.Weights
import Mathlib.Tactic.Linarith
import Mathlib.Tactic.FinCases
import Mathlib.Tactic.Positivity

/-!
# The decision to resample, computed in `double`

`resampling_is_required`, src/core/particle_filter.h:34-43.
-/

set_option autoImplicit false
set_option linter.unusedSectionVars false

namespace Slam.Float
open Slam.Particle

variable {K : Type*} [Field K] [LinearOrder K] [IsStrictOrderedRing K] [FloorRing K]

variable {r : K → K}

/-- The exact sum of the squares of the weights: one over the effective number of particles. -/
def sqSum (ws : List K) : K := (ws.map fun w => w * w).sum

theorem sumF_id (ws : List K) (s : K) : sumF id s ws = s + ws.sum := by
  induction ws generalizing s with
  | nil => simp [sumF]
  | cons w ws ih =>
    have e : sumF id s (w :: ws) = sumF id (s + w) ws := rfl
    rw [e, ih, List.sum_cons, add_assoc]

theorem squares_near (R : Nearest r) (ws : List K) :
    |(ws.map fun w => r (w * w)).sum - sqSum ws| ≤
      2 ^ (-53 : ℤ) * sqSum ws + (ws.length : K) * (2 ^ (-53 : ℤ) * 2 ^ (-1022 : ℤ)) := by
  have hp := two_zpow_pos (K := K) (-1022)
  have he : ∀ w : K, |r (w * w) - w * w| ≤ 2 ^ (-53 : ℤ) * (w * w + 2 ^ (-1022 : ℤ)) := fun w =>
    R.err_mul (by linarith [mul_self_nonneg w]) (by rw [abs_of_nonneg (mul_self_nonneg w)]; linarith)
  unfold sqSum
  clear hp R
  generalize (2 : K) ^ (-1022 : ℤ) = t at *
  generalize (2 : K) ^ (-53 : ℤ) = u at *
  induction ws with
  | nil => simp
  | cons w ws ih =>
    simp only [List.map_cons, List.sum_cons, List.length_cons]
    push_cast
    have e : r (w * w) + (ws.map fun w => r (w * w)).sum - (w * w + (ws.map fun w => w * w).sum)
        = (r (w * w) - w * w) + ((ws.map fun w => r (w * w)).sum - (ws.map fun w => w * w).sum) := by ring
    rw [e]
    refine (abs_add_le _ _).trans ?_
    linarith [he w]

theorem sqSum_nonneg (ws : List K) : 0 ≤ sqSum ws :=
  List.sum_nonneg fun x hx => by obtain ⟨w, _, rfl⟩ := List.mem_map.1 hx; exact mul_self_nonneg w

theorem sqSum_le (ws : List K) (h : ∀ w ∈ ws, 0 ≤ w ∧ w ≤ 1) : sqSum ws ≤ ws.length := by
  induction ws with
  | nil => simp [sqSum]
  | cons w ws ih =>
    have hw := h w List.mem_cons_self
    have hi := ih fun x hx => h x (List.mem_cons_of_mem _ hx)
    have e : sqSum (w :: ws) = w * w + sqSum ws := rfl
    rw [e, List.length_cons]; push_cast
    nlinarith [mul_le_one₀ hw.2 hw.1 hw.2]

/-- The sum of the squares and the number derived from it, as the program computes them. -/
theorem required_bounds (R : Nearest r) (ws : List K) (h : ∀ w ∈ ws, DProb w) (hn : ws.length ≤ 2 ^ 40)
    (hS : 2 ^ (-500 : ℤ) ≤ sqSum ws) {u : K} (hu : u = 2 ^ (-53 : ℤ)) :
    let s := sumF r 0 (ws.map fun w => r (w * w))
    let T := r (r (1 / s) * 2)
    0 < s ∧ (1 - 2 * u) * sqSum ws ≤ s * (1 + ws.length * (u * (1 + 2 * u))) ∧
      s * (1 - ws.length * (u * (1 + 2 * u))) ≤ (1 + 2 * u) * sqSum ws ∧
      2 * (1 - u) * (1 - u) ≤ T * s ∧ T * s ≤ 2 * (1 + u) * (1 + u) := by
  intro s T
  have hu0 : 0 < u := by rw [hu]; exact two_zpow_pos _
  have hn1 : (ws.length : K) ≤ 2 ^ 40 := by exact_mod_cast hn
  have hn0 : (0 : K) ≤ ws.length := by positivity
  have hnu : (ws.length : K) * u ≤ 2 ^ (-13 : ℤ) := by
    calc (ws.length : K) * u ≤ 2 ^ 40 * u := mul_le_mul_of_nonneg_right hn1 hu0.le
      _ = 2 ^ (-13 : ℤ) := by rw [hu]; norm_num
  have hnu' : (ws.length : K) * u ≤ 1 / 64 := hnu.trans (by norm_num)
  have hu8 : u ≤ 1 / 64 := by rw [hu]; norm_num
  have hSn := sqSum_le ws fun w hw => ⟨(h w hw).2.1, (h w hw).2.2⟩
  have hd : DNonneg (ws.map fun w => r (w * w)) := by
    intro x hx
    obtain ⟨w, hw, rfl⟩ := List.mem_map.1 hx
    exact ⟨R.dbl _, R.nonneg (mul_self_nonneg w)⟩
  have hs0 : 0 ≤ s := (le_sumF R hd isDouble_zero le_rfl).2.1
  have e1 := squares_near R ws
  have e2 := sumF_err R _ hd 0 isDouble_zero le_rfl
  rw [zero_add, List.length_map] at e2
  change |_ - s| ≤ _ * (_ * s) at e2
  rw [← hu] at e1 e2
  have htiny : (ws.length : K) * (u * 2 ^ (-1022 : ℤ)) ≤ u * sqSum ws := by
    have : (ws.length : K) * 2 ^ (-1022 : ℤ) ≤ sqSum ws := by
      refine le_trans ?_ hS
      calc (ws.length : K) * 2 ^ (-1022 : ℤ) ≤ 2 ^ (40 : ℤ) * 2 ^ (-1022 : ℤ) :=
            mul_le_mul_of_nonneg_right (by simpa using hn1) (two_zpow_pos _).le
        _ = 2 ^ (-982 : ℤ) := by rw [← zpow_add₀ (by norm_num)]; norm_num
        _ ≤ 2 ^ (-500 : ℤ) := two_zpow_le (by norm_num)
    calc (ws.length : K) * (u * 2 ^ (-1022 : ℤ)) = u * (ws.length * 2 ^ (-1022 : ℤ)) := by ring
      _ ≤ _ := mul_le_mul_of_nonneg_left this hu0.le
  have hSpos : 0 < sqSum ws := (two_zpow_pos _).trans_le hS
  have a1 := abs_le.1 e1
  have a2 := abs_le.1 e2
  have b1 : (1 - 2 * u) * sqSum ws ≤ s * (1 + ws.length * (u * (1 + 2 * u))) := by
    linarith [a1.1, a2.2]
  have b2 : s * (1 - ws.length * (u * (1 + 2 * u))) ≤ (1 + 2 * u) * sqSum ws := by
    linarith [a1.2, a2.1]
  have hnn : (ws.length : K) * (u * (1 + 2 * u)) ≤ 1 / 2 := by
    have : (ws.length : K) * (u * (1 + 2 * u)) = ws.length * u * (1 + 2 * u) := by ring
    rw [this]; nlinarith [mul_nonneg hn0 hu0.le]
  have hspos : 0 < s := by
    by_contra hc
    have : s = 0 := le_antisymm (not_lt.1 hc) hs0
    rw [this, zero_mul] at b1
    have : 0 < (1 - 2 * u) * sqSum ws := mul_pos (by linarith) hSpos
    linarith
  refine ⟨hspos, b1, b2, ?_⟩
  -- the reciprocal
  have hsle : s ≤ 2 ^ 42 := by
    have h1 : s * (1 / 2) ≤ s * (1 - ws.length * (u * (1 + 2 * u))) := mul_le_mul_of_nonneg_left (by linarith) hs0
    have h2 : (1 + 2 * u) * sqSum ws ≤ 2 * sqSum ws := mul_le_mul_of_nonneg_right (by linarith) hSpos.le
    have : sqSum ws ≤ 2 ^ 40 := hSn.trans hn1
    have : (2 : K) ^ 42 = 4 * 2 ^ 40 := by norm_num
    linarith
  have hinv : 2 ^ (-42 : ℤ) ≤ 1 / s := by
    rw [le_div_iff₀ hspos]
    calc (2 : K) ^ (-42 : ℤ) * s ≤ 2 ^ (-42 : ℤ) * 2 ^ 42 := mul_le_mul_of_nonneg_left hsle (two_zpow_pos _).le
      _ = 1 := by norm_num
  have hinv0 : 0 < 1 / s := one_div_pos.2 hspos
  have c1 := R.rel (x := 1 / s) (by rw [abs_of_pos hinv0]; exact (two_zpow_le (by norm_num)).trans hinv)
  rw [abs_of_pos hinv0, ← hu] at c1
  have c1' := abs_le.1 c1
  have hq1 : (1 - u) * (1 / s) ≤ r (1 / s) := by linarith
  have hq2 : r (1 / s) ≤ (1 + u) * (1 / s) := by linarith
  have hqpos : 0 < r (1 / s) * 2 := by
    have : 0 < (1 - u) * (1 / s) := mul_pos (by linarith) hinv0
    linarith
  have hqbig : 2 ^ (-1022 : ℤ) ≤ r (1 / s) * 2 := by
    have h1 : (1 / 2 : K) * (1 / s) ≤ (1 - u) * (1 / s) := mul_le_mul_of_nonneg_right (by linarith) hinv0.le
    have h2 : (2 : K) ^ (-1022 : ℤ) ≤ 2 ^ (-42 : ℤ) := two_zpow_le (by norm_num)
    generalize (2 : K) ^ (-1022 : ℤ) = x at *
    generalize (2 : K) ^ (-42 : ℤ) = y at *
    linarith
  have c2 := R.rel (x := r (1 / s) * 2) (by rw [abs_of_pos hqpos]; exact hqbig)
  rw [abs_of_pos hqpos, ← hu] at c2
  have c2' := abs_le.1 c2
  have hss : 1 / s * s = 1 := one_div_mul_cancel hspos.ne'
  constructor
  · have h1 : (1 - u) * (r (1 / s) * 2) ≤ T := by change _ ≤ r (r (1 / s) * 2); linarith
    have h2 := mul_le_mul_of_nonneg_right hq1 hs0
    rw [mul_assoc, hss, mul_one] at h2
    have h3 := mul_le_mul_of_nonneg_right h1 hs0
    have h4 := mul_le_mul_of_nonneg_left h2 (show 0 ≤ 2 * (1 - u) by linarith)
    calc 2 * (1 - u) * (1 - u) ≤ 2 * (1 - u) * (r (1 / s) * s) := h4
      _ = (1 - u) * (r (1 / s) * 2) * s := by ring
      _ ≤ _ := h3
  · have h1 : T ≤ (1 + u) * (r (1 / s) * 2) := by change r (r (1 / s) * 2) ≤ _; linarith
    have h2 := mul_le_mul_of_nonneg_right hq2 hs0
    rw [mul_assoc, hss, mul_one] at h2
    have h3 := mul_le_mul_of_nonneg_right h1 hs0
    have h4 := mul_le_mul_of_nonneg_left h2 (show 0 ≤ 2 * (1 + u) by linarith)
    calc T * s ≤ (1 + u) * (r (1 / s) * 2) * s := h3
      _ = 2 * (1 + u) * (r (1 / s) * s) := by ring
      _ ≤ _ := h4

/-- The rounded decision is the exact one (`2 / Σw² < n`), unless the two sides are within a relative `(n + 4) · 2^-52`
of each other. -/
theorem required_rounded (R : Nearest r) (ws : List K) (h : ∀ w ∈ ws, DProb w) (hn : ws.length ≤ 2 ^ 40)
    (hS : 2 ^ (-500 : ℤ) ≤ sqSum ws) :
    (2 < ws.length * sqSum ws * (1 - (ws.length + 4) * 2 ^ (-52 : ℤ)) → requiredF r ws = true) ∧
    (ws.length * sqSum ws * (1 + (ws.length + 4) * 2 ^ (-52 : ℤ)) < 2 → requiredF r ws = false) := by
  set u : K := 2 ^ (-53 : ℤ) with hu
  have hu0 : 0 < u := by rw [hu]; exact two_zpow_pos _
  have hu2 : (2 : K) ^ (-52 : ℤ) = 2 * u := by rw [hu, show (-52 : ℤ) = 1 + -53 by norm_num, zpow_add₀ (by norm_num), zpow_one]
  obtain ⟨hs, b1, b2, c1, c2⟩ := required_bounds R ws h hn hS hu
  have hSpos : 0 < sqSum ws := (two_zpow_pos _).trans_le hS
  have hn1 : (ws.length : K) ≤ 2 ^ 40 := by exact_mod_cast hn
  have hn0 : (0 : K) ≤ ws.length := by positivity
  have hnu : (ws.length : K) * u ≤ 1 / 64 := by
    calc (ws.length : K) * u ≤ 2 ^ 40 * u := mul_le_mul_of_nonneg_right hn1 hu0.le
      _ ≤ 1 / 64 := by rw [hu]; norm_num
  have hu8 : u ≤ 1 / 1024 := by rw [hu]; norm_num
  unfold requiredF
  dsimp only
  rw [hu2]
  generalize sumF r 0 (ws.map fun w => r (w * w)) = s at *
  generalize r (r (1 / s) * 2) = T at *
  generalize (ws.length : K) = n at *
  generalize sqSum ws = S at *
  clear hu2 hn1 hS h hn R
  clear_value u
  simp only [if_neg hs.ne']
  have hT : 0 ≤ T := by
    by_contra hc
    have : T * s < 0 := mul_neg_of_neg_of_pos (not_le.1 hc) hs
    have : 0 ≤ 2 * (1 - u) * (1 - u) := mul_nonneg (by linarith) (by linarith)
    linarith
  have hv : (n * u) * u ≤ 1 / 64 * u := mul_le_mul_of_nonneg_right hnu hu0.le
  have hnn : 0 ≤ n * u := mul_nonneg hn0 hu0.le
  have huu : u * u ≤ 1 / 1024 * u := mul_le_mul_of_nonneg_right hu8 hu0.le
  have huuu : 0 ≤ u * u := mul_nonneg hu0.le hu0.le
  have hnuu : 0 ≤ n * u * u := mul_nonneg hnn hu0.le
  constructor
  · intro hlt
    rw [decide_eq_true_iff]
    -- `n S (1 - 2 v) > 2` with `v = (n + 4) u`
    set v := (n + 4) * u with hvd
    have hve : (n + 4) * (2 * u) = 2 * v := by rw [hvd]; ring
    rw [hve] at hlt
    by_contra hc
    have hc := not_lt.1 hc
    -- `n (1-2u) S ≤ T (1-2u) S ≤ T s (1 + w) ≤ 2 (1+u)^2 (1+w)`
    have w1 : n * ((1 - 2 * u) * S) ≤ 2 * (1 + u) * (1 + u) * (1 + n * (u * (1 + 2 * u))) := by
      have hpos : 0 ≤ (1 - 2 * u) * S := mul_nonneg (by linarith) hSpos.le
      have hw : 0 ≤ 1 + n * (u * (1 + 2 * u)) := by
        have : 0 ≤ n * (u * (1 + 2 * u)) := mul_nonneg hn0 (mul_nonneg hu0.le (by linarith))
        linarith
      calc n * ((1 - 2 * u) * S) ≤ T * ((1 - 2 * u) * S) := mul_le_mul_of_nonneg_right hc hpos
        _ ≤ T * (s * (1 + n * (u * (1 + 2 * u)))) := mul_le_mul_of_nonneg_left b1 hT
        _ = T * s * (1 + n * (u * (1 + 2 * u))) := by ring
        _ ≤ _ := mul_le_mul_of_nonneg_right c2 hw
    have w2 : (1 + u) * (1 + u) * (1 + n * (u * (1 + 2 * u))) ≤ 1 + v := by
      have : (1 + u) * (1 + u) * (1 + n * (u * (1 + 2 * u)))
          = 1 + n * u + 2 * u + u * u + (n * u) * u * 2 + (n * u) * (2 * u + u * u) * (1 + 2 * u) := by ring
      have h3 : (n * u) * (2 * u + u * u) * (1 + 2 * u) ≤ (n * u) * (3 * u) * 2 := by
        apply mul_le_mul
        · exact mul_le_mul_of_nonneg_left (by linarith) hnn
        · linarith
        · linarith
        · exact mul_nonneg hnn (by linarith)
      have h4 : v = n * u + 4 * u := by rw [hvd]; ring
      rw [this, h4]
      nlinarith
    have w3 : n * S * (1 - 2 * u) ≤ 2 * (1 + v) := by
      calc n * S * (1 - 2 * u) = n * ((1 - 2 * u) * S) := by ring
        _ ≤ _ := w1
        _ = 2 * ((1 + u) * (1 + u) * (1 + n * (u * (1 + 2 * u)))) := by ring
        _ ≤ _ := by linarith
    have hv4 : 4 * u ≤ v := by rw [hvd]; nlinarith
    -- multiply by `1 - 2 v`
    have hv0 : 0 < 1 - 2 * v := by
      by_contra hh
      have : n * S * (1 - 2 * v) ≤ 0 := mul_nonpos_of_nonneg_of_nonpos (mul_nonneg hn0 hSpos.le) (not_lt.1 hh)
      linarith
    have w4 := mul_le_mul_of_nonneg_right w3 hv0.le
    have w5 : 2 * (1 - 2 * u) < n * S * (1 - 2 * v) * (1 - 2 * u) := mul_lt_mul_of_pos_right hlt (by linarith)
    have w6 : (1 + v) * (1 - 2 * v) ≤ 1 - 2 * u := by nlinarith
    have w7 : n * S * (1 - 2 * u) * (1 - 2 * v) = n * S * (1 - 2 * v) * (1 - 2 * u) := by ring
    linarith
  · intro hlt
    rw [decide_eq_false_iff_not, not_lt]
    set v := (n + 4) * u with hvd
    have hve : (n + 4) * (2 * u) = 2 * v := by rw [hvd]; ring
    rw [hve] at hlt
    by_contra hc
    have hc := not_le.1 hc
    have hw : 0 ≤ 1 - n * (u * (1 + 2 * u)) := by
      have : n * (u * (1 + 2 * u)) = n * u + 2 * (n * u * u) := by ring
      linarith
    have w1 : 2 * (1 - u) * (1 - u) * (1 - n * (u * (1 + 2 * u))) ≤ n * ((1 + 2 * u) * S) := by
      calc 2 * (1 - u) * (1 - u) * (1 - n * (u * (1 + 2 * u))) ≤ T * s * (1 - n * (u * (1 + 2 * u))) :=
            mul_le_mul_of_nonneg_right c1 hw
        _ = T * (s * (1 - n * (u * (1 + 2 * u)))) := by ring
        _ ≤ T * ((1 + 2 * u) * S) := mul_le_mul_of_nonneg_left b2 hT
        _ ≤ _ := mul_le_mul_of_nonneg_right hc.le (mul_nonneg (by linarith) hSpos.le)
    have hv4 : v = n * u + 4 * u := by rw [hvd]; ring
    have w2 : 1 - v ≤ (1 - u) * (1 - u) * (1 - n * (u * (1 + 2 * u))) := by
      have h1 : (1 - 2 * u) ≤ (1 - u) * (1 - u) := by nlinarith
      have h2 := mul_le_mul_of_nonneg_right h1 hw
      have h3 : (1 - 2 * u) * (1 - n * (u * (1 + 2 * u))) = 1 - 2 * u - n * u + 4 * (n * u * u) * u := by ring
      have h4 : 0 ≤ 4 * (n * u * u) * u := mul_nonneg (by linarith) hu0.le
      linarith
    have w3 : 2 * (1 - v) ≤ n * S * (1 + 2 * u) := by
      calc 2 * (1 - v) ≤ 2 * ((1 - u) * (1 - u) * (1 - n * (u * (1 + 2 * u)))) := by linarith
        _ = 2 * (1 - u) * (1 - u) * (1 - n * (u * (1 + 2 * u))) := by ring
        _ ≤ _ := w1
        _ = _ := by ring
    have hv0 : 0 < 1 + 2 * v := by linarith
    have w4 := mul_le_mul_of_nonneg_right w3 hv0.le
    have w5 : n * S * (1 + 2 * v) * (1 + 2 * u) < 2 * (1 + 2 * u) := mul_lt_mul_of_pos_right hlt (by linarith)
    have hv8 : v ≤ 1 / 8 := by linarith
    have hvv : v * v ≤ 1 / 8 * v := mul_le_mul_of_nonneg_right hv8 (by linarith)
    have w6 : 1 + 2 * u ≤ (1 - v) * (1 + 2 * v) := by
      have : (1 - v) * (1 + 2 * v) = 1 + v - 2 * (v * v) := by ring
      linarith
    have w7 : n * S * (1 + 2 * u) * (1 + 2 * v) = n * S * (1 + 2 * v) * (1 + 2 * u) := by ring
    linarith

/-- Without rounding this is the exact model's decision. -/
theorem required_exact (ws : List K) : requiredF id ws = resamplingRequired (ws.map some) := by
  have e : (ws.map some).map (fun w => mulN w w) = (ws.map fun w => w * w).map some := by
    rw [List.map_map, List.map_map]; rfl
  unfold resamplingRequired requiredF
  rw [e, sum_exact, List.length_map]
  rfl

/-- Two of five particles carry all the weight: `5 · 1/2 > 2`. -/
example : requiredF rne ([0, 1 / 2, 0, 1 / 2, 0] : List ℚ) = true := by
  refine (required_rounded rne_nearest _ ?_ (by decide)
    ((two_zpow_le (show (-500 : ℤ) ≤ -1 by norm_num)).trans (by norm_num [sqSum]))).1 (by norm_num [sqSum])
  intro w hw
  fin_cases hw <;> first
    | exact ⟨isDouble_zero, le_rfl, zero_le_one⟩
    | exact ⟨isDouble_half, by norm_num, by norm_num⟩

/-- Equal weights: `2 · (1/4 + 1/4) < 2`. -/
example : requiredF rne ([1 / 2, 1 / 2] : List ℚ) = false := by
  refine (required_rounded rne_nearest _ ?_ (by decide)
    ((two_zpow_le (show (-500 : ℤ) ≤ -1 by norm_num)).trans (by norm_num [sqSum]))).2 (by norm_num [sqSum])
  intro w hw
  fin_cases hw <;> exact ⟨isDouble_half, by norm_num, by norm_num⟩

end Slam.Float
