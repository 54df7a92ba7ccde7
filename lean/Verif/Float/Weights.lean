import Verif.Float.Cells
import Verif.Particle.Model
import Mathlib.Algebra.BigOperators.Group.List.Basic
import Mathlib.Algebra.Order.BigOperators.Group.List

/-!
# Particle weights and scan scores, computed in `double`

`normalize_weights`, `resampling_is_required`, `resample` of src/core/particle_filter.h and `estimate_scan_probability` of
src/core/scan_matchers/weighted_mean_point_probability_spe.h, every operation rounded by `r`. No weight is NaN.
-/

set_option autoImplicit false
set_option linter.unusedSectionVars false

namespace Slam.Float
open Slam.Particle

variable {K : Type*} [Field K] [LinearOrder K] [IsStrictOrderedRing K] [FloorRing K]

/-- `double total = start; for (…) total += w;` — particle_filter.h:108-110, 53-62 and
weighted_mean_point_probability_spe.h:121. -/
def sumF (r : K → K) (start : K) (ws : List K) : K := ws.foldl (fun t w => r (t + w)) start

/-- `normalize_weights`, particle_filter.h:108-112. -/
def normalizeF (r : K → K) (ws : List K) : List K := ws.map fun w => r (w / sumF r 0 ws)

/-- `resampling_is_required`, particle_filter.h:34-43 (a zero sum of squares makes the count infinite: not
required). -/
def requiredF (r : K → K) (ws : List K) : Bool :=
  let s := sumF r 0 (ws.map fun w => r (w * w))
  if s = 0 then false else decide (r (r (1 / s) * 2) < (ws.length : K))

/-- The inner loop of `resample`, particle_filter.h:56-63; 0 if no partial sum exceeds the sample. -/
def pickF (r : K → K) (sample : K) : Nat → K → List K → Nat
  | _, _, [] => 0
  | j, total, w :: ws =>
    let total := r (total + w)
    if sample < total then j else pickF r sample (j + 1) total ws

/-! Without rounding these are the exact models (of weights that are no NaN). -/

theorem sum_exact (ws : List K) : sumN (ws.map some) = some (sumF id 0 ws) := by
  have key : ∀ (ws : List K) (s : K), sumF id s ws = s + ws.sum := by
    intro ws
    induction ws with
    | nil => intro s; simp [sumF]
    | cons w ws ih =>
      intro s
      have e : sumF id s (w :: ws) = sumF id (s + w) ws := rfl
      rw [e, ih, List.sum_cons, add_assoc]
  rw [key]
  induction ws with
  | nil => simp [sumN]
  | cons w ws ih =>
    have e : sumN ((w :: ws).map some) = (match some w, sumN (ws.map some) with
      | some a, some s => some (a + s)
      | _, _ => none) := rfl
    rw [e, ih]; simp

theorem pick_exact (s : K) (ws : List K) (j : Nat) (t : K) : pick s j (some t) (ws.map some) = pickF id s j t ws := by
  induction ws generalizing j t with
  | nil => rfl
  | cons w ws ih =>
    rw [List.map_cons, pick, pickF]
    simp only [id]
    by_cases h : s < t + w
    · rw [if_pos h, if_pos h]
    · rw [if_neg h, if_neg h]; exact ih _ _

section
variable {r : K → K}

/-! ## Rounded sums -/

/-- Doubles that are not negative. -/
def DNonneg (ws : List K) : Prop := ∀ w ∈ ws, IsDouble w ∧ 0 ≤ w

theorem sumF_cons (s w : K) (ws : List K) : sumF r s (w :: ws) = sumF r (r (s + w)) ws := rfl

theorem le_sumF (R : Nearest r) {ws : List K} (h : DNonneg ws) {s : K} (hs : IsDouble s) (hs0 : 0 ≤ s) :
    IsDouble (sumF r s ws) ∧ s ≤ sumF r s ws ∧ ∀ w ∈ ws, w ≤ sumF r s ws := by
  induction ws generalizing s with
  | nil => exact ⟨hs, le_rfl, by simp⟩
  | cons w ws ih =>
    have hw := h w List.mem_cons_self
    have h1 : s ≤ r (s + w) := R.ge_of_ge hs (by linarith [hw.2])
    have h2 : w ≤ r (s + w) := R.ge_of_ge hw.1 (by linarith)
    obtain ⟨a, b, c⟩ := ih (fun x hx => h x (List.mem_cons_of_mem _ hx)) (R.dbl _) (hs0.trans h1)
    rw [sumF_cons]
    refine ⟨a, h1.trans b, fun x hx => ?_⟩
    rcases List.mem_cons.1 hx with rfl | hx
    · exact h2.trans b
    · exact c x hx

/-- Normalised weights are probabilities, rounding included. -/
theorem normalize_rounded_probability (R : Nearest r) (ws : List K) (h : DNonneg ws) (hpos : ∃ w ∈ ws, 0 < w) :
    ∀ w ∈ normalizeF r ws, DProb w := by
  intro x hx
  obtain ⟨w, hw, rfl⟩ := List.mem_map.1 hx
  obtain ⟨_, _, hle⟩ := le_sumF R h isDouble_zero le_rfl
  obtain ⟨v, hv, hv0⟩ := hpos
  have hT : 0 < sumF r 0 ws := hv0.trans_le (hle v hv)
  exact ⟨R.dbl _, R.nonneg (div_nonneg (h w hw).2 hT.le), R.le_of_le isDouble_one ((div_le_one hT).2 (hle w hw))⟩

/-- The rounded sum is close to the exact one. -/
theorem sumF_err (R : Nearest r) (ws : List K) (h : DNonneg ws) (s : K) (hs : IsDouble s) (hs0 : 0 ≤ s) :
    |s + ws.sum - sumF r s ws| ≤ (ws.length : K) * (2 ^ (-53 : ℤ) * (1 + 2 * 2 ^ (-53 : ℤ)) * sumF r s ws) := by
  set u : K := 2 ^ (-53 : ℤ) with hu
  have hu0 : 0 < u := two_zpow_pos _
  have hu1 : u ≤ 1 / 4 := by
    have := two_zpow_le (K := K) (a := -53) (b := -2) (by norm_num)
    rw [hu]; refine this.trans (le_of_eq (by norm_num))
  have hrel : ∀ x y : K, IsDouble x → IsDouble y → |r (x + y) - (x + y)| ≤ u * |x + y| := fun x y => R.rel_add
  clear_value u
  induction ws generalizing s with
  | nil => simp [sumF]
  | cons w ws ih =>
    have hw := h w List.mem_cons_self
    have htl : DNonneg ws := fun x hx => h x (List.mem_cons_of_mem _ hx)
    have hr0 : 0 ≤ r (s + w) := R.nonneg (add_nonneg hs0 hw.2)
    have hi := ih htl (r (s + w)) (R.dbl _) hr0
    rw [sumF_cons, List.sum_cons, List.length_cons]
    obtain ⟨_, hle, _⟩ := le_sumF R htl (R.dbl (s + w)) hr0
    have e1 := hrel s w hs hw.1
    rw [abs_of_nonneg (add_nonneg hs0 hw.2)] at e1
    have e2 : |s + w - r (s + w)| ≤ u * (1 + 2 * u) * sumF r (r (s + w)) ws := by
      rw [abs_sub_comm] at e1
      refine e1.trans ?_
      have h3 := (abs_le.1 e1).2
      -- r x ≥ (1 - u) x, hence x ≤ (1 + 2 u) r x
      have h4 : (1 - u) * (s + w) ≤ r (s + w) := by linarith
      have h5 : s + w ≤ (1 + 2 * u) * r (s + w) := by
        have : s + w ≤ (1 + 2 * u) * ((1 - u) * (s + w)) := by
          have : (1 + 2 * u) * (1 - u) ≥ 1 := by nlinarith [mul_nonneg hu0.le (by linarith : 0 ≤ 1 - 2 * u)]
          nlinarith [add_nonneg hs0 hw.2]
        exact this.trans (mul_le_mul_of_nonneg_left h4 (by linarith))
      calc u * (s + w) ≤ u * ((1 + 2 * u) * r (s + w)) := mul_le_mul_of_nonneg_left h5 hu0.le
        _ ≤ u * ((1 + 2 * u) * sumF r (r (s + w)) ws) :=
          mul_le_mul_of_nonneg_left (mul_le_mul_of_nonneg_left hle (by linarith)) hu0.le
        _ = _ := by ring
    have e3 : s + (w + ws.sum) - sumF r (r (s + w)) ws = (s + w - r (s + w)) + (r (s + w) + ws.sum - sumF r (r (s + w)) ws) := by ring
    rw [e3]
    refine (abs_add_le _ _).trans ?_
    push_cast
    linarith

/-- The sum of the rounded weights is one up to one unit of 2^-52 per particle (for at most 2^50 particles). -/
theorem normalize_rounded_sum (R : Nearest r) (ws : List K) (h : DNonneg ws) (hpos : ∃ w ∈ ws, 0 < w)
    (hn : ws.length ≤ 2 ^ 50) : |(normalizeF r ws).sum - 1| ≤ ((ws.length : K) + 1) * 2 ^ (-52 : ℤ) := by
  obtain ⟨_, _, hle⟩ := le_sumF R h isDouble_zero le_rfl
  obtain ⟨v, hv, hv0⟩ := hpos
  have hT : 0 < sumF r 0 ws := hv0.trans_le (hle v hv)
  have hS := sumF_err R ws h 0 isDouble_zero le_rfl
  set T := sumF r 0 ws with hTd
  set u : K := 2 ^ (-53 : ℤ) with hu
  have hu0 : 0 < u := two_zpow_pos _
  have hu2 : (2 : K) ^ (-52 : ℤ) = 2 * u := by rw [hu, show (-52 : ℤ) = 1 + -53 by norm_num, zpow_add₀ (by norm_num), zpow_one]
  have hn8 : (ws.length : K) * u ≤ 1 / 8 := by
    have : (ws.length : K) ≤ 2 ^ 50 := by exact_mod_cast hn
    calc (ws.length : K) * u ≤ 2 ^ 50 * u := mul_le_mul_of_nonneg_right this hu0.le
      _ = 1 / 8 := by rw [hu]; norm_num
  have hu8 : u ≤ 1 / 8 := by rw [hu]; norm_num
  have hn0 : (0 : K) ≤ ws.length := by positivity
  -- errors of the quotients
  have q : ∀ l : List K, (∀ w ∈ l, 0 ≤ w) → |(l.map fun w => r (w / T)).sum - l.sum / T| ≤ u * (l.sum / T) + (l.length : K) * (u * 2 ^ (-1022 : ℤ)) := by
    intro l
    induction l with
    | nil => intro _; simp
    | cons w l ih =>
      intro hl
      have hw0 := hl w List.mem_cons_self
      have hi := ih fun x hx => hl x (List.mem_cons_of_mem _ hx)
      have hwT : 0 ≤ w / T := div_nonneg hw0 hT.le
      have e := R.err_mul (x := w / T) (B := w / T + 2 ^ (-1022 : ℤ)) (by linarith) (by rw [abs_of_nonneg hwT]; linarith [two_zpow_pos (K := K) (-1022)])
      rw [List.map_cons, List.sum_cons, List.sum_cons, List.length_cons, add_div]
      have : r (w / T) + (l.map fun w => r (w / T)).sum - (w / T + l.sum / T) =
          (r (w / T) - w / T) + ((l.map fun w => r (w / T)).sum - l.sum / T) := by ring
      rw [this]
      refine (abs_add_le _ _).trans ?_
      push_cast
      linarith
  have q1 := q ws fun w hw => (h w hw).2
  change |(ws.map fun w => r (w / T)).sum - 1| ≤ _
  have tiny : (2 : K) ^ (-1022 : ℤ) ≤ 1 / 8 := by
    have := two_zpow_le (K := K) (a := -1022) (b := -3) (by norm_num)
    refine this.trans (le_of_eq (by norm_num))
  have hST : |ws.sum / T - 1| ≤ (ws.length : K) * (u * (1 + 2 * u)) := by
    have : ws.sum / T - 1 = (0 + ws.sum - T) / T := by field_simp; ring
    rw [this, abs_div, abs_of_pos hT, div_le_iff₀ hT]
    refine hS.trans (le_of_eq (by ring))
  have hST' := (abs_le.1 hST).2
  have split : (ws.map fun w => r (w / T)).sum - 1 = ((ws.map fun w => r (w / T)).sum - ws.sum / T) + (ws.sum / T - 1) := by ring
  rw [split, hu2]
  refine (abs_add_le _ _).trans ?_
  refine (add_le_add q1 hST).trans ?_
  have b1 : (ws.length : K) * (u * (1 + 2 * u)) ≤ (ws.length : K) * u * (5 / 4) := by nlinarith [mul_nonneg hn0 hu0.le]
  have b2 : ws.sum / T ≤ 1 + 5 / 32 := by linarith
  have b3 : u * (ws.sum / T) ≤ u * (1 + 5 / 32) := mul_le_mul_of_nonneg_left b2 hu0.le
  have b4 : (ws.length : K) * (u * 2 ^ (-1022 : ℤ)) ≤ (ws.length : K) * u * (1 / 8) := by nlinarith [mul_nonneg hn0 hu0.le]
  nlinarith [mul_nonneg hn0 hu0.le]

/-! ## Picking a particle -/

/-- The loop picks a particle of positive weight if the sample lies below the rounded sum. -/
theorem pickF_alive (R : Nearest r) (sample : K) (ws : List K) (h : DNonneg ws) (hs0 : 0 ≤ sample)
    (hs : sample < sumF r 0 ws) : ∃ w, ws[pickF r sample 0 0 ws]? = some w ∧ 0 < w := by
  have key : ∀ (ws : List K) (j : Nat) (t : K), DNonneg ws → IsDouble t → 0 ≤ t → t ≤ sample → sample < sumF r t ws →
      ∃ i w, pickF r sample j t ws = j + i ∧ ws[i]? = some w ∧ 0 < w := by
    intro ws
    induction ws with
    | nil => intro j t _ _ _ h1 h2; exact absurd h2 (not_lt.2 h1)
    | cons w ws ih =>
      intro j t hd ht ht0 h1 h2
      have hw := hd w List.mem_cons_self
      rw [pickF]
      by_cases hc : sample < r (t + w)
      · refine ⟨0, w, by rw [if_pos hc]; rfl, rfl, ?_⟩
        by_contra hn
        have hw0 : w = 0 := le_antisymm (not_lt.1 hn) hw.2
        rw [hw0, add_zero, R.fix ht] at hc
        exact absurd hc (not_lt.2 h1)
      · obtain ⟨i, w', e, g, p⟩ := ih (j + 1) (r (t + w)) (fun x hx => hd x (List.mem_cons_of_mem _ hx)) (R.dbl _)
          (R.nonneg (add_nonneg ht0 hw.2)) (not_lt.1 hc) h2
        refine ⟨i + 1, w', ?_, by simpa using g, p⟩
        rw [if_neg hc, e]; omega
  obtain ⟨i, w, e, g, p⟩ := key ws 0 0 h isDouble_zero le_rfl hs0 hs
  refine ⟨w, ?_, p⟩
  rw [e, zero_add]; exact g

/-- Otherwise it picks the first particle, whatever its weight. -/
theorem pickF_first (R : Nearest r) (sample : K) (ws : List K) (h : DNonneg ws) (hs : sumF r 0 ws ≤ sample) :
    pickF r sample 0 0 ws = 0 := by
  have key : ∀ (ws : List K) (j : Nat) (t : K), DNonneg ws → IsDouble t → 0 ≤ t → sumF r t ws ≤ sample →
      pickF r sample j t ws = 0 := by
    intro ws
    induction ws with
    | nil => intros; rfl
    | cons w ws ih =>
      intro j t hd ht ht0 h2
      have hw := hd w List.mem_cons_self
      have htl : DNonneg ws := fun x hx => hd x (List.mem_cons_of_mem _ hx)
      have hr0 := R.nonneg (add_nonneg ht0 hw.2)
      rw [pickF]
      have : r (t + w) ≤ sample := (le_sumF R htl (R.dbl _) hr0).2.1.trans h2
      rw [if_neg (not_lt.2 this)]
      exact ih _ _ htl (R.dbl _) hr0 h2
  exact key ws 0 0 h isDouble_zero le_rfl hs

/-- The rounded sum of normalised weights is close to one, so only samples within `(n + 1) 2^-51` of one are
affected. -/
theorem normalized_pick_alive (R : Nearest r) (ws : List K) (h : DNonneg ws) (hpos : ∃ w ∈ ws, 0 < w)
    (hn : ws.length ≤ 2 ^ 49) (sample : K) (hs0 : 0 ≤ sample) (hs : sample < 1 - ((ws.length : K) + 1) * 2 ^ (-51 : ℤ)) :
    ∃ w, (normalizeF r ws)[pickF r sample 0 0 (normalizeF r ws)]? = some w ∧ 0 < w := by
  have hp := normalize_rounded_probability R ws h hpos
  have hd : DNonneg (normalizeF r ws) := fun w hw => ⟨(hp w hw).1, (hp w hw).2.1⟩
  refine pickF_alive R sample _ hd hs0 ?_
  have h1 := normalize_rounded_sum R ws h hpos (by omega)
  have h2 := sumF_err R (normalizeF r ws) hd 0 isDouble_zero le_rfl
  have hlen : (normalizeF r ws).length = ws.length := by simp [normalizeF]
  rw [hlen, zero_add] at h2
  set T := sumF r 0 (normalizeF r ws)
  set S := (normalizeF r ws).sum
  set u : K := 2 ^ (-53 : ℤ) with hu
  have hu0 : 0 < u := two_zpow_pos _
  have hu2 : (2 : K) ^ (-52 : ℤ) = 2 * u := by rw [hu, show (-52 : ℤ) = 1 + -53 by norm_num, zpow_add₀ (by norm_num), zpow_one]
  have hu4 : (2 : K) ^ (-51 : ℤ) = 4 * u := by rw [hu]; norm_num
  rw [hu2] at h1; rw [hu4] at hs
  have hn0 : (0 : K) ≤ ws.length := by positivity
  have hn8 : (ws.length : K) * u ≤ 1 / 16 := by
    have : (ws.length : K) ≤ 2 ^ 49 := by exact_mod_cast hn
    calc (ws.length : K) * u ≤ 2 ^ 49 * u := mul_le_mul_of_nonneg_right this hu0.le
      _ = 1 / 16 := by rw [hu]; norm_num
  have hu8 : u ≤ 1 / 16 := by rw [hu]; norm_num
  have h1' := (abs_le.1 h1).1
  have h1'' := (abs_le.1 h1).2
  have h2' := (abs_le.1 h2).2
  have h2'' := (abs_le.1 h2).1
  clear_value u
  -- S ≥ 1 - 2 (n + 1) u, S - T ≤ n u (1 + 2u) T
  by_contra hc
  have hc := not_lt.1 hc
  have hT0 : 0 ≤ T := (le_sumF R hd isDouble_zero le_rfl).2.1
  have hnu : (ws.length : K) * (u * (1 + 2 * u) * T) ≤ (ws.length : K) * u * (9 / 8) * T := by
    have : (1 + 2 * u) ≤ 9 / 8 := by linarith
    have h3 : 0 ≤ (ws.length : K) * u * T := by positivity
    nlinarith
  have hN : 0 ≤ (ws.length : K) * u := mul_nonneg hn0 hu0.le
  have r1 : ((ws.length : K) + 1) * (4 * u) = 4 * ((ws.length : K) * u) + 4 * u := by ring
  have r2 : ((ws.length : K) + 1) * (2 * u) = 2 * ((ws.length : K) * u) + 2 * u := by ring
  rw [r1] at hs; rw [r2] at h1'
  have hT1 : T ≤ 1 := by linarith
  have hNT : (ws.length : K) * u * (9 / 8) * T ≤ (ws.length : K) * u * (9 / 8) :=
    mul_le_of_le_one_right (by linarith) hT1
  linarith

/-! ## Scores -/

/-- The loop of `estimate_scan_probability`, weighted_mean_point_probability_spe.h:107-126: for each point the
probability of its observation, its weight and its factor; the two running sums. -/
def scoreLoopF (r : K → K) : K → K → List (K × K × K) → K × K
  | tp, tw, [] => (tp, tw)
  | tp, tw, (p, w, f) :: ps => scoreLoopF r (r (tp + r (r (p * w) * f))) (r (tw + w)) ps

/-- `total_probability / total_weight`, weighted_mean_point_probability_spe.h:127-132; `none` is the unknown
probability. -/
def scoreF (r : K → K) (ps : List (K × K × K)) : Option K :=
  let t := scoreLoopF r 0 0 ps
  if t.2 = 0 then none else some (r (t.1 / t.2))

/-- The score of a scan is a probability, rounding included. -/
theorem score_rounded_probability (R : Nearest r) (ps : List (K × K × K))
    (h : ∀ p ∈ ps, (0 ≤ p.1 ∧ p.1 ≤ 1) ∧ (IsDouble p.2.1 ∧ 0 ≤ p.2.1) ∧ (0 ≤ p.2.2 ∧ p.2.2 ≤ 1)) (v : K)
    (hv : scoreF r ps = some v) : DProb v := by
  have key : ∀ (ps : List (K × K × K)) (tp tw : K),
      (∀ p ∈ ps, (0 ≤ p.1 ∧ p.1 ≤ 1) ∧ (IsDouble p.2.1 ∧ 0 ≤ p.2.1) ∧ (0 ≤ p.2.2 ∧ p.2.2 ≤ 1)) → 0 ≤ tp → tp ≤ tw →
      0 ≤ (scoreLoopF r tp tw ps).1 ∧ (scoreLoopF r tp tw ps).1 ≤ (scoreLoopF r tp tw ps).2 := by
    intro ps
    induction ps with
    | nil => intro tp tw _ h0 h1; exact ⟨h0, h1⟩
    | cons q ps ih =>
      obtain ⟨p, w, f⟩ := q
      intro tp tw h h0 h1
      obtain ⟨⟨hp0, hp1⟩, ⟨hwd, hw0⟩, hf0, hf1⟩ := h (p, w, f) List.mem_cons_self
      simp only at hp0 hp1 hwd hw0 hf0 hf1
      have a0 : 0 ≤ r (p * w) := R.nonneg (mul_nonneg hp0 hw0)
      have a1 : r (p * w) ≤ w := R.le_of_le hwd (mul_le_of_le_one_left hw0 hp1)
      have b0 : 0 ≤ r (r (p * w) * f) := R.nonneg (mul_nonneg a0 hf0)
      have b1 : r (r (p * w) * f) ≤ w := R.le_of_le hwd ((mul_le_of_le_one_right a0 hf1).trans a1)
      exact ih _ _ (fun x hx => h x (List.mem_cons_of_mem _ hx)) (R.nonneg (add_nonneg h0 b0)) (R.mono (add_le_add h1 b1))
  obtain ⟨k0, k1⟩ := key ps 0 0 h le_rfl le_rfl
  unfold scoreF at hv
  simp only at hv
  by_cases hz : (scoreLoopF r 0 0 ps).2 = 0
  · rw [if_pos hz] at hv; cases hv
  · rw [if_neg hz] at hv
    obtain rfl := Option.some.inj hv
    have hpos : 0 < (scoreLoopF r 0 0 ps).2 := lt_of_le_of_ne (k0.trans k1) (Ne.symm hz)
    exact ⟨R.dbl _, R.nonneg (div_nonneg k0 hpos.le), R.le_of_le isDouble_one ((div_le_one hpos).2 k1)⟩

end

/-! ## The first particle may be a dead one -/

/-- Fifteen particles whose scans were impossible and ten whose scans were certain. -/
def demoWeights : List ℚ := List.replicate 15 0 ++ List.replicate 10 1

theorem demoWeights_ok : DNonneg demoWeights ∧ ∃ w ∈ demoWeights, 0 < w := by
  constructor
  · intro w hw
    rcases List.mem_append.1 hw with h | h
    · rw [List.eq_of_mem_replicate h]; exact ⟨isDouble_zero, le_rfl⟩
    · rw [List.eq_of_mem_replicate h]; exact ⟨isDouble_one, zero_le_one⟩
  · exact ⟨1, by simp [demoWeights], one_pos⟩

/-- With the weights of `demoWeights` (normalised by the program) resampling is required, and the sample `1 - 2^-53`,
a double below one, makes the program keep particle 0, whose weight is zero: ten times one tenth is less than one. -/
theorem dead_particle_counterexample :
    requiredF rne (normalizeF rne demoWeights) = true ∧ IsDouble (1 - 2 ^ (-53 : ℤ) : ℚ) ∧ (1 - 2 ^ (-53 : ℤ) : ℚ) < 1 ∧
      pickF rne (1 - 2 ^ (-53 : ℤ)) 0 0 (normalizeF rne demoWeights) = 0 ∧
      (normalizeF rne demoWeights)[0]? = some 0 := by
  refine ⟨by decide +kernel, ⟨2 ^ 53 - 1, -53, by norm_num, by norm_num, by norm_num⟩, by norm_num, by decide +kernel,
    by decide +kernel⟩

example : ∀ w ∈ normalizeF rne demoWeights, DProb w :=
  normalize_rounded_probability rne_nearest _ demoWeights_ok.1 demoWeights_ok.2

end Slam.Float
