import Verif.Float.Weights
import Verif.Score.Props

/-!
# C75: the scan score, computed in `double`, against the weighted mean
-/

set_option autoImplicit false
set_option linter.unusedSectionVars false

namespace Slam.Float
open Slam.Grid Slam.Sensor

variable {K : Type*} [Field K] [LinearOrder K] [IsStrictOrderedRing K] [FloorRing K]

/-! ## The link to the exact model -/

theorem scoreLoop_exact (oope : Point ℝ → Bounds ℝ → Option ℝ) (weight : Nat → Option ℝ) (params : Score.Params)
    (pose : Score.Pose) (pts : List ScanPoint) : ∀ (i : Nat) (t : Score.Totals) (ps : List (ℝ × ℝ × ℝ)),
      ps.length = pts.length →
      (∀ j sp q, pts[j]? = some sp → ps[j]? = some q →
        oope (Score.obstacleOf params pose sp) (Rect.moveCenter params.area (Score.obstacleOf params pose sp)) = some q.1 ∧
          weight (i + j) = some q.2.1 ∧ sp.factor = q.2.2) →
      Score.scoreLoop oope weight params pose i t pts =
        some ⟨(scoreLoopF id t.prob t.weight ps).1, (scoreLoopF id t.prob t.weight ps).2⟩ := by
  induction pts with
  | nil =>
    intro i t ps hl _
    match ps, hl with
    | [], _ => rfl
  | cons sp pts ih =>
    intro i t ps hl h
    match ps, hl with
    | q :: ps, hl =>
      obtain ⟨h1, h2, h3⟩ := h 0 sp q rfl rfl
      rw [Score.scoreLoop]
      simp only [h1, Option.bind_some]
      rw [show i + 0 = i from rfl] at h2
      rw [h2, Option.bind_some, ih (i + 1) _ ps (by simpa using hl)]
      · obtain ⟨p, w, f⟩ := q
        simp only [scoreLoopF, id, h3]
      · intro j sp' q' hj hq
        have := h (j + 1) sp' q' hj hq
        rwa [show i + (j + 1) = i + 1 + j by omega] at this

/-- Without rounding, the model of this file is the exact model of the estimator. -/
theorem score_exact (oope : Point ℝ → Bounds ℝ → Option ℝ) (spw : Score.Spw) (params : Score.Params)
    (pose : Score.Pose) (pts : List ScanPoint) (ps : List (ℝ × ℝ × ℝ)) (hl : ps.length = pts.length)
    (h : ∀ j sp q, pts[j]? = some sp → ps[j]? = some q →
      oope (Score.obstacleOf params pose sp) (Rect.moveCenter params.area (Score.obstacleOf params pose sp)) = some q.1 ∧
        spw.weight pts j = some q.2.1 ∧ sp.factor = q.2.2) :
    Score.estimate oope spw params pose pts = some (scoreF id ps) := by
  unfold Score.estimate scoreF
  rw [scoreLoop_exact oope (spw.weight pts) params pose pts 0 ⟨0, 0⟩ ps hl (by simpa using h)]
  simp

/-! ## Accuracy -/

/-- The weighted mean `Σ p·w·f / Σ w`. -/
def meanOf (ps : List (K × K × K)) : K := (ps.map fun q => q.1 * q.2.1 * q.2.2).sum / (ps.map fun q => q.2.1).sum

/-- Points as the estimator meets them: probabilities and factors in [0, 1], weights that are doubles and zero or not
smaller than the least normal number. -/
def GoodPoints (ps : List (K × K × K)) : Prop :=
  ∀ q ∈ ps, (0 ≤ q.1 ∧ q.1 ≤ 1) ∧ (IsDouble q.2.1 ∧ (q.2.1 = 0 ∨ 2 ^ (-1022 : ℤ) ≤ q.2.1)) ∧ (0 ≤ q.2.2 ∧ q.2.2 ≤ 1)

section
variable {r : K → K}

theorem GoodPoints.weight_nonneg {ps : List (K × K × K)} (h : GoodPoints ps) : ∀ q ∈ ps, 0 ≤ q.2.1 := by
  intro q hq
  rcases (h q hq).2.1.2 with h | h
  · exact h.ge
  · exact (two_zpow_pos (K := K) (-1022)).le.trans h

/-- One term of the sum. -/
theorem term_err (R : Nearest r) {p w f : K} (hp : 0 ≤ p ∧ p ≤ 1) (hd : IsDouble w) (hw : w = 0 ∨ 2 ^ (-1022 : ℤ) ≤ w)
    (hf : 0 ≤ f ∧ f ≤ 1) : (0 ≤ r (r (p * w) * f) ∧ r (r (p * w) * f) ≤ w) ∧
    |r (r (p * w) * f) - p * w * f| ≤ 2 * (2 ^ (-53 : ℤ) * w) := by
  rcases hw with rfl | hw
  · simp [R.fix isDouble_zero]
  · have hw0 : 0 < w := lt_of_lt_of_le (two_zpow_pos _) hw
    have hpw0 : 0 ≤ p * w := mul_nonneg hp.1 hw0.le
    have hpw1 : p * w ≤ w := mul_le_of_le_one_left hw0.le hp.2
    have e1 := R.err_mul (x := p * w) (B := w) hw (by rw [abs_of_nonneg hpw0]; exact hpw1)
    have a0 : 0 ≤ r (p * w) := R.nonneg hpw0
    have a1 : r (p * w) ≤ w := R.le_of_le hd hpw1
    have b0 : 0 ≤ r (p * w) * f := mul_nonneg a0 hf.1
    have b1 : r (p * w) * f ≤ w := (mul_le_of_le_one_right a0 hf.2).trans a1
    have e2 := R.err_mul (x := r (p * w) * f) (B := w) hw (by rw [abs_of_nonneg b0]; exact b1)
    refine ⟨⟨R.nonneg b0, R.le_of_le hd b1⟩, ?_⟩
    have e3 : |r (p * w) * f - p * w * f| ≤ 2 ^ (-53 : ℤ) * w := by
      rw [← sub_mul, abs_mul, abs_of_nonneg hf.1]
      exact (mul_le_of_le_one_right (abs_nonneg _) hf.2).trans e1
    have := abs_add_le (r (r (p * w) * f) - r (p * w) * f) (r (p * w) * f - p * w * f)
    rw [sub_add_sub_cancel] at this
    linarith

/-- The running sum of the products, against the exact sum, measured by the running sum of the weights. -/
theorem loop_err (R : Nearest r) (ps : List (K × K × K)) (h : GoodPoints ps) : ∀ (tp tw x : K) (k : Nat),
    IsDouble tp → 0 ≤ tp → IsDouble tw → tp ≤ tw → |tp - x| ≤ 4 * (k : K) * (2 ^ (-53 : ℤ) * tw) →
    (scoreLoopF r tp tw ps).2 = sumF r tw (ps.map fun q => q.2.1) ∧
    0 ≤ (scoreLoopF r tp tw ps).1 ∧ (scoreLoopF r tp tw ps).1 ≤ (scoreLoopF r tp tw ps).2 ∧
    |(scoreLoopF r tp tw ps).1 - (x + (ps.map fun q => q.1 * q.2.1 * q.2.2).sum)| ≤
      4 * ((k + ps.length : Nat) : K) * (2 ^ (-53 : ℤ) * (scoreLoopF r tp tw ps).2) := by
  induction ps with
  | nil =>
    intro tp tw x k _ h0 _ h1 h2
    simp only [scoreLoopF, List.map_nil, List.sum_nil, add_zero, List.length_nil]
    exact ⟨rfl, h0, h1, h2⟩
  | cons q ps ih =>
    obtain ⟨p, w, f⟩ := q
    intro tp tw x k hd h0 hdw h1 h2
    obtain ⟨hp, ⟨hwd, hw⟩, hf⟩ := h (p, w, f) List.mem_cons_self
    simp only at hp hwd hw hf
    have hw0 : 0 ≤ w := h.weight_nonneg (p, w, f) List.mem_cons_self
    obtain ⟨⟨t0, t1⟩, te⟩ := term_err R hp hwd hw hf
    have hdt : IsDouble (r (r (p * w) * f)) := R.dbl _
    simp only [scoreLoopF, List.map_cons, List.sum_cons, List.length_cons]
    rw [sumF_cons]
    have e1 := R.rel_add hd hdt
    have e2 := R.rel_add hdw hwd
    generalize r (r (p * w) * f) = t at *
    rw [abs_of_nonneg (add_nonneg h0 t0)] at e1
    have htw0 : 0 ≤ tw := h0.trans h1
    rw [abs_of_nonneg (add_nonneg htw0 hw0)] at e2
    have g0 : 0 ≤ r (tp + t) := R.nonneg (add_nonneg h0 t0)
    have g1 : r (tp + t) ≤ r (tw + w) := R.mono (add_le_add h1 t1)
    have g2 : tw ≤ r (tw + w) := R.ge_of_ge hdw (by linarith)
    have g3 : w ≤ r (tw + w) := R.ge_of_ge hwd (by linarith)
    have hu0 := two_zpow_pos (K := K) (-53)
    have hu1 : (2 : K) ^ (-53 : ℤ) ≤ 1 / 4 := by
      have := two_zpow_le (K := K) (a := -53) (b := -2) (by norm_num)
      exact this.trans (le_of_eq (by norm_num))
    have step : |r (tp + t) - (x + p * w * f)| ≤ 4 * ((k + 1 : Nat) : K) * (2 ^ (-53 : ℤ) * r (tw + w)) := by
      push_cast
      generalize (2 : K) ^ (-53 : ℤ) = u at *
      have hk0 : (0 : K) ≤ k := Nat.cast_nonneg _
      have m1 : 4 * (k : K) * (u * tw) ≤ 4 * (k : K) * (u * r (tw + w)) :=
        mul_le_mul_of_nonneg_left (mul_le_mul_of_nonneg_left g2 hu0.le) (by linarith)
      have m2 : u * w ≤ u * r (tw + w) := mul_le_mul_of_nonneg_left g3 hu0.le
      have m3 : u * (tp + t) ≤ u * (tw + w) := mul_le_mul_of_nonneg_left (by linarith) hu0.le
      have m4 : tw + w ≤ 2 * r (tw + w) := by
        have := (abs_le.1 e2).1
        have : u * (tw + w) ≤ 1 / 4 * (tw + w) := mul_le_mul_of_nonneg_right hu1 (by linarith)
        linarith
      have m5 : u * (tw + w) ≤ u * (2 * r (tw + w)) := mul_le_mul_of_nonneg_left m4 hu0.le
      have a1 := abs_le.1 h2
      have a2 := abs_le.1 te
      have a3 := abs_le.1 e1
      rw [abs_le]; constructor <;> linarith [a1.1, a1.2, a2.1, a2.2, a3.1, a3.2]
    obtain ⟨i1, i2, i3, i4⟩ := ih (fun q hq => h q (List.mem_cons_of_mem _ hq)) (r (tp + t)) (r (tw + w)) (x + p * w * f) (k + 1)
      (R.dbl _) g0 (R.dbl _) g1 step
    refine ⟨i1, i2, i3, ?_⟩
    rw [show k + (ps.length + 1) = k + 1 + ps.length by omega]
    rw [show x + (p * w * f + (ps.map fun q => q.1 * q.2.1 * q.2.2).sum) =
      x + p * w * f + (ps.map fun q => q.1 * q.2.1 * q.2.2).sum by ring]
    exact i4

/-- **C75, accuracy.** The score computed differs from the weighted mean by at most 7·n·2^-53 for n points, n up to 2^49. -/
theorem score_rounded_accuracy (R : Nearest r) (ps : List (K × K × K)) (h : GoodPoints ps) (hn : ps.length ≤ 2 ^ 49) (v : K)
    (hv : scoreF r ps = some v) : |v - meanOf ps| ≤ 7 * (ps.length : K) * 2 ^ (-53 : ℤ) := by
  obtain ⟨l1, l2, l3, l4⟩ := loop_err R ps h 0 0 0 0 isDouble_zero le_rfl isDouble_zero le_rfl (by simp)
  have hds : DNonneg (ps.map fun q => q.2.1) := by
    intro w hw
    obtain ⟨q, hq, rfl⟩ := List.mem_map.1 hw
    exact ⟨(h q hq).2.1.1, h.weight_nonneg q hq⟩
  have hse := sumF_err R (ps.map fun q => q.2.1) hds 0 isDouble_zero le_rfl
  rw [← l1, List.length_map, zero_add] at hse
  rw [zero_add, Nat.zero_add] at l4
  unfold scoreF at hv
  simp only at hv
  have hps : 0 < ps.length := by
    cases ps with
    | nil => simp [scoreLoopF] at hv
    | cons q ps => simp
  have hX : 0 ≤ (ps.map fun q => q.1 * q.2.1 * q.2.2).sum ∧
      (ps.map fun q => q.1 * q.2.1 * q.2.2).sum ≤ (ps.map fun q => q.2.1).sum := by
    clear l1 l2 l3 l4 hse hv hn hps hds
    induction ps with
    | nil => simp
    | cons q ps ih =>
      obtain ⟨i1, i2⟩ := ih (fun q hq => h q (List.mem_cons_of_mem _ hq))
      have hq := h q List.mem_cons_self
      have hw0 := h.weight_nonneg q List.mem_cons_self
      have a0 : 0 ≤ q.1 * q.2.1 := mul_nonneg hq.1.1 hw0
      have a1 : q.1 * q.2.1 ≤ q.2.1 := mul_le_of_le_one_left hw0 hq.1.2
      have b0 : 0 ≤ q.1 * q.2.1 * q.2.2 := mul_nonneg a0 hq.2.2.1
      have b1 : q.1 * q.2.1 * q.2.2 ≤ q.1 * q.2.1 := mul_le_of_le_one_right a0 hq.2.2.2
      simp only [List.map_cons, List.sum_cons]
      exact ⟨add_nonneg b0 i1, add_le_add (b1.trans a1) i2⟩
  unfold meanOf
  generalize (ps.map fun q => q.1 * q.2.1 * q.2.2).sum = X at *
  generalize (ps.map fun q => q.2.1).sum = Y at *
  generalize (scoreLoopF r 0 0 ps).1 = P at *
  generalize (scoreLoopF r 0 0 ps).2 = W at *
  by_cases hz : W = 0
  · rw [if_pos hz] at hv; cases hv
  rw [if_neg hz] at hv
  obtain rfl := Option.some.inj hv
  have hW : 0 < W := lt_of_le_of_ne (l2.trans l3) (Ne.symm hz)
  have hN : (1 : K) ≤ (ps.length : K) := by exact_mod_cast hps
  have hN2 : (ps.length : K) ≤ 2 ^ 49 := by exact_mod_cast hn
  have q0 : 0 ≤ P / W := div_nonneg l2 hW.le
  have q1 : P / W ≤ 1 := (div_le_one hW).2 l3
  have er := R.err_mul (x := P / W) (B := 1) (by
    have := two_zpow_le (K := K) (a := -1022) (b := 0) (by norm_num)
    simpa using this) (by rw [abs_of_nonneg q0]; exact q1)
  rw [mul_one] at er
  have hNu : (ps.length : K) * 2 ^ (-53 : ℤ) ≤ 1 / 16 := by
    have := mul_le_mul_of_nonneg_right hN2 (two_zpow_pos (K := K) (-53)).le
    exact this.trans (le_of_eq (by norm_num))
  have hu0 := two_zpow_pos (K := K) (-53)
  have hu1 : (2 : K) ^ (-53 : ℤ) ≤ 1 / 16 := by
    have := two_zpow_le (K := K) (a := -53) (b := -4) (by norm_num)
    exact this.trans (le_of_eq (by norm_num))
  clear l1 hn hN2
  generalize (2 : K) ^ (-53 : ℤ) = u at *
  generalize (ps.length : K) = N at *
  -- the exact total is positive
  have hb : |Y - W| ≤ 9 / 8 * (N * u) * W := by
    refine hse.trans ?_
    have h1 : u * (1 + 2 * u) * W ≤ u * (9 / 8) * W :=
      mul_le_mul_of_nonneg_right (mul_le_mul_of_nonneg_left (by linarith) hu0.le) hW.le
    calc N * (u * (1 + 2 * u) * W) ≤ N * (u * (9 / 8) * W) := mul_le_mul_of_nonneg_left h1 (by linarith)
      _ = _ := by ring
  have hb' := abs_le.1 hb
  have hNuW : N * u * W ≤ 1 / 16 * W := mul_le_mul_of_nonneg_right hNu hW.le
  have hY : 0 < Y := by linarith [hb'.1]
  have key : |P / W - X / Y| ≤ 4 * (N * u) + 9 / 8 * (N * u) := by
    have e : P / W - X / Y = (P - X) / W + X / Y * ((Y - W) / W) := by field_simp; ring
    rw [e]
    refine (abs_add_le _ _).trans (add_le_add ?_ ?_)
    · rw [abs_div, abs_of_pos hW, div_le_iff₀ hW]
      refine l4.trans (le_of_eq (by ring))
    · rw [abs_mul, abs_div (Y - W), abs_of_pos hW, abs_of_nonneg (div_nonneg hX.1 hY.le)]
      have h1 : |Y - W| / W ≤ 9 / 8 * (N * u) := by rw [div_le_iff₀ hW]; exact hb
      have h2 : X / Y ≤ 1 := (div_le_one hY).2 hX.2
      exact (mul_le_of_le_one_left (div_nonneg (abs_nonneg _) hW.le) h2).trans h1
  have k := abs_le.1 key
  have er' := abs_le.1 er
  have hNu1 : u ≤ N * u := le_mul_of_one_le_left hu0.le hN
  rw [abs_le]; constructor <;> linarith [k.1, k.2, er'.1, er'.2]

end

/-- Not vacuous. -/
example : GoodPoints [((3 / 4 : ℚ), (1 / 2, 1)), (1, (1 / 4, 1 / 2))] := by
  have hm : (2 : ℚ) ^ (-1022 : ℤ) ≤ 1 / 4 :=
    (two_zpow_le (K := ℚ) (a := -1022) (b := -2) (by norm_num)).trans (by norm_num)
  intro q hq
  simp only [List.mem_cons, List.not_mem_nil, or_false] at hq
  rcases hq with rfl | rfl
  · exact ⟨by norm_num, ⟨isDouble_half, Or.inr (hm.trans (by norm_num))⟩, by norm_num⟩
  · exact ⟨by norm_num, ⟨⟨1, -2, by norm_num, by norm_num, by norm_num⟩, Or.inr hm⟩, by norm_num⟩

end Slam.Float
