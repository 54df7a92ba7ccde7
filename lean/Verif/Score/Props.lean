import Verif.Score.Hist
import Verif.Sensor.Props
import Verif.Rect.Raster
import Verif.Rect.Props
import Mathlib.Algebra.BigOperators.Group.List.Basic
import Mathlib.Algebra.Order.BigOperators.Group.List

/-!
# C33: the scan score is a weighted mean
-/

set_option autoImplicit false

namespace Slam.Score
open Slam.Grid Slam.Rect Slam.Sensor

/-! ## Specification -/

/-- A point that takes part in the score: number `i` of the raw scan is a multiple of the skip rate (if there is one),
the point is an obstacle, within the usable range (if there is one), and — seen from the pose — in a cell of the
map. The range test is the code's tolerant one. -/
def Usable (cfg : Cfg) (scale : ℝ) (hasCell : Coord → Bool) (pose : Pose) (i : Nat) (p : ScanPoint) : Prop :=
  (cfg.skipRate = 0 ∨ cfg.skipRate ∣ i) ∧ p.occupied = true ∧
  ¬ (0 < cfg.maxRange + 1 / 2 ^ 52 ∧ cfg.maxRange < p.range + 1 / 2 ^ 52) ∧
  hasCell (worldToCell scale ⟨(p.moveRot pose.x pose.y pose.th).1, (p.moveRot pose.x pose.y pose.th).2⟩) = true

/-- Weighted mean of values `x` with weights `w`. -/
noncomputable def weightedMean (xs ws : List ℝ) : ℝ := (List.zipWith (· * ·) xs ws).sum / ws.sum

/-! ## Filtering -/

theorem filterLoop_spec (cfg : Cfg) (scale : ℝ) (hasCell : Coord → Bool) (pose : Pose) (pts : List ScanPoint) :
    ∀ i, ∃ keep : List Bool, keep.length = pts.length ∧
      filterLoop cfg scale hasCell pose i pts = ((pts.zip keep).filter (·.2)).map (·.1) ∧
      ∀ j p b, pts[j]? = some p → keep[j]? = some b → (b = true ↔ Usable cfg scale hasCell pose (i + j) p) := by
  classical
  induction pts with
  | nil => intro i; exact ⟨[], rfl, rfl, by simp⟩
  | cons p pts ih =>
    intro i
    obtain ⟨keep, h1, h2, h3⟩ := ih (i + 1)
    refine ⟨decide (Usable cfg scale hasCell pose i p) :: keep, by simp [h1], ?_, ?_⟩
    · have hmv := (moves_agree p pose.x pose.y pose.th).1
      unfold filterLoop
      by_cases hs : (cfg.skipRate != 0 && i % cfg.skipRate != 0) = true
      · rw [if_pos hs, h2]
        have hn : ¬ Usable cfg scale hasCell pose i p := by
          rintro ⟨hu, -⟩
          simp only [Bool.and_eq_true, bne_iff_ne, ne_eq] at hs
          rcases hu with hu | hu
          · exact hs.1 hu
          · exact hs.2 (Nat.mod_eq_zero_of_dvd hu)
        simp [hn]
      · rw [if_neg hs]
        simp only [hmv]
        have hskip : cfg.skipRate = 0 ∨ cfg.skipRate ∣ i := by
          simp only [Bool.and_eq_true, bne_iff_ne, ne_eq, not_and, not_not] at hs
          by_cases h0 : cfg.skipRate = 0
          · exact .inl h0
          · exact .inr (Nat.dvd_of_mod_eq_zero (hs h0))
        by_cases hk : shouldSkip cfg hasCell p (worldToCell scale
            ⟨(p.moveRot pose.x pose.y pose.th).1, (p.moveRot pose.x pose.y pose.th).2⟩) = true
        · rw [if_pos hk, h2]
          have hn : ¬ Usable cfg scale hasCell pose i p := by
            rintro ⟨-, u1, u2, u3⟩
            simp only [shouldSkip, Bool.or_eq_true, Bool.not_eq_true', Bool.and_eq_true, less,
              decide_eq_true_eq, u1, u3] at hk
            rcases hk with (hk | hk) | hk
            · exact absurd hk (by simp)
            · exact absurd hk (by simp)
            · exact u2 hk
          simp [hn]
        · rw [if_neg hk, h2]
          have hy : Usable cfg scale hasCell pose i p := by
            simp only [shouldSkip, Bool.or_eq_true, Bool.not_eq_true', Bool.and_eq_true, less,
              decide_eq_true_eq, not_or, Bool.not_eq_false] at hk
            exact ⟨hskip, hk.1.1, hk.2, hk.1.2⟩
          simp [hy]
    · intro j q b hq hb
      cases j with
      | zero =>
        simp at hq hb
        subst hq; rw [← hb]
        simp
      | succ j =>
        have := h3 j q b (by simpa using hq) (by simpa using hb)
        rw [show i + 1 + j = i + (j + 1) by omega] at this
        exact this

/-- C33: filtering keeps exactly the usable points of the raw scan, in their order; in particular the result is a
subsequence of the scan, and every point of it is an obstacle seen in an existing cell of the map. -/
theorem filter_keeps_usable (cfg : Cfg) (spw : Spw) (scale : ℝ) (hasCell : Coord → Bool) (pose : Pose)
    (pts f : List ScanPoint) (w : Spw) (h : filterScan cfg spw scale hasCell pose pts = some (f, w)) :
    (∃ keep : List Bool, keep.length = pts.length ∧ f = ((pts.zip keep).filter (·.2)).map (·.1) ∧
      ∀ i p b, pts[i]? = some p → keep[i]? = some b → (b = true ↔ Usable cfg scale hasCell pose i p)) ∧
    f.Sublist pts ∧ (∀ p ∈ f, p.occupied = true ∧
      hasCell (worldToCell scale ⟨(p.moveRot pose.x pose.y pose.th).1, (p.moveRot pose.x pose.y pose.th).2⟩) = true) ∧
    spw.reset f = some w := by
  obtain ⟨keep, h1, h2, h3⟩ := filterLoop_spec cfg scale hasCell pose pts 0
  unfold filterScan at h
  simp only [Option.map_eq_some_iff, Prod.mk.injEq] at h
  obtain ⟨w', e1, e2, e3⟩ := h
  subst e3
  rw [e2] at e1 h2
  refine ⟨⟨keep, h1, h2, fun i p b hp hb => by simpa using h3 i p b hp hb⟩, ?_, ?_, e1⟩
  · rw [h2]
    have : (pts.zip keep).map (·.1) = pts := by
      rw [List.map_fst_zip (by omega)]
    calc ((pts.zip keep).filter (·.2)).map (·.1) |>.Sublist ((pts.zip keep).map (·.1)) :=
          (List.filter_sublist).map _
      _ = pts := this
  · intro p hp
    rw [h2] at hp
    simp only [List.mem_map, List.mem_filter] at hp
    obtain ⟨⟨q, b⟩, ⟨hm, hb⟩, rfl⟩ := hp
    simp only at hb
    subst hb
    obtain ⟨i, hi, e⟩ := List.getElem_of_mem hm
    have hi2 : i < pts.length ∧ i < keep.length := by
      rw [List.length_zip] at hi; omega
    have ep : pts[i]? = some q := by
      rw [List.getElem?_eq_getElem hi2.1]
      rw [List.getElem_zip] at e
      injection e with e1 e2
      rw [e1]
    have ek : keep[i]? = some true := by
      rw [List.getElem?_eq_getElem hi2.2]
      rw [List.getElem_zip] at e
      injection e with e1 e2
      rw [e2]
    obtain ⟨-, u1, -, u2⟩ := (h3 i q true ep ek).1 rfl
    exact ⟨u1, u2⟩

/-! ## Weights -/

/-- C33: after a reset to a scan every weighting strategy gives every point of the scan a weight: a common positive
one, the reciprocal of its bin count (positive), or VinySLAM's, which is non-negative, and positive for a point with
positive range. -/
theorem weights_defined (w : Spw) (hw : ∀ h, w = .ahr h → h.WF ∧ 0 < h.n) (pts : List ScanPoint) :
    ∃ w', w.reset pts = some w' ∧
      (∀ i, i < pts.length → ∃ x, w'.weight pts i = some x ∧ 0 ≤ x) ∧
      (∀ i p, pts[i]? = some p → 0 < p.range → ∃ x, w'.weight pts i = some x ∧ 0 < x) ∧
      ((∃ c, w = .even c) → ∀ i, i < pts.length → w'.weight pts i = some (1 / (pts.length : ℝ))) := by
  cases w with
  | even c =>
    refine ⟨_, rfl, ?_, ?_, ?_⟩
    · intro i hi; exact ⟨_, rfl, by positivity⟩
    · intro i p hp _
      refine ⟨_, rfl, ?_⟩
      have : 0 < pts.length := by
        by_contra h0
        rw [List.getElem?_eq_none (by omega)] at hp
        simp at hp
      have : (0 : ℝ) < pts.length := by exact_mod_cast this
      positivity
    · intro _ i hi; rfl
  | ahr h =>
    obtain ⟨h1, h2⟩ := hw h rfl
    obtain ⟨h', e, hv, -, -⟩ := value_is_bin_count h h1 h2 pts
    have key : ∀ i, i < pts.length → ∃ x, (Spw.ahr h').weight pts i = some x ∧ 0 < x := by
      intro i hi
      obtain ⟨v, v1, v2⟩ := hv i hi
      have hvr : (0 : ℝ) < v := by exact_mod_cast v2
      refine ⟨1 / (v : ℝ), ?_, by positivity⟩
      simp only [Spw.weight, v1, Option.bind_some]
      rw [if_pos (by omega)]
    refine ⟨.ahr h', by simp [Spw.reset, e], ?_, ?_, ?_⟩
    · intro i hi
      obtain ⟨x, x1, x2⟩ := key i hi
      exact ⟨x, x1, x2.le⟩
    · intro i p hp _
      exact key i (by
        by_contra h0
        rw [List.getElem?_eq_none (by omega)] at hp
        simp at hp)
    · rintro ⟨c, hc⟩; exact absurd hc (by simp)
  | viny =>
    have pos : ∀ a : ℝ, 0 < if 9 / 10 < |Real.cos a| then (3 : ℝ) else if 8 / 10 < |Real.cos a| then 2
        else |Real.sin a| + |Real.cos a| := by
      intro a
      by_cases h1 : 9 / 10 < |Real.cos a|
      · rw [if_pos h1]; norm_num
      · rw [if_neg h1]
        by_cases h2 : 8 / 10 < |Real.cos a|
        · rw [if_pos h2]; norm_num
        · rw [if_neg h2]
          by_contra hc
          have s0 := abs_nonneg (Real.sin a)
          have c0 := abs_nonneg (Real.cos a)
          have s1 : |Real.sin a| = 0 := by linarith
          have c1 : |Real.cos a| = 0 := by linarith
          rw [abs_eq_zero] at s1 c1
          have := Real.sin_sq_add_cos_sq a
          rw [s1, c1] at this
          norm_num at this
    refine ⟨.viny, rfl, ?_, ?_, ?_⟩
    · intro i hi
      refine ⟨_, by simp only [Spw.weight, List.getElem?_eq_getElem hi, Option.map_some]; rfl, ?_⟩
      exact mul_nonneg (pos _).le (Real.sqrt_nonneg _)
    · intro i p hp hr
      refine ⟨_, by simp only [Spw.weight, hp, Option.map_some]; rfl, ?_⟩
      exact mul_pos (pos _) (Real.sqrt_pos.2 hr)
    · rintro ⟨c, hc⟩; exact absurd hc (by simp)

/-! ## The score -/

theorem scoreLoop_spec (oope : Point ℝ → Bounds ℝ → Option ℝ) (weight : Nat → Option ℝ) (params : Params) (pose : Pose)
    (pts : List ScanPoint) : ∀ (i : Nat) (t : Totals) (xs ws : List ℝ),
    List.Forall₂ (fun p x => oope (obstacleOf params pose p)
      (moveCenter params.area (obstacleOf params pose p)) = some x) pts xs →
    ws.length = pts.length → (∀ j, j < pts.length → weight (i + j) = ws[j]?) →
    scoreLoop oope weight params pose i t pts =
      some ⟨t.prob + (List.zipWith (· * ·) (List.zipWith (· * ·) xs ws) (pts.map (·.factor))).sum, t.weight + ws.sum⟩ := by
  induction pts with
  | nil =>
    intro i t xs ws hx hl _
    cases hx
    have : ws = [] := List.length_eq_zero_iff.1 hl
    subst this
    simp [scoreLoop]
  | cons p pts ih =>
    intro i t xs ws hx hl hw
    cases hx with
    | @cons _ x _ xs hx1 hx2 =>
      cases ws with
      | nil => simp at hl
      | cons w ws =>
        have hw0 : weight i = some w := by simpa using hw 0 (by simp)
        unfold scoreLoop
        simp only [hx1, Option.bind_some, hw0]
        rw [ih (i + 1) _ xs ws hx2 (by simpa using hl) (by
          intro j hj
          have := hw (j + 1) (by simpa using hj)
          rw [show i + 1 + j = i + (j + 1) by omega]
          simpa using this)]
        simp only [List.zipWith_cons_cons, List.map_cons, List.sum_cons, Option.some.injEq, Totals.mk.injEq]
        constructor <;> ring

theorem zipWith_ones (xs : List ℝ) (fs : List ℝ) (hl : fs.length = xs.length) (h : ∀ f ∈ fs, f = 1) :
    List.zipWith (· * ·) xs fs = xs := by
  induction xs generalizing fs with
  | nil => simp
  | cons x xs ih =>
    cases fs with
    | nil => simp at hl
    | cons f fs =>
      simp only [List.zipWith_cons_cons]
      rw [h f (by simp), mul_one, ih fs (by simpa using hl) (fun g hg => h g (by simp [hg]))]

/-- A weighted mean with non-negative weights that are not all zero lies between any bounds of the values. -/
theorem weightedMean_between (xs ws : List ℝ) (lo hi : ℝ) (hl : ws.length = xs.length) (hw : ∀ w ∈ ws, 0 ≤ w)
    (hs : ws.sum ≠ 0) (hx : ∀ x ∈ xs, lo ≤ x ∧ x ≤ hi) :
    lo ≤ weightedMean xs ws ∧ weightedMean xs ws ≤ hi := by
  have hpos : 0 < ws.sum := lt_of_le_of_ne (List.sum_nonneg hw) (Ne.symm hs)
  have key : ∀ (ws xs : List ℝ), ws.length = xs.length → (∀ w ∈ ws, 0 ≤ w) → (∀ x ∈ xs, lo ≤ x ∧ x ≤ hi) →
      lo * ws.sum ≤ (List.zipWith (· * ·) xs ws).sum ∧ (List.zipWith (· * ·) xs ws).sum ≤ hi * ws.sum := by
    intro ws
    induction ws with
    | nil => intro xs hl _ _; simp
    | cons w ws ih =>
      intro xs hl hw hx
      cases xs with
      | nil => simp at hl
      | cons x xs =>
        obtain ⟨i1, i2⟩ := ih xs (by simpa using hl) (fun v hv => hw v (by simp [hv]))
          (fun v hv => hx v (by simp [hv]))
        have w0 := hw w (by simp)
        obtain ⟨x1, x2⟩ := hx x (by simp)
        simp only [List.zipWith_cons_cons, List.sum_cons]
        constructor <;> nlinarith
  obtain ⟨k1, k2⟩ := key ws xs hl hw hx
  unfold weightedMean
  rw [le_div_iff₀ hpos, div_le_iff₀ hpos]
  exact ⟨k1, k2⟩

/-- C33: for a scan of points of unit factor (as all points the library produces have) whose points have the
probabilities `xs` and the weights `ws`, the score is undefined exactly if the weights add up to zero, and otherwise
it is the weighted mean of the probabilities. -/
theorem score_is_weighted_mean (oope : Point ℝ → Bounds ℝ → Option ℝ) (spw : Spw) (params : Params) (pose : Pose)
    (pts : List ScanPoint) (xs ws : List ℝ) (hf : ∀ p ∈ pts, p.factor = 1)
    (hx : List.Forall₂ (fun p x => oope (obstacleOf params pose p)
      (moveCenter params.area (obstacleOf params pose p)) = some x) pts xs)
    (hl : ws.length = pts.length) (hw : ∀ i, i < pts.length → spw.weight pts i = ws[i]?) :
    (ws.sum = 0 → estimate oope spw params pose pts = some none) ∧
    (ws.sum ≠ 0 → estimate oope spw params pose pts = some (some (weightedMean xs ws))) := by
  have h := scoreLoop_spec oope (spw.weight pts) params pose pts 0 ⟨0, 0⟩ xs ws hx hl (by simpa using hw)
  have hxl : pts.length = xs.length := List.Forall₂.length_eq hx
  rw [zipWith_ones _ _ (by simp [List.length_zipWith, hl, hxl]) (by
    intro f hf'
    simp only [List.mem_map] at hf'
    obtain ⟨p, hp, rfl⟩ := hf'
    exact hf p hp)] at h
  simp only [zero_add] at h
  constructor
  · intro h0
    simp [estimate, h, h0]
  · intro h0
    simp [estimate, h, h0, weightedMean]

/-- C33: hence, with non-negative weights, the score lies between any bounds of the point probabilities, in particular
in `[0, 1]` when they do. -/
theorem score_bounded (oope : Point ℝ → Bounds ℝ → Option ℝ) (spw : Spw) (params : Params) (pose : Pose)
    (pts : List ScanPoint) (xs ws : List ℝ) (lo hi : ℝ) (hf : ∀ p ∈ pts, p.factor = 1)
    (hx : List.Forall₂ (fun p x => oope (obstacleOf params pose p)
      (moveCenter params.area (obstacleOf params pose p)) = some x) pts xs)
    (hl : ws.length = pts.length) (hw : ∀ i, i < pts.length → spw.weight pts i = ws[i]?)
    (hw0 : ∀ w ∈ ws, 0 ≤ w) (hb : ∀ x ∈ xs, lo ≤ x ∧ x ≤ hi) :
    ∃ s, estimate oope spw params pose pts = some s ∧ (s = none ↔ ∀ w ∈ ws, w = 0) ∧
      ∀ v, s = some v → lo ≤ v ∧ v ≤ hi := by
  obtain ⟨h1, h2⟩ := score_is_weighted_mean oope spw params pose pts xs ws hf hx hl hw
  have hzero : ws.sum = 0 ↔ ∀ w ∈ ws, w = 0 := by
    constructor
    · intro h w hwm
      exact le_antisymm (by rw [← h]; exact List.single_le_sum hw0 w hwm) (hw0 w hwm)
    · intro h; exact List.sum_eq_zero h
  by_cases h0 : ws.sum = 0
  · refine ⟨none, h1 h0, by simp; exact hzero.1 h0, by simp⟩
  · refine ⟨some (weightedMean xs ws), h2 h0, ?_, ?_⟩
    · simp only [reduceCtorEq, false_iff]
      intro hc; exact h0 (hzero.2 hc)
    · intro v hv
      injection hv with hv
      rw [← hv]
      exact weightedMean_between xs ws lo hi (by rw [hl]; exact List.Forall₂.length_eq hx) hw0 h0 hb

theorem getElem?_replicate_lt {α : Type*} (n i : Nat) (a : α) (h : i < n) : (List.replicate n a)[i]? = some a := by
  simp [h]

/-- C33: the whole call sequence of a matcher — filter, then score the filtered scan at any pose — with even weights:
the score of a scan with at least one usable point is the arithmetic mean of the point probabilities, of one without
it is unknown. -/
theorem even_score_is_mean (oope : Point ℝ → Bounds ℝ → Option ℝ) (cfg : Cfg) (c scale : ℝ) (hasCell : Coord → Bool)
    (params : Params) (pose0 pose : Pose) (raw f : List ScanPoint) (w : Spw) (xs : List ℝ)
    (hflt : filterScan cfg (.even c) scale hasCell pose0 raw = some (f, w))
    (hf : ∀ p ∈ raw, p.factor = 1)
    (hx : List.Forall₂ (fun p x => oope (obstacleOf params pose p)
      (moveCenter params.area (obstacleOf params pose p)) = some x) f xs) :
    estimate oope w params pose f = some (if f = [] then none else some (xs.sum / xs.length)) := by
  obtain ⟨-, hsub, -, hres⟩ := filter_keeps_usable cfg (.even c) scale hasCell pose0 raw f w hflt
  obtain ⟨w', e1, -, -, e2⟩ := weights_defined (.even c) (by simp) f
  rw [hres] at e1
  injection e1 with e1
  subst e1
  have hw : ∀ i, i < f.length → w.weight f i = (List.replicate f.length (1 / (f.length : ℝ)))[i]? := by
    intro i hi
    rw [e2 ⟨c, rfl⟩ i hi, getElem?_replicate_lt _ _ _ hi]
  obtain ⟨h1, h2⟩ := score_is_weighted_mean oope w params pose f xs _ (fun p hp => hf p (hsub.subset hp)) hx
    (by simp) hw
  have hsum : (List.replicate f.length (1 / (f.length : ℝ))).sum = if f = [] then 0 else 1 := by
    rw [List.sum_replicate, nsmul_eq_mul]
    by_cases h0 : f = []
    · simp [h0]
    · have : (f.length : ℝ) ≠ 0 := by exact_mod_cast (List.length_pos_of_ne_nil h0).ne'
      rw [if_neg h0]; field_simp
  by_cases h0 : f = []
  · rw [if_pos h0] at hsum ⊢
    exact h1 hsum
  · rw [if_neg h0] at hsum ⊢
    rw [h2 (by rw [hsum]; norm_num), weightedMean, hsum]
    congr 2
    have hlen : xs.length = f.length := (List.Forall₂.length_eq hx).symm
    rw [← hlen]
    have key : ∀ (l : List ℝ) (k : ℝ), (List.zipWith (· * ·) l (List.replicate l.length k)).sum = l.sum * k := by
      intro l k
      induction l with
      | nil => simp
      | cons a l ih =>
        simp only [List.length_cons, List.replicate_succ, List.zipWith_cons_cons, List.sum_cons, ih]
        ring
    rw [key]
    ring

/-- C33, negative part: `is_prob_unknown` recognises no score as unknown, not even the unknown one (a NaN is not equal
to itself). -/
theorem unknown_score_unrecognised_counterexample :
    ¬ isProbUnknown none ∧ ∀ v, ¬ isProbUnknown v := by
  have h : ∀ v, ¬ isProbUnknown v := by
    intro v
    cases v <;> exact id
  exact ⟨h none, h⟩

/-! ## Non-vacuity -/

/-- Two points with weights 1 and 3. -/
example : weightedMean [1, 1 / 2] [1, 3] = 5 / 8 := by norm_num [weightedMean]

/-- A filtered scan: of a wall point, a free point and a wall point outside of the map only the first remains. -/
example : filterLoop ⟨0, -1⟩ 1 (fun c => decide (c = ⟨1, 0⟩)) ⟨0, 0, 0⟩ 0
    [.polar 1 0 true 1, .polar 1 0 false 1, .polar 5 0 true 1] = [.polar 1 0 true 1] := by
  have h1 : ⌊(5 : ℝ)⌋ = 5 := by norm_num
  simp [filterLoop, shouldSkip, ScanPoint.moveBy, ScanPoint.range, ScanPoint.angle, ScanPoint.occupied, Raw.sin,
    Raw.cos, worldToCell, less]
  norm_num

/-- All hypotheses of `even_score_is_mean` together: the scan above, scored with the probability 3/4 everywhere. -/
example : estimate (fun _ _ => some (3 / 4)) (.even 1) ⟨⟨0, 0, 0, 0⟩, false⟩ ⟨0, 0, 0⟩ [.polar 1 0 true 1] =
    some (some (3 / 4)) := by
  simp [estimate, scoreLoop, Spw.weight, ScanPoint.factor]

/-- C33: where a point of a scan is looked up: the point as seen from the pose, i.e. turned by the pose's heading and
shifted to its position; for a scan that has been turned beforehand, only shifted. -/
theorem obstacle_position (area : Bounds ℝ) (pose : Pose) (sp : ScanPoint) :
    obstacleOf ⟨area, false⟩ pose sp =
      ⟨pose.x + (Real.cos pose.th * sp.x - Real.sin pose.th * sp.y),
       pose.y + (Real.sin pose.th * sp.x + Real.cos pose.th * sp.y)⟩ ∧
    obstacleOf ⟨area, true⟩ pose sp = ⟨pose.x + sp.x, pose.y + sp.y⟩ := by
  constructor
  · obtain ⟨h1, h2⟩ := range_angle_coords sp
    simp only [obstacleOf, ScanPoint.moveBy, Raw.sin, Raw.cos, Bool.false_eq_true, if_false, Point.mk.injEq]
    rw [← h1, ← h2]
    refine ⟨?_, ?_⟩
    · rw [Real.cos_add]; ring
    · rw [Real.sin_add]; ring
  · simp only [obstacleOf, ScanPoint.move, if_true, Point.mk.injEq]
    exact ⟨by ring, by ring⟩

end Slam.Score
