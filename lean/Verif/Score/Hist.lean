import Verif.Score.Model
import Mathlib.Tactic.Linarith
import Mathlib.Tactic.Ring
import Mathlib.Tactic.FieldSimp
import Mathlib.Algebra.BigOperators.Group.Finset.Basic
import Mathlib.Algebra.BigOperators.Group.List.Basic
import Mathlib.Algebra.Order.BigOperators.Group.List
import Mathlib.Analysis.SpecialFunctions.Trigonometric.Basic

/-!
# C27: the angle histogram
-/

set_option autoImplicit false

namespace Slam.Score
open Slam.Sensor

/-! ## Specification -/

/-- Directions of the consecutive pairs of points of a scan. -/
noncomputable def pairAngles : List ScanPoint → List ℝ
  | [] => []
  | [_] => []
  | p :: q :: ps => oxAngle p q :: pairAngles (q :: ps)

/-- Bin `k` of `n`: the angles in `[k·π/n, (k+1)·π/n)`. -/
def InBin (n k : Nat) (a : ℝ) : Prop := k * (Real.pi / n) ≤ a ∧ a < (k + 1) * (Real.pi / n)

open Classical in
/-- How many directions of the list fall into bin `k`. -/
noncomputable def binCount (n k : Nat) (as : List ℝ) : Nat := as.countP fun a => decide (InBin n k a)

open Classical in
/-- Sum of the directions in bin `k`. -/
noncomputable def binSum (n k : Nat) (as : List ℝ) : ℝ := (as.filter fun a => decide (InBin n k a)).sum

/-! ## Directions -/

/-- C27: the direction estimated for a pair of points lies in `[0, π)`. -/
theorem direction_range (p q : ScanPoint) : 0 ≤ oxAngle p q ∧ oxAngle p q < Real.pi := by
  unfold oxAngle
  simp only
  by_cases h0 : q.y - p.y = 0
  · rw [if_pos h0]; exact ⟨le_rfl, Real.pi_pos⟩
  · rw [if_neg h0]
    have hpos : 0 < (q.x - p.x) * (q.x - p.x) + (q.y - p.y) * (q.y - p.y) := by
      have := mul_self_pos.2 h0
      nlinarith [mul_self_nonneg (q.x - p.x)]
    have hs : 0 < Real.sqrt ((q.x - p.x) * (q.x - p.x) + (q.y - p.y) * (q.y - p.y)) := Real.sqrt_pos.2 hpos
    have hlt : |q.x - p.x| < Real.sqrt ((q.x - p.x) * (q.x - p.x) + (q.y - p.y) * (q.y - p.y)) := by
      rw [← Real.sqrt_mul_self_eq_abs]
      apply Real.sqrt_lt_sqrt (mul_self_nonneg _)
      have := mul_self_pos.2 h0
      linarith
    rw [abs_lt] at hlt
    have h1 : -1 < (q.x - p.x) / Real.sqrt ((q.x - p.x) * (q.x - p.x) + (q.y - p.y) * (q.y - p.y)) := by
      rw [lt_div_iff₀ hs]; linarith
    have h2 : (q.x - p.x) / Real.sqrt ((q.x - p.x) * (q.x - p.x) + (q.y - p.y) * (q.y - p.y)) < 1 := by
      rw [div_lt_iff₀ hs]; linarith
    have a0 := Real.arccos_nonneg ((q.x - p.x) / Real.sqrt ((q.x - p.x) * (q.x - p.x) + (q.y - p.y) * (q.y - p.y)))
    have a1 : 0 < Real.arccos ((q.x - p.x) / Real.sqrt ((q.x - p.x) * (q.x - p.x) + (q.y - p.y) * (q.y - p.y))) :=
      Real.arccos_pos.2 h2
    have a2 : Real.arccos ((q.x - p.x) / Real.sqrt ((q.x - p.x) * (q.x - p.x) + (q.y - p.y) * (q.y - p.y)))
        < Real.pi := lt_of_le_of_ne (Real.arccos_le_pi _) (by
          intro h
          rw [Real.arccos_eq_pi] at h
          linarith)
    by_cases h3 : q.y - p.y < 0 ∧ q.x - p.x ≠ 0
    · rw [if_pos h3]; constructor <;> linarith
    · rw [if_neg h3]; exact ⟨a0, a2⟩

/-- C27: it is the direction of the line through the two points: the step from the first to the second is a multiple
of `(cos a, sin a)`. -/
theorem direction_parallel (p q : ScanPoint) :
    ∃ t : ℝ, q.x - p.x = t * Real.cos (oxAngle p q) ∧ q.y - p.y = t * Real.sin (oxAngle p q) := by
  unfold oxAngle
  simp only
  by_cases h0 : q.y - p.y = 0
  · rw [if_pos h0, h0]; exact ⟨q.x - p.x, by simp, by simp⟩
  · rw [if_neg h0]
    generalize q.x - p.x = x at *
    generalize q.y - p.y = y at *
    have hy2 : 0 < y * y := mul_self_pos.2 h0
    have hpos : 0 < x * x + y * y := by nlinarith [mul_self_nonneg x]
    have hs : 0 < Real.sqrt (x * x + y * y) := Real.sqrt_pos.2 hpos
    have hss : Real.sqrt (x * x + y * y) * Real.sqrt (x * x + y * y) = x * x + y * y := Real.mul_self_sqrt hpos.le
    have hlt : |x| ≤ Real.sqrt (x * x + y * y) := by
      rw [← Real.sqrt_mul_self_eq_abs]
      apply Real.sqrt_le_sqrt
      linarith
    rw [abs_le] at hlt
    have hc : Real.cos (Real.arccos (x / Real.sqrt (x * x + y * y))) = x / Real.sqrt (x * x + y * y) :=
      Real.cos_arccos (by rw [le_div_iff₀ hs]; linarith) (by rw [div_le_iff₀ hs]; linarith)
    have hsin : Real.sin (Real.arccos (x / Real.sqrt (x * x + y * y))) = |y| / Real.sqrt (x * x + y * y) := by
      rw [Real.sin_arccos]
      have : 1 - (x / Real.sqrt (x * x + y * y)) ^ 2 = (y / Real.sqrt (x * x + y * y)) ^ 2 := by
        rw [div_pow, div_pow, sq (Real.sqrt (x * x + y * y)), hss]
        field_simp
        ring
      rw [this, Real.sqrt_sq_eq_abs, abs_div, abs_of_pos hs]
    by_cases h3 : y < 0 ∧ x ≠ 0
    · rw [if_pos h3]
      refine ⟨-Real.sqrt (x * x + y * y), ?_, ?_⟩
      · rw [Real.cos_pi_sub, hc]; field_simp
      · rw [Real.sin_pi_sub, hsin, abs_of_neg h3.1]; field_simp
    · rw [if_neg h3]
      by_cases hy : y < 0
      · have hx : x = 0 := by by_contra hx; exact h3 ⟨hy, hx⟩
        refine ⟨-Real.sqrt (x * x + y * y), ?_, ?_⟩
        · rw [hc, hx]; simp
        · rw [hsin, abs_of_neg hy]; field_simp
      · refine ⟨Real.sqrt (x * x + y * y), ?_, ?_⟩
        · rw [hc]; field_simp
        · rw [hsin, abs_of_nonneg (not_lt.1 hy)]; field_simp

/-! ## Bins -/

theorem histIndex_some (h : Hist) (hn : 0 < h.n) (hl : h.hist.length = h.n) (a : ℝ) (h0 : 0 ≤ a)
    (h1 : a < Real.pi) : ∃ k, h.histIndex a = some k ∧ k < h.n ∧ InBin h.n k a := by
  have hnn : (0 : ℝ) < h.n := by exact_mod_cast hn
  have hst : 0 < h.angleStep := div_pos Real.pi_pos hnn
  have hfl : 0 ≤ ⌊a / h.angleStep⌋ := Int.floor_nonneg.2 (div_nonneg h0 hst.le)
  have hcast : ((⌊a / h.angleStep⌋.toNat : Nat) : ℝ) = (⌊a / h.angleStep⌋ : ℝ) := by
    have : ((⌊a / h.angleStep⌋.toNat : Nat) : Int) = ⌊a / h.angleStep⌋ := Int.toNat_of_nonneg hfl
    exact_mod_cast congrArg (fun z : Int => (z : ℝ)) this
  have hle := Int.floor_le (a / h.angleStep)
  have hlt := Int.lt_floor_add_one (a / h.angleStep)
  have hb : InBin h.n ⌊a / h.angleStep⌋.toNat a := by
    unfold InBin
    rw [hcast]
    rw [le_div_iff₀ hst] at hle
    rw [div_lt_iff₀ hst] at hlt
    exact ⟨hle, hlt⟩
  have hk : ⌊a / h.angleStep⌋.toNat < h.n := by
    have h2 : (⌊a / h.angleStep⌋.toNat : ℝ) * h.angleStep < h.n * h.angleStep := by
      have e : (h.n : ℝ) * h.angleStep = Real.pi := by unfold Hist.angleStep; field_simp
      rw [e]
      exact lt_of_le_of_lt hb.1 h1
    exact_mod_cast lt_of_mul_lt_mul_right h2 hst.le
  refine ⟨⌊a / h.angleStep⌋.toNat, ?_, hk, hb⟩
  unfold Hist.histIndex
  rw [if_pos ⟨h0, h1⟩]
  simp only
  rw [if_pos (by rw [hl]; exact hk)]

theorem inBin_unique (n k j : Nat) (hn : 0 < n) (a : ℝ) (hk : InBin n k a) (hj : InBin n j a) : k = j := by
  have hnn : (0 : ℝ) < n := by exact_mod_cast hn
  have hst : 0 < Real.pi / (n : ℝ) := div_pos Real.pi_pos hnn
  obtain ⟨a1, a2⟩ := hk
  obtain ⟨b1, b2⟩ := hj
  have h1 : (k : ℝ) < j + 1 := lt_of_mul_lt_mul_right (lt_of_le_of_lt a1 b2) hst.le
  have h2 : (j : ℝ) < k + 1 := lt_of_mul_lt_mul_right (lt_of_le_of_lt b1 a2) hst.le
  have h1' : k < j + 1 := by exact_mod_cast h1
  have h2' : j < k + 1 := by exact_mod_cast h2
  omega

theorem addAll_spec (ps : List ScanPoint) : ∀ (h : Hist) (i : Nat) (prev : ScanPoint), 0 < h.n →
    h.hist.length = h.n → h.angSum.length = h.n → h.driftDirs.length = i + ps.length →
    ∃ h', h.addAll i prev ps = some h' ∧ h'.n = h.n ∧ h'.hist.length = h.n ∧ h'.angSum.length = h.n ∧
      h'.driftDirs.length = h.driftDirs.length ∧
      (∀ k, k < h.n → h'.hist[k]? = (h.hist[k]?).map (· + binCount h.n k (pairAngles (prev :: ps)))) ∧
      (∀ k, k < h.n → h'.angSum[k]? = (h.angSum[k]?).map (· + binSum h.n k (pairAngles (prev :: ps)))) ∧
      (∀ j, j < i → h'.driftDirs[j]? = h.driftDirs[j]?) ∧
      (∀ j, j < ps.length → h'.driftDirs[i + j]? = (pairAngles (prev :: ps))[j]?) := by
  induction ps with
  | nil =>
    intro h i prev _ h1 h2 h3
    refine ⟨h, rfl, rfl, h1, h2, rfl, ?_, ?_, fun _ _ => rfl, ?_⟩
    · intro k hk; simp [pairAngles, binCount]
    · intro k hk; simp [pairAngles, binSum]
    · intro j hj; simp at hj
  | cons p ps ih =>
    intro h i prev hn h1 h2 h3
    obtain ⟨r0, r1⟩ := direction_range prev p
    obtain ⟨k0, e0, hk0, hb⟩ := histIndex_some h hn h1 _ r0 r1
    have ha : h.add i (oxAngle prev p) = some ⟨h.n, h.hist.modify k0 (· + 1),
        h.angSum.modify k0 (· + oxAngle prev p), h.driftDirs.set i (oxAngle prev p)⟩ := by
      simp [Hist.add, e0]
    obtain ⟨h', g0, g1, g2, g2', g3, g4, g4', g5, g6⟩ := ih ⟨h.n, h.hist.modify k0 (· + 1),
        h.angSum.modify k0 (· + oxAngle prev p), h.driftDirs.set i (oxAngle prev p)⟩ (i + 1) p hn
      (by simpa using h1) (by simpa using h2) (by simp [h3]; omega)
    simp only at g1 g2 g2' g3 g4 g4' g5 g6
    have hdd : h.driftDirs.length = i + (ps.length + 1) := by simpa using h3
    refine ⟨h', ?_, g1, g2, g2', by simpa using g3, ?_, ?_, ?_, ?_⟩
    · simp only [Hist.addAll, ha, Option.bind_some]; exact g0
    · intro k hk
      rw [g4 k hk, List.getElem?_modify]
      have hlen : k < h.hist.length := by omega
      rw [List.getElem?_eq_getElem hlen]
      simp only [pairAngles, binCount, List.countP_cons]
      by_cases hkk : k0 = k
      · subst hkk
        simp [hb]; omega
      · have : ¬ InBin h.n k (oxAngle prev p) := fun hc => hkk (inBin_unique h.n k0 k hn _ hb hc)
        simp [hkk, this]
    · intro k hk
      rw [g4' k hk, List.getElem?_modify]
      have hlen : k < h.angSum.length := by omega
      rw [List.getElem?_eq_getElem hlen]
      simp only [pairAngles, binSum, List.filter_cons]
      by_cases hkk : k0 = k
      · subst hkk
        simp [hb]; ring
      · have : ¬ InBin h.n k (oxAngle prev p) := fun hc => hkk (inBin_unique h.n k0 k hn _ hb hc)
        simp [hkk, this]
    · intro j hj
      rw [g5 j (by omega), List.getElem?_set_ne (by omega)]
    · intro j hj
      cases j with
      | zero =>
        rw [Nat.add_zero, g5 i (by omega), List.getElem?_set_self (by omega)]
        simp [pairAngles]
      | succ j =>
        have := g6 j (by simpa using hj)
        rw [show i + 1 + j = i + (j + 1) by omega] at this
        rw [this]
        simp [pairAngles]

theorem pairAngles_length (pts : List ScanPoint) : (pairAngles pts).length = pts.length - 1 := by
  induction pts with
  | nil => rfl
  | cons p ps ih =>
    cases ps with
    | nil => rfl
    | cons q ps => simp only [pairAngles, List.length_cons] at ih ⊢; omega

theorem pairAngles_range (pts : List ScanPoint) : ∀ a ∈ pairAngles pts, 0 ≤ a ∧ a < Real.pi := by
  induction pts with
  | nil => simp [pairAngles]
  | cons p ps ih =>
    cases ps with
    | nil => simp [pairAngles]
    | cons q ps =>
      intro a ha
      simp only [pairAngles, List.mem_cons] at ha
      rcases ha with rfl | ha
      · exact direction_range p q
      · exact ih a ha

/-- The state of a histogram that was only ever reset (to any scans). -/
def Hist.WF (h : Hist) : Prop := h.hist.length = h.n ∧ h.angSum.length = h.n

/-- C27: a reset never fails an assertion; afterwards bin `k` holds the number of consecutive point pairs whose
direction falls into it and the sum of their directions, and the direction of the pair ending at each point is
remembered — whatever the histogram was used for before. -/
theorem reset_counts (h : Hist) (hw : h.WF) (hn : 0 < h.n) (pts : List ScanPoint) :
    ∃ h', h.reset pts = some h' ∧ h'.WF ∧ h'.n = h.n ∧
      (∀ k, k < h.n → h'.hist[k]? = some (binCount h.n k (pairAngles pts)) ∧
        h'.angSum[k]? = some (binSum h.n k (pairAngles pts))) ∧
      (∀ i, i + 1 < pts.length → h'.driftDirs[i + 1]? = (pairAngles pts)[i]?) := by
  obtain ⟨h1, h2⟩ := hw
  have hres : ∀ (l : List ℝ) (n : Nat), (resize l n).length = n := by
    intro l n
    simp only [resize, List.length_append, List.length_take, List.length_replicate]
    omega
  cases pts with
  | nil =>
    refine ⟨_, rfl, ⟨by simpa using h1, by simpa using h2⟩, rfl, ?_, ?_⟩
    · intro k hk
      simp [binCount, binSum, pairAngles, List.getElem?_eq_getElem, show k < h.hist.length by omega,
        show k < h.angSum.length by omega]
    · intro i hi; simp at hi
  | cons p ps =>
    obtain ⟨h', g0, g1, g2, g2', g3, g4, g4', g5, g6⟩ := addAll_spec ps
      ⟨h.n, h.hist.map fun _ => 0, h.angSum.map fun _ => 0, resize h.driftDirs (p :: ps).length⟩ 1 p hn
      (by simpa using h1) (by simpa using h2) (by rw [hres]; simp; omega)
    simp only at g1 g2 g2' g4 g4' g6
    refine ⟨h', g0, ⟨by rw [g2, g1], by rw [g2', g1]⟩, g1, ?_, ?_⟩
    · intro k hk
      constructor
      · rw [g4 k hk, List.getElem?_map, List.getElem?_eq_getElem (show k < h.hist.length by omega)]
        simp
      · rw [g4' k hk, List.getElem?_map, List.getElem?_eq_getElem (show k < h.angSum.length by omega)]
        simp
    · intro i hi
      rw [Nat.add_comm i 1]
      exact g6 i (by simpa using hi)

theorem sum_indicator (n : Nat) (as : List ℝ) (hn : 0 < n) (h : ∀ a ∈ as, 0 ≤ a ∧ a < Real.pi) :
    ((List.range n).map fun k => binCount n k as).sum = as.length := by
  classical
  induction as with
  | nil => simp [binCount]
  | cons a as ih =>
    have hu : ∃ k, k < n ∧ InBin n k a := by
      obtain ⟨h0, h1⟩ := h a (by simp)
      obtain ⟨k, -, hk, hb⟩ := histIndex_some (Hist.create n) hn (by simp [Hist.create]) a h0 h1
      exact ⟨k, hk, hb⟩
    obtain ⟨k, hk, hb⟩ := hu
    have e : ∀ j, binCount n j (a :: as) = binCount n j as + if j = k then 1 else 0 := by
      intro j
      simp only [binCount, List.countP_cons]
      by_cases hj : j = k
      · subst hj; simp [hb]
      · have : ¬ InBin n j a := fun hc => hj (inBin_unique n j k hn a hc hb)
        simp [hj, this]
    have e2 : ((List.range n).map fun k => binCount n k (a :: as)) =
        (List.range n).map fun j => binCount n j as + if j = k then 1 else 0 :=
      List.map_congr_left fun j _ => e j
    rw [e2, List.sum_map_add, ih fun b hb => h b (by simp [hb])]
    have : ((List.range n).map fun j => if j = k then 1 else 0).sum = 1 := by
      have key : ∀ m, ((List.range m).map fun j => if j = k then 1 else 0).sum = if k < m then 1 else 0 := by
        intro m
        induction m with
        | zero => simp
        | succ m ihm =>
          rw [List.range_succ, List.map_append, List.sum_append, ihm]
          simp only [List.map_cons, List.map_nil, List.sum_cons, List.sum_nil, Nat.add_zero]
          by_cases h1 : k < m
          · rw [if_pos h1, if_neg (by omega), if_pos (by omega)]
          · by_cases h2 : m = k
            · rw [if_neg h1, if_pos h2, if_pos (by omega)]
            · rw [if_neg h1, if_neg h2, if_neg (by omega)]
      rw [key, if_pos hk]
    rw [this, List.length_cons]

/-- C27: the bin counts add up to the number of consecutive point pairs. -/
theorem counts_add_up (h : Hist) (hw : h.WF) (hn : 0 < h.n) (pts : List ScanPoint) :
    ∃ h', h.reset pts = some h' ∧ h'.hist.length = h.n ∧ h'.hist.sum = pts.length - 1 := by
  obtain ⟨h', e, hw', hn', hc, -⟩ := reset_counts h hw hn pts
  refine ⟨h', e, by rw [hw'.1, hn'], ?_⟩
  rw [← pairAngles_length, ← sum_indicator h.n (pairAngles pts) hn (pairAngles_range pts)]
  congr 1
  apply List.ext_getElem?
  intro k
  by_cases hk : k < h.n
  · rw [(hc k hk).1]
    simp [hk]
  · rw [List.getElem?_eq_none (by rw [hw'.1, hn']; omega), List.getElem?_eq_none (by simp; omega)]

/-- C27: a query for any point of the scan the histogram was reset to succeeds and is positive: for the first point it
is the number of points, for every other one the count of the bin of the pair that ends there. -/
theorem value_is_bin_count (h : Hist) (hw : h.WF) (hn : 0 < h.n) (pts : List ScanPoint) :
    ∃ h', h.reset pts = some h' ∧
      (∀ i, i < pts.length → ∃ v, h'.value pts i = some v ∧ 0 < v) ∧
      (h'.value pts 0 = some pts.length) ∧
      (∀ i p q, pts[i]? = some p → pts[i + 1]? = some q → ∃ k, k < h.n ∧ InBin h.n k (oxAngle p q) ∧
        h'.value pts (i + 1) = some (binCount h.n k (pairAngles pts)) ∧
        0 < binCount h.n k (pairAngles pts)) := by
  obtain ⟨h', e, hw', hn', hc, hd⟩ := reset_counts h hw hn pts
  have hpa : ∀ (l : List ScanPoint) i p q, l[i]? = some p → l[i + 1]? = some q →
      (pairAngles l)[i]? = some (oxAngle p q) := by
    intro l
    induction l with
    | nil => intro i p q hp; simp at hp
    | cons x l ih =>
      cases l with
      | nil => intro i p q _ hq; simp at hq
      | cons y l =>
        intro i p q hp hq
        cases i with
        | zero =>
          simp at hp hq
          subst hp; subst hq
          simp [pairAngles]
        | succ i =>
          have := ih i p q (by simpa using hp) (by simpa using hq)
          simpa [pairAngles] using this
  have hv : ∀ i p q, pts[i]? = some p → pts[i + 1]? = some q → ∃ k, k < h.n ∧ InBin h.n k (oxAngle p q) ∧
        h'.value pts (i + 1) = some (binCount h.n k (pairAngles pts)) ∧
        0 < binCount h.n k (pairAngles pts) := by
    intro i p q hp hq
    obtain ⟨r0, r1⟩ := direction_range p q
    obtain ⟨k, k1, k2, k3⟩ := histIndex_some h' (by omega) hw'.1 _ r0 r1
    rw [hn'] at k2 k3
    have hlen : i + 1 < pts.length := by
      by_contra hx
      rw [List.getElem?_eq_none (by omega)] at hq
      simp at hq
    refine ⟨k, k2, k3, ?_, ?_⟩
    · unfold Hist.value
      rw [if_neg (by omega), hd i hlen, hpa pts i p q hp hq]
      simp only [Option.bind_some, k1]
      exact (hc k k2).1
    · unfold binCount
      rw [List.countP_pos_iff]
      exact ⟨oxAngle p q, List.mem_of_getElem? (hpa pts i p q hp hq), by simpa using k3⟩
  refine ⟨h', e, ?_, by simp [Hist.value], hv⟩
  intro i hi
  cases i with
  | zero => exact ⟨pts.length, by simp [Hist.value], by omega⟩
  | succ i =>
    obtain ⟨k, -, -, k3, k4⟩ := hv i pts[i] pts[i + 1] (List.getElem?_eq_getElem _) (List.getElem?_eq_getElem hi)
    exact ⟨_, k3, k4⟩

/-- Non-vacuity: a fresh histogram of 20 bins is well formed, and so is one that was reset. -/
example : (Hist.create 20).WF ∧ 0 < (Hist.create 20).n := by simp [Hist.WF, Hist.create]

/-- Non-vacuity: three points along a corner: one horizontal, one vertical step. -/
example : pairAngles [.cartesian 0 0 true 1, .cartesian 1 0 true 1, .cartesian 1 (-1) true 1] =
    [0, Real.pi / 2] := by
  simp [pairAngles, oxAngle, ScanPoint.x, ScanPoint.y]

end Slam.Score
