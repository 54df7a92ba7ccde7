import Verif.Drift.Model
import Verif.ScanMatch.BruteForce
import Verif.Score.Hist

/-! # C63, C64: dominant directions and the drift detector -/

set_option autoImplicit false
set_option linter.unusedSectionVars false

namespace Slam.Drift
open Slam.Poses Slam.ScanMatch Slam.Score Slam.Sensor

/-! ## Specification -/

/-- Bin `k` of `n` is the first one of maximal count. -/
def FirstFullest (n : Nat) (as : List ℝ) (k : Nat) : Prop :=
  k < n ∧ (∀ j, j < k → binCount n j as < binCount n k as) ∧ ∀ j, j < n → binCount n j as ≤ binCount n k as

/-- Bin `k` of `n` is the first one of minimal count. -/
def FirstEmptiest (n : Nat) (as : List ℝ) (k : Nat) : Prop :=
  k < n ∧ (∀ j, j < k → binCount n k as < binCount n j as) ∧ ∀ j, j < n → binCount n k as ≤ binCount n j as

open Classical in
/-- The points behind `prev` that are not reached in a direction having property `P`. -/
noncomputable def offDirection (P : ℝ → Prop) : ScanPoint → List ScanPoint → List ScanPoint
  | _, [] => []
  | prev, q :: qs => if P (oxAngle prev q) then offDirection P q qs else q :: offDirection P q qs

/-- The points of a scan that are not reached, from the point before them, in a direction whose bin (of 20) holds as
many directions as the fullest one; the first point is never among them. -/
noncomputable def offDrift (scan : List ScanPoint) (k : Nat) : List ScanPoint :=
  match scan with
  | [] => []
  | p :: ps => offDirection (fun a => ∃ j, j < 20 ∧ InBin 20 j a ∧
      binCount 20 j (pairAngles scan) = binCount 20 k (pairAngles scan)) p ps

/-- The pose displaced by `d` in direction `a`. -/
noncomputable def displaced (p : Pose ℝ) (a d : ℝ) : Pose ℝ :=
  ⟨p.x + d * Real.cos a, p.y + d * Real.sin a, p.theta⟩

/-- The polar grid: distances outermost; directions run until the limit is reached or passed. -/
noncomputable def polarGrid (p : PolarParams) : List (ℝ × ℝ) :=
  (progression p.fromDst p.stepDst ⌊(p.toDst - p.fromDst) / p.stepDst⌋₊).flatMap fun d =>
    (progression p.fromDir p.stepDir ⌈(p.toDir - p.fromDir) / p.stepDir⌉₊).map fun a => (a, d)

/-! ## Extremal bins -/

theorem maxLoop_spec (l : List Nat) (ys : List Nat) : ∀ (i best v : Nat), l.drop i = ys → l[best]? = some v → best < i →
    (∀ (j w : Nat), j < best → l[j]? = some w → w < v) → (∀ (j w : Nat), j < i → l[j]? = some w → w ≤ v) →
    ∃ u : Nat, l[maxLoop ys i best v]? = some u ∧ (∀ (j w : Nat), j < maxLoop ys i best v → l[j]? = some w → w < u) ∧
      ∀ (j w : Nat), l[j]? = some w → w ≤ u := by
  induction ys with
  | nil =>
    intro i best v h0 h1 h2 h3 h4
    refine ⟨v, h1, h3, ?_⟩
    intro j w hj
    apply h4 j w _ hj
    have := List.drop_eq_nil_iff.1 h0
    by_contra hc
    rw [List.getElem?_eq_none (by omega)] at hj
    cases hj
  | cons y ys ih =>
    intro i best v h0 h1 h2 h3 h4
    have hy : l[i]? = some y := by
      have := congrArg (fun m => m[0]?) h0
      simpa using this
    have hd : l.drop (i + 1) = ys := by
      rw [← List.drop_drop, h0]; rfl
    unfold maxLoop
    by_cases hv : v < y
    · rw [if_pos hv]
      apply ih (i + 1) i y hd hy (by omega)
      · intro j w hj hw; exact lt_of_le_of_lt (h4 j w hj hw) hv
      · intro j w hj hw
        by_cases hji : j = i
        · subst hji; rw [hy] at hw; cases hw; exact le_rfl
        · exact le_of_lt (lt_of_le_of_lt (h4 j w (by omega) hw) hv)
    · rw [if_neg hv]
      apply ih (i + 1) best v hd h1 (by omega) h3
      intro j w hj hw
      by_cases hji : j = i
      · subst hji; rw [hy] at hw; cases hw; omega
      · exact h4 j w (by omega) hw

theorem minLoop_spec (l : List Nat) (ys : List Nat) : ∀ (i best v : Nat), l.drop i = ys → l[best]? = some v → best < i →
    (∀ (j w : Nat), j < best → l[j]? = some w → v < w) → (∀ (j w : Nat), j < i → l[j]? = some w → v ≤ w) →
    ∃ u : Nat, l[minLoop ys i best v]? = some u ∧ (∀ (j w : Nat), j < minLoop ys i best v → l[j]? = some w → u < w) ∧
      ∀ (j w : Nat), l[j]? = some w → u ≤ w := by
  induction ys with
  | nil =>
    intro i best v h0 h1 h2 h3 h4
    refine ⟨v, h1, h3, ?_⟩
    intro j w hj
    apply h4 j w _ hj
    have := List.drop_eq_nil_iff.1 h0
    by_contra hc
    rw [List.getElem?_eq_none (by omega)] at hj
    cases hj
  | cons y ys ih =>
    intro i best v h0 h1 h2 h3 h4
    have hy : l[i]? = some y := by
      have := congrArg (fun m => m[0]?) h0
      simpa using this
    have hd : l.drop (i + 1) = ys := by
      rw [← List.drop_drop, h0]; rfl
    unfold minLoop
    by_cases hv : y < v
    · rw [if_pos hv]
      apply ih (i + 1) i y hd hy (by omega)
      · intro j w hj hw; exact lt_of_lt_of_le hv (h4 j w hj hw)
      · intro j w hj hw
        by_cases hji : j = i
        · subst hji; rw [hy] at hw; cases hw; exact le_rfl
        · exact le_of_lt (lt_of_lt_of_le hv (h4 j w (by omega) hw))
    · rw [if_neg hv]
      apply ih (i + 1) best v hd h1 (by omega) h3
      intro j w hj hw
      by_cases hji : j = i
      · subst hji; rw [hy] at hw; cases hw; omega
      · exact h4 j w (by omega) hw

/-- C64: after a reset the index of the fullest bin is defined and is the first bin of maximal count. -/
theorem max_bin (h : Hist) (hw : h.WF) (hn : 0 < h.n) (pts : List ScanPoint) (h' : Hist)
    (hr : h.reset pts = some h') : ∃ k, maxI h' = some k ∧ FirstFullest h.n (pairAngles pts) k ∧
      h'.hist[k]? = some (binCount h.n k (pairAngles pts)) := by
  obtain ⟨h'', e, hw', hn', hc, -⟩ := reset_counts h hw hn pts
  rw [hr] at e; cases e
  have hl : h'.hist.length = h.n := by rw [hw'.1, hn']
  cases hh : h'.hist with
  | nil => rw [hh] at hl; simp at hl; omega
  | cons x xs =>
    obtain ⟨u, u1, u2, u3⟩ := maxLoop_spec (x :: xs) xs 1 0 x rfl rfl (by omega) (by intro j w hj; omega)
      (by intro j w hj hw; have : j = 0 := by omega
          subst this; simp at hw; omega)
    have hk : maxLoop xs 1 0 x < h.n := by
      by_contra hc'
      rw [List.getElem?_eq_none (by rw [← hh, hl]; omega)] at u1; cases u1
    have hcu : u = binCount h.n (maxLoop xs 1 0 x) (pairAngles pts) := by
      have := (hc _ hk).1
      rw [hh, u1] at this; exact Option.some.inj this
    refine ⟨maxLoop xs 1 0 x, by simp [maxI, hh], ⟨hk, ?_, ?_⟩, by rw [u1, hcu]⟩
    · intro j hj
      rw [← hcu]
      exact u2 j _ hj (by rw [← hh]; exact (hc j (by omega)).1)
    · intro j hj
      rw [← hcu]
      exact u3 j _ (by rw [← hh]; exact (hc j hj).1)

/-- C64: likewise the first bin of minimal count. -/
theorem min_bin (h : Hist) (hw : h.WF) (hn : 0 < h.n) (pts : List ScanPoint) (h' : Hist)
    (hr : h.reset pts = some h') : ∃ k, minI h' = some k ∧ FirstEmptiest h.n (pairAngles pts) k := by
  obtain ⟨h'', e, hw', hn', hc, -⟩ := reset_counts h hw hn pts
  rw [hr] at e; cases e
  have hl : h'.hist.length = h.n := by rw [hw'.1, hn']
  cases hh : h'.hist with
  | nil => rw [hh] at hl; simp at hl; omega
  | cons x xs =>
    obtain ⟨u, u1, u2, u3⟩ := minLoop_spec (x :: xs) xs 1 0 x rfl rfl (by omega) (by intro j w hj; omega)
      (by intro j w hj hw; have : j = 0 := by omega
          subst this; simp at hw; omega)
    have hk : minLoop xs 1 0 x < h.n := by
      by_contra hc'
      rw [List.getElem?_eq_none (by rw [← hh, hl]; omega)] at u1; cases u1
    have hcu : u = binCount h.n (minLoop xs 1 0 x) (pairAngles pts) := by
      have := (hc _ hk).1
      rw [hh, u1] at this; exact Option.some.inj this
    refine ⟨minLoop xs 1 0 x, by simp [minI, hh], ⟨hk, ?_, ?_⟩⟩
    · intro j hj
      rw [← hcu]
      exact u2 j _ hj (by rw [← hh]; exact (hc j (by omega)).1)
    · intro j hj
      rw [← hcu]
      exact u3 j _ (by rw [← hh]; exact (hc j hj).1)

theorem binSum_bounds (n k : Nat) (as : List ℝ) :
    (binCount n k as : ℝ) * ((k : ℝ) * (Real.pi / n)) ≤ binSum n k as ∧
    (0 < binCount n k as → binSum n k as < (binCount n k as : ℝ) * (((k : ℝ) + 1) * (Real.pi / n))) := by
  classical
  induction as with
  | nil => simp [binCount, binSum]
  | cons a as ih =>
    by_cases ha : InBin n k a
    · have e1 : binCount n k (a :: as) = binCount n k as + 1 := by simp [binCount, ha]
      have e2 : binSum n k (a :: as) = a + binSum n k as := by simp [binSum, ha]
      rw [e1, e2]
      push_cast
      obtain ⟨h1, h2⟩ := ha
      refine ⟨by linarith [ih.1], fun _ => ?_⟩
      by_cases h0 : 0 < binCount n k as
      · linarith [ih.2 h0]
      · have h00 : binCount n k as = 0 := by omega
        have : binSum n k as = 0 := by
          have h3 : as.filter (fun a => decide (InBin n k a)) = [] := by
            rw [List.filter_eq_nil_iff]
            unfold binCount at h00
            rw [List.countP_eq_zero] at h00
            exact h00
          simp [binSum, h3]
        rw [h00, this]; push_cast; linarith
    · have e1 : binCount n k (a :: as) = binCount n k as := by simp [binCount, ha]
      have e2 : binSum n k (a :: as) = binSum n k as := by simp [binSum, ha]
      rw [e1, e2]; exact ih

/-- C64: for a scan of at least two points the major direction is a number, the mean of the directions in the first
fullest bin, and lies in that bin (hence in `[0, π)`). -/
theorem major_direction_spec (h : Hist) (hw : h.WF) (hn : 0 < h.n) (pts : List ScanPoint) (h2 : 2 ≤ pts.length)
    (h' : Hist) (hr : h.reset pts = some h') : ∃ k a, majorDirection h' = some (some a) ∧
      FirstFullest h.n (pairAngles pts) k ∧
      a = binSum h.n k (pairAngles pts) / (binCount h.n k (pairAngles pts) : ℝ) ∧ InBin h.n k a := by
  obtain ⟨k, hk, hf, hc⟩ := max_bin h hw hn pts h' hr
  obtain ⟨h'', e, -, -, hcs, -⟩ := reset_counts h hw hn pts
  rw [hr] at e; cases e
  have hpos : 0 < binCount h.n k (pairAngles pts) := by
    by_contra h0
    have hall : ∀ j, j < h.n → binCount h.n j (pairAngles pts) = 0 := fun j hj => by have := hf.2.2 j hj; omega
    have hs := sum_indicator h.n (pairAngles pts) hn (pairAngles_range pts)
    rw [pairAngles_length] at hs
    have : ((List.range h.n).map fun k => binCount h.n k (pairAngles pts)).sum = 0 := by
      apply List.sum_eq_zero
      intro x hx
      obtain ⟨j, hj, rfl⟩ := List.mem_map.1 hx
      exact hall j (List.mem_range.1 hj)
    omega
  have hposR : (0 : ℝ) < binCount h.n k (pairAngles pts) := by exact_mod_cast hpos
  refine ⟨k, _, ?_, hf, rfl, ?_, ?_⟩
  · simp only [majorDirection, hk, Option.bind_some, meanBinAngle, (hcs k hf.1).2, hc, Option.map_some]
    rw [if_neg (by omega)]
  · rw [le_div_iff₀ hposR]
    have := (binSum_bounds h.n k (pairAngles pts)).1
    linarith
  · rw [div_lt_iff₀ hposR]
    have := (binSum_bounds h.n k (pairAngles pts)).2 hpos
    linarith

/-- C64: the minor direction is undefined as soon as some bin is empty, in particular for every scan with no more
points than bins. -/
theorem minor_direction_undefined (h : Hist) (hw : h.WF) (hn : 0 < h.n) (pts : List ScanPoint) (h' : Hist)
    (hr : h.reset pts = some h')
    (he : pts.length ≤ h.n ∨ ∃ j, j < h.n ∧ binCount h.n j (pairAngles pts) = 0) :
    minorDirection h' = some none := by
  obtain ⟨k, hk, hf⟩ := min_bin h hw hn pts h' hr
  obtain ⟨h'', e, -, -, hcs, -⟩ := reset_counts h hw hn pts
  rw [hr] at e; cases e
  have he' : ∃ j, j < h.n ∧ binCount h.n j (pairAngles pts) = 0 := by
    rcases he with he | he
    · by_contra hc
      push Not at hc
      have hs := sum_indicator h.n (pairAngles pts) hn (pairAngles_range pts)
      rw [pairAngles_length] at hs
      have : h.n ≤ ((List.range h.n).map fun k => binCount h.n k (pairAngles pts)).sum := by
        have h1 : ∀ m, m ≤ h.n → m ≤ ((List.range m).map fun k => binCount h.n k (pairAngles pts)).sum := by
          intro m
          induction m with
          | zero => simp
          | succ m ih =>
            intro hm
            rw [List.range_succ, List.map_append, List.sum_append]
            simp only [List.map_cons, List.map_nil, List.sum_cons, List.sum_nil]
            have := hc m (by omega)
            have := ih (by omega)
            omega
        exact h1 _ le_rfl
      omega
    · exact he
  obtain ⟨j, hj, h0⟩ := he'
  have h00 : binCount h.n k (pairAngles pts) = 0 := by have := hf.2.2 j hj; omega
  simp [minorDirection, hk, meanBinAngle, (hcs k hf.1).1, (hcs k hf.1).2, h00]

/-- C64: if no bin is empty it is the mean of the first emptiest bin and lies in it. -/
theorem minor_direction_spec (h : Hist) (hw : h.WF) (hn : 0 < h.n) (pts : List ScanPoint) (h' : Hist)
    (hr : h.reset pts = some h') (hall : ∀ j, j < h.n → 0 < binCount h.n j (pairAngles pts)) :
    ∃ k a, minorDirection h' = some (some a) ∧ FirstEmptiest h.n (pairAngles pts) k ∧
      a = binSum h.n k (pairAngles pts) / (binCount h.n k (pairAngles pts) : ℝ) ∧ InBin h.n k a := by
  obtain ⟨k, hk, hf⟩ := min_bin h hw hn pts h' hr
  obtain ⟨h'', e, -, -, hcs, -⟩ := reset_counts h hw hn pts
  rw [hr] at e; cases e
  have hpos := hall k hf.1
  have hposR : (0 : ℝ) < binCount h.n k (pairAngles pts) := by exact_mod_cast hpos
  refine ⟨k, _, ?_, hf, rfl, ?_, ?_⟩
  · simp only [minorDirection, hk, Option.bind_some, meanBinAngle, (hcs k hf.1).1, (hcs k hf.1).2, Option.map_some]
    rw [if_neg (by omega)]
  · rw [le_div_iff₀ hposR]
    have := (binSum_bounds h.n k (pairAngles pts)).1
    linarith
  · rw [div_lt_iff₀ hposR]
    have := (binSum_bounds h.n k (pairAngles pts)).2 hpos
    linarith

/-! ## The polar enumerator -/

/-- What the constructor asserts. -/
structure PolarParams.Ok (p : PolarParams) : Prop where
  dir : p.fromDir ≤ p.toDir
  dst : p.fromDst ≤ p.toDst
  sdir : 0 < p.stepDir
  sdst : 0 < p.stepDst

/-- "the loop started in state `e` tests exactly `ts`", whatever the scores. -/
def Goes (P : PolarParams) (score : Pose ℝ → Option ℝ) (e : PolarState) (ts : List (Pose ℝ)) (e' : PolarState) : Prop :=
  ∀ b p, ∃ b' p', Tests (polar P) score e b p ts e' b' p'

theorem add_displaced (base : Pose ℝ) (a d : ℝ) :
    base.add ⟨Real.cos a * d, Real.sin a * d, 0⟩ = displaced base a d := by
  simp only [Pose.add, displaced, add_zero, mul_comm d]

theorem goes_step (P : PolarParams) (score : Pose ℝ → Option ℝ) (base : Pose ℝ) (a d : ℝ)
    (ts : List (Pose ℝ)) (e' : PolarState) (hd : d ≤ P.toDst)
    (h : Goes P score ((polar P).feedback ⟨some base, a, d⟩ false) ts e') :
    Goes P score ⟨some base, a, d⟩ (displaced base a d :: ts) e' := by
  intro b p
  have hn : (polar P).hasNext ⟨some base, a, d⟩ = true := by simpa [polar] using hd
  have hq : (polar P).next ⟨some base, a, d⟩ b = (displaced base a d, ⟨some base, a, d⟩) := by
    simp [polar, add_displaced]
  have hq1 : ((polar P).next ⟨some base, a, d⟩ b).1 = displaced base a d := by rw [hq]
  have hq2 : ((polar P).next ⟨some base, a, d⟩ b).2 = ⟨some base, a, d⟩ := by rw [hq]
  rw [← hq1]
  by_cases ha : ltN p (score (displaced base a d)) = true
  · obtain ⟨b', p', h'⟩ := h (displaced base a d) (score (displaced base a d))
    refine ⟨b', p', .better (E := polar P) _ _ _ _ _ _ _ hn (by rw [hq1]; exact ha) ?_⟩
    rw [hq1, hq2]; exact h'
  · obtain ⟨b', p', h'⟩ := h b p
    refine ⟨b', p', .worse (E := polar P) _ _ _ _ _ _ _ hn (by rw [hq1]; exact Bool.eq_false_iff.2 ha) ?_⟩
    rw [hq2]; exact h'

theorem goes_row (P : PolarParams) (hP : P.Ok) (score : Pose ℝ → Option ℝ) (base : Pose ℝ) (d : ℝ)
    (hd : d ≤ P.toDst) (rest : List (Pose ℝ)) (e' : PolarState)
    (hrest : Goes P score ⟨some base, P.fromDir, d + P.stepDst⟩ rest e') :
    Goes P score ⟨some base, P.fromDir, d⟩
      ((progression P.fromDir P.stepDir ⌈(P.toDir - P.fromDir) / P.stepDir⌉₊).map (fun a => displaced base a d)
        ++ rest) e' := by
  set n := ⌈(P.toDir - P.fromDir) / P.stepDir⌉₊ with hn
  have key : ∀ k i, i ≤ n → n - i = k → Goes P score ⟨some base, P.fromDir + (i : ℝ) * P.stepDir, d⟩
      ((progFrom P.fromDir P.stepDir i n).map (fun a => displaced base a d) ++ rest) e' := by
    intro k
    induction k with
    | zero =>
      intro i hi hk
      have hin : i = n := by omega
      rw [progFrom_cons _ _ _ _ hi]
      subst hin
      rw [progFrom_nil]
      apply goes_step P score base _ d _ _ hd
      have hx : ¬ (P.fromDir + (n : ℝ) * P.stepDir < P.toDir) := by
        rw [prog_ceil _ _ _ hP.sdir, ← hn]; omega
      simp only [polar, hx, if_false, List.map_nil]
      exact hrest
    | succ k ih =>
      intro i hi hk
      rw [progFrom_cons _ _ _ _ hi]
      apply goes_step P score base _ d _ _ hd
      have hx : P.fromDir + (i : ℝ) * P.stepDir < P.toDir := by
        rw [prog_ceil _ _ _ hP.sdir, ← hn]; omega
      simp only [polar, hx, if_true]
      have := ih (i + 1) (by omega) (by omega)
      have e : P.fromDir + ((i + 1 : Nat) : ℝ) * P.stepDir = P.fromDir + (i : ℝ) * P.stepDir + P.stepDir := by
        push_cast; ring
      rw [e] at this
      exact this
  have := key n 0 (by omega) (by omega)
  simpa [progFrom_zero] using this

theorem goes_all (P : PolarParams) (hP : P.Ok) (score : Pose ℝ → Option ℝ) (base : Pose ℝ) :
    ∃ e', e'.base = some base ∧ Goes P score ⟨some base, P.fromDir, P.fromDst⟩
      ((polarGrid P).map fun ad => displaced base ad.1 ad.2) e' := by
  set n := ⌊(P.toDst - P.fromDst) / P.stepDst⌋₊ with hn
  set row := fun d => (progression P.fromDir P.stepDir ⌈(P.toDir - P.fromDir) / P.stepDir⌉₊).map
    (fun a => displaced base a d) with hrow
  set e' : PolarState := ⟨some base, P.fromDir, P.fromDst + ((n + 1 : Nat) : ℝ) * P.stepDst⟩ with he'
  have hend : Goes P score e' [] e' := by
    intro b p
    refine ⟨b, p, .done _ _ _ ?_⟩
    have : ¬ (P.fromDst + ((n + 1 : Nat) : ℝ) * P.stepDst ≤ P.toDst) := by
      rw [prog_floor _ _ _ hP.sdst hP.dst, ← hn]; omega
    simpa [polar, he'] using this
  have key : ∀ k i, i ≤ n → n - i = k → Goes P score ⟨some base, P.fromDir, P.fromDst + (i : ℝ) * P.stepDst⟩
      ((progFrom P.fromDst P.stepDst i n).flatMap row) e' := by
    intro k
    induction k with
    | zero =>
      intro i hi hk
      have hin : i = n := by omega
      rw [progFrom_cons _ _ _ _ hi]
      subst hin
      rw [progFrom_nil, List.flatMap_cons, List.flatMap_nil]
      apply goes_row P hP score base
      · rw [prog_floor _ _ _ hP.sdst hP.dst, ← hn]
      · have e : P.fromDst + ((n + 1 : Nat) : ℝ) * P.stepDst = P.fromDst + (n : ℝ) * P.stepDst + P.stepDst := by
          push_cast; ring
        rw [← e]; exact hend
    | succ k ih =>
      intro i hi hk
      rw [progFrom_cons _ _ _ _ hi, List.flatMap_cons]
      apply goes_row P hP score base
      · rw [prog_floor _ _ _ hP.sdst hP.dst, ← hn]; exact hi
      · have := ih (i + 1) (by omega) (by omega)
        have e : P.fromDst + ((i + 1 : Nat) : ℝ) * P.stepDst = P.fromDst + (i : ℝ) * P.stepDst + P.stepDst := by
          push_cast; ring
        rw [e] at this
        exact this
  refine ⟨e', rfl, ?_⟩
  have := key n 0 (by omega) (by omega)
  have hg : (polarGrid P).map (fun ad => displaced base ad.1 ad.2) = (progFrom P.fromDst P.stepDst 0 n).flatMap row := by
    rw [progFrom_zero]
    simp [polarGrid, hrow, List.map_flatMap, Function.comp_def, ← hn]
  rw [hg]
  simpa using this

/-- C63, the polar search: an enumeration with a new enumerator, started at a pose `b`, ends and tests exactly the poses
displaced from `b` by every distance of the grid in every direction of it, distances outermost, orientation
unchanged. -/
theorem polar_run (P : PolarParams) (hP : P.Ok) (score : Pose ℝ → Option ℝ) (b : Pose ℝ) (p : Option ℝ) :
    ∃ e' b' p', Tests (polar P) score (PolarState.init P) b p
      ((polarGrid P).map fun ad => displaced b ad.1 ad.2) e' b' p' := by
  obtain ⟨e', -, hg⟩ := goes_all P hP score b
  obtain ⟨b', p', ht⟩ := hg b p
  refine ⟨e', b', p', ?_⟩
  generalize hl : (polarGrid P).map (fun ad => displaced b ad.1 ad.2) = l at ht
  cases ht with
  | done _ _ _ h => simp [polar] at h; exact absurd hP.dst (not_le.2 h)
  | better _ _ _ ts _ _ _ h ha hr => exact .better (E := polar P) ⟨none, _, _⟩ _ _ _ _ _ _ h ha hr
  | worse _ _ _ ts _ _ _ h ha hr => exact .worse (E := polar P) ⟨none, _, _⟩ _ _ _ _ _ _ h ha hr

/-! ## The detector -/

theorem dropDrift_spec (h : Hist) (hw : h.WF) (hn : 0 < h.n) (drift : Nat) (all : List ScanPoint) (h' : Hist)
    (hr : h.reset all = some h') (ps : List ScanPoint) : ∀ (i : Nat) (prev : ScanPoint),
      all[i]? = some prev → all.drop (i + 1) = ps →
      dropDrift h' all drift (i + 1) ps = some (offDirection (fun a => ∃ j, j < h.n ∧ InBin h.n j a ∧
        binCount h.n j (pairAngles all) = drift) prev ps) := by
  classical
  obtain ⟨h'', e, -, -, hv⟩ := value_is_bin_count h hw hn all
  rw [hr] at e; cases e
  induction ps with
  | nil => intro i prev _ _; rfl
  | cons q qs ih =>
    intro i prev hp hd
    have hq : all[i + 1]? = some q := by
      have := congrArg (fun m => m[0]?) hd
      simpa using this
    have hd' : all.drop (i + 1 + 1) = qs := by rw [← List.drop_drop, hd]; rfl
    obtain ⟨k, k1, k2, k3, -⟩ := hv i prev q hp hq
    have hiff : (∃ j, j < h.n ∧ InBin h.n j (oxAngle prev q) ∧ binCount h.n j (pairAngles all) = drift) ↔
        drift = binCount h.n k (pairAngles all) := by
      constructor
      · rintro ⟨j, -, j2, j3⟩
        rw [← inBin_unique h.n j k hn _ j2 k2, j3]
      · intro e; exact ⟨k, k1, k2, e.symm⟩
    unfold dropDrift
    rw [k3, Option.bind_some, ih (i + 1) q hq hd', Option.map_some]
    conv_rhs => rw [offDirection]
    by_cases hx : drift = binCount h.n k (pairAngles all)
    · rw [if_pos hx, if_pos (hiff.2 hx)]
    · rw [if_neg hx, if_neg (fun hc => hx (hiff.1 hc))]

/-- The six candidate displacements of the detector. -/
noncomputable def sixSteps : List ℝ := [-25 / 100, -15 / 100, -5 / 100, 5 / 100, 15 / 100, 25 / 100]

theorem detector_grid (a s : ℝ) : polarGrid ⟨a, a, s, -25 / 100, 25 / 100, 10 / 100⟩ = sixSteps.map fun d => (a, d) := by
  have h1 : ⌊((25 : ℝ) / 100 - -25 / 100) / (10 / 100)⌋₊ = 5 := by
    rw [show ((25 : ℝ) / 100 - -25 / 100) / (10 / 100) = ((5 : Nat) : ℝ) by norm_num]
    exact Nat.floor_natCast 5
  have h2 : ⌈(a - a) / s⌉₊ = 0 := by simp
  simp only [polarGrid, h1, h2]
  simp only [progression, List.range_succ, List.range_zero, List.nil_append, List.map_append, List.map_cons, List.map_nil,
    List.cons_append, List.flatMap_cons, List.flatMap_nil, List.append_nil, sixSteps, Nat.cast_zero, zero_mul, add_zero]
  norm_num

theorem loop_fuel {S : Type*} (E : Enumerator ℝ S) (score : Pose ℝ → Option ℝ) (f : Nat) : ∀ (f' : Nat) (r a b : Result ℝ S),
    loop E score f r = some a → loop E score f' r = some b → a = b := by
  induction f with
  | zero => intro f' r a b h; simp [loop] at h
  | succ f ih =>
    intro f' r a b h h'
    cases f' with
    | zero => simp [loop] at h'
    | succ f' =>
      unfold loop at h h'
      by_cases hn : E.hasNext r.enum = true
      · rw [if_pos hn] at h h'
        simp only at h h'
        by_cases ha : ltN r.prob (score (E.next r.enum r.best).1) = true
        · rw [if_pos ha] at h h'; exact ih _ _ _ _ h h'
        · rw [if_neg ha] at h h'; exact ih _ _ _ _ h h'
      · rw [if_neg hn] at h h'
        cases h; cases h'; rfl

theorem detect_fuel (f f' : Nat) (score : List ScanPoint → Pose ℝ → Option ℝ) (scan : List ScanPoint) (init : Pose ℝ)
    (sm r r' : Delta ℝ × Option ℝ) (h : detect f score scan init sm = some r)
    (h' : detect f' score scan init sm = some r') : r = r' := by
  unfold detect at h h'
  obtain ⟨hi, e1, h⟩ := Option.bind_eq_some_iff.1 h
  rw [e1, Option.bind_some] at h'
  obtain ⟨di, e2, h⟩ := Option.bind_eq_some_iff.1 h
  rw [e2, Option.bind_some] at h'
  obtain ⟨dd, e3, h⟩ := Option.bind_eq_some_iff.1 h
  rw [e3, Option.bind_some] at h'
  by_cases hc : (dd : ℝ) < 4 / 10 * (scan.length : ℝ)
  · rw [if_pos hc] at h h'; cases h; cases h'; rfl
  · rw [if_neg hc] at h h'
    obtain ⟨rest, e4, h⟩ := Option.bind_eq_some_iff.1 h
    rw [e4, Option.bind_some] at h'
    simp only [Option.map_eq_some_iff] at h h'
    obtain ⟨a, ha, rfl⟩ := h
    obtain ⟨b, hb, rfl⟩ := h'
    rw [loop_fuel _ _ _ _ _ _ _ ha hb]

/-- C63: a detector run always ends without a failed assertion. If no direction bin holds 40% of the points, the wrapped
matcher's answer is returned. Otherwise the six poses displaced from the wrapped matcher's pose by 5, 15 and 25
centimetres either way along the middle of the first fullest bin are tried with the points of the dominant directions
left out; the answer is the pose of highest score among them and the wrapped matcher's own pose, the latter winning
ties and being kept if its score is undefined; the probability returned is that of the whole (filtered) scan there. -/
theorem drift_detector (score : List ScanPoint → Pose ℝ → Option ℝ) (scan : List ScanPoint) (init : Pose ℝ)
    (sm : Delta ℝ × Option ℝ) : ∃ r k, (∀ fuel, 7 ≤ fuel → detect fuel score scan init sm = some r) ∧
      FirstFullest 20 (pairAngles scan) k ∧
      ((binCount 20 k (pairAngles scan) : ℝ) < 4 / 10 * (scan.length : ℝ) → r = sm) ∧
      (4 / 10 * (scan.length : ℝ) ≤ (binCount 20 k (pairAngles scan) : ℝ) →
        ∃ p, r = (p.sub init, score scan p) ∧
          let start := init.add sm.1
          let a := ((k : ℝ) + 1 / 2) * (Real.pi / 20)
          let try_ := score (offDrift scan k)
          (∀ s0, try_ start = some s0 → ∃ s, FirstMax try_ (start :: sixSteps.map (displaced start a)) p s) ∧
          (try_ start = none → p = start)) := by
  have hwf : (Hist.create 20).WF := by simp [Hist.WF, Hist.create]
  have hn0 : (Hist.create 20).n = 20 := rfl
  obtain ⟨h', hr, hw', hn', -, -⟩ := reset_counts (Hist.create 20) hwf (by simp [Hist.create]) scan
  obtain ⟨k, hk, hf, hc⟩ := max_bin (Hist.create 20) hwf (by simp [Hist.create]) scan h' hr
  rw [hn0] at hf hc hn'
  by_cases hlt : (binCount 20 k (pairAngles scan) : ℝ) < 4 / 10 * (scan.length : ℝ)
  · refine ⟨sm, k, fun _ _ => ?_, hf, fun _ => rfl, fun h => absurd hlt (not_lt.2 h)⟩
    simp only [detect, hr, hk, hc, Option.bind_some]
    rw [if_pos hlt]
  · have hdrop : dropDrift h' scan (binCount 20 k (pairAngles scan)) 1 scan.tail = some (offDrift scan k) := by
      cases scan with
      | nil => rfl
      | cons p ps => exact dropDrift_spec (Hist.create 20) hwf (by simp [Hist.create]) _ _ h' hr ps 0 p rfl rfl
    have hstep : h'.angleStep = Real.pi / 20 := by simp [Hist.angleStep, hn']
    set P : PolarParams := ⟨(k : ℝ) * (Real.pi / 20) + Real.pi / 20 / 2, (k : ℝ) * (Real.pi / 20) + Real.pi / 20 / 2,
      Real.pi / 20, -25 / 100, 25 / 100, 10 / 100⟩ with hP
    have hang : (k : ℝ) * (Real.pi / 20) + Real.pi / 20 / 2 = ((k : ℝ) + 1 / 2) * (Real.pi / 20) := by ring
    have hok : P.Ok := ⟨le_rfl, by rw [hP]; norm_num, by rw [hP]; have := Real.pi_pos; positivity, by rw [hP]; norm_num⟩
    obtain ⟨e', b', p', ht⟩ := polar_run P hok (score (offDrift scan k)) (init.add sm.1)
      (score (offDrift scan k) (init.add sm.1))
    have hgrid : ((polarGrid P).map fun ad => displaced (init.add sm.1) ad.1 ad.2) =
        sixSteps.map (displaced (init.add sm.1) (((k : ℝ) + 1 / 2) * (Real.pi / 20))) := by
      rw [hP, detector_grid, List.map_map, ← hang]; rfl
    rw [hgrid] at ht
    refine ⟨(b'.sub init, score scan b'), k, fun fuel hfuel => ?_, hf, fun h => absurd h hlt, fun _ => ⟨b', rfl, ?_, ?_⟩⟩
    · simp only [detect, hr, hk, hc, Option.bind_some]
      rw [if_neg hlt, hdrop]
      simp only [Option.bind_some, Option.map_eq_some_iff, hstep]
      refine ⟨⟨e', b', p', _⟩, (loop_iff _ _ _ _ _).2 ⟨_, ?_, ht, rfl⟩, rfl⟩
      simp only [sixSteps, List.map_cons, List.map_nil, List.length_cons, List.length_nil]
      omega
    · intro s0 hs0
      obtain ⟨s', -, hm⟩ := tests_firstMax _ _ _ _ _ _ _ _ _ ht [init.add sm.1] s0 hs0
        ⟨hs0, [], [], rfl, by simp, by simp⟩
      exact ⟨s', hm⟩
    · intro hnone
      exact (tests_nan _ _ _ _ _ _ _ _ _ ht hnone).2

/-- C63: whatever the scores, the detector moves the wrapped matcher's pose by at most 25 centimetres and never turns
it. -/
theorem drift_detector_moves_little (fuel : Nat) (score : List ScanPoint → Pose ℝ → Option ℝ) (scan : List ScanPoint)
    (init : Pose ℝ) (sm : Delta ℝ × Option ℝ) (r : Delta ℝ × Option ℝ)
    (h : detect fuel score scan init sm = some r) :
    r.1.theta = sm.1.theta ∧ (r.1.x - sm.1.x) ^ 2 + (r.1.y - sm.1.y) ^ 2 ≤ (1 / 4) ^ 2 := by
  obtain ⟨r', k, h', -, h1, h2⟩ := drift_detector score scan init sm
  have hrr : r = r' := detect_fuel _ _ _ _ _ _ _ _ h (h' 7 le_rfl)
  subst hrr
  rcases lt_or_ge (binCount 20 k (pairAngles scan) : ℝ) (4 / 10 * (scan.length : ℝ)) with hl | hl
  · rw [h1 hl]; norm_num
  · obtain ⟨p, rfl, hs, hn⟩ := h2 hl
    have hp : p = init.add sm.1 ∨ ∃ d ∈ sixSteps, p = displaced (init.add sm.1) (((k : ℝ) + 1 / 2) * (Real.pi / 20)) d := by
      cases e : score (offDrift scan k) (init.add sm.1) with
      | none => exact .inl (hn e)
      | some s0 =>
        obtain ⟨s, -, pre, post, hl', -⟩ := hs s0 e
        have hm : p ∈ init.add sm.1 :: sixSteps.map (displaced (init.add sm.1) (((k : ℝ) + 1 / 2) * (Real.pi / 20))) := by
          rw [hl']; simp
        rcases List.mem_cons.1 hm with hm | hm
        · exact .inl hm
        · obtain ⟨d, hd, rfl⟩ := List.mem_map.1 hm
          exact .inr ⟨d, hd, rfl⟩
    rcases hp with rfl | ⟨d, hd, rfl⟩
    · simp [Pose.add, Pose.sub]
    · have hd2 : d ^ 2 ≤ (1 / 4) ^ 2 := by
        simp only [sixSteps, List.mem_cons, List.not_mem_nil, or_false] at hd
        rcases hd with rfl | rfl | rfl | rfl | rfl | rfl <;> norm_num
      refine ⟨by simp [displaced, Pose.add, Pose.sub], ?_⟩
      have e : ∀ c s : ℝ, (init.x + sm.1.x + d * c - init.x - sm.1.x) ^ 2 +
          (init.y + sm.1.y + d * s - init.y - sm.1.y) ^ 2 = d ^ 2 * (c ^ 2 + s ^ 2) := by intro c s; ring
      simp only [displaced, Pose.add, Pose.sub]
      rw [e, Real.cos_sq_add_sin_sq, mul_one]
      exact hd2

/-- Four points: two steps along x, one along y. -/
noncomputable def corner : List ScanPoint :=
  [.cartesian 0 0 true 1, .cartesian 1 0 true 1, .cartesian 2 0 true 1, .cartesian 2 1 true 1]

theorem corner_angles : pairAngles corner = [0, 0, Real.pi / 2] := by
  simp [corner, pairAngles, oxAngle, ScanPoint.x, ScanPoint.y]

theorem corner_bin (k : Nat) : binCount 20 k (pairAngles corner) = if k = 0 then 2 else if k = 10 then 1 else 0 := by
  classical
  have hpi := Real.pi_pos
  have h0 : InBin 20 0 0 := by unfold InBin; push_cast; constructor <;> nlinarith
  have h10 : InBin 20 10 (Real.pi / 2) := by unfold InBin; push_cast; constructor <;> nlinarith
  have e0 : InBin 20 k 0 ↔ k = 0 := ⟨fun h => inBin_unique 20 k 0 (by omega) _ h h0, fun h => h ▸ h0⟩
  have e10 : InBin 20 k (Real.pi / 2) ↔ k = 10 :=
    ⟨fun h => inBin_unique 20 k 10 (by omega) _ h h10, fun h => h ▸ h10⟩
  rw [corner_angles]
  simp only [binCount, List.countP_cons, List.countP_nil, e0, e10]
  by_cases h1 : k = 0
  · subst h1; simp
  · by_cases h2 : k = 10
    · subst h2; simp
    · simp [h1, h2]

theorem corner_fullest (k : Nat) (h : FirstFullest 20 (pairAngles corner) k) : k = 0 := by
  by_contra hk
  have := h.2.2 0 (by omega)
  rw [corner_bin, corner_bin, if_pos rfl, if_neg hk] at this
  split at this <;> omega

/-- Non-vacuity: the corner scan is one that is analysed (two of its four points are reached along x), and its last
point is the only one left for the second search. -/
example : FirstFullest 20 (pairAngles corner) 0 ∧
    4 / 10 * (corner.length : ℝ) ≤ (binCount 20 0 (pairAngles corner) : ℝ) ∧
    offDrift corner 0 = [.cartesian 2 1 true 1] := by
  classical
  have hpi := Real.pi_pos
  have h0 : InBin 20 0 0 := by unfold InBin; push_cast; constructor <;> nlinarith
  have h10 : InBin 20 10 (Real.pi / 2) := by unfold InBin; push_cast; constructor <;> nlinarith
  refine ⟨⟨by omega, by omega, fun j _ => ?_⟩, ?_, ?_⟩
  · rw [corner_bin, corner_bin, if_pos rfl]; split <;> [omega; split <;> omega]
  · rw [corner_bin, if_pos rfl]; norm_num [corner]
  · have hP0 : ∃ j, j < 20 ∧ InBin 20 j 0 ∧ binCount 20 j (pairAngles corner) = binCount 20 0 (pairAngles corner) :=
      ⟨0, by omega, h0, rfl⟩
    have hP1 : ¬ ∃ j, j < 20 ∧ InBin 20 j (Real.pi / 2) ∧
        binCount 20 j (pairAngles corner) = binCount 20 0 (pairAngles corner) := by
      rintro ⟨j, -, j2, j3⟩
      rw [inBin_unique 20 j 10 (by omega) _ j2 h10, corner_bin, corner_bin] at j3
      simp at j3
    have a1 : oxAngle (.cartesian 0 0 true 1) (.cartesian 1 0 true 1) = 0 := by
      simp [oxAngle, ScanPoint.x, ScanPoint.y]
    have a2 : oxAngle (.cartesian 1 0 true 1) (.cartesian 2 0 true 1) = 0 := by
      simp [oxAngle, ScanPoint.x, ScanPoint.y]
    have a3 : oxAngle (.cartesian 2 0 true 1) (.cartesian 2 1 true 1) = Real.pi / 2 := by
      simp [oxAngle, ScanPoint.x, ScanPoint.y]
    unfold offDrift
    simp only [corner] at hP0 hP1 ⊢
    rw [offDirection, a1, if_pos hP0, offDirection, a2, if_pos hP0, offDirection, a3, if_neg hP1, offDirection]

open Classical in
/-- What the detector does not promise: the probability it returns can be lower than the one the wrapped matcher
returned (the line marked `[CtD][Bug]` in the source is reachable). Here the whole scan fits best at the wrapped
matcher's pose, what is left of it does not. -/
theorem drift_detector_can_lose_counterexample : ∃ (score : List ScanPoint → Pose ℝ → Option ℝ)
    (sm : Delta ℝ × Option ℝ) (fuel : Nat) (r : Delta ℝ × Option ℝ) (v w : ℝ),
    sm.2 = score corner (Pose.zero.add sm.1) ∧ sm.2 = some v ∧
    detect fuel score corner Pose.zero sm = some r ∧ r.2 = some w ∧ w < v := by
  have hz : (Pose.zero : Pose ℝ).add Pose.zero = Pose.zero := by simp [Pose.zero, Pose.add]
  let score : List ScanPoint → Pose ℝ → Option ℝ := fun l p =>
    some (if l = corner then (if p = Pose.zero then 1 else 0) else (if p = Pose.zero then 0 else 1))
  obtain ⟨r, k, h1, hf, -, h2⟩ := drift_detector score corner Pose.zero (Pose.zero, some 1)
  obtain rfl := corner_fullest k hf
  obtain ⟨p, hr, hs, -⟩ := h2 (by rw [corner_bin, if_pos rfl]; norm_num [corner])
  have hoff : offDrift corner 0 ≠ corner := by
    intro hc
    have hlen : ∀ (P : ℝ → Prop) (ps : List ScanPoint) (q : ScanPoint), (offDirection P q ps).length ≤ ps.length := by
      intro P ps
      induction ps with
      | nil => intro q; simp [offDirection]
      | cons x xs ih =>
        intro q
        rw [offDirection]
        split
        · exact Nat.le_succ_of_le (ih x)
        · simpa using ih x
    have := congrArg List.length hc
    unfold offDrift at this
    simp only [corner] at this
    have h3 := hlen (fun a => ∃ j, j < 20 ∧ InBin 20 j a ∧
      binCount 20 j (pairAngles corner) = binCount 20 0 (pairAngles corner))
      [.cartesian 1 0 true 1, .cartesian 2 0 true 1, .cartesian 2 1 true 1] (.cartesian 0 0 true 1)
    simp only [corner] at h3
    rw [this] at h3
    simp at h3
  have htry : ∀ q : Pose ℝ, score (offDrift corner 0) q = some (if q = Pose.zero then 0 else 1) := by
    intro q; simp only [score, if_neg hoff]
  simp only [hz] at hs
  obtain ⟨s, h3, pre, post, hl, hpre, hpost⟩ := hs 0 (by rw [htry, if_pos rfl])
  have hp : p ≠ Pose.zero := by
    intro hp
    subst hp
    rw [htry, if_pos rfl] at h3
    cases h3
    set q := displaced (Pose.zero : Pose ℝ) (((0 : ℕ) + 1 / 2) * (Real.pi / 20)) (25 / 100) with hq
    have hq0 : q ≠ Pose.zero := by
      intro he
      have ex : q.x = 0 := by rw [he]; rfl
      have ey : q.y = 0 := by rw [he]; rfl
      simp only [hq, displaced, Pose.zero, zero_add] at ex ey
      have := Real.cos_sq_add_sin_sq ((((0 : ℕ) : ℝ) + 1 / 2) * (Real.pi / 20))
      nlinarith
    have hqm : q ∈ (Pose.zero : Pose ℝ) :: sixSteps.map (displaced Pose.zero (((0 : ℕ) + 1 / 2) * (Real.pi / 20))) := by
      simp [sixSteps, hq]
    rw [hl] at hqm
    have hv : score (offDrift corner 0) q = some 1 := by rw [htry, if_neg hq0]
    rcases List.mem_append.1 hqm with hm | hm
    · have := hpre q hm 1 hv; linarith
    · rcases List.mem_cons.1 hm with hm | hm
      · exact hq0 hm
      · have := hpost q hm 1 hv; linarith
  refine ⟨score, (Pose.zero, some 1), 7, r, 1, 0, ?_, rfl, h1 7 le_rfl, ?_, by norm_num⟩
  · simp [score, hz]
  · rw [hr]; simp [score, hp]

/-- Non-vacuity for the histogram theorems: see `corner`, whose first fullest bin is bin 0. -/
example : ∃ h', (Hist.create 20).reset corner = some h' ∧ minorDirection h' = some none ∧
    ∃ a, majorDirection h' = some (some a) := by
  have hwf : (Hist.create 20).WF := by simp [Hist.WF, Hist.create]
  obtain ⟨h', hr, -⟩ := reset_counts (Hist.create 20) hwf (by simp [Hist.create]) corner
  refine ⟨h', hr, minor_direction_undefined _ hwf (by simp [Hist.create]) _ _ hr (.inl (by simp [corner, Hist.create])), ?_⟩
  obtain ⟨k, a, h, -⟩ := major_direction_spec _ hwf (by simp [Hist.create]) corner (by simp [corner]) _ hr
  exact ⟨a, h⟩

end Slam.Drift
