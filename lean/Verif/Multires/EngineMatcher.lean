import Verif.Multires.Engine
import Mathlib.Tactic.IntervalCases

/-!
# C15: the multi-resolution scan matcher returns a best candidate, and always returns
-/

set_option autoImplicit false
set_option linter.unusedSectionVars false

namespace Slam.Multires
open Slam.Grid Slam.Rect

variable {K : Type*} [Field K] [LinearOrder K] [IsStrictOrderedRing K] [FloorRing K]

/-! ## Dyadic cells -/

/-- Start of the `i`-th of `2^d` even parts of `[-W, W]`. -/
def partLo (W : K) (d i : Nat) : K := -W + i * (2 * W / 2 ^ d)

theorem windowCell_eq (X Y : K) (nx ny i j : Nat) :
    windowCell X Y nx ny i j = ⟨partLo Y ny j, partLo Y ny (j + 1), partLo X nx i, partLo X nx (i + 1)⟩ := by
  simp only [windowCell, partLo, Nat.cast_add, Nat.cast_one]

theorem partLo_double (W : K) (d i : Nat) : partLo W d i = partLo W (d + 1) (2 * i) := by
  simp only [partLo, Nat.cast_mul, Nat.cast_ofNat, pow_succ]
  field_simp

theorem partLo_mid (W : K) (d i : Nat) :
    partLo W d i + (partLo W d (i + 1) - partLo W d i) / 2 = partLo W (d + 1) (2 * i + 1) := by
  simp only [partLo, Nat.cast_mul, Nat.cast_ofNat, Nat.cast_add, Nat.cast_one, pow_succ]
  field_simp
  ring

theorem partLo_len (W : K) (d i : Nat) : partLo W d (i + 1) - partLo W d i = 2 * W / 2 ^ d := by
  simp only [partLo, Nat.cast_add, Nat.cast_one]; ring

theorem partLo_le (W : K) (hW : 0 ≤ W) (d i : Nat) : partLo W d i ≤ partLo W d (i + 1) := by
  have h := partLo_len W d i
  have : 0 ≤ 2 * W / 2 ^ d := by positivity
  linarith

/-- The half of the ancestor that contains the descendant. -/
theorem half_cases (n d i : Nat) (h : d < n) :
    i / 2 ^ (n - (d + 1)) = 2 * (i / 2 ^ (n - d)) ∨ i / 2 ^ (n - (d + 1)) = 2 * (i / 2 ^ (n - d)) + 1 := by
  have e : i / 2 ^ (n - d) = i / 2 ^ (n - (d + 1)) / 2 := by
    rw [Nat.div_div_eq_div_mul, ← pow_succ, show n - (d + 1) + 1 = n - d by omega]
  rw [e]; omega

/-- The ancestor of part `i` (of `2^n`) among `2^d` parts contains it. -/
theorem partLo_anc (W : K) (hW : 0 ≤ W) (n d i : Nat) (h : d ≤ n) :
    partLo W d (i / 2 ^ (n - d)) ≤ partLo W n i ∧ partLo W n (i + 1) ≤ partLo W d (i / 2 ^ (n - d) + 1) := by
  obtain ⟨k, rfl⟩ : ∃ k, n = d + k := ⟨n - d, by omega⟩
  clear h
  induction k with
  | zero => simp
  | succ k ih =>
    have := Nat.div_add_mod i (2 ^ (k + 1))
    have hlt := Nat.mod_lt i (show 0 < 2 ^ (k + 1) by positivity)
    rw [show d + (k + 1) - d = k + 1 by omega]
    set q := i / 2 ^ (k + 1)
    have hw : (0 : K) ≤ 2 * W := by positivity
    have hp : (0 : K) < 2 ^ d := by positivity
    have hp2 : (0 : K) < 2 ^ (k + 1) := by positivity
    have e : ∀ x : K, x * (2 * W / 2 ^ d) = (x * 2 ^ (k + 1)) * (2 * W / 2 ^ (d + (k + 1))) := by
      intro x
      have h : (2 : K) ^ (k + 1) * (2 * W / 2 ^ (d + (k + 1))) = 2 * W / 2 ^ d := by
        rw [pow_add 2 d (k + 1), ← mul_div_assoc, mul_comm (2 ^ (k + 1)) (2 * W), mul_div_mul_right _ _ hp2.ne']
      rw [mul_assoc x, h]
    have hu : (0 : K) ≤ 2 * W / 2 ^ (d + (k + 1)) := by positivity
    have c1 : (q : K) * 2 ^ (k + 1) ≤ i := by
      have : q * 2 ^ (k + 1) ≤ i := Nat.div_mul_le_self _ _
      exact_mod_cast this
    have c2 : (i : K) + 1 ≤ ((q : K) + 1) * 2 ^ (k + 1) := by
      have : i + 1 ≤ (q + 1) * 2 ^ (k + 1) := by
        rw [add_mul, one_mul]
        have : q * 2 ^ (k + 1) = 2 ^ (k + 1) * q := Nat.mul_comm _ _
        omega
      exact_mod_cast this
    simp only [partLo, Nat.cast_add, Nat.cast_one]
    rw [e, e]
    exact ⟨by linarith [mul_le_mul_of_nonneg_right c1 hu], by linarith [mul_le_mul_of_nonneg_right c2 hu]⟩

/-- The candidate point `p` in cell `(i, j)` of the final subdivision. -/
def LeafPoint (X Y : K) (nx ny i j : Nat) (p : Point K) : Prop :=
  p = center (windowCell X Y nx ny i j) ∨
    ((p.x = (windowCell X Y nx ny i j).left ∨ p.x = (windowCell X Y nx ny i j).right) ∧
     (p.y = (windowCell X Y nx ny i j).bot ∨ p.y = (windowCell X Y nx ny i j).top))

/-- The range is an ancestor of the cell `(i, j)` of the final subdivision. -/
def Above (X Y : K) (nx ny i j : Nat) (r : Bounds K) : Prop :=
  ∃ d e, d ≤ nx ∧ e ≤ ny ∧ r = windowCell X Y d e (i / 2 ^ (nx - d)) (j / 2 ^ (ny - e))

theorem windowCell_proper (X Y : K) (hX : 0 ≤ X) (hY : 0 ≤ Y) (nx ny i j : Nat) : Proper (windowCell X Y nx ny i j) := by
  rw [windowCell_eq]
  exact ⟨partLo_le Y hY ny j, partLo_le X hX nx i⟩

theorem windowCell_solid (X Y : K) (hX : 0 ≤ X) (hY : 0 ≤ Y) (nx ny i j : Nat) :
    Solid X Y (windowCell X Y nx ny i j) := by
  refine ⟨windowCell_proper X Y hX hY nx ny i j, fun h => ?_, fun h => ?_⟩
  · rw [windowCell_eq]
    simp only [hside, partLo_len]
    positivity
  · rw [windowCell_eq]
    simp only [vside, partLo_len]
    positivity

theorem leafPoint_mem (X Y : K) (hX : 0 ≤ X) (hY : 0 ≤ Y) (nx ny i j : Nat) (p : Point K)
    (h : LeafPoint X Y nx ny i j p) : p ∈ points (windowCell X Y nx ny i j) := by
  have hp := windowCell_proper X Y hX hY nx ny i j
  obtain ⟨c1, c2, c3, c4⟩ := center_between _ hp
  rcases h with rfl | ⟨h1, h2⟩
  · exact ⟨c1, c2, c3, c4⟩
  · refine ⟨?_, ?_, ?_, ?_⟩
    · rcases h1 with h | h <;> rw [h]; exact hp.2
    · rcases h1 with h | h <;> rw [h]; exact hp.2
    · rcases h2 with h | h <;> rw [h]; exact hp.1
    · rcases h2 with h | h <;> rw [h]; exact hp.1

theorem above_mem (X Y : K) (hX : 0 ≤ X) (hY : 0 ≤ Y) (nx ny i j : Nat) (p : Point K) (r : Bounds K)
    (h : LeafPoint X Y nx ny i j p) (ha : Above X Y nx ny i j r) : p ∈ points r := by
  obtain ⟨d, e, h1, h2, rfl⟩ := ha
  obtain ⟨p1, p2, p3, p4⟩ := leafPoint_mem X Y hX hY nx ny i j p h
  rw [windowCell_eq] at p1 p2 p3 p4
  rw [windowCell_eq]
  obtain ⟨x1, x2⟩ := partLo_anc X hX nx d i h1
  obtain ⟨y1, y2⟩ := partLo_anc Y hY ny e j h2
  exact ⟨le_trans x1 p1, le_trans p2 x2, le_trans y1 p3, le_trans p4 y2⟩

theorem partLo_within (W : K) (hW : 0 ≤ W) (d i : Nat) (h : i < 2 ^ d) : -W ≤ partLo W d i ∧ partLo W d (i + 1) ≤ W := by
  obtain ⟨h1, h2⟩ := partLo_anc W hW d 0 i (Nat.zero_le _)
  rw [Nat.sub_zero, Nat.div_eq_of_lt h] at h1 h2
  simp only [partLo, Nat.cast_zero, zero_mul, add_zero, pow_zero, div_one, zero_add, Nat.cast_one, one_mul] at h1 h2
  simp only [partLo]
  exact ⟨h1, le_trans h2 (by linarith)⟩

/-- Ancestors are inside the window. -/
theorem above_inside (X Y : K) (hX : 0 ≤ X) (hY : 0 ≤ Y) (nx ny i j : Nat) (hi : i < 2 ^ nx) (hj : j < 2 ^ ny) (r : Bounds K)
    (ha : Above X Y nx ny i j r) : points r ⊆ points (entireRange X Y) := by
  obtain ⟨d, e, h1, h2, rfl⟩ := ha
  have key : ∀ n d i : Nat, d ≤ n → i < 2 ^ n → i / 2 ^ (n - d) < 2 ^ d := by
    intro n d i h hi
    rw [Nat.div_lt_iff_lt_mul (by positivity), ← pow_add]
    rwa [show d + (n - d) = n by omega]
  obtain ⟨x1, x2⟩ := partLo_within X hX d _ (key nx d i h1 hi)
  obtain ⟨y1, y2⟩ := partLo_within Y hY e _ (key ny e j h2 hj)
  rintro q ⟨q1, q2, q3, q4⟩
  rw [windowCell_eq] at q1 q2 q3 q4
  exact ⟨le_trans x1 q1, le_trans q2 x2, le_trans y1 q3, le_trans q4 y2⟩

theorem less_iff (step w : K) : less step w = true ↔ step - 1 / 2 ^ 52 < w := by
  simp only [less, decide_eq_true_eq]
  constructor <;> intro h <;> linarith

/-- Branching decisions on dyadic ranges. -/
theorem branch_iff (step W : K) (n : Nat) (h : Halvings (step - 1 / 2 ^ 52) (2 * W) n) (d : Nat) (hd : d ≤ n) :
    less step (2 * W / 2 ^ d) = decide (d < n) := by
  rcases Nat.lt_or_ge d n with hlt | hge
  · rw [decide_eq_true hlt, less_iff]
    exact h.2 d hlt
  · have : d = n := by omega
    subst this
    rw [decide_eq_false (lt_irrefl _)]
    rw [← Bool.not_eq_true, less_iff, not_lt]
    exact h.1

theorem above_branch (step X Y : K) (nx ny i j : Nat) (hx : Halvings (step - 1 / 2 ^ 52) (2 * X) nx)
    (hy : Halvings (step - 1 / 2 ^ 52) (2 * Y) ny) (r : Bounds K) (ha : Above X Y nx ny i j r) :
    (∀ rs, finer step r = some rs → ∃ r' ∈ rs, Above X Y nx ny i j r') ∧
    (finer step r = none → r = windowCell X Y nx ny i j) := by
  obtain ⟨d, e, h1, h2, rfl⟩ := ha
  have hh : hside (windowCell X Y d e (i / 2 ^ (nx - d)) (j / 2 ^ (ny - e))) = 2 * X / 2 ^ d := by
    rw [windowCell_eq]; exact partLo_len X d _
  have hv : vside (windowCell X Y d e (i / 2 ^ (nx - d)) (j / 2 ^ (ny - e))) = 2 * Y / 2 ^ e := by
    rw [windowCell_eq]; exact partLo_len Y e _
  have hcx : (center (windowCell X Y d e (i / 2 ^ (nx - d)) (j / 2 ^ (ny - e)))).x =
      partLo X (d + 1) (2 * (i / 2 ^ (nx - d)) + 1) := by
    rw [windowCell_eq]; exact partLo_mid X d _
  have hcy : (center (windowCell X Y d e (i / 2 ^ (nx - d)) (j / 2 ^ (ny - e)))).y =
      partLo Y (e + 1) (2 * (j / 2 ^ (ny - e)) + 1) := by
    rw [windowCell_eq]; exact partLo_mid Y e _
  have eX := partLo_double X d (i / 2 ^ (nx - d))
  have eX' := partLo_double X d (i / 2 ^ (nx - d) + 1)
  have eY := partLo_double Y e (j / 2 ^ (ny - e))
  have eY' := partLo_double Y e (j / 2 ^ (ny - e) + 1)
  unfold finer
  rw [hh, hv, branch_iff step X nx hx d h1, branch_iff step Y ny hy e h2]
  by_cases hdx : d < nx <;> by_cases hdy : e < ny
  · simp only [hdx, hdy, decide_true, Option.some.injEq, reduceCtorEq, IsEmpty.forall_iff, and_true]
    rintro rs rfl
    simp only [split4, hcx, hcy, List.mem_cons, List.not_mem_nil, or_false, exists_eq_or_imp, exists_eq_left]
    rcases half_cases nx d i hdx with qx | qx <;> rcases half_cases ny e j hdy with qy | qy
    · left; refine ⟨d + 1, e + 1, hdx, hdy, ?_⟩
      rw [qx, qy, windowCell_eq, windowCell_eq]; simp only [eX, eY]
    · right; left; refine ⟨d + 1, e + 1, hdx, hdy, ?_⟩
      rw [qx, qy, windowCell_eq, windowCell_eq]; simp only [eX, eY']; rfl
    · right; right; left; refine ⟨d + 1, e + 1, hdx, hdy, ?_⟩
      rw [qx, qy, windowCell_eq, windowCell_eq]; simp only [eX', eY]; rfl
    · right; right; right; refine ⟨d + 1, e + 1, hdx, hdy, ?_⟩
      rw [qx, qy, windowCell_eq, windowCell_eq]; simp only [eX', eY']; rfl
  · simp only [hdx, hdy, decide_true, decide_false, Option.some.injEq, reduceCtorEq, IsEmpty.forall_iff, and_true]
    rintro rs rfl
    simp only [splitHorz, hcx, List.mem_cons, List.not_mem_nil, or_false, exists_eq_or_imp, exists_eq_left]
    rcases half_cases nx d i hdx with qx | qx
    · left; refine ⟨d + 1, e, hdx, h2, ?_⟩
      rw [qx, windowCell_eq, windowCell_eq]; simp only [eX]
    · right; refine ⟨d + 1, e, hdx, h2, ?_⟩
      rw [qx, windowCell_eq, windowCell_eq]; simp only [eX']; rfl
  · simp only [hdx, hdy, decide_true, decide_false, Option.some.injEq, reduceCtorEq, IsEmpty.forall_iff, and_true]
    rintro rs rfl
    simp only [splitVert, hcy, List.mem_cons, List.not_mem_nil, or_false, exists_eq_or_imp, exists_eq_left]
    rcases half_cases ny e j hdy with qy | qy
    · left; refine ⟨d, e + 1, h1, hdy, ?_⟩
      rw [qy, windowCell_eq, windowCell_eq]; simp only [eY]
    · right; refine ⟨d, e + 1, h1, hdy, ?_⟩
      rw [qy, windowCell_eq, windowCell_eq]; simp only [eY']; rfl
  · have : d = nx := by omega
    have : e = ny := by omega
    subst d e
    simp only [hdx, hdy, decide_false, reduceCtorEq, IsEmpty.forall_iff, implies_true, true_and]
    simp

/-! ## Optimality -/

theorem pointRect_inj_mem (p : Point K) : p ∈ crucialPoints (pointRect p) := by
  simp [crucialPoints, pointRect]

theorem finer_pointRect (step : K) (hstep : 1 / 2 ^ 52 ≤ step) (p : Point K) : finer step (pointRect p) = none := by
  have : less step 0 = false := by
    simp only [less, zero_add, decide_eq_false_iff_not, not_lt]; exact hstep
  simp [finer, hside, vside, pointRect, this]

/-- C15, one candidate: if the bounds of the ranges that contain the translation `p` are at least its score, up to `η`, then
the match the search ends with scores, up to `δ + η`, at least as high. Nothing is asked of the bounds of other ranges. -/
theorem result_beats (S : Search K) (X Y η δ : K) (hη : 0 ≤ η)
    (hδ : 0 ≤ δ) (hd : 0 ≤ S.diff) (h0 : ∀ q a r, 0 ≤ S.score q a r) (sector res step : K) (hX : 0 ≤ X) (hY : 0 ≤ Y) (hsec : 0 ≤ sector)
    (hres : 0 < res) (hstep : 1 / 2 ^ 52 ≤ step) (fuel : Nat) (reqs : List Nat) (hne : reqs ≠ []) (e : Engine K)
    (m : Match K) (he : Engine.requests S X Y sector res fuel reqs Engine.init = some e) (hm : Result S δ step e m) :
    (m.req ∈ reqs ∧ (∃ k : Nat, (m.rot = k * res ∨ m.rot = -(k * res)) ∧ lessOrEqual (2 * (k * res)) sector = true) ∧
      ∃ t, m.drift = pointRect t ∧ t ∈ points (entireRange X Y) ∧ S.ub m = S.score m.req m.rot (pointRect t)) ∧
    ∀ q ∈ reqs, ∀ a, IsRotation sector res a → ∀ p, IsTranslation X Y step p →
      (∀ r, Solid X Y r → points r ⊆ points (entireRange X Y) → p ∈ points r →
        S.score q a (pointRect p) ≤ S.score q a r + η) →
      S.score q a (pointRect p) ≤ S.ub m + δ + η := by
  obtain ⟨rots, hr⟩ : ∃ rots, rotations sector res fuel 0 = some rots := by
    cases hrot : rotations sector res fuel 0 with
    | some l => exact ⟨l, rfl⟩
    | none =>
      exfalso
      cases reqs with
      | nil => exact hne rfl
      | cons x xs => simp [Engine.requests, Engine.request, hrot] at he
  obtain ⟨i1, i2, i3⟩ := after_requests S hd h0 X Y sector res hX hY hsec hres fuel rots hr reqs hne e he
  obtain ⟨e1, hsteps, e', hret, hfin⟩ := hm
  let P : Match K → Prop := fun m => m.req ∈ reqs ∧ m.rot ∈ rots ∧ points m.drift ⊆ points (entireRange X Y)
  have hP : Narrows P := fun m r h _ _ hsub => ⟨h.1, h.2.1, fun _ hx => h.2.2 (hsub hx)⟩
  have inv : ∀ e1, Relation.ReflTransGen (SearchStep S δ step) e e1 →
      AllProper e1 ∧ HoldsBest S e1 ∧ ∀ m ∈ e1.queue, P m := by
    intro e1 hs
    induction hs with
    | refl => exact ⟨i1, i2, i3⟩
    | tail _ hs ih =>
      obtain ⟨j1, j2, j3⟩ := ih
      have hst := step_all S δ step P hP _ _ hs j1 j3
      exact ⟨hst.1, step_holdsBest S hd δ step hstep _ _ hs j1 j2, hst.2⟩
  obtain ⟨k1, k2, k3⟩ := inv e1 hsteps
  have hmq : m ∈ e1.queue := hret.1.1.mem_iff.2 (by simp)
  constructor
  · obtain ⟨p1, p2, p3⟩ := k3 m hmq
    refine ⟨p1, ?_, ?_⟩
    · obtain ⟨k, h1, h2⟩ := rotations_only sector res fuel 0 rots hr m.rot p2
      rw [zero_add] at h1 h2
      exact ⟨k, h1, h2⟩
    · obtain ⟨s1, s2⟩ := finest_sides (k1 m hmq) hfin
      have hdr : m.drift = pointRect ⟨m.drift.left, m.drift.bot⟩ := by
        have a1 : m.drift.right = m.drift.left := sub_eq_zero.1 s1
        have a2 : m.drift.top = m.drift.bot := sub_eq_zero.1 s2
        generalize m.drift = r at *
        cases r
        simp only [pointRect] at *
        rw [a1, a2]
      refine ⟨⟨m.drift.left, m.drift.bot⟩, hdr, ?_, ?_⟩
      · apply p3
        exact ⟨le_rfl, (k1 m hmq).2, le_rfl, (k1 m hmq).1⟩
      · unfold Search.ub; rw [← hdr]
  · intro q hq a ha p hp hadm
    have harots : a ∈ rots := by
      obtain ⟨k, h1, h2⟩ := ha
      exact rotations_mem sector res hres fuel 0 rots hr k (by rw [zero_add]; exact h2) a (by rw [zero_add]; exact h1)
    -- the ranges that lead to the candidate
    obtain ⟨Lead, l1, l2, l3, l4⟩ : ∃ Lead : Bounds K → Prop,
        (∀ r, Lead r → S.score q a (pointRect p) ≤ S.score q a r + η) ∧
        (∀ r rs, Lead r → finer step r = some rs → ∃ r' ∈ rs, Lead r') ∧
        (∀ r, Lead r → finer step r = none → ∃ t ∈ crucialPoints r, Lead (pointRect t)) ∧
        (Lead (pointRect ⟨0, 0⟩) ∨ Lead (entireRange X Y)) := by
      have hself : S.score q a (pointRect p) ≤ S.score q a (pointRect p) + η := by linarith
      rcases hp with rfl | ⟨nx, ny, i, j, hx, hy, hi, hj, hleaf⟩
      · refine ⟨fun r => r = pointRect ⟨0, 0⟩, ?_, ?_, ?_, .inl rfl⟩
        · rintro r rfl; exact hself
        · rintro r rs rfl hf; rw [finer_pointRect step hstep] at hf; cases hf
        · rintro r rfl _
          exact ⟨⟨0, 0⟩, pointRect_inj_mem _, rfl⟩
      · refine ⟨fun r => r = pointRect p ∨ Above X Y nx ny i j r, ?_, ?_, ?_, .inr (.inr ?_)⟩
        · rintro r (rfl | ha)
          · exact hself
          · refine hadm r ?_ ?_ (above_mem X Y hX hY nx ny i j p r hleaf ha)
            · obtain ⟨d, e, -, -, rfl⟩ := ha
              exact windowCell_solid X Y hX hY _ _ _ _
            · exact above_inside X Y hX hY nx ny i j hi hj r ha
        · rintro r rs (rfl | ha) hf
          · rw [finer_pointRect step hstep] at hf; cases hf
          · obtain ⟨r', h1, h2⟩ := (above_branch step X Y nx ny i j hx hy r ha).1 rs hf
            exact ⟨r', h1, .inr h2⟩
        · rintro r (rfl | ha) hf
          · exact ⟨p, pointRect_inj_mem _, .inl rfl⟩
          · have hrw := (above_branch step X Y nx ny i j hx hy r ha).2 hf
            refine ⟨p, ?_, .inl rfl⟩
            rw [hrw]
            rcases hleaf with h | ⟨h1, h2⟩
            · rw [h]; simp [crucialPoints]
            · have hpe : p = ⟨p.x, p.y⟩ := rfl
              rw [hpe]
              rcases h1 with h1 | h1 <;> rcases h2 with h2 | h2 <;> rw [h1, h2] <;> simp [crucialPoints]
        · refine ⟨0, 0, Nat.zero_le _, Nat.zero_le _, ?_⟩
          rw [Nat.sub_zero, Nat.sub_zero, Nat.div_eq_of_lt hi, Nat.div_eq_of_lt hj]
          simp only [entireRange, windowCell, pow_zero, div_one, Nat.cast_zero, zero_mul, zero_add, one_mul, add_zero,
            Bounds.mk.injEq, true_and]
          exact ⟨by ring, by ring⟩
    let Cov : Match K → Prop := fun m => m.req = q ∧ m.rot = a ∧ Lead m.drift
    have hT : Tracks S step η (S.score q a (pointRect p)) Cov := by
      constructor
      · rintro m ⟨rfl, rfl, h3⟩
        exact l1 _ h3
      · rintro m rs ⟨h1, h2, h3⟩ hf
        obtain ⟨r, hr, hpr⟩ := l2 _ rs h3 hf
        exact ⟨r, hr, h1, h2, hpr⟩
    have hcov : Covered η (S.score q a (pointRect p)) Cov e := by
      rw [requests_eq S X Y sector res fuel rots hr] at he
      injection he with he
      rw [← he]
      rcases l4 with l4 | l4
      · refine covered_new S η _ Cov hT.bound _ _ ⟨q, a, pointRect ⟨0, 0⟩⟩ ?_ ⟨rfl, rfl, l4⟩
        simp only [List.mem_flatMap]
        exact ⟨q, hq, a, harots, by simp⟩
      · refine covered_new S η _ Cov hT.bound _ _ ⟨q, a, entireRange X Y⟩ ?_ ⟨rfl, rfl, l4⟩
        simp only [List.mem_flatMap]
        exact ⟨q, hq, a, harots, by simp⟩
    have hc1 : Covered η (S.score q a (pointRect p)) Cov e1 := by
      clear hret k1 k2 k3 hmq
      induction hsteps with
      | refl => exact hcov
      | tail _ hs ih =>
        rcases hs with hs | hs
        · exact covered_branch S δ step η _ Cov hT _ _ hs ih
        · refine covered_refine S δ step η _ Cov hT.bound ?_ _ _ hs ih
          rintro m ⟨h1, h2, h3⟩ _ hf
          obtain ⟨t, ht, hl⟩ := l3 _ h3 hf
          exact ⟨t, ht, h1, h2, hl⟩
    exact covered_returns S δ step η _ Cov hδ hT.bound e1 e' m hret k2 hc1

/-- C15, the scan matcher: if bounds are admissible up to `η`, then whatever match the search ends with, for whatever
order of popping matches that are equal up to `δ`, it is a pose of the window — a rotation of the request and a single
translation — and its score is, up to `δ + η`, at least the score of every candidate: every rotation of every request
and every translation of the final subdivision. -/
theorem result_is_best (S : Search K) (X Y η δ : K) (hadm : Admissible S X Y η) (hη : 0 ≤ η)
    (hδ : 0 ≤ δ) (hd : 0 ≤ S.diff) (h0 : ∀ q a r, 0 ≤ S.score q a r) (sector res step : K) (hX : 0 ≤ X) (hY : 0 ≤ Y) (hsec : 0 ≤ sector)
    (hres : 0 < res) (hstep : 1 / 2 ^ 52 ≤ step) (fuel : Nat) (reqs : List Nat) (hne : reqs ≠ []) (e : Engine K)
    (m : Match K) (he : Engine.requests S X Y sector res fuel reqs Engine.init = some e) (hm : Result S δ step e m) :
    (m.req ∈ reqs ∧ (∃ k : Nat, (m.rot = k * res ∨ m.rot = -(k * res)) ∧ lessOrEqual (2 * (k * res)) sector = true) ∧
      ∃ t, m.drift = pointRect t ∧ t ∈ points (entireRange X Y) ∧ S.ub m = S.score m.req m.rot (pointRect t)) ∧
    ∀ q ∈ reqs, ∀ a, IsRotation sector res a → ∀ p, IsTranslation X Y step p →
      S.score q a (pointRect p) ≤ S.ub m + δ + η := by
  obtain ⟨h1, h2⟩ := result_beats S X Y η δ hη hδ hd h0 sector res step hX hY hsec hres hstep fuel reqs hne e m he hm
  exact ⟨h1, fun q hq a ha p hp => h2 q hq a ha p hp fun r hr _ hpr => hadm q a r p hr hpr⟩

/-! ## Termination -/

/-- Number of halvings of a length down to `t`. -/
def halvingsOf (t w : K) : Nat := Nat.clog 2 ⌈w / t⌉₊

theorem halvingsOf_half (t w : K) (ht : 0 < t) (hw : t < w) : halvingsOf t (w / 2) + 1 ≤ halvingsOf t w := by
  unfold halvingsOf
  set n := ⌈w / t⌉₊ with hn
  have h1 : 1 < w / t := (one_lt_div ht).2 hw
  have hn2 : 2 ≤ n := by
    have : 1 < n := by
      rw [hn, Nat.lt_ceil]; simpa using h1
    omega
  have hle : w / t ≤ n := Nat.le_ceil _
  have hc : ⌈w / 2 / t⌉₊ ≤ (n + 1) / 2 := by
    rw [Nat.ceil_le]
    have e : w / 2 / t = w / t / 2 := by ring
    have : (n : K) ≤ (((n + 1) / 2 : Nat) : K) * 2 := by
      have : n ≤ (n + 1) / 2 * 2 := by omega
      exact_mod_cast this
    rw [e]
    linarith
  rw [Nat.clog_of_two_le (by norm_num) hn2]
  have : (n + 2 - 1) / 2 = (n + 1) / 2 := by congr 1
  rw [this]
  exact Nat.add_le_add_right (Nat.clog_mono_right 2 hc) 1

/-- How many more steps a match may cause. -/
def weight (t : K) (m : Match K) : Nat :=
  if m.finest then 1 else 6 * 5 ^ (halvingsOf t (hside m.drift) + halvingsOf t (vside m.drift))

/-- How many more steps a queue may cause. -/
def potential (t : K) (e : Engine K) : Nat := (e.queue.map (weight t)).sum

theorem addAll_potential (S : Search K) (t : K) (ms : List (Match K)) : ∀ e : Engine K,
    potential t (e.addAll S ms) ≤ potential t e + (ms.map (weight t)).sum := by
  induction ms with
  | nil => intro e; simp [Engine.addAll]
  | cons m ms ih =>
    intro e
    refine le_trans (ih _) ?_
    have : potential t (e.add S m) ≤ potential t e + weight t m := by
      unfold Engine.add potential
      by_cases h : S.ub m < e.best
      · rw [if_pos h]; omega
      · rw [if_neg h]; simp only [List.map_cons, List.sum_cons]; omega
    simp only [List.map_cons, List.sum_cons]
    omega

theorem pop_potential (S : Search K) (δ t : K) (e e' : Engine K) (m : Match K) (h : Pop S δ e m e') :
    potential t e = weight t m + potential t e' := by
  unfold potential
  rw [(h.1.map (weight t)).sum_eq]
  simp

theorem weight_le (t : K) (m : Match K) (k : Nat)
    (h : halvingsOf t (hside m.drift) + halvingsOf t (vside m.drift) ≤ k) : weight t m ≤ 6 * 5 ^ k := by
  unfold weight
  have hk : 1 ≤ 5 ^ k := Nat.one_le_pow _ _ (by norm_num)
  by_cases hf : m.finest = true
  · rw [if_pos hf]; omega
  · rw [if_neg hf]
    exact Nat.mul_le_mul_left 6 (Nat.pow_le_pow_right (by norm_num) h)

theorem branch_weight (step : K) (hstep : 1 / 2 ^ 52 < step) (m : Match K) (hp : Proper m.drift)
    (rs : List (Bounds K)) (hf : finer step m.drift = some rs) :
    ((rs.map m.narrow).map (weight (step - 1 / 2 ^ 52))).sum < weight (step - 1 / 2 ^ 52) m := by
  have ht : 0 < step - 1 / 2 ^ 52 := by linarith
  set t := step - 1 / 2 ^ 52 with htdef
  have hnf : m.finest = false := by
    cases hmf : m.finest with
    | false => rfl
    | true => rw [finer_finest hp hmf step hstep.le] at hf; cases hf
  have hw : weight t m = 6 * 5 ^ (halvingsOf t (hside m.drift) + halvingsOf t (vside m.drift)) := by
    unfold weight; rw [hnf]; rfl
  have sumle : ∀ (l : List (Bounds K)) (k : Nat), l.length ≤ 4 →
      (∀ r ∈ l, halvingsOf t (hside r) + halvingsOf t (vside r) + 1 ≤ k) →
      ((l.map m.narrow).map (weight t)).sum < 6 * 5 ^ k := by
    intro l k hl hk
    have h1 : ((l.map m.narrow).map (weight t)).sum ≤ l.length * (6 * 5 ^ (k - 1)) := by
      clear hl
      induction l with
      | nil => simp
      | cons r l ih =>
        have := ih fun r' hr' => hk r' (by simp [hr'])
        have h2 : weight t (m.narrow r) ≤ 6 * 5 ^ (k - 1) := by
          apply weight_le
          have := hk r (by simp)
          simp only [Match.narrow]; omega
        simp only [List.map_cons, List.sum_cons, List.length_cons]
        rw [Nat.succ_mul]
        omega
    have hpk : 0 < 6 * 5 ^ (k - 1) := by positivity
    have h3 : l.length * (6 * 5 ^ (k - 1)) ≤ 4 * (6 * 5 ^ (k - 1)) := Nat.mul_le_mul_right _ hl
    rcases Nat.eq_zero_or_pos k with rfl | hkp
    · have : l = [] := by
        cases l with
        | nil => rfl
        | cons r l => have := hk r (by simp); omega
      subst this; simp
    · have h4 : 6 * 5 ^ k = 5 * (6 * 5 ^ (k - 1)) := by
        conv_lhs => rw [show k = k - 1 + 1 by omega, pow_succ]
        ring
      omega
  rw [hw]
  have hx2 : ∀ c : K, c - m.drift.left = hside m.drift / 2 → halvingsOf t c = halvingsOf t c := fun _ _ => rfl
  have e1 : (center m.drift).x - m.drift.left = hside m.drift / 2 := by simp only [center]; ring
  have e2 : m.drift.right - (center m.drift).x = hside m.drift / 2 := by simp only [center, hside]; ring
  have e3 : (center m.drift).y - m.drift.bot = vside m.drift / 2 := by simp only [center]; ring
  have e4 : m.drift.top - (center m.drift).y = vside m.drift / 2 := by simp only [center, vside]; ring
  unfold finer at hf
  cases h1 : less step (hside m.drift) <;> cases h2 : less step (vside m.drift) <;> rw [h1, h2] at hf <;>
    simp only [Option.some.injEq, reduceCtorEq] at hf <;> subst hf
  · have hv := halvingsOf_half t _ ht ((less_iff _ _).1 h2)
    apply sumle _ _ (by simp [splitVert])
    intro r hr
    simp only [splitVert, List.mem_cons, List.not_mem_nil, or_false] at hr
    rcases hr with rfl | rfl
    · simp only [vside, hside] at *; rw [e3]; omega
    · simp only [vside, hside] at *; rw [e4]; omega
  · have hh := halvingsOf_half t _ ht ((less_iff _ _).1 h1)
    apply sumle _ _ (by simp [splitHorz])
    intro r hr
    simp only [splitHorz, List.mem_cons, List.not_mem_nil, or_false] at hr
    rcases hr with rfl | rfl
    · simp only [vside, hside] at *; rw [e1]; omega
    · simp only [vside, hside] at *; rw [e2]; omega
  · have hh := halvingsOf_half t _ ht ((less_iff _ _).1 h1)
    have hv := halvingsOf_half t _ ht ((less_iff _ _).1 h2)
    apply sumle _ _ (by simp [split4])
    intro r hr
    simp only [split4, List.mem_cons, List.not_mem_nil, or_false] at hr
    rcases hr with rfl | rfl | rfl | rfl
    · simp only [vside, hside] at *; rw [e1, e3]; omega
    · simp only [vside, hside] at *; rw [e1, e4]; omega
    · simp only [vside, hside] at *; rw [e2, e3]; omega
    · simp only [vside, hside] at *; rw [e2, e4]; omega

theorem step_potential (S : Search K) (δ step : K) (hstep : 1 / 2 ^ 52 < step) (e e' : Engine K) (hp : AllProper e)
    (hs : SearchStep S δ step e e') : potential (step - 1 / 2 ^ 52) e' < potential (step - 1 / 2 ^ 52) e := by
  rcases hs with ⟨m, e1, rs, hpop, hfin, rfl⟩ | ⟨m, e1, ⟨hpop, hfin⟩, hnf, rfl⟩
  · have hmq : m ∈ e.queue := hpop.1.mem_iff.2 (by simp)
    have h1 := addAll_potential S (step - 1 / 2 ^ 52) (rs.map m.narrow) e1
    have h2 := branch_weight step hstep m (hp m hmq) rs hfin
    rw [pop_potential S δ (step - 1 / 2 ^ 52) e e1 m hpop]
    omega
  · have h1 := addAll_potential S (step - 1 / 2 ^ 52) ((crucialPoints m.drift).map fun p => m.narrow (pointRect p)) e1
    have hpt : ∀ p : Point K, weight (step - 1 / 2 ^ 52) (m.narrow (pointRect p)) = 1 := by
      intro p
      have : (m.narrow (pointRect p)).finest = true := by
        simp [Match.finest, Match.driftAmount, Match.narrow, hside, vside, pointRect]
      unfold weight; rw [this]; rfl
    have h2 : (((crucialPoints m.drift).map fun p => m.narrow (pointRect p)).map
        (weight (step - 1 / 2 ^ 52))).sum = 5 := by
      simp only [crucialPoints, List.map_cons, List.map_nil, hpt, List.sum_cons, List.sum_nil]
      norm_num
    have h3 : 6 ≤ weight (step - 1 / 2 ^ 52) m := by
      unfold weight
      rw [hnf]
      have : 1 ≤ 5 ^ (halvingsOf (step - 1 / 2 ^ 52) (hside m.drift) +
        halvingsOf (step - 1 / 2 ^ 52) (vside m.drift)) := Nat.one_le_pow _ _ (by norm_num)
      simp only [Bool.false_eq_true, if_false]
      omega
    rw [pop_potential S δ (step - 1 / 2 ^ 52) e e1 m hpop]
    omega

theorem exists_pop (S : Search K) (δ : K) (hδ : 0 ≤ δ) (e : Engine K) (hne : e.queue ≠ []) :
    ∃ m e', Pop S δ e m e' := by
  have : ∀ l : List (Match K), l ≠ [] → ∃ m ∈ l, ∀ x ∈ l, S.ub x ≤ S.ub m := by
    intro l
    induction l with
    | nil => intro h; exact absurd rfl h
    | cons a l ih =>
      intro _
      by_cases hl : l = []
      · subst hl; exact ⟨a, by simp, by simp⟩
      · obtain ⟨m, h1, h2⟩ := ih hl
        rcases le_total (S.ub m) (S.ub a) with h | h
        · refine ⟨a, by simp, ?_⟩
          intro x hx
          rcases List.mem_cons.1 hx with rfl | hx
          · exact le_rfl
          · exact le_trans (h2 x hx) h
        · refine ⟨m, by simp [h1], ?_⟩
          intro x hx
          rcases List.mem_cons.1 hx with rfl | hx
          · exact h
          · exact h2 x hx
  obtain ⟨m, h1, h2⟩ := this e.queue hne
  obtain ⟨s, t, hst⟩ := List.append_of_mem h1
  refine ⟨m, ⟨s ++ t, e.best⟩, ?_, rfl, ?_⟩
  · rw [hst]; exact List.perm_middle
  · intro x hx
    have : x ∈ e.queue := by
      rw [hst]
      rcases List.mem_append.1 hx with h | h
      · simp [h]
      · simp [h]
    linarith [h2 x this]

/-- C15, the search always ends with a result: for a translation step above `2^-52`, no execution takes more than some
number of steps, and an execution that can not take another step ends with a result — the queue is never exhausted
before. -/
theorem search_terminates (S : Search K) (δ : K) (hδ : 0 ≤ δ) (hd : 0 ≤ S.diff)
    (h0 : ∀ q a r, 0 ≤ S.score q a r) (X Y sector res step : K) (hX : 0 ≤ X) (hY : 0 ≤ Y) (hsec : 0 ≤ sector)
    (hres : 0 < res) (hstep : 1 / 2 ^ 52 < step) (fuel : Nat) (reqs : List Nat) (hne : reqs ≠ []) (e : Engine K)
    (he : Engine.requests S X Y sector res fuel reqs Engine.init = some e) :
    (∃ N, ∀ (n : Nat) (f : Nat → Engine K), f 0 = e → (∀ i < n, SearchStep S δ step (f i) (f (i + 1))) → n ≤ N) ∧
    (∀ e1, Relation.ReflTransGen (SearchStep S δ step) e e1 →
      (∃ e2, SearchStep S δ step e1 e2) ∨ ∃ m, Finishes S δ step e1 m) ∧
    ∃ m, Result S δ step e m := by
  obtain ⟨rots, hr⟩ : ∃ rots, rotations sector res fuel 0 = some rots := by
    cases hrot : rotations sector res fuel 0 with
    | some l => exact ⟨l, rfl⟩
    | none =>
      exfalso
      cases reqs with
      | nil => exact hne rfl
      | cons x xs => simp [Engine.requests, Engine.request, hrot] at he
  obtain ⟨i1, i2, -⟩ := after_requests S hd h0 X Y sector res hX hY hsec hres fuel rots hr reqs hne e he
  have stepInv : ∀ a b, AllProper a ∧ HoldsBest S a → SearchStep S δ step a b → AllProper b ∧ HoldsBest S b := by
    intro a b ⟨j1, j2⟩ hs
    exact ⟨(step_all S δ step (fun _ => True) (fun _ _ _ _ _ _ => trivial) _ _ hs j1 (fun _ _ => trivial)).1,
      step_holdsBest S hd δ step hstep.le _ _ hs j1 j2⟩
  have prog : ∀ a, AllProper a ∧ HoldsBest S a → (∃ b, SearchStep S δ step a b) ∨ ∃ m, Finishes S δ step a m := by
    rintro a ⟨j1, f, hf, -, -⟩
    obtain ⟨m, a', hpop⟩ := exists_pop S δ hδ a (List.ne_nil_of_mem hf)
    cases hfin : finer step m.drift with
    | some rs => exact .inl ⟨_, .inl ⟨m, a', rs, hpop, hfin, rfl⟩⟩
    | none =>
      cases hmf : m.finest with
      | true => exact .inr ⟨m, a', ⟨hpop, hfin⟩, hmf⟩
      | false => exact .inl ⟨_, .inr ⟨m, a', ⟨hpop, hfin⟩, hmf, rfl⟩⟩
  refine ⟨⟨potential (step - 1 / 2 ^ 52) e, ?_⟩, ?_, ?_⟩
  · intro n f hf0 hf
    have : ∀ k, k ≤ n → (AllProper (f k) ∧ HoldsBest S (f k)) ∧
        k + potential (step - 1 / 2 ^ 52) (f k) ≤ potential (step - 1 / 2 ^ 52) e := by
      intro k
      induction k with
      | zero => intro _; rw [hf0]; exact ⟨⟨i1, i2⟩, by omega⟩
      | succ k ih =>
        intro hk
        obtain ⟨j1, j2⟩ := ih (by omega)
        have hs := hf k (by omega)
        have := step_potential S δ step hstep _ _ j1.1 hs
        exact ⟨stepInv _ _ j1 hs, by omega⟩
    have := (this n le_rfl).2
    omega
  · intro e1 hs
    apply prog
    induction hs with
    | refl => exact ⟨i1, i2⟩
    | tail _ hs ih => exact stepInv _ _ ih hs
  · have : ∀ (N : Nat) (a : Engine K), potential (step - 1 / 2 ^ 52) a ≤ N → AllProper a ∧ HoldsBest S a →
        ∃ m, Result S δ step a m := by
      intro N
      induction N with
      | zero =>
        intro a hN ha
        rcases prog a ha with ⟨b, hb⟩ | ⟨m, hm⟩
        · have := step_potential S δ step hstep _ _ ha.1 hb; omega
        · exact ⟨m, a, .refl, hm⟩
      | succ N ih =>
        intro a hN ha
        rcases prog a ha with ⟨b, hb⟩ | ⟨m, hm⟩
        · have := step_potential S δ step hstep _ _ ha.1 hb
          obtain ⟨m, c, hc, hm⟩ := ih b (by omega) (stepInv _ _ ha hb)
          exact ⟨m, c, .head hb hc, hm⟩
        · exact ⟨m, a, .refl, hm⟩
    exact this _ e le_rfl ⟨i1, i2⟩

/-- The condition on the step is needed: with a translation step below `2^-52`, zero for instance, no search ever
ends, whatever its requests: even single translations are split again and again. -/
theorem tiny_step_never_ends (S : Search K) (δ step : K) (hstep : step < 1 / 2 ^ 52) (e : Engine K) (hp : AllProper e)
    (m : Match K) : ¬ Result S δ step e m := by
  rintro ⟨e1, hs, e', ⟨⟨hperm, -, -⟩, hfin⟩, -⟩
  have hp1 : AllProper e1 := by
    clear hperm hfin
    induction hs with
    | refl => exact hp
    | tail _ hs ih =>
      exact (step_all S δ step (fun _ => True) (fun _ _ _ _ _ _ => trivial) _ _ hs ih (fun _ _ => trivial)).1
  have hm := hp1 m (hperm.mem_iff.2 (by simp))
  have h1 : less step (hside m.drift) = true := by
    rw [less_iff]; have : 0 ≤ hside m.drift := sub_nonneg.2 hm.2; linarith
  have h2 : less step (vside m.drift) = true := by
    rw [less_iff]; have : 0 ≤ vside m.drift := sub_nonneg.2 hm.1; linarith
  simp [finer, h1, h2] at hfin

/-! ## The queue's comparator -/

/-- What a priority queue promises — nothing in it is preferred to its top — gives `Pop` with a tolerance of 1e-7, when
scores are probabilities. -/
theorem comparator_top (S : Search K) (e e' : Engine K) (m : Match K) (h1 : ∀ q a r, 0 ≤ S.score q a r)
    (h2 : ∀ q a r, S.score q a r ≤ 1) (hp : e.queue.Perm (m :: e'.queue)) (hb : e'.best = e.best)
    (htop : ∀ x ∈ e'.queue, S.lt m x = false) : Pop S (1 / 10 ^ 7) e m e' := by
  refine ⟨hp, hb, fun x hx => ?_⟩
  have h := htop x hx
  have b1 : 0 ≤ S.ub m ∧ S.ub m ≤ 1 := ⟨h1 _ _ _, h2 _ _ _⟩
  have b2 : 0 ≤ S.ub x ∧ S.ub x ≤ 1 := ⟨h1 _ _ _, h2 _ _ _⟩
  have h52 : (0 : K) < 1 / 2 ^ 52 := by positivity
  have h7 : (0 : K) < 1 / 10 ^ 7 := by positivity
  unfold Search.lt at h
  cases he : areEqual (S.ub m) (S.ub x) with
  | true =>
    simp only [areEqual, decide_eq_true_eq] at he
    have hm : max 1 (max |S.ub m| |S.ub x|) = 1 := by
      rw [abs_of_nonneg b1.1, abs_of_nonneg b2.1]
      exact max_eq_left (max_le b1.2 b2.2)
    rw [hm, mul_one] at he
    have := (abs_le.1 he).1
    linarith
  | false =>
    rw [he] at h
    simp only [Bool.not_false, if_true, less, decide_eq_false_iff_not, not_lt] at h
    linarith

/-- The comparator is not an ordering: three matches may each be preferred to the next one, in a circle, because scores
are compared with a tolerance. (So the promise above may be void; `Pop` says what is needed of the queue.) -/
theorem comparator_cycle_counterexample : ∃ (S : Search ℚ) (a b c : Match ℚ),
    S.lt a b = true ∧ S.lt b c = true ∧ S.lt c a = true := by
  refine ⟨⟨fun q _ _ => q * (6 / 10 ^ 8), 0⟩, ⟨0, 0, ⟨0, 0, 0, 2⟩⟩, ⟨2, 0, ⟨0, 0, 0, 3⟩⟩, ⟨1, 0, ⟨0, 0, 0, 2 + 1 / 2⟩⟩, ?_, ?_, ?_⟩
  · decide +kernel
  · decide +kernel
  · decide +kernel

/-! ## Non-vacuity -/

/-- A search with admissible bounds: the score decreases with the distance of the range from the translation
`(1/4, 0)`; requests and rotations do not matter. -/
def demoSearch : Search ℚ :=
  ⟨fun _ _ r => 1 / (1 + max 0 (max (r.left - 1 / 4) (1 / 4 - r.right)) + max 0 (max r.bot (-r.top))), 0⟩

example : Admissible demoSearch 1 1 0 ∧ (∀ q a r, 0 ≤ demoSearch.score q a r) := by
  have key : ∀ r : Bounds ℚ, 0 < 1 + max 0 (max (r.left - 1 / 4) (1 / 4 - r.right)) + max 0 (max r.bot (-r.top)) := by
    intro r
    have h1 := le_max_left (0 : ℚ) (max (r.left - 1 / 4) (1 / 4 - r.right))
    have h2 := le_max_left (0 : ℚ) (max r.bot (-r.top))
    linarith
  refine ⟨?_, fun q a r => (div_pos one_pos (key r)).le⟩
  rintro q a r p - ⟨p1, p2, p3, p4⟩
  simp only [demoSearch, add_zero]
  apply one_div_le_one_div_of_le (key r)
  have e1 : max 0 (max (r.left - 1 / 4) (1 / 4 - r.right)) ≤
      max 0 (max ((pointRect p).left - 1 / 4) (1 / 4 - (pointRect p).right)) :=
    max_le_max le_rfl (max_le_max (by simp only [pointRect]; linarith) (by simp only [pointRect]; linarith))
  have e2 : max 0 (max r.bot (-r.top)) ≤ max 0 (max (pointRect p).bot (-(pointRect p).top)) :=
    max_le_max le_rfl (max_le_max (by simp only [pointRect]; linarith) (by simp only [pointRect]; linarith))
  linarith

example : rotations (1 : ℚ) (1 / 4) 10 0 = some [0, -(1 / 4), 1 / 4, -(1 / 2), 1 / 2] := by decide +kernel

example : IsRotation (1 : ℚ) (1 / 4) (-(1 / 2)) := ⟨2, by norm_num, by norm_num⟩

/-- A window of two by one metres, halved to at most 0.6 m. -/
example : IsTranslation (1 : ℚ) (1 / 2) (6 / 10) ⟨1 / 2, 0⟩ := by
  refine .inr ⟨2, 1, 3, 0, ⟨by norm_num, ?_⟩, ⟨by norm_num, ?_⟩, by norm_num, by norm_num, .inr ⟨.inl ?_, .inr ?_⟩⟩
  · intro m hm; interval_cases m <;> norm_num
  · intro m hm; interval_cases m; norm_num
  · norm_num [windowCell]
  · norm_num [windowCell]

end Slam.Multires
