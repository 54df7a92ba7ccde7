import Verif.Multires.EngineModel
import Verif.Rect.Props
import Mathlib.Data.Nat.Log
import Mathlib.Algebra.Order.Floor.Semiring
import Mathlib.Algebra.Order.Archimedean.Basic
import Mathlib.Algebra.BigOperators.Group.List.Basic
import Mathlib.Tactic.Linarith
import Mathlib.Tactic.Ring
import Mathlib.Tactic.Positivity
import Mathlib.Tactic.NormNum
import Mathlib.Tactic.FieldSimp

/-!
# C15: branch and bound finds the best candidate
-/

set_option autoImplicit false
set_option linter.unusedSectionVars false

namespace Slam.Multires
open Slam.Grid Slam.Rect

variable {K : Type*} [Field K] [LinearOrder K] [IsStrictOrderedRing K] [FloorRing K]

/-! ## Specification -/

/-- The range is degenerate in no direction in which the window `[-X, X] × [-Y, Y]` is not. -/
def Solid (X Y : K) (r : Bounds K) : Prop := Proper r ∧ (0 < X → 0 < hside r) ∧ (0 < Y → 0 < vside r)

/-- The bound of a range of translations is, up to `η`, at least the score of every translation in it. (For a window
of positive sides only ranges of positive sides matter: C34 shows that the code's bounds are wrong for segments.) -/
def Admissible (S : Search K) (X Y η : K) : Prop :=
  ∀ req rot r p, Solid X Y r → p ∈ points r → S.score req rot (pointRect p) ≤ S.score req rot r + η

/-- The rotations a request is about: the multiples of the resolution within half the sector, to both sides. -/
def IsRotation (sector res a : K) : Prop := ∃ k : Nat, (a = k * res ∨ a = -(k * res)) ∧ 2 * (k * res) ≤ sector

/-- `n` halvings make `w` at most `t`, fewer do not. -/
def Halvings (t w : K) (n : Nat) : Prop := w / 2 ^ n ≤ t ∧ ∀ m < n, t < w / 2 ^ m

/-- The `(i, j)`-th cell when the window `[-X, X] × [-Y, Y]` is cut evenly into `2^nx × 2^ny` cells. -/
def windowCell (X Y : K) (nx ny i j : Nat) : Bounds K :=
  ⟨-Y + j * (2 * Y / 2 ^ ny), -Y + (j + 1) * (2 * Y / 2 ^ ny), -X + i * (2 * X / 2 ^ nx),
    -X + (i + 1) * (2 * X / 2 ^ nx)⟩

/-- Translations the search is expected to consider: the zero one, and the corners and the centre of each cell, when
the window is halved in each direction until cells are not longer than the step (less `2^-52`). -/
def IsTranslation (X Y step : K) (p : Point K) : Prop :=
  p = ⟨0, 0⟩ ∨ ∃ nx ny i j, Halvings (step - 1 / 2 ^ 52) (2 * X) nx ∧ Halvings (step - 1 / 2 ^ 52) (2 * Y) ny ∧
    i < 2 ^ nx ∧ j < 2 ^ ny ∧
    (p = center (windowCell X Y nx ny i j) ∨
      ((p.x = (windowCell X Y nx ny i j).left ∨ p.x = (windowCell X Y nx ny i j).right) ∧
       (p.y = (windowCell X Y nx ny i j).bot ∨ p.y = (windowCell X Y nx ny i j).top)))

/-- A sequence of requests to one engine. -/
def Engine.requests (S : Search K) (X Y sector res : K) (fuel : Nat) : List Nat → Engine K → Option (Engine K)
  | [], e => some e
  | q :: qs, e => (e.request S X Y sector res fuel q).bind (Engine.requests S X Y sector res fuel qs)

/-! ## Rotations -/

theorem not_lessOrEqual_of_large (a b : K) (h : 2 * |b| + 2 ≤ a) : lessOrEqual a b = false := by
  have hb := le_abs_self b
  have hb0 := abs_nonneg b
  have ha0 : 0 ≤ a := by linarith
  have hab : |a - b| = a - b := abs_of_nonneg (by linarith)
  have h52 : (1 : K) / 2 ^ 52 < 1 := by norm_num
  have hm : max 1 (max |a| |b|) ≤ a := by
    rw [abs_of_nonneg ha0]
    exact max_le (by linarith) (max_le le_rfl (by linarith))
  simp only [lessOrEqual, areEqual, less, Bool.or_eq_false_iff, decide_eq_false_iff_not, not_le, not_lt]
  constructor
  · rw [hab]
    have : (1 : K) / 10 ^ 7 * max 1 (max |a| |b|) ≤ 1 / 10 ^ 7 * a := mul_le_mul_of_nonneg_left hm (by positivity)
    have h2 : (1 : K) / 10 ^ 7 * a ≤ 1 / 10 * a := mul_le_mul_of_nonneg_right (by norm_num) ha0
    linarith
  · linarith

theorem rotations_terminates (sector res : K) (hres : 0 < res) (n : Nat) : ∀ (r : K),
    2 * |sector| + 2 ≤ 2 * (r + n * res) → ∀ fuel, n < fuel → ∃ l, rotations sector res fuel r = some l := by
  induction n with
  | zero =>
    intro r hr fuel hf
    obtain ⟨f, rfl⟩ : ∃ f, fuel = f + 1 := ⟨fuel - 1, by omega⟩
    have : lessOrEqual (2 * r) sector = false := not_lessOrEqual_of_large _ _ (by simpa using hr)
    exact ⟨[], by simp [rotations, this]⟩
  | succ n ih =>
    intro r hr fuel hf
    obtain ⟨f, rfl⟩ : ∃ f, fuel = f + 1 := ⟨fuel - 1, by omega⟩
    obtain ⟨l, hl⟩ := ih (r + res) (by push_cast at hr; linarith) f (by omega)
    unfold rotations
    by_cases h : lessOrEqual (2 * r) sector = true
    · rw [if_pos h, hl]; exact ⟨_, rfl⟩
    · rw [if_neg h]; exact ⟨_, rfl⟩

theorem mem_plusMinus (r a : K) : a ∈ plusMinus r ↔ a = r ∨ a = -r := by
  unfold plusMinus
  by_cases h : r = -r
  · rw [if_pos h, List.mem_singleton]
    constructor
    · exact .inl
    · rintro (h1 | h1)
      · exact h1
      · rw [h1]; exact h.symm
  · rw [if_neg h]
    by_cases h2 : r < -r
    · rw [if_pos h2]; simp
    · rw [if_neg h2]; simp [or_comm]

theorem rotations_mem (sector res : K) (hres : 0 < res) (fuel : Nat) : ∀ (r : K) (l : List K),
    rotations sector res fuel r = some l → ∀ k : Nat, 2 * (r + k * res) ≤ sector → ∀ a,
    (a = r + k * res ∨ a = -(r + k * res)) → a ∈ l := by
  induction fuel with
  | zero => intro r l h; simp [rotations] at h
  | succ f ih =>
    intro r l h k hk a ha
    unfold rotations at h
    have hkr : (0 : K) ≤ k * res := by positivity
    have hle : lessOrEqual (2 * r) sector = true := by
      have : (0 : K) < 1 / 2 ^ 52 := by positivity
      simp only [lessOrEqual, less, Bool.or_eq_true, decide_eq_true_eq]
      right; linarith
    rw [if_pos hle, Option.map_eq_some_iff] at h
    obtain ⟨l', hl', rfl⟩ := h
    rw [List.mem_append]
    cases k with
    | zero =>
      left
      rw [mem_plusMinus]
      simpa using ha
    | succ k =>
      right
      have e : r + ((k + 1 : Nat) : K) * res = r + res + k * res := by push_cast; ring
      rw [e] at ha hk
      exact ih (r + res) l' hl' k hk a ha

theorem rotations_only (sector res : K) (fuel : Nat) : ∀ (r : K) (l : List K),
    rotations sector res fuel r = some l → ∀ a ∈ l, ∃ k : Nat, (a = r + k * res ∨ a = -(r + k * res)) ∧
      lessOrEqual (2 * (r + k * res)) sector = true := by
  induction fuel with
  | zero => intro r l h; simp [rotations] at h
  | succ f ih =>
    intro r l h a ha
    unfold rotations at h
    by_cases hle : lessOrEqual (2 * r) sector = true
    · rw [if_pos hle, Option.map_eq_some_iff] at h
      obtain ⟨l', hl', rfl⟩ := h
      rcases List.mem_append.1 ha with h1 | h1
      · exact ⟨0, by simpa using (mem_plusMinus r a).1 h1, by simpa using hle⟩
      · obtain ⟨k, h2, h3⟩ := ih _ l' hl' a h1
        have e : r + ((k + 1 : Nat) : K) * res = r + res + k * res := by push_cast; ring
        exact ⟨k + 1, by rw [e]; exact h2, by rw [e]; exact h3⟩
    · rw [if_neg hle] at h
      injection h with h
      rw [← h] at ha
      simp at ha

/-- C15 (requests): with a positive angular step the enumeration of rotations ends, it contains every rotation asked
for and only multiples of the step within the sector up to the comparison tolerance. -/
theorem rotations_spec (sector res : K) (hres : 0 < res) :
    ∃ F, ∀ fuel, F ≤ fuel → ∃ rots, rotations sector res fuel 0 = some rots ∧
      (∀ a, IsRotation sector res a → a ∈ rots) ∧
      ∀ a ∈ rots, ∃ k : Nat, (a = k * res ∨ a = -(k * res)) ∧ lessOrEqual (2 * (k * res)) sector = true := by
  obtain ⟨n, hn⟩ := exists_nat_gt ((|sector| + 1) / res)
  rw [div_lt_iff₀ hres] at hn
  refine ⟨n + 1, fun fuel hf => ?_⟩
  obtain ⟨l, hl⟩ := rotations_terminates sector res hres n 0 (by rw [zero_add]; linarith) fuel (by omega)
  refine ⟨l, hl, ?_, ?_⟩
  · rintro a ⟨k, h1, h2⟩
    exact rotations_mem sector res hres fuel 0 l hl k (by rw [zero_add]; exact h2) a (by rw [zero_add]; exact h1)
  · intro a ha
    obtain ⟨k, h1, h2⟩ := rotations_only sector res fuel 0 l hl a ha
    rw [zero_add] at h1 h2
    exact ⟨k, h1, h2⟩

/-! ## Adding matches -/

section Add
variable (S : Search K)

theorem add_best_le (e : Engine K) (m : Match K) : e.best ≤ (e.add S m).best := by
  unfold Engine.add
  by_cases h : S.ub m < e.best
  · rw [if_pos h]
  · rw [if_neg h]
    by_cases hf : m.finest = true
    · simp [hf]
    · simp [hf]

theorem addAll_best_le (ms : List (Match K)) : ∀ e : Engine K, e.best ≤ (e.addAll S ms).best := by
  induction ms with
  | nil => intro e; exact le_rfl
  | cons m ms ih => intro e; exact le_trans (add_best_le S e m) (ih _)

theorem add_sub (e : Engine K) (m x : Match K) (h : x ∈ e.queue) : x ∈ (e.add S m).queue := by
  unfold Engine.add
  by_cases hc : S.ub m < e.best
  · rw [if_pos hc]; exact h
  · rw [if_neg hc]; exact List.mem_cons_of_mem _ h

theorem addAll_sub (ms : List (Match K)) : ∀ (e : Engine K) (x : Match K), x ∈ e.queue → x ∈ (e.addAll S ms).queue := by
  induction ms with
  | nil => intro e x h; exact h
  | cons m ms ih => intro e x h; exact ih _ _ (add_sub S e m x h)

theorem addAll_new (ms : List (Match K)) : ∀ (e : Engine K) (x : Match K), x ∈ ms →
    x ∈ (e.addAll S ms).queue ∨ S.ub x < (e.addAll S ms).best := by
  induction ms with
  | nil => intro e x h; simp at h
  | cons m ms ih =>
    intro e x h
    rcases List.mem_cons.1 h with rfl | h
    · by_cases hc : S.ub x < e.best
      · right
        exact lt_of_lt_of_le hc (addAll_best_le S (x :: ms) e)
      · left
        apply addAll_sub S ms
        unfold Engine.add
        rw [if_neg hc]
        simp
    · exact ih _ x h

theorem addAll_from (ms : List (Match K)) : ∀ (e : Engine K) (x : Match K), x ∈ (e.addAll S ms).queue →
    x ∈ e.queue ∨ x ∈ ms := by
  induction ms with
  | nil => intro e x h; exact .inl h
  | cons m ms ih =>
    intro e x h
    rcases ih _ x h with h1 | h1
    · unfold Engine.add at h1
      by_cases hc : S.ub m < e.best
      · rw [if_pos hc] at h1; exact .inl h1
      · rw [if_neg hc] at h1
        rcases List.mem_cons.1 h1 with rfl | h1
        · right; simp
        · exact .inl h1
    · right; simp [h1]

/-- The queue holds a finest match at least as good as the bound used to prune. -/
def HoldsBest (e : Engine K) : Prop := ∃ f ∈ e.queue, f.finest = true ∧ e.best ≤ S.ub f

theorem add_holdsBest (hd : 0 ≤ S.diff) (e : Engine K) (m : Match K) (h : HoldsBest S e) : HoldsBest S (e.add S m) := by
  obtain ⟨f, h1, h2, h3⟩ := h
  unfold Engine.add
  by_cases hc : S.ub m < e.best
  · rw [if_pos hc]; exact ⟨f, h1, h2, h3⟩
  · rw [if_neg hc]
    by_cases hf : m.finest = true
    · rw [if_pos hf]
      rw [not_lt] at hc
      exact ⟨m, by simp, hf, max_le hc (by linarith)⟩
    · rw [if_neg hf]
      exact ⟨f, by simp [h1], h2, h3⟩

theorem addAll_holdsBest (hd : 0 ≤ S.diff) (ms : List (Match K)) : ∀ e : Engine K, HoldsBest S e →
    HoldsBest S (e.addAll S ms) := by
  induction ms with
  | nil => intro e h; exact h
  | cons m ms ih => intro e h; exact ih _ (add_holdsBest S hd e m h)

end Add

/-! ## Invariants of the search -/

/-- A kind of matches that keeps track of one candidate whose score is `target`: members bound it, it is passed on to a
finer match when branching, and to one of the points when refining. -/
structure Tracks (S : Search K) (step η target : K) (Cov : Match K → Prop) : Prop where
  bound : ∀ m, Cov m → target ≤ S.ub m + η
  branch : ∀ m rs, Cov m → finer step m.drift = some rs → ∃ r ∈ rs, Cov (m.narrow r)

/-- The candidate is covered by the queue or worse than the best known. -/
def Covered (η target : K) (Cov : Match K → Prop) (e : Engine K) : Prop :=
  (∃ m ∈ e.queue, Cov m) ∨ target ≤ e.best + η

theorem covered_addAll (S : Search K) (η target : K) (Cov : Match K → Prop) (ms : List (Match K)) (e : Engine K)
    (h : Covered η target Cov e) : Covered η target Cov (e.addAll S ms) := by
  rcases h with ⟨m, h1, h2⟩ | h
  · exact .inl ⟨m, addAll_sub S ms e m h1, h2⟩
  · exact .inr (le_trans h (by linarith [addAll_best_le S ms e]))

theorem covered_new (S : Search K) (η target : K) (Cov : Match K → Prop) (hb : ∀ m, Cov m → target ≤ S.ub m + η)
    (ms : List (Match K)) (e : Engine K) (m : Match K) (hm : m ∈ ms) (hc : Cov m) :
    Covered η target Cov (e.addAll S ms) := by
  rcases addAll_new S ms e m hm with h | h
  · exact .inl ⟨m, h, hc⟩
  · exact .inr (by linarith [hb m hc])

theorem covered_branch (S : Search K) (δ step η target : K) (Cov : Match K → Prop) (hT : Tracks S step η target Cov)
    (e e' : Engine K) (hs : BranchStep S δ step e e') (h : Covered η target Cov e) : Covered η target Cov e' := by
  obtain ⟨m, e1, rs, ⟨hp, hbest, -⟩, hfin, rfl⟩ := hs
  rcases h with ⟨x, hx, hc⟩ | h
  · rcases List.mem_cons.1 (hp.mem_iff.1 hx) with rfl | hx
    · obtain ⟨r, hr, hcr⟩ := hT.branch x rs hc hfin
      exact covered_new S η target Cov hT.bound _ e1 _ (List.mem_map.2 ⟨r, hr, rfl⟩) hcr
    · exact covered_addAll S η target Cov _ e1 (.inl ⟨x, hx, hc⟩)
  · exact covered_addAll S η target Cov _ e1 (.inr (by rw [hbest]; exact h))

theorem covered_refine (S : Search K) (δ step η target : K) (Cov : Match K → Prop)
    (hb : ∀ m, Cov m → target ≤ S.ub m + η)
    (hr : ∀ m, Cov m → m.finest = false → finer step m.drift = none →
      ∃ p ∈ crucialPoints m.drift, Cov (m.narrow (pointRect p)))
    (e e' : Engine K) (hs : RefineStep S δ step e e') (h : Covered η target Cov e) : Covered η target Cov e' := by
  obtain ⟨m, e1, ⟨⟨hp, hbest, -⟩, hfin⟩, hnf, rfl⟩ := hs
  rcases h with ⟨x, hx, hc⟩ | h
  · rcases List.mem_cons.1 (hp.mem_iff.1 hx) with rfl | hx
    · obtain ⟨p, hpm, hcp⟩ := hr x hc hnf hfin
      exact covered_new S η target Cov hb _ e1 _ (List.mem_map.2 ⟨p, hpm, rfl⟩) hcp
    · exact covered_addAll S η target Cov _ e1 (.inl ⟨x, hx, hc⟩)
  · exact covered_addAll S η target Cov _ e1 (.inr (by rw [hbest]; exact h))

theorem covered_returns (S : Search K) (δ step η target : K) (Cov : Match K → Prop) (hδ : 0 ≤ δ)
    (hb : ∀ m, Cov m → target ≤ S.ub m + η) (e e' : Engine K) (m : Match K) (hr : Returns S δ step e m e')
    (hbest : HoldsBest S e) (h : Covered η target Cov e) : target ≤ S.ub m + δ + η := by
  obtain ⟨⟨hp, -, htop⟩, -⟩ := hr
  have hle : ∀ x ∈ e.queue, S.ub x ≤ S.ub m + δ := by
    intro x hx
    rcases List.mem_cons.1 (hp.mem_iff.1 hx) with rfl | hx
    · linarith
    · exact htop x hx
  rcases h with ⟨x, hx, hc⟩ | h
  · linarith [hb x hc, hle x hx]
  · obtain ⟨f, f1, -, f3⟩ := hbest
    linarith [hle f f1]

/-- All ranges are proper. -/
def AllProper (e : Engine K) : Prop := ∀ m ∈ e.queue, Proper m.drift

theorem finest_sides {m : Match K} (h : Proper m.drift) (hf : m.finest = true) : hside m.drift = 0 ∧ vside m.drift = 0 := by
  simp only [Match.finest, Match.driftAmount] at hf
  have hf := of_decide_eq_true hf
  have h1 : 0 ≤ hside m.drift := sub_nonneg.2 h.2
  have h2 : 0 ≤ vside m.drift := sub_nonneg.2 h.1
  exact ⟨by linarith, by linarith⟩

theorem finer_finest {m : Match K} (h : Proper m.drift) (hf : m.finest = true) (step : K) (hstep : 1 / 2 ^ 52 ≤ step) :
    finer step m.drift = none := by
  obtain ⟨h1, h2⟩ := finest_sides h hf
  have : less step 0 = false := by
    simp only [less, zero_add, decide_eq_false_iff_not, not_lt]; exact hstep
  unfold finer
  rw [h1, h2, this]

theorem finer_tiles {step : K} {r : Bounds K} (h : Proper r) {rs : List (Bounds K)} (hf : finer step r = some rs) :
    Tiles r rs := by
  unfold finer at hf
  cases h1 : less step (hside r) <;> cases h2 : less step (vside r) <;> rw [h1, h2] at hf <;>
    simp only [Option.some.injEq, reduceCtorEq] at hf <;> subst hf
  · exact (split_vert_tiles r h).1
  · exact (split_horz_tiles r h).1
  · exact (split4_tiles r h).1

theorem finer_solid {X Y step : K} {r : Bounds K} (h : Solid X Y r) {rs : List (Bounds K)}
    (hf : finer step r = some rs) : ∀ q ∈ rs, Solid X Y q := by
  intro q hq
  obtain ⟨h1, h2, h3⟩ := h
  refine ⟨(finer_tiles h1 hf).1 q hq, ?_, ?_⟩
  · intro hx
    have := h2 hx
    unfold finer at hf
    cases e1 : less step (hside r) <;> cases e2 : less step (vside r) <;> rw [e1, e2] at hf <;>
      simp only [Option.some.injEq, reduceCtorEq] at hf <;> subst hf <;>
      simp only [splitVert, splitHorz, split4, List.mem_cons, List.not_mem_nil, or_false] at hq
    · rcases hq with rfl | rfl <;> exact this
    · rcases hq with rfl | rfl <;> simp only [hside, center] at this ⊢ <;> linarith
    · rcases hq with rfl | rfl | rfl | rfl <;> simp only [hside, center] at this ⊢ <;> linarith
  · intro hy
    have := h3 hy
    unfold finer at hf
    cases e1 : less step (hside r) <;> cases e2 : less step (vside r) <;> rw [e1, e2] at hf <;>
      simp only [Option.some.injEq, reduceCtorEq] at hf <;> subst hf <;>
      simp only [splitVert, splitHorz, split4, List.mem_cons, List.not_mem_nil, or_false] at hq
    · rcases hq with rfl | rfl <;> simp only [vside, center] at this ⊢ <;> linarith
    · rcases hq with rfl | rfl <;> exact this
    · rcases hq with rfl | rfl | rfl | rfl <;> simp only [vside, center] at this ⊢ <;> linarith

theorem crucial_mem (r : Bounds K) (h : Proper r) : ∀ p ∈ crucialPoints r, p ∈ points r := by
  obtain ⟨c1, c2, c3, c4⟩ := center_between r h
  obtain ⟨h1, h2⟩ := h
  intro p hp
  simp only [crucialPoints, List.mem_cons, List.not_mem_nil, or_false] at hp
  rcases hp with rfl | rfl | rfl | rfl | rfl
  · exact ⟨le_rfl, h2, le_rfl, h1⟩
  · exact ⟨le_rfl, h2, h1, le_rfl⟩
  · exact ⟨h2, le_rfl, le_rfl, h1⟩
  · exact ⟨h2, le_rfl, h1, le_rfl⟩
  · exact ⟨c1, c2, c3, c4⟩

theorem pointRect_proper (p : Point K) : Proper (pointRect p) := ⟨le_rfl, le_rfl⟩

/-- A property of matches that survives narrowing is kept by the search. -/
def Narrows (P : Match K → Prop) : Prop :=
  ∀ m r, P m → Proper m.drift → Proper r → points r ⊆ points m.drift → P (m.narrow r)

theorem step_all (S : Search K) (δ step : K) (P : Match K → Prop) (hP : Narrows P) (e e' : Engine K)
    (hs : SearchStep S δ step e e') (hp : AllProper e) (h : ∀ m ∈ e.queue, P m) :
    AllProper e' ∧ ∀ m ∈ e'.queue, P m := by
  have key : ∀ (m : Match K) (e1 : Engine K) (ms : List (Match K)), e.queue.Perm (m :: e1.queue) →
      (∀ x ∈ ms, ∃ r, x = m.narrow r ∧ Proper r ∧ points r ⊆ points m.drift) →
      AllProper (e1.addAll S ms) ∧ ∀ m ∈ (e1.addAll S ms).queue, P m := by
    intro m e1 ms hperm hms
    have hmq : m ∈ e.queue := hperm.mem_iff.2 (by simp)
    constructor
    · intro x hx
      rcases addAll_from S ms e1 x hx with h1 | h1
      · exact hp x (hperm.mem_iff.2 (by simp [h1]))
      · obtain ⟨r, rfl, h2, -⟩ := hms x h1
        exact h2
    · intro x hx
      rcases addAll_from S ms e1 x hx with h1 | h1
      · exact h x (hperm.mem_iff.2 (by simp [h1]))
      · obtain ⟨r, rfl, h2, h3⟩ := hms x h1
        exact hP m r (h m hmq) (hp m hmq) h2 h3
  rcases hs with ⟨m, e1, rs, ⟨hperm, -, -⟩, hfin, rfl⟩ | ⟨m, e1, ⟨⟨hperm, -, -⟩, hfin⟩, hnf, rfl⟩
  · have hmq : m ∈ e.queue := hperm.mem_iff.2 (by simp)
    obtain ⟨t1, t2, -, -⟩ := finer_tiles (hp m hmq) hfin
    apply key m e1 _ hperm
    intro x hx
    obtain ⟨r, hr, rfl⟩ := List.mem_map.1 hx
    exact ⟨r, rfl, t1 r hr, fun p hpp => (t2 p).2 ⟨r, hr, hpp⟩⟩
  · have hmq : m ∈ e.queue := hperm.mem_iff.2 (by simp)
    apply key m e1 _ hperm
    intro x hx
    obtain ⟨p, hpp, rfl⟩ := List.mem_map.1 hx
    refine ⟨pointRect p, rfl, pointRect_proper p, ?_⟩
    intro q hq
    have hm := crucial_mem m.drift (hp m hmq) p hpp
    obtain ⟨q1, q2, q3, q4⟩ := hq
    simp only [pointRect] at q1 q2 q3 q4
    obtain ⟨m1, m2, m3, m4⟩ := hm
    exact ⟨by linarith, by linarith, by linarith, by linarith⟩

theorem step_holdsBest (S : Search K) (hd : 0 ≤ S.diff) (δ step : K) (hstep : 1 / 2 ^ 52 ≤ step) (e e' : Engine K)
    (hs : SearchStep S δ step e e') (hp : AllProper e) (h : HoldsBest S e) : HoldsBest S e' := by
  obtain ⟨f, h1, h2, h3⟩ := h
  have key : ∀ (m : Match K) (e1 : Engine K) (ms : List (Match K)), e.queue.Perm (m :: e1.queue) → e1.best = e.best →
      f ≠ m → HoldsBest S (e1.addAll S ms) := by
    intro m e1 ms hperm hb hne
    apply addAll_holdsBest S hd
    refine ⟨f, ?_, h2, by rw [hb]; exact h3⟩
    rcases List.mem_cons.1 (hperm.mem_iff.1 h1) with h4 | h4
    · exact absurd h4 hne
    · exact h4
  rcases hs with ⟨m, e1, rs, ⟨hperm, hb, -⟩, hfin, rfl⟩ | ⟨m, e1, ⟨⟨hperm, hb, -⟩, hfin⟩, hnf, rfl⟩
  · apply key m e1 _ hperm hb
    rintro rfl
    rw [finer_finest (hp f h1) h2 step hstep] at hfin
    cases hfin
  · apply key m e1 _ hperm hb
    rintro rfl
    rw [h2] at hnf
    cases hnf

/-! ## The state after the requests -/

theorem addAll_append (S : Search K) (e : Engine K) (a b : List (Match K)) :
    e.addAll S (a ++ b) = (e.addAll S a).addAll S b := List.foldl_append

theorem requests_eq (S : Search K) (X Y sector res : K) (fuel : Nat) (rots : List K)
    (hr : rotations sector res fuel 0 = some rots) (reqs : List Nat) : ∀ e : Engine K,
    Engine.requests S X Y sector res fuel reqs e = some (e.addAll S (reqs.flatMap fun q => rots.flatMap fun r =>
      [⟨q, r, pointRect ⟨0, 0⟩⟩, ⟨q, r, entireRange X Y⟩])) := by
  induction reqs with
  | nil => intro e; rfl
  | cons q qs ih =>
    intro e
    simp only [Engine.requests, Engine.request, hr, Option.map_some, Option.bind_some, List.flatMap_cons]
    rw [ih, addAll_append]

theorem mem_requested {X Y : K} {rots : List K} {reqs : List Nat} {m : Match K}
    (h : m ∈ (reqs.flatMap fun q => rots.flatMap fun r =>
      [(⟨q, r, pointRect ⟨0, 0⟩⟩ : Match K), ⟨q, r, entireRange X Y⟩])) :
    m.req ∈ reqs ∧ m.rot ∈ rots ∧ (m.drift = pointRect ⟨0, 0⟩ ∨ m.drift = entireRange X Y) := by
  simp only [List.mem_flatMap, List.mem_cons, List.not_mem_nil, or_false] at h
  obtain ⟨q, hq, r, hr, rfl | rfl⟩ := h
  · exact ⟨hq, hr, .inl rfl⟩
  · exact ⟨hq, hr, .inr rfl⟩

/-- What holds after the requests. -/
theorem after_requests (S : Search K) (hd : 0 ≤ S.diff) (h0 : ∀ q a r, 0 ≤ S.score q a r) (X Y sector res : K)
    (hX : 0 ≤ X) (hY : 0 ≤ Y) (hsec : 0 ≤ sector) (hres : 0 < res) (fuel : Nat) (rots : List K)
    (hr : rotations sector res fuel 0 = some rots) (reqs : List Nat) (hne : reqs ≠ []) (e : Engine K)
    (he : Engine.requests S X Y sector res fuel reqs Engine.init = some e) :
    AllProper e ∧ HoldsBest S e ∧
    (∀ m ∈ e.queue, m.req ∈ reqs ∧ m.rot ∈ rots ∧ points m.drift ⊆ points (entireRange X Y)) := by
  rw [requests_eq S X Y sector res fuel rots hr] at he
  injection he with he
  have hent : Proper (entireRange X Y) := ⟨by simp only [entireRange]; linarith, by simp only [entireRange]; linarith⟩
  have hmem : ∀ m ∈ e.queue, m.req ∈ reqs ∧ m.rot ∈ rots ∧ (m.drift = pointRect ⟨0, 0⟩ ∨ m.drift = entireRange X Y) := by
    intro m hm
    rw [← he] at hm
    rcases addAll_from S _ _ m hm with h | h
    · simp [Engine.init] at h
    · exact mem_requested h
  refine ⟨?_, ?_, ?_⟩
  · intro m hm
    rcases (hmem m hm).2.2 with h | h <;> rw [h]
    · exact pointRect_proper _
    · exact hent
  · obtain ⟨q, qs, rfl⟩ := List.exists_cons_of_ne_nil hne
    have h0mem : (0 : K) ∈ rots := by
      apply rotations_mem sector res hres fuel 0 rots hr 0
      · simpa using hsec
      · simp
    obtain ⟨r, rs, hrr⟩ := List.exists_cons_of_ne_nil (List.ne_nil_of_mem h0mem)
    rw [← he, hrr]
    simp only [List.flatMap_cons, List.cons_append, List.nil_append]
    show HoldsBest S (Engine.addAll S (Engine.add S Engine.init _) _)
    apply addAll_holdsBest S hd
    have hs0 : 0 ≤ S.ub (⟨q, r, pointRect ⟨0, 0⟩⟩ : Match K) := h0 _ _ _
    have hfin : (⟨q, r, pointRect ⟨0, 0⟩⟩ : Match K).finest = true := by
      simp [Match.finest, Match.driftAmount, hside, vside, pointRect]
    unfold Engine.add
    rw [if_neg (by simp only [Engine.init]; exact not_lt.2 hs0)]
    refine ⟨_, by simp, hfin, ?_⟩
    simp only [hfin, if_true, Engine.init]
    exact max_le hs0 (by linarith)
  · intro m hm
    obtain ⟨h1, h2, h3⟩ := hmem m hm
    refine ⟨h1, h2, ?_⟩
    rcases h3 with h | h <;> rw [h]
    · intro p hp
      obtain ⟨p1, p2, p3, p4⟩ := hp
      simp only [pointRect] at p1 p2 p3 p4
      simp only [points, entireRange, Set.mem_ofPred_eq]
      exact ⟨by linarith, by linarith, by linarith, by linarith⟩

/-! ## The engine -/

/-- C15, the engine: after any sequence of requests, the first match returned by `next_best_match` — for every order
in which equally good matches leave the queue — bounds, up to the tolerances, the score of **every** translation of
the window and every rotation of every request. -/
theorem next_best_bounds_all (S : Search K) (X Y η δ : K) (hadm : Admissible S X Y η) (hδ : 0 ≤ δ)
    (hd : 0 ≤ S.diff) (h0 : ∀ q a r, 0 ≤ S.score q a r) (sector res step : K) (hX : 0 ≤ X) (hY : 0 ≤ Y) (hsec : 0 ≤ sector)
    (hres : 0 < res) (hstep : 1 / 2 ^ 52 ≤ step) (fuel : Nat) (reqs : List Nat) (e e' : Engine K) (m : Match K)
    (he : Engine.requests S X Y sector res fuel reqs Engine.init = some e) (hm : NextBest S δ step e m e')
    (q : Nat) (hq : q ∈ reqs) (a : K) (ha : IsRotation sector res a) (p : Point K)
    (hp : p ∈ points (entireRange X Y)) :
    S.score q a (pointRect p) ≤ S.ub m + δ + η := by
  obtain ⟨rots, hr⟩ : ∃ rots, rotations sector res fuel 0 = some rots := by
    cases hrot : rotations sector res fuel 0 with
    | some l => exact ⟨l, rfl⟩
    | none =>
      exfalso
      cases reqs with
      | nil => simp at hq
      | cons x xs => simp [Engine.requests, Engine.request, hrot] at he
  obtain ⟨i1, i2, -⟩ := after_requests S hd h0 X Y sector res hX hY hsec hres fuel rots hr reqs
    (List.ne_nil_of_mem hq) e he
  have harots : a ∈ rots := by
    obtain ⟨k, h1, h2⟩ := ha
    exact rotations_mem sector res hres fuel 0 rots hr k (by rw [zero_add]; exact h2) a (by rw [zero_add]; exact h1)
  let Cov : Match K → Prop := fun m => m.req = q ∧ m.rot = a ∧ Solid X Y m.drift ∧ p ∈ points m.drift
  have hT : Tracks S step η (S.score q a (pointRect p)) Cov := by
    constructor
    · rintro m ⟨rfl, rfl, h3, h4⟩
      exact hadm _ _ _ _ h3 h4
    · rintro m rs ⟨h1, h2, h3, h4⟩ hf
      obtain ⟨t1, t2, -, -⟩ := finer_tiles h3.1 hf
      obtain ⟨r, hr, hpr⟩ := (t2 p).1 h4
      exact ⟨r, hr, h1, h2, finer_solid h3 hf r hr, hpr⟩
  have hcov : Covered η (S.score q a (pointRect p)) Cov e := by
    rw [requests_eq S X Y sector res fuel rots hr] at he
    injection he with he
    rw [← he]
    refine covered_new S η _ Cov hT.bound _ _ ⟨q, a, entireRange X Y⟩ ?_ ⟨rfl, rfl, ?_, hp⟩
    · simp only [List.mem_flatMap]
      exact ⟨q, hq, a, harots, by simp⟩
    · exact ⟨⟨by simp only [entireRange]; linarith, by simp only [entireRange]; linarith⟩,
        fun h => by simp only [hside, entireRange]; linarith, fun h => by simp only [vside, entireRange]; linarith⟩
  obtain ⟨e1, hsteps, hret⟩ := hm
  have inv : AllProper e1 ∧ HoldsBest S e1 ∧ Covered η (S.score q a (pointRect p)) Cov e1 := by
    clear hret
    induction hsteps with
    | refl => exact ⟨i1, i2, hcov⟩
    | tail _ hs ih =>
      obtain ⟨j1, j2, j3⟩ := ih
      refine ⟨?_, ?_, ?_⟩
      · exact (step_all S δ step (fun _ => True) (fun _ _ _ _ _ _ => trivial) _ _ (.inl hs) j1 (fun _ _ => trivial)).1
      · exact step_holdsBest S hd δ step hstep _ _ (.inl hs) j1 j2
      · exact covered_branch S δ step η _ Cov hT _ _ hs j3
  exact covered_returns S δ step η _ Cov hδ hT.bound e1 e' m hret inv.2.1 inv.2.2

end Slam.Multires
