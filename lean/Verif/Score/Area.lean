import Verif.Score.Model
import Verif.Rect.Raster
import Verif.Rect.Props
import Verif.Cells.Spec
import Mathlib.Algebra.BigOperators.Group.List.Basic
import Mathlib.Algebra.Order.BigOperators.Group.List
import Mathlib.Tactic.Linarith
import Mathlib.Tactic.Ring
import Mathlib.Tactic.FieldSimp
import Mathlib.Tactic.NormNum

/-!
# C34: area observation estimates; C59: GMapping's cached window estimate
-/

set_option autoImplicit false
set_option linter.unusedSectionVars false

namespace Slam.Score
open Slam.Grid Slam.Rect Slam.Cells

variable {K : Type*} [Field K] [LinearOrder K] [IsStrictOrderedRing K] [FloorRing K]

/-! ## Specification -/

/-- Every cell of the list can be read and its impact is a probability. -/
def Sound (impact : Coord → Option K) (cells : List Coord) : Prop :=
  ∀ c ∈ cells, ∃ v, impact c = some v ∧ Unit01 v

/-- `v` is the greatest impact of the cells, or zero for no cells. -/
def IsMax (impact : Coord → Option K) (cells : List Coord) (v : K) : Prop :=
  (∀ c ∈ cells, ∀ x, impact c = some x → x ≤ v) ∧
  ((cells = [] ∧ v = 0) ∨ (∃ c ∈ cells, impact c = some v))

/-! ## Lemmas -/

theorem probBounded_unit {v : K} (h : Unit01 v) : probBounded v = true := by
  have hp : (0 : K) < 1 / 2 ^ 52 := by positivity
  simp only [probBounded, lessOrEqual, less, Bool.and_eq_true, Bool.or_eq_true, decide_eq_true_eq]
  exact ⟨.inr (by linarith [h.1]), .inr (by linarith [h.2])⟩

theorem checked_some {impact : Coord → Option K} {c : Coord} {v : K} (h : impact c = some v) (hv : Unit01 v) :
    checked impact c = some v := by
  simp [checked, h, probBounded_unit hv]

theorem Sound.tail {impact : Coord → Option K} {c : Coord} {cells : List Coord} (h : Sound impact (c :: cells)) :
    Sound impact cells := fun d hd => h d (by simp [hd])

theorem maxLoop_spec (impact : Coord → Option K) (cells : List Coord) : ∀ (m : K), Sound impact cells →
    ∃ v, maxLoop impact m cells = some v ∧ m ≤ v ∧ (∀ c ∈ cells, ∀ x, impact c = some x → x ≤ v) ∧
      (v = m ∨ ∃ c ∈ cells, impact c = some v) := by
  induction cells with
  | nil => intro m _; exact ⟨m, rfl, le_rfl, by simp, .inl rfl⟩
  | cons c cells ih =>
    intro m hs
    obtain ⟨x, hx, hu⟩ := hs c (by simp)
    obtain ⟨v, h1, h2, h3, h4⟩ := ih (max x m) hs.tail
    refine ⟨v, ?_, le_trans (le_max_right _ _) h2, ?_, ?_⟩
    · simp only [maxLoop, checked_some hx hu, Option.bind_some]; exact h1
    · intro d hd y hy
      rcases List.mem_cons.1 hd with rfl | hd
      · rw [hx] at hy
        injection hy with hy
        rw [← hy]
        exact le_trans (le_max_left _ _) h2
      · exact h3 d hd y hy
    · rcases h4 with h4 | ⟨d, hd, h4⟩
      · rcases le_total x m with h | h
        · left; rw [h4, max_eq_right h]
        · right; exact ⟨c, by simp, by rw [h4, max_eq_left h, hx]⟩
      · right; exact ⟨d, by simp [hd], h4⟩

theorem meanLoop_spec (impact : Coord → Option K) (cells : List Coord) (xs : List K)
    (h : List.Forall₂ (fun c x => impact c = some x ∧ Unit01 x) cells xs) : ∀ (t : K) (n : Nat),
    meanLoop impact t n cells = some (t + xs.sum, n + xs.length) := by
  induction h with
  | nil => intro t n; simp [meanLoop]
  | cons hc _ ih =>
    intro t n
    simp only [meanLoop, checked_some hc.1 hc.2, Option.bind_some]
    rw [ih]
    simp only [List.sum_cons, List.length_cons, Option.some.injEq, Prod.mk.injEq]
    exact ⟨by ring, by omega⟩

theorem sound_values (impact : Coord → Option K) (cells : List Coord) (h : Sound impact cells) :
    ∃ xs : List K, List.Forall₂ (fun c x => impact c = some x ∧ Unit01 x) cells xs := by
  induction cells with
  | nil => exact ⟨[], .nil⟩
  | cons c cells ih =>
    obtain ⟨x, h1, h2⟩ := h c (by simp)
    obtain ⟨xs, hxs⟩ := ih h.tail
    exact ⟨x :: xs, .cons ⟨h1, h2⟩ hxs⟩

theorem sum_between {α : Type*} {R : α → K → Prop} {l : List α} {xs : List K} (h : List.Forall₂ R l xs) (lo hi : K)
    (hb : ∀ c ∈ l, ∀ x, R c x → lo ≤ x ∧ x ≤ hi) :
    lo * xs.length ≤ xs.sum ∧ xs.sum ≤ hi * xs.length := by
  induction h with
  | nil => simp
  | @cons c x l xs hc _ ih =>
    obtain ⟨i1, i2⟩ := ih fun d hd => hb d (by simp [hd])
    obtain ⟨b1, b2⟩ := hb c (by simp) x hc
    simp only [List.sum_cons, List.length_cons, Nat.cast_add, Nat.cast_one]
    constructor <;> linarith

/-! ## C34 -/

/-- C34: the max estimate is defined and is the greatest cell impact (zero for no cells), hence in `[0, 1]`. -/
theorem max_estimate (impact : Coord → Option K) (cells : List Coord) (hs : Sound impact cells) :
    ∃ v, maxPE impact cells = some v ∧ IsMax impact cells v ∧ Unit01 v := by
  obtain ⟨v, h1, h2, h3, h4⟩ := maxLoop_spec impact cells 0 hs
  refine ⟨v, h1, ⟨h3, ?_⟩, h2, ?_⟩
  · rcases h4 with h4 | h4
    · by_cases hc : cells = []
      · exact .inl ⟨hc, h4⟩
      · right
        obtain ⟨c, hc⟩ := List.exists_mem_of_ne_nil _ hc
        obtain ⟨x, hx, hu⟩ := hs c hc
        refine ⟨c, hc, ?_⟩
        rw [hx, h4]
        congr 1
        exact le_antisymm (by rw [← h4]; exact h3 c hc x hx) hu.1
    · exact .inr h4
  · rcases h4 with h4 | ⟨c, hc, h4⟩
    · rw [h4]; exact zero_le_one
    · obtain ⟨x, hx, hu⟩ := hs c hc
      rw [h4] at hx
      injection hx with hx
      rw [hx]; exact hu.2

/-- C34: the mean estimate over a non-empty list of cells is the arithmetic mean of their impacts: in `[0, 1]`, not
above the max estimate, not below any lower bound of the impacts. Over no cells it is one half. -/
theorem mean_estimate (impact : Coord → Option K) (cells : List Coord) (hs : Sound impact cells) :
    (cells = [] → meanPE impact cells = some (1 / 2)) ∧
    (cells ≠ [] → ∃ m v xs, meanPE impact cells = some m ∧ maxPE impact cells = some v ∧
      List.Forall₂ (fun c x => impact c = some x) cells xs ∧ m = xs.sum / xs.length ∧ Unit01 m ∧ m ≤ v ∧
      ∀ lo, (∀ c ∈ cells, ∀ x, impact c = some x → lo ≤ x) → lo ≤ m) := by
  constructor
  · rintro rfl; simp [meanPE, meanLoop]
  · intro hne
    obtain ⟨xs, hxs⟩ := sound_values impact cells hs
    obtain ⟨v, h1, h2, h3⟩ := max_estimate impact cells hs
    have hlen : cells.length = xs.length := hxs.length_eq
    have hpos : 0 < xs.length := by rw [← hlen]; exact List.length_pos_of_ne_nil hne
    have hposK : (0 : K) < xs.length := by exact_mod_cast hpos
    have hm : meanPE impact cells = some (xs.sum / xs.length) := by
      simp only [meanPE, meanLoop_spec impact cells xs hxs, Option.map_some, zero_add]
      rw [if_pos (by omega)]
    refine ⟨xs.sum / xs.length, v, xs, hm, h1, hxs.imp (fun _ _ h => h.1), rfl, ⟨?_, ?_⟩, ?_, ?_⟩
    · rw [le_div_iff₀ hposK]
      exact (sum_between hxs 0 1 fun c _ x hx => hx.2).1
    · rw [div_le_iff₀ hposK]
      exact (sum_between hxs 0 1 fun c _ x hx => hx.2).2
    · rw [div_le_iff₀ hposK]
      exact (sum_between hxs 0 v fun c hc x hx => ⟨hx.2.1, h2.1 c hc x hx.1⟩).2
    · intro lo hlo
      rw [le_div_iff₀ hposK]
      exact (sum_between hxs lo 1 fun c hc x hx => ⟨hlo c hc x hx.1, hx.2.2⟩).1

theorem probBounded_near (v : K) (h : probBounded v = true) : -(1 / 10 ^ 7) ≤ v ∧ v ≤ 1 + 2 / 10 ^ 7 := by
  have h52 : (1 / 2 ^ 52 : K) ≤ 1 / 10 ^ 7 := by norm_num
  rw [probBounded, Bool.and_eq_true] at h
  simp only [lessOrEqual, less, areEqual, Bool.or_eq_true, decide_eq_true_eq, zero_sub, abs_neg, abs_zero, abs_one] at h
  generalize (1 / 2 ^ 52 : K) = e at *
  obtain ⟨h1, h2⟩ := h
  constructor
  · by_contra hc
    rw [not_le] at hc
    have hneg : v < 0 := lt_of_lt_of_le hc (by norm_num)
    rcases h1 with h1 | h1
    · rw [abs_of_neg hneg] at h1
      rcases le_total 1 (-v) with hv | hv
      · have : max (1 : K) (max 0 (-v)) = -v := by rw [max_eq_right (by linarith : (0 : K) ≤ -v), max_eq_right hv]
        rw [this] at h1
        linarith
      · have : max (1 : K) (max 0 (-v)) = 1 := by rw [max_eq_right (by linarith : (0 : K) ≤ -v), max_eq_left hv]
        rw [this] at h1
        linarith
    · linarith
  · by_contra hc
    rw [not_le] at hc
    have h0 : (0 : K) < 2 / 10 ^ 7 := by norm_num
    have hv : 1 < v := by linarith
    rcases h2 with h2 | h2
    · rw [abs_of_pos (by linarith : 0 < v), abs_of_pos (by linarith : (0 : K) < v - 1), max_eq_left hv.le,
        max_eq_right hv.le] at h2
      linarith
    · linarith

theorem checked_none {impact : Coord → Option K} {c : Coord}
    (h : ∀ v, impact c = some v → v < -(1 / 10 ^ 7) ∨ 1 + 2 / 10 ^ 7 < v) : checked impact c = none := by
  unfold checked
  cases hi : impact c with
  | none => rfl
  | some v =>
    rw [Option.bind_some, if_neg]
    intro hb
    obtain ⟨h1, h2⟩ := probBounded_near v hb
    rcases h v hi with h | h
    · exact absurd h1 (not_le.2 h)
    · exact absurd h2 (not_le.2 h)

/-- C34: an impact that is no probability (by more than the tolerance of the check) is never averaged in: if any of the
cells cannot be read or has such an impact, no estimate is made. -/
theorem bad_impact_refused (impact : Coord → Option K) (cells : List Coord) (c : Coord) (hc : c ∈ cells)
    (h : ∀ v, impact c = some v → v < -(1 / 10 ^ 7) ∨ 1 + 2 / 10 ^ 7 < v) :
    maxPE impact cells = none ∧ meanPE impact cells = none ∧
    (∀ (scale : K) (a : Bounds K), overlapPE impact scale a cells = none) ∧
    ∀ (g : GridView K) (p : Point K), g.worldToCell p = c → obstaclePE g impact p = none := by
  have hn := checked_none h
  have hmax : ∀ (l : List Coord) (m : K), c ∈ l → maxLoop impact m l = none := by
    intro l
    induction l with
    | nil => intro m hm; simp at hm
    | cons d l ih =>
      intro m hm
      by_cases hd : d = c
      · subst hd; simp [maxLoop, hn]
      · have : c ∈ l := by rcases List.mem_cons.1 hm with e | e; · exact absurd e.symm hd
                           · exact e
        cases hk : checked impact d with
        | none => simp [maxLoop, hk]
        | some v => simp only [maxLoop, hk, Option.bind_some]; exact ih _ this
  have hmean : ∀ (l : List Coord) (t : K) (n : Nat), c ∈ l → meanLoop impact t n l = none := by
    intro l
    induction l with
    | nil => intro t n hm; simp at hm
    | cons d l ih =>
      intro t n hm
      by_cases hd : d = c
      · subst hd; simp [meanLoop, hn]
      · have : c ∈ l := by rcases List.mem_cons.1 hm with e | e; · exact absurd e.symm hd
                           · exact e
        cases hk : checked impact d with
        | none => simp [meanLoop, hk]
        | some v => simp only [meanLoop, hk, Option.bind_some]; exact ih _ _ this
  have hover : ∀ (wt : Coord → Option K) (l : List Coord) (t w : K), c ∈ l → overlapLoop impact wt t w l = none := by
    intro wt l
    induction l with
    | nil => intro t n hm; simp at hm
    | cons d l ih =>
      intro t n hm
      by_cases hd : d = c
      · subst hd; simp [overlapLoop, hn]
      · have : c ∈ l := by rcases List.mem_cons.1 hm with e | e; · exact absurd e.symm hd
                           · exact e
        cases hk : checked impact d with
        | none => simp [overlapLoop, hk]
        | some v =>
          cases hw : wt d with
          | none => simp [overlapLoop, hk, hw]
          | some x => simp only [overlapLoop, hk, hw, Option.bind_some]; exact ih _ _ this
  refine ⟨hmax _ _ hc, ?_, fun s a => ?_, fun g p hp => ?_⟩
  · rw [meanPE, hmean _ _ _ hc]; rfl
  · rw [overlapPE, hover _ _ _ _ hc]; rfl
  · rw [obstaclePE, hp, hn]

example : meanPE (fun c : Coord => if c.x = 0 then some (3 / 2 : ℚ) else some (1 / 2)) [⟨1, 0⟩, ⟨0, 0⟩] = none :=
  (bad_impact_refused _ _ ⟨0, 0⟩ (by simp) (by intro v hv; right; simp at hv; rw [← hv]; norm_num)).2.1

/-- C34: the max estimate does not decrease when cells are added. -/
theorem max_monotone (impact : Coord → Option K) (cells cells' : List Coord) (hsub : cells ⊆ cells')
    (hs : Sound impact cells') (v v' : K) (h : maxPE impact cells = some v) (h' : maxPE impact cells' = some v') :
    v ≤ v' := by
  obtain ⟨w, e1, e2, e3⟩ := max_estimate impact cells fun c hc => hs c (hsub hc)
  obtain ⟨w', f1, f2, f3⟩ := max_estimate impact cells' hs
  rw [h] at e1; injection e1 with e1; subst e1
  rw [h'] at f1; injection f1 with f1; subst f1
  rcases e2.2 with ⟨-, e⟩ | ⟨c, hc, e⟩
  · rw [e]; exact f3.1
  · exact f2.1 c (hsub hc) v e

/-- C34: enlarging the area. For a rectangle of positive area, or a single point, inside a rectangle of positive area,
the max estimate over the larger area is at least the one over the smaller area, on any map with a positive scale. -/
theorem max_grows_with_area (impact : Coord → Option K) (g : GridView K) (s : K) (hg : g.scale = some s) (hs : 0 < s)
    (a b : Bounds K) (ha : Proper a) (hb : Proper b) (hsub : points a ⊆ points b)
    (ha0 : area a ≠ 0 ∨ (vside a = 0 ∧ hside a = 0)) (hb0 : area b ≠ 0) (ca cb : List Coord)
    (hca : Rasterizes g (.finite a) true ca) (hcb : Rasterizes g (.finite b) true cb) (hsound : Sound impact cb) :
    ∃ v v', maxPE impact ca = some v ∧ maxPE impact cb = some v' ∧ v ≤ v' := by
  have hsubset : ca ⊆ cb := by
    obtain ⟨lb, b1, -, b2⟩ := raster_border_covers g s hg hs b hb hb0
    have : lb = cb := rasterizes_unique g _ _ _ _ b1 hcb
    subst this
    intro c hc
    rw [b2]
    rcases ha0 with ha0 | ⟨hv, hh⟩
    · obtain ⟨la, a1, -, a2⟩ := raster_border_covers g s hg hs a ha ha0
      have : la = ca := rasterizes_unique g _ _ _ _ a1 hca
      subst this
      obtain ⟨p, p1, p2⟩ := (a2 c).1 hc
      exact ⟨p, hsub p1, p2⟩
    · obtain ⟨la, a1, -, -, a2⟩ := raster_enumerates_once g (.finite a) true
      have : la = ca := rasterizes_unique g _ _ _ _ a1 hca
      subst this
      have hz : area a = 0 := by unfold area; rw [hv, zero_mul]
      have := (a2 c).1 hc
      simp only [RState.create, if_pos hz, GridView.worldToCell, hg] at this
      refine ⟨⟨a.left, a.bot⟩, hsub ⟨le_rfl, ha.2, le_rfl, ha.1⟩, ?_⟩
      obtain ⟨t1, t2, t3, t4⟩ := this
      have e1 := le_antisymm t1 t2
      have e2 := le_antisymm t3 t4
      cases c
      simp only at e1 e2
      rw [← e1, ← e2]
  obtain ⟨v, e1, -, -⟩ := max_estimate impact ca fun c hc => hsound c (hsubset hc)
  obtain ⟨v', f1, -, -⟩ := max_estimate impact cb hsound
  exact ⟨v, v', e1, f1, max_monotone impact ca cb hsubset hsound v v' e1 f1⟩

/-- C34: at least one cell is looked at, for every rectangle with ordered sides on a map with a positive scale; so the
mean is a mean of cells. -/
theorem area_nonempty (g : GridView K) (s : K) (hg : g.scale = some s) (hs : 0 < s) (a : Bounds K) (ha : Proper a) :
    ∃ ca, Rasterizes g (.finite a) true ca ∧ ca ≠ [] := by
  obtain ⟨la, a1, -, -, a2⟩ := raster_enumerates_once g (.finite a) true
  refine ⟨la, a1, ?_⟩
  intro h
  have key : (RState.create g (.finite a) true).lb ∈ la := by
    rw [a2]
    by_cases hz : area a = 0
    · simp only [RState.create, if_pos hz]
      exact ⟨le_rfl, le_rfl, le_rfl, le_rfl⟩
    · simp only [RState.create, if_neg hz, if_true, add_zero, sub_zero, GridView.worldToCell, hg, worldToCell]
      exact ⟨le_rfl, Int.floor_le_floor (div_le_div_of_nonneg_right ha.2 hs.le), le_rfl,
        Int.floor_le_floor (div_le_div_of_nonneg_right ha.1 hs.le)⟩
  rw [h] at key
  simp at key

/-- C34: a single point gives the same estimate with all three strategies: the impact of the cell it is in. -/
theorem point_estimates_agree (impact : Coord → Option K) (g : GridView K) (s : K) (hg : g.scale = some s)
    (p : Point K) (v : K) (hv : impact (worldToCell s p) = some v) (hu : Unit01 v) :
    obstaclePE g impact p = some v ∧ ∃ cells, Rasterizes g (.finite ⟨p.y, p.y, p.x, p.x⟩) true cells ∧
      maxPE impact cells = some v ∧ meanPE impact cells = some v := by
  obtain ⟨la, a1, -, a3, a2⟩ := raster_enumerates_once g (.finite ⟨p.y, p.y, p.x, p.x⟩) true
  have hz : area (⟨p.y, p.y, p.x, p.x⟩ : Bounds K) = 0 := by simp [area, vside]
  simp only [RState.create, if_pos hz, GridView.worldToCell, hg] at a2
  have hmem : ∀ d, d ∈ la ↔ d = worldToCell s p := by
    intro d
    rw [a2]
    constructor
    · rintro ⟨t1, t2, t3, t4⟩
      have e1 := le_antisymm t1 t2
      have e2 := le_antisymm t3 t4
      cases d
      simp only at e1 e2
      rw [← e1, ← e2]
    · rintro rfl
      exact ⟨le_rfl, le_rfl, le_rfl, le_rfl⟩
  have hla : la = [worldToCell s p] := by
    match la, a3, hmem with
    | [], _, hm => have := (hm (worldToCell s p)).2 rfl; simp at this
    | [x], _, hm => rw [(hm x).1 (by simp)]
    | x :: y :: l, hn, hm =>
      have e1 := (hm x).1 (by simp)
      have e2 := (hm y).1 (by simp)
      rw [e1, e2] at hn
      simp at hn
  subst hla
  refine ⟨?_, _, a1, ?_, ?_⟩
  · simp [obstaclePE, GridView.worldToCell, hg, checked_some hv hu]
  · simp [maxPE, maxLoop, checked_some hv hu, max_eq_left hu.1]
  · simp [meanPE, meanLoop, checked_some hv hu]

theorem intersect_proper (le : K → K → Bool) (a b r : Bounds K) (h : intersect le a b = some r) :
    Proper r := by
  have hz : Proper (⟨0, 0, 0, 0⟩ : Bounds K) := ⟨le_rfl, le_rfl⟩
  have hrev : ∀ x y : Bounds K, intersectRev le x y = some r → Proper r := by
    intro x y hxy
    unfold intersectRev at hxy
    simp only at hxy
    split at hxy
    · injection hxy with hxy; rw [← hxy]; exact hz
    · cases hxy
    · by_cases hc : (corners le x y).r.bot ≤ (corners le x y).r.top ∧ (corners le x y).r.left ≤ (corners le x y).r.right
      · rw [if_pos hc] at hxy
        injection hxy with hxy; rw [← hxy]; exact hc
      · rw [if_neg hc] at hxy; cases hxy
  unfold intersect at h
  simp only at h
  split at h
  · exact hrev _ _ h
  · cases h
  · by_cases hc : (corners le a b).r.bot ≤ (corners le a b).r.top ∧ (corners le a b).r.left ≤ (corners le a b).r.right
    · rw [if_pos hc] at h
      injection h with h; rw [← h]; exact hc
    · rw [if_neg hc] at h; cases h

theorem overlap_nonneg (le eq : K → K → Bool) (a b : Bounds K) (ha : Proper a) (x : K)
    (h : overlap le eq a b = some x) : 0 ≤ x := by
  unfold overlap at h
  by_cases h1 : area a ≠ 0
  · rw [if_pos h1] at h
    simp only [Option.map_eq_some_iff] at h
    obtain ⟨r, hr, rfl⟩ := h
    have hp := intersect_proper le a b r hr
    apply div_nonneg
    · exact mul_nonneg (sub_nonneg.2 hp.1) (sub_nonneg.2 hp.2)
    · exact mul_nonneg (sub_nonneg.2 ha.1) (sub_nonneg.2 ha.2)
  · rw [if_neg h1] at h
    by_cases h2 : area b ≠ 0
    · rw [if_pos h2] at h
      injection h with h
      rw [← h]; split <;> norm_num
    · rw [if_neg h2] at h
      by_cases h3 : (isPoint a && isPoint b) = true
      · rw [if_pos h3] at h
        injection h with h
        rw [← h]; split <;> norm_num
      · rw [if_neg h3] at h; cases h

theorem overlapLoop_spec (impact weight : Coord → Option K) (hw : ∀ c x, weight c = some x → 0 ≤ x)
    (cells : List Coord) (lo hi : K) (hs : Sound impact cells)
    (hb : ∀ c ∈ cells, ∀ x, impact c = some x → lo ≤ x ∧ x ≤ hi) : ∀ (t w t' w' : K),
    overlapLoop impact weight t w cells = some (t', w') → lo * w ≤ t → t ≤ hi * w → 0 ≤ w →
    lo * w' ≤ t' ∧ t' ≤ hi * w' ∧ 0 ≤ w' := by
  induction cells with
  | nil =>
    intro t w t' w' h h1 h2 h3
    simp only [overlapLoop, Option.some.injEq, Prod.mk.injEq] at h
    obtain ⟨rfl, rfl⟩ := h
    exact ⟨h1, h2, h3⟩
  | cons c cells ih =>
    intro t w t' w' h h1 h2 h3
    obtain ⟨x, hx, hu⟩ := hs c (by simp)
    obtain ⟨b1, b2⟩ := hb c (by simp) x hx
    simp only [overlapLoop, checked_some hx hu, Option.bind_some] at h
    cases hwc : weight c with
    | none => rw [hwc] at h; simp at h
    | some y =>
      rw [hwc] at h
      simp only [Option.bind_some] at h
      have hy := hw c y hwc
      exact ih hs.tail (fun d hd => hb d (by simp [hd])) _ _ _ _ h (by nlinarith) (by nlinarith) (by linarith)

/-- C34: whenever the overlap-weighted estimate is defined, it lies between any bounds of the cell impacts — in
particular in `[0, 1]` — or it is one half because no cell overlaps. -/
theorem overlap_estimate_bounded (impact : Coord → Option K) (scale : K) (area : Bounds K) (ha : Proper area)
    (cells : List Coord) (lo hi v : K) (hs : Sound impact cells)
    (hb : ∀ c ∈ cells, ∀ x, impact c = some x → lo ≤ x ∧ x ≤ hi)
    (h : overlapPE impact scale area cells = some v) : (lo ≤ v ∧ v ≤ hi) ∨ v = 1 / 2 := by
  unfold overlapPE at h
  simp only [Option.map_eq_some_iff] at h
  obtain ⟨⟨t, w⟩, h1, h2⟩ := h
  obtain ⟨g1, g2, g3⟩ := overlapLoop_spec impact _ (fun c x hx => overlap_nonneg _ _ _ _ ha x hx) cells lo hi hs hb
    0 0 t w h1 (by simp) (by simp) le_rfl
  simp only at h2
  by_cases hw : w ≠ 0
  · rw [if_pos hw] at h2
    have hwp : 0 < w := lt_of_le_of_ne g3 (Ne.symm hw)
    left
    rw [← h2, le_div_iff₀ hwp, div_le_iff₀ hwp]
    exact ⟨g1, g2⟩
  · rw [if_neg hw] at h2
    exact .inr h2.symm

/-- C34, negative part: the estimate may decrease when a point is enlarged to a line: a rectangle of zero area is
looked at in its left bottom corner only. -/
theorem max_line_counterexample :
    ∃ (impact : Coord → Option ℚ) (g : GridView ℚ) (a b : Bounds ℚ), g.scale = some 1 ∧ Proper a ∧ Proper b ∧
      points a ⊆ points b ∧ Rasterizes g (.finite a) true [⟨1, 0⟩] ∧ Rasterizes g (.finite b) true [⟨0, 0⟩] ∧
      maxPE impact [⟨1, 0⟩] = some 1 ∧ maxPE impact [⟨0, 0⟩] = some 0 := by
  refine ⟨fun c => some (if c.x = 1 then 1 else 0), ⟨⟨4, 4⟩, ⟨2, 2⟩, some 1⟩, ⟨0, 0, 1, 1⟩, ⟨0, 0, 0, 1⟩, rfl,
    ⟨le_rfl, le_rfl⟩, ⟨le_rfl, by norm_num⟩, ?_, ⟨1, ?_⟩, ⟨1, ?_⟩, ?_, ?_⟩
  · rintro p ⟨h1, h2, h3, h4⟩
    simp only at h1 h2 h3 h4
    exact ⟨by linarith, h2, h3, h4⟩
  · intro fuel hf
    obtain ⟨f, rfl⟩ : ∃ f, fuel = f + 1 := ⟨fuel - 1, by omega⟩
    have hc : RState.create (⟨⟨4, 4⟩, ⟨2, 2⟩, some 1⟩ : GridView ℚ) (.finite ⟨0, 0, 1, 1⟩) true =
        ⟨⟨1, 0⟩, ⟨1, 0⟩, 1, 0⟩ := by
      simp [RState.create, area, vside, GridView.worldToCell, worldToCell]
    rw [hc]
    unfold RState.toVector
    simp only [RState.hasNext, RState.next]
    unfold RState.toVector
    simp [RState.hasNext]
  · intro fuel hf
    obtain ⟨f, rfl⟩ : ∃ f, fuel = f + 1 := ⟨fuel - 1, by omega⟩
    have hc : RState.create (⟨⟨4, 4⟩, ⟨2, 2⟩, some 1⟩ : GridView ℚ) (.finite ⟨0, 0, 0, 1⟩) true =
        ⟨⟨0, 0⟩, ⟨0, 0⟩, 0, 0⟩ := by
      simp [RState.create, area, vside, GridView.worldToCell, worldToCell]
    rw [hc]
    unfold RState.toVector
    simp only [RState.hasNext, RState.next]
    unfold RState.toVector
    simp [RState.hasNext]
  · decide +kernel
  · decide +kernel

/-! ## C59: GMapping's window estimate and its cache -/

/-- Specification: the best agreement in the window of half-width `w` around `c` among the full cells (zero if there is
none better). -/
def IsWindowBest (fullness : K) (w : Nat) (map : Coord → GmView K) (c : Coord) (v : K) : Prop :=
  0 ≤ v ∧
  (∀ d : Coord, |d.x - c.x| ≤ w → |d.y - c.y| ≤ w → fullness ≤ (map d).occ → 1 - (map d).discrepancy ≤ v) ∧
  (v = 0 ∨ ∃ d : Coord, |d.x - c.x| ≤ w ∧ |d.y - c.y| ≤ w ∧ fullness ≤ (map d).occ ∧ v = 1 - (map d).discrepancy)

theorem windowOffsets_mem (w : Nat) (o : Coord) : o ∈ windowOffsets w ↔ |o.x| ≤ w ∧ |o.y| ≤ w := by
  simp only [windowOffsets, List.mem_flatMap, List.mem_map, List.mem_range, abs_le]
  constructor
  · rintro ⟨i, hi, j, hj, rfl⟩
    simp only
    omega
  · rintro ⟨⟨h1, h2⟩, h3, h4⟩
    refine ⟨(o.x + w).toNat, by omega, (o.y + w).toNat, by omega, ?_⟩
    cases o
    simp only [Coord.mk.injEq] at *
    omega

theorem gmFold_spec (fullness : K) (map : Coord → GmView K) (c : Coord) (offs : List Coord) : ∀ b : K,
    b ≤ offs.foldl (gmStep fullness map c) b ∧
    (∀ o ∈ offs, fullness ≤ (map (c.add o)).occ → 1 - (map (c.add o)).discrepancy ≤
      offs.foldl (gmStep fullness map c) b) ∧
    (offs.foldl (gmStep fullness map c) b = b ∨ ∃ o ∈ offs, fullness ≤ (map (c.add o)).occ ∧
      offs.foldl (gmStep fullness map c) b = 1 - (map (c.add o)).discrepancy) := by
  induction offs with
  | nil => intro b; simp
  | cons o offs ih =>
    intro b
    simp only [List.foldl_cons]
    obtain ⟨h1, h2, h3⟩ := ih (gmStep fullness map c b o)
    by_cases hf : (map (c.add o)).occ < fullness
    · have e : gmStep fullness map c b o = b := by simp [gmStep, hf]
      rw [e] at h1 h2 h3 ⊢
      refine ⟨h1, ?_, ?_⟩
      · intro o' ho' hfo
        rcases List.mem_cons.1 ho' with rfl | ho'
        · exact absurd hfo (not_le.2 hf)
        · exact h2 o' ho' hfo
      · rcases h3 with h3 | ⟨o', ho', h3⟩
        · exact .inl h3
        · exact .inr ⟨o', by simp [ho'], h3⟩
    · have e : gmStep fullness map c b o = max b (1 - (map (c.add o)).discrepancy) := by simp [gmStep, hf]
      rw [e] at h1 h2 h3 ⊢
      refine ⟨le_trans (le_max_left _ _) h1, ?_, ?_⟩
      · intro o' ho' hfo
        rcases List.mem_cons.1 ho' with rfl | ho'
        · exact le_trans (le_max_right _ _) h1
        · exact h2 o' ho' hfo
      · rcases h3 with h3 | ⟨o', ho', h3⟩
        · rcases le_total (1 - (map (c.add o)).discrepancy) b with h | h
          · left; rw [h3, max_eq_left h]
          · right; exact ⟨o, by simp, not_lt.1 hf, by rw [h3, max_eq_right h]⟩
        · exact .inr ⟨o', by simp [ho'], h3⟩

theorem gmFold_best (fullness : K) (w : Nat) (map : Coord → GmView K) (c : Coord) :
    IsWindowBest fullness w map c ((windowOffsets w).foldl (gmStep fullness map c) 0) := by
  obtain ⟨h1, h2, h3⟩ := gmFold_spec fullness map c (windowOffsets w) 0
  refine ⟨h1, ?_, ?_⟩
  · intro d d1 d2 d3
    have := h2 ⟨d.x - c.x, d.y - c.y⟩ ((windowOffsets_mem w _).2 ⟨d1, d2⟩)
    have e : c.add ⟨d.x - c.x, d.y - c.y⟩ = d := by cases d; simp [Coord.add]
    rw [e] at this
    exact this d3
  · rcases h3 with h3 | ⟨o, ho, h4, h5⟩
    · exact .inl h3
    · obtain ⟨a, b⟩ := (windowOffsets_mem w o).1 ho
      exact .inr ⟨c.add o, by simpa [Coord.add] using a, by simpa [Coord.add] using b, h4, h5⟩

/-- A sequence of queries: the maps they are made on and the cells asked for. -/
def GmPE.queries (e : GmPE K) : List ((Coord → GmView K) × Coord) → List K
  | [] => []
  | (m, c) :: qs => (e.probability m c).1 :: GmPE.queries (e.probability m c).2 qs

/-- C59, what holds: on one map and for one observation, every query of any sequence of queries — the first as well as
those served from the cache — returns the best agreement in the window around the queried cell. -/
theorem window_estimate (fullness : K) (w : Nat) (map : Coord → GmView K) (cs : List Coord) :
    List.Forall₂ (fun c v => IsWindowBest fullness w map c v) cs
      ((GmPE.create fullness w).queries (cs.map fun c => (map, c))) := by
  have key : ∀ (cs : List Coord) (e : GmPE K), e.fullness = fullness → e.window = w →
      (e.cachedProb = -1 ∨ IsWindowBest fullness w map e.cachedCoord e.cachedProb) →
      List.Forall₂ (fun c v => IsWindowBest fullness w map c v) cs (e.queries (cs.map fun c => (map, c))) := by
    intro cs
    induction cs with
    | nil => intro e _ _ _; exact .nil
    | cons c cs ih =>
      intro e h1 h2 h3
      simp only [List.map_cons, GmPE.queries]
      by_cases hc : c = e.cachedCoord ∧ e.cachedProb ≠ -1
      · have ep : e.probability map c = (e.cachedProb, e) := by simp only [GmPE.probability]; rw [if_pos hc]
        rw [ep]
        refine .cons ?_ (ih e h1 h2 h3)
        rcases h3 with h3 | h3
        · exact absurd h3 hc.2
        · rw [hc.1]; exact h3
      · have ep : e.probability map c = ((windowOffsets e.window).foldl (gmStep e.fullness map c) 0,
            ⟨e.fullness, e.window, c, (windowOffsets e.window).foldl (gmStep e.fullness map c) 0⟩) := by
          simp only [GmPE.probability]; rw [if_neg hc]
        rw [ep, h1, h2]
        have hb := gmFold_best fullness w map c
        exact .cons hb (ih _ rfl rfl (.inr hb))
  exact key cs _ rfl rfl (.inl rfl)

theorem queries_length (e : GmPE K) (qs : List ((Coord → GmView K) × Coord)) : (e.queries qs).length = qs.length := by
  induction qs generalizing e with
  | nil => rfl
  | cons q qs ih => obtain ⟨m, c⟩ := q; simp [GmPE.queries, ih]

/-- C59 in full: in any sequence of queries, on maps and observations that may change from query to query, the answer
to query `i` is the best agreement around its cell *on the map and for the observation of query `j`*, where `j` is the
first of the unbroken run of queries for that cell that ends with query `i`. -/
theorem every_window_estimate (fullness : K) (w : Nat) (qs : List ((Coord → GmView K) × Coord)) (i : Nat)
    (hi : i < qs.length) :
    ∃ (j : Nat) (v : K), ∃ hj : j ≤ i, ((GmPE.create fullness w).queries qs)[i]? = some v ∧
      (∀ k (hk : k ≤ i), j ≤ k → (qs[k]'(by omega)).2 = qs[i].2) ∧
      (∀ k (hk : k < j), k + 1 = j → (qs[k]'(by omega)).2 ≠ qs[i].2) ∧
      IsWindowBest fullness w (qs[j]'(by omega)).1 qs[i].2 v := by
  -- the state before query `i`: the cached value is that of the first query of the run ending with `i - 1`
  have key : ∀ (qs : List ((Coord → GmView K) × Coord)) (e : GmPE K) (pre : List ((Coord → GmView K) × Coord)),
      e.fullness = fullness → e.window = w →
      (pre = [] ∧ e.cachedProb = -1 ∨ ∃ (j : Nat) (hj : j < pre.length),
        (∀ k (hk : k < pre.length), j ≤ k → pre[k].2 = e.cachedCoord) ∧
        (∀ k (hk : k < j), k + 1 = j → (pre[k]'(by omega)).2 ≠ e.cachedCoord) ∧
        IsWindowBest fullness w pre[j].1 e.cachedCoord e.cachedProb) →
      ∀ (i : Nat) (hi : i < qs.length),
      ∃ (j : Nat) (v : K), ∃ hj : j ≤ pre.length + i, (e.queries qs)[i]? = some v ∧
        (∀ k (hk : k ≤ pre.length + i), j ≤ k →
          ((pre ++ qs)[k]'(by simp only [List.length_append]; omega)).2 = qs[i].2) ∧
        (∀ k (hk : k < j), k + 1 = j →
          ((pre ++ qs)[k]'(by simp only [List.length_append]; omega)).2 ≠ qs[i].2) ∧
        IsWindowBest fullness w ((pre ++ qs)[j]'(by simp only [List.length_append]; omega)).1 qs[i].2 v := by
    intro qs
    induction qs with
    | nil => intro e pre _ _ _ i hi; simp at hi
    | cons q qs ih =>
      obtain ⟨m, c⟩ := q
      intro e pre h1 h2 h3
      -- the value of this query and what the state is afterwards
      have now : ∃ (j : Nat) (hj : j ≤ pre.length),
          (∀ k (hk : k ≤ pre.length), j ≤ k → ((pre ++ (m, c) :: qs)[k]'(by simp; omega)).2 = c) ∧
          (∀ k (hk : k < j), k + 1 = j → ((pre ++ (m, c) :: qs)[k]'(by simp; omega)).2 ≠ c) ∧
          IsWindowBest fullness w ((pre ++ (m, c) :: qs)[j]'(by simp; omega)).1 c (e.probability m c).1 ∧
          (e.probability m c).2.fullness = fullness ∧ (e.probability m c).2.window = w ∧
          (e.probability m c).2.cachedCoord = c ∧ (e.probability m c).2.cachedProb = (e.probability m c).1 := by
        by_cases hc : c = e.cachedCoord ∧ e.cachedProb ≠ -1
        · have ep : e.probability m c = (e.cachedProb, e) := by simp only [GmPE.probability]; rw [if_pos hc]
          rw [ep]
          rcases h3 with ⟨-, h3⟩ | ⟨j, hj, a1, a2, a3⟩
          · exact absurd h3 hc.2
          · refine ⟨j, hj.le, ?_, ?_, ?_, h1, h2, hc.1.symm, rfl⟩
            · intro k hk hjk
              by_cases hkl : k < pre.length
              · rw [List.getElem_append_left hkl, a1 k hkl hjk, hc.1]
              · have : k = pre.length := by omega
                subst this
                simp
            · intro k hk hkj
              rw [List.getElem_append_left (by omega), hc.1]
              exact a2 k hk hkj
            · rw [List.getElem_append_left hj, hc.1]
              exact a3
        · have ep : e.probability m c = ((windowOffsets e.window).foldl (gmStep e.fullness m c) 0,
              ⟨e.fullness, e.window, c, (windowOffsets e.window).foldl (gmStep e.fullness m c) 0⟩) := by
            simp only [GmPE.probability]; rw [if_neg hc]
          rw [ep, h1, h2]
          refine ⟨pre.length, le_refl _, ?_, ?_, ?_, rfl, rfl, rfl, rfl⟩
          · intro k hk hjk
            have : k = pre.length := by omega
            subst this
            simp
          · intro k hk hkj
            rw [List.getElem_append_left (by omega)]
            rcases h3 with ⟨h3, -⟩ | ⟨j, hj, a1, a2, a3⟩
            · rw [h3] at hk; simp at hk
            · rw [a1 k (by omega) (by omega)]
              intro he
              apply hc
              refine ⟨he.symm, fun hm => ?_⟩
              have := a3.1
              rw [hm] at this
              exact absurd this (by norm_num)
          · simpa using gmFold_best fullness w m c
      obtain ⟨j, hj, a1, a2, a3, a4, a5, a6, a7⟩ := now
      intro i hi
      cases i with
      | zero =>
        refine ⟨j, (e.probability m c).1, by omega, by simp [GmPE.queries], ?_, ?_, ?_⟩
        · intro k hk hjk; simpa using a1 k (by omega) hjk
        · intro k hk hkj; simpa using a2 k hk hkj
        · simpa using a3
      | succ i =>
        have hi' : i < qs.length := by simpa using hi
        have := ih (e.probability m c).2 (pre ++ [(m, c)]) a4 a5 (.inr ⟨j, by simp; omega, ?_, ?_, ?_⟩) i hi'
        · obtain ⟨j', v, hj', b1, b2, b3, b4⟩ := this
          simp only [List.length_append, List.length_cons, List.length_nil] at hj' b2
          refine ⟨j', v, by omega, by simpa [GmPE.queries] using b1, ?_, ?_, ?_⟩
          · intro k hk hjk
            have := b2 k (by omega) hjk
            simpa [List.append_assoc] using this
          · intro k hk hkj
            have := b3 k hk hkj
            simpa [List.append_assoc] using this
          · simpa [List.append_assoc] using b4
        · intro k hk hjk
          simp only [List.length_append, List.length_cons, List.length_nil] at hk
          have := a1 k (by omega) hjk
          rw [a6]
          by_cases hkl : k < pre.length
          · rw [List.getElem_append_left hkl] at this ⊢; exact this
          · have hk' : k = pre.length := by omega
            subst hk'
            simp
        · intro k hk hkj
          have := a2 k hk hkj
          rw [a6]
          rw [List.getElem_append_left (by omega)] at this ⊢
          exact this
        · rw [a6, a7]
          by_cases hjl : j < pre.length
          · rw [List.getElem_append_left hjl] at a3 ⊢; exact a3
          · have hj' : j = pre.length := by omega
            subst hj'
            simpa using a3
  obtain ⟨j, v, hj, b1, b2, b3, b4⟩ := key qs (GmPE.create fullness w) [] rfl rfl (.inl ⟨rfl, rfl⟩) i hi
  simp only [List.length_nil, Nat.zero_add, List.nil_append] at hj b2 b3 b4
  exact ⟨j, v, hj, b1, b2, b3, b4⟩

/-- C59, negative part: the cache is keyed by the cell only, so a query after the map changed (or for another
observation in the same cell) returns the old value. -/
theorem stale_cache_counterexample :
    ∃ (m1 m2 : Coord → GmView ℚ) (c : Coord),
      (GmPE.create (1 / 2) 1).queries [(m1, c), (m2, c)] = [0, 0] ∧
      (GmPE.create (1 / 2) 1).queries [(m2, c)] = [1] :=
  ⟨fun _ => ⟨0, 0⟩, fun _ => ⟨1, 0⟩, ⟨0, 0⟩, by decide +kernel, by decide +kernel⟩

/-! ## Non-vacuity -/

/-- Impacts of a three-cell area. -/
def demoImpact (c : Coord) : Option ℚ := if c.x = 0 then some (1 / 4) else if c.x = 1 then some 1 else some (1 / 2)

example : Sound demoImpact [⟨0, 0⟩, ⟨1, 0⟩, ⟨2, 0⟩] ∧ maxPE demoImpact [⟨0, 0⟩, ⟨1, 0⟩, ⟨2, 0⟩] = some 1 ∧
    meanPE demoImpact [⟨0, 0⟩, ⟨1, 0⟩, ⟨2, 0⟩] = some (7 / 12) := by
  refine ⟨?_, by decide +kernel, by decide +kernel⟩
  intro c hc
  simp only [demoImpact]
  by_cases h0 : c.x = 0
  · exact ⟨1 / 4, by simp [h0], by norm_num [Unit01]⟩
  · by_cases h1 : c.x = 1
    · exact ⟨1, by simp [h1], by norm_num [Unit01]⟩
    · exact ⟨1 / 2, by simp [h0, h1], by norm_num [Unit01]⟩

/-- The overlap-weighted estimate of a half-cell shift over two cells is defined. -/
example : overlapPE demoImpact 1 ⟨1 / 4, 3 / 4, 1 / 2, 3 / 2⟩ [⟨0, 0⟩, ⟨1, 0⟩] = some (5 / 8) := by decide +kernel

/-- Rectangles as in `max_grows_with_area`. -/
example : Proper (⟨0, 1, 0, 1⟩ : Bounds ℚ) ∧ Proper (⟨0, 2, 0, 2⟩ : Bounds ℚ) ∧ area (⟨0, 1, 0, 1⟩ : Bounds ℚ) ≠ 0 ∧
    area (⟨0, 2, 0, 2⟩ : Bounds ℚ) ≠ 0 ∧ points (⟨0, 1, 0, 1⟩ : Bounds ℚ) ⊆ points ⟨0, 2, 0, 2⟩ := by
  refine ⟨by norm_num [Proper], by norm_num [Proper], by norm_num [area, vside, hside],
    by norm_num [area, vside, hside], ?_⟩
  rintro p ⟨h1, h2, h3, h4⟩
  simp only at h1 h2 h3 h4
  exact ⟨h1, by linarith, h3, by linarith⟩

/-- The impact of a cell on the estimate, for a map of plain cells and an observation: `DiscrepancyOIE` of the cell's
discrepancy. -/
def cellImpact (cells : Coord → BaseCell K) (obs : Aoo K) (c : Coord) : Option K :=
  ((cells c).discrepancy obs).map discrepancyImpact

/-- C34: for cells and an observation with probabilities, the estimate at the obstacle is a probability that measures
likeness: one iff the cell agrees with the observation, zero iff they are opposite certainties, and smaller the farther
they are apart. -/
theorem estimate_measures_likeness (g : GridView K) (cells : Coord → BaseCell K) (obs : Aoo K) (o : Occ K)
    (ho : obs.occ = some o) (h01 : Unit01 o.prob) (obst : Point K) (q : Occ K)
    (hq : (cells (g.worldToCell obst)).occ = some q) (hq01 : Unit01 q.prob) :
    ∃ v, obstaclePE g (cellImpact cells obs) obst = some v ∧ Unit01 v ∧ (v = 1 ↔ q.prob = o.prob) ∧
      (v = 0 ↔ (q.prob = 0 ∧ o.prob = 1) ∨ (q.prob = 1 ∧ o.prob = 0)) ∧
      (∀ t, t ≤ v ↔ |q.prob - o.prob| ≤ 1 - t) := by
  obtain ⟨a0, a1⟩ := h01
  obtain ⟨b0, b1⟩ := hq01
  have hd : |q.prob - o.prob| ≤ 1 := by rw [abs_le]; constructor <;> linarith
  have hn := abs_nonneg (q.prob - o.prob)
  have hi : cellImpact cells obs (g.worldToCell obst) = some (1 - |q.prob - o.prob|) := by
    simp [cellImpact, BaseCell.discrepancy, hq, ho, discrepancyImpact]
  have hu : Unit01 (1 - |q.prob - o.prob|) := ⟨by linarith, by linarith⟩
  refine ⟨1 - |q.prob - o.prob|, checked_some hi hu, hu, ?_, ?_, ?_⟩
  · rw [sub_eq_self, abs_eq_zero, sub_eq_zero]
  · rw [sub_eq_zero, eq_comm, abs_eq zero_le_one]
    constructor
    · rintro (h | h)
      · right; constructor <;> linarith
      · left; constructor <;> linarith
    · rintro (⟨h1, h2⟩ | ⟨h1, h2⟩)
      · right; rw [h1, h2]; ring
      · left; rw [h1, h2]; ring
  · intro t; constructor <;> intro h <;> linarith

example : (cellImpact (fun _ => (⟨some ⟨3 / 4, 1⟩, false⟩ : BaseCell ℚ)) ⟨true, some ⟨1, 1⟩, ⟨0, 0⟩, 1⟩ ⟨0, 0⟩) = some (3 / 4) := by
  decide +kernel

end Slam.Score
