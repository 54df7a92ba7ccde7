import Verif.Rect.Props

/-! # C05: area rasterisation -/

set_option autoImplicit false
set_option linter.unusedSectionVars false

namespace Slam.Rect
open Slam.Grid

/-- Enumeration order of the iterator: column by column, upwards. -/
def Before (a b : Coord) : Prop := a.x < b.x ∨ (a.x = b.x ∧ a.y < b.y)

theorem toVector_spec (H : Nat) : ∀ (n : Nat) (s : RState), s.lb.y ≤ s.y → s.y ≤ s.rt.y →
    (s.rt.y - s.lb.y).toNat + 1 = H →
    (s.rt.x + 1 - s.x).toNat * H + (s.rt.y - s.y).toNat < n →
    ∃ l, (∀ fuel, n ≤ fuel → s.toVector fuel = some l) ∧ l.Pairwise Before ∧
      ∀ c : Coord, c ∈ l ↔ (c.x = s.x ∧ s.x ≤ s.rt.x ∧ s.y ≤ c.y ∧ c.y ≤ s.rt.y) ∨
        (s.x < c.x ∧ c.x ≤ s.rt.x ∧ s.lb.y ≤ c.y ∧ c.y ≤ s.rt.y) := by
  intro n
  induction n with
  | zero => intro s _ _ _ h; omega
  | succ n ih =>
    intro s h1 h2 hH hm
    by_cases hx : s.x ≤ s.rt.x
    · have hn : s.hasNext = true := by simp [RState.hasNext, hx, h2]
      by_cases hy : s.rt.y < s.y + 1
      · -- next column
        have hns : s.next.2 = { s with y := s.lb.y, x := s.x + 1 } := by
          simp only [RState.next, if_pos hy]
        have hmul : (s.rt.x + 1 - s.x).toNat * H = (s.rt.x + 1 - (s.x + 1)).toNat * H + H := by
          have : (s.rt.x + 1 - s.x).toNat = (s.rt.x + 1 - (s.x + 1)).toNat + 1 := by omega
          rw [this, Nat.add_mul, Nat.one_mul]
        obtain ⟨l, i1, i2, i3⟩ := ih { s with y := s.lb.y, x := s.x + 1 } (le_refl _) (by simp only; omega) hH
          (by simp only; omega)
        refine ⟨⟨s.x, s.y⟩ :: l, ?_, ?_, ?_⟩
        · intro fuel hf
          obtain ⟨f, rfl⟩ : ∃ f, fuel = f + 1 := ⟨fuel - 1, by omega⟩
          unfold RState.toVector
          rw [if_pos hn]
          simp only [hns, i1 f (by omega)]
          simp [RState.next]
        · rw [List.pairwise_cons]
          refine ⟨fun c hc => ?_, i2⟩
          rw [i3] at hc
          simp only at hc
          left
          simp only
          rcases hc with ⟨e, -⟩ | ⟨e, -⟩ <;> omega
        · intro c
          rw [List.mem_cons, i3]
          simp only
          constructor
          · rintro (rfl | ⟨e1, e2, e3, e4⟩ | ⟨e1, e2, e3, e4⟩)
            · left; exact ⟨rfl, hx, le_refl _, h2⟩
            · right; exact ⟨by omega, by omega, e3, e4⟩
            · right; exact ⟨by omega, by omega, e3, e4⟩
          · rintro (⟨e1, e2, e3, e4⟩ | ⟨e1, e2, e3, e4⟩)
            · left; cases c; simp only at *; congr 1; omega
            · right
              by_cases hcx : c.x = s.x + 1
              · left; exact ⟨hcx, by omega, e3, e4⟩
              · right; exact ⟨by omega, e2, e3, e4⟩
      · have hns : s.next.2 = { s with y := s.y + 1 } := by
          simp only [RState.next, if_neg hy]
        obtain ⟨l, i1, i2, i3⟩ := ih { s with y := s.y + 1 } (by simp only; omega) (by simp only; omega) hH
          (by simp only; omega)
        refine ⟨⟨s.x, s.y⟩ :: l, ?_, ?_, ?_⟩
        · intro fuel hf
          obtain ⟨f, rfl⟩ : ∃ f, fuel = f + 1 := ⟨fuel - 1, by omega⟩
          unfold RState.toVector
          rw [if_pos hn]
          simp only [hns, i1 f (by omega)]
          simp [RState.next]
        · rw [List.pairwise_cons]
          refine ⟨fun c hc => ?_, i2⟩
          rw [i3] at hc
          simp only at hc
          unfold Before
          simp only
          rcases hc with ⟨e, -, e3, -⟩ | ⟨e, -⟩
          · right; constructor <;> omega
          · left; omega
        · intro c
          rw [List.mem_cons, i3]
          simp only
          constructor
          · rintro (rfl | ⟨e1, e2, e3, e4⟩ | ⟨e1, e2, e3, e4⟩)
            · left; exact ⟨rfl, hx, le_refl _, h2⟩
            · left; exact ⟨by omega, by omega, by omega, e4⟩
            · right; exact ⟨by omega, by omega, e3, e4⟩
          · rintro (⟨e1, e2, e3, e4⟩ | ⟨e1, e2, e3, e4⟩)
            · by_cases hcy : c.y = s.y
              · left; cases c; simp only at *; congr 1
              · right; left; exact ⟨e1, e2, by omega, e4⟩
            · right; right; exact ⟨e1, e2, e3, e4⟩
    · have hn : s.hasNext = false := by simp [RState.hasNext, hx]
      refine ⟨[], ?_, List.Pairwise.nil, ?_⟩
      · intro fuel _
        unfold RState.toVector
        simp [hn]
      · intro c
        constructor
        · intro h; simp at h
        · rintro (⟨e1, e2, -⟩ | ⟨e1, e2, -⟩) <;> omega

variable {K : Type*} [Field K] [LinearOrder K] [IsStrictOrderedRing K] [FloorRing K]

theorem create_xy (g : GridView K) (r : Region K) (b : Bool) :
    (RState.create g r b).x = (RState.create g r b).lb.x ∧
    (RState.create g r b).y = (RState.create g r b).lb.y := by
  unfold RState.create
  cases r with
  | finite r => simp only; split <;> exact ⟨rfl, rfl⟩
  | infinite => exact ⟨rfl, rfl⟩

/-- C05: iterating any region terminates and yields, in column order and without repetition, exactly the cells of the
index rectangle spanned by its two corner cells. -/
theorem raster_enumerates_once (g : GridView K) (r : Region K) (b : Bool) :
    ∃ l, Rasterizes g r b l ∧ l.Pairwise Before ∧ l.Nodup ∧
      ∀ c : Coord, c ∈ l ↔ (RState.create g r b).lb.x ≤ c.x ∧ c.x ≤ (RState.create g r b).rt.x ∧
        (RState.create g r b).lb.y ≤ c.y ∧ c.y ≤ (RState.create g r b).rt.y := by
  obtain ⟨hx, hy⟩ := create_xy g r b
  unfold Rasterizes
  generalize RState.create g r b = s at *
  by_cases h : s.lb.y ≤ s.rt.y
  · obtain ⟨l, h1, h2, h3⟩ := toVector_spec _ _ s (by omega) (by omega) rfl (Nat.lt_succ_self _)
    refine ⟨l, ⟨_, h1⟩, h2, h2.imp ?_, ?_⟩
    · rintro a b hab rfl; unfold Before at hab; omega
    · intro c; rw [h3]; constructor
      · rintro (⟨e1, e2, e3, e4⟩ | ⟨e1, e2, e3, e4⟩) <;> refine ⟨?_, ?_, ?_, ?_⟩ <;> omega
      · rintro ⟨e1, e2, e3, e4⟩
        by_cases hc : c.x = s.x
        · left; refine ⟨hc, ?_, ?_, ?_⟩ <;> omega
        · right; refine ⟨?_, ?_, ?_, ?_⟩ <;> omega
  · refine ⟨[], ⟨0, fun fuel _ => ?_⟩, List.Pairwise.nil, List.nodup_nil, fun c => ?_⟩
    · have hn : s.hasNext = false := by
        simp only [RState.hasNext, Bool.and_eq_false_iff, decide_eq_false_iff_not]; right; omega
      unfold RState.toVector
      simp [hn]
    · constructor
      · intro h; simp at h
      · rintro ⟨-, -, h1, h2⟩; omega

theorem rasterizes_unique (g : GridView K) (r : Region K) (b : Bool) (l l' : List Coord)
    (h : Rasterizes g r b l) (h' : Rasterizes g r b l') : l = l' := by
  obtain ⟨n, hn⟩ := h
  obtain ⟨m, hm⟩ := h'
  exact Option.some.inj ((hn (max n m) (le_max_left _ _)).symm.trans (hm _ (le_max_right _ _)))

theorem floor_range (s a b : K) (hs : 0 < s) (hab : a ≤ b) (k : Int) :
    (⌊a / s⌋ ≤ k ∧ k ≤ ⌊b / s⌋) ↔ ∃ x, a ≤ x ∧ x ≤ b ∧ ⌊x / s⌋ = k := by
  constructor
  · rintro ⟨h1, h2⟩
    by_cases h : (k : K) * s ≤ a
    · refine ⟨a, le_rfl, hab, le_antisymm h1 ?_⟩
      rw [Int.le_floor, le_div_iff₀ hs]; exact h
    · refine ⟨(k : K) * s, (not_le.1 h).le, ?_, ?_⟩
      · rw [Int.le_floor, le_div_iff₀ hs] at h2; exact h2
      · rw [mul_div_assoc, div_self hs.ne', mul_one, Int.floor_intCast]
  · rintro ⟨x, h1, h2, rfl⟩
    exact ⟨Int.floor_le_floor (div_le_div_of_nonneg_right h1 hs.le),
      Int.floor_le_floor (div_le_div_of_nonneg_right h2 hs.le)⟩

/-- C05: with the border, the cells enumerated for a rectangle of positive area are exactly those a point of the
(closed) rectangle falls into. -/
theorem raster_border_covers (g : GridView K) (s : K) (hg : g.scale = some s) (hs : 0 < s) (r : Bounds K)
    (hr : Proper r) (ha : area r ≠ 0) :
    ∃ l, Rasterizes g (.finite r) true l ∧ l.Nodup ∧
      ∀ c, c ∈ l ↔ ∃ p, p ∈ points r ∧ worldToCell s p = c := by
  obtain ⟨l, h1, -, h2, h3⟩ := raster_enumerates_once g (.finite r) true
  refine ⟨l, h1, h2, fun c => ?_⟩
  rw [h3]
  simp only [RState.create, if_neg ha, if_true, add_zero, sub_zero, GridView.worldToCell, hg, worldToCell]
  have hx := floor_range s r.left r.right hs hr.2 c.x
  have hy := floor_range s r.bot r.top hs hr.1 c.y
  constructor
  · rintro ⟨a1, a2, a3, a4⟩
    obtain ⟨x, b1, b2, b3⟩ := hx.1 ⟨a1, a2⟩
    obtain ⟨y, c1, c2, c3⟩ := hy.1 ⟨a3, a4⟩
    exact ⟨⟨x, y⟩, ⟨b1, b2, c1, c2⟩, by rw [b3, c3]⟩
  · rintro ⟨p, ⟨b1, b2, c1, c2⟩, rfl⟩
    have e1 := hx.2 ⟨p.x, b1, b2, rfl⟩
    have e2 := hy.2 ⟨p.y, c1, c2, rfl⟩
    exact ⟨e1.1, e1.2, e2.1, e2.2⟩

/-- C05: without the border the rectangle is first shrunk by `1e-9` on each side. -/
theorem raster_no_border_covers (g : GridView K) (s : K) (hg : g.scale = some s) (hs : 0 < s) (r : Bounds K)
    (hw : 2 / 10 ^ 9 ≤ hside r) (hh : 2 / 10 ^ 9 ≤ vside r) :
    ∃ l, Rasterizes g (.finite r) false l ∧ l.Nodup ∧
      ∀ c, c ∈ l ↔ ∃ p, p ∈ points ⟨r.bot + 1 / 10 ^ 9, r.top - 1 / 10 ^ 9, r.left + 1 / 10 ^ 9, r.right - 1 / 10 ^ 9⟩ ∧
        worldToCell s p = c := by
  have e : (0 : K) < 2 / 10 ^ 9 := by positivity
  have ha : area r ≠ 0 := (mul_pos (lt_of_lt_of_le e hh) (lt_of_lt_of_le e hw)).ne'
  obtain ⟨l, h1, -, h2, h3⟩ := raster_enumerates_once g (.finite r) false
  refine ⟨l, h1, h2, fun c => ?_⟩
  rw [h3]
  simp only [RState.create, if_neg ha, Bool.false_eq_true, if_false, GridView.worldToCell, hg, worldToCell]
  unfold hside at hw
  unfold vside at hh
  have e2 : (2 : K) / 10 ^ 9 = 1 / 10 ^ 9 + 1 / 10 ^ 9 := by ring
  rw [e2] at hw hh
  have hx := floor_range s (r.left + 1 / 10 ^ 9) (r.right - 1 / 10 ^ 9) hs (by linarith) c.x
  have hy := floor_range s (r.bot + 1 / 10 ^ 9) (r.top - 1 / 10 ^ 9) hs (by linarith) c.y
  constructor
  · rintro ⟨a1, a2, a3, a4⟩
    obtain ⟨x, b1, b2, b3⟩ := hx.1 ⟨a1, a2⟩
    obtain ⟨y, c1, c2, c3⟩ := hy.1 ⟨a3, a4⟩
    exact ⟨⟨x, y⟩, ⟨b1, b2, c1, c2⟩, by rw [b3, c3]⟩
  · rintro ⟨p, ⟨b1, b2, c1, c2⟩, rfl⟩
    have e1 := hx.2 ⟨p.x, b1, b2, rfl⟩
    have e2 := hy.2 ⟨p.y, c1, c2, rfl⟩
    exact ⟨e1.1, e1.2, e2.1, e2.2⟩

/-- C05: an infinite region yields exactly the cells of the grid. -/
theorem raster_infinite (g : GridView K) (b : Bool) :
    ∃ l, Rasterizes g .infinite b l ∧ l.Nodup ∧ ∀ c, c ∈ l ↔ g.dims.hasCell g.origin c = true := by
  obtain ⟨l, h1, -, h2, h3⟩ := raster_enumerates_once g (.infinite) b
  refine ⟨l, h1, h2, fun c => ?_⟩
  rw [h3]
  simp only [Dims.hasCell, Dims.hasInternalCell, Bool.and_eq_true, decide_eq_true_eq]
  simp only [RState.create, internal2external, Coord.sub, external2internal, Coord.add]
  constructor
  · rintro ⟨a1, a2, a3, a4⟩; refine ⟨⟨?_, ?_⟩, ?_, ?_⟩ <;> omega
  · rintro ⟨⟨a1, a2⟩, a3, a4⟩; refine ⟨?_, ?_, ?_, ?_⟩ <;> omega

/-- C05: a cell's own bounds without the border yield exactly that cell (scale above `1e-9`; also for the infinite
scale of the coarsest level, where every finite region gives the cell `(0,0)`). -/
theorem raster_own_cell (g : GridView K) (s : K) (hg : g.scale = some s) (hs : 1 / 10 ^ 9 < s) (c : Coord) :
    Rasterizes g (.finite (worldCellBounds s c)) false [c] := by
  have hs0 : 0 < s := lt_trans (by positivity) hs
  have he : (0 : K) < 1 / 10 ^ 9 := by positivity
  have ha : area (worldCellBounds s c) ≠ 0 := by
    have : area (worldCellBounds s c) = s * s := by
      simp only [area, vside, hside, worldCellBounds]; ring
    rw [this]; positivity
  obtain ⟨l, h1, -, h2, h3⟩ := raster_enumerates_once g (.finite (worldCellBounds s c)) false
  have f1 : ∀ k : Int, ⌊(s * (k : K) + 1 / 10 ^ 9) / s⌋ = k := by
    intro k
    rw [Int.floor_eq_iff, le_div_iff₀ hs0, div_lt_iff₀ hs0]
    constructor <;> nlinarith
  have f2 : ∀ k : Int, ⌊(s * ((k : K) + 1) - 1 / 10 ^ 9) / s⌋ = k := by
    intro k
    rw [Int.floor_eq_iff, le_div_iff₀ hs0, div_lt_iff₀ hs0]
    constructor <;> nlinarith
  simp only [RState.create, if_neg ha, Bool.false_eq_true, if_false, GridView.worldToCell, hg, worldToCell] at h3
  simp only [worldCellBounds, f1, f2] at h3
  have : l = [c] := by
    have hmem : ∀ d, d ∈ l ↔ d = c := by
      intro d
      rw [h3]
      constructor
      · rintro ⟨a1, a2, a3, a4⟩
        have ex : d.x = c.x := le_antisymm a2 a1
        have ey : d.y = c.y := le_antisymm a4 a3
        cases d; cases c; simp only at ex ey; rw [ex, ey]
      · rintro rfl; exact ⟨le_rfl, le_rfl, le_rfl, le_rfl⟩
    match l, h2, hmem with
    | [], _, hm => have := (hm c).2 rfl; simp at this
    | [x], _, hm => rw [(hm x).1 (by simp)]
    | x :: y :: t, hnd, hm =>
      have e1 := (hm x).1 (by simp)
      have e2 := (hm y).1 (by simp)
      subst e1
      simp [e2] at hnd
  rw [← this]; exact h1

/-- C05: the coarsest level (infinite scale) has one cell. -/
theorem raster_infinite_scale (g : GridView K) (hg : g.scale = none) (r : Bounds K) (b : Bool) :
    Rasterizes g (.finite r) b [⟨0, 0⟩] := by
  refine ⟨2, fun fuel hf => ?_⟩
  obtain ⟨f, rfl⟩ : ∃ f, fuel = f + 2 := ⟨fuel - 2, by omega⟩
  simp only [RState.create, GridView.worldToCell, hg, ite_self]
  simp [RState.toVector, RState.hasNext, RState.next]

/-- C05 is restricted to rectangles of positive area for a reason: a degenerate (line) rectangle is rasterised to the
single cell of its left bottom corner, although its points fall into other cells too. -/
theorem raster_line_counterexample :
    let g : GridView ℚ := ⟨⟨10, 10⟩, ⟨5, 5⟩, some 1⟩
    let line : Bounds ℚ := ⟨1 / 2, 1 / 2, 1 / 2, 7 / 2⟩
    Rasterizes g (.finite line) true [⟨0, 0⟩] ∧ (⟨5 / 2, 1 / 2⟩ : Point ℚ) ∈ points line ∧
      worldToCell 1 (⟨5 / 2, 1 / 2⟩ : Point ℚ) = ⟨2, 0⟩ := by
  have e : (RState.create (⟨⟨10, 10⟩, ⟨5, 5⟩, some 1⟩ : GridView ℚ) (.finite ⟨1 / 2, 1 / 2, 1 / 2, 7 / 2⟩) true)
      = ⟨⟨0, 0⟩, ⟨0, 0⟩, 0, 0⟩ := by
    simp only [RState.create, area, vside, hside]
    norm_num [GridView.worldToCell, worldToCell]
  refine ⟨⟨2, fun fuel hf => ?_⟩, ?_, ?_⟩
  · obtain ⟨f, rfl⟩ : ∃ f, fuel = f + 2 := ⟨fuel - 2, by omega⟩
    rw [e]
    simp [RState.toVector, RState.hasNext, RState.next]
  · simp only [points, Set.mem_ofPred_eq]; norm_num
  · simp only [worldToCell]; norm_num [Int.floor_eq_iff]

/-- Non-vacuity: a rectangle covering 2 × 3 cells (test). -/
example : (⟨⟨0, 0⟩, ⟨1, 2⟩, 0, 0⟩ : RState).toVector 7 =
    some [⟨0, 0⟩, ⟨0, 1⟩, ⟨0, 2⟩, ⟨1, 0⟩, ⟨1, 1⟩, ⟨1, 2⟩] := by decide

end Slam.Rect
