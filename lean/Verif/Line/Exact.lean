import Verif.Line.Props
import Verif.Grid.Props
import Verif.Rect.Model
import Mathlib.Tactic.Linarith
import Mathlib.Tactic.Ring
import Mathlib.Tactic.FieldSimp
import Mathlib.Data.Rat.Floor
import Mathlib.Tactic.NormNum

/-!
# C54: which cells a segment is rasterised to (exact arithmetic)
-/

set_option autoImplicit false
set_option linter.unusedSectionVars false

namespace Slam.Line
open Slam.Grid

variable {K : Type} [Field K] [LinearOrder K] [IsStrictOrderedRing K] [FloorRing K]

/-- The operations of `world_to_cells` in exact arithmetic on a grid of scale `m`; the test `are_equal(d, 0)`
(math_utils.h:15-20) is a parameter. -/
def exactFP (m : K) (eqZero : K → Bool) : FP K where
  add := (· + ·)
  sub := (· - ·)
  mul := (· * ·)
  neg := fun a => -a
  abs := fun a => |a|
  ofInt := fun i => (i : K)
  half := 1 / 2
  pos := fun d => decide (0 < d)
  eqZero := eqZero
  cell := fun x y => worldToCell m ⟨x, y⟩

/-! ## Specification -/

/-- The point of the segment `b`–`e` at fraction `t`. -/
def along (b e : Point K) (t : K) : Point K := ⟨b.x + t * (e.x - b.x), b.y + t * (e.y - b.y)⟩

/-- The segment has a point in the cell (cells are half open, so the cells partition the plane). -/
def Passes (m : K) (b e : Point K) (c : Coord) : Prop := ∃ t, 0 ≤ t ∧ t ≤ 1 ∧ worldToCell m (along b e t) = c

/-- A grid corner lies on the segment. -/
def HitsCorner (m : K) (b e : Point K) : Prop :=
  ∃ (i j : Int) (t : K), 0 ≤ t ∧ t ≤ 1 ∧ along b e t = ⟨(i : K) * m, (j : K) * m⟩

/-- `cells` are the cells the segment runs through: exactly those it has a point in, in the order in which it runs
through them, none twice. -/
structure RunsThrough (m : K) (b e : Point K) (cells : List Coord) : Prop where
  exact : ∀ c, c ∈ cells ↔ Passes m b e c
  order : ∃ ts : List K, ts.Pairwise (· < ·) ∧ (∀ t ∈ ts, 0 ≤ t ∧ t ≤ 1) ∧
    cells = ts.map fun t => worldToCell m (along b e t)
  nodup : cells.Nodup

/-! ## Proof -/

/-- Signed distance (times the segment's length) of a point from the line. -/
def side (b e p : Point K) : K := (e.y - b.y) * (p.x - b.x) - (e.x - b.x) * (p.y - b.y)

/-- Centre of a cell shifted by a number of cells. -/
def midOf (m : K) (c : Coord) (i j : Int) : Point K := ⟨((c.x : K) + 1 / 2 + i) * m, ((c.y : K) + 1 / 2 + j) * m⟩

/-- Direction of travel along an axis, as the code defines it. -/
def sgn (d : K) : Int := if 0 < d then 1 else -1

theorem cell_iff (m : K) (hm : 0 < m) (p : Point K) (c : Coord) :
    worldToCell m p = c ↔ ((c.x : K) * m ≤ p.x ∧ p.x < ((c.x : K) + 1) * m) ∧
      ((c.y : K) * m ≤ p.y ∧ p.y < ((c.y : K) + 1) * m) := by
  obtain ⟨cx, cy⟩ := c
  simp only [worldToCell, Coord.mk.injEq, Int.floor_eq_iff, le_div_iff₀ hm, div_lt_iff₀ hm]

theorem sgn_cases (d : K) : sgn d = 1 ∧ 0 < d ∨ sgn d = -1 ∧ d ≤ 0 := by
  unfold sgn
  by_cases h : 0 < d
  · left; simp [h]
  · right; simp [h]; exact not_lt.1 h

/-- One dimension: leaving the interval of cell `k` in direction `sgn d`. If the coordinate `u + t·d` is in cell `k` at
`t0` and in a different one at 1, and `r` is some later moment at which it has not left cell `k` completely, … -/
theorem leave (m : K) (hm : 0 < m) (u d t0 : K) (k : Int) (ht0 : t0 ≤ 1)
    (h0 : (k : K) * m ≤ u + t0 * d ∧ u + t0 * d < ((k : K) + 1) * m)
    (h1 : ¬ ((k : K) * m ≤ u + 1 * d ∧ u + 1 * d < ((k : K) + 1) * m)) :
    d ≠ 0 ∧ ∃ tX : K, t0 ≤ tX ∧ tX ≤ 1 ∧
      u + tX * d = ((k : K) + 1 / 2 + (sgn d : K) / 2) * m ∧
      ∀ r, tX < r → ∃ t1, t0 < t1 ∧ t1 ≤ 1 ∧ tX ≤ t1 ∧ t1 < r ∧
        ((k : K) + sgn d) * m ≤ u + t1 * d ∧ u + t1 * d < ((k : K) + sgn d + 1) * m := by
  have hd : d ≠ 0 := by
    rintro rfl
    apply h1
    simpa using h0
  refine ⟨hd, ?_⟩
  rcases sgn_cases d with ⟨hs, hp⟩ | ⟨hs, hn⟩
  · rw [hs]
    set tX := (((k : K) + 1) * m - u) / d with htX
    have e : u + tX * d = ((k : K) + 1) * m := by rw [htX]; field_simp; ring
    have ha : t0 < tX := by
      have : t0 * d < tX * d := by linarith [h0.2]
      exact lt_of_mul_lt_mul_right this hp.le
    have hb : tX ≤ 1 := by
      by_contra hc
      have : 1 * d < tX * d := mul_lt_mul_of_pos_right (not_le.1 hc) hp
      have : t0 * d ≤ 1 * d := mul_le_mul_of_nonneg_right ht0 hp.le
      exact h1 ⟨by linarith [h0.1], by linarith⟩
    refine ⟨tX, ha.le, hb, by rw [e]; push_cast; ring, fun r hr => ⟨tX, ha, hb, le_rfl, hr, ?_, ?_⟩⟩
    · rw [e]; push_cast; exact le_rfl
    · rw [e]; push_cast; nlinarith
  · rw [hs]
    have hn : d < 0 := lt_of_le_of_ne hn hd
    set tX := ((k : K) * m - u) / d with htX
    have e : u + tX * d = (k : K) * m := by rw [htX]; field_simp; ring
    have ha : t0 ≤ tX := by
      have : tX * d ≤ t0 * d := by linarith [h0.1]
      by_contra hc
      have := mul_lt_mul_of_neg_right (not_le.1 hc) hn
      linarith
    have hb : tX < 1 := by
      by_contra hc
      have : tX * d ≤ 1 * d := mul_le_mul_of_nonpos_right (not_lt.1 hc) hn.le
      have : 1 * d ≤ t0 * d := mul_le_mul_of_nonpos_right ht0 hn.le
      exact h1 ⟨by linarith, by linarith [h0.2]⟩
    refine ⟨tX, ha, hb.le, by rw [e]; push_cast; ring, fun r hr => ?_⟩
    have hstep : tX < tX + m / (-d) := by
      have : 0 < m / (-d) := div_pos hm (by linarith)
      linarith
    obtain ⟨t1, g1, g2⟩ := exists_between (lt_min (lt_min hr hb) hstep)
    rw [lt_min_iff, lt_min_iff] at g2
    obtain ⟨⟨g2, g3⟩, g4⟩ := g2
    refine ⟨t1, lt_of_le_of_lt ha g1, g3.le, g1.le, g2, ?_, ?_⟩
    · have h4 : (t1 - tX) * (-d) < m := by
        have : t1 - tX < m / (-d) := by linarith
        rwa [lt_div_iff₀ (by linarith)] at this
      push_cast; nlinarith
    · have : t1 * d < tX * d := mul_lt_mul_of_neg_right g1 hn
      push_cast; linarith

/-- Coordinate `v` is in the interval of cell `k`. -/
def In1 (m : K) (k : Int) (v : K) : Prop := (k : K) * m ≤ v ∧ v < ((k : K) + 1) * m

theorem in1_convex (m : K) (k : Int) (u d t0 t1 t : K) (h0 : In1 m k (u + t0 * d)) (h1 : In1 m k (u + t1 * d))
    (h : t0 ≤ t) (h' : t ≤ t1) : In1 m k (u + t * d) := by
  rcases le_total 0 d with hd | hd
  · have a := mul_le_mul_of_nonneg_right h hd
    have b := mul_le_mul_of_nonneg_right h' hd
    exact ⟨by linarith [h0.1], by linarith [h1.2]⟩
  · have a := mul_le_mul_of_nonpos_right h hd
    have b := mul_le_mul_of_nonpos_right h' hd
    exact ⟨by linarith [h1.1], by linarith [h0.2]⟩

theorem sgn_mul (d : K) : (sgn d : K) * d = |d| := by
  rcases sgn_cases d with ⟨h, hd⟩ | ⟨h, hd⟩
  · rw [h, abs_of_pos hd]; simp
  · rw [h, abs_of_nonpos hd]; push_cast; ring

theorem sgn_sq (d : K) : (sgn d : K) * (sgn d : K) = 1 := by
  rcases sgn_cases d with ⟨h, -⟩ | ⟨h, -⟩ <;> rw [h] <;> norm_num

/-- If the far corner of the cell is on the far side, the segment leaves the cell across its vertical side. -/
theorem step_scalar (m : K) (hm : 0 < m) (bx dx by_ dy t0 : K) (i j : Int) (ht0 : t0 ≤ 1)
    (hx0 : In1 m i (bx + t0 * dx)) (hy0 : In1 m j (by_ + t0 * dy))
    (h1 : ¬ (In1 m i (bx + 1 * dx) ∧ In1 m j (by_ + 1 * dy)))
    (hg : |dy| * ((sgn dx : K) * (((i : K) + 1 / 2 + (sgn dx : K) / 2) * m - bx)) <
      |dx| * ((sgn dy : K) * (((j : K) + 1 / 2 + (sgn dy : K) / 2) * m - by_))) :
    ∃ t1, t0 < t1 ∧ t1 ≤ 1 ∧ In1 m (i + sgn dx) (bx + t1 * dx) ∧ In1 m j (by_ + t1 * dy) := by
  have hx1 : ¬ In1 m i (bx + 1 * dx) := by
    intro hx1
    have hy1 : ¬ In1 m j (by_ + 1 * dy) := fun h => h1 ⟨hx1, h⟩
    obtain ⟨hdy, tY, a1, a2, a3, -⟩ := leave m hm by_ dy t0 j ht0 hy0 hy1
    have hxY := in1_convex m i bx dx t0 1 tY hx0 hx1 a1 a2
    have e1 : ((j : K) + 1 / 2 + (sgn dy : K) / 2) * m - by_ = tY * dy := by linarith
    rw [e1] at hg
    have e2 : |dx| * ((sgn dy : K) * (tY * dy)) = tY * (|dx| * |dy|) := by rw [← sgn_mul dy]; ring
    rw [e2] at hg
    have hc : 0 ≤ (sgn dx : K) * (((i : K) + 1 / 2 + (sgn dx : K) / 2) * m - (bx + tY * dx)) := by
      obtain ⟨l, u⟩ := hxY
      rcases sgn_cases dx with ⟨h, -⟩ | ⟨h, -⟩ <;> rw [h] <;> push_cast <;> linarith
    have e3 : (sgn dx : K) * (((i : K) + 1 / 2 + (sgn dx : K) / 2) * m - bx) =
        (sgn dx : K) * (((i : K) + 1 / 2 + (sgn dx : K) / 2) * m - (bx + tY * dx)) + tY * |dx| := by
      rw [← sgn_mul dx]; ring
    rw [e3] at hg
    have := mul_nonneg (abs_nonneg dy) hc
    nlinarith
  obtain ⟨hdx, tX, a1, a2, a3, a4⟩ := leave m hm bx dx t0 i ht0 hx0 hx1
  have hpos : 0 < |dx| := abs_pos.2 hdx
  have e1 : ((i : K) + 1 / 2 + (sgn dx : K) / 2) * m - bx = tX * dx := by linarith
  rw [e1, show (sgn dx : K) * (tX * dx) = tX * |dx| by rw [← sgn_mul dx]; ring] at hg
  have hgy : tX * |dy| < (sgn dy : K) * (((j : K) + 1 / 2 + (sgn dy : K) / 2) * m - by_) := by
    have : |dx| * (tX * |dy|) < |dx| * ((sgn dy : K) * (((j : K) + 1 / 2 + (sgn dy : K) / 2) * m - by_)) := by
      linarith
    exact lt_of_mul_lt_mul_left this hpos.le
  by_cases hdy : dy = 0
  · obtain ⟨t1, b1, b2, -, -, b5, b6⟩ := a4 (tX + 1) (by linarith)
    refine ⟨t1, b1, b2, ⟨by push_cast; exact b5, by push_cast; exact b6⟩, ?_⟩
    rw [hdy] at hy0 ⊢
    simpa using hy0
  · have hypos : 0 < |dy| := abs_pos.2 hdy
    obtain ⟨t1, b1, b2, b3, b4, b5, b6⟩ := a4
      ((sgn dy : K) * (((j : K) + 1 / 2 + (sgn dy : K) / 2) * m - by_) / |dy|) (by rwa [lt_div_iff₀ hypos])
    refine ⟨t1, b1, b2, ⟨by push_cast; exact b5, by push_cast; exact b6⟩, ?_⟩
    rw [lt_div_iff₀ hypos] at b4
    obtain ⟨l, u⟩ := hy0
    rcases sgn_cases dy with ⟨h, hd⟩ | ⟨h, hd⟩
    · rw [h, abs_of_pos hd] at b4
      push_cast at b4
      have := mul_lt_mul_of_pos_right b1 hd
      exact ⟨by linarith, by linarith⟩
    · rw [h, abs_of_nonpos hd] at b4
      push_cast at b4
      have := mul_le_mul_of_nonpos_right b1.le hd
      exact ⟨by linarith, by linarith⟩

theorem in1_next (m : K) (hm : 0 < m) (u d t0 t1 t : K) (k : Int) (h0 : In1 m k (u + t0 * d))
    (h1 : In1 m (k + sgn d) (u + t1 * d)) (h : t0 ≤ t) (h' : t ≤ t1) :
    In1 m k (u + t * d) ∨ In1 m (k + sgn d) (u + t * d) := by
  obtain ⟨a1, a2⟩ := h0
  obtain ⟨b1, b2⟩ := h1
  unfold In1
  rcases sgn_cases d with ⟨hs, hd⟩ | ⟨hs, hd⟩
  · rw [hs] at b1 b2 ⊢
    push_cast at b1 b2 ⊢
    have a := mul_le_mul_of_nonneg_right h hd.le
    have b := mul_le_mul_of_nonneg_right h' hd.le
    rcases lt_or_ge (u + t * d) (((k : K) + 1) * m) with hc | hc
    · left; exact ⟨by linarith, hc⟩
    · right; exact ⟨hc, by linarith⟩
  · rw [hs] at b1 b2 ⊢
    push_cast at b1 b2 ⊢
    have a := mul_le_mul_of_nonpos_right h hd
    have b := mul_le_mul_of_nonpos_right h' hd
    rcases lt_or_ge (u + t * d) ((k : K) * m) with hc | hc
    · right; exact ⟨by linarith, by linarith⟩
    · left; exact ⟨hc, by linarith⟩

theorem cell_in1 (m : K) (hm : 0 < m) (b e : Point K) (t : K) (c : Coord) :
    worldToCell m (along b e t) = c ↔ In1 m c.x (b.x + t * (e.x - b.x)) ∧ In1 m c.y (b.y + t * (e.y - b.y)) := by
  rw [cell_iff m hm]; rfl

/-- Far corner of the cell in the direction of travel, relative to the line: positive if the segment, leaving the cell,
passes the corner on the vertical-move side. -/
def cornerSide (m : K) (b e : Point K) (c : Coord) : K :=
  |e.y - b.y| * ((sgn (e.x - b.x) : K) * (((c.x : K) + 1 / 2 + (sgn (e.x - b.x) : K) / 2) * m - b.x)) -
  |e.x - b.x| * ((sgn (e.y - b.y) : K) * (((c.y : K) + 1 / 2 + (sgn (e.y - b.y) : K) / 2) * m - b.y))

theorem step_x (m : K) (hm : 0 < m) (b e : Point K) (t0 : K) (c : Coord) (ht0 : t0 ≤ 1)
    (h0 : worldToCell m (along b e t0) = c) (h1 : worldToCell m (along b e 1) ≠ c) (hg : cornerSide m b e c < 0) :
    ∃ t1, t0 < t1 ∧ t1 ≤ 1 ∧ worldToCell m (along b e t1) = ⟨c.x + sgn (e.x - b.x), c.y⟩ ∧
      ∀ t, t0 ≤ t → t ≤ t1 → worldToCell m (along b e t) = c ∨
        worldToCell m (along b e t) = ⟨c.x + sgn (e.x - b.x), c.y⟩ := by
  rw [cell_in1 m hm] at h0
  rw [ne_eq, cell_in1 m hm] at h1
  obtain ⟨t1, a1, a2, a3, a4⟩ := step_scalar m hm b.x (e.x - b.x) b.y (e.y - b.y) t0 c.x c.y ht0 h0.1 h0.2 h1
    (by unfold cornerSide at hg; linarith)
  refine ⟨t1, a1, a2, (cell_in1 m hm _ _ _ _).2 ⟨a3, a4⟩, ?_⟩
  intro t h h'
  have hy := in1_convex m c.y b.y (e.y - b.y) t0 t1 t h0.2 a4 h h'
  rcases in1_next m hm b.x (e.x - b.x) t0 t1 t c.x h0.1 a3 h h' with hx | hx
  · exact .inl ((cell_in1 m hm _ _ _ _).2 ⟨hx, hy⟩)
  · exact .inr ((cell_in1 m hm _ _ _ _).2 ⟨hx, hy⟩)

theorem step_y (m : K) (hm : 0 < m) (b e : Point K) (t0 : K) (c : Coord) (ht0 : t0 ≤ 1)
    (h0 : worldToCell m (along b e t0) = c) (h1 : worldToCell m (along b e 1) ≠ c) (hg : 0 < cornerSide m b e c) :
    ∃ t1, t0 < t1 ∧ t1 ≤ 1 ∧ worldToCell m (along b e t1) = ⟨c.x, c.y + sgn (e.y - b.y)⟩ ∧
      ∀ t, t0 ≤ t → t ≤ t1 → worldToCell m (along b e t) = c ∨
        worldToCell m (along b e t) = ⟨c.x, c.y + sgn (e.y - b.y)⟩ := by
  rw [cell_in1 m hm] at h0
  rw [ne_eq, cell_in1 m hm] at h1
  obtain ⟨t1, a1, a2, a3, a4⟩ := step_scalar m hm b.y (e.y - b.y) b.x (e.x - b.x) t0 c.y c.x ht0 h0.2 h0.1
    (fun h => h1 h.symm) (by unfold cornerSide at hg; linarith)
  refine ⟨t1, a1, a2, (cell_in1 m hm _ _ _ _).2 ⟨a4, a3⟩, ?_⟩
  intro t h h'
  have hx := in1_convex m c.x b.x (e.x - b.x) t0 t1 t h0.1 a4 h h'
  rcases in1_next m hm b.y (e.y - b.y) t0 t1 t c.y h0.2 a3 h h' with hy | hy
  · exact .inl ((cell_in1 m hm _ _ _ _).2 ⟨hx, hy⟩)
  · exact .inr ((cell_in1 m hm _ _ _ _).2 ⟨hx, hy⟩)

/-! ## The walk -/

theorem cell_mono (m : K) (hm : 0 < m) (u d t t' : K) (h : t ≤ t') :
    0 ≤ sgn d * (⌊(u + t' * d) / m⌋ - ⌊(u + t * d) / m⌋) := by
  rcases sgn_cases d with ⟨hs, hd⟩ | ⟨hs, hd⟩
  · have := mul_le_mul_of_nonneg_right h hd.le
    have : ⌊(u + t * d) / m⌋ ≤ ⌊(u + t' * d) / m⌋ :=
      Int.floor_le_floor (div_le_div_of_nonneg_right (by linarith) hm.le)
    rw [hs]; omega
  · have := mul_le_mul_of_nonpos_right h hd
    have : ⌊(u + t' * d) / m⌋ ≤ ⌊(u + t * d) / m⌋ :=
      Int.floor_le_floor (div_le_div_of_nonneg_right (by linarith) hm.le)
    rw [hs]; omega

/-- The walk of the code between the ends of a segment. -/
abbrev segWalk (m : K) (eqZero : K → Bool) (b e : Point K) (cellsNm : Nat) :=
  walk (exactFP m eqZero) cellsNm (worldToCell m e) (sgn (e.x - b.x)) (sgn (e.y - b.y))
    ((sgn (e.x - b.x) : K) * m * (e.y - b.y)) (((-sgn (e.y - b.y) : Int) : K) * m * (e.x - b.x))

theorem walk_follow (m : K) (hm : 0 < m) (eqZero : K → Bool) (b e : Point K) (cellsNm : Nat) (I : Coord → K → Prop)
    (hstep : ∀ c ev t0, 0 ≤ t0 → t0 ≤ 1 → worldToCell m (along b e t0) = c → c ≠ worldToCell m e → I c ev →
      ∃ c' ev' t1, (∀ fuel acc, ¬ cellsNm < (acc ++ [c]).length →
          segWalk m eqZero b e cellsNm (fuel + 1) c ev acc = segWalk m eqZero b e cellsNm fuel c' ev' (acc ++ [c])) ∧
        t0 < t1 ∧ t1 ≤ 1 ∧ worldToCell m (along b e t1) = c' ∧
        (c' = ⟨c.x + sgn (e.x - b.x), c.y⟩ ∨ c' = ⟨c.x, c.y + sgn (e.y - b.y)⟩) ∧
        (∀ t, t0 ≤ t → t ≤ t1 → worldToCell m (along b e t) = c ∨ worldToCell m (along b e t) = c') ∧ I c' ev') :
    ∀ (n fuel : Nat) (c : Coord) (ev t0 : K) (acc : List Coord),
      n = ((worldToCell m e).x - c.x).natAbs + ((worldToCell m e).y - c.y).natAbs → n < fuel →
      acc.length + n + 1 ≤ cellsNm → 0 ≤ t0 → t0 ≤ 1 → worldToCell m (along b e t0) = c → I c ev →
      ∃ ts : List K, segWalk m eqZero b e cellsNm fuel c ev acc =
          .done (acc ++ (t0 :: ts).map fun t => worldToCell m (along b e t)) ∧
        (t0 :: ts).Pairwise (· < ·) ∧ (∀ t ∈ ts, t ≤ 1) ∧
        ∀ c', (∃ t, t0 ≤ t ∧ t ≤ 1 ∧ worldToCell m (along b e t) = c') ↔
          c' ∈ (t0 :: ts).map fun t => worldToCell m (along b e t) := by
  have hend : along b e 1 = e := by simp [along]
  intro n
  induction n with
  | zero =>
    intro fuel c ev t0 acc hn hf hl h0 h1 hc hI
    have hce : c = worldToCell m e := by
      obtain ⟨cx, cy⟩ := c
      generalize worldToCell m e = w at hn
      obtain ⟨wx, wy⟩ := w
      simp only at hn
      simp only [Coord.mk.injEq]
      omega
    obtain ⟨fuel, rfl⟩ : ∃ f, fuel = f + 1 := ⟨fuel - 1, by omega⟩
    refine ⟨[], ?_, by simp, by simp, ?_⟩
    · unfold segWalk walk
      simp only
      rw [if_pos hce]
      simp [hc]
    · intro c'
      constructor
      · rintro ⟨t, t1, t2, rfl⟩
        simp only [List.map_cons, List.map_nil, List.mem_singleton]
        -- the cell cannot change and come back
        have hA : worldToCell m (along b e t0) = worldToCell m (along b e 1) := by rw [hend, hc, hce]
        have hx1 := cell_mono m hm b.x (e.x - b.x) t0 t t1
        have hx2 := cell_mono m hm b.x (e.x - b.x) t 1 t2
        have hy1 := cell_mono m hm b.y (e.y - b.y) t0 t t1
        have hy2 := cell_mono m hm b.y (e.y - b.y) t 1 t2
        simp only [worldToCell, along, Coord.mk.injEq] at hA ⊢
        rw [hA.1] at hx1
        rw [hA.2] at hy1
        rw [hA.1, hA.2]
        rcases sgn_cases (e.x - b.x) with ⟨s1, -⟩ | ⟨s1, -⟩ <;> rcases sgn_cases (e.y - b.y) with ⟨s2, -⟩ | ⟨s2, -⟩ <;>
          rw [s1] at hx1 hx2 <;> rw [s2] at hy1 hy2 <;> constructor <;> omega
      · intro h
        simp only [List.map_cons, List.map_nil, List.mem_singleton] at h
        exact ⟨t0, le_rfl, h1, h.symm⟩
  | succ n ih =>
    intro fuel c ev t0 acc hn hf hl h0 h1 hc hI
    have hne : c ≠ worldToCell m e := by
      rintro rfl
      simp at hn
    obtain ⟨fuel, rfl⟩ : ∃ f, fuel = f + 1 := ⟨fuel - 1, by omega⟩
    obtain ⟨c', ev', t1, g1, g2, g3, g4, g5, g6, g7⟩ := hstep c ev t0 h0 h1 hc hne hI
    have hx := cell_mono m hm b.x (e.x - b.x) t1 1 g3
    have hy := cell_mono m hm b.y (e.y - b.y) t1 1 g3
    have hx' : 0 ≤ sgn (e.x - b.x) * ((worldToCell m e).x - c'.x) := by
      have q : (worldToCell m e).x = ⌊(b.x + 1 * (e.x - b.x)) / m⌋ := by simp [worldToCell]
      rw [← g4, q]; exact hx
    have hy' : 0 ≤ sgn (e.y - b.y) * ((worldToCell m e).y - c'.y) := by
      have q : (worldToCell m e).y = ⌊(b.y + 1 * (e.y - b.y)) / m⌋ := by simp [worldToCell]
      rw [← g4, q]; exact hy
    have hn' : n = ((worldToCell m e).x - c'.x).natAbs + ((worldToCell m e).y - c'.y).natAbs := by
      generalize worldToCell m e = w at *
      rcases g5 with rfl | rfl <;> simp only at hx' hy' ⊢
      · rcases sgn_cases (e.x - b.x) with ⟨s1, -⟩ | ⟨s1, -⟩ <;> rw [s1] at hx' ⊢ <;> omega
      · rcases sgn_cases (e.y - b.y) with ⟨s1, -⟩ | ⟨s1, -⟩ <;> rw [s1] at hy' ⊢ <;> omega
    obtain ⟨ts, i1, i2, i3, i4⟩ := ih fuel c' ev' t1 (acc ++ [c]) hn' (by omega) (by simp; omega) (by linarith) g3 g4 g7
    refine ⟨t1 :: ts, ?_, ?_, ?_, ?_⟩
    · rw [g1 fuel acc (by simp; omega), i1]
      simp [hc]
    · rw [List.pairwise_cons]
      refine ⟨?_, i2⟩
      intro t ht
      rcases List.mem_cons.1 ht with rfl | ht
      · exact g2
      · exact lt_trans g2 ((List.pairwise_cons.1 i2).1 t ht)
    · intro t ht
      rcases List.mem_cons.1 ht with rfl | ht
      · exact g3
      · exact i3 t ht
    · intro d
      rw [List.map_cons, List.mem_cons, ← i4 d]
      constructor
      · rintro ⟨t, k1, k2, rfl⟩
        rcases le_total t t1 with hle | hle
        · rcases g6 t k1 hle with h | h
          · left; rw [h, hc]
          · right; exact ⟨t1, le_rfl, g3, by rw [h, g4]⟩
        · right; exact ⟨t, hle, k2, rfl⟩
      · rintro (rfl | ⟨t, k1, k2, rfl⟩)
        · exact ⟨t0, le_rfl, h1, rfl⟩
        · exact ⟨t, by linarith, k2, rfl⟩

/-- What the walk compares in cell `c`: the offsets from the line of the centres of the next cell vertically and
horizontally. -/
def tieDiff (m : K) (b e : Point K) (c : Coord) : K :=
  |side b e (midOf m c 0 (sgn (e.y - b.y)))| - |side b e (midOf m c (sgn (e.x - b.x)) 0)|

theorem tieDiff_sign (m : K) (hm : 0 < m) (b e : Point K) (c : Coord) (hd : e.x - b.x ≠ 0 ∨ e.y - b.y ≠ 0) :
    (0 < tieDiff m b e c ↔ cornerSide m b e c < 0) ∧ (tieDiff m b e c = 0 ↔ cornerSide m b e c = 0) := by
  unfold tieDiff
  set X := side b e (midOf m c (sgn (e.x - b.x)) 0) with hX
  set Y := side b e (midOf m c 0 (sgn (e.y - b.y))) with hY
  have hs : 0 < m * (|e.x - b.x| + |e.y - b.y|) := by
    apply mul_pos hm
    rcases hd with h | h
    · have := abs_pos.2 h; have := abs_nonneg (e.y - b.y); linarith
    · have := abs_pos.2 h; have := abs_nonneg (e.x - b.x); linarith
  have key : X ^ 2 - Y ^ 2 = m * (|e.x - b.x| + |e.y - b.y|) * (2 * cornerSide m b e c) := by
    have e1 : X - Y = m * ((sgn (e.x - b.x) : K) * (e.y - b.y) + (sgn (e.y - b.y) : K) * (e.x - b.x)) := by
      rw [hX, hY]; unfold side midOf; push_cast; ring
    have e2 : X + Y = 2 * ((e.y - b.y) * (((c.x : K) + 1 / 2 + (sgn (e.x - b.x) : K) / 2) * m - b.x) -
        (e.x - b.x) * (((c.y : K) + 1 / 2 + (sgn (e.y - b.y) : K) / 2) * m - b.y)) := by
      rw [hX, hY]; unfold side midOf; push_cast; ring
    have e3 : X ^ 2 - Y ^ 2 = (X - Y) * (X + Y) := by ring
    rw [e3, e1, e2]
    unfold cornerSide
    rw [← sgn_mul (e.x - b.x), ← sgn_mul (e.y - b.y)]
    have q1 := sgn_sq (e.x - b.x)
    have q2 := sgn_sq (e.y - b.y)
    generalize (sgn (e.x - b.x) : K) = sx at *
    generalize (sgn (e.y - b.y) : K) = sy at *
    generalize e.x - b.x = dx at *
    generalize e.y - b.y = dy at *
    generalize ((c.x : K) + 1 / 2 + sx / 2) * m - b.x = P
    generalize ((c.y : K) + 1 / 2 + sy / 2) * m - b.y = Q
    have : m * (sx * dx + sy * dy) * (2 * (sy * dy * (sx * P) - sx * dx * (sy * Q))) =
        m * (sx * sx * (sy * dx) + sy * sy * (sx * dy)) * (2 * (dy * P - dx * Q)) := by ring
    rw [this, q1, q2]; ring
  constructor
  · rw [sub_pos, ← sq_lt_sq]
    constructor
    · intro h; nlinarith
    · intro h; nlinarith
  · rw [sub_eq_zero, ← sq_eq_sq_iff_abs_eq_abs]
    constructor
    · intro h
      have h0 : m * (|e.x - b.x| + |e.y - b.y|) * (2 * cornerSide m b e c) = 0 := by rw [← key, h, sub_self]
      rcases mul_eq_zero.1 h0 with h0 | h0
      · linarith
      · linarith
    · intro h; rw [h] at key; linarith

theorem walk_step (m : K) (eqZero : K → Bool) (b e : Point K) (cellsNm : Nat) (fuel : Nat) (c : Coord) (ev : K)
    (acc : List Coord) (hne : c ≠ worldToCell m e) (hl : ¬ cellsNm < (acc ++ [c]).length) :
    segWalk m eqZero b e cellsNm (fuel + 1) c ev acc =
      let ex := ev + (sgn (e.x - b.x) : K) * m * (e.y - b.y)
      let ey := ev + ((-sgn (e.y - b.y) : Int) : K) * m * (e.x - b.x)
      if eqZero (|ey| - |ex|) = true then
        if c.x = (worldToCell m e).x then segWalk m eqZero b e cellsNm fuel ⟨c.x, c.y + sgn (e.y - b.y)⟩ 0 (acc ++ [c])
        else if c.y = (worldToCell m e).y then
          segWalk m eqZero b e cellsNm fuel ⟨c.x + sgn (e.x - b.x), c.y⟩ 0 (acc ++ [c])
        else segWalk m eqZero b e cellsNm fuel ⟨c.x + sgn (e.x - b.x), c.y + sgn (e.y - b.y)⟩ 0 (acc ++ [c])
      else if 0 < |ey| - |ex| then segWalk m eqZero b e cellsNm fuel ⟨c.x + sgn (e.x - b.x), c.y⟩ ex (acc ++ [c])
      else segWalk m eqZero b e cellsNm fuel ⟨c.x, c.y + sgn (e.y - b.y)⟩ ey (acc ++ [c]) := by
  unfold segWalk
  rw [walk]
  simp only
  rw [if_neg hne, if_neg hl]
  simp [exactFP]

theorem finish_walk (ok : Int → Bool) (m : K) (hm : 0 < m) (eqZero : K → Bool) (b e : Point K) (fuel : Nat)
    (hf : fuelFor (worldToCell m b) (worldToCell m e) ≤ fuel) (I : Coord → K → Prop)
    (hI : I (worldToCell m b) (side b e (midOf m (worldToCell m b) 0 0)))
    (hstep : ∀ cellsNm c ev t0, 0 ≤ t0 → t0 ≤ 1 → worldToCell m (along b e t0) = c → c ≠ worldToCell m e → I c ev →
      ∃ c' ev' t1, (∀ fuel acc, ¬ cellsNm < (acc ++ [c]).length →
          segWalk m eqZero b e cellsNm (fuel + 1) c ev acc = segWalk m eqZero b e cellsNm fuel c' ev' (acc ++ [c])) ∧
        t0 < t1 ∧ t1 ≤ 1 ∧ worldToCell m (along b e t1) = c' ∧
        (c' = ⟨c.x + sgn (e.x - b.x), c.y⟩ ∨ c' = ⟨c.x, c.y + sgn (e.y - b.y)⟩) ∧
        (∀ t, t0 ≤ t → t ≤ t1 → worldToCell m (along b e t) = c ∨ worldToCell m (along b e t) = c') ∧ I c' ev') :
    ∃ cells, worldToCells ok (exactFP m eqZero) fuel m b.x b.y e.x e.y = some cells ∧ RunsThrough m b e cells := by
  have h00 : along b e 0 = b := by simp [along]
  set nm := ((worldToCell m e).x - (worldToCell m b).x).natAbs + ((worldToCell m e).y - (worldToCell m b).y).natAbs + 1
    with hnm
  unfold fuelFor at hf
  obtain ⟨ts, w1, w2, w3, w4⟩ := walk_follow m hm eqZero b e nm I (hstep nm) _ fuel (worldToCell m b)
    (side b e (midOf m (worldToCell m b) 0 0)) 0 [] rfl (by omega) (by simp [hnm]) le_rfl zero_le_one (by rw [h00]) hI
  have hrun : worldToCells ok (exactFP m eqZero) fuel m b.x b.y e.x e.y =
      match segWalk m eqZero b e nm fuel (worldToCell m b) (side b e (midOf m (worldToCell m b) 0 0)) [] with
      | .done cells => some cells
      | .failover => bresenham ok fuel (worldToCell m b) (worldToCell m e)
      | .outOfFuel => none := by
    have hs : side b e (midOf m (worldToCell m b) 0 0) =
        (e.x - b.x) * b.y + ((((worldToCell m b).x : K) + 1 / 2) * m - b.x) * (e.y - b.y) -
          (((worldToCell m b).y : K) + 1 / 2) * m * (e.x - b.x) := by
      unfold side midOf; push_cast; ring
    rw [hs]
    unfold worldToCells segWalk sgn
    simp only [exactFP, decide_eq_true_eq]
    rfl
  rw [w1] at hrun
  refine ⟨_, hrun, ?_⟩
  rw [List.nil_append]
  refine ⟨?_, ⟨0 :: ts, w2, ?_, rfl⟩, ?_⟩
  · intro c
    rw [← w4 c]
    rfl
  · intro t ht
    rcases List.mem_cons.1 ht with rfl | ht
    · exact ⟨le_rfl, zero_le_one⟩
    · exact ⟨((List.pairwise_cons.1 w2).1 t ht).le, w3 t ht⟩
  · -- C04: no cell is visited twice
    obtain ⟨cells, c1, c2, -⟩ := world_to_cells_connects (fun _ => true)
      (|(worldToCell m b).x| + |(worldToCell m b).y| + |(worldToCell m e).x| + |(worldToCell m e).y|)
      (fun _ _ => rfl) (exactFP m eqZero) m b.x b.y e.x e.y fuel
      (by
        have := abs_nonneg (worldToCell m b).y; have := abs_nonneg (worldToCell m e).x
        have := abs_nonneg (worldToCell m e).y; show |(worldToCell m b).x| ≤ _; omega)
      (by
        have := abs_nonneg (worldToCell m b).x; have := abs_nonneg (worldToCell m e).x
        have := abs_nonneg (worldToCell m e).y; show |(worldToCell m b).y| ≤ _; omega)
      (by
        have := abs_nonneg (worldToCell m b).y; have := abs_nonneg (worldToCell m b).x
        have := abs_nonneg (worldToCell m e).y; show |(worldToCell m e).x| ≤ _; omega)
      (by
        have := abs_nonneg (worldToCell m b).y; have := abs_nonneg (worldToCell m b).x
        have := abs_nonneg (worldToCell m e).x; show |(worldToCell m e).y| ≤ _; omega)
      (by simp only [exactFP, fuelFor]; omega)
    have hrun' : worldToCells (fun _ => true) (exactFP m eqZero) fuel m b.x b.y e.x e.y =
        some ((0 :: ts).map fun t => worldToCell m (along b e t)) := by
      have hs : side b e (midOf m (worldToCell m b) 0 0) =
          (e.x - b.x) * b.y + ((((worldToCell m b).x : K) + 1 / 2) * m - b.x) * (e.y - b.y) -
            (((worldToCell m b).y : K) + 1 / 2) * m * (e.x - b.x) := by
        unfold side midOf; push_cast; ring
      have : worldToCells (fun _ => true) (exactFP m eqZero) fuel m b.x b.y e.x e.y =
          match segWalk m eqZero b e nm fuel (worldToCell m b) (side b e (midOf m (worldToCell m b) 0 0)) [] with
          | .done cells => some cells
          | .failover => bresenham (fun _ => true) fuel (worldToCell m b) (worldToCell m e)
          | .outOfFuel => none := by
        rw [hs]
        unfold worldToCells segWalk sgn
        simp only [exactFP, decide_eq_true_eq]
        rfl
      rw [this, w1]; rfl
    rw [hrun'] at c1
    cases c1
    exact c2.nodup

theorem moving_of_ne (m : K) (b e : Point K) (t : K) (c : Coord) (hc : worldToCell m (along b e t) = c)
    (hne : c ≠ worldToCell m e) : e.x - b.x ≠ 0 ∨ e.y - b.y ≠ 0 := by
  by_contra h
  push Not at h
  apply hne
  have : along b e t = e := by
    obtain ⟨bx, by_⟩ := b
    obtain ⟨ex, ey⟩ := e
    simp only at h
    have h1 : ex = bx := by linarith [h.1]
    have h2 : ey = by_ := by linarith [h.2]
    subst h1; subst h2
    simp [along]
  rw [← hc, this]

/-- C54, general form: in exact arithmetic and whatever test is used for "equal to zero", as long as it does not report a
tie in a cell the segment runs through, `world_to_cells` yields the cells the segment runs through. -/
theorem world_to_cells_exact_of_no_tie (ok : Int → Bool) (m : K) (hm : 0 < m) (eqZero : K → Bool) (hz : eqZero 0 = true)
    (b e : Point K) (hnt : ∀ c, Passes m b e c → c ≠ worldToCell m e → eqZero (tieDiff m b e c) = false) (fuel : Nat)
    (hf : fuelFor (worldToCell m b) (worldToCell m e) ≤ fuel) :
    ∃ cells, worldToCells ok (exactFP m eqZero) fuel m b.x b.y e.x e.y = some cells ∧ RunsThrough m b e cells := by
  apply finish_walk ok m hm eqZero b e fuel hf (fun c ev => ev = side b e (midOf m c 0 0)) rfl
  intro cellsNm c ev t0 h0 h1 hc hne hI
  have hd := moving_of_ne m b e t0 c hc hne
  have h1e : worldToCell m (along b e 1) ≠ c := by
    have : along b e 1 = e := by simp [along]
    rw [this]; exact hne.symm
  have ht := hnt c ⟨t0, h0, h1, hc⟩ hne
  have hne0 : tieDiff m b e c ≠ 0 := by intro h; rw [h, hz] at ht; cases ht
  obtain ⟨s1, s2⟩ := tieDiff_sign m hm b e c hd
  have eX : ev + (sgn (e.x - b.x) : K) * m * (e.y - b.y) = side b e (midOf m c (sgn (e.x - b.x)) 0) := by
    rw [hI]; unfold side midOf; push_cast; ring
  have eY : ev + ((-sgn (e.y - b.y) : Int) : K) * m * (e.x - b.x) = side b e (midOf m c 0 (sgn (e.y - b.y))) := by
    rw [hI]; unfold side midOf; push_cast; ring
  have eT : |side b e (midOf m c 0 (sgn (e.y - b.y)))| - |side b e (midOf m c (sgn (e.x - b.x)) 0)| = tieDiff m b e c := rfl
  by_cases hp : 0 < tieDiff m b e c
  · obtain ⟨t1, a1, a2, a3, a4⟩ := step_x m hm b e t0 c h1 hc h1e (s1.1 hp)
    refine ⟨_, _, t1, ?_, a1, a2, a3, .inl rfl, a4, rfl⟩
    intro fuel acc hl
    rw [walk_step m eqZero b e cellsNm fuel c ev acc hne hl]
    simp only [eX, eY, eT, ht, Bool.false_eq_true, if_false]
    rw [if_pos hp]
    congr 1
    unfold side midOf; push_cast; ring
  · have hcs : 0 < cornerSide m b e c := by
      rcases lt_trichotomy (cornerSide m b e c) 0 with h | h | h
      · exact absurd (s1.2 h) hp
      · exact absurd (s2.2 h) hne0
      · exact h
    obtain ⟨t1, a1, a2, a3, a4⟩ := step_y m hm b e t0 c h1 hc h1e hcs
    refine ⟨_, _, t1, ?_, a1, a2, a3, .inr rfl, a4, rfl⟩
    intro fuel acc hl
    rw [walk_step m eqZero b e cellsNm fuel c ev acc hne hl]
    simp only [eX, eY, eT, ht, Bool.false_eq_true, if_false]
    rw [if_neg hp]
    congr 1
    unfold side midOf; push_cast; ring

/-- C54: a segment with no grid corner on it is rasterised to exactly the cells it runs through (exact arithmetic, exact
comparison). -/
theorem world_to_cells_exact (ok : Int → Bool) (m : K) (hm : 0 < m) (b e : Point K) (hnc : ¬ HitsCorner m b e)
    (fuel : Nat) (hf : fuelFor (worldToCell m b) (worldToCell m e) ≤ fuel) :
    ∃ cells, worldToCells ok (exactFP m fun d => decide (d = 0)) fuel m b.x b.y e.x e.y = some cells ∧
      RunsThrough m b e cells := by
  apply world_to_cells_exact_of_no_tie ok m hm _ (by simp) b e _ fuel hf
  rintro c ⟨t0, h0, h1, hc⟩ hne
  have hd := moving_of_ne m b e t0 c hc hne
  rw [decide_eq_false_iff_not, (tieDiff_sign m hm b e c hd).2]
  intro hz
  apply hnc
  have h1e : worldToCell m (along b e 1) ≠ c := by
    have : along b e 1 = e := by simp [along]
    rw [this]; exact hne.symm
  rw [cell_in1 m hm] at hc
  rw [ne_eq, cell_in1 m hm] at h1e
  have hcorner : ∀ (k : Int) (d : K), ∃ i : Int, ((k : K) + 1 / 2 + (sgn d : K) / 2) * m = (i : K) * m := by
    intro k d
    rcases sgn_cases d with ⟨h, -⟩ | ⟨h, -⟩
    · exact ⟨k + 1, by rw [h]; push_cast; ring⟩
    · exact ⟨k, by rw [h]; push_cast; ring⟩
  obtain ⟨i, hi⟩ := hcorner c.x (e.x - b.x)
  obtain ⟨j, hj⟩ := hcorner c.y (e.y - b.y)
  unfold cornerSide at hz
  rw [hi, hj] at hz
  -- the segment leaves the cell in x or in y; it is at the corner at that moment
  by_cases hx : In1 m c.x (b.x + 1 * (e.x - b.x))
  · have hy : ¬ In1 m c.y (b.y + 1 * (e.y - b.y)) := fun h => h1e ⟨hx, h⟩
    obtain ⟨hdy, tY, a1, a2, a3, -⟩ := leave m hm b.y (e.y - b.y) t0 c.y h1 hc.2 hy
    rw [hj] at a3
    refine ⟨i, j, tY, by linarith, a2, ?_⟩
    have e1 : (j : K) * m - b.y = tY * (e.y - b.y) := by linarith
    rw [e1] at hz
    have e2 : (sgn (e.y - b.y) : K) * (tY * (e.y - b.y)) = tY * |e.y - b.y| := by rw [← sgn_mul]; ring
    rw [e2, ← sgn_mul (e.x - b.x)] at hz
    have e3 : |e.y - b.y| * (sgn (e.x - b.x) : K) * ((i : K) * m - (b.x + tY * (e.x - b.x))) = 0 := by linarith
    have hs : (sgn (e.x - b.x) : K) ≠ 0 := by
      intro h; have := sgn_sq (e.x - b.x); rw [h] at this; simp at this
    have : (i : K) * m - (b.x + tY * (e.x - b.x)) = 0 := by
      rcases mul_eq_zero.1 e3 with h | h
      · rcases mul_eq_zero.1 h with h | h
        · exact absurd (abs_eq_zero.1 h) hdy
        · exact absurd h hs
      · exact h
    simp only [along, a3]
    congr 1
    linarith
  · obtain ⟨hdx, tX, a1, a2, a3, -⟩ := leave m hm b.x (e.x - b.x) t0 c.x h1 hc.1 hx
    rw [hi] at a3
    refine ⟨i, j, tX, by linarith, a2, ?_⟩
    have e1 : (i : K) * m - b.x = tX * (e.x - b.x) := by linarith
    rw [e1] at hz
    have e2 : (sgn (e.x - b.x) : K) * (tX * (e.x - b.x)) = tX * |e.x - b.x| := by rw [← sgn_mul]; ring
    rw [e2, ← sgn_mul (e.y - b.y)] at hz
    have e3 : |e.x - b.x| * (sgn (e.y - b.y) : K) * ((j : K) * m - (b.y + tX * (e.y - b.y))) = 0 := by linarith
    have hs : (sgn (e.y - b.y) : K) ≠ 0 := by
      intro h; have := sgn_sq (e.y - b.y); rw [h] at this; simp at this
    have : (j : K) * m - (b.y + tX * (e.y - b.y)) = 0 := by
      rcases mul_eq_zero.1 e3 with h | h
      · rcases mul_eq_zero.1 h with h | h
        · exact absurd (abs_eq_zero.1 h) hdx
        · exact absurd h hs
      · exact h
    simp only [along, a3]
    congr 1
    linarith

/-- C54: a horizontal or vertical segment is rasterised to exactly the cells it runs through, even if it runs along a
grid line, with any comparison that recognises zero (the code's tolerant one, for example). -/
theorem world_to_cells_axis_parallel (ok : Int → Bool) (m : K) (hm : 0 < m) (eqZero : K → Bool) (hz : eqZero 0 = true)
    (b e : Point K) (hpar : e.x = b.x ∨ e.y = b.y) (fuel : Nat)
    (hf : fuelFor (worldToCell m b) (worldToCell m e) ≤ fuel) :
    ∃ cells, worldToCells ok (exactFP m eqZero) fuel m b.x b.y e.x e.y = some cells ∧ RunsThrough m b e cells := by
  have hb := (cell_iff m hm b _).1 rfl
  have hl : ∀ (k : Int) (v : K), (k : K) * m ≤ v → v < ((k : K) + 1) * m → |((k : K) + 1 / 2) * m - v| ≤ m / 2 := by
    intro k v h h'
    rw [abs_le]; constructor <;> linarith
  rcases hpar with hx | hy
  · -- vertical
    have hdx : e.x - b.x = 0 := by linarith
    apply finish_walk ok m hm eqZero b e fuel hf (fun c ev => |ev| ≤ m / 2 * |e.y - b.y|)
    · have : side b e (midOf m (worldToCell m b) 0 0) =
          (e.y - b.y) * (((((worldToCell m b).x : K) + 1 / 2) * m - b.x)) := by
        unfold side midOf; rw [hdx]; push_cast; ring
      rw [this, abs_mul]
      have := hl _ _ hb.1.1 hb.1.2
      have := mul_le_mul_of_nonneg_left this (abs_nonneg (e.y - b.y))
      linarith
    · intro cellsNm c ev t0 h0 h1 hc hne hI
      have hdy : e.y - b.y ≠ 0 := by
        rcases moving_of_ne m b e t0 c hc hne with h | h
        · exact absurd hdx h
        · exact h
      have h1e : worldToCell m (along b e 1) ≠ c := by
        have : along b e 1 = e := by simp [along]
        rw [this]; exact hne.symm
      have hcx : c.x = (worldToCell m e).x := by
        rw [← hc]
        simp [worldToCell, along, hx]
      have hstep : ∃ t1, t0 < t1 ∧ t1 ≤ 1 ∧ worldToCell m (along b e t1) = ⟨c.x, c.y + sgn (e.y - b.y)⟩ ∧
          ∀ t, t0 ≤ t → t ≤ t1 → worldToCell m (along b e t) = c ∨
            worldToCell m (along b e t) = ⟨c.x, c.y + sgn (e.y - b.y)⟩ := by
        rw [cell_in1 m hm] at hc
        rw [ne_eq, cell_in1 m hm] at h1e
        have hcol : ∀ t, In1 m c.x (b.x + t * (e.x - b.x)) := by
          intro t
          have := hc.1
          rw [hdx] at this ⊢
          simpa using this
        obtain ⟨-, tY, -, -, -, a4⟩ := leave m hm b.y (e.y - b.y) t0 c.y h1 hc.2 (fun h => h1e ⟨hcol 1, h⟩)
        obtain ⟨t1, b1, b2, -, -, b5, b6⟩ := a4 (tY + 1) (by linarith)
        have hrow : In1 m (c.y + sgn (e.y - b.y)) (b.y + t1 * (e.y - b.y)) :=
          ⟨by push_cast; exact b5, by push_cast; exact b6⟩
        refine ⟨t1, b1, b2, (cell_in1 m hm _ _ _ _).2 ⟨hcol t1, hrow⟩, ?_⟩
        intro t k k'
        rcases in1_next m hm b.y (e.y - b.y) t0 t1 t c.y hc.2 hrow k k' with g | g
        · exact .inl ((cell_in1 m hm _ _ _ _).2 ⟨hcol t, g⟩)
        · exact .inr ((cell_in1 m hm _ _ _ _).2 ⟨hcol t, g⟩)
      obtain ⟨t1, a1, a2, a3, a4⟩ := hstep
      have eY : ev + ((-sgn (e.y - b.y) : Int) : K) * m * (e.x - b.x) = ev := by rw [hdx]; ring
      have hXabs : |ev| ≤ |ev + (sgn (e.x - b.x) : K) * m * (e.y - b.y)| := by
        have h2 : |(sgn (e.x - b.x) : K) * m * (e.y - b.y)| = m * |e.y - b.y| := by
          rw [abs_mul, abs_mul, abs_of_pos hm]
          have : |(sgn (e.x - b.x) : K)| = 1 := by
            rcases sgn_cases (e.x - b.x) with ⟨h, -⟩ | ⟨h, -⟩ <;> rw [h] <;> norm_num
          rw [this, one_mul]
        have h3 := abs_sub_abs_le_abs_sub ((sgn (e.x - b.x) : K) * m * (e.y - b.y)) (-ev)
        rw [h2, abs_neg, sub_neg_eq_add, add_comm _ ev] at h3
        linarith
      by_cases hq : eqZero (|ev| - |ev + (sgn (e.x - b.x) : K) * m * (e.y - b.y)|) = true
      · refine ⟨_, 0, t1, ?_, a1, a2, a3, .inr rfl, a4, ?_⟩
        · intro fuel acc hl
          rw [walk_step m eqZero b e cellsNm fuel c ev acc hne hl]
          simp only [eY]
          rw [if_pos hq, if_pos hcx]
        · simp only [abs_zero]; positivity
      · refine ⟨_, ev, t1, ?_, a1, a2, a3, .inr rfl, a4, hI⟩
        intro fuel acc hl
        rw [walk_step m eqZero b e cellsNm fuel c ev acc hne hl]
        simp only [eY]
        rw [if_neg hq, if_neg (by rw [not_lt]; linarith)]
  · -- horizontal
    have hdy : e.y - b.y = 0 := by linarith
    apply finish_walk ok m hm eqZero b e fuel hf (fun c ev => |ev| ≤ m / 2 * |e.x - b.x|)
    · have : side b e (midOf m (worldToCell m b) 0 0) =
          -((e.x - b.x) * (((((worldToCell m b).y : K) + 1 / 2) * m - b.y))) := by
        unfold side midOf; rw [hdy]; push_cast; ring
      rw [this, abs_neg, abs_mul]
      have := hl _ _ hb.2.1 hb.2.2
      have := mul_le_mul_of_nonneg_left this (abs_nonneg (e.x - b.x))
      linarith
    · intro cellsNm c ev t0 h0 h1 hc hne hI
      have hdx : e.x - b.x ≠ 0 := by
        rcases moving_of_ne m b e t0 c hc hne with h | h
        · exact h
        · exact absurd hdy h
      have h1e : worldToCell m (along b e 1) ≠ c := by
        have : along b e 1 = e := by simp [along]
        rw [this]; exact hne.symm
      have hcy : c.y = (worldToCell m e).y := by
        rw [← hc]
        simp [worldToCell, along, hy]
      have hcx : c.x ≠ (worldToCell m e).x := by
        intro h
        apply hne
        obtain ⟨cx, cy⟩ := c
        simp only at h hcy
        rw [h, hcy]
      have hstep : ∃ t1, t0 < t1 ∧ t1 ≤ 1 ∧ worldToCell m (along b e t1) = ⟨c.x + sgn (e.x - b.x), c.y⟩ ∧
          ∀ t, t0 ≤ t → t ≤ t1 → worldToCell m (along b e t) = c ∨
            worldToCell m (along b e t) = ⟨c.x + sgn (e.x - b.x), c.y⟩ := by
        rw [cell_in1 m hm] at hc
        rw [ne_eq, cell_in1 m hm] at h1e
        have hrow : ∀ t, In1 m c.y (b.y + t * (e.y - b.y)) := by
          intro t
          have := hc.2
          rw [hdy] at this ⊢
          simpa using this
        obtain ⟨-, tX, -, -, -, a4⟩ := leave m hm b.x (e.x - b.x) t0 c.x h1 hc.1 (fun h => h1e ⟨h, hrow 1⟩)
        obtain ⟨t1, b1, b2, -, -, b5, b6⟩ := a4 (tX + 1) (by linarith)
        have hcol : In1 m (c.x + sgn (e.x - b.x)) (b.x + t1 * (e.x - b.x)) :=
          ⟨by push_cast; exact b5, by push_cast; exact b6⟩
        refine ⟨t1, b1, b2, (cell_in1 m hm _ _ _ _).2 ⟨hcol, hrow t1⟩, ?_⟩
        intro t k k'
        rcases in1_next m hm b.x (e.x - b.x) t0 t1 t c.x hc.1 hcol k k' with g | g
        · exact .inl ((cell_in1 m hm _ _ _ _).2 ⟨g, hrow t⟩)
        · exact .inr ((cell_in1 m hm _ _ _ _).2 ⟨g, hrow t⟩)
      obtain ⟨t1, a1, a2, a3, a4⟩ := hstep
      have eX : ev + (sgn (e.x - b.x) : K) * m * (e.y - b.y) = ev := by rw [hdy]; ring
      have hYabs : |ev| ≤ |ev + ((-sgn (e.y - b.y) : Int) : K) * m * (e.x - b.x)| := by
        have h2 : |((-sgn (e.y - b.y) : Int) : K) * m * (e.x - b.x)| = m * |e.x - b.x| := by
          rw [abs_mul, abs_mul, abs_of_pos hm]
          have : |((-sgn (e.y - b.y) : Int) : K)| = 1 := by
            rcases sgn_cases (e.y - b.y) with ⟨h, -⟩ | ⟨h, -⟩ <;> rw [h] <;> norm_num
          rw [this, one_mul]
        have h3 := abs_sub_abs_le_abs_sub (((-sgn (e.y - b.y) : Int) : K) * m * (e.x - b.x)) (-ev)
        rw [h2, abs_neg, sub_neg_eq_add, add_comm _ ev] at h3
        linarith
      by_cases hq : eqZero (|ev + ((-sgn (e.y - b.y) : Int) : K) * m * (e.x - b.x)| - |ev|) = true
      · refine ⟨_, 0, t1, ?_, a1, a2, a3, .inl rfl, a4, ?_⟩
        · intro fuel acc hl
          rw [walk_step m eqZero b e cellsNm fuel c ev acc hne hl]
          simp only [eX]
          rw [if_pos hq, if_neg hcx, if_pos hcy]
        · simp only [abs_zero]; positivity
      · have hpos : 0 < |ev + ((-sgn (e.y - b.y) : Int) : K) * m * (e.x - b.x)| - |ev| := by
          rcases eq_or_lt_of_le hYabs with h | h
          · exfalso; apply hq; rw [← h, sub_self, hz]
          · linarith
        refine ⟨_, ev, t1, ?_, a1, a2, a3, .inl rfl, a4, hI⟩
        intro fuel acc hl
        rw [walk_step m eqZero b e cellsNm fuel c ev acc hne hl]
        simp only [eX]
        rw [if_neg hq, if_pos hpos]

/-- Non-vacuity: a slanted beam that meets no grid corner, and the cells it runs through. -/
example : ¬ HitsCorner (1 / 10 : ℚ) ⟨1 / 20, 1 / 20⟩ ⟨31 / 100, 13 / 100⟩ ∧
    worldToCells (fun _ => true) (exactFP (1 / 10 : ℚ) fun d => decide (d = 0)) 20 (1 / 10) (1 / 20) (1 / 20)
      (31 / 100) (13 / 100) = some [⟨0, 0⟩, ⟨1, 0⟩, ⟨2, 0⟩, ⟨2, 1⟩, ⟨3, 1⟩] := by
  constructor
  · rintro ⟨i, j, t, h0, h1, h⟩
    simp only [along, Point.mk.injEq] at h
    obtain ⟨hx, hy⟩ := h
    have hj1 : (0 : ℚ) < j := by linarith
    have hj2 : (j : ℚ) < 2 := by linarith
    have hj1' : (0 : Int) < j := by exact_mod_cast hj1
    have hj2' : j < (2 : Int) := by exact_mod_cast hj2
    have hj : j = 1 := by omega
    subst hj
    norm_num at hx hy
    have ht : t = 5 / 8 := by linarith
    subst ht
    have hi : (i : ℚ) * 80 = 170 := by linarith
    have hi' : i * 80 = 170 := by exact_mod_cast hi
    omega
  · decide +kernel

/-- Non-vacuity of the general form with the code's comparison: the same beam meets no tie. -/
example : ∀ c, c ∈ [(⟨0, 0⟩ : Coord), ⟨1, 0⟩, ⟨2, 0⟩, ⟨2, 1⟩] →
    Slam.Rect.areEqual (tieDiff (1 / 10 : ℚ) ⟨1 / 20, 1 / 20⟩ ⟨31 / 100, 13 / 100⟩ c) 0 = false := by decide +kernel

/-- The corner hypothesis is needed: this beam meets a grid corner, the walk then forgets how far
it is from the line (`e = 0`), and goes through a cell the beam does not touch. -/
theorem corner_hit_counterexample :
    let b : Point ℚ := ⟨-1 / 2, -1 / 20⟩
    let e : Point ℚ := ⟨31 / 2, 31 / 20⟩
    ∃ cells, worldToCells (fun _ => true) (exactFP 1 fun d => decide (d = 0)) 40 1 b.x b.y e.x e.y = some cells ∧
      (⟨5, 1⟩ : Coord) ∈ cells ∧ ¬ Passes 1 b e ⟨5, 1⟩ := by
  intro b e
  refine ⟨(worldToCells (fun _ => true) (exactFP (1 : ℚ) fun d => decide (d = 0)) 40 1 b.x b.y e.x e.y).getD [], ?_, ?_, ?_⟩
  · decide +kernel
  · decide +kernel
  · rintro ⟨t, h0, h1, h⟩
    rw [cell_iff 1 (by norm_num)] at h
    obtain ⟨⟨a1, a2⟩, a3, a4⟩ := h
    simp only [along, b, e] at a1 a2 a3 a4
    norm_num at a1 a2 a3 a4
    linarith

/-- The comparison of the code is absolute (1e-7, in squared metres): on a fine grid it sees ties everywhere and skips
cells, although no corner is met. -/
theorem fine_grid_counterexample :
    let m : ℚ := 1 / 10000
    let b : Point ℚ := ⟨1 / 2 * m, 1 / 2 * m⟩
    let e : Point ℚ := ⟨7 / 2 * m, 7 / 5 * m⟩
    worldToCells (fun _ => true) (exactFP m fun d => Slam.Rect.areEqual d 0) 40 m b.x b.y e.x e.y =
        some [⟨0, 0⟩, ⟨1, 1⟩, ⟨2, 1⟩, ⟨3, 1⟩] ∧
      Passes m b e ⟨1, 0⟩ ∧ ¬ Passes m b e ⟨1, 1⟩ ∧ ¬ HitsCorner m b e := by
  intro m b e
  have hm : (0 : ℚ) < m := by simp only [m]; norm_num
  refine ⟨by decide +kernel, ⟨1 / 3, by norm_num, by norm_num, by decide +kernel⟩, ?_, ?_⟩
  · rintro ⟨t, h0, h1, h⟩
    rw [cell_iff m hm] at h
    obtain ⟨⟨a1, a2⟩, a3, a4⟩ := h
    simp only [along, b, e, m] at a1 a2 a3 a4
    norm_num at a1 a2 a3 a4
    linarith
  · rintro ⟨i, j, t, h0, h1, h⟩
    simp only [along, Point.mk.injEq, b, e, m] at h
    obtain ⟨hx, hy⟩ := h
    have hj1 : (0 : ℚ) < j := by linarith
    have hj2 : (j : ℚ) < 2 := by linarith
    have hj1' : (0 : Int) < j := by exact_mod_cast hj1
    have hj2' : j < (2 : Int) := by exact_mod_cast hj2
    have hj : j = 1 := by omega
    subst hj
    norm_num at hx hy
    have ht : t = 5 / 9 := by linarith
    subst ht
    have hi : (i : ℚ) * 18 = 39 := by linarith
    have hi' : i * 18 = 39 := by exact_mod_cast hi
    omega

end Slam.Line
