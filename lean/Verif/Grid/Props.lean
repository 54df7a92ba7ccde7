import Verif.Grid.Model
import Mathlib.Tactic.Linarith
import Mathlib.Tactic.NormNum
import Mathlib.Tactic.FieldSimp
import Mathlib.Data.Rat.Floor
import Mathlib.Order.Interval.Finset.Defs
import Mathlib.Data.Int.Interval

/-! # C01, C02: grid coordinates -/

namespace Slam.Grid

set_option linter.unusedSectionVars false

section World
variable {K : Type*} [Field K] [LinearOrder K] [IsStrictOrderedRing K] [FloorRing K]

/-- Spec: a point lies in the half-open square of a rectangle. -/
def InHalfOpen (b : Bounds K) (p : Point K) : Prop :=
  b.left ≤ p.x ∧ p.x < b.right ∧ b.bot ≤ p.y ∧ p.y < b.top

/-- C01: the reported cell is *the* cell whose reported bounds contain the point (half-open). -/
theorem world_to_cell_iff_in_bounds (s : K) (hs : 0 < s) (p : Point K) (c : Coord) :
    worldToCell s p = c ↔ InHalfOpen (worldCellBounds s c) p := by
  obtain ⟨cx, cy⟩ := c
  simp only [worldToCell, InHalfOpen, worldCellBounds, Coord.mk.injEq, Int.floor_eq_iff,
    le_div_iff₀ hs, div_lt_iff₀ hs, mul_comm s]
  tauto

/-- C01: every world point is in the bounds of exactly one cell. -/
theorem world_points_partitioned (s : K) (hs : 0 < s) (p : Point K) :
    ∃! c : Coord, InHalfOpen (worldCellBounds s c) p := by
  refine ⟨worldToCell s p, (world_to_cell_iff_in_bounds s hs p _).1 rfl, ?_⟩
  intro c hc
  exact ((world_to_cell_iff_in_bounds s hs p c).2 hc).symm

/-- C01: the centre reported for a cell is mapped back to the cell. -/
theorem cell_centre_round_trip (s : K) (hs : 0 < s) (c : Coord) :
    worldToCell s (cellToWorld s c) = c := by
  rw [world_to_cell_iff_in_bounds s hs]
  simp only [InHalfOpen, worldCellBounds, cellToWorld]
  refine ⟨?_, ?_, ?_, ?_⟩
  · exact mul_le_mul_of_nonneg_left (by linarith) hs.le
  · exact mul_lt_mul_of_pos_left (by linarith) hs
  · exact mul_le_mul_of_nonneg_left (by linarith) hs.le
  · exact mul_lt_mul_of_pos_left (by linarith) hs

/-- C01: reported bounds have side `s` and the centre is their centre. -/
theorem cell_bounds_geometry (s : K) (c : Coord) :
    (worldCellBounds s c).right - (worldCellBounds s c).left = s ∧
    (worldCellBounds s c).top - (worldCellBounds s c).bot = s ∧
    2 * (cellToWorld s c).x = (worldCellBounds s c).right + (worldCellBounds s c).left ∧
    2 * (cellToWorld s c).y = (worldCellBounds s c).top + (worldCellBounds s c).bot := by
  simp only [worldCellBounds, cellToWorld]
  refine ⟨by ring, by ring, by ring, by ring⟩

/-- C01: neighbouring cells share their boundary: no gaps between reported bounds. -/
theorem cell_bounds_adjacent (s : K) (x y : Int) :
    (worldCellBounds s ⟨x, y⟩).right = (worldCellBounds s ⟨x + 1, y⟩).left ∧
    (worldCellBounds s ⟨x, y⟩).top = (worldCellBounds s ⟨x, y + 1⟩).bot := by
  simp [worldCellBounds]

/-- C01: world-to-cell is monotone in each axis (used by beam traversal). -/
theorem world_to_cell_mono (s : K) (hs : 0 < s) (p q : Point K) (h : p.x ≤ q.x) :
    (worldToCell s p).x ≤ (worldToCell s q).x :=
  Int.floor_le_floor (div_le_div_of_nonneg_right h hs.le)

example : worldToCell (1 / 10 : ℚ) ⟨-1 / 100, 25 / 100⟩ = ⟨-1, 2⟩ := by
  rw [world_to_cell_iff_in_bounds _ (by norm_num)]; norm_num [InHalfOpen, worldCellBounds]
end World

/-- C02: storage/external conversions are mutually inverse. -/
theorem external_internal_inverse (o c : Coord) :
    internal2external o (external2internal o c) = c ∧
    external2internal o (internal2external o c) = c := by
  constructor <;> simp [internal2external, external2internal, Coord.add, Coord.sub]

/-- C02: `has_cell` is true of exactly the coordinates whose storage coordinate is inside the array. -/
theorem has_cell_iff (d : Dims) (o c : Coord) :
    d.hasCell o c = true ↔
      (-o.x ≤ c.x ∧ c.x < d.width - o.x) ∧ (-o.y ≤ c.y ∧ c.y < d.height - o.y) := by
  simp only [Dims.hasCell, Dims.hasInternalCell, Bool.and_eq_true, decide_eq_true_eq]
  simp only [external2internal, Coord.add]
  omega

/-- C02: the existing cells are exactly the images of the `width × height` storage slots, each slot once. -/
theorem has_cell_bijection (d : Dims) (o c : Coord) :
    d.hasCell o c = true ↔
      ∃! ij : Coord, ((0 ≤ ij.x ∧ ij.x < d.width) ∧ (0 ≤ ij.y ∧ ij.y < d.height)) ∧
        internal2external o ij = c := by
  rw [has_cell_iff]
  constructor
  · intro h
    refine ⟨external2internal o c, ⟨?_, (external_internal_inverse o c).1⟩, ?_⟩
    · simp only [external2internal, Coord.add]; omega
    · rintro ij ⟨_, rfl⟩
      exact ((external_internal_inverse o ij).2).symm
  · rintro ⟨ij, ⟨h, rfl⟩, _⟩
    simp only [internal2external, Coord.sub]; omega

/-- C02: the number of existing cells is `width · height`. -/
theorem has_cell_count (w h : Nat) (o : Coord) :
    ∃ S : Finset (Int × Int), S.card = w * h ∧
      ∀ c : Coord, (c.x, c.y) ∈ S ↔ (Dims.mk w h).hasCell o c = true := by
  refine ⟨Finset.Ico (-o.x) (w - o.x) ×ˢ Finset.Ico (-o.y) (h - o.y), ?_, ?_⟩
  · rw [Finset.card_product, Int.card_Ico, Int.card_Ico]
    congr 1 <;> omega
  · intro c
    rw [has_cell_iff]
    simp only [Finset.mem_product, Finset.mem_Ico]

/-- C02: with the default origin the world origin cell `(0,0)` exists in every non-empty grid. -/
theorem origin_cell_exists (d : Dims) (hw : 0 < d.width) (hh : 0 < d.height) :
    d.hasCell d.origin ⟨0, 0⟩ = true := by
  rw [has_cell_iff]
  simp only [Dims.origin]
  rw [Int.tdiv_eq_ediv_of_nonneg (by omega), Int.tdiv_eq_ediv_of_nonneg (by omega)]
  omega

example : (Dims.mk 5 4).hasCell (Dims.mk 5 4).origin ⟨2, 1⟩ = true ∧
    (Dims.mk 5 4).hasCell (Dims.mk 5 4).origin ⟨3, 1⟩ = false ∧
    (Dims.mk 5 4).hasCell (Dims.mk 5 4).origin ⟨2, 2⟩ = false := by decide

end Slam.Grid
