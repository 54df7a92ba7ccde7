import Verif.Float.Round
import Verif.Grid.Model

/-!
# Grid coordinates, computed in `double`

`world_to_cell`, `cell_to_world`, `world_cell_bounds` of src/core/maps/regular_squares_grid.h, every operation rounded by
`r`. (Additions of `int`s are exact; the conversion of the result to `int` is assumed in range.)
-/

set_option autoImplicit false
set_option linter.unusedSectionVars false

namespace Slam.Float
open Slam.Grid

variable {K : Type*} [Field K] [LinearOrder K] [IsStrictOrderedRing K] [FloorRing K]

/-- `world_to_cell`, regular_squares_grid.h:40-46. -/
def worldToCellF (r : K → K) (scale : K) (p : Point K) : Coord := ⟨⌊r (p.x / scale)⌋, ⌊r (p.y / scale)⌋⟩

/-- `cell_to_world`, regular_squares_grid.h:103-105. -/
def cellToWorldF (r : K → K) (scale : K) (c : Coord) : Point K :=
  ⟨r (scale * r ((c.x : K) + 1 / 2)), r (scale * r ((c.y : K) + 1 / 2))⟩

/-- `world_cell_bounds`, regular_squares_grid.h:108-118 (finite scale; `coord.y + 1` is an `int`). -/
def worldCellBoundsF (r : K → K) (scale : K) (c : Coord) : Bounds K where
  bot := r (scale * (c.y : K))
  top := r (scale * ((c.y + 1 : ℤ) : K))
  left := r (scale * (c.x : K))
  right := r (scale * ((c.x + 1 : ℤ) : K))

theorem worldToCell_exact (s : K) (p : Point K) : worldToCellF id s p = worldToCell s p := rfl
theorem cellToWorld_exact (s : K) (c : Coord) : cellToWorldF id s c = cellToWorld s c := rfl
theorem worldCellBounds_exact (s : K) (c : Coord) : worldCellBoundsF id s c = worldCellBounds s c := by
  simp [worldCellBoundsF, worldCellBounds]

section
variable {r : K → K}

/-- One coordinate of the cell of a point. -/
theorem floor_round (R : Nearest r) {z : K} (hz : |z| ≤ 2 ^ 53 - 1) :
    ⌊z⌋ ≤ ⌊r z⌋ ∧ ⌊r z⌋ ≤ ⌊z⌋ + 1 ∧
      (⌊r z⌋ = ⌊z⌋ + 1 → (((⌊z⌋ + 1 : ℤ) : K) - z) ≤ 2 ^ (-53 : ℤ) * (|z| + 2 ^ (-1022 : ℤ))) := by
  have hz' := abs_le.1 hz
  have f0 := Int.floor_le z
  have f1 := Int.lt_floor_add_one z
  have hlo : -(2 ^ 53) ≤ ⌊z⌋ := by
    rw [Int.le_floor]; push_cast; linarith [hz'.1]
  have hhi : ⌊z⌋ + 1 ≤ 2 ^ 53 := by
    have : (⌊z⌋ : K) ≤ ((2 ^ 53 - 1 : ℤ) : K) := by push_cast; linarith [hz'.2]
    have : ⌊z⌋ ≤ 2 ^ 53 - 1 := by exact_mod_cast this
    omega
  have d0 : IsDouble ((⌊z⌋ : ℤ) : K) := isDouble_int (by rw [abs_le]; omega)
  have d1 : IsDouble ((⌊z⌋ + 1 : ℤ) : K) := isDouble_int (by rw [abs_le]; omega)
  have g0 : ((⌊z⌋ : ℤ) : K) ≤ r z := R.ge_of_ge d0 f0
  have g1 : r z ≤ ((⌊z⌋ + 1 : ℤ) : K) := R.le_of_le d1 (by push_cast; exact f1.le)
  refine ⟨Int.le_floor.2 g0, ?_, ?_⟩
  · have := Int.floor_le (r z)
    exact_mod_cast this.trans g1
  · intro he
    have h1 : ((⌊z⌋ + 1 : ℤ) : K) ≤ r z := by rw [← he]; exact Int.floor_le _
    have e := R.err_mul (x := z) (B := |z| + 2 ^ (-1022 : ℤ)) (by linarith [abs_nonneg z])
      (by linarith [two_zpow_pos (K := K) (-1022)])
    linarith [le_abs_self (r z - z)]

/-- Rounding assigns a point its own cell or, along an axis, the next one. The next one only if the point is nearer to
the common border than the relative precision 2^-53 of `double`. -/
theorem worldToCell_rounded (R : Nearest r) (s : K) (p : Point K) (hx : |p.x / s| ≤ 2 ^ 53 - 1)
    (hy : |p.y / s| ≤ 2 ^ 53 - 1) :
    ((worldToCellF r s p).x = (worldToCell s p).x ∨
      (worldToCellF r s p).x = (worldToCell s p).x + 1 ∧
        (((worldToCellF r s p).x : K) - p.x / s) ≤ 2 ^ (-53 : ℤ) * (|p.x / s| + 2 ^ (-1022 : ℤ))) ∧
    ((worldToCellF r s p).y = (worldToCell s p).y ∨
      (worldToCellF r s p).y = (worldToCell s p).y + 1 ∧
        (((worldToCellF r s p).y : K) - p.y / s) ≤ 2 ^ (-53 : ℤ) * (|p.y / s| + 2 ^ (-1022 : ℤ))) := by
  have one : ∀ z : K, |z| ≤ 2 ^ 53 - 1 → ⌊r z⌋ = ⌊z⌋ ∨
      ⌊r z⌋ = ⌊z⌋ + 1 ∧ ((⌊r z⌋ : K) - z) ≤ 2 ^ (-53 : ℤ) * (|z| + 2 ^ (-1022 : ℤ)) := by
    intro z hz
    obtain ⟨a, b, c⟩ := floor_round R hz
    rcases (show ⌊r z⌋ = ⌊z⌋ ∨ ⌊r z⌋ = ⌊z⌋ + 1 by omega) with h | h
    · exact Or.inl h
    · refine Or.inr ⟨h, ?_⟩
      rw [h]; exact c h
  exact ⟨one _ hx, one _ hy⟩

/-- Points further right (up) never get a cell further left (down). -/
theorem worldToCell_monotone (R : Nearest r) (s : K) (hs : 0 < s) (p q : Point K) :
    (p.x ≤ q.x → (worldToCellF r s p).x ≤ (worldToCellF r s q).x) ∧
    (p.y ≤ q.y → (worldToCellF r s p).y ≤ (worldToCellF r s q).y) :=
  ⟨fun h => Int.floor_le_floor (R.mono (div_le_div_of_nonneg_right h hs.le)),
   fun h => Int.floor_le_floor (R.mono (div_le_div_of_nonneg_right h hs.le))⟩

/-- One coordinate of a centre. -/
theorem centre_round (R : Nearest r) {s : K} (hs : 2 ^ (-1021 : ℤ) ≤ s) {n : ℤ} (hn : |n| ≤ 2 ^ 50) :
    ⌊r (r (s * r ((n : K) + 1 / 2)) / s)⌋ = n := by
  have hs0 : 0 < s := (two_zpow_pos _).trans_le hs
  have hn' := abs_le.1 hn
  have hdm : ∀ m : ℤ, |m| ≤ 2 ^ 53 → IsDouble ((m : K) / 4) := fun m hm => ⟨m, -2, hm, by norm_num, by norm_num; ring⟩
  have hc : IsDouble ((n : K) + 1 / 2) := by
    have := hdm (4 * n + 2) (by rw [abs_le]; omega)
    have e : (((4 * n + 2 : ℤ)) : K) / 4 = (n : K) + 1 / 2 := by push_cast; ring
    rwa [e] at this
  rw [R.fix hc]
  set c : K := (n : K) + 1 / 2
  have hc1 : 1 / 2 ≤ |c| := by
    rcases le_or_gt 0 n with h | h
    · have : (0 : K) ≤ n := by exact_mod_cast h
      rw [abs_of_nonneg (by simp only [c]; linarith)]; simp only [c]; linarith
    · have : (n : K) ≤ -1 := by exact_mod_cast (by omega : n ≤ -1)
      rw [abs_of_nonpos (by simp only [c]; linarith)]; simp only [c]; linarith
  have hc2 : |c| ≤ 2 ^ 51 := by
    have h1 : (n : K) ≤ 2 ^ 50 := by exact_mod_cast hn'.2
    have h2 : -(2 ^ 50) ≤ (n : K) := by exact_mod_cast hn'.1
    rw [abs_le]; simp only [c]; constructor <;> norm_num at h1 h2 ⊢ <;> linarith
  have e := R.rel (x := s * c) (by
    rw [abs_mul, abs_of_pos hs0]
    have h2 : (2 : K) ^ (-1022 : ℤ) = 2 ^ (-1021 : ℤ) * (1 / 2) := by
      rw [show (-1021 : ℤ) = -1022 + 1 by norm_num, zpow_add_one₀ (by norm_num)]; ring
    rw [h2]
    exact mul_le_mul hs hc1 (by norm_num) hs0.le)
  have e2 : |r (s * c) / s - c| ≤ 1 / 4 := by
    have : r (s * c) / s - c = (r (s * c) - s * c) / s := by field_simp
    rw [this, abs_div, abs_of_pos hs0, div_le_iff₀ hs0]
    refine e.trans ?_
    rw [abs_mul, abs_of_pos hs0]
    calc (2 : K) ^ (-53 : ℤ) * (s * |c|) ≤ 2 ^ (-53 : ℤ) * (s * 2 ^ 51) :=
          mul_le_mul_of_nonneg_left (mul_le_mul_of_nonneg_left hc2 hs0.le) (two_zpow_pos _).le
      _ = 1 / 4 * s := by norm_num; ring
  have e3 := abs_le.1 e2
  have lo : ((4 * n + 1 : ℤ) : K) / 4 ≤ r (r (s * c) / s) :=
    R.ge_of_ge (hdm _ (by rw [abs_le]; omega)) (by push_cast; simp only [c] at e3 ⊢; linarith [e3.1])
  have hi : r (r (s * c) / s) ≤ ((4 * n + 3 : ℤ) : K) / 4 :=
    R.le_of_le (hdm _ (by rw [abs_le]; omega)) (by push_cast; simp only [c] at e3 ⊢; linarith [e3.2])
  rw [Int.floor_eq_iff]
  push_cast at lo hi
  constructor <;> linarith

/-- The centre of a cell belongs to the cell, rounding included, for every usable cell size and every cell within
2^50 cells of the origin. -/
theorem cell_centre_rounded (R : Nearest r) (s : K) (hs : 2 ^ (-1021 : ℤ) ≤ s) (c : Coord) (hx : |c.x| ≤ 2 ^ 50)
    (hy : |c.y| ≤ 2 ^ 50) : worldToCellF r s (cellToWorldF r s c) = c := by
  unfold worldToCellF cellToWorldF
  simp only [centre_round R hs hx, centre_round R hs hy]

/-- Neighbouring cells have a common edge, and edges are ordered, rounding included. -/
theorem cell_bounds_rounded (R : Nearest r) (s : K) (hs : 0 < s) (c : Coord) :
    (worldCellBoundsF r s c).right = (worldCellBoundsF r s ⟨c.x + 1, c.y⟩).left ∧
    (worldCellBoundsF r s c).top = (worldCellBoundsF r s ⟨c.x, c.y + 1⟩).bot ∧
    (worldCellBoundsF r s c).left ≤ (worldCellBoundsF r s c).right ∧
    (worldCellBoundsF r s c).bot ≤ (worldCellBoundsF r s c).top := by
  refine ⟨rfl, rfl, R.mono (mul_le_mul_of_nonneg_left ?_ hs.le), R.mono (mul_le_mul_of_nonneg_left ?_ hs.le)⟩ <;>
  · push_cast; linarith

/-- One coordinate of the bounds. -/
theorem bounds_round (R : Nearest r) {s x : K} (hs : 2 ^ (-1022 : ℤ) ≤ s) {n : ℤ} (hn : |n| < 2 ^ 53)
    (h : ⌊r (x / s)⌋ = n) :
    r (s * (n : K)) - 2 ^ (-52 : ℤ) * (s * (|(n : K)| + 1)) ≤ x ∧
      x ≤ r (s * ((n + 1 : ℤ) : K)) + 2 ^ (-52 : ℤ) * (s * (|(n : K)| + 1)) := by
  have hs0 : 0 < s := (two_zpow_pos _).trans_le hs
  have hn' := abs_lt.1 hn
  have small : (2 : K) ^ (-1022 : ℤ) ≤ 1 := by
    have := two_zpow_le (K := K) (a := -1022) (b := 0) (by norm_num)
    rwa [zpow_zero] at this
  obtain ⟨f0, f1⟩ := Int.floor_eq_iff.1 h
  set z := x / s with hz
  have hxz : x = s * z := by rw [hz]; field_simp
  have hnn := abs_nonneg (n : K)
  have z1 : z ≤ (n : K) + 1 := by
    by_contra hc
    have := R.ge_of_ge (x := z) (isDouble_int (K := K) (n := n + 1) (by rw [abs_le]; omega))
      (by push_cast; exact (not_le.1 hc).le)
    push_cast at this; linarith
  have z0 : (n : K) - 1 ≤ z := by
    by_contra hc
    have := R.le_of_le (x := z) (isDouble_int (K := K) (n := n - 1) (by rw [abs_le]; omega))
      (by push_cast; exact (not_le.1 hc).le)
    push_cast at this; linarith
  have n1 := le_abs_self (n : K)
  have n2 := neg_abs_le (n : K)
  have ez := R.err_mul (x := z) (B := |(n : K)| + 1) (by linarith) (by rw [abs_le]; constructor <;> linarith)
  have sB : (2 : K) ^ (-1022 : ℤ) ≤ s * (|(n : K)| + 1) := hs.trans (le_mul_of_one_le_right hs0.le (by linarith))
  have el := R.err_mul (x := s * (n : K)) (B := s * (|(n : K)| + 1)) sB
    (by rw [abs_mul, abs_of_pos hs0]; exact mul_le_mul_of_nonneg_left (by linarith) hs0.le)
  have er := R.err_mul (x := s * ((n + 1 : ℤ) : K)) (B := s * (|(n : K)| + 1)) sB
    (by rw [abs_mul, abs_of_pos hs0]; refine mul_le_mul_of_nonneg_left ?_ hs0.le
        push_cast; rw [abs_le]; constructor <;> linarith)
  have hu2 : (2 : K) ^ (-52 : ℤ) = 2 * 2 ^ (-53 : ℤ) := by
    rw [show (-52 : ℤ) = 1 + -53 by norm_num, zpow_add₀ (by norm_num), zpow_one]
  rw [hu2]
  have hu0 := two_zpow_pos (K := K) (-53)
  generalize (2 : K) ^ (-53 : ℤ) = u at *
  have hB : 0 ≤ u * (s * (|(n : K)| + 1)) := by positivity
  constructor
  · have h1 : (n : K) - u * (|(n : K)| + 1) ≤ z := by linarith [(abs_le.1 ez).2]
    have h2 := mul_le_mul_of_nonneg_left h1 hs0.le
    rw [← hxz] at h2
    have h3 := (abs_le.1 el).2
    nlinarith
  · have h2 := mul_le_mul_of_nonneg_left z1 hs0.le
    rw [← hxz] at h2
    have h3 := (abs_le.1 er).1
    push_cast at h3 ⊢
    linarith

/-- Every point lies within the bounds of its cell up to 2^-52 of its distance from the origin, rounding of both
included. -/
theorem point_in_cell_rounded (R : Nearest r) (s : K) (hs : 2 ^ (-1022 : ℤ) ≤ s) (p : Point K)
    (hx : |(worldToCellF r s p).x| < 2 ^ 53) (hy : |(worldToCellF r s p).y| < 2 ^ 53) :
    let c := worldToCellF r s p
    let b := worldCellBoundsF r s c
    (b.left - 2 ^ (-52 : ℤ) * (s * (|(c.x : K)| + 1)) ≤ p.x ∧ p.x ≤ b.right + 2 ^ (-52 : ℤ) * (s * (|(c.x : K)| + 1))) ∧
    (b.bot - 2 ^ (-52 : ℤ) * (s * (|(c.y : K)| + 1)) ≤ p.y ∧ p.y ≤ b.top + 2 ^ (-52 : ℤ) * (s * (|(c.y : K)| + 1))) :=
  ⟨bounds_round R hs hx rfl, bounds_round R hs hy rfl⟩

end

/-- With the cell size 0.1 the point 0.9 belongs to cell 8 (the double 0.9 is less than nine times the double 0.1), but
the program assigns it to cell 9. -/
theorem border_point_counterexample :
    worldToCell (rne (1 / 10 : ℚ)) ⟨rne (9 / 10), rne (9 / 10)⟩ = ⟨8, 8⟩ ∧
      worldToCellF rne (rne (1 / 10 : ℚ)) ⟨rne (9 / 10), rne (9 / 10)⟩ = ⟨9, 9⟩ := by
  constructor <;> decide +kernel

/-- Not vacuous. -/
example : worldToCellF rne (rne (1 / 10 : ℚ)) (cellToWorldF rne (rne (1 / 10)) ⟨-7, 8⟩) = ⟨-7, 8⟩ := by
  refine cell_centre_rounded rne_nearest _ ?_ _ (by norm_num) (by norm_num)
  have h : (1 / 16 : ℚ) ≤ rne (1 / 10) := rne_nearest.ge_of_ge ⟨1, -4, by norm_num, by norm_num, by norm_num⟩ (by norm_num)
  refine le_trans ?_ h
  have := two_zpow_le (K := ℚ) (a := -1021) (b := -4) (by norm_num)
  refine this.trans (by norm_num)

end Slam.Float
