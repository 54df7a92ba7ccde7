import Verif.Line.Exact

/-!
# C03, C04: a rasterised segment stays within the rectangle of its end cells
-/

set_option autoImplicit false
set_option linter.unusedSectionVars false

namespace Slam.Line
open Slam.Grid (Coord)

/-- The cell is within the rectangle that has the cells `a` and `b` as its corners. -/
def Between (a b c : Coord) : Prop :=
  min a.x b.x ≤ c.x ∧ c.x ≤ max a.x b.x ∧ min a.y b.y ≤ c.y ∧ c.y ≤ max a.y b.y

/-! ## Monotone paths -/

/-- One step in the direction the walk goes. -/
def Ahead (incX incY : Int) (u v : Coord) : Prop := incX * u.x ≤ incX * v.x ∧ incY * u.y ≤ incY * v.y

theorem between_of_ahead {incX incY : Int} (hX : incX = 1 ∨ incX = -1) (hY : incY = 1 ∨ incY = -1) {a b c : Coord}
    (h1 : Ahead incX incY a c) (h2 : Ahead incX incY c b) : Between a b c := by
  obtain ⟨h1, h1'⟩ := h1
  obtain ⟨h2, h2'⟩ := h2
  unfold Between
  rcases hX with rfl | rfl <;> rcases hY with rfl | rfl <;> omega

theorem walk_ahead {D : Type} (fp : FP D) (cellsNm : Nat) (endc : Coord) (incX incY : Int)
    (hX : incX = 1 ∨ incX = -1) (hY : incY = 1 ∨ incY = -1) (exInc eyInc : D) (cells : List Coord) (b : Coord) (fuel : Nat) :
    ∀ (pnt : Coord) (e : D) (acc : List Coord),
      (acc ++ [pnt]).Pairwise (Ahead incX incY) → (∀ c ∈ acc ++ [pnt], Ahead incX incY b c) →
      walk fp cellsNm endc incX incY exInc eyInc fuel pnt e acc = .done cells →
      ∀ c ∈ cells, Ahead incX incY b c ∧ Ahead incX incY c endc := by
  have px : ∀ x : Int, incX * x ≤ incX * (x + incX) := by intro x; rcases hX with rfl | rfl <;> omega
  have py : ∀ y : Int, incY * y ≤ incY * (y + incY) := by intro y; rcases hY with rfl | rfl <;> omega
  induction fuel with
  | zero => intro pnt e acc _ _ h; cases h
  | succ fuel ih =>
    intro pnt e acc h1 h2 h
    have step : ∀ (q : Coord) (e' : D), Ahead incX incY pnt q →
        walk fp cellsNm endc incX incY exInc eyInc fuel q e' (acc ++ [pnt]) = .done cells →
        ∀ c ∈ cells, Ahead incX incY b c ∧ Ahead incX incY c endc := by
      intro q e' hq h
      have hall : ∀ c ∈ acc ++ [pnt], Ahead incX incY c q := by
        intro c hc
        rcases List.mem_append.1 hc with hc' | hc'
        · have := (List.pairwise_append.1 h1).2.2 c hc' pnt (by simp)
          exact ⟨this.1.trans hq.1, this.2.trans hq.2⟩
        · rw [List.mem_singleton] at hc'
          exact hc' ▸ hq
      refine ih q e' (acc ++ [pnt]) ?_ ?_ h
      · rw [List.pairwise_append]
        refine ⟨h1, List.pairwise_singleton _ _, ?_⟩
        intro c hc d hd
        rw [List.mem_singleton] at hd
        exact hd ▸ hall c hc
      · intro c hc
        rcases List.mem_append.1 hc with hc' | hc'
        · exact h2 c hc'
        · rw [List.mem_singleton] at hc'
          subst hc'
          have := h2 pnt (by simp)
          exact ⟨this.1.trans hq.1, this.2.trans hq.2⟩
    rw [walk] at h
    simp only at h
    by_cases hp : pnt = endc
    · rw [if_pos hp] at h
      simp only [Walk.done.injEq] at h
      subst h
      intro c hc
      refine ⟨h2 c hc, ?_⟩
      rcases List.mem_append.1 hc with hc' | hc'
      · exact hp ▸ (List.pairwise_append.1 h1).2.2 c hc' pnt (by simp)
      · rw [List.mem_singleton] at hc'
        rw [hc', hp]
        exact ⟨le_rfl, le_rfl⟩
    · rw [if_neg hp] at h
      by_cases hl : cellsNm < (acc ++ [pnt]).length
      · rw [if_pos hl] at h; cases h
      · rw [if_neg hl] at h
        split at h
        · split at h
          · refine step _ _ ?_ h; exact ⟨le_rfl, py _⟩
          · split at h
            · refine step _ _ ?_ h; exact ⟨px _, le_rfl⟩
            · refine step _ _ ?_ h; exact ⟨px _, py _⟩
        · split at h
          · refine step _ _ ?_ h; exact ⟨px _, le_rfl⟩
          · refine step _ _ ?_ h; exact ⟨le_rfl, py _⟩

/-! ## Digital lines -/

theorem chain_far (l : List Coord) : ∀ (b e : Coord), l.head? = some b → l.getLast? = some e → l.IsChain KingStep →
    ∀ c ∈ l, ∃ i j : Nat, i + j + 1 = l.length ∧ |c.x - b.x| ≤ i ∧ |c.y - b.y| ≤ i ∧ |e.x - c.x| ≤ j ∧ |e.y - c.y| ≤ j := by
  induction l with
  | nil => intro b e h; simp at h
  | cons a l ih =>
    intro b e h1 h2 h3 c hc
    simp only [List.head?_cons, Option.some.injEq] at h1
    subst h1
    cases l with
    | nil =>
      simp only [List.getLast?_singleton, Option.some.injEq] at h2
      simp only [List.mem_singleton] at hc
      subst h2 hc
      exact ⟨0, 0, by simp⟩
    | cons d l =>
      rw [List.isChain_cons_cons] at h3
      obtain ⟨⟨-, k1, k2⟩, h3⟩ := h3
      rw [abs_le] at k1 k2
      have h2' : (d :: l).getLast? = some e := by simpa [List.getLast?_cons_cons] using h2
      rcases List.mem_cons.1 hc with rfl | hc
      · obtain ⟨i, j, e1, -, -, e4, e5⟩ := ih d e rfl h2' h3 d (by simp)
        refine ⟨0, i + j + 1, by simp only [List.length_cons] at *; omega, by simp, by simp, ?_, ?_⟩
        · rw [abs_le] at *; push_cast; omega
        · rw [abs_le] at *; push_cast; omega
      · obtain ⟨i, j, e1, e2, e3, e4, e5⟩ := ih d e rfl h2' h3 c hc
        refine ⟨i + 1, j, by simp only [List.length_cons] at *; omega, ?_, ?_, e4, e5⟩
        · rw [abs_le] at *; push_cast; omega
        · rw [abs_le] at *; push_cast; omega

/-- Along the longer side: as far from both ends as there are steps. Along the shorter side: half a cell off the ideal line. -/
theorem minor_between (M m u v : Int) (hu : min 0 M ≤ u) (hu' : u ≤ max 0 M) (hM : M ≠ 0) (h : 2 * |u * m - v * M| ≤ |M|) :
    min 0 m ≤ v ∧ v ≤ max 0 m := by
  have h' : 2 * (u * m - v * M) ≤ |M| ∧ -|M| ≤ 2 * (u * m - v * M) := by
    have := abs_le.1 (le_refl |u * m - v * M|)
    omega
  obtain ⟨h1, h2⟩ := h'
  rcases lt_or_gt_of_ne hM with hn | hn
  · rw [abs_of_neg hn] at h1 h2
    have hu0 : u ≤ 0 := by omega
    have huM : M ≤ u := by omega
    rcases le_total 0 m with hm | hm
    · have a1 : u * m ≤ 0 := mul_nonpos_of_nonpos_of_nonneg hu0 hm
      have a2 : M * m ≤ u * m := mul_le_mul_of_nonneg_right huM hm
      constructor
      · by_contra hc
        have : 1 * (-M) ≤ (-v) * (-M) := mul_le_mul_of_nonneg_right (by omega) (by omega)
        nlinarith
      · by_contra hc
        have : (m + 1) * (-M) ≤ v * (-M) := mul_le_mul_of_nonneg_right (by omega) (by omega)
        nlinarith
    · have a1 : 0 ≤ u * m := mul_nonneg_of_nonpos_of_nonpos hu0 hm
      have a2 : u * m ≤ M * m := mul_le_mul_of_nonpos_right huM hm
      constructor
      · by_contra hc
        have : (1 - m) * (-M) ≤ (-v) * (-M) := mul_le_mul_of_nonneg_right (by omega) (by omega)
        nlinarith
      · by_contra hc
        have : 1 * (-M) ≤ v * (-M) := mul_le_mul_of_nonneg_right (by omega) (by omega)
        nlinarith
  · rw [abs_of_pos hn] at h1 h2
    have hu0 : 0 ≤ u := by omega
    have huM : u ≤ M := by omega
    rcases le_total 0 m with hm | hm
    · have a1 : 0 ≤ u * m := mul_nonneg hu0 hm
      have a2 : u * m ≤ M * m := mul_le_mul_of_nonneg_right huM hm
      constructor
      · by_contra hc
        have : 1 * M ≤ (-v) * M := mul_le_mul_of_nonneg_right (by omega) (by omega)
        nlinarith
      · by_contra hc
        have : (m + 1) * M ≤ v * M := mul_le_mul_of_nonneg_right (by omega) (by omega)
        nlinarith
    · have a1 : u * m ≤ 0 := mul_nonpos_of_nonneg_of_nonpos hu0 hm
      have a2 : M * m ≤ u * m := mul_le_mul_of_nonpos_right huM hm
      constructor
      · by_contra hc
        have : (1 - m) * M ≤ (-v) * M := mul_le_mul_of_nonneg_right (by omega) (by omega)
        nlinarith
      · by_contra hc
        have : 1 * M ≤ v * M := mul_le_mul_of_nonneg_right (by omega) (by omega)
        nlinarith

/-- **A digital straight segment stays within the rectangle of its ends (C03).** -/
theorem digital_line_between {b e : Coord} {pts : List Coord} (h : IsDigitalLine b e pts) : ∀ c ∈ pts, Between b e c := by
  intro c hc
  obtain ⟨i, j, h1, h2, h3, h4, h5⟩ := chain_far pts b e h.first h.last h.steps c hc
  have hl := h.length
  have hcl := h.close c hc
  rw [abs_le] at h2 h3 h4 h5
  rcases le_total |e.x - b.x| |e.y - b.y| with hm | hm
  · rw [max_eq_right hm] at hl hcl
    have hy : min 0 (e.y - b.y) ≤ c.y - b.y ∧ c.y - b.y ≤ max 0 (e.y - b.y) := by
      rcases abs_cases (e.y - b.y) with ⟨q, _⟩ | ⟨q, _⟩ <;> omega
    have hx : min 0 (e.x - b.x) ≤ c.x - b.x ∧ c.x - b.x ≤ max 0 (e.x - b.x) := by
      by_cases hz : e.y - b.y = 0
      · rw [hz, abs_zero] at hl hm
        have : i = 0 := by omega
        have : e.x - b.x = 0 := by rcases abs_cases (e.x - b.x) with ⟨q, _⟩ | ⟨q, _⟩ <;> omega
        omega
      · refine minor_between (e.y - b.y) (e.x - b.x) (c.y - b.y) (c.x - b.x) hy.1 hy.2 hz ?_
        rwa [abs_sub_comm] at hcl
    unfold Between
    omega
  · rw [max_eq_left hm] at hl hcl
    have hx : min 0 (e.x - b.x) ≤ c.x - b.x ∧ c.x - b.x ≤ max 0 (e.x - b.x) := by
      rcases abs_cases (e.x - b.x) with ⟨q, _⟩ | ⟨q, _⟩ <;> omega
    have hy : min 0 (e.y - b.y) ≤ c.y - b.y ∧ c.y - b.y ≤ max 0 (e.y - b.y) := by
      by_cases hz : e.x - b.x = 0
      · rw [hz, abs_zero] at hl hm
        have : i = 0 := by omega
        have : e.y - b.y = 0 := by rcases abs_cases (e.y - b.y) with ⟨q, _⟩ | ⟨q, _⟩ <;> omega
        omega
      · exact minor_between (e.x - b.x) (e.y - b.y) (c.x - b.x) (c.y - b.y) hx.1 hx.2 hz hcl
    unfold Between
    omega

/-! ## The traversal of the grid -/

/-- **The cells of a beam are within the rectangle of its end cells (C04)**, whatever the floating point operations give
(`ok`, `M` as in `world_to_cells_connects`): a beam between two cells of a map of fixed size does not leave it. -/
theorem world_to_cells_in_box {D : Type} (ok : Int → Bool) (M : Int)
    (hok : ∀ v, |v| ≤ 6 * M → ok v = true) (fp : FP D) (m bx by_ ex ey : D) (fuel : Nat)
    (hbx : |(fp.cell bx by_).x| ≤ M) (hby : |(fp.cell bx by_).y| ≤ M)
    (hex : |(fp.cell ex ey).x| ≤ M) (hey : |(fp.cell ex ey).y| ≤ M)
    (hf : fuelFor (fp.cell bx by_) (fp.cell ex ey) ≤ fuel) {cells : List Coord}
    (h : worldToCells ok fp fuel m bx by_ ex ey = some cells) :
    ∀ c ∈ cells, Between (fp.cell bx by_) (fp.cell ex ey) c := by
  unfold worldToCells at h
  simp only at h
  set incX : Int := if fp.pos (fp.sub ex bx) = true then 1 else -1 with hincX
  set incY : Int := if fp.pos (fp.sub ey by_) = true then 1 else -1 with hincY
  have hX : incX = 1 ∨ incX = -1 := by rw [hincX]; split <;> simp
  have hY : incY = 1 ∨ incY = -1 := by rw [hincY]; split <;> simp
  generalize hw : walk fp _ _ incX incY _ _ fuel _ _ [] = r at h
  cases r with
  | done cs =>
    simp only [Option.some.injEq] at h
    subst h
    intro c hc
    obtain ⟨h1, h2⟩ := walk_ahead fp _ _ incX incY hX hY _ _ cs (fp.cell bx by_) fuel _ _ [] (by simp)
      (by simp [Ahead]) hw c hc
    exact between_of_ahead hX hY h1 h2
  | failover =>
    simp only at h
    unfold fuelFor at hf
    obtain ⟨pts, hp, H⟩ := bresenham_is_digital_line ok M hok (fp.cell bx by_) (fp.cell ex ey) hbx hby hex hey fuel (by omega)
    rw [hp, Option.some.injEq] at h
    subst h
    exact digital_line_between H
  | outOfFuel => simp at h

/-- For instance, for the cells of a beam from `(0, 0)` to `(4, -2)`. -/
example : ∀ c ∈ ([⟨0, 0⟩, ⟨1, -1⟩, ⟨2, -1⟩, ⟨3, -2⟩, ⟨4, -2⟩] : List Coord), Between ⟨0, 0⟩ ⟨4, -2⟩ c := by
  obtain ⟨pts, h1, h2⟩ := bresenham_int32 ⟨0, 0⟩ ⟨4, -2⟩ (by norm_num) (by norm_num) (by norm_num) (by norm_num)
  have e : bresenham int32 (max ((4 : Int) - 0).natAbs ((-2 : Int) - 0).natAbs + 1) ⟨0, 0⟩ ⟨4, -2⟩ =
      some [⟨0, 0⟩, ⟨1, -1⟩, ⟨2, -1⟩, ⟨3, -2⟩, ⟨4, -2⟩] := by decide
  rw [e, Option.some.injEq] at h1
  rw [h1]
  exact digital_line_between h2

/-- For every way to compute the cells of two ends that are in `(0, 0)` and `(4, -2)`. -/
example {D : Type} (fp : FP D) (m bx by_ ex ey : D) (h1 : fp.cell bx by_ = ⟨0, 0⟩) (h2 : fp.cell ex ey = ⟨4, -2⟩) :
    ∃ cells, worldToCells int32 fp 8 m bx by_ ex ey = some cells ∧ ∀ c ∈ cells, 0 ≤ c.x ∧ c.x ≤ 4 ∧ -2 ≤ c.y ∧ c.y ≤ 0 := by
  have hok : ∀ v : Int, |v| ≤ 6 * 4 → int32 v = true := by
    intro v hv
    rw [abs_le] at hv
    simp only [int32, Bool.and_eq_true, decide_eq_true_eq]
    omega
  obtain ⟨cells, e, -⟩ := world_to_cells_connects int32 4 hok fp m bx by_ ex ey 8 (by simp [h1]) (by simp [h1]) (by simp [h2])
    (by simp [h2]) (by simp [h1, h2, fuelFor])
  refine ⟨cells, e, fun c hc => ?_⟩
  have := world_to_cells_in_box int32 4 hok fp m bx by_ ex ey 8 (by simp [h1]) (by simp [h1]) (by simp [h2])
    (by simp [h2]) (by simp [h1, h2, fuelFor]) e c hc
  rw [h1, h2] at this
  simpa [Between] using this

end Slam.Line
