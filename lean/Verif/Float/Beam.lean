import Verif.Float.TrigDemo
import Verif.Float.Coord

/-!
# The cell a beam ends in, in floating point

`ScanPoint2D::move_origin` (src/core/states/sensor_data.h) with the rounded providers of `Float/Trig.lean`, followed by
`world_to_cell` (src/core/maps/regular_squares_grid.h, `Float/Coord.lean`).
-/

set_option autoImplicit false
set_option linter.unusedSectionVars false

namespace Slam.Float
open Slam.Sensor Slam.Worlds

/-- `move_origin` with a provider, sensor_data.h:83-88, for a polar point: product and sum rounded. `cs`, `sn` are what the
provider answered. -/
def moveF (r : ℝ → ℝ) (dx dy range cs sn : ℝ) : Grid.Point ℝ := ⟨r (dx + r (range * cs)), r (dy + r (range * sn))⟩

/-- The end point of a point of the scan with the cached provider, sensor_data.h:83-88 and trigonometry_utils.h:45-55. -/
noncomputable def endCached (r : ℝ → ℝ) (c : Cached) (x y range a : ℝ) : Option (Grid.Point ℝ) :=
  (cosF r c a).bind fun cs => (sinF r c a).map fun sn => moveF r x y range cs sn

/-- The end point with the provider without a table, sensor_data.h:83-88 and trigonometry_utils.h:21-27. -/
def endRaw (r : ℝ → ℝ) (L : Libm) (x y θ range a : ℝ) : Grid.Point ℝ := moveF r x y range (rawCosF r L θ a) (rawSinF r L θ a)

theorem moveF_exact (dx dy range cs sn : ℝ) : moveF id dx dy range cs sn = ⟨dx + range * cs, dy + range * sn⟩ := rfl

/-! ## Specification -/

/-- Where a beam of direction `a` relative to a robot at `(x, y, θ)` ends after `range`. -/
noncomputable def beamEnd (x y θ range a : ℝ) : Grid.Point ℝ := ⟨x + range * Real.cos (θ + a), y + range * Real.sin (θ + a)⟩

/-- `p` is off every grid line by more than `δ`. -/
def OffLines (scale δ : ℝ) (p : Grid.Point ℝ) : Prop := ∀ k : ℤ, δ < |p.x - k * scale| ∧ δ < |p.y - k * scale|

/-- `p` and `q` are at most `δ` apart along each axis. -/
def EndWithin (δ : ℝ) (p q : Grid.Point ℝ) : Prop := |p.x - q.x| ≤ δ ∧ |p.y - q.y| ≤ δ

/-! ## Proofs -/

section
variable {r s : ℝ → ℝ}

theorem moveF_err (R : Nearest r) {x y ρ ε cs sn cs' sn' : ℝ} (hx : |x| ≤ 2 ^ 20) (hy : |y| ≤ 2 ^ 20) (hρ0 : 0 ≤ ρ)
    (hρ : ρ ≤ 2 ^ 10) (hε : ε ≤ 1) (h1 : |cs'| ≤ 1) (h2 : |sn'| ≤ 1) (hc : |cs - cs'| ≤ ε) (hs : |sn - sn'| ≤ ε) :
    EndWithin (ρ * ε + 2 ^ (-32 : ℤ)) (moveF r x y ρ cs sn) ⟨x + ρ * cs', y + ρ * sn'⟩ := by
  have one : ∀ {u c c' : ℝ}, |u| ≤ 2 ^ 20 → |c'| ≤ 1 → |c - c'| ≤ ε →
      |r (u + r (ρ * c)) - (u + ρ * c')| ≤ ρ * ε + 2 ^ (-32 : ℤ) := by
    intro u c c' hu hc' hcc
    obtain ⟨c1, c2⟩ := abs_le.1 hc'
    obtain ⟨d1, d2⟩ := abs_le.1 hcc
    obtain ⟨u1, u2⟩ := abs_le.1 hu
    have m1 : |ρ * c| ≤ 2 ^ (11 : ℤ) := by
      rw [abs_mul, abs_of_nonneg hρ0]
      have : |c| ≤ 2 := by rw [abs_le]; constructor <;> linarith
      refine (mul_le_mul hρ this (abs_nonneg _) (by norm_num)).trans ?_
      norm_num
    obtain ⟨e1, e2⟩ := abs_le.1 (R.err (x := ρ * c) (k := 11) (by norm_num) m1)
    obtain ⟨n1, n2⟩ := abs_le.1 m1
    have m2 : |u + r (ρ * c)| ≤ 2 ^ (21 : ℤ) := by
      rw [abs_le]; norm_num at e1 e2 n1 n2 u1 u2 ⊢; constructor <;> linarith
    obtain ⟨f1, f2⟩ := abs_le.1 (R.err (x := u + r (ρ * c)) (k := 21) (by norm_num) m2)
    have k1 : ρ * (c - c') ≤ ρ * ε := mul_le_mul_of_nonneg_left d2 hρ0
    have k2 : -(ρ * ε) ≤ ρ * (c - c') := by
      have := mul_le_mul_of_nonneg_left d1 hρ0
      rwa [mul_neg] at this
    rw [mul_sub] at k1 k2
    rw [abs_le]
    norm_num at e1 e2 f1 f2 ⊢
    constructor <;> linarith
  exact ⟨one hx h1 hc, one hy h2 hs⟩

/-- One coordinate: a value near the exact one gives the same cell, unless the exact one is near a grid line. -/
theorem cell_near (R : Nearest r) {scale δ u u' : ℝ} (hs1 : 2 ^ (-20 : ℤ) ≤ scale) (hs2 : scale ≤ 2 ^ 20)
    (hu : |u| ≤ 2 ^ 21) (hδ0 : 0 ≤ δ) (hδ : δ ≤ 2 ^ 10) (h : |u' - u| ≤ δ)
    (hoff : ∀ k : ℤ, δ + 2 ^ (-31 : ℤ) < |u - k * scale|) : ⌊r (u' / scale)⌋ = ⌊u / scale⌋ := by
  have hs0 : 0 < scale := (two_zpow_pos _).trans_le hs1
  set k := ⌊u / scale⌋ with hk
  have hk1 : (k : ℝ) * scale ≤ u := (le_div_iff₀ hs0).1 (Int.floor_le _)
  have hk2 : u < (k + 1) * scale := (div_lt_iff₀ hs0).1 (Int.lt_floor_add_one _)
  have o1 := hoff k
  have o2 := hoff (k + 1)
  rw [abs_of_nonneg (by linarith)] at o1
  rw [abs_of_neg (by push_cast; linarith)] at o2
  push_cast at o2
  obtain ⟨h1, h2⟩ := abs_le.1 h
  obtain ⟨u1, u2⟩ := abs_le.1 hu
  have hu' : |u'| ≤ 2 ^ 22 := by rw [abs_le]; norm_num at u1 u2 hδ ⊢; constructor <;> linarith
  -- the cell number is a double
  have hkb : |u / scale| ≤ 2 ^ 41 := by
    rw [abs_div, abs_of_pos hs0, div_le_iff₀ hs0]
    refine hu.trans ?_
    have : (2 : ℝ) ^ 41 * 2 ^ (-20 : ℤ) = 2 ^ 21 := by norm_num
    rw [← this]
    exact mul_le_mul_of_nonneg_left hs1 (by norm_num)
  obtain ⟨b1, b2⟩ := abs_le.1 hkb
  norm_num at b1 b2
  have hkd : IsDouble (k : ℝ) := by
    apply isDouble_int
    have l1 : (-(2 ^ 41) : ℤ) ≤ k := by rw [hk, Int.le_floor]; push_cast; exact b1
    have l2 : k ≤ 2 ^ 41 := by
      have : (k : ℝ) ≤ ((2 ^ 41 : ℤ) : ℝ) := by push_cast; exact (Int.floor_le _).trans b2
      exact_mod_cast this
    rw [abs_le]; constructor <;> linarith
  have p31 : (0 : ℝ) < 2 ^ (-31 : ℤ) := two_zpow_pos _
  rw [Int.floor_eq_iff]
  constructor
  · refine R.ge_of_ge hkd ((le_div_iff₀ hs0).2 ?_)
    linarith
  · have hB : (2 : ℝ) ^ (-1022 : ℤ) ≤ 2 ^ 22 / scale := by
      rw [le_div_iff₀ hs0]
      have : (2 : ℝ) ^ (-1022 : ℤ) ≤ 2 ^ (0 : ℤ) := two_zpow_le (by norm_num)
      rw [zpow_zero] at this
      have h3 := mul_le_mul this hs2 hs0.le (by norm_num)
      generalize (2 : ℝ) ^ (-1022 : ℤ) = w at h3 ⊢
      norm_num at h3 ⊢
      linarith
    have hz : |u' / scale| ≤ 2 ^ 22 / scale := by
      rw [abs_div, abs_of_pos hs0]
      exact div_le_div_of_nonneg_right hu' hs0.le
    have e := (abs_le.1 (R.err_mul hB hz)).2
    have hlt : u' / scale + 2 ^ (-53 : ℤ) * (2 ^ 22 / scale) < k + 1 := by
      have : u' / scale + 2 ^ (-53 : ℤ) * (2 ^ 22 / scale) = (u' + 2 ^ (-31 : ℤ)) / scale := by
        rw [show (2 : ℝ) ^ (-31 : ℤ) = 2 ^ (-53 : ℤ) * 2 ^ 22 by norm_num]
        ring
      rw [this, div_lt_iff₀ hs0]
      linarith
    linarith

theorem cellF_near (R : Nearest r) {scale δ : ℝ} {p q : Grid.Point ℝ} (hs1 : 2 ^ (-20 : ℤ) ≤ scale) (hs2 : scale ≤ 2 ^ 20)
    (hx : |q.x| ≤ 2 ^ 21) (hy : |q.y| ≤ 2 ^ 21) (hδ : δ ≤ 2 ^ 10) (h : EndWithin δ p q)
    (hoff : OffLines scale (δ + 2 ^ (-31 : ℤ)) q) : worldToCellF r scale p = Grid.worldToCell scale q := by
  have h0 : 0 ≤ δ := (abs_nonneg _).trans h.1
  unfold worldToCellF Grid.worldToCell
  rw [cell_near R hs1 hs2 hx h0 hδ h.1 fun k => (hoff k).1, cell_near R hs1 hs2 hy h0 hδ h.2 fun k => (hoff k).2]

theorem beamEnd_bound {x y θ ρ a : ℝ} (hx : |x| ≤ 2 ^ 20) (hy : |y| ≤ 2 ^ 20) (hρ0 : 0 ≤ ρ) (hρ : ρ ≤ 2 ^ 10) :
    |(beamEnd x y θ ρ a).x| ≤ 2 ^ 21 ∧ |(beamEnd x y θ ρ a).y| ≤ 2 ^ 21 := by
  have one : ∀ u c : ℝ, |u| ≤ 2 ^ 20 → |c| ≤ 1 → |u + ρ * c| ≤ 2 ^ 21 := by
    intro u c hu hc
    have h1 : |ρ * c| ≤ 2 ^ 10 := by
      rw [abs_mul, abs_of_nonneg hρ0]
      exact (mul_le_mul hρ hc (abs_nonneg _) (by norm_num)).trans (by norm_num)
    refine (abs_add_le _ _).trans ?_
    norm_num at hu h1 ⊢
    linarith
  exact ⟨one _ _ hx (Real.abs_cos_le_one _), one _ _ hy (Real.abs_sin_le_one _)⟩

/-! ## C108 -/

/-- C108: take a message as in C107 that the node accepts, computing in floating point, its ranges from 0 to 2^10, a robot
at `(x, y, θ)` with coordinates and heading up to 2^20, a C library accurate to `τ ≤ 2^-10` and cells of 2^-20 to 2^20.
Then, point by point, the computed end point of a beam of the message of range `ρ` is within ρ(5τ + 2^-25) + 2^-32 of its
true end along each axis with the cached provider, and within ρ(τ + 2^-20) + 2^-32 without the cache; and the cell computed
for it is the cell of its true end if that end is off every grid line by more than this bound plus 2^-31. -/
theorem beam_cells_rounded (R : Nearest r) (S : NearestSingle s) (L : Libm) {τ : ℝ} (hL : L.Accurate τ)
    (hτ : τ ≤ 2 ^ (-10 : ℤ)) (m : Msg ℝ) (skip : Bool) (tol : ℝ) (hm : FloatMsg m) (hs : Spread m tol)
    (hr0 : 0 ≤ m.rangeMin) (hr1 : m.rangeMin ≤ m.rangeMax) (hr2 : m.rangeMax ≤ 2 ^ 10)
    (ps : List (Point ℝ)) (h : msg2scanF r s m skip tol = some ps) :
    ∃ N, ∀ fuel, N ≤ fuel → ∀ x y θ scale : ℝ, |x| ≤ 2 ^ 20 → |y| ≤ 2 ^ 20 → |θ| ≤ 2 ^ 20 →
      2 ^ (-20 : ℤ) ≤ scale → scale ≤ 2 ^ 20 → ∃ c, providerF r s L m θ fuel = some c ∧
      List.Forall₂ (fun p q : Point ℝ => p.range = q.range ∧ p.occupied = q.occupied ∧ ∀ ρ, q.range = some ρ →
        (∃ e, endCached r c x y ρ p.angle = some e ∧
          EndWithin (ρ * (5 * τ + 2 ^ (-25 : ℤ)) + 2 ^ (-32 : ℤ)) e (beamEnd x y θ ρ q.angle) ∧
          (OffLines scale (ρ * (5 * τ + 2 ^ (-25 : ℤ)) + 2 ^ (-32 : ℤ) + 2 ^ (-31 : ℤ)) (beamEnd x y θ ρ q.angle) →
            worldToCellF r scale e = Grid.worldToCell scale (beamEnd x y θ ρ q.angle))) ∧
        EndWithin (ρ * (τ + 2 ^ (-20 : ℤ)) + 2 ^ (-32 : ℤ)) (endRaw r L x y θ ρ p.angle) (beamEnd x y θ ρ q.angle) ∧
        (OffLines scale (ρ * (τ + 2 ^ (-20 : ℤ)) + 2 ^ (-32 : ℤ) + 2 ^ (-31 : ℤ)) (beamEnd x y θ ρ q.angle) →
          worldToCellF r scale (endRaw r L x y θ ρ p.angle) = Grid.worldToCell scale (beamEnd x y θ ρ q.angle)))
        ps (beams m skip) := by
  have hτ4 : τ ≤ 1 / 4 := hτ.trans (by norm_num)
  have h0τ : 0 ≤ τ := (abs_nonneg _).trans (hL 0).1
  obtain ⟨N, hN⟩ := message_cache_rounded R S L hL hτ4 m skip tol hm hs ps h
  refine ⟨N, fun fuel hf x y θ scale hx hy hθ hs1 hs2 => ?_⟩
  obtain ⟨c, hc1, hc2⟩ := hN fuel hf θ hθ
  refine ⟨c, hc1, ?_⟩
  -- every range of the scan is one of the message's, clipped
  have hrange : ∀ q ∈ beams m skip, ∀ ρ, q.range = some ρ → 0 ≤ ρ ∧ ρ ≤ 2 ^ 10 := by
    intro q hq ρ hρ
    unfold beams at hq
    rw [List.mem_filterMap] at hq
    obtain ⟨⟨v, i⟩, -, hv⟩ := hq
    simp only [pointSpec] at hv
    cases v with
    | none =>
      injection hv with hv; subst hv; cases hρ
    | some v =>
      simp only at hv
      by_cases h1 : v < m.rangeMin
      · rw [if_pos h1] at hv; cases hv
      rw [if_neg h1] at hv
      by_cases h2 : v < m.rangeMax
      · rw [if_pos h2] at hv
        injection hv with hv; subst hv
        injection hρ with hρ; subst hρ
        exact ⟨hr0.trans (not_lt.1 h1), h2.le.trans hr2⟩
      · rw [if_neg h2] at hv
        cases skip with
        | true => simp at hv
        | false =>
          simp only [Bool.false_eq_true, if_false] at hv
          injection hv with hv; subst hv
          injection hρ with hρ; subst hρ
          exact ⟨hr0.trans hr1, hr2⟩
  have hmem : ∀ {l1 l2 : List (Point ℝ)} {P Q : Point ℝ → Point ℝ → Prop}, List.Forall₂ P l1 l2 →
      (∀ p q, q ∈ l2 → P p q → Q p q) → List.Forall₂ Q l1 l2 := by
    intro l1 l2 P Q hl
    induction hl with
    | nil => exact fun _ => .nil
    | cons hd _ ih => exact fun hpq => .cons (hpq _ _ (by simp) hd) (ih fun p q hq => hpq p q (by simp [hq]))
  refine hmem hc2 ?_
  rintro p q hq ⟨h1, h2, h3, ⟨sn, hsn, esn⟩, ⟨cs, hcs, ecs⟩, rsn, rcs⟩
  refine ⟨h1, h2, fun ρ hρ => ?_⟩
  obtain ⟨ρ0, ρ1⟩ := hrange q hq ρ hρ
  obtain ⟨bx, bY⟩ := beamEnd_bound (θ := θ) (a := q.angle) hx hy ρ0 ρ1
  have sm : ∀ ε : ℝ, 0 ≤ ε → ε ≤ 1 / 2 → ρ * ε + 2 ^ (-32 : ℤ) ≤ 2 ^ 10 := by
    intro ε e0 e1
    have := mul_le_mul ρ1 e1 e0 (by norm_num)
    norm_num at this ⊢
    linarith
  have w1 := moveF_err R (x := x) (y := y) (ε := 5 * τ + 2 ^ (-25 : ℤ)) hx hy ρ0 ρ1 (by norm_num at hτ ⊢; linarith)
    (Real.abs_cos_le_one _) (Real.abs_sin_le_one _) ecs esn
  have w2 := moveF_err R (x := x) (y := y) (ε := τ + 2 ^ (-20 : ℤ)) hx hy ρ0 ρ1 (by norm_num at hτ ⊢; linarith)
    (Real.abs_cos_le_one _) (Real.abs_sin_le_one _) rcs rsn
  refine ⟨⟨moveF r x y ρ cs sn, ?_, w1, fun hoff => ?_⟩, w2, fun hoff => ?_⟩
  · simp only [endCached, hcs, hsn, Option.bind_some, Option.map_some]
  · exact cellF_near R hs1 hs2 bx bY (sm _ (by positivity) (by norm_num at hτ ⊢; linarith)) w1 hoff
  · exact cellF_near R hs1 hs2 bx bY (sm _ (by positivity) (by norm_num at hτ ⊢; linarith)) w2 hoff

end

/-- Non-vacuity of C108: the demonstration message seen from (1/20, 1/20, 0) on a map of 10 cm cells; the middle beam (which
saw nothing within 10 m) ends in the middle of cell (100, 0), and that is the cell computed. -/
example : ∃ N, ∀ fuel, N ≤ fuel → ∃ c e, providerF rne rneSingle (roundedLibm rne) demoMsg 0 fuel = some c ∧
    endCached rne c (1 / 20) (1 / 20) 10 0 = some e ∧ worldToCellF rne (1 / 10) e = ⟨100, 0⟩ := by
  obtain ⟨N, h⟩ := beam_cells_rounded rne_nearest rneSingle_nearest (roundedLibm rne) (roundedLibm_accurate rne_nearest)
    (by norm_num) demoMsg false _ demoMsg_float demoMsg_spread (by norm_num [demoMsg]) (by norm_num [demoMsg])
    (by norm_num [demoMsg]) _ (demoMsg_accepted rne_nearest rneSingle_nearest)
  refine ⟨N, fun fuel hf => ?_⟩
  obtain ⟨c, h1, h2⟩ := h fuel hf (1 / 20) (1 / 20) 0 (1 / 10) (by norm_num [abs_le]) (by norm_num [abs_le]) (by norm_num)
    (by norm_num) (by norm_num)
  have hb : beams demoMsg false = [⟨some 1, -1 / 2, true⟩, ⟨some 10, 0, false⟩, ⟨some 3, 1 / 2, true⟩] := by
    norm_num [beams, demoMsg, pointSpec, List.zipIdx, List.filterMap_cons]
  rw [hb] at h2
  cases h2 with
  | cons _ h2 =>
    cases h2 with
    | cons h3 _ =>
      obtain ⟨⟨e, e1, -, e3⟩, -⟩ := h3.2.2 10 rfl
      refine ⟨c, e, h1, e1, ?_⟩
      have hend : beamEnd (1 / 20) (1 / 20) 0 10 0 = ⟨201 / 20, 1 / 20⟩ := by
        norm_num [beamEnd]
      have key : ∀ (n k : ℤ), (n : ℝ) / 20 = (2 * (n / 2 : ℤ) + 1 : ℝ) / 20 →
          10 * (5 * 2 ^ (-54 : ℤ) + 2 ^ (-25 : ℤ)) + 2 ^ (-32 : ℤ) + 2 ^ (-31 : ℤ) < |(n : ℝ) / 20 - k * (1 / 10)| := by
        intro n k hn
        have e : (n : ℝ) / 20 - k * (1 / 10) = ((2 * (n / 2) + 1 - 2 * k : ℤ) : ℝ) / 20 := by
          rw [hn]; push_cast; ring
        have hz : 1 ≤ |(2 * (n / 2) + 1 - 2 * k : ℤ)| := by
          exact Int.one_le_abs (by omega)
        have hz' : (1 : ℝ) ≤ |((2 * (n / 2) + 1 - 2 * k : ℤ) : ℝ)| := by
          rw [← Int.cast_abs]; exact_mod_cast hz
        rw [e, abs_div, abs_of_pos (by norm_num : (0 : ℝ) < 20), lt_div_iff₀ (by norm_num)]
        refine lt_of_lt_of_le ?_ hz'
        norm_num
      rw [e3 ?_, hend]
      · have f1 : ⌊(201 / 20 : ℝ) / (1 / 10)⌋ = 100 := by rw [Int.floor_eq_iff]; norm_num
        have f2 : ⌊(1 / 20 : ℝ) / (1 / 10)⌋ = 0 := by rw [Int.floor_eq_iff]; norm_num
        simp only [Grid.worldToCell, f1, f2]
      · rw [hend]
        intro k
        refine ⟨?_, ?_⟩
        · have := key 201 k (by norm_num)
          norm_num at this ⊢; exact this
        · have := key 1 k (by norm_num)
          norm_num at this ⊢; exact this

end Slam.Float
