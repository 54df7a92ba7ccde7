import Verif.ScanGen.Model
import Verif.Estimator.Classify
import Mathlib.Tactic.Linarith
import Mathlib.Tactic.Positivity
import Mathlib.Tactic.IntervalCases
import Mathlib.Tactic.NormNum

/-!
# C65: generated laser scans
-/

set_option autoImplicit false
set_option linter.unusedSectionVars false

namespace Slam.ScanGen
open Slam.Grid Slam.Line Slam.Estimator Slam.Sensor Slam.Poses

/-! ## Specification -/

/-- Where the robot is. -/
def here (pose : Pose ℝ) : Point ℝ := ⟨pose.x, pose.y⟩

/-- Where a beam at angle `a` to the robot's heading ends. -/
noncomputable def beamEnd (S : Scanner) (pose : Pose ℝ) (a : ℝ) : Point ℝ :=
  ⟨pose.x + S.maxDist * Real.cos (a + pose.theta), pose.y + S.maxDist * Real.sin (a + pose.theta)⟩

/-- `c` is the first cell on the way from `b` to `e` that is occupied (at least with probability `thr`). -/
def FirstHit (m : ℝ) (occ : Coord → ℝ) (thr : ℝ) (b e : Point ℝ) (c : Coord) : Prop :=
  thr ≤ occ c ∧ ∃ t, 0 ≤ t ∧ t ≤ 1 ∧ worldToCell m (along b e t) = c ∧
    ∀ u, 0 ≤ u → u < t → worldToCell m (along b e u) ≠ c → occ (worldToCell m (along b e u)) < thr

/-- The scan point `p`, seen from the robot, is the middle of the part of the beam's line that lies in the cell `c`, a part
in front of the robot. -/
def MiddleOf (m : ℝ) (pose : Pose ℝ) (e : Point ℝ) (c : Coord) (p : ScanPoint) : Prop :=
  ∃ t0 t1, 0 < t0 ∧ t0 < t1 ∧
    (∀ t, InCell (worldCellBounds m c) (along (here pose) e t) ↔ t0 ≤ t ∧ t ≤ t1) ∧
    p.moveRot pose.x pose.y pose.theta =
      ((along (here pose) e ((t0 + t1) / 2)).x, (along (here pose) e ((t0 + t1) / 2)).y)

/-- What a beam at angle `a` must add to the scan: nothing if it meets no occupied cell, otherwise one occupied point in
the first such cell. -/
def BeamSpec (S : Scanner) (m : ℝ) (occ : Coord → ℝ) (thr : ℝ) (pose : Pose ℝ) (a : ℝ) : Option ScanPoint → Prop
  | none => ∀ t, 0 ≤ t → t ≤ 1 → occ (worldToCell m (along (here pose) (beamEnd S pose a) t)) < thr
  | some p => p.angle = a ∧ p.occupied = true ∧
      ∃ c, FirstHit m occ thr (here pose) (beamEnd S pose a) c ∧ MiddleOf m pose (beamEnd S pose a) c p

/-! ## Chords -/

section
variable {K : Type} [Field K] [LinearOrder K] [IsStrictOrderedRing K] [FloorRing K]

/-- Strictly inside a convex combination of an interior point and a point of the cell. -/
theorem inside_mix (c : Bounds K) (r : Ray K) (s t u : K) (hs : Inside c (r.at s)) (ht : InCell c (r.at t))
    (hu : (s ≤ u ∧ u < t) ∨ (t < u ∧ u ≤ s)) : Inside c (r.at u) := by
  obtain ⟨a1, a2, a3, a4⟩ := hs
  obtain ⟨b1, b2, b3, b4⟩ := ht
  simp only [Ray.at] at *
  have key : ∀ (lo hi x d : K), lo < x + s * d → x + s * d < hi → lo ≤ x + t * d → x + t * d ≤ hi →
      lo < x + u * d ∧ x + u * d < hi := by
    intro lo hi x d h1 h2 h3 h4
    have e : (x + u * d) * (t - s) = (x + s * d) * (t - u) + (x + t * d) * (u - s) := by ring
    rcases hu with ⟨h5, h6⟩ | ⟨h5, h6⟩
    · have p1 : 0 < t - u := by linarith
      have p2 : 0 ≤ u - s := by linarith
      have p3 : 0 < t - s := by linarith
      have q1 := mul_lt_mul_of_pos_right h1 p1
      have q2 := mul_lt_mul_of_pos_right h2 p1
      have q3 := mul_le_mul_of_nonneg_right h3 p2
      have q4 := mul_le_mul_of_nonneg_right h4 p2
      constructor
      · by_contra hc
        push Not at hc
        have := mul_le_mul_of_nonneg_right hc p3.le
        nlinarith
      · by_contra hc
        push Not at hc
        have := mul_le_mul_of_nonneg_right hc p3.le
        nlinarith
    · have p1 : 0 < u - t := by linarith
      have p2 : 0 ≤ s - u := by linarith
      have p3 : 0 < s - t := by linarith
      have q1 := mul_lt_mul_of_pos_right h1 p1
      have q2 := mul_lt_mul_of_pos_right h2 p1
      have q3 := mul_le_mul_of_nonneg_right h3 p2
      have q4 := mul_le_mul_of_nonneg_right h4 p2
      constructor
      · by_contra hc
        push Not at hc
        have := mul_le_mul_of_nonneg_right hc p3.le
        nlinarith
      · by_contra hc
        push Not at hc
        have := mul_le_mul_of_nonneg_right hc p3.le
        nlinarith
  obtain ⟨x1, x2⟩ := key c.left c.right r.beg.x r.delta.x a1 a2 b1 b2
  obtain ⟨y1, y2⟩ := key c.bot c.top r.beg.y r.delta.y a3 a4 b3 b4
  exact ⟨x1, x2, y1, y2⟩

/-- A line through the interior of a cell meets the cell in a chord. -/
theorem chord (c : Bounds K) (r : Ray K) (hd : r.delta.x ≠ 0 ∨ r.delta.y ≠ 0) (s : K) (hs : Inside c (r.at s)) :
    ∃ t0 t1, t0 < s ∧ s < t1 ∧ OnBoundary c (r.at t0) ∧ OnBoundary c (r.at t1) ∧
      ∀ t, InCell c (r.at t) ↔ t0 ≤ t ∧ t ≤ t1 := by
  have sh : ∀ u, (⟨r.at s, r.delta⟩ : Ray K).at u = r.at (s + u) := by
    intro u; apply point_ext <;> simp only [Ray.at] <;> ring
  have sh' : ∀ u, (⟨r.at s, ⟨-r.delta.x, -r.delta.y⟩⟩ : Ray K).at u = r.at (s - u) := by
    intro u; apply point_ext <;> simp only [Ray.at] <;> ring
  obtain ⟨f, f0, fb, fi⟩ := exit c ⟨r.at s, r.delta⟩ hs hd
  obtain ⟨g, g0, gb, gi⟩ := exit c ⟨r.at s, ⟨-r.delta.x, -r.delta.y⟩⟩ hs (by simpa using hd)
  rw [sh] at fb
  rw [sh'] at gb
  refine ⟨s - g, s + f, by linarith, by linarith, gb, fb, ?_⟩
  intro t
  constructor
  · intro h
    constructor
    · by_contra hc
      push Not at hc
      exact gb.2 (inside_mix c r s t (s - g) hs h (Or.inr ⟨hc, by linarith⟩))
    · by_contra hc
      push Not at hc
      exact fb.2 (inside_mix c r s t (s + f) hs h (Or.inl ⟨by linarith, hc⟩))
  · rintro ⟨h1, h2⟩
    have cl : ∀ u, Inside c (r.at u) → InCell c (r.at u) := fun u h => ⟨h.1.le, h.2.1.le, h.2.2.1.le, h.2.2.2.le⟩
    rcases le_total s t with h | h
    · rcases lt_or_eq_of_le h2 with h3 | h3
      · have := fi (t - s) (by linarith) (by linarith)
        rw [sh] at this
        have e : s + (t - s) = t := by ring
        rw [e] at this; exact cl _ this
      · rw [h3]; exact fb.1
    · rcases lt_or_eq_of_le h1 with h3 | h3
      · have := gi (s - t) (by linarith) (by linarith)
        rw [sh'] at this
        have e : s - (s - t) = t := by ring
        rw [e] at this; exact cl _ this
      · rw [← h3]; exact gb.1

/-- The intersections found for a line through the interior are the ends of its chord. -/
theorem inters_of_chord (c : Bounds K) (hx : c.left < c.right) (hy : c.bot < c.top) (r : Ray K)
    (hd : r.delta.x ≠ 0 ∨ r.delta.y ≠ 0) (hoff : r.Off c) (t0 t1 : K) (h01 : t0 < t1) (h0 : OnBoundary c (r.at t0))
    (h1 : OnBoundary c (r.at t1)) :
    ∃ i j, rayInters exactCmp c r = some [i, j] ∧
      (i.pt = r.at t0 ∧ j.pt = r.at t1 ∨ i.pt = r.at t1 ∧ j.pt = r.at t0) := by
  obtain ⟨l, hl, hlen, hdist, -, hall⟩ := rayInters_spec c hx hy r
  obtain ⟨i, hi, ei⟩ := hall hd hoff t0 h0
  obtain ⟨j, hj, ej⟩ := hall hd hoff t1 h1
  have hne : i ≠ j := by
    intro h
    rw [h, ej] at ei
    exact h01.ne ((at_inj r hd _ _).1 ei).symm
  match l, hlen with
  | [], _ => simp at hi
  | [a], _ =>
    simp only [List.mem_singleton] at hi hj
    exact absurd (hi.trans hj.symm) hne
  | [a, b], _ =>
    simp only [List.mem_cons, List.not_mem_nil, or_false] at hi hj
    rcases hi with rfl | rfl <;> rcases hj with rfl | rfl
    · exact absurd rfl hne
    · exact ⟨_, _, hl, Or.inl ⟨ei, ej⟩⟩
    · exact ⟨_, _, hl, Or.inr ⟨ej, ei⟩⟩
    · exact absurd rfl hne
  | _ :: _ :: _ :: _, h => simp at h

/-- A line that starts off the grid lines and passes a cell elsewhere than at a grid corner meets its interior. -/
theorem meets_interior (m : K) (hm : 0 < m) (b e : Point K) (hgx : ∀ k : Int, b.x ≠ (k : K) * m)
    (hgy : ∀ k : Int, b.y ≠ (k : K) * m) (c : Coord) (t : K) (hc : worldToCell m (along b e t) = c)
    (hnc : ∀ i j : Int, along b e t ≠ ⟨(i : K) * m, (j : K) * m⟩) :
    ∃ s, Inside (worldCellBounds m c) (along b e s) := by
  rw [cell_iff m hm] at hc
  obtain ⟨⟨x1, x2⟩, y1, y2⟩ := hc
  set p := along b e t with hp
  have hmove : ∀ d, along b e (t + d) = ⟨p.x + d * (e.x - b.x), p.y + d * (e.y - b.y)⟩ := by
    intro d; rw [hp]; simp only [along]; congr 1 <;> ring
  -- a small step in a direction
  have small : ∀ (lo hi v w : K), lo < v → v < hi → ∃ δ, 0 < δ ∧ ∀ ε, |ε| ≤ δ → lo < v + ε * w ∧ v + ε * w < hi := by
    intro lo hi v w h1 h2
    refine ⟨min (v - lo) (hi - v) / (|w| + 1), ?_, ?_⟩
    · have : 0 < min (v - lo) (hi - v) := lt_min (by linarith) (by linarith)
      positivity
    · intro ε hε
      have hw : (0 : K) < |w| + 1 := by positivity
      rw [le_div_iff₀ hw] at hε
      have hb : |ε * w| ≤ |ε| * (|w| + 1) := by
        rw [abs_mul]
        exact mul_le_mul_of_nonneg_left (by linarith) (abs_nonneg _)
      have h3 : |ε * w| ≤ min (v - lo) (hi - v) := le_trans hb hε
      by_cases hz : ε * w = 0
      · rw [hz]; constructor <;> linarith
      · have hlt : |ε * w| < |ε| * (|w| + 1) := by
          rw [abs_mul]
          have : 0 < |ε| := abs_pos.2 (fun h => hz (by rw [h, zero_mul]))
          nlinarith
        have h4 := lt_of_lt_of_le hlt hε
        have h5 := (abs_lt.1 (lt_of_lt_of_le h4 (min_le_left _ _))).1
        have h6 := (abs_lt.1 (lt_of_lt_of_le h4 (min_le_right _ _))).2
        constructor <;> linarith
  -- leaving the lower side
  have side : ∀ (lo v w : K), v = lo → ∀ (ε' : K), 0 < ε' * w → |ε'| * (|w| + 1) ≤ m →
      lo < v + ε' * w ∧ v + ε' * w < lo + m := by
    intro lo v w
    intro hv ε' hp hle
    have hb : |ε' * w| < |ε'| * (|w| + 1) := by
      rw [abs_mul]
      have : 0 < |ε'| := abs_pos.2 (fun h => by rw [h, zero_mul] at hp; exact lt_irrefl _ hp)
      nlinarith
    have := (abs_lt.1 (lt_of_lt_of_le hb hle)).2
    constructor <;> linarith
  by_cases hx : p.x = (c.x : K) * m
  · -- on the left edge, so not on the bottom one
    have hy : (c.y : K) * m < p.y := by
      refine lt_of_le_of_ne y1 (fun h => hnc c.x c.y ?_)
      exact point_ext hx h.symm
    have hdx : e.x - b.x ≠ 0 := by
      intro h
      apply hgx c.x
      rw [← hx, hp]; simp only [along, h, mul_zero, add_zero]
    obtain ⟨δ, d0, dall⟩ := small _ _ p.y (e.y - b.y) hy y2
    have hs := side ((c.x : K) * m) p.x (e.x - b.x)
    have hw : (0 : K) < |e.x - b.x| + 1 := by positivity
    set η := min δ (m / (|e.x - b.x| + 1)) with hη
    have η0 : 0 < η := lt_min d0 (by positivity)
    set ε := (sgn (e.x - b.x) : K) * η with hε
    have eab : |ε| = η := by
      rw [hε, abs_mul, abs_of_pos η0]
      rcases sgn_cases (e.x - b.x) with ⟨h, -⟩ | ⟨h, -⟩ <;> rw [h] <;> simp
    have epos : 0 < ε * (e.x - b.x) := by
      have : ε * (e.x - b.x) = η * |e.x - b.x| := by rw [hε, ← sgn_mul]; ring
      rw [this]; exact mul_pos η0 (abs_pos.2 hdx)
    obtain ⟨q1, q2⟩ := hs hx ε epos (by
      rw [eab]; exact (le_div_iff₀ hw).1 (min_le_right _ _))
    obtain ⟨q3, q4⟩ := dall ε (by rw [eab]; exact min_le_left _ _)
    refine ⟨t + ε, ?_⟩
    rw [hmove]
    simp only [Inside, worldCellBounds]
    refine ⟨by linarith, by linarith, by linarith, by linarith⟩
  · have hx' : (c.x : K) * m < p.x := lt_of_le_of_ne x1 (fun h => hx h.symm)
    by_cases hy : p.y = (c.y : K) * m
    · have hdy : e.y - b.y ≠ 0 := by
        intro h
        apply hgy c.y
        rw [← hy, hp]; simp only [along, h, mul_zero, add_zero]
      obtain ⟨δ, d0, dall⟩ := small _ _ p.x (e.x - b.x) hx' x2
      have hs := side ((c.y : K) * m) p.y (e.y - b.y)
      have hw : (0 : K) < |e.y - b.y| + 1 := by positivity
      set η := min δ (m / (|e.y - b.y| + 1)) with hη
      have η0 : 0 < η := lt_min d0 (by positivity)
      set ε := (sgn (e.y - b.y) : K) * η with hε
      have eab : |ε| = η := by
        rw [hε, abs_mul, abs_of_pos η0]
        rcases sgn_cases (e.y - b.y) with ⟨h, -⟩ | ⟨h, -⟩ <;> rw [h] <;> simp
      have epos : 0 < ε * (e.y - b.y) := by
        have : ε * (e.y - b.y) = η * |e.y - b.y| := by rw [hε, ← sgn_mul]; ring
        rw [this]; exact mul_pos η0 (abs_pos.2 hdy)
      obtain ⟨q1, q2⟩ := hs hy ε epos (by
        rw [eab]; exact (le_div_iff₀ hw).1 (min_le_right _ _))
      obtain ⟨q3, q4⟩ := dall ε (by rw [eab]; exact min_le_left _ _)
      refine ⟨t + ε, ?_⟩
      rw [hmove]
      simp only [Inside, worldCellBounds]
      refine ⟨by linarith, by linarith, by linarith, by linarith⟩
    · have hy' : (c.y : K) * m < p.y := lt_of_le_of_ne y1 (fun h => hy h.symm)
      refine ⟨t, ?_⟩
      simp only [Inside, worldCellBounds]
      refine ⟨by linarith, by linarith, by linarith, by linarith⟩

/-- A robot that is not on the lower edges of its cell is on no grid line. -/
theorem off_grid (m : K) (hm : 0 < m) (b : Point K) :
    (b.x ≠ ((worldToCell m b).x : K) * m → ∀ k : Int, b.x ≠ (k : K) * m) ∧
    (b.y ≠ ((worldToCell m b).y : K) * m → ∀ k : Int, b.y ≠ (k : K) * m) := by
  constructor <;> intro h k hk <;> apply h <;> simp only [worldToCell] <;> rw [hk] <;>
    rw [mul_div_cancel_right₀ _ hm.ne', Int.floor_intCast]

end

/-! ## One beam -/

theorem along_eq_at (S : Scanner) (pose : Pose ℝ) (a t : ℝ) :
    along (here pose) (beamEnd S pose a) t = (⟨⟨pose.x, pose.y⟩, beamDir S pose a⟩ : Ray ℝ).at t := by
  apply point_ext <;> simp [along, here, beamEnd, beamDir, Ray.at]

theorem dir_ne (S : Scanner) (hS : 0 < S.maxDist) (pose : Pose ℝ) (a : ℝ) :
    (beamDir S pose a).x ≠ 0 ∨ (beamDir S pose a).y ≠ 0 := by
  by_contra h
  push Not at h
  obtain ⟨h1, h2⟩ := h
  simp only [beamDir, mul_eq_zero, hS.ne', false_or] at h1 h2
  have := Real.sin_sq_add_cos_sq (a + pose.theta)
  rw [h1, h2] at this
  norm_num at this

theorem inside_cell (m : ℝ) (hm : 0 < m) (c : Coord) (p : Point ℝ) (h : Inside (worldCellBounds m c) p) :
    worldToCell m p = c := by
  rw [cell_iff m hm]
  obtain ⟨h1, h2, h3, h4⟩ := h
  simp only [worldCellBounds] at h1 h2 h3 h4
  refine ⟨⟨by linarith, by linarith⟩, by linarith, by linarith⟩

/-- A closed cell that contains a point of the interior of another cell is that cell. -/
theorem closed_of_inside (m : ℝ) (hm : 0 < m) (c d : Coord) (p : Point ℝ) (h : InCell (worldCellBounds m c) p)
    (h' : Inside (worldCellBounds m d) p) : c = d := by
  obtain ⟨a1, a2, a3, a4⟩ := h
  obtain ⟨b1, b2, b3, b4⟩ := h'
  simp only [worldCellBounds] at *
  have key : ∀ (i j : Int) (v : ℝ), m * (i : ℝ) ≤ v → v ≤ m * ((i : ℝ) + 1) → m * (j : ℝ) < v → v < m * ((j : ℝ) + 1) →
      i = j := by
    intro i j v h1 h2 h3 h4
    have e1 : (i : ℝ) < (j : ℝ) + 1 := lt_of_mul_lt_mul_left (lt_of_le_of_lt h1 h4) hm.le
    have e2 : (j : ℝ) < (i : ℝ) + 1 := lt_of_mul_lt_mul_left (lt_of_lt_of_le h3 h2) hm.le
    have e1' : i < j + 1 := by exact_mod_cast e1
    have e2' : j < i + 1 := by exact_mod_cast e2
    omega
  obtain ⟨cx, cy⟩ := c
  obtain ⟨dx, dy⟩ := d
  simp only at *
  rw [key cx dx p.x a1 a2 b1 b2, key cy dy p.y a3 a4 b3 b4]

theorem robot_inside (m : ℝ) (hm : 0 < m) (b : Point ℝ) (hgx : ∀ k : Int, b.x ≠ (k : ℝ) * m)
    (hgy : ∀ k : Int, b.y ≠ (k : ℝ) * m) : Inside (worldCellBounds m (worldToCell m b)) b := by
  obtain ⟨⟨h1, h2⟩, h3, h4⟩ := (cell_iff m hm b _).1 rfl
  have n1 := hgx (worldToCell m b).x
  have n2 := hgy (worldToCell m b).y
  have h1' := lt_of_le_of_ne h1 (Ne.symm n1)
  have h3' := lt_of_le_of_ne h3 (Ne.symm n2)
  simp only [Inside, worldCellBounds]
  refine ⟨by linarith, by linarith, by linarith, by linarith⟩

/-- The first occupied cell of a beam yields the middle of its chord. -/
theorem cast_hit (m : ℝ) (hm : 0 < m) (occ : Coord → ℝ) (thr : ℝ) (S : Scanner) (hS : 0 < S.maxDist) (pose : Pose ℝ)
    (a : ℝ) (hgx : ∀ k : Int, pose.x ≠ (k : ℝ) * m) (hgy : ∀ k : Int, pose.y ≠ (k : ℝ) * m) (c : Coord)
    (hown : c ≠ worldToCell m (here pose)) (t : ℝ) (ht : 0 ≤ t)
    (hc : worldToCell m (along (here pose) (beamEnd S pose a) t) = c)
    (hnc : ∀ i j : Int, along (here pose) (beamEnd S pose a) t ≠ ⟨(i : ℝ) * m, (j : ℝ) * m⟩) (hocc : thr ≤ occ c)
    (cs : List Coord) :
    ∃ p, cast exactCmp m occ thr pose (beamDir S pose a) a (c :: cs) = some (some p) ∧ p.angle = a ∧
      p.occupied = true ∧ MiddleOf m pose (beamEnd S pose a) c p := by
  obtain ⟨s, hs⟩ := meets_interior m hm (here pose) (beamEnd S pose a) hgx hgy c t hc hnc
  set r : Ray ℝ := ⟨⟨pose.x, pose.y⟩, beamDir S pose a⟩ with hr
  have hat : ∀ u, along (here pose) (beamEnd S pose a) u = r.at u := along_eq_at S pose a
  have hd : r.delta.x ≠ 0 ∨ r.delta.y ≠ 0 := dir_ne S hS pose a
  rw [hat] at hs
  obtain ⟨t0, t1, h0s, hs1, hb0, hb1, hch⟩ := chord (worldCellBounds m c) r hd s hs
  have hmx : (worldCellBounds m c).left < (worldCellBounds m c).right := by
    simp only [worldCellBounds]; linarith
  have hmy : (worldCellBounds m c).bot < (worldCellBounds m c).top := by
    simp only [worldCellBounds]; linarith
  have hoff : r.Off (worldCellBounds m c) := by
    constructor <;> intro _ <;> constructor <;> simp only [hr, worldCellBounds]
    · rw [mul_comm]; exact hgy c.y
    · have := hgy (c.y + 1); push_cast at this; rwa [mul_comm] at this
    · rw [mul_comm]; exact hgx c.x
    · have := hgx (c.x + 1); push_cast at this; rwa [mul_comm] at this
  obtain ⟨i, j, hij, hpts⟩ := inters_of_chord _ hmx hmy r hd hoff t0 t1 (by linarith) hb0 hb1
  -- the chord is in front of the robot
  have hpos : 0 < t0 := by
    by_contra hle
    push Not at hle
    have htin : InCell (worldCellBounds m c) (r.at t) := by
      rw [hat] at hc
      obtain ⟨⟨x1, x2⟩, y1, y2⟩ := (cell_iff m hm _ _).1 hc
      simp only [InCell, worldCellBounds]
      refine ⟨by linarith, by linarith, by linarith, by linarith⟩
    have h0in := (hch 0).2 ⟨hle, le_trans ht ((hch t).1 htin).2⟩
    have : r.at 0 = here pose := by apply point_ext <;> simp [Ray.at, hr, here]
    rw [this] at h0in
    exact hown (closed_of_inside m hm c _ _ h0in (robot_inside m hm (here pose) hgx hgy))
  set tm := (t0 + t1) / 2 with htm
  have htm0 : 0 < tm := by rw [htm]; linarith
  have hmid : Inside (worldCellBounds m c) (r.at tm) :=
    midpoint_inside _ r hoff t0 t1 (by linarith) ((hch t0).2 ⟨le_refl _, by linarith⟩) ((hch t1).2 ⟨by linarith, le_refl _⟩)
  have hobst : (⟨(i.pt.x + j.pt.x) / 2, (i.pt.y + j.pt.y) / 2⟩ : Point ℝ) = r.at tm := by
    rcases hpts with ⟨e1, e2⟩ | ⟨e1, e2⟩ <;> rw [e1, e2] <;> apply point_ext <;> simp only [Ray.at, htm] <;> ring
  have hrange : Real.sqrt ((pose.x - (r.at tm).x) ^ 2 + (pose.y - (r.at tm).y) ^ 2) = tm * S.maxDist := by
    have : (pose.x - (r.at tm).x) ^ 2 + (pose.y - (r.at tm).y) ^ 2 = (tm * S.maxDist) ^ 2 := by
      simp only [Ray.at, hr, beamDir]
      have := Real.sin_sq_add_cos_sq (a + pose.theta)
      linear_combination (tm * S.maxDist) ^ 2 * this
    rw [this, Real.sqrt_sq (by positivity)]
  have hwp : (ScanPoint.polar (tm * S.maxDist) a true 1).moveRot pose.x pose.y pose.theta = ((r.at tm).x, (r.at tm).y) := by
    simp only [ScanPoint.moveRot, ScanPoint.range, ScanPoint.angle, ScanPoint.x, ScanPoint.y, Ray.at, hr, beamDir]
    congr 1 <;> ring
  refine ⟨.polar (tm * S.maxDist) a true 1, ?_, rfl, rfl, t0, t1, hpos, by linarith, ?_, ?_⟩
  · rw [cast, if_neg (not_lt.2 hocc), hij]
    simp only [Option.bind_some, List.length_cons, List.length_nil]
    rw [if_neg (by norm_num)]
    have ox : (i.pt.x + j.pt.x) / 2 = (r.at tm).x := by rw [← hobst]
    have oy : (i.pt.y + j.pt.y) / 2 = (r.at tm).y := by rw [← hobst]
    simp only [ox, oy, hrange, hwp]
    rw [if_pos (inside_cell m hm c _ hmid).symm]
  · intro u; rw [hat]; exact hch u
  · rw [hat]; exact hwp

/-- The loop over the cells of a beam. -/
theorem cast_list (m : ℝ) (hm : 0 < m) (occ : Coord → ℝ) (thr : ℝ) (S : Scanner) (hS : 0 < S.maxDist) (pose : Pose ℝ)
    (a : ℝ) (hgx : ∀ k : Int, pose.x ≠ (k : ℝ) * m) (hgy : ∀ k : Int, pose.y ≠ (k : ℝ) * m)
    (hfree : occ (worldToCell m (here pose)) < thr) (hnc : ¬ HitsCorner m (here pose) (beamEnd S pose a))
    (cells : List Coord) (hp : ∀ c ∈ cells, Passes m (here pose) (beamEnd S pose a) c) :
    ∃ o, cast exactCmp m occ thr pose (beamDir S pose a) a cells = some o ∧
      (o = none → ∀ c ∈ cells, occ c < thr) ∧
      (∀ p, o = some p → p.angle = a ∧ p.occupied = true ∧ ∃ pre c post, cells = pre ++ c :: post ∧
        (∀ d ∈ pre, occ d < thr) ∧ thr ≤ occ c ∧ MiddleOf m pose (beamEnd S pose a) c p) := by
  induction cells with
  | nil => exact ⟨none, rfl, by simp, by simp⟩
  | cons c cs ih =>
    by_cases hc : occ c < thr
    · obtain ⟨o, h1, h2, h3⟩ := ih fun d hd => hp d (by simp [hd])
      refine ⟨o, ?_, ?_, ?_⟩
      · rw [cast, if_pos hc, h1]
      · intro ho d hd
        rcases List.mem_cons.1 hd with rfl | hd
        · exact hc
        · exact h2 ho d hd
      · intro p hpo
        obtain ⟨a1, a2, pre, d, post, e, f, g⟩ := h3 p hpo
        refine ⟨a1, a2, c :: pre, d, post, by rw [e]; rfl, ?_, g⟩
        intro x hx
        rcases List.mem_cons.1 hx with rfl | hx
        · exact hc
        · exact f x hx
    · push Not at hc
      obtain ⟨t, t0, t1, ht⟩ := hp c (by simp)
      have hown : c ≠ worldToCell m (here pose) := by
        rintro rfl; exact absurd hfree (not_lt.2 hc)
      obtain ⟨p, h1, h2, h3, h4⟩ := cast_hit m hm occ thr S hS pose a hgx hgy c hown t t0 ht
        (fun i j e => hnc ⟨i, j, t, t0, t1, e⟩) hc cs
      refine ⟨some p, h1, by simp, ?_⟩
      intro q hq
      cases hq
      exact ⟨h2, h3, [], c, cs, rfl, by simp, hc, h4⟩

theorem beam_correct (ok : Int → Bool) (m : ℝ) (hm : 0 < m) (occ : Coord → ℝ) (thr : ℝ) (S : Scanner)
    (hS : 0 < S.maxDist) (pose : Pose ℝ)
    (a : ℝ) (hgx : ∀ k : Int, pose.x ≠ (k : ℝ) * m) (hgy : ∀ k : Int, pose.y ≠ (k : ℝ) * m)
    (hfree : occ (worldToCell m (here pose)) < thr) (hnc : ¬ HitsCorner m (here pose) (beamEnd S pose a))
    (fuel : Nat) (hf : fuelFor (worldToCell m (here pose)) (worldToCell m (beamEnd S pose a)) ≤ fuel) :
    ∃ o, castBeam exactCmp ok fuel S m occ thr pose a = some o ∧ BeamSpec S m occ thr pose a o := by
  obtain ⟨cells, hcells, hrun⟩ := world_to_cells_exact ok m hm (here pose) (beamEnd S pose a) hnc fuel hf
  obtain ⟨o, h1, h2, h3⟩ := cast_list m hm occ thr S hS pose a hgx hgy hfree hnc cells fun c hc => (hrun.exact c).1 hc
  refine ⟨o, ?_, ?_⟩
  · unfold castBeam
    have : worldToCells ok (exactFP m fun d => (exactCmp : Cmp ℝ).eq d 0) fuel m pose.x pose.y
        (pose.x + (beamDir S pose a).x) (pose.y + (beamDir S pose a).y) = some cells := hcells
    simp only [this, Option.bind_some, h1]
  · cases o with
    | none =>
      intro t t0 t1
      exact h2 rfl _ ((hrun.exact _).2 ⟨t, t0, t1, rfl⟩)
    | some p =>
      obtain ⟨a1, a2, pre, c, post, e, f, g, hmo⟩ := h3 p rfl
      refine ⟨a1, a2, c, ⟨g, ?_⟩, hmo⟩
      obtain ⟨ts, hts, hr, ets⟩ := hrun.order
      rw [e] at ets
      obtain ⟨ts1, ts2, ets2, ep1, ep2⟩ := List.map_eq_append_iff.1 ets.symm
      obtain ⟨tc, ts3, rfl, ec, ep3⟩ := List.map_eq_cons_iff.1 ep2
      subst ets2
      refine ⟨tc, (hr tc (by simp)).1, (hr tc (by simp)).2, ec, ?_⟩
      intro u u0 ut hne
      have hu1 : u ≤ 1 := le_trans ut.le (hr tc (by simp)).2
      have hmem := (hrun.exact _).2 ⟨u, u0, hu1, rfl⟩
      rw [e] at hmem
      rcases List.mem_append.1 hmem with hm1 | hm1
      · exact f _ hm1
      · rcases List.mem_cons.1 hm1 with hm1 | hm1
        · exact absurd hm1 hne
        · -- a later cell can not come earlier
          rw [← ep3] at hm1
          obtain ⟨t', ht', e'⟩ := List.mem_map.1 hm1
          have hlt : tc < t' := by
            rw [List.pairwise_append] at hts
            exact (List.pairwise_cons.1 hts.2.1).1 t' ht'
          exfalso
          apply hne
          set d := worldToCell m (along (here pose) (beamEnd S pose a) u) with hd
          have q1 := (cell_in1 m hm _ _ u d).1 hd.symm
          have q2 := (cell_in1 m hm _ _ t' d).1 e'
          have := (cell_in1 m hm _ _ tc d).2 ⟨in1_convex m d.x _ _ u t' tc q1.1 q2.1 ut.le hlt.le,
            in1_convex m d.y _ _ u t' tc q1.2 q2.2 ut.le hlt.le⟩
          rw [← this, ec]

/-! ## All beams -/

/-- The number of beams of a scanner. -/
theorem beams_number (h inc : ℝ) (hinc : 0 < inc) :
    ∃ n : Nat, ∀ k : Nat, k < n ↔ -h + (k : ℝ) * inc ≤ h ∧ (k : ℝ) * inc < 2 * Real.pi := by
  classical
  have hex : ∃ k : Nat, ¬ (-h + (k : ℝ) * inc ≤ h ∧ (k : ℝ) * inc < 2 * Real.pi) := by
    obtain ⟨k, hk⟩ := exists_nat_gt ((2 * Real.pi) / inc)
    refine ⟨k, fun hh => ?_⟩
    rw [div_lt_iff₀ hinc] at hk
    linarith [hh.2]
  refine ⟨Nat.find hex, fun k => ⟨fun hk => not_not.1 (Nat.find_min hex hk), fun hk => ?_⟩⟩
  by_contra hle'
  have hle := not_lt.1 hle'
  apply Nat.find_spec hex
  have : ((Nat.find hex : Nat) : ℝ) * inc ≤ (k : ℝ) * inc :=
    mul_le_mul_of_nonneg_right ((Nat.cast_le (α := ℝ)).2 hle) hinc.le
  exact ⟨by linarith [hk.1], by linarith [hk.2]⟩

theorem angles_from (h inc : ℝ) (n : Nat)
    (hn : ∀ k : Nat, k < n ↔ -h + (k : ℝ) * inc ≤ h ∧ (k : ℝ) * inc < 2 * Real.pi) (j : Nat) :
    ∀ (i fuel : Nat), i + j = n → j < fuel →
      angles h inc fuel (-h + (i : ℝ) * inc) = some ((List.range' i j).map fun (k : Nat) => -h + (k : ℝ) * inc) := by
  induction j with
  | zero =>
    intro i fuel hi hf
    obtain ⟨f, rfl⟩ : ∃ f, fuel = f + 1 := ⟨fuel - 1, by omega⟩
    rw [angles]
    have hno : ¬ (-h + (i : ℝ) * inc ≤ h ∧ (i : ℝ) * inc < 2 * Real.pi) := fun hh => by
      have := (hn i).2 hh; omega
    by_cases h1 : -h + (i : ℝ) * inc ≤ h
    · rw [if_pos h1, if_pos]
      · rfl
      · by_contra h2
        push Not at h2
        exact hno ⟨h1, by linarith⟩
    · rw [if_neg h1]; rfl
  | succ j ih =>
    intro i fuel hi hf
    obtain ⟨f, rfl⟩ : ∃ f, fuel = f + 1 := ⟨fuel - 1, by omega⟩
    obtain ⟨h1, h2⟩ := (hn i).1 (by omega)
    rw [angles, if_pos h1, if_neg (by push Not; linarith)]
    have := ih (i + 1) f (by omega) (by omega)
    have e : -h + (i : ℝ) * inc + inc = -h + ((i + 1 : Nat) : ℝ) * inc := by push_cast; ring
    rw [e, this]
    simp [List.range'_succ]

theorem castAll_correct (ok : Int → Bool) (m : ℝ) (occ : Coord → ℝ) (thr : ℝ) (S : Scanner) (pose : Pose ℝ)
    (ang : Nat → ℝ) (ks : List Nat)
    (hb : ∀ k ∈ ks, ∃ N, ∀ fuel, N ≤ fuel → ∃ o, castBeam exactCmp ok fuel S m occ thr pose (ang k) = some o ∧
      BeamSpec S m occ thr pose (ang k) o) :
    ∃ N, ∀ fuel, N ≤ fuel → ∃ o : Nat → Option ScanPoint,
      castAll exactCmp ok fuel S m occ thr pose (ks.map ang) = some (ks.filterMap o) ∧
      ∀ k ∈ ks, BeamSpec S m occ thr pose (ang k) (o k) := by
  have hb' : ∃ N, ∀ fuel, N ≤ fuel → ∀ k ∈ ks, ∃ o, castBeam exactCmp ok fuel S m occ thr pose (ang k) = some o ∧
      BeamSpec S m occ thr pose (ang k) o := by
    induction ks with
    | nil => exact ⟨0, by simp⟩
    | cons k ks ih =>
      obtain ⟨N1, h1⟩ := hb k (by simp)
      obtain ⟨N2, h2⟩ := ih fun j hj => hb j (by simp [hj])
      refine ⟨max N1 N2, fun fuel hf j hj => ?_⟩
      rcases List.mem_cons.1 hj with rfl | hj
      · exact h1 fuel (le_trans (le_max_left _ _) hf)
      · exact h2 fuel (le_trans (le_max_right _ _) hf) j hj
  obtain ⟨N, hN⟩ := hb'
  refine ⟨N, fun fuel hf => ⟨fun k => (castBeam exactCmp ok fuel S m occ thr pose (ang k)).getD none, ?_, ?_⟩⟩
  · have hk := hN fuel hf
    clear hN hb hf
    induction ks with
    | nil => rfl
    | cons k ks ih =>
      obtain ⟨o, h1, -⟩ := hk k (by simp)
      rw [List.map_cons, castAll, h1, Option.bind_some, ih fun j hj => hk j (by simp [hj]), Option.map_some,
        List.filterMap_cons]
      simp only [h1, Option.getD_some]
      cases o <;> rfl
  · intro k hk
    obtain ⟨o, h1, h2⟩ := hN fuel hf k hk
    simp only [h1, Option.getD_some]
    exact h2

/-- C65: a robot off the grid lines in a free cell, none of whose beams meets a grid corner: the generator ends, no
assertion fails, and the scan consists, in the order of the beams (`-hsector`, `-hsector + inc`, … up to `hsector`,
less than one full turn), of what every beam has to add. -/
theorem generated_scan (ok : Int → Bool) (m : ℝ) (hm : 0 < m) (occ : Coord → ℝ) (thr : ℝ) (S : Scanner)
    (hS : 0 < S.maxDist) (hinc : 0 < S.angleInc) (pose : Pose ℝ)
    (hgx : ∀ k : Int, pose.x ≠ (k : ℝ) * m) (hgy : ∀ k : Int, pose.y ≠ (k : ℝ) * m)
    (hfree : occ (worldToCell m (here pose)) < thr)
    (hnc : ∀ k : Nat, -S.hsector + (k : ℝ) * S.angleInc ≤ S.hsector → (k : ℝ) * S.angleInc < 2 * Real.pi →
      ¬ HitsCorner m (here pose) (beamEnd S pose (-S.hsector + (k : ℝ) * S.angleInc))) :
    ∃ N, ∀ fuel, N ≤ fuel → ∃ (n : Nat) (o : Nat → Option ScanPoint),
      (∀ k : Nat, k < n ↔ -S.hsector + (k : ℝ) * S.angleInc ≤ S.hsector ∧ (k : ℝ) * S.angleInc < 2 * Real.pi) ∧
      laserScan exactCmp ok fuel S m occ pose thr = some ((List.range n).filterMap o) ∧
      ∀ k < n, BeamSpec S m occ thr pose (-S.hsector + (k : ℝ) * S.angleInc) (o k) := by
  obtain ⟨n, hn⟩ := beams_number S.hsector S.angleInc hinc
  obtain ⟨N, hN⟩ := castAll_correct ok m occ thr S pose (fun (k : Nat) => -S.hsector + (k : ℝ) * S.angleInc) (List.range n)
    fun k hk => ⟨_, fun fuel hf => beam_correct ok m hm occ thr S hS pose _ hgx hgy hfree
      (hnc k ((hn k).1 (List.mem_range.1 hk)).1 ((hn k).1 (List.mem_range.1 hk)).2) fuel hf⟩
  refine ⟨max N (n + 1), fun fuel hf => ?_⟩
  obtain ⟨o, h1, h2⟩ := hN fuel (le_trans (le_max_left _ _) hf)
  refine ⟨n, o, hn, ?_, fun k hk => h2 k (List.mem_range.2 hk)⟩
  have ha := angles_from S.hsector S.angleInc n hn n 0 fuel (by omega) (by
    have := le_trans (le_max_right _ _) hf; omega)
  rw [Nat.cast_zero, zero_mul, add_zero, ← List.range_eq_range'] at ha
  unfold laserScan
  simp only [ha, Option.bind_some, h1]
  rw [if_pos]
  simp only [exactCmp, Bool.and_eq_true, Bool.not_eq_true', decide_eq_false_iff_not]
  exact ⟨hgx _, hgy _⟩

/-- C65, for every input: every point of a scan that is generated at all lies, seen from the robot's pose, in an
occupied cell. -/
theorem generated_points_hit (C : Cmp ℝ) (ok : Int → Bool) (fuel : Nat) (S : Scanner) (m : ℝ) (occ : Coord → ℝ)
    (pose : Pose ℝ) (thr : ℝ) (ps : List ScanPoint) (h : laserScan C ok fuel S m occ pose thr = some ps) :
    ∀ p ∈ ps, thr ≤ occ (worldToCell m ⟨(p.moveRot pose.x pose.y pose.theta).1,
      (p.moveRot pose.x pose.y pose.theta).2⟩) := by
  have hcast : ∀ (dir : Point ℝ) (a : ℝ) (cs : List Coord) (p : ScanPoint),
      cast C m occ thr pose dir a cs = some (some p) →
        thr ≤ occ (worldToCell m ⟨(p.moveRot pose.x pose.y pose.theta).1, (p.moveRot pose.x pose.y pose.theta).2⟩) := by
    intro dir a cs
    induction cs with
    | nil => intro p hp; simp [cast] at hp
    | cons c cs ih =>
      intro p hp
      rw [cast] at hp
      by_cases hc : occ c < thr
      · rw [if_pos hc] at hp; exact ih p hp
      · rw [if_neg hc, Option.bind_eq_some_iff] at hp
        obtain ⟨l, -, hp⟩ := hp
        by_cases hl : l.length = 1
        · rw [if_pos hl] at hp; exact ih p hp
        · rw [if_neg hl] at hp
          match l, hp with
          | [i, j], hp =>
            simp only at hp
            split at hp
            · rename_i he
              cases hp
              rw [← he]; exact not_lt.1 hc
            · cases hp
  unfold laserScan at h
  simp only at h
  split at h
  · rw [Option.bind_eq_some_iff] at h
    obtain ⟨as, -, h⟩ := h
    induction as generalizing ps with
    | nil => cases h; simp
    | cons a as ih =>
      rw [castAll, Option.bind_eq_some_iff] at h
      obtain ⟨o, ho, h⟩ := h
      rw [Option.map_eq_some_iff] at h
      obtain ⟨qs, hqs, rfl⟩ := h
      intro p hp
      rcases List.mem_append.1 hp with hp | hp
      · rw [Option.mem_toList] at hp
        cases hp
        unfold castBeam at ho
        simp only [Option.bind_eq_some_iff] at ho
        obtain ⟨ids, -, ho⟩ := ho
        exact hcast _ _ _ p ho
      · exact ih qs hqs p hp
  · cases h

/-- C65: a scanner made by `to_lsp` for `ptsNm` points has that many beams if it sees all around, and one more if its field
of view is smaller. -/
theorem beams_of_to_lsp (maxDist fow : ℝ) (ptsNm : Nat) (hp : 0 < ptsNm) (hf : 0 < fow) (hf' : fow ≤ 360) (k : Nat) :
    (-(toLsp maxDist fow ptsNm).hsector + (k : ℝ) * (toLsp maxDist fow ptsNm).angleInc ≤ (toLsp maxDist fow ptsNm).hsector ∧
      (k : ℝ) * (toLsp maxDist fow ptsNm).angleInc < 2 * Real.pi) ↔ k < if fow = 360 then ptsNm else ptsNm + 1 := by
  have hpi := Real.pi_pos
  have hn : (0 : ℝ) < (ptsNm : ℝ) := by exact_mod_cast hp
  have e : (k : ℝ) * (fow / (ptsNm : ℝ) * Real.pi / 180) = ((k : ℝ) / (ptsNm : ℝ)) * (fow * Real.pi / 180) := by ring
  have hq : 0 < fow * Real.pi / 180 := by positivity
  simp only [toLsp, e]
  have h1 : -(fow / 2 * Real.pi / 180) + (k : ℝ) / (ptsNm : ℝ) * (fow * Real.pi / 180) ≤ fow / 2 * Real.pi / 180 ↔
      k ≤ ptsNm := by
    have : -(fow / 2 * Real.pi / 180) + (k : ℝ) / (ptsNm : ℝ) * (fow * Real.pi / 180) ≤ fow / 2 * Real.pi / 180 ↔
        (k : ℝ) / (ptsNm : ℝ) * (fow * Real.pi / 180) ≤ 1 * (fow * Real.pi / 180) := by
      constructor <;> intro h <;> linarith
    rw [this, mul_le_mul_iff_left₀ hq, div_le_one hn]
    exact_mod_cast Iff.rfl
  rw [h1]
  by_cases h360 : fow = 360
  · rw [if_pos h360, h360]
    have : (k : ℝ) / (ptsNm : ℝ) * (360 * Real.pi / 180) < 2 * Real.pi ↔ k < ptsNm := by
      have e2 : (k : ℝ) / (ptsNm : ℝ) * (360 * Real.pi / 180) < 2 * Real.pi ↔
          (k : ℝ) / (ptsNm : ℝ) * (2 * Real.pi) < 1 * (2 * Real.pi) := by
        constructor <;> intro h <;> linarith
      rw [e2, mul_lt_mul_iff_left₀ (by positivity), div_lt_one hn]
      exact_mod_cast Iff.rfl
    rw [this]
    omega
  · rw [if_neg h360]
    have hlt : fow < 360 := lt_of_le_of_ne hf' h360
    constructor
    · rintro ⟨h, -⟩; omega
    · intro h
      refine ⟨by omega, ?_⟩
      have hk : (k : ℝ) / (ptsNm : ℝ) ≤ 1 := by
        rw [div_le_one hn]; exact_mod_cast (by omega : k ≤ ptsNm)
      have := mul_le_mul_of_nonneg_right hk hq.le
      have h3 : fow * Real.pi < 360 * Real.pi := mul_lt_mul_of_pos_right hlt hpi
      linarith

/-- Non-vacuity: the default scanner (laser_scan_generator.h:16-17; four beams, a quarter turn apart, 15 m) in the middle of a free
cell of a unit grid. -/
example (occ : Coord → ℝ) (hfree : occ ⟨0, 0⟩ < 1) :
    let S : Scanner := ⟨15, Real.pi / 2, Real.pi⟩
    let pose : Pose ℝ := ⟨1 / 2, 1 / 2, 0⟩
    (∀ k : Int, pose.x ≠ (k : ℝ) * 1) ∧ (∀ k : Int, pose.y ≠ (k : ℝ) * 1) ∧ occ (worldToCell 1 (here pose)) < 1 ∧
    (∀ k : Nat, -S.hsector + (k : ℝ) * S.angleInc ≤ S.hsector → (k : ℝ) * S.angleInc < 2 * Real.pi →
      ¬ HitsCorner 1 (here pose) (beamEnd S pose (-S.hsector + (k : ℝ) * S.angleInc))) := by
  intro S pose
  have half : ∀ k : Int, (1 / 2 : ℝ) ≠ (k : ℝ) * 1 := by
    intro k h
    have h2 : (2 * k : Int) = 1 := by
      have : (2 : ℝ) * (k : ℝ) = 1 := by linarith
      exact_mod_cast this
    omega
  have hcell : worldToCell 1 (here pose) = ⟨0, 0⟩ := by
    rw [cell_iff 1 one_pos]; simp only [here, pose]; norm_num
  refine ⟨half, half, by rw [hcell]; exact hfree, ?_⟩
  intro k _ hk
  have hpi := Real.pi_pos
  have hk4 : k < 4 := by
    have h1 : (k : ℝ) * (Real.pi / 2) < 4 * (Real.pi / 2) := by simp only [S] at hk; linarith
    have h2 : (k : ℝ) < 4 := lt_of_mul_lt_mul_right h1 (by positivity)
    exact_mod_cast h2
  rintro ⟨i, j, t, -, -, h⟩
  simp only [along, here, beamEnd, S, pose, Point.mk.injEq] at h
  obtain ⟨hx, hy⟩ := h
  interval_cases k
  · have e : -Real.pi + ((0 : Nat) : ℝ) * (Real.pi / 2) + 0 = -Real.pi := by push_cast; ring
    rw [e, Real.sin_neg, Real.sin_pi] at hy
    exact half j (by linarith)
  · have e : -Real.pi + ((1 : Nat) : ℝ) * (Real.pi / 2) + 0 = -(Real.pi / 2) := by push_cast; ring
    rw [e, Real.cos_neg, Real.cos_pi_div_two] at hx
    exact half i (by linarith)
  · have e : -Real.pi + ((2 : Nat) : ℝ) * (Real.pi / 2) + 0 = 0 := by push_cast; ring
    rw [e, Real.sin_zero] at hy
    exact half j (by linarith)
  · have e : -Real.pi + ((3 : Nat) : ℝ) * (Real.pi / 2) + 0 = Real.pi / 2 := by push_cast; ring
    rw [e, Real.cos_pi_div_two] at hx
    exact half i (by linarith)

/-- The free cell is needed: a robot in an occupied cell, closer to the side it looks at. The middle of the cell is behind
it, the generator reports its distance as if it were ahead, and its own assertion fails. -/
theorem occupied_cell_counterexample :
    ∃ N, ∀ fuel, N ≤ fuel →
      laserScan exactCmp (fun _ => true) fuel ⟨2, 1, 0⟩ 1 (fun _ => 1) ⟨9 / 10, 1 / 2, 0⟩ 1 = none := by
  obtain ⟨n, hn⟩ := beams_number 0 1 one_pos
  have hn1 : n = 1 := by
    have h0 : 0 < n := (hn 0).2 ⟨by norm_num, by have := Real.pi_pos; push_cast; linarith⟩
    have h1 : ¬ 1 < n := fun h => by have := ((hn 1).1 h).1; norm_num at this
    omega
  subst hn1
  have hc0 : worldToCell (1 : ℝ) ⟨9 / 10, 1 / 2⟩ = ⟨0, 0⟩ := by
    rw [cell_iff 1 one_pos]; norm_num
  have hc1 : worldToCell (1 : ℝ) ⟨29 / 10, 1 / 2⟩ = ⟨2, 0⟩ := by
    rw [cell_iff 1 one_pos]; norm_num
  refine ⟨10, fun fuel hf => ?_⟩
  have ha := angles_from 0 1 1 hn 1 0 fuel (by omega) (by omega)
  simp only [Nat.cast_zero, zero_mul, add_zero, neg_zero] at ha
  have hdir : beamDir ⟨2, 1, 0⟩ ⟨9 / 10, 1 / 2, 0⟩ 0 = ⟨2, 0⟩ := by simp [beamDir]
  obtain ⟨cells, hw, hcon, -⟩ := world_to_cells_connects (fun _ => true) 10 (fun _ _ => rfl)
    (exactFP (1 : ℝ) fun d => (exactCmp : Cmp ℝ).eq d 0) 1 (9 / 10) (1 / 2) (29 / 10) (1 / 2) fuel
    (by simp only [exactFP]; rw [hc0]; decide) (by simp only [exactFP]; rw [hc0]; decide)
    (by simp only [exactFP]; rw [hc1]; decide) (by simp only [exactFP]; rw [hc1]; decide)
    (by simp only [exactFP]; rw [hc0, hc1]; exact le_trans (by decide) hf)
  have hfirst := hcon.first
  simp only [exactFP] at hfirst
  rw [hc0] at hfirst
  obtain ⟨cs, rfl⟩ : ∃ cs, cells = ⟨0, 0⟩ :: cs := by
    cases cells with
    | nil => simp at hfirst
    | cons a l => simp at hfirst; exact ⟨l, by rw [hfirst]⟩
  have hint : rayInters exactCmp (worldCellBounds (1 : ℝ) ⟨0, 0⟩) ⟨⟨9 / 10, 1 / 2⟩, ⟨2, 0⟩⟩ =
      some [⟨.left, 0, 1 / 2⟩, ⟨.right, 1, 1 / 2⟩] := by
    norm_num [rayInters, Ray.intersect, Seg.isHoriz, Seg.isVert, topEdge, leftEdge, botEdge, rightEdge, worldCellBounds,
      exactCmp, Ray.horiz, Ray.vert, dedup, unique, uniqueFrom, ptEq, Inter.pt]
  have hs : Real.sqrt ((9 / 10 - (0 + 1) / 2) ^ 2 + (1 / 2 - (1 / 2 + 1 / 2) / 2) ^ 2) = 4 / 10 := by
    rw [show ((9 / 10 - (0 + 1) / 2) ^ 2 + (1 / 2 - (1 / 2 + 1 / 2) / 2) ^ 2 : ℝ) = (4 / 10) ^ 2 by norm_num]
    exact Real.sqrt_sq (by norm_num)
  have hbeam : castBeam exactCmp (fun _ => true) fuel ⟨2, 1, 0⟩ 1 (fun _ => 1) 1 ⟨9 / 10, 1 / 2, 0⟩ 0 = none := by
    unfold castBeam
    simp only [hdir]
    rw [show (9 / 10 + 2 : ℝ) = 29 / 10 by norm_num, add_zero, hw, Option.bind_some, cast, if_neg (lt_irrefl _), hint]
    simp only [Option.bind_some, List.length_cons, List.length_nil]
    rw [if_neg (by norm_num)]
    simp only [Inter.pt, hs]
    rw [if_neg]
    simp only [ScanPoint.moveRot, ScanPoint.range, ScanPoint.angle, ScanPoint.x, ScanPoint.y, add_zero, Real.cos_zero,
      Real.sin_zero]
    rw [show worldToCell (1 : ℝ) ⟨4 / 10 * 1 + 9 / 10, 4 / 10 * 0 + 1 / 2⟩ = ⟨1, 0⟩ by
      rw [cell_iff 1 one_pos]; norm_num]
    decide
  unfold laserScan
  simp only [neg_zero, ha, Option.bind_some]
  split
  · simp only [List.range'_succ, List.range'_zero, List.map_cons, List.map_nil, Nat.cast_zero, zero_mul, add_zero, castAll, hbeam,
      Option.bind_none]
  · rfl

end Slam.ScanGen
