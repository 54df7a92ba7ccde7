import Verif.Multires.EngineMatcher
import Verif.Multires.Bound
import Verif.Score.Props
import Verif.Score.Area

/-!
# C15: where admissible bounds come from

The bound of a range of translations is the scan score computed on a coarse level with the max estimate over the range
moved to each point of the scan (m3rsm_engine.h:170-180, weighted_mean_point_probability_spe.h:97-133,
occupancy_observation_probability.h:35-47). It bounds the score of each translation of the range on the fine level, if
the cells of the coarse level bound the fine cells the scan's points are in (C14).
-/

set_option autoImplicit false
set_option linter.unusedSectionVars false

namespace Slam.Multires
open Slam.Grid Slam.Rect Slam.Score Slam.Sensor Slam.Cells

/-- `oope` is the max estimate on a map of impacts, occupancy_observation_probability.h:35-47. -/
def IsMaxOope (g : GridView ℝ) (impact : Coord → ℝ) (oope : Point ℝ → Bounds ℝ → Option ℝ) : Prop :=
  ∀ obst a, ∃ cells, Rasterizes g (.finite a) true cells ∧ oope obst a = maxPE (fun c => some (impact c)) cells

/-- The pose of a match: the pose of the request moved by a translation, m3rsm_engine.h:169-174 (`th` is zero for
prerotated scans and the rotated heading otherwise). -/
def movedPose (pose : Score.Pose) (t : Point ℝ) : Score.Pose := ⟨pose.x + t.x, pose.y + t.y, pose.th⟩

/-- The score of a translation, as a match computes it. -/
noncomputable def translationScore (oope : Point ℝ → Bounds ℝ → Option ℝ) (spw : Spw) (pre : Bool) (pose : Score.Pose)
    (pts : List ScanPoint) (t : Point ℝ) : Option (Option ℝ) :=
  estimate oope spw ⟨pointRect t, pre⟩ (movedPose pose t) pts

/-- The bound of a range of translations, as a match computes it. -/
noncomputable def rangeBound (oope : Point ℝ → Bounds ℝ → Option ℝ) (spw : Spw) (pre : Bool) (pose : Score.Pose)
    (pts : List ScanPoint) (r : Bounds ℝ) : Option (Option ℝ) :=
  estimate oope spw ⟨r, pre⟩ (movedPose pose (center r)) pts

theorem obstacle_moved (a : Bounds ℝ) (pre : Bool) (pose : Score.Pose) (t : Point ℝ) (sp : ScanPoint) :
    obstacleOf ⟨a, pre⟩ (movedPose pose t) sp =
      ⟨(obstacleOf ⟨a, pre⟩ pose sp).x + t.x, (obstacleOf ⟨a, pre⟩ pose sp).y + t.y⟩ := by
  cases pre
  · simp only [obstacleOf, movedPose, ScanPoint.moveBy, Bool.false_eq_true, if_false, Point.mk.injEq]
    exact ⟨by ring, by ring⟩
  · simp only [obstacleOf, movedPose, ScanPoint.move, if_true, Point.mk.injEq]
    exact ⟨by ring, by ring⟩

theorem obstacle_area (a b : Bounds ℝ) (pre : Bool) (pose : Score.Pose) (sp : ScanPoint) :
    obstacleOf ⟨a, pre⟩ pose sp = obstacleOf ⟨b, pre⟩ pose sp := rfl

theorem covering_point (s : ℝ) (hs : 0 < s) (k : Nat) (sc : Option ℝ) (hsc : sc = some (s * 2 ^ k) ∨ sc = none)
    (d : Dims) (o : Coord) (q : Point ℝ) :
    GridView.worldToCell ⟨d, o, sc⟩ q = covering s sc (worldToCell s q) := by
  rcases hsc with rfl | rfl
  · rw [covering_floor s hs]
    have key : ∀ x : ℝ, ⌊x / (s * 2 ^ k)⌋ = ⌊x / s⌋ / 2 ^ k := by
      intro x
      have hq : (0 : Int) < 2 ^ k := by positivity
      have hP : (0 : ℝ) < 2 ^ k := by positivity
      have h1 := Int.floor_le (x / s)
      have h2 := Int.lt_floor_add_one (x / s)
      have hdm := Int.mul_ediv_add_emod ⌊x / s⌋ (2 ^ k)
      have hm0 := Int.emod_nonneg ⌊x / s⌋ hq.ne'
      have hm1 := Int.emod_lt_of_pos ⌊x / s⌋ hq
      set n := ⌊x / s⌋
      have hx : (n : ℝ) = 2 ^ k * ((n / 2 ^ k : Int) : ℝ) + ((n % 2 ^ k : Int) : ℝ) := by
        rw [← Int.cast_two, ← Int.cast_pow, ← Int.cast_mul, ← Int.cast_add, hdm]
      have hr0 : (0 : ℝ) ≤ ((n % 2 ^ k : Int) : ℝ) := by exact_mod_cast hm0
      have hr1 : ((n % 2 ^ k : Int) : ℝ) + 1 ≤ 2 ^ k := by
        have : n % 2 ^ k + 1 ≤ 2 ^ k := hm1
        exact_mod_cast this
      have e : x / (s * 2 ^ k) = x / s / 2 ^ k := by rw [div_div]
      rw [e, Int.floor_eq_iff, le_div_iff₀ hP, div_lt_iff₀ hP]
      constructor
      · linarith [mul_comm (((n / 2 ^ k : Int) : ℝ)) (2 ^ k)]
      · have : (((n / 2 ^ k : Int) : ℝ) + 1) * 2 ^ k = 2 ^ k * ((n / 2 ^ k : Int) : ℝ) + 2 ^ k := by ring
        rw [this]; linarith
    simp only [GridView.worldToCell, worldToCell, key]
  · rfl

/-- The coarse cell a point of the area is in is among the rasterised ones. -/
theorem raster_has_point (s : ℝ) (hs : 0 < s) (k : Nat) (sc : Option ℝ) (hsc : sc = some (s * 2 ^ k) ∨ sc = none)
    (d : Dims) (o : Coord) (a : Bounds ℝ) (ha : Proper a) (ha0 : area a ≠ 0 ∨ (hside a = 0 ∧ vside a = 0))
    (cells : List Coord) (hc : Rasterizes ⟨d, o, sc⟩ (.finite a) true cells) (q : Point ℝ) (hq : q ∈ points a) :
    GridView.worldToCell ⟨d, o, sc⟩ q ∈ cells := by
  obtain ⟨la, l1, -, -, l2⟩ := raster_enumerates_once (⟨d, o, sc⟩ : GridView ℝ) (.finite a) true
  have : la = cells := rasterizes_unique _ _ _ _ _ l1 hc
  subst this
  rw [l2]
  rcases ha0 with ha0 | ⟨h1, h2⟩
  · simp only [RState.create, if_neg ha0, if_true, add_zero, sub_zero]
    rcases hsc with rfl | rfl
    · have hp : (0 : ℝ) < s * 2 ^ k := by positivity
      simp only [GridView.worldToCell, worldToCell]
      obtain ⟨q1, q2, q3, q4⟩ := hq
      exact ⟨Int.floor_le_floor (div_le_div_of_nonneg_right q1 hp.le),
        Int.floor_le_floor (div_le_div_of_nonneg_right q2 hp.le),
        Int.floor_le_floor (div_le_div_of_nonneg_right q3 hp.le),
        Int.floor_le_floor (div_le_div_of_nonneg_right q4 hp.le)⟩
    · simp [GridView.worldToCell]
  · have hz : area a = 0 := by unfold area; rw [h2, zero_mul]
    have hqe : q = ⟨a.left, a.bot⟩ := by
      obtain ⟨q1, q2, q3, q4⟩ := hq
      simp only [hside, vside] at h1 h2
      cases q
      simp only [Point.mk.injEq] at *
      exact ⟨by linarith, by linarith⟩
    rw [hqe]
    simp only [RState.create, if_pos hz]
    exact ⟨le_rfl, le_rfl, le_rfl, le_rfl⟩

/-- C15: the bound a match computes for a range of translations — of positive sides, or a single one — on a coarse
level is at least the score of each translation of the range on the fine level, up to `η`, if coarse cells bound, up to
`η`, the fine cells the points of the scan are in under that translation. Weights are those of C33. -/
theorem range_bound_admissible (s η : ℝ) (hs : 0 < s) (k : Nat) (sc : Option ℝ)
    (hsc : sc = some (s * 2 ^ k) ∨ sc = none) (df dc : Dims) (of' oc : Coord) (fine coarse : Coord → ℝ)
    (hfine : ∀ c, Unit01 (fine c)) (hcoarse : ∀ c, Unit01 (coarse c)) (oF oC : Point ℝ → Bounds ℝ → Option ℝ)
    (hoF : IsMaxOope ⟨df, of', some s⟩ fine oF) (hoC : IsMaxOope ⟨dc, oc, sc⟩ coarse oC) (spw : Spw) (pre : Bool)
    (pose : Score.Pose) (pts : List ScanPoint) (hfac : ∀ p ∈ pts, p.factor = 1) (ws : List ℝ)
    (hl : ws.length = pts.length) (hw : ∀ i, i < pts.length → spw.weight pts i = ws[i]?) (hw0 : ∀ w ∈ ws, 0 ≤ w)
    (hsum : ws.sum ≠ 0) (r : Bounds ℝ) (hr : Proper r) (hr0 : area r ≠ 0 ∨ (hside r = 0 ∧ vside r = 0)) (t : Point ℝ)
    (ht : t ∈ points r)
    (hb : ∀ sp ∈ pts, ∀ c, c = worldToCell s (obstacleOf ⟨pointRect t, pre⟩ (movedPose pose t) sp) →
      fine c ≤ coarse (covering s sc c) + η) :
    ∃ v b, translationScore oF spw pre pose pts t = some (some v) ∧ rangeBound oC spw pre pose pts r = some (some b) ∧
      v ≤ b + η := by
  -- point by point
  have point : ∀ sp ∈ pts, ∃ x y,
      oF (obstacleOf ⟨pointRect t, pre⟩ (movedPose pose t) sp)
        (moveCenter (pointRect t) (obstacleOf ⟨pointRect t, pre⟩ (movedPose pose t) sp)) = some x ∧
      oC (obstacleOf ⟨r, pre⟩ (movedPose pose (center r)) sp)
        (moveCenter r (obstacleOf ⟨r, pre⟩ (movedPose pose (center r)) sp)) = some y ∧ x ≤ y + η := by
    intro sp hsp
    have hbsp := hb sp hsp _ rfl
    set q := obstacleOf ⟨pointRect t, pre⟩ (movedPose pose t) sp with hq
    set o := obstacleOf ⟨r, pre⟩ (movedPose pose (center r)) sp with ho
    have hqx : q = ⟨(obstacleOf ⟨r, pre⟩ pose sp).x + t.x, (obstacleOf ⟨r, pre⟩ pose sp).y + t.y⟩ := by
      rw [hq, obstacle_moved]; rfl
    have hox : o = ⟨(obstacleOf ⟨r, pre⟩ pose sp).x + (center r).x, (obstacleOf ⟨r, pre⟩ pose sp).y + (center r).y⟩ := by
      rw [ho, obstacle_moved]
    -- fine: the cell the point is in
    have hmp : moveCenter (pointRect t) q = ⟨q.y, q.y, q.x, q.x⟩ := by
      simp [moveCenter, pointRect, vside, hside]
    obtain ⟨cf, f1, f2⟩ := hoF q (moveCenter (pointRect t) q)
    obtain ⟨-, cf', f3, f4, -⟩ := point_estimates_agree (fun c => some (fine c)) (⟨df, of', some s⟩ : GridView ℝ) s rfl q _
      rfl (hfine _)
    rw [hmp] at f1
    have : cf = cf' := rasterizes_unique _ _ _ _ _ f1 f3
    subst this
    rw [f4] at f2
    -- coarse: the greatest one of the cells
    obtain ⟨cc, c1, c2⟩ := hoC o (moveCenter r o)
    obtain ⟨y, y1, y2, -⟩ := max_estimate (fun c => some (coarse c)) cc fun c _ => ⟨_, rfl, hcoarse c⟩
    rw [y1] at c2
    refine ⟨_, y, f2, c2, ?_⟩
    have hprop : Proper (moveCenter r o) := by
      obtain ⟨h1, h2⟩ := hr
      simp only [Proper, moveCenter, vside, hside]
      exact ⟨by linarith, by linarith⟩
    have hdeg : area (moveCenter r o) ≠ 0 ∨ (hside (moveCenter r o) = 0 ∧ vside (moveCenter r o) = 0) := by
      have e1 : hside (moveCenter r o) = hside r := by simp only [moveCenter, hside]; ring
      have e2 : vside (moveCenter r o) = vside r := by simp only [moveCenter, vside]; ring
      unfold area
      rw [e1, e2]
      exact hr0
    have hin : q ∈ points (moveCenter r o) := by
      obtain ⟨t1, t2, t3, t4⟩ := ht
      rw [hqx, hox]
      simp only [points, moveCenter, center, hside, vside, Set.mem_ofPred_eq]
      exact ⟨by linarith, by linarith, by linarith, by linarith⟩
    have hmem := raster_has_point s hs k sc hsc dc oc _ hprop hdeg cc c1 q hin
    rw [covering_point s hs k sc hsc] at hmem
    have := y2.1 _ hmem _ rfl
    linarith
  -- the values of all points
  obtain ⟨xs, ys, hxs, hys, hxy⟩ : ∃ xs ys : List ℝ,
      List.Forall₂ (fun sp x => oF (obstacleOf ⟨pointRect t, pre⟩ (movedPose pose t) sp)
        (moveCenter (pointRect t) (obstacleOf ⟨pointRect t, pre⟩ (movedPose pose t) sp)) = some x) pts xs ∧
      List.Forall₂ (fun sp y => oC (obstacleOf ⟨r, pre⟩ (movedPose pose (center r)) sp)
        (moveCenter r (obstacleOf ⟨r, pre⟩ (movedPose pose (center r)) sp)) = some y) pts ys ∧
      List.Forall₂ (fun x y => x ≤ y + η) xs ys := by
    clear hb hw hl hfac
    induction pts with
    | nil => exact ⟨[], [], .nil, .nil, .nil⟩
    | cons sp pts ih =>
      obtain ⟨x, y, h1, h2, h3⟩ := point sp (by simp)
      obtain ⟨xs, ys, i1, i2, i3⟩ := ih fun p hp => point p (by simp [hp])
      exact ⟨x :: xs, y :: ys, .cons h1 i1, .cons h2 i2, .cons h3 i3⟩
  refine ⟨weightedMean xs ws, weightedMean ys ws, ?_, ?_, ?_⟩
  · exact (score_is_weighted_mean oF spw ⟨pointRect t, pre⟩ (movedPose pose t) pts xs ws hfac hxs hl hw).2 hsum
  · exact (score_is_weighted_mean oC spw ⟨r, pre⟩ (movedPose pose (center r)) pts ys ws hfac hys hl hw).2 hsum
  · have hpos : 0 < ws.sum := lt_of_le_of_ne (List.sum_nonneg hw0) (Ne.symm hsum)
    have hlen : ws.length = xs.length := by rw [hl]; exact hxs.length_eq
    have key : ∀ (xs ys ws : List ℝ), List.Forall₂ (fun x y => x ≤ y + η) xs ys → ws.length = xs.length →
        (∀ w ∈ ws, 0 ≤ w) → (List.zipWith (· * ·) xs ws).sum ≤ (List.zipWith (· * ·) ys ws).sum + η * ws.sum := by
      intro xs ys ws h
      induction h generalizing ws with
      | nil => intro hl _; have : ws = [] := List.length_eq_zero_iff.1 hl; subst this; simp
      | @cons x y xs ys hxy _ ih =>
        intro hl hw0
        cases ws with
        | nil => simp at hl
        | cons w ws =>
          have := ih ws (by simpa using hl) fun v hv => hw0 v (by simp [hv])
          have w0 := hw0 w (by simp)
          simp only [List.zipWith_cons_cons, List.sum_cons]
          nlinarith
    have := key xs ys ws hxy hlen hw0
    unfold weightedMean
    rw [div_add' _ _ _ hpos.ne', div_le_div_iff_of_pos_right hpos]
    exact this

/-- C14 and C15 together: after any history of valid observations and resets to known cells, on each of the initial
levels and on the coarsest one the bound a match computes for a range is at least the score of each translation of the
range, up to `k` comparison tolerances, provided the points of the scan are in known cells under that translation.
(The proviso is needed: `unknown_cell_counterexample`.) -/
theorem search_bounds_hold {C O : Type} (api : CellApi ℝ C O) (hproto : api.unknown api.proto = true)
    (h01 : ∀ c, Unit01 (api.impact c)) (s : ℝ) (hs : 2 / 10 ^ 9 < s) (n : Nat) (hn : 1 ≤ n) (fuel : Nat) (hf : 1 ≤ fuel)
    (ops : List (MOp C O)) (hops : ∀ op ∈ ops, Valid api op) :
    ∃ m, (MMap.create api s n).run api fuel s ops = some m ∧
      ∀ (k : Nat) (l : MLevel ℝ C), m.levels[k]? = some l → (k < n ∨ l.scale = none) →
      ∀ (df dc : Dims) (of' oc : Coord) (oF oC : Point ℝ → Bounds ℝ → Option ℝ),
        IsMaxOope ⟨df, of', some s⟩ (fun c => api.impact (m.fine.cells c)) oF →
        IsMaxOope ⟨dc, oc, l.scale⟩ (fun c => api.impact (l.cells c)) oC →
      ∀ (spw : Spw) (pre : Bool) (pose : Score.Pose) (pts : List ScanPoint) (ws : List ℝ),
        (∀ p ∈ pts, p.factor = 1) → ws.length = pts.length → (∀ i, i < pts.length → spw.weight pts i = ws[i]?) →
        (∀ w ∈ ws, 0 ≤ w) → ws.sum ≠ 0 →
      ∀ (r : Bounds ℝ), Proper r → (area r ≠ 0 ∨ (hside r = 0 ∧ vside r = 0)) → ∀ t ∈ points r,
        (∀ sp ∈ pts, api.unknown (m.fine.cells
          (worldToCell s (obstacleOf ⟨pointRect t, pre⟩ (movedPose pose t) sp))) = false) →
        ∃ v b, translationScore oF spw pre pose pts t = some (some v) ∧
          rangeBound oC spw pre pose pts r = some (some b) ∧ v ≤ b + k * (1 / 10 ^ 7) := by
  obtain ⟨m, hm, hscale, hbnd⟩ := coarse_bounds_fine api hproto s hs n hn fuel hf ops hops
  refine ⟨m, hm, ?_⟩
  intro k l hl hk df dc of' oc oF oC hoF hoC spw pre pose pts ws hfac hlen hw hw0 hsum r hr hr0 t ht hknown
  have hs0 : 0 < s := lt_trans (by positivity) hs
  refine range_bound_admissible s _ hs0 k l.scale (hscale k l hl) df dc of' oc (fun c => api.impact (m.fine.cells c))
    (fun c => api.impact (l.cells c)) (fun _ => h01 _) (fun _ => h01 _) oF oC hoF hoC spw pre pose pts hfac ws hlen hw hw0
    hsum r hr hr0 t ht ?_
  rintro sp hsp c rfl
  exact (hbnd k l hl hk _ (hknown sp hsp)).2

/-! ## Non-vacuity -/

/-- Max estimates exist for every map of impacts. -/
example (g : GridView ℝ) (impact : Coord → ℝ) : ∃ oope, IsMaxOope g impact oope := by
  have h : ∀ a : Bounds ℝ, ∃ cells, Rasterizes g (.finite a) true cells := fun a =>
    let ⟨l, h, _⟩ := raster_enumerates_once g (.finite a) true
    ⟨l, h⟩
  choose cells hc using h
  exact ⟨fun _ a => maxPE (fun c => some (impact c)) (cells a), fun _ a => ⟨cells a, hc a, rfl⟩⟩

/-- Even weights of a scan of two points, and a range with a translation in it. -/
example : (∀ i, i < 2 → (Spw.even (1 / 2)).weight [.polar 1 0 true 1, .polar 2 1 true 1] i = [(1 / 2 : ℝ), 1 / 2][i]?) ∧
    (⟨1 / 4, 0⟩ : Point ℝ) ∈ points ⟨-1, 1, -1, 1⟩ ∧ area (⟨-1, 1, -1, 1⟩ : Bounds ℝ) ≠ 0 := by
  refine ⟨?_, by norm_num [points], by norm_num [area, vside, hside]⟩
  intro i hi
  interval_cases i <;> rfl

end Slam.Multires
