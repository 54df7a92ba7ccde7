import Verif.Multires.Admissible
import Verif.Multires.Pyramid

/-!
# C94: the bounding assumption `branch` asserts

`M3RSMEngine::branch`, src/core/scan_matchers/m3rsm_engine.h:337-355, asserts for each finer match that its bound does not
exceed the one of the coarse match by more than 1e-5. The shipped build does not define `NDEBUG` (CMakeLists.txt:4), so a
violated assumption stops the program.
-/

set_option autoImplicit false
set_option linter.unusedSectionVars false

namespace Slam.Multires
open Slam.Grid Slam.Rect Slam.Score Slam.Sensor Slam.Cells

/-! ## Model -/

section
variable {K : Type*} [Field K] [LinearOrder K] [IsStrictOrderedRing K]

/-- `less_or_equal(a, b, eps)`, src/core/math_utils.h:10-12, 41-43. -/
def lessOrEqualEps (a b eps : K) : Bool := decide (|a - b| ≤ eps) || less a b

/-- The condition of the assertion, m3rsm_engine.h:350-352. -/
def BoundKept (S : Search K) (coarse finer : Match K) : Prop :=
  lessOrEqualEps (S.ub finer) (S.ub coarse) (1 / 10 ^ 5) = true

/-- The next turn of the loop of `next_best_match` can fail the assertion, m3rsm_engine.h:319-331, 348-353. -/
def Trips (S : Search K) (δ step : K) (e : Engine K) : Prop :=
  ∃ m e1 rs, Pop S δ e m e1 ∧ finer step m.drift = some rs ∧ ∃ r ∈ rs, ¬ BoundKept S m (m.narrow r)

/-- The level `rescale` chooses, src/core/maps/rescalable_caching_grid_map.h:79-91 (`probe` in Pyramid.lean): the first one
with a scale not less than the target. -/
def levelFor {C : Type*} (m : MMap K C) (target : K) : Option (MLevel K C) :=
  m.levels.find? fun l => leScale (some target) l.scale

end

/-- `S` scores matches as the constructor of `Match` does, m3rsm_engine.h:156-180, for a prerotated request
(bf_multi_res_scan_matcher.h:40-41) with the max estimate: the points of the scan turned by the rotation
(`to_cartesian(rot + pose.theta)`, m3rsm_engine.h:303-306) are `scan rot`; the map is rescaled to the longer side of the range,
and the range is scored on that level. -/
def Scores {C O : Type} (api : CellApi ℝ C O) (m : MMap ℝ C) (spw : Spw) (pose : Score.Pose) (scan : ℝ → List ScanPoint)
    (S : Search ℝ) : Prop :=
  ∀ req rot r, ∃ (l : MLevel ℝ C) (d : Dims) (o : Coord) (oope : Point ℝ → Bounds ℝ → Option ℝ),
    levelFor m (max (vside r) (hside r)) = some l ∧
    IsMaxOope ⟨d, o, l.scale⟩ (fun c => api.impact (l.cells c)) oope ∧
    rangeBound oope spw true pose (scan rot) r = some (some (S.score req rot r))

/-! ## Ranges within ranges -/

/-- Each rasterised cell has a point of the area. -/
theorem raster_cell_has_point (s : ℝ) (hs : 0 < s) (k : Nat) (sc : Option ℝ) (hsc : sc = some (s * 2 ^ k) ∨ sc = none)
    (d : Dims) (o : Coord) (a : Bounds ℝ) (ha : Proper a) (ha0 : area a ≠ 0 ∨ (hside a = 0 ∧ vside a = 0))
    (cells : List Coord) (hc : Rasterizes ⟨d, o, sc⟩ (.finite a) true cells) (c : Coord) (hmem : c ∈ cells) :
    ∃ q ∈ points a, GridView.worldToCell ⟨d, o, sc⟩ q = c := by
  obtain ⟨la, l1, -, -, l2⟩ := raster_enumerates_once (⟨d, o, sc⟩ : GridView ℝ) (.finite a) true
  have : la = cells := rasterizes_unique _ _ _ _ _ l1 hc
  subst this
  rw [l2] at hmem
  rcases ha0 with ha0 | ⟨h1, h2⟩
  · simp only [RState.create, if_neg ha0, if_true, add_zero, sub_zero] at hmem
    rcases hsc with rfl | rfl
    · have hp : (0 : ℝ) < s * 2 ^ k := by positivity
      simp only [GridView.worldToCell, worldToCell] at hmem
      obtain ⟨m1, m2, m3, m4⟩ := hmem
      have key : ∀ (lo hi t : ℝ) (i : Int), 0 < t → lo ≤ hi → ⌊lo / t⌋ ≤ i → i ≤ ⌊hi / t⌋ →
          ∃ x, lo ≤ x ∧ x ≤ hi ∧ ⌊x / t⌋ = i := by
        intro lo hi t i ht hlh h1 h2
        have e1 : (i : ℝ) * t ≤ hi := by
          have := Int.le_floor.1 h2
          rwa [le_div_iff₀ ht] at this
        have e2 : lo < ((i : ℝ) + 1) * t := by
          have := Int.floor_lt.1 (Int.lt_add_one_of_le h1)
          push_cast at this
          rwa [div_lt_iff₀ ht] at this
        refine ⟨max lo (i * t), le_max_left _ _, max_le hlh e1, ?_⟩
        rw [Int.floor_eq_iff, le_div_iff₀ ht, div_lt_iff₀ ht]
        refine ⟨le_max_right _ _, max_lt e2 ?_⟩
        nlinarith
      obtain ⟨x, x1, x2, x3⟩ := key _ _ _ _ hp ha.2 m1 m2
      obtain ⟨y, y1, y2, y3⟩ := key _ _ _ _ hp ha.1 m3 m4
      refine ⟨⟨x, y⟩, ⟨x1, x2, y1, y2⟩, ?_⟩
      simp only [GridView.worldToCell, worldToCell, x3, y3]
    · simp only [GridView.worldToCell] at hmem
      obtain ⟨m1, m2, m3, m4⟩ := hmem
      refine ⟨⟨a.left, a.bot⟩, ⟨le_rfl, ha.2, le_rfl, ha.1⟩, ?_⟩
      simp only [GridView.worldToCell]
      cases c
      simp only [Coord.mk.injEq] at *
      exact ⟨by omega, by omega⟩
  · have hz : area a = 0 := by unfold area; rw [h2, zero_mul]
    simp only [RState.create, if_pos hz] at hmem
    refine ⟨⟨a.left, a.bot⟩, ⟨le_rfl, ha.2, le_rfl, ha.1⟩, ?_⟩
    obtain ⟨m1, m2, m3, m4⟩ := hmem
    generalize GridView.worldToCell (⟨d, o, sc⟩ : GridView ℝ) ⟨a.left, a.bot⟩ = w at *
    cases w; cases c
    simp only [Coord.mk.injEq] at *
    exact ⟨by omega, by omega⟩

theorem weightedMean_le (η : ℝ) (xs ys ws : List ℝ) (h : List.Forall₂ (fun x y => x ≤ y + η) xs ys) (hl : ws.length = xs.length)
    (hw0 : ∀ w ∈ ws, 0 ≤ w) (hsum : ws.sum ≠ 0) : weightedMean xs ws ≤ weightedMean ys ws + η := by
  have hpos : 0 < ws.sum := lt_of_le_of_ne (List.sum_nonneg hw0) (Ne.symm hsum)
  have key : ∀ (xs ys ws : List ℝ), List.Forall₂ (fun x y => x ≤ y + η) xs ys → ws.length = xs.length →
      (∀ w ∈ ws, 0 ≤ w) → (List.zipWith (· * ·) xs ws).sum ≤ (List.zipWith (· * ·) ys ws).sum + η * ws.sum := by
    intro xs ys ws h
    induction h generalizing ws with
    | nil => intro hl _; have : ws = [] := List.length_eq_zero_iff.1 hl; subst this; simp
    | @cons x y xs ys hxy _ ih =>
      intro hl hw0
      cases ws with
      | nil => simp at hl
      | cons w ws =>
        have := ih ws (by simpa using hl) fun v hv => hw0 v (by simp [hv])
        have w0 := hw0 w (by simp)
        simp only [List.zipWith_cons_cons, List.sum_cons]
        nlinarith
  have := key xs ys ws h hl hw0
  unfold weightedMean
  rw [div_add' _ _ _ hpos.ne', div_le_div_iff_of_pos_right hpos]
  exact this

/-- The range is one the search makes bounds for: of positive sides, or a single translation. -/
def Scored (r : Bounds ℝ) : Prop := Proper r ∧ (area r ≠ 0 ∨ (hside r = 0 ∧ vside r = 0))

/-- C94, two ranges: if on each place the coarser level says at least as much as the finer one, up to `η`, then the bound of a
range on the coarser level is at least the bound of every range within it on the finer one, up to `η`. -/
theorem range_bound_monotone (s η : ℝ) (hs : 0 < s) (j k : Nat) (scj sck : Option ℝ)
    (hscj : scj = some (s * 2 ^ j) ∨ scj = none) (hsck : sck = some (s * 2 ^ k) ∨ sck = none) (dj dk : Dims) (oj ok : Coord)
    (lo hi : Coord → ℝ) (hlo : ∀ c, Unit01 (lo c)) (hhi : ∀ c, Unit01 (hi c)) (oL oH : Point ℝ → Bounds ℝ → Option ℝ)
    (hoL : IsMaxOope ⟨dj, oj, scj⟩ lo oL) (hoH : IsMaxOope ⟨dk, ok, sck⟩ hi oH) (spw : Spw) (pre : Bool)
    (pose : Score.Pose) (pts : List ScanPoint) (hfac : ∀ p ∈ pts, p.factor = 1) (ws : List ℝ)
    (hl : ws.length = pts.length) (hw : ∀ i, i < pts.length → spw.weight pts i = ws[i]?) (hw0 : ∀ w ∈ ws, 0 ≤ w)
    (hsum : ws.sum ≠ 0) (r r' : Bounds ℝ) (hr : Scored r) (hr' : Scored r') (hsub : points r' ⊆ points r)
    (hb : ∀ c, lo (covering s scj c) ≤ hi (covering s sck c) + η) :
    ∃ v b, rangeBound oL spw pre pose pts r' = some (some v) ∧ rangeBound oH spw pre pose pts r = some (some b) ∧
      v ≤ b + η := by
  have moved : ∀ (r : Bounds ℝ) (o : Point ℝ), Scored r → Scored (moveCenter r o) := by
    intro r o hr
    have e1 : hside (moveCenter r o) = hside r := by simp only [moveCenter, hside]; ring
    have e2 : vside (moveCenter r o) = vside r := by simp only [moveCenter, vside]; ring
    refine ⟨?_, ?_⟩
    · obtain ⟨h1, h2⟩ := hr.1
      simp only [Proper, moveCenter, vside, hside]
      exact ⟨by linarith, by linarith⟩
    · unfold area
      rw [e1, e2]
      exact hr.2
  have point : ∀ sp ∈ pts, ∃ x y,
      oL (obstacleOf ⟨r', pre⟩ (movedPose pose (center r')) sp)
        (moveCenter r' (obstacleOf ⟨r', pre⟩ (movedPose pose (center r')) sp)) = some x ∧
      oH (obstacleOf ⟨r, pre⟩ (movedPose pose (center r)) sp)
        (moveCenter r (obstacleOf ⟨r, pre⟩ (movedPose pose (center r)) sp)) = some y ∧ x ≤ y + η := by
    intro sp _
    set o' := obstacleOf ⟨r', pre⟩ (movedPose pose (center r')) sp with ho'
    set o := obstacleOf ⟨r, pre⟩ (movedPose pose (center r)) sp with ho
    have hox' : o' = ⟨(obstacleOf ⟨r, pre⟩ pose sp).x + (center r').x, (obstacleOf ⟨r, pre⟩ pose sp).y + (center r').y⟩ := by
      rw [ho', obstacle_moved]; rfl
    have hox : o = ⟨(obstacleOf ⟨r, pre⟩ pose sp).x + (center r).x, (obstacleOf ⟨r, pre⟩ pose sp).y + (center r).y⟩ := by
      rw [ho, obstacle_moved]
    obtain ⟨cl, l1, l2⟩ := hoL o' (moveCenter r' o')
    obtain ⟨x, x1, x2, -⟩ := max_estimate (fun c => some (lo c)) cl fun c _ => ⟨_, rfl, hlo c⟩
    rw [x1] at l2
    obtain ⟨ch, c1, c2⟩ := hoH o (moveCenter r o)
    obtain ⟨y, y1, y2, yu⟩ := max_estimate (fun c => some (hi c)) ch fun c _ => ⟨_, rfl, hhi c⟩
    rw [y1] at c2
    refine ⟨x, y, l2, c2, ?_⟩
    obtain ⟨m1, m2⟩ := moved r' o' hr'
    obtain ⟨n1, n2⟩ := moved r o hr
    have hη : ∃ c ∈ cl, lo c = x := by
      rcases x2.2 with ⟨he, -⟩ | ⟨c, hc, e⟩
      · exfalso
        have := raster_has_point s hs j scj hscj dj oj _ m1 m2 cl l1 ⟨(moveCenter r' o').left, (moveCenter r' o').bot⟩
          ⟨le_rfl, m1.2, le_rfl, m1.1⟩
        rw [he] at this
        simp at this
      · exact ⟨c, hc, by simpa using e⟩
    obtain ⟨c, hc, rfl⟩ := hη
    obtain ⟨q, q1, q2⟩ := raster_cell_has_point s hs j scj hscj dj oj _ m1 m2 cl l1 c hc
    have hin : q ∈ points (moveCenter r o) := by
      have hq : (⟨q.x - (obstacleOf ⟨r, pre⟩ pose sp).x, q.y - (obstacleOf ⟨r, pre⟩ pose sp).y⟩ : Point ℝ) ∈ points r' := by
        obtain ⟨e1, e2, e3, e4⟩ := q1
        rw [hox'] at e1 e2 e3 e4
        simp only [moveCenter, center, hside, vside] at e1 e2 e3 e4
        simp only [points, Set.mem_ofPred_eq]
        exact ⟨by linarith, by linarith, by linarith, by linarith⟩
      obtain ⟨e1, e2, e3, e4⟩ := hsub hq
      simp only at e1 e2 e3 e4
      rw [hox]
      simp only [points, moveCenter, center, hside, vside, Set.mem_ofPred_eq]
      exact ⟨by linarith, by linarith, by linarith, by linarith⟩
    have hmem := raster_has_point s hs k sck hsck dk ok _ n1 n2 ch c1 q hin
    rw [covering_point s hs k sck hsck] at hmem
    rw [covering_point s hs j scj hscj] at q2
    have h1 := y2.1 _ hmem _ rfl
    have h2 := hb (worldToCell s q)
    rw [q2] at h2
    linarith
  obtain ⟨xs, ys, hxs, hys, hxy⟩ : ∃ xs ys : List ℝ,
      List.Forall₂ (fun sp x => oL (obstacleOf ⟨r', pre⟩ (movedPose pose (center r')) sp)
        (moveCenter r' (obstacleOf ⟨r', pre⟩ (movedPose pose (center r')) sp)) = some x) pts xs ∧
      List.Forall₂ (fun sp y => oH (obstacleOf ⟨r, pre⟩ (movedPose pose (center r)) sp)
        (moveCenter r (obstacleOf ⟨r, pre⟩ (movedPose pose (center r)) sp)) = some y) pts ys ∧
      List.Forall₂ (fun x y => x ≤ y + η) xs ys := by
    clear hw hl hfac
    induction pts with
    | nil => exact ⟨[], [], .nil, .nil, .nil⟩
    | cons sp pts ih =>
      obtain ⟨x, y, h1, h2, h3⟩ := point sp (by simp)
      obtain ⟨xs, ys, i1, i2, i3⟩ := ih fun p hp => point p (by simp [hp])
      exact ⟨x :: xs, y :: ys, .cons h1 i1, .cons h2 i2, .cons h3 i3⟩
  refine ⟨weightedMean xs ws, weightedMean ys ws, ?_, ?_, weightedMean_le η xs ys ws hxy (by rw [hl]; exact hxs.length_eq) hw0 hsum⟩
  · exact (score_is_weighted_mean oL spw ⟨r', pre⟩ (movedPose pose (center r')) pts xs ws hfac hxs hl hw).2 hsum
  · exact (score_is_weighted_mean oH spw ⟨r, pre⟩ (movedPose pose (center r)) pts ys ws hfac hys hl hw).2 hsum

/-! ## Levels -/

section
variable {K C O : Type*} [Field K] [LinearOrder K] [IsStrictOrderedRing K] [FloorRing K]

/-- The level chosen in a pyramid: its scale is not less than the target, those of all finer levels are. -/
theorem levelFor_spec (s : K) (N : Nat) (m : MMap K C) (hp : Pyramid s N m) (t : K) :
    ∃ k l, levelFor m t = some l ∧ m.levels[k]? = some l ∧ (∀ i < k, i < N ∧ s * 2 ^ i < t) ∧
      ((k < N ∧ l.scale = some (s * 2 ^ k) ∧ t ≤ s * 2 ^ k) ∨ (k = N ∧ l.scale = none)) := by
  have hlen := hp.length
  have hlast : m.levels[N]? = some m.levels[N] := List.getElem?_eq_getElem (by omega)
  have hsome : (levelFor m t).isSome = true := by
    unfold levelFor
    rw [List.find?_isSome]
    refine ⟨_, List.mem_of_getElem? hlast, ?_⟩
    rcases hp.scale N _ hlast with ⟨h, -⟩ | ⟨-, e⟩
    · omega
    · rw [e]; rfl
  obtain ⟨l, hl⟩ := Option.isSome_iff_exists.1 hsome
  obtain ⟨hgood, as, bs, happ, hbad⟩ := List.find?_eq_some_iff_append.1 hl
  have hk : m.levels[as.length]? = some l := by rw [happ]; simp
  refine ⟨as.length, l, hl, hk, ?_, ?_⟩
  · intro i hi
    have hi' : m.levels[i]? = some as[i] := by
      rw [happ, List.getElem?_append_left hi, List.getElem?_eq_getElem hi]
    have := hbad as[i] (List.getElem_mem hi)
    rcases hp.scale i _ hi' with ⟨h1, e⟩ | ⟨h1, e⟩
    · rw [e] at this
      exact ⟨h1, by simpa [leScale] using this⟩
    · rw [e] at this
      simp [leScale] at this
  · rcases hp.scale _ _ hk with ⟨h1, e⟩ | ⟨h1, e⟩
    · left
      rw [e] at hgood
      exact ⟨h1, e, by simpa [leScale] using hgood⟩
    · exact .inr ⟨h1, e⟩

/-- Where unknown cells have no more impact than any other, coarser levels say at least as much as finer ones, up to a
comparison tolerance for each level between them. -/
theorem levels_monotone (api : CellApi K C O) (P : C → Prop)
    (hmin : ∀ v w, P v → P w → api.unknown v = true → api.impact v ≤ api.impact w) (s : K) (n : Nat)
    (m : MMap K C) (hi : Inv api s n m) (hP : ∀ l ∈ m.levels, ∀ d, P (l.cells d)) (j k : Nat) (a b : MLevel K C) (hjk : j ≤ k)
    (hk : k < n ∨ k + 1 = m.levels.length) (ha : m.levels[j]? = some a) (hb : m.levels[k]? = some b) (c : Coord) :
    api.impact (a.at s c) ≤ api.impact (b.at s c) + ((k - j : Nat) : K) * tol := by
  have h0 : (0 : K) ≤ ((k - j : Nat) : K) * tol := by unfold tol; positivity
  rcases Nat.lt_or_ge j k with h | h
  · cases hu : api.unknown (a.at s c) with
    | false => exact (hi.bnd j k a b h hk ha hb c hu).2
    | true =>
      have := hmin _ _ (hP a (List.mem_of_getElem? ha) (covering s a.scale c))
        (hP b (List.mem_of_getElem? hb) (covering s b.scale c)) hu
      unfold MLevel.at at *
      linarith
  · obtain rfl : j = k := by omega
    rw [ha] at hb
    injection hb with hb
    subst hb
    linarith

end

/-! ## The assertion -/

/-- The bounds of ranges within ranges, as the search computes them. -/
theorem scores_monotone {C O : Type} (api : CellApi ℝ C O) (P : C → Prop) (h01 : ∀ v, P v → Unit01 (api.impact v))
    (hmin : ∀ v w, P v → P w → api.unknown v = true → api.impact v ≤ api.impact w) (s : ℝ) (hs : 0 < s) (n : Nat)
    (hn : 1 ≤ n) (m : MMap ℝ C) (hi : Inv api s n m) (hP : ∀ l ∈ m.levels, ∀ d, P (l.cells d)) (spw : Spw)
    (pose : Score.Pose) (scan : ℝ → List ScanPoint) (S : Search ℝ) (hS : Scores api m spw pose scan S) (rot : ℝ)
    (hfac : ∀ p ∈ scan rot, p.factor = 1) (ws : List ℝ) (hl : ws.length = (scan rot).length)
    (hw : ∀ i, i < (scan rot).length → spw.weight (scan rot) i = ws[i]?) (hw0 : ∀ w ∈ ws, 0 ≤ w) (hsum : ws.sum ≠ 0)
    (r r' : Bounds ℝ) (hr : Scored r) (hr' : Scored r') (hsub : points r' ⊆ points r)
    (hbig : max (vside r) (hside r) ≤ s * 2 ^ (n - 1)) (req : Nat) :
    S.score req rot r' ≤ S.score req rot r + ((n - 1 : Nat) : ℝ) * (1 / 10 ^ 7) := by
  obtain ⟨N, hN, hp⟩ := hi.pyr
  obtain ⟨l, d, o, oope, e1, e2, e3⟩ := hS req rot r
  obtain ⟨l', d', o', oope', f1, f2, f3⟩ := hS req rot r'
  obtain ⟨k, lk, g1, g2, g3, g4⟩ := levelFor_spec s N m hp (max (vside r) (hside r))
  obtain ⟨j, lj, q1, q2, q3, q4⟩ := levelFor_spec s N m hp (max (vside r') (hside r'))
  rw [g1] at e1; injection e1 with e1; subst e1
  rw [q1] at f1; injection f1 with f1; subst f1
  -- the sub-range is not longer
  have hmem : ∀ q ∈ points r', q ∈ points r := hsub
  have hcor1 := hmem ⟨r'.left, r'.bot⟩ ⟨le_rfl, hr'.1.2, le_rfl, hr'.1.1⟩
  have hcor2 := hmem ⟨r'.right, r'.top⟩ ⟨hr'.1.2, le_rfl, hr'.1.1, le_rfl⟩
  have hle : max (vside r') (hside r') ≤ max (vside r) (hside r) := by
    obtain ⟨a1, a2, a3, a4⟩ := hcor1
    obtain ⟨b1, b2, b3, b4⟩ := hcor2
    simp only at a1 a2 a3 a4 b1 b2 b3 b4
    apply max_le_max <;> simp only [vside, hside] <;> linarith
  have hkn : k ≤ n - 1 := by
    by_contra hc
    obtain ⟨-, h2⟩ := g3 (n - 1) (by omega)
    linarith
  have hjk : j ≤ k := by
    by_contra hc
    rcases g4 with ⟨h1, -, h2⟩ | ⟨h1, -⟩
    · obtain ⟨-, h3⟩ := q3 k (by omega)
      linarith
    · omega
  have sck : lk.scale = some (s * 2 ^ k) ∨ lk.scale = none := by
    rcases g4 with ⟨-, e, -⟩ | ⟨-, e⟩
    · exact .inl e
    · exact .inr e
  have scj : lj.scale = some (s * 2 ^ j) ∨ lj.scale = none := by
    rcases q4 with ⟨-, e, -⟩ | ⟨-, e⟩
    · exact .inl e
    · exact .inr e
  obtain ⟨v, b, v1, v2, v3⟩ := range_bound_monotone s (((k - j : Nat) : ℝ) * (1 / 10 ^ 7)) hs j k lj.scale lk.scale scj sck
    d' d o' o (fun c => api.impact (lj.cells c)) (fun c => api.impact (lk.cells c))
    (fun c => h01 _ (hP lj (List.mem_of_getElem? q2) c)) (fun c => h01 _ (hP lk (List.mem_of_getElem? g2) c))
    oope' oope f2 e2 spw true pose (scan rot) hfac ws hl hw hw0 hsum r r' hr hr' hsub (by
      intro c
      have := levels_monotone api P hmin s n m hi hP j k lj lk hjk (.inl (by omega)) q2 g2 c
      unfold MLevel.at tol at this
      exact this)
  rw [f3] at v1
  rw [e3] at v2
  injection v1 with v1; injection v1 with v1
  injection v2 with v2; injection v2 with v2
  rw [v1, v2]
  have : ((k - j : Nat) : ℝ) ≤ ((n - 1 : Nat) : ℝ) := by exact_mod_cast (by omega : k - j ≤ n - 1)
  nlinarith

section
variable {K : Type*} [Field K] [LinearOrder K] [IsStrictOrderedRing K] [FloorRing K]

/-- The ranges of the search: single translations and parts of the window with positive sides. -/
def Decent (X Y : K) (m : Match K) : Prop :=
  points m.drift ⊆ points (entireRange X Y) ∧
    ((∃ p, m.drift = pointRect p) ∨ (Proper m.drift ∧ 0 < hside m.drift ∧ 0 < vside m.drift))

theorem decent_proper {X Y : K} {m : Match K} (h : Decent X Y m) : Proper m.drift := by
  rcases h.2 with ⟨p, e⟩ | h
  · rw [e]; exact pointRect_proper p
  · exact h.1

end

theorem decent_step {K : Type*} [Field K] [LinearOrder K] [IsStrictOrderedRing K] [FloorRing K] (S : Search K) (δ step X Y : K)
    (hX : 0 < X) (hY : 0 < Y) (hstep : 1 / 2 ^ 52 ≤ step) (e e' : Engine K)
    (hs : SearchStep S δ step e e') (h : ∀ m ∈ e.queue, Decent X Y m) : ∀ m ∈ e'.queue, Decent X Y m := by
  rcases hs with ⟨m, e1, rs, ⟨hperm, -, -⟩, hfin, rfl⟩ | ⟨m, e1, ⟨⟨hperm, -, -⟩, hfin⟩, hnf, rfl⟩
  · have hmq : m ∈ e.queue := hperm.mem_iff.2 (by simp)
    have hm := h m hmq
    obtain ⟨t1, t2, -, -⟩ := finer_tiles (decent_proper hm) hfin
    intro x hx
    rcases addAll_from S _ e1 x hx with h1 | h1
    · exact h x (hperm.mem_iff.2 (by simp [h1]))
    · obtain ⟨r, hr, rfl⟩ := List.mem_map.1 h1
      refine ⟨fun p hp => hm.1 ((t2 p).2 ⟨r, hr, hp⟩), .inr ?_⟩
      rcases hm.2 with ⟨p, e⟩ | ⟨g1, g2, g3⟩
      · rw [e, finer_pointRect step hstep] at hfin
        cases hfin
      · obtain ⟨s1, s2, s3⟩ := finer_solid (X := X) (Y := Y) ⟨g1, fun _ => g2, fun _ => g3⟩ hfin r hr
        exact ⟨s1, s2 hX, s3 hY⟩
  · have hmq : m ∈ e.queue := hperm.mem_iff.2 (by simp)
    have hm := h m hmq
    intro x hx
    rcases addAll_from S _ e1 x hx with h1 | h1
    · exact h x (hperm.mem_iff.2 (by simp [h1]))
    · obtain ⟨p, hp, rfl⟩ := List.mem_map.1 h1
      refine ⟨?_, .inl ⟨p, rfl⟩⟩
      intro q hq
      apply hm.1
      have hc := crucial_mem m.drift (decent_proper hm) p hp
      obtain ⟨q1, q2, q3, q4⟩ := hq
      simp only [Match.narrow, pointRect] at q1 q2 q3 q4
      obtain ⟨m1, m2, m3, m4⟩ := hc
      exact ⟨by linarith, by linarith, by linarith, by linarith⟩

/-- **C94**: the bounding assumption holds where unknown cells have the least impact. Let the map be one with `n ≤ 101`
initial levels on which only observations leaving a known cell behind have been made, let no unknown cell have more impact than
any other, and let the window fit into a cell of the coarsest initial finite level. Then in no state of a search for a scan of
usable points the next turn of the loop fails the assertion of `branch`. -/
theorem branch_assertion_holds {C O : Type} (api : CellApi ℝ C O) (P : C → Prop) (h01 : ∀ v, P v → Unit01 (api.impact v))
    (hmin : ∀ v w, P v → P w → api.unknown v = true → api.impact v ≤ api.impact w) (s : ℝ) (hs : 0 < s) (n : Nat)
    (hn : 1 ≤ n) (hn2 : n ≤ 101) (m : MMap ℝ C) (hi : Inv api s n m) (hP : ∀ l ∈ m.levels, ∀ d, P (l.cells d)) (spw : Spw)
    (pose : Score.Pose) (scan : ℝ → List ScanPoint) (S : Search ℝ) (hS : Scores api m spw pose scan S)
    (hscan : ∀ rot, (∀ p ∈ scan rot, p.factor = 1) ∧ ∃ ws : List ℝ, ws.length = (scan rot).length ∧
      (∀ i, i < (scan rot).length → spw.weight (scan rot) i = ws[i]?) ∧ (∀ w ∈ ws, 0 ≤ w) ∧ ws.sum ≠ 0)
    (X Y sector res δ step : ℝ) (hX : 0 < X) (hY : 0 < Y) (hwin : 2 * X ≤ s * 2 ^ (n - 1) ∧ 2 * Y ≤ s * 2 ^ (n - 1))
    (hstep : 1 / 2 ^ 52 ≤ step) (fuel : Nat) (req : Nat) (e e' : Engine ℝ)
    (he : Engine.init.request S X Y sector res fuel req = some e)
    (hreach : Relation.ReflTransGen (SearchStep S δ step) e e') : ¬ Trips S δ step e' := by
  have h0 : ∀ x ∈ e.queue, Decent X Y x := by
    simp only [Engine.request, Option.map_eq_some_iff] at he
    obtain ⟨rots, -, rfl⟩ := he
    intro x hx
    rcases addAll_from S _ _ x hx with h | h
    · simp [Engine.init] at h
    · simp only [List.mem_flatMap, List.mem_cons, List.not_mem_nil, or_false] at h
      obtain ⟨rot, -, rfl | rfl⟩ := h
      · refine ⟨?_, .inl ⟨_, rfl⟩⟩
        intro q hq
        obtain ⟨q1, q2, q3, q4⟩ := hq
        simp only [pointRect] at q1 q2 q3 q4
        simp only [points, entireRange, Set.mem_ofPred_eq]
        exact ⟨by linarith, by linarith, by linarith, by linarith⟩
      · refine ⟨subset_rfl, .inr ⟨⟨?_, ?_⟩, ?_, ?_⟩⟩ <;> simp only [entireRange, hside, vside] <;> linarith
  have hall : ∀ x ∈ e'.queue, Decent X Y x := by
    clear he
    induction hreach with
    | refl => exact h0
    | tail _ hst ih => exact decent_step S δ step X Y hX hY hstep _ _ hst ih
  rintro ⟨x, e1, rs, ⟨hperm, -, -⟩, hfin, r, hr, hbad⟩
  have hx := hall x (hperm.mem_iff.2 (by simp))
  apply hbad
  obtain ⟨hin, ⟨p, hp⟩ | ⟨g1, g2, g3⟩⟩ := hx
  · rw [hp, finer_pointRect step hstep] at hfin
    cases hfin
  · obtain ⟨t1, t2, -, -⟩ := finer_tiles g1 hfin
    obtain ⟨s1, s2, s3⟩ := finer_solid (X := X) (Y := Y) ⟨g1, fun _ => g2, fun _ => g3⟩ hfin r hr
    have area_ne : ∀ b : Bounds ℝ, 0 < hside b → 0 < vside b → area b ≠ 0 := by
      intro b b1 b2
      unfold area
      positivity
    have hc1 := hin (show (⟨x.drift.left, x.drift.bot⟩ : Point ℝ) ∈ points x.drift from ⟨le_rfl, g1.2, le_rfl, g1.1⟩)
    have hc2 := hin (show (⟨x.drift.right, x.drift.top⟩ : Point ℝ) ∈ points x.drift from ⟨g1.2, le_rfl, g1.1, le_rfl⟩)
    obtain ⟨hf, ws, w1, w2, w3, w4⟩ := hscan x.rot
    have key := scores_monotone api P h01 hmin s hs n hn m hi hP spw pose scan S hS x.rot hf ws w1 w2 w3 w4 x.drift r
      ⟨g1, .inl (area_ne _ g2 g3)⟩ ⟨s1, .inl (area_ne _ (s2 hX) (s3 hY))⟩ (fun q hq => (t2 q).2 ⟨r, hr, hq⟩) (by
        obtain ⟨a1, a2, a3, a4⟩ := hc1
        obtain ⟨b1, b2, b3, b4⟩ := hc2
        simp only [entireRange] at a1 a2 a3 a4 b1 b2 b3 b4
        apply max_le <;> simp only [vside, hside] <;> linarith [hwin.1, hwin.2]) x.req
    have hn3 : ((n - 1 : Nat) : ℝ) ≤ 100 := by exact_mod_cast (by omega : n - 1 ≤ 100)
    unfold BoundKept lessOrEqualEps Search.ub Match.narrow
    simp only [Bool.or_eq_true, decide_eq_true_eq, less]
    generalize S.score x.req x.rot r = a at *
    generalize S.score x.req x.rot x.drift = b at *
    rcases le_or_gt b a with h | h
    · left
      rw [abs_of_nonneg (by linarith)]
      norm_num at key ⊢
      linarith
    · right
      have : (0 : ℝ) < 1 / 2 ^ 52 := by positivity
      linarith

end Slam.Multires
