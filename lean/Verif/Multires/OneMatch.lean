import Verif.Multires.Kinds
import Verif.Multires.Growth

/-!
# One search of the multi-resolution matcher on a map

Support for C95: what the scores of single translations are, and which candidates the result of a search beats.
-/

set_option autoImplicit false
set_option linter.unusedSectionVars false

namespace Slam.Multires
open Slam.Grid Slam.Rect Slam.Score Slam.Sensor Slam.Cells Slam.Tbm

theorem center_pointRect (t : Point ℝ) : center (pointRect t) = t := by
  cases t
  simp [center, pointRect, hside, vside]

theorem scored_pointRect (t : Point ℝ) : Scored (pointRect t) :=
  ⟨⟨le_rfl, le_rfl⟩, .inr ⟨by simp [hside, pointRect], by simp [vside, pointRect]⟩⟩

/-- The weights of a turned scan. -/
structure TurnedWeights (spw : Spw) (pts : List ScanPoint) (ws : List ℝ) : Prop where
  plain : ∀ p ∈ pts, p.factor = 1
  len : ws.length = pts.length
  given : ∀ i, i < pts.length → spw.weight pts i = ws[i]?
  nonneg : ∀ w ∈ ws, 0 ≤ w
  sum : ws.sum ≠ 0

/-- The score of a single translation: the weighted mean of the impacts of the fine cells the points get to. -/
theorem point_score {C O : Type} (api : CellApi ℝ C O) (P : C → Prop) (h01 : ∀ v, P v → Unit01 (api.impact v)) (s : ℝ)
    (hs : 0 < s) (n : Nat) (hn : 1 ≤ n) (m : MMap ℝ C) (hi : Inv api s n m) (hP : ∀ l ∈ m.levels, ∀ d, P (l.cells d))
    (spw : Spw) (pose : Score.Pose) (scan : ℝ → List ScanPoint) (S : Search ℝ) (hS : Scores api m spw pose scan S) (req : Nat)
    (rot : ℝ) (ws : List ℝ) (hw : TurnedWeights spw (scan rot) ws) (t : Point ℝ) :
    S.score req rot (pointRect t) = weightedMean ((scan rot).map fun sp =>
      api.impact (m.fine.cells (worldToCell s ⟨sp.x + (pose.x + t.x), sp.y + (pose.y + t.y)⟩))) ws := by
  obtain ⟨N, hN, hp⟩ := hi.pyr
  obtain ⟨l, d, o, oope, e1, e2, e3⟩ := hS req rot (pointRect t)
  obtain ⟨k, lk, g1, g2, g3, g4⟩ := levelFor_spec s N m hp (max (vside (pointRect t)) (hside (pointRect t)))
  have hz : max (vside (pointRect t)) (hside (pointRect t)) = 0 := by simp [vside, hside, pointRect]
  rw [g1] at e1; injection e1 with e1; subst e1
  have hk : k = 0 := by
    by_contra hk
    obtain ⟨-, h⟩ := g3 0 (by omega)
    rw [hz] at h
    simp at h
    linarith
  subst hk
  have hl : lk = m.fine := by
    have : m.levels[0]? = some m.fine := rfl
    rw [this] at g2
    injection g2 with g2
    exact g2.symm
  subst hl
  have hsc : m.fine.scale = some (s * 2 ^ 0) := by
    rcases g4 with ⟨-, e, -⟩ | ⟨e, -⟩
    · exact e
    · omega
  have hone : ∀ sp : ScanPoint, oope (obstacleOf ⟨pointRect t, true⟩ (movedPose pose t) sp)
      (moveCenter (pointRect t) (obstacleOf ⟨pointRect t, true⟩ (movedPose pose t) sp)) =
      some (api.impact (m.fine.cells (worldToCell s ⟨sp.x + (pose.x + t.x), sp.y + (pose.y + t.y)⟩))) := by
    intro sp
    have hq : obstacleOf ⟨pointRect t, true⟩ (movedPose pose t) sp = ⟨sp.x + (pose.x + t.x), sp.y + (pose.y + t.y)⟩ := by
      simp [obstacleOf, ScanPoint.move, movedPose]
    rw [hq]
    set q : Point ℝ := ⟨sp.x + (pose.x + t.x), sp.y + (pose.y + t.y)⟩ with hqd
    have hmv : moveCenter (pointRect t) q = pointRect q := by
      simp [moveCenter, pointRect, hside, vside]
    rw [hmv]
    obtain ⟨cells, c1, c2⟩ := e2 q (pointRect q)
    obtain ⟨v, v1, v2, -⟩ := max_estimate (fun c => some (api.impact (m.fine.cells c))) cells fun c _ =>
      ⟨_, rfl, h01 _ (hP m.fine (by simp [MMap.levels]) c)⟩
    rw [c2, v1]
    obtain ⟨s1, s2⟩ := scored_pointRect q
    have hin : q ∈ points (pointRect q) := ⟨le_rfl, le_rfl, le_rfl, le_rfl⟩
    have hcell : GridView.worldToCell ⟨d, o, m.fine.scale⟩ q = worldToCell s q := by
      rw [hsc]; simp [GridView.worldToCell]
    have h1 := raster_has_point s hs 0 m.fine.scale (.inl hsc) d o _ s1 s2 cells c1 q hin
    rw [hcell] at h1
    have h2 := v2.1 _ h1 _ rfl
    rcases v2.2 with ⟨he, -⟩ | ⟨c, hc, e⟩
    · rw [he] at h1; simp at h1
    · obtain ⟨z, z1, z2⟩ := raster_cell_has_point s hs 0 m.fine.scale (.inl hsc) d o _ s1 s2 cells c1 c hc
      have hzq : z = q := by
        obtain ⟨a1, a2, a3, a4⟩ := z1
        simp only [pointRect] at a1 a2 a3 a4
        cases z
        simp only [hqd, Point.mk.injEq] at *
        exact ⟨le_antisymm a2 a1, le_antisymm a4 a3⟩
      rw [hzq, hcell] at z2
      subst z2
      rw [Option.some.injEq] at e
      rw [Option.some.injEq]
      exact e.symm
  have := (score_is_weighted_mean oope spw ⟨pointRect t, true⟩ (movedPose pose t) (scan rot)
    ((scan rot).map fun sp => api.impact (m.fine.cells (worldToCell s ⟨sp.x + (pose.x + t.x), sp.y + (pose.y + t.y)⟩))) ws
    hw.plain (by
      rw [List.forall₂_map_right_iff, List.forall₂_same]
      intro sp _
      exact hone sp) hw.len hw.given).2 hw.sum
  unfold rangeBound at e3
  rw [center_pointRect, this] at e3
  injection e3 with e3; injection e3 with e3
  exact e3.symm

/-- The bound of a range of the search is not less than the score of a translation of it, up to a tolerance for each level,
if the points get to known cells under the translation — or whatever the cells, if unknown ones have the least impact. -/
theorem score_bounded {C O : Type} (api : CellApi ℝ C O) (P : C → Prop) (h01 : ∀ v, P v → Unit01 (api.impact v)) (s : ℝ)
    (hs : 0 < s) (n : Nat) (hn : 1 ≤ n) (m : MMap ℝ C) (hi : Inv api s n m) (hP : ∀ l ∈ m.levels, ∀ d, P (l.cells d))
    (spw : Spw) (pose : Score.Pose) (scan : ℝ → List ScanPoint) (S : Search ℝ) (hS : Scores api m spw pose scan S) (req : Nat)
    (rot : ℝ) (ws : List ℝ) (hw : TurnedWeights spw (scan rot) ws) (t : Point ℝ)
    (hk : (∀ v w, P v → P w → api.unknown v = true → api.impact v ≤ api.impact w) ∨
      ∀ sp ∈ scan rot, api.unknown (m.fine.cells (worldToCell s ⟨sp.x + (pose.x + t.x), sp.y + (pose.y + t.y)⟩)) = false)
    (r : Bounds ℝ) (hr : Scored r) (ht : t ∈ points r) (hbig : max (vside r) (hside r) ≤ s * 2 ^ (n - 1)) :
    S.score req rot (pointRect t) ≤ S.score req rot r + ((n - 1 : Nat) : ℝ) * (1 / 10 ^ 7) := by
  obtain ⟨N, hN, hp⟩ := hi.pyr
  obtain ⟨lf, df, of', oF, a1, a2, a3⟩ := hS req rot (pointRect t)
  obtain ⟨lc, dc, oc, oC, b1, b2, b3⟩ := hS req rot r
  obtain ⟨j, lj, q1, q2, q3, q4⟩ := levelFor_spec s N m hp (max (vside (pointRect t)) (hside (pointRect t)))
  obtain ⟨k, lk, g1, g2, g3, g4⟩ := levelFor_spec s N m hp (max (vside r) (hside r))
  rw [q1] at a1; injection a1 with a1; subst a1
  rw [g1] at b1; injection b1 with b1; subst b1
  have hz : max (vside (pointRect t)) (hside (pointRect t)) = 0 := by simp [vside, hside, pointRect]
  have hj : j = 0 := by
    by_contra hj
    obtain ⟨-, h⟩ := q3 0 (by omega)
    rw [hz] at h
    simp at h
    linarith
  subst hj
  have hl0 : m.levels[0]? = some m.fine := rfl
  have hl : lj = m.fine := by rw [hl0] at q2; injection q2 with q2; exact q2.symm
  subst hl
  have hsc : m.fine.scale = some s := by
    rcases q4 with ⟨-, e, -⟩ | ⟨e, -⟩
    · simpa using e
    · omega
  have hkn : k ≤ n - 1 := by
    by_contra hc
    obtain ⟨-, h2⟩ := g3 (n - 1) (by omega)
    linarith
  have sck : lk.scale = some (s * 2 ^ k) ∨ lk.scale = none := by
    rcases g4 with ⟨-, e, -⟩ | ⟨-, e⟩
    · exact .inl e
    · exact .inr e
  have hfine : ∀ c, m.fine.at s c = m.fine.cells c := by
    intro c
    unfold MLevel.at
    rw [hsc]
    have := covering_floor s hs 0 c
    simp at this
    rw [this]
  have hkr : ((k : Nat) : ℝ) ≤ ((n - 1 : Nat) : ℝ) := by exact_mod_cast hkn
  rw [hsc] at a2
  obtain ⟨v, b, v1, v2, v3⟩ := range_bound_admissible s (((n - 1 : Nat) : ℝ) * (1 / 10 ^ 7)) hs k lk.scale sck df dc of' oc
    (fun c => api.impact (m.fine.cells c)) (fun c => api.impact (lk.cells c))
    (fun c => h01 _ (hP m.fine (by simp [MMap.levels]) c)) (fun c => h01 _ (hP lk (List.mem_of_getElem? g2) c)) oF oC a2 b2
    spw true pose (scan rot) hw.plain ws hw.len hw.given hw.nonneg hw.sum r hr.1 hr.2 t ht (by
      intro sp hsp c hc
      have hq : obstacleOf ⟨pointRect t, true⟩ (movedPose pose t) sp = ⟨sp.x + (pose.x + t.x), sp.y + (pose.y + t.y)⟩ := by
        simp [obstacleOf, ScanPoint.move, movedPose]
      rw [hq] at hc
      have main : api.impact (m.fine.at s c) ≤ api.impact (lk.at s c) + ((k - 0 : Nat) : ℝ) * tol := by
        rcases hk with hmin | hknown
        · exact levels_monotone api P hmin s n m hi hP 0 k m.fine lk (by omega) (.inl (by omega)) hl0 g2 c
        · rcases Nat.eq_zero_or_pos k with rfl | hpos
          · rw [hl0] at g2; injection g2 with g2; subst g2
            have : (0 : ℝ) ≤ ((0 - 0 : Nat) : ℝ) * tol := by simp
            linarith
          · refine (hi.bnd 0 k m.fine lk hpos (.inl (by omega)) hl0 g2 c ?_).2
            rw [hfine, hc]
            exact hknown sp hsp
      rw [hfine] at main
      have e : api.impact (lk.at s c) = api.impact (lk.cells (covering s lk.scale c)) := rfl
      rw [e] at main
      unfold tol at main
      simp only [Nat.sub_zero] at main
      have : (k : ℝ) * (1 / 10 ^ 7) ≤ ((n - 1 : Nat) : ℝ) * (1 / 10 ^ 7) :=
        mul_le_mul_of_nonneg_right hkr (by positivity)
      linarith)
  unfold translationScore at v1
  unfold rangeBound at a3
  rw [center_pointRect, v1] at a3
  rw [v2] at b3
  injection a3 with a3; injection a3 with a3
  injection b3 with b3; injection b3 with b3
  rw [← a3, ← b3]
  exact v3

/-- The scores of a search are not negative. -/
theorem scores_nonneg {C O : Type} (api : CellApi ℝ C O) (P : C → Prop) (h01 : ∀ v, P v → Unit01 (api.impact v)) (s : ℝ)
    (n : Nat) (m : MMap ℝ C) (hi : Inv api s n m) (hP : ∀ l ∈ m.levels, ∀ d, P (l.cells d)) (spw : Spw) (pose : Score.Pose)
    (scan : ℝ → List ScanPoint) (S : Search ℝ) (hS : Scores api m spw pose scan S) (W : ℝ → List ℝ)
    (hw : ∀ rot, TurnedWeights spw (scan rot) (W rot)) : ∀ q a r, 0 ≤ S.score q a r := by
  intro q a r
  obtain ⟨l, d, o, oope, e1, e2, e3⟩ := hS q a r
  obtain ⟨N, hN, hp⟩ := hi.pyr
  obtain ⟨k, lk, g1, g2, -, -⟩ := levelFor_spec s N m hp (max (vside r) (hside r))
  rw [g1] at e1; injection e1 with e1; subst e1
  have ho : ∀ q a, ∃ x, oope q a = some x ∧ Unit01 x := by
    intro q a
    obtain ⟨cells, -, c2⟩ := e2 q a
    obtain ⟨x, x1, -, x3⟩ := max_estimate (fun c => some (api.impact (lk.cells c))) cells fun c _ =>
      ⟨_, rfl, h01 _ (hP lk (List.mem_of_getElem? g2) c)⟩
    exact ⟨x, by rw [c2]; exact x1, x3⟩
  choose val hv1 hv2 using ho
  have := (score_is_weighted_mean oope spw ⟨r, true⟩ (movedPose pose (center r)) (scan a)
    ((scan a).map fun sp => val (obstacleOf ⟨r, true⟩ (movedPose pose (center r)) sp)
      (moveCenter r (obstacleOf ⟨r, true⟩ (movedPose pose (center r)) sp))) (W a) (hw a).plain (by
      rw [List.forall₂_map_right_iff, List.forall₂_same]
      intro sp _
      exact hv1 _ _) (hw a).len (hw a).given).2 (hw a).sum
  unfold rangeBound at e3
  rw [this] at e3
  injection e3 with e3; injection e3 with e3
  rw [← e3]
  refine (weightedMean_between _ _ 0 1 (by simp [(hw a).len]) (hw a).nonneg (hw a).sum ?_).1
  intro y hy
  simp only [List.mem_map] at hy
  obtain ⟨sp, -, rfl⟩ := hy
  exact hv2 _ _

/-- What a search ends with: a rotation of the request and a translation of the window, scoring at least as much as every
candidate all whose points get to known cells. -/
theorem search_result {C O : Type} (api : CellApi ℝ C O) (P : C → Prop) (h01 : ∀ v, P v → Unit01 (api.impact v)) (s : ℝ)
    (hs : 0 < s) (n : Nat) (hn : 1 ≤ n) (m : MMap ℝ C) (hi : Inv api s n m) (hP : ∀ l ∈ m.levels, ∀ d, P (l.cells d))
    (spw : Spw) (pose : Score.Pose) (scan : ℝ → List ScanPoint) (S : Search ℝ) (hS : Scores api m spw pose scan S)
    (hd : S.diff = 0) (W : ℝ → List ℝ) (hw : ∀ rot, TurnedWeights spw (scan rot) (W rot)) (X Y sector res δ step : ℝ) (hX : 0 < X)
    (hY : 0 < Y) (hsec : 0 ≤ sector) (hres : 0 < res) (hδ : 0 ≤ δ) (hstep : 1 / 2 ^ 52 ≤ step) (fuel : Nat) (e : Engine ℝ)
    (x : Match ℝ) (he : Engine.init.request S X Y sector res fuel 0 = some e) (hx : Result S δ step e x) :
    (∃ k : Nat, (x.rot = k * res ∨ x.rot = -(k * res)) ∧ lessOrEqual (2 * (k * res)) sector = true) ∧
    (∃ t, x.drift = pointRect t ∧ t ∈ points (entireRange X Y) ∧ S.ub x = S.score 0 x.rot (pointRect t)) ∧
    (2 * X ≤ s * 2 ^ (n - 1) → 2 * Y ≤ s * 2 ^ (n - 1) → ∀ a, IsRotation sector res a → ∀ t, IsTranslation X Y step t →
      ((∀ v w, P v → P w → api.unknown v = true → api.impact v ≤ api.impact w) ∨
        ∀ sp ∈ scan a, api.unknown (m.fine.cells (worldToCell s ⟨sp.x + (pose.x + t.x), sp.y + (pose.y + t.y)⟩)) = false) →
      S.score 0 a (pointRect t) ≤ S.ub x + δ + ((n - 1 : Nat) : ℝ) * (1 / 10 ^ 7)) := by
  have h0 := scores_nonneg api P h01 s n m hi hP spw pose scan S hS W hw
  have hη : (0 : ℝ) ≤ ((n - 1 : Nat) : ℝ) * (1 / 10 ^ 7) := by positivity
  obtain ⟨⟨h1, h2, t, h3, h4, h5⟩, h6⟩ := result_beats S X Y _ δ hη hδ hd.ge h0 sector res step hX.le hY.le hsec hres hstep
    fuel [0] (by simp) e x (by simp only [Engine.requests, he, Option.bind_some]) hx
  have hreq : x.req = 0 := by simpa using h1
  refine ⟨h2, ⟨t, h3, h4, by rw [h5, hreq]⟩, ?_⟩
  intro hwx hwy a ha t' ht' hk
  refine h6 0 (by simp) a ha t' ht' ?_
  intro r hr hsub hin
  refine score_bounded api P h01 s hs n hn m hi hP spw pose scan S hS 0 a (W a) (hw a) t' hk r ?_ hin ?_
  · refine ⟨hr.1, .inl ?_⟩
    unfold area
    exact mul_ne_zero (hr.2.2 hY).ne' (hr.2.1 hX).ne'
  · have c1 := hsub (show (⟨r.left, r.bot⟩ : Point ℝ) ∈ points r from ⟨le_rfl, hr.1.2, le_rfl, hr.1.1⟩)
    have c2 := hsub (show (⟨r.right, r.top⟩ : Point ℝ) ∈ points r from ⟨hr.1.2, le_rfl, hr.1.1, le_rfl⟩)
    obtain ⟨a1, a2, a3, a4⟩ := c1
    obtain ⟨b1, b2, b3, b4⟩ := c2
    simp only [entireRange] at a1 a2 a3 a4 b1 b2 b3 b4
    apply max_le <;> simp only [vside, hside] <;> linarith

end Slam.Multires
