import Verif.Multires.Branching
import Verif.Whole.OwnProps

/-!
# C94: the kinds of cells for which the bounding assumption holds, and those for which it does not
-/

set_option autoImplicit false
set_option linter.unusedSectionVars false

namespace Slam.Multires
open Slam.Grid Slam.Rect Slam.Score Slam.Sensor Slam.Cells Slam.Tbm
open Slam.Whole (CellKind Impact Fits impact_unit impact_meaning cell_kinds)

/-! ## Model -/

/-- A multi-resolution map of cells of a kind: the impact is that of `estimate_obstacle_impact`,
src/core/scan_matchers/grid_scan_matcher.h:40-42, m3rsm_engine.h:67-69. (For the kinds of cells other than GMapping's it does
not depend on where the obstacle is.) -/
noncomputable def kindApi (k : CellKind) (i : Impact) : CellApi ℝ k.Cell (Aoo ℝ) :=
  ⟨k.upd, k.unknown, fun c => (k.impact i ⟨0, 0⟩ c).getD 0, k.proto⟩

/-- The observations that change a cell: valid ones, with probabilities and qualities within `[0, 1]`. -/
def Telling (o : Aoo ℝ) : Prop := SaneT [o] ∧ o.occ ≠ none

/-- The cells observations can make. -/
def Reached (k : CellKind) (c : k.Cell) : Prop := ∃ as : List (Aoo ℝ), SaneT as ∧ c = as.foldl k.upd k.proto

/-! ## What holds of every kind -/

theorem saneT_append {as bs : List (Aoo ℝ)} (ha : SaneT as) (hb : SaneT bs) : SaneT (as ++ bs) := by
  intro a h
  rcases List.mem_append.1 h with h | h
  · exact ha a h
  · exact hb a h

theorem kind_closed (k : CellKind) (i : Impact) (hf : Fits k i) : Closed (kindApi k i) (Reached k) Telling where
  proto := ⟨[], by intro a h; simp at h, rfl⟩
  protoUnknown := ((cell_kinds k [] (by intro a h; simp at h)).2.1).2 rfl
  upd := by
    rintro v o ⟨as, hs, rfl⟩ ⟨h1, h2⟩
    have hs' := saneT_append hs h1
    have he : (kindApi k i).upd (as.foldl k.upd k.proto) o = (as ++ [o]).foldl k.upd k.proto := by
      rw [List.foldl_append]; rfl
    refine ⟨⟨_, hs', he⟩, ?_⟩
    rw [he]
    cases hu : (kindApi k i).unknown ((as ++ [o]).foldl k.upd k.proto) with
    | false => rfl
    | true =>
      exfalso
      have := ((cell_kinds k _ hs').2.1).1 hu
      obtain ⟨v, hv⟩ := Option.ne_none_iff_exists'.1 h2
      simp [valids, hv] at this
  range := by
    rintro v ⟨as, hs, rfl⟩
    obtain ⟨x, hx, hu⟩ := impact_unit k i hf as hs ⟨0, 0⟩
    simp only [kindApi, hx, Option.getD_some]
    exact hu

/-- Credibilist belief cells: unknown ones have no mass of "occupied", so no impact. -/
theorem credibilist_unknown_least (v w : (CellKind.tbm .credibilist).Cell) (hv : Reached _ v) (hw : Reached _ w)
    (hu : (kindApi (.tbm .credibilist) .discrepancy).unknown v = true) :
    (kindApi (.tbm .credibilist) .discrepancy).impact v ≤ (kindApi (.tbm .credibilist) .discrepancy).impact w := by
  have h0 : 0 ≤ (kindApi (.tbm .credibilist) .discrepancy).impact w := ((kind_closed _ .discrepancy trivial).range w hw).1
  refine le_trans (le_of_eq ?_) h0
  obtain ⟨as, hs, rfl⟩ := hv
  have hv0 : valids as = [] := ((cell_kinds (.tbm .credibilist) as hs).2.1).1 hu
  have hfold : ∀ (as : List (Aoo ℝ)) (c : TCell ℝ), valids as = [] → as.foldl (TCell.observe .credibilist) c = c := by
    intro as
    induction as with
    | nil => intro c _; rfl
    | cons a as ih =>
      intro c h
      cases ho : a.occ with
      | some o => simp [valids, ho] at h
      | none =>
        have h' : valids as = [] := by simpa [valids, ho] using h
        rw [List.foldl_cons]
        have : TCell.observe .credibilist c a = c := by simp [TCell.observe, ho]
        rw [this]
        exact ih c h'
  have hc : (as.foldl (CellKind.upd (.tbm .credibilist)) (CellKind.proto (.tbm .credibilist))) = TCell.run .credibilist [] :=
    hfold as _ hv0
  have := (impact_meaning [] (by intro a h; simp at h) ⟨0, 0⟩).2.2.2.1 _ rfl
  show ((CellKind.tbm .credibilist).impact .discrepancy ⟨0, 0⟩ _).getD 0 = 0
  rw [hc]
  refine (congrArg (fun x => Option.getD x 0) this).trans ?_
  simp [TCell.run, TCell.create, TBM.mass, TBM.dflt]

/-- The weights of the points, whichever way the scan is turned: non-negative and not all zero; the points are plain ones. -/
def Weighable (spw : Spw) (scan : ℝ → List ScanPoint) : Prop :=
  ∀ rot, (∀ p ∈ scan rot, p.factor = 1) ∧ ∃ ws : List ℝ, ws.length = (scan rot).length ∧
    (∀ i, i < (scan rot).length → spw.weight (scan rot) i = ws[i]?) ∧ (∀ w ∈ ws, 0 ≤ w) ∧ ws.sum ≠ 0

/-- **C94, credibilist belief cells**: on any multi-resolution map of them — made by valid observations and resets to cells
valid observations can make — no search for a scan of usable points, of a window that fits into a cell of the coarsest initial
finite level, can fail the assertion of `branch`. -/
theorem credibilist_search_keeps_bounds (s : ℝ) (hs : 2 / 10 ^ 9 < s) (n : Nat) (hn : 1 ≤ n) (hn2 : n ≤ 101) (mfuel : Nat)
    (hf : 1 ≤ mfuel) (ops : List (MOp (TCell ℝ) (Aoo ℝ)))
    (hops : ∀ op ∈ ops, op.Ok (kindApi (.tbm .credibilist) .discrepancy) (Reached (.tbm .credibilist)) Telling) :
    ∃ m, (MMap.create (kindApi (.tbm .credibilist) .discrepancy) s n).run (kindApi (.tbm .credibilist) .discrepancy) mfuel s
        ops = some m ∧
      ∀ (spw : Spw) (pose : Score.Pose) (scan : ℝ → List ScanPoint), Weighable spw scan →
      ∀ S, Scores (kindApi (.tbm .credibilist) .discrepancy) m spw pose scan S →
      ∀ (X Y sector res δ step : ℝ), 0 < X → 0 < Y → 2 * X ≤ s * 2 ^ (n - 1) → 2 * Y ≤ s * 2 ^ (n - 1) → 1 / 2 ^ 52 ≤ step →
      ∀ (fuel req : Nat) (e e' : Engine ℝ), Engine.init.request S X Y sector res fuel req = some e →
        Relation.ReflTransGen (SearchStep S δ step) e e' → ¬ Trips S δ step e' := by
  have hc := kind_closed (.tbm .credibilist) .discrepancy trivial
  obtain ⟨m, h1, h2, h3⟩ := run_closed _ _ _ hc s hs n hn mfuel hf ops hops
  refine ⟨m, h1, ?_⟩
  intro spw pose scan hw S hS X Y sector res δ step hX hY hwx hwy hstep fuel req e e' he hr
  exact branch_assertion_holds _ _ hc.range credibilist_unknown_least s (lt_trans (by positivity) hs) n hn hn2 m h2 h3 spw pose
    scan S hS hw X Y sector res δ step hX hY ⟨hwx, hwy⟩ hstep fuel req e e' he hr

/-! ## Scores exist -/

/-- On every map of sane cells there is a search that scores as the code does. -/
theorem scores_exist {C O : Type} (api : CellApi ℝ C O) (P : C → Prop) (h01 : ∀ v, P v → Unit01 (api.impact v)) (s : ℝ)
    (n : Nat) (m : MMap ℝ C) (hi : Inv api s n m) (hP : ∀ l ∈ m.levels, ∀ d, P (l.cells d)) (spw : Spw) (pose : Score.Pose)
    (scan : ℝ → List ScanPoint) (hw : Weighable spw scan) (diff : ℝ) :
    ∃ S : Search ℝ, S.diff = diff ∧ Scores api m spw pose scan S ∧ ∀ q a r, Unit01 (S.score q a r) := by
  obtain ⟨N, hN, hp⟩ := hi.pyr
  have key : ∀ (rot : ℝ) (r : Bounds ℝ), ∃ v : ℝ, Unit01 v ∧
      ∃ (l : MLevel ℝ C) (d : Dims) (o : Coord) (oope : Point ℝ → Bounds ℝ → Option ℝ),
        levelFor m (max (vside r) (hside r)) = some l ∧
        IsMaxOope ⟨d, o, l.scale⟩ (fun c => api.impact (l.cells c)) oope ∧
        rangeBound oope spw true pose (scan rot) r = some (some v) := by
    intro rot r
    obtain ⟨k, l, g1, g2, -, -⟩ := levelFor_spec s N m hp (max (vside r) (hside r))
    have hex : ∀ a : Bounds ℝ, ∃ cells, Rasterizes (⟨⟨0, 0⟩, ⟨0, 0⟩, l.scale⟩ : GridView ℝ) (.finite a) true cells := fun a =>
      let ⟨c, h, _⟩ := raster_enumerates_once (⟨⟨0, 0⟩, ⟨0, 0⟩, l.scale⟩ : GridView ℝ) (.finite a) true
      ⟨c, h⟩
    choose cells hc using hex
    let oope : Point ℝ → Bounds ℝ → Option ℝ := fun _ a => maxPE (fun c => some (api.impact (l.cells c))) (cells a)
    have ho : ∀ q a, ∃ x, oope q a = some x ∧ Unit01 x := by
      intro q a
      obtain ⟨x, x1, -, x3⟩ := max_estimate (fun c => some (api.impact (l.cells c))) (cells a) fun c _ =>
        ⟨_, rfl, h01 _ (hP l (List.mem_of_getElem? g2) c)⟩
      exact ⟨x, x1, x3⟩
    obtain ⟨hfac, ws, w1, w2, w3, w4⟩ := hw rot
    obtain ⟨xs, hxs, hu⟩ : ∃ xs : List ℝ, List.Forall₂ (fun sp x =>
        oope (obstacleOf ⟨r, true⟩ (movedPose pose (center r)) sp)
          (moveCenter r (obstacleOf ⟨r, true⟩ (movedPose pose (center r)) sp)) = some x) (scan rot) xs ∧
        ∀ x ∈ xs, 0 ≤ x ∧ x ≤ 1 := by
      generalize scan rot = pts
      induction pts with
      | nil => exact ⟨[], .nil, by simp⟩
      | cons p ps ih =>
        obtain ⟨x, h1, h2⟩ := ho (obstacleOf ⟨r, true⟩ (movedPose pose (center r)) p)
          (moveCenter r (obstacleOf ⟨r, true⟩ (movedPose pose (center r)) p))
        obtain ⟨xs, i1, i2⟩ := ih
        refine ⟨x :: xs, .cons h1 i1, ?_⟩
        intro y hy
        rcases List.mem_cons.1 hy with rfl | hy
        · exact h2
        · exact i2 y hy
    refine ⟨weightedMean xs ws, weightedMean_between xs ws 0 1 (by rw [w1]; exact hxs.length_eq) w3 w4 hu, l, ⟨0, 0⟩, ⟨0, 0⟩,
      oope, g1, fun q a => ⟨cells a, hc a, rfl⟩, ?_⟩
    exact (score_is_weighted_mean oope spw ⟨r, true⟩ (movedPose pose (center r)) (scan rot) xs ws hfac hxs w1 w2).2 w4
  choose f hf1 hf2 using key
  exact ⟨⟨fun _ rot r => f rot r, diff⟩, rfl, fun _ rot r => hf2 rot r, fun _ rot r => hf1 rot r⟩

/-- The score of a range, for a scan of one point: the greatest impact the level chosen for the range says of a place the point
gets to under a translation of the range. -/
theorem one_point_score {C O : Type} (api : CellApi ℝ C O) (P : C → Prop) (h01 : ∀ v, P v → Unit01 (api.impact v)) (s : ℝ)
    (hs : 0 < s) (n : Nat) (m : MMap ℝ C) (hi : Inv api s n m) (hP : ∀ l ∈ m.levels, ∀ d, P (l.cells d)) (pose : Score.Pose)
    (x y : ℝ) (S : Search ℝ) (hS : Scores api m (.even 1) pose (fun _ => [.cartesian x y true 1]) S) (req : Nat) (rot : ℝ)
    (r : Bounds ℝ) (hr : Scored r) :
    ∃ l, levelFor m (max (vside r) (hside r)) = some l ∧
      (∀ t ∈ points r, api.impact (l.at s (worldToCell s ⟨x + pose.x + t.x, y + pose.y + t.y⟩)) ≤ S.score req rot r) ∧
      ∃ t ∈ points r, api.impact (l.at s (worldToCell s ⟨x + pose.x + t.x, y + pose.y + t.y⟩)) = S.score req rot r := by
  obtain ⟨N, hN, hp⟩ := hi.pyr
  obtain ⟨l, d, o, oope, e1, e2, e3⟩ := hS req rot r
  obtain ⟨k, lk, g1, g2, g3, g4⟩ := levelFor_spec s N m hp (max (vside r) (hside r))
  rw [g1] at e1; injection e1 with e1; subst e1
  have sck : lk.scale = some (s * 2 ^ k) ∨ lk.scale = none := by
    rcases g4 with ⟨-, e, -⟩ | ⟨-, e⟩
    · exact .inl e
    · exact .inr e
  refine ⟨lk, g1, ?_⟩
  set q := obstacleOf ⟨r, true⟩ (movedPose pose (center r)) (.cartesian x y true 1) with hq
  have hqv : q = ⟨x + (pose.x + (center r).x), y + (pose.y + (center r).y)⟩ := by
    simp [hq, obstacleOf, ScanPoint.move, movedPose, ScanPoint.x, ScanPoint.y]
  obtain ⟨cells, c1, c2⟩ := e2 q (moveCenter r q)
  obtain ⟨v, v1, v2, -⟩ := max_estimate (fun c => some (api.impact (lk.cells c))) cells fun c _ =>
    ⟨_, rfl, h01 _ (hP lk (List.mem_of_getElem? g2) c)⟩
  rw [v1] at c2
  have hval : S.score req rot r = v := by
    have := (score_is_weighted_mean oope (.even 1) ⟨r, true⟩ (movedPose pose (center r)) [.cartesian x y true 1] [v] [1]
      (by simp [ScanPoint.factor]) (.cons c2 .nil) rfl (by intro i hi; simp at hi; subst hi; rfl)).2 (by simp)
    unfold rangeBound at e3
    rw [this] at e3
    injection e3 with e3; injection e3 with e3
    rw [← e3]
    simp [weightedMean]
  rw [hval]
  have hmv : Scored (moveCenter r q) := by
    have f1 : hside (moveCenter r q) = hside r := by simp only [moveCenter, hside]; ring
    have f2 : vside (moveCenter r q) = vside r := by simp only [moveCenter, vside]; ring
    refine ⟨?_, ?_⟩
    · obtain ⟨h1, h2⟩ := hr.1
      simp only [Proper, moveCenter, vside, hside]
      exact ⟨by linarith, by linarith⟩
    · unfold area
      rw [f1, f2]
      exact hr.2
  constructor
  · intro t ht
    have hin : (⟨x + pose.x + t.x, y + pose.y + t.y⟩ : Point ℝ) ∈ points (moveCenter r q) := by
      obtain ⟨t1, t2, t3, t4⟩ := ht
      rw [hqv]
      simp only [points, moveCenter, center, hside, vside, Set.mem_ofPred_eq]
      exact ⟨by linarith, by linarith, by linarith, by linarith⟩
    have := raster_has_point s hs k lk.scale sck d o _ hmv.1 hmv.2 cells c1 _ hin
    rw [covering_point s hs k lk.scale sck] at this
    exact v2.1 _ this _ rfl
  · rcases v2.2 with ⟨he, -⟩ | ⟨c, hc, e⟩
    · exfalso
      have := raster_has_point s hs k lk.scale sck d o _ hmv.1 hmv.2 cells c1 ⟨(moveCenter r q).left, (moveCenter r q).bot⟩
        ⟨le_rfl, hmv.1.2, le_rfl, hmv.1.1⟩
      rw [he] at this
      simp at this
    · obtain ⟨z, z1, z2⟩ := raster_cell_has_point s hs k lk.scale sck d o _ hmv.1 hmv.2 cells c1 c hc
      rw [covering_point s hs k lk.scale sck] at z2
      refine ⟨⟨z.x - x - pose.x, z.y - y - pose.y⟩, ?_, ?_⟩
      · obtain ⟨t1, t2, t3, t4⟩ := z1
        rw [hqv] at t1 t2 t3 t4
        simp only [moveCenter, center, hside, vside] at t1 t2 t3 t4
        simp only [points, Set.mem_ofPred_eq]
        exact ⟨by linarith, by linarith, by linarith, by linarith⟩
      · have hz : (⟨x + pose.x + (z.x - x - pose.x), y + pose.y + (z.y - y - pose.y)⟩ : Point ℝ) = z := by
          cases z
          simp only [Point.mk.injEq]
          exact ⟨by ring, by ring⟩
        unfold MLevel.at
        simp only [hz, z2]
        simpa using e

/-! ## Where the assertion fails -/

theorem step_fine {K C O : Type*} [Field K] [LinearOrder K] [IsStrictOrderedRing K] [FloorRing K] (api : CellApi K C O) (fuel : Nat)
    (s : K) (m m' : MMap K C) (op : MOp C O) (h : m.step api fuel s op = some m') :
    m'.fine = m.fine.set (op.effect api m).1 (op.effect api m).2.1 := by
  simp only [MMap.step, Option.map_eq_some_iff] at h
  obtain ⟨ls, -, rfl⟩ := h
  rfl

/-- A beam that went through, and one that ended, as the default estimator tells them. -/
noncomputable def seenFree : Aoo ℝ := ⟨false, some ⟨1 / 100, 1⟩, ⟨0, 0⟩, 1⟩

@[inherit_doc seenFree]
noncomputable def seenHit : Aoo ℝ := ⟨true, some ⟨19 / 20, 1⟩, ⟨0, 0⟩, 1⟩

theorem telling_free : Telling seenFree := by
  refine ⟨?_, by simp [seenFree]⟩
  intro a ha o ho
  rw [List.mem_singleton] at ha
  subst ha
  simp only [seenFree, Option.some.injEq] at ho
  subst ho
  refine ⟨⟨?_, ?_⟩, ⟨?_, ?_⟩, ⟨?_, ?_⟩⟩ <;> norm_num [seenFree]

theorem telling_hit : Telling seenHit := by
  refine ⟨?_, by simp [seenHit]⟩
  intro a ha o ho
  rw [List.mem_singleton] at ha
  subst ha
  simp only [seenHit, Option.some.injEq] at ho
  subst ho
  refine ⟨⟨?_, ?_⟩, ⟨?_, ?_⟩, ⟨?_, ?_⟩⟩ <;> norm_num [seenHit]

theorem mean_impact (p : ℝ) (hp : Unit01 p) (q : ℝ) (u : Bool) (n : ℝ) :
    (kindApi .mean .discrepancy).impact (⟨⟨p, q⟩, u, n⟩ : MeanCell ℝ) = p := by
  have := (Matcher.naive_impact p hp ⟨0, 0⟩).2.2 q u n
  show ((CellKind.mean).impact .discrepancy ⟨0, 0⟩ _).getD 0 = p
  exact (congrArg (fun x => Option.getD x 0) this).trans rfl

/-- The cell (0, 0) was seen free, and so was (1, 0) before something appeared there. -/
noncomputable def appeared : List (MOp CellKind.mean.Cell (Aoo ℝ)) :=
  [.update ⟨0, 0⟩ seenFree 0, .update ⟨1, 0⟩ seenFree 0, .update ⟨1, 0⟩ seenHit 0]

/-- **C94, where it fails**: averaging cells, a map of scale 1 with two initial levels and the default limits of probabilities.
After the cell (0, 0) has been seen free, and (1, 0) once free and once occupied, a scan of one point at (0.9, 0.9) is matched
within a window of 0.75 each way: whatever match the engine takes from its queue, the assertion of `branch` fails, since the
unknown cell (0, 1) has more impact (one half) than the coarse cell over all four (0.48). -/
theorem unknown_cell_abort_counterexample :
    ∃ m, (MMap.create (kindApi .mean .discrepancy) 1 2).run (kindApi .mean .discrepancy) 1 1 appeared = some m ∧
      (∃ S : Search ℝ, S.diff = 0 ∧
        Scores (kindApi .mean .discrepancy) m (.even 1) ⟨0, 0, 0⟩ (fun _ => [.cartesian (9 / 10) (9 / 10) true 1]) S) ∧
      ∀ S : Search ℝ, S.diff = 0 →
        Scores (kindApi .mean .discrepancy) m (.even 1) ⟨0, 0, 0⟩ (fun _ => [.cartesian (9 / 10) (9 / 10) true 1]) S →
        ∃ e, Engine.init.request S (3 / 4) (3 / 4) 0 1 2 0 = some e ∧ (∃ x e1, Pop S 0 e x e1) ∧
          ∀ x e1, Pop S 0 e x e1 →
            ∃ rs, finer (1 / 20) x.drift = some rs ∧ ∃ r ∈ rs, ¬ BoundKept S x (x.narrow r) := by
  have hcl := kind_closed .mean .discrepancy trivial
  obtain ⟨m, hrun, hi, hR⟩ := run_closed _ _ _ hcl 1 (by norm_num) 2 (by norm_num) 1 le_rfl appeared (by
    intro op hop
    simp only [appeared, List.mem_cons, List.not_mem_nil, or_false] at hop
    rcases hop with rfl | rfl | rfl
    · exact telling_free
    · exact telling_free
    · exact telling_hit)
  refine ⟨m, hrun, ?_, ?_⟩
  · obtain ⟨S, s1, s2, -⟩ := scores_exist _ _ hcl.range 1 2 m hi hR (.even 1) ⟨0, 0, 0⟩
      (fun _ => [.cartesian (9 / 10) (9 / 10) true 1]) (by
        intro rot
        refine ⟨by simp [ScanPoint.factor], [1], rfl, ?_, by simp, by simp⟩
        intro i hi
        simp at hi
        subst hi
        rfl) 0
    exact ⟨S, s1, s2⟩
  -- what the map holds
  set api := kindApi .mean .discrepancy with hapi
  let free : CellKind.mean.Cell := (⟨⟨1 / 100, 1⟩, false, 1⟩ : MeanCell ℝ)
  let half : CellKind.mean.Cell := (⟨⟨48 / 100, 1⟩, false, 2⟩ : MeanCell ℝ)
  have u1 : api.upd api.proto seenFree = free := by
    show MeanCell.observe MeanCell.create seenFree = _
    simp only [MeanCell.observe, MeanCell.create, seenFree, free]
    norm_num
  have u2 : api.upd free seenHit = half := by
    show MeanCell.observe free seenHit = _
    simp only [MeanCell.observe, seenHit, free, half]
    norm_num
  have if1 : api.impact free = 1 / 100 := mean_impact _ (by constructor <;> norm_num) _ _ _
  have if2 : api.impact half = 48 / 100 := mean_impact _ (by constructor <;> norm_num) _ _ _
  have if0 : api.impact api.proto = 1 / 2 := mean_impact _ (by constructor <;> norm_num) _ _ _
  have hu0 : api.unknown api.proto = true := hcl.protoUnknown
  let Q : CellKind.mean.Cell → Prop := fun c => api.unknown c = true ∨ api.impact c ≤ 48 / 100
  have q0 : Q api.proto := .inl hu0
  have q1 : Q free := .inr (by rw [if1]; norm_num)
  have q2 : Q half := .inr (by rw [if2])
  have hmap : (∀ l ∈ m.levels, ∀ d, Q (l.cells d)) ∧ m.fine.cells ⟨0, 0⟩ = free ∧ m.fine.cells ⟨1, 0⟩ = half ∧
      m.fine.cells ⟨0, 1⟩ = api.proto := by
    simp only [appeared, MMap.run, Option.bind_eq_some_iff] at hrun
    obtain ⟨m1, r1, m2, r2, m3, r3, hrun⟩ := hrun
    injection hrun with hrun
    subst hrun
    have f1 := step_fine api 1 1 _ _ _ r1
    have f2 := step_fine api 1 1 _ _ _ r2
    have f3 := step_fine api 1 1 _ _ _ r3
    have c1 : m1.fine.cells = fun d => if d = ⟨0, 0⟩ then free else api.proto := by
      rw [f1]
      simp only [MOp.effect, MLevel.set, MMap.create, u1]
    have c2 : m2.fine.cells = fun d => if d = ⟨1, 0⟩ then free else if d = ⟨0, 0⟩ then free else api.proto := by
      rw [f2]
      simp only [MOp.effect, MLevel.set, c1]
      simp [u1]
    have c3 : m3.fine.cells = fun d => if d = ⟨1, 0⟩ then half else if d = ⟨0, 0⟩ then free else api.proto := by
      rw [f3]
      simp only [MOp.effect, MLevel.set, c2]
      funext d
      by_cases hd : d = ⟨1, 0⟩ <;> simp [hd, u2]
    have a0 : ∀ l ∈ (MMap.create api 1 2).levels, ∀ d, Q (l.cells d) := by
      intro l hl d
      rw [create_cells api 1 2 l hl d]
      exact q0
    have a1 := step_cells api Q q0 1 1 _ _ _ r1 a0 (by
      show Q (api.upd api.proto seenFree)
      rw [u1]; exact q1)
    have a2 := step_cells api Q q0 1 1 _ _ _ r2 a1 (by
      simp only [MOp.effect, c1]
      simpa [u1] using q1)
    have a3 := step_cells api Q q0 1 1 _ _ _ r3 a2 (by
      simp only [MOp.effect, c2]
      simpa [u2] using q2)
    refine ⟨a3, ?_, ?_, ?_⟩ <;> rw [c3] <;> simp
  obtain ⟨hQ, m00, m10, m01⟩ := hmap
  obtain ⟨N, hN, hp⟩ := hi.pyr
  have hlen := hp.length
  have hl0 : m.levels[0]? = some m.fine := rfl
  have hl1 : m.levels[1]? = some m.levels[1] := List.getElem?_eq_getElem (by omega)
  set l1 := m.levels[1] with hl1d
  have sc0 : m.fine.scale = some 1 := by
    rcases hp.scale 0 _ hl0 with ⟨-, e⟩ | ⟨e, -⟩
    · simpa using e
    · omega
  have sc1 : l1.scale = some 2 := by
    rcases hp.scale 1 _ hl1 with ⟨-, e⟩ | ⟨e, -⟩
    · simpa using e
    · omega
  have cov0 : ∀ c, m.fine.at 1 c = m.fine.cells c := by
    intro c
    unfold MLevel.at
    rw [sc0]
    have := covering_floor (1 : ℝ) one_pos 0 c
    simp at this
    rw [this]
  have cov1 : ∀ c : Coord, l1.at 1 c = l1.cells ⟨c.x / 2, c.y / 2⟩ := by
    intro c
    unfold MLevel.at
    rw [sc1]
    have := covering_floor (1 : ℝ) one_pos 1 c
    simp at this
    rw [this]
  have b0 := hi.bnd 0 1 m.fine l1 (by norm_num) (.inl (by norm_num)) hl0 hl1 ⟨0, 0⟩ (by rw [cov0, m00]; rfl)
  have b1 := hi.bnd 0 1 m.fine l1 (by norm_num) (.inl (by norm_num)) hl0 hl1 ⟨1, 0⟩ (by rw [cov0, m10]; rfl)
  rw [cov1, cov0, m00] at b0
  rw [cov1, cov0, m10] at b1
  simp only [Int.zero_ediv] at b0
  norm_num at b1
  have hup : api.impact (l1.cells ⟨0, 0⟩) ≤ 48 / 100 := by
    rcases hQ l1 (List.mem_of_getElem? hl1) ⟨0, 0⟩ with h | h
    · rw [b0.1] at h; cases h
    · exact h
  have hlow : 1 / 100 < api.impact (l1.cells ⟨0, 0⟩) := by
    have := b1.2
    rw [if2] at this
    unfold tol at this
    norm_num at this
    linarith
  -- the scores
  intro S hd hS
  have lev : ∀ t : ℝ, (t ≤ 1 → levelFor m t = some m.fine) ∧ (1 < t → t ≤ 2 → levelFor m t = some l1) := by
    intro t
    obtain ⟨k, l, g1, g2, g3, g4⟩ := levelFor_spec 1 N m hp t
    constructor
    · intro ht
      have : k = 0 := by
        by_contra hk
        have := (g3 0 (by omega)).2
        norm_num at this
        linarith
      subst this
      rw [hl0] at g2
      rw [g1, ← g2]
    · intro ht ht2
      have : k = 1 := by
        have h1 : k ≤ 1 := by
          by_contra hk
          have := (g3 1 (by omega)).2
          norm_num at this
          linarith
        have h0 : k ≠ 0 := by
          rintro rfl
          rcases g4 with ⟨-, -, g⟩ | ⟨g, -⟩
          · norm_num at g
            linarith
          · omega
        omega
      subst this
      rw [hl1] at g2
      rw [g1, ← g2]
  let zero : Match ℝ := ⟨0, 0, pointRect ⟨0, 0⟩⟩
  let whole : Match ℝ := ⟨0, 0, entireRange (3 / 4) (3 / 4)⟩
  have uz : S.ub zero = 1 / 100 := by
    obtain ⟨l, e1, -, t, ht, e3⟩ := one_point_score api _ hcl.range 1 one_pos 2 m hi hR ⟨0, 0, 0⟩ (9 / 10) (9 / 10) S hS 0 0
      (pointRect ⟨0, 0⟩) ⟨pointRect_proper _, .inr (by simp [hside, vside, pointRect])⟩
    rw [(lev _).1 (by simp [hside, vside, pointRect])] at e1
    injection e1 with e1
    subst e1
    obtain ⟨t1, t2, t3, t4⟩ := ht
    simp only [pointRect] at t1 t2 t3 t4
    have hx : t.x = 0 := le_antisymm t2 t1
    have hy : t.y = 0 := le_antisymm t4 t3
    show S.score 0 0 (pointRect ⟨0, 0⟩) = _
    rw [← e3, hx, hy, cov0]
    have : worldToCell (1 : ℝ) ⟨9 / 10 + 0 + 0, 9 / 10 + 0 + 0⟩ = ⟨0, 0⟩ := by
      norm_num [worldToCell]
    rw [this, m00, if1]
  have uw : 1 / 100 < S.ub whole ∧ S.ub whole ≤ 48 / 100 := by
    have hsc : Scored (entireRange (3 / 4 : ℝ) (3 / 4)) :=
      ⟨by norm_num [Proper, entireRange], .inl (by norm_num [area, hside, vside, entireRange])⟩
    obtain ⟨l, e1, -, t, ht, e3⟩ := one_point_score api _ hcl.range 1 one_pos 2 m hi hR ⟨0, 0, 0⟩ (9 / 10) (9 / 10) S hS 0 0
      (entireRange (3 / 4) (3 / 4)) hsc
    rw [(lev _).2 (by norm_num [hside, vside, entireRange]) (by norm_num [hside, vside, entireRange])] at e1
    injection e1 with e1
    subst e1
    obtain ⟨t1, t2, t3, t4⟩ := ht
    simp only [entireRange] at t1 t2 t3 t4
    have hcell : ∀ z : ℝ, 0 ≤ z → z < 2 → (⌊z⌋ : Int) / 2 = 0 := by
      intro z z0 z2
      have h1 : (0 : Int) ≤ ⌊z⌋ := Int.floor_nonneg.2 z0
      have h2 : ⌊z⌋ < 2 := Int.floor_lt.2 (by exact_mod_cast z2)
      omega
    have : api.impact (l1.cells ⟨0, 0⟩) = S.ub whole := by
      show _ = S.score 0 0 (entireRange (3 / 4) (3 / 4))
      rw [← e3, cov1]
      simp only [worldToCell, div_one]
      rw [hcell _ (by linarith) (by linarith), hcell _ (by linarith) (by linarith)]
    rw [← this]
    exact ⟨hlow, hup⟩
  have uq : 1 / 2 ≤ S.score 0 0 ⟨0, 3 / 4, -(3 / 4), 0⟩ := by
    have hsc : Scored (⟨0, 3 / 4, -(3 / 4), 0⟩ : Bounds ℝ) :=
      ⟨by norm_num [Proper], .inl (by norm_num [area, hside, vside])⟩
    obtain ⟨l, e1, e2, -⟩ := one_point_score api _ hcl.range 1 one_pos 2 m hi hR ⟨0, 0, 0⟩ (9 / 10) (9 / 10) S hS 0 0 _ hsc
    rw [(lev _).1 (by norm_num [hside, vside])] at e1
    injection e1 with e1
    subst e1
    have := e2 ⟨0, 1 / 2⟩ (by norm_num [points])
    have hc : worldToCell (1 : ℝ) ⟨9 / 10 + 0 + 0, 9 / 10 + 0 + 1 / 2⟩ = ⟨0, 1⟩ := by
      norm_num [worldToCell]
    simp only at this
    rw [cov0, hc, m01, if0] at this
    exact this
  -- the engine
  have hrots : rotations (0 : ℝ) 1 2 0 = some [0] := by
    norm_num [rotations, lessOrEqual, areEqual, less, plusMinus]
  have hzf : zero.finest = true := by simp [zero, Match.finest, Match.driftAmount, hside, vside, pointRect]
  have hwf : whole.finest = false := by norm_num [whole, Match.finest, Match.driftAmount, hside, vside, entireRange]
  have hq : ∃ e, Engine.init.request S (3 / 4) (3 / 4) 0 1 2 0 = some e ∧ e.queue = [whole, zero] := by
    refine ⟨_, by rw [Engine.request, hrots]; rfl, ?_⟩
    show ((Engine.init.add S zero).add S whole).queue = _
    have e1 : Engine.init.add S zero = ⟨[zero], 1 / 100⟩ := by
      unfold Engine.add
      rw [if_neg (by rw [uz]; norm_num [Engine.init])]
      simp only [hzf, if_true, Engine.init, uz, hd]
      norm_num
    rw [e1]
    unfold Engine.add
    rw [if_neg (not_lt.2 uw.1.le)]
  obtain ⟨e, he, hqe⟩ := hq
  refine ⟨e, he, ⟨whole, ⟨[zero], e.best⟩, by rw [hqe], rfl, ?_⟩, ?_⟩
  · intro x hx
    simp only [List.mem_singleton] at hx
    rw [hx, uz]
    linarith [uw.1]
  · rintro x e1 ⟨hperm, -, htop⟩
    rw [hqe] at hperm
    have hx : x = whole := by
      have hmem : x ∈ [whole, zero] := hperm.mem_iff.2 (by simp)
      simp only [List.mem_cons, List.not_mem_nil, or_false] at hmem
      rcases hmem with h | h
      · exact h
      · exfalso
        have hw : whole ∈ x :: e1.queue := hperm.mem_iff.1 (by simp)
        rcases List.mem_cons.1 hw with h' | h'
        · rw [← h'] at h
          rw [h] at hwf
          rw [hzf] at hwf
          cases hwf
        · have := htop _ h'
          rw [h, uz] at this
          linarith [uw.1]
    subst hx
    have hfin : finer (1 / 20 : ℝ) whole.drift = some (split4 whole.drift) := by
      norm_num [finer, whole, entireRange, hside, vside, less]
    refine ⟨_, hfin, ⟨0, 3 / 4, -(3 / 4), 0⟩, ?_, ?_⟩
    · simp only [split4, whole, entireRange, center, hside, vside]
      norm_num
    · unfold BoundKept lessOrEqualEps
      have : S.ub (whole.narrow ⟨0, 3 / 4, -(3 / 4), 0⟩) = S.score 0 0 ⟨0, 3 / 4, -(3 / 4), 0⟩ := rfl
      rw [this]
      simp only [Bool.or_eq_true, decide_eq_true_eq, less, not_or, not_le, not_lt]
      have hu := uw.2
      generalize S.ub whole = w at *
      generalize S.score 0 0 ⟨0, 3 / 4, -(3 / 4), 0⟩ = v at *
      constructor
      · rw [abs_of_nonneg (by linarith)]
        norm_num
        linarith
      · norm_num
        linarith

/-! ## Scans without usable points

Their scores are NaN (C33), so here bounds can be NaN (`none`). -/

section
variable {K : Type*} [Field K] [LinearOrder K] [IsStrictOrderedRing K]

/-- As `Search`, with NaN. -/
structure NSearch (K : Type*) where
  score : Nat → K → Bounds K → Option K
  diff : K

/-- `prob_upper_bound`. -/
def NSearch.ub (S : NSearch K) (m : Match K) : Option K := S.score m.req m.rot m.drift

/-- `add_match`, m3rsm_engine.h:280-289: comparisons with NaN are false, and `std::max(a, NaN)` is `a`. -/
def NSearch.add (S : NSearch K) (e : Engine K) (m : Match K) : Engine K :=
  match S.ub m with
  | none => ⟨m :: e.queue, e.best⟩
  | some v => if v < e.best then e else ⟨m :: e.queue, if m.finest then max e.best (v - S.diff) else e.best⟩

/-- `add_scan_matching_request`, m3rsm_engine.h:291-316. -/
def NSearch.request (S : NSearch K) (X Y sector res : K) (fuel : Nat) (req : Nat) (e : Engine K) : Option (Engine K) :=
  (rotations sector res fuel 0).map fun rots =>
    (rots.flatMap fun r => [⟨req, r, pointRect ⟨0, 0⟩⟩, ⟨req, r, entireRange X Y⟩]).foldl S.add e

/-- `less_or_equal(a, b, eps)` with NaN, m3rsm_engine.h:350-351. -/
def keptN (a b : Option K) : Prop :=
  match a, b with
  | some a, some b => lessOrEqualEps a b (1 / 10 ^ 5) = true
  | _, _ => False

/-- The search cannot go on once it has taken `m` from the queue: a range is branched and the assertion of `branch` fails
(m3rsm_engine.h:350-352), or the match is returned and is not valid (bf_multi_res_scan_matcher.h:44). -/
def NSearch.Aborts (S : NSearch K) (step : K) (m : Match K) : Prop :=
  match finer step m.drift with
  | some rs => ∃ r ∈ rs, ¬ keptN (S.ub (m.narrow r)) (S.ub m)
  | none => S.ub m = none

/-- Without NaN this is the engine of `EngineModel`. -/
theorem nsearch_add_agrees (S : Search K) (e : Engine K) (m : Match K) :
    (⟨fun q a r => some (S.score q a r), S.diff⟩ : NSearch K).add e m = e.add S m := rfl

end

/-- As `Scores`, with NaN: m3rsm_engine.h:156-180. -/
def NScores {C O : Type} (api : CellApi ℝ C O) (m : MMap ℝ C) (spw : Spw) (pose : Score.Pose) (scan : ℝ → List ScanPoint)
    (S : NSearch ℝ) : Prop :=
  ∀ req rot r, ∃ (l : MLevel ℝ C) (d : Dims) (o : Coord) (oope : Point ℝ → Bounds ℝ → Option ℝ),
    levelFor m (max (vside r) (hside r)) = some l ∧
    IsMaxOope ⟨d, o, l.scale⟩ (fun c => api.impact (l.cells c)) oope ∧
    rangeBound oope spw true pose (scan rot) r = some (S.score req rot r)

/-- **C94, where the search cannot end**: a scan no point of which is usable. Every match of it has the score NaN, all of them
are kept in the queue — at least one, for any non-negative sector —, and whichever the engine takes, an assertion fails. -/
theorem empty_scan_aborts {C O : Type} (api : CellApi ℝ C O) (m : MMap ℝ C) (spw : Spw) (pose : Score.Pose)
    (scan : ℝ → List ScanPoint) (hscan : ∀ rot, scan rot = []) (S : NSearch ℝ) (hS : NScores api m spw pose scan S)
    (X Y sector res step : ℝ) (hsec : 0 ≤ sector) (fuel req : Nat) (e : Engine ℝ)
    (he : S.request X Y sector res fuel req Engine.init = some e) :
    e.queue ≠ [] ∧ ∀ x ∈ e.queue, S.Aborts step x := by
  have hnan : ∀ q a r, S.score q a r = none := by
    intro q a r
    obtain ⟨l, d, o, oope, -, -, h⟩ := hS q a r
    rw [hscan a] at h
    simp [rangeBound, estimate, scoreLoop] at h
    exact h.symm
  have hub : ∀ x, S.ub x = none := fun x => hnan _ _ _
  have hab : ∀ x : Match ℝ, S.Aborts step x := by
    intro x
    unfold NSearch.Aborts
    cases hf : finer step x.drift with
    | none => exact hub x
    | some rs =>
      have hne : rs ≠ [] := by
        unfold finer at hf
        cases h1 : less step (hside x.drift) <;> cases h2 : less step (vside x.drift) <;> rw [h1, h2] at hf <;>
          simp only [Option.some.injEq, reduceCtorEq] at hf <;> subst hf <;> simp [split4, splitHorz, splitVert]
      obtain ⟨r, hr⟩ := List.exists_mem_of_ne_nil _ hne
      refine ⟨r, hr, ?_⟩
      rw [hub, hub]
      exact fun h => h
  refine ⟨?_, fun x _ => hab x⟩
  simp only [NSearch.request, Option.map_eq_some_iff] at he
  obtain ⟨rots, hr, rfl⟩ := he
  have hadd : ∀ (ms : List (Match ℝ)) (e : Engine ℝ), (ms.foldl S.add e).queue = ms.reverse ++ e.queue := by
    intro ms
    induction ms with
    | nil => intro e; rfl
    | cons x ms ih =>
      intro e
      rw [List.foldl_cons, ih]
      unfold NSearch.add
      rw [hub]
      simp
  rw [hadd]
  have h0 : ∃ r rs, rots = r :: rs := by
    cases fuel with
    | zero => simp [rotations] at hr
    | succ f =>
      have hle : lessOrEqual (2 * (0 : ℝ)) sector = true := by
        have : (0 : ℝ) < 1 / 2 ^ 52 := by positivity
        simp only [lessOrEqual, less, Bool.or_eq_true, decide_eq_true_eq]
        right
        linarith
      simp only [rotations, hle, if_true, Option.map_eq_some_iff] at hr
      obtain ⟨l, -, rfl⟩ := hr
      simp only [plusMinus]
      norm_num
  obtain ⟨r, rs, rfl⟩ := h0
  simp

/-! ## Non-vacuity -/

/-- A search on a map of credibilist cells that meets all hypotheses of `credibilist_search_keeps_bounds`, and a scan of one
point. -/
example : ∃ m S, (MMap.create (kindApi (.tbm .credibilist) .discrepancy) 1 2).run (kindApi (.tbm .credibilist) .discrepancy) 1 1
      [.update ⟨0, 0⟩ seenFree 0, .update ⟨1, 0⟩ seenHit 1] = some m ∧
    Weighable (.even 1) (fun _ => [.cartesian 1 0 true 1]) ∧
    Scores (kindApi (.tbm .credibilist) .discrepancy) m (.even 1) ⟨0, 0, 0⟩ (fun _ => [.cartesian 1 0 true 1]) S ∧
    ∃ e, Engine.init.request S (3 / 4) (3 / 4) 0 1 2 0 = some e := by
  have hcl := kind_closed (.tbm .credibilist) .discrepancy trivial
  obtain ⟨m, hrun, hi, hR⟩ := run_closed _ _ _ hcl 1 (by norm_num) 2 (by norm_num) 1 le_rfl
    [.update ⟨0, 0⟩ seenFree 0, .update ⟨1, 0⟩ seenHit 1] (by
      intro op hop
      rcases List.mem_cons.1 hop with rfl | hop
      · exact telling_free
      · rcases List.mem_cons.1 hop with rfl | hop
        · exact telling_hit
        · simp at hop)
  have hw : Weighable (.even 1) (fun _ => [.cartesian 1 0 true 1]) := by
    intro rot
    refine ⟨by simp [ScanPoint.factor], [1], rfl, ?_, by simp, by simp⟩
    intro i hi
    simp at hi
    subst hi
    rfl
  obtain ⟨S, -, s2, -⟩ := scores_exist _ _ hcl.range 1 2 m hi hR (.even 1) ⟨0, 0, 0⟩ _ hw 0
  refine ⟨m, S, hrun, hw, s2, ?_⟩
  have hrots : rotations (0 : ℝ) 1 2 0 = some [0] := by
    norm_num [rotations, lessOrEqual, areEqual, less, plusMinus]
  exact ⟨_, by rw [Engine.request, hrots]; rfl⟩

/-- The scores of a scan without points. -/
example : ∃ S : NSearch ℝ, NScores (kindApi .mean .discrepancy) (MMap.create (kindApi .mean .discrepancy) 1 2) (.even 1)
    ⟨0, 0, 0⟩ (fun _ => []) S := by
  refine ⟨⟨fun _ _ _ => none, 0⟩, ?_⟩
  intro req rot r
  have hi := create_inv (kindApi .mean .discrepancy) (kind_closed .mean .discrepancy trivial).protoUnknown 1 2 (by norm_num)
  obtain ⟨N, -, hp⟩ := hi.pyr
  obtain ⟨k, l, g1, g2, -, -⟩ := levelFor_spec 1 N _ hp (max (vside r) (hside r))
  have hex : ∀ a : Bounds ℝ, ∃ cells, Rasterizes (⟨⟨0, 0⟩, ⟨0, 0⟩, l.scale⟩ : GridView ℝ) (.finite a) true cells := fun a =>
    let ⟨c, h, _⟩ := raster_enumerates_once (⟨⟨0, 0⟩, ⟨0, 0⟩, l.scale⟩ : GridView ℝ) (.finite a) true
    ⟨c, h⟩
  choose cells hc using hex
  exact ⟨l, ⟨0, 0⟩, ⟨0, 0⟩, fun _ a => maxPE (fun c => some ((kindApi .mean .discrepancy).impact (l.cells c))) (cells a), g1,
    fun q a => ⟨cells a, hc a, rfl⟩, by simp [rangeBound, estimate, scoreLoop]⟩

end Slam.Multires
