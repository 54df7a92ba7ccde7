import Verif.Whole.GmappingOwnRun

/-!
# C90: GMapping with its own scan matcher does not fail

Two things bound an execution. A search ends because a score, being rounded, has finitely many values; and it does not lead away
from the map, because a pose scores more than zero only if it sees something near obstacles of the map.
-/

set_option autoImplicit false
set_option linter.unusedSectionVars false

namespace Slam.Whole
open Slam.Grid Slam.Cells Slam.Poses Slam.Sensor Slam.Score Slam.ScanAdder Slam.Worlds Slam.Tbm
open Slam.ScanMatch (Enumerator Event HCState hillClimbing)
open Slam.Particle (Env setObj Reach)
open Slam.Matcher (seenAt usablePoints Weights Spw.Ok testsOf FirstBest ClimbT Scored)

variable {M : Type}

/-! ## Specification -/

/-- Rounded scores: those of `[0, 1]` are within the finite set `V`, and zero is exact; and the search may run long enough. -/
structure Rounded (cfg : GOwnCfg M) (V : Finset ℝ) : Prop where
  values : ∀ x, Unit01 x → cfg.rnd x ∈ V
  zero : cfg.rnd 0 = 0
  fuel : (V.card + 1) * (14 * cfg.failed + 14) ≤ cfg.fuel
  step : 0 ≤ cfg.transl

/-- The cell is within `U` of the origin along each axis. -/
def CellNear (scale U : ℝ) (c : Coord) : Prop := scale * |(c.x : ℝ)| ≤ U ∧ scale * |(c.y : ℝ)| ≤ U

/-- The map was told sane observations of cells within `U` only. -/
def ToldNear (cfg : GOwnCfg M) (init : M) (U : ℝ) (m : M) : Prop :=
  ∃ us, cfg.slam.api.tellAll init us = some m ∧ SaneT (us.map Prod.snd) ∧ ∀ u ∈ us, CellNear cfg.slam.scale U u.1

/-- A value other than zero is remembered for a cell within `U` and the window only. -/
def LastNear (scale : ℝ) (window : Nat) (U : ℝ) (l : Option (Coord × ℝ)) : Prop :=
  ∀ c x, l = some (c, x) → x ≠ 0 → CellNear scale (U + window * scale) c

/-- The odometry, starting at `p`, moves by at most `D` along both axes together at each message. -/
def SmallMoves (D : ℝ) (p : Poses.Pose ℝ) (ds : List GMsg) : Prop :=
  (p :: ds.map GMsg.odom).IsChain fun a b => |b.x - a.x| + |b.y - a.y| ≤ D

/-- By how much what is known grows with each particle's match. -/
noncomputable def growth (R scale : ℝ) (window : Nat) : ℝ := 3 * R + (window + 4) * scale

/-! ## A search ends -/

/-- A call of the matcher ends. -/
theorem gm_matching_total {cfg : GOwnCfg M} {init m : M} (hc : GStarted cfg init) {V : Finset ℝ} (hV : Rounded cfg V)
    (hm : SaneTold cfg.slam.api init m) {f : ℝ} {w : Nat} {g : GMatch} (hg : GMatchOk f w g) {scan : List ScanPoint}
    (hf : ∀ sp ∈ scan, sp.factor = 1) (p : Poses.Pose ℝ) : ∃ g' a ev, cfg.matching g scan p m = some (g', a, ev) := by
  obtain ⟨w', ws, hw⟩ := Matcher.weights_exist g.weights hg.weights (cfg.usable p scan)
  have hfac : ∀ sp ∈ cfg.usable p scan, sp.factor = 1 := fun sp hsp => hf sp (Matcher.usable_subset _ _ _ _ _ sp hsp)
  obtain ⟨t', e', delta, prob, events, h1, -, -, -⟩ := Matcher.searchS_ends cfg.failed (rd := cfg.rot) hV.step
    (gmScore cfg.rnd (cfg.view m) w' (cfg.usable p scan)) (PeOk f w) V (by
      intro t ht q
      obtain ⟨s, xs, e1, g1, g2, -, -, -, g6⟩ := gmScore_spec hc.rounding (cfg.view m) (sane_readable hc.lawful hm) hw hfac ht q
      refine ⟨s, e1, g1, g2, ?_⟩
      intro v hv
      obtain ⟨x, hx, rfl⟩ := g6 v hv
      exact hV.values x hx) cfg.fuel hV.fuel g.pe hg.pe g.enum p
  refine ⟨⟨w', e', t'⟩, (delta, prob), events, ?_⟩
  unfold GOwnCfg.matching
  rw [filterScan_gm, hw.reset]
  simp only [Option.map_some, Option.bind_some, h1]

/-! ## A search stays near the map -/

theorem ToldNear.sane {cfg : GOwnCfg M} {init m : M} {U : ℝ} (h : ToldNear cfg init U m) : SaneTold cfg.slam.api init m := by
  obtain ⟨us, h1, h2, -⟩ := h
  exact ⟨us, h1, h2⟩

theorem CellNear.mono {scale U U' : ℝ} {c : Coord} (h : CellNear scale U c) (hU : U ≤ U') : CellNear scale U' c :=
  ⟨h.1.trans hU, h.2.trans hU⟩

theorem ToldNear.mono {cfg : GOwnCfg M} {init m : M} {U U' : ℝ} (h : ToldNear cfg init U m) (hU : U ≤ U') :
    ToldNear cfg init U' m := by
  obtain ⟨us, h1, h2, h3⟩ := h
  exact ⟨us, h1, h2, fun u hu => (h3 u hu).mono hU⟩

theorem LastNear.mono {scale U U' : ℝ} {w : Nat} {l : Option (Coord × ℝ)} (h : LastNear scale w U l) (hU : U ≤ U') :
    LastNear scale w U' l := fun c x hl hx => (h c x hl hx).mono (by linarith)

/-- A cell near another one. -/
theorem cellNear_window {scale U : ℝ} (hs : 0 < scale) {w : Nat} {d c : Coord} (h : CellNear scale U d) (hx : |d.x - c.x| ≤ w)
    (hy : |d.y - c.y| ≤ w) : CellNear scale (U + w * scale) c := by
  have key : ∀ a b : Int, |a - b| ≤ w → scale * |(a : ℝ)| ≤ U → scale * |(b : ℝ)| ≤ U + w * scale := by
    intro a b hab ha
    have h1 : |(a : ℝ) - b| ≤ w := by exact_mod_cast hab
    have h2 : |(b : ℝ)| ≤ |(a : ℝ)| + w := by
      have := abs_sub_abs_le_abs_sub (b : ℝ) a
      rw [abs_sub_comm] at this
      linarith
    nlinarith
  exact ⟨key _ _ hx h.1, key _ _ hy h.2⟩

theorem agreement_near {cfg : GOwnCfg M} {init m : M} (hc : GStarted cfg init) {U f : ℝ} {w : Nat} (hf : -1 < f)
    (hm : ToldNear cfg init U m) {q : Grid.Point ℝ} {x : ℝ} (h : Agreement (cfg.slam.api.read m) cfg.slam.scale f w q x) (hx : x ≠ 0) :
    CellNear cfg.slam.scale (U + w * cfg.slam.scale) (worldToCell cfg.slam.scale q) := by
  obtain ⟨us, h1, -, h3⟩ := hm
  obtain ⟨m', e1, e2⟩ := hc.lawful us
  rw [h1, Option.some.injEq] at e1
  subst e1
  rcases h.2 with ⟨h0, -⟩ | ⟨d, cell, ⟨n1, n2, n3, n4⟩, -⟩
  · exact absurd h0 hx
  · rw [e2 d, Option.some.injEq] at n3
    have hne : about d us ≠ [] := by
      intro h0
      rw [h0] at n3
      rw [← n3] at n4
      simp only [List.foldl_nil, GmCell.create] at n4
      linarith
    obtain ⟨a, ha⟩ := List.exists_mem_of_ne_nil _ hne
    unfold about at ha
    rw [List.mem_map] at ha
    obtain ⟨u, hu, -⟩ := ha
    rw [List.mem_filter] at hu
    have hud : u.1 = d := by simpa using hu.2
    exact cellNear_window hc.scale (hud ▸ h3 u hu.1) n1 n2

theorem Agreements.near {cfg : GOwnCfg M} {init m : M} (hc : GStarted cfg init) {U f : ℝ} {w : Nat} (hf : -1 < f)
    (hm : ToldNear cfg init U m) {l l' : Option (Coord × ℝ)} {qs : List (Grid.Point ℝ)} {xs : List ℝ}
    (h : Agreements (cfg.slam.api.read m) cfg.slam.scale f w l qs xs l') :
    LastNear cfg.slam.scale w U l → LastNear cfg.slam.scale w U l' ∧
      ∀ x ∈ xs, x ≠ 0 → ∃ q ∈ qs, CellNear cfg.slam.scale (U + w * cfg.slam.scale) (worldToCell cfg.slam.scale q) := by
  induction h with
  | nil => exact fun hl => ⟨hl, by simp⟩
  | same c x q qs xs l' hq _ ih =>
    intro hl
    obtain ⟨i1, i2⟩ := ih hl
    refine ⟨i1, ?_⟩
    intro y hy h0
    rcases List.mem_cons.1 hy with rfl | hy
    · exact ⟨q, by simp, hq ▸ hl c y rfl h0⟩
    · obtain ⟨q', hq', k⟩ := i2 y hy h0
      exact ⟨q', by simp [hq'], k⟩
  | fresh l x q qs xs l' _ hx _ ih =>
    intro _
    have hn : LastNear cfg.slam.scale w U (some (worldToCell cfg.slam.scale q, x)) := by
      intro c y hl h0
      rw [Option.some.injEq, Prod.mk.injEq] at hl
      obtain ⟨rfl, rfl⟩ := hl
      exact agreement_near hc hf hm hx h0
    obtain ⟨i1, i2⟩ := ih hn
    refine ⟨i1, ?_⟩
    intro y hy h0
    rcases List.mem_cons.1 hy with rfl | hy
    · exact ⟨q, by simp, hn _ _ rfl h0⟩
    · obtain ⟨q', hq', k⟩ := i2 y hy h0
      exact ⟨q', by simp [hq'], k⟩

theorem weightedMean_zero (xs ws : List ℝ) (h : ∀ x ∈ xs, x = 0) : weightedMean xs ws = 0 := by
  have : (List.zipWith (· * ·) xs ws).sum = 0 := by
    induction xs generalizing ws with
    | nil => simp
    | cons x xs ih =>
      cases ws with
      | nil => simp
      | cons y ws =>
        simp only [List.zipWith_cons_cons, List.sum_cons]
        rw [h x (by simp), ih ws fun z hz => h z (by simp [hz])]
        simp
  rw [weightedMean, this, zero_div]

theorem TestedOn.near {cfg : GOwnCfg M} {init m : M} (hc : GStarted cfg init) (hz : cfg.rnd 0 = 0) {U f : ℝ} {w : Nat} (hf : -1 < f)
    (hm : ToldNear cfg init U m) {pts : List ScanPoint} {ws : List ℝ} {l l' : Option (Coord × ℝ)}
    {tests : List (Poses.Pose ℝ × Option ℝ)}
    (h : TestedOn cfg.rnd (cfg.slam.api.read m) cfg.slam.scale f w pts ws l tests l') :
    LastNear cfg.slam.scale w U l → LastNear cfg.slam.scale w U l' ∧ (ws.sum ≠ 0 → ∀ t ∈ tests, t.2 ≠ none) ∧
      ∀ t ∈ tests, ∀ s, t.2 = some s → s ≠ 0 →
        ∃ sp ∈ pts, CellNear cfg.slam.scale (U + w * cfg.slam.scale) (worldToCell cfg.slam.scale (seenAt t.1 sp)) := by
  induction h with
  | nil => exact fun hl => ⟨hl, by simp, by simp⟩
  | cons l l1 l' p s xs rest hx h0 h1 _ ih =>
    intro hl
    obtain ⟨a1, a2⟩ := hx.near hc hf hm hl
    obtain ⟨i1, i2, i3⟩ := ih a1
    refine ⟨i1, ?_, ?_⟩
    · intro hw t ht
      rcases List.mem_cons.1 ht with rfl | ht
      · simp only [h1 hw]; simp
      · exact i2 hw t ht
    · intro t ht y hy hy0
      rcases List.mem_cons.1 ht with rfl | ht
      · simp only at hy ⊢
        by_cases hw : ws.sum = 0
        · rw [h0 hw] at hy; cases hy
        · rw [h1 hw, Option.some.injEq] at hy
          by_contra hcon
          push Not at hcon
          have hxs : ∀ x ∈ xs, x = 0 := by
            intro x hxm
            by_contra hx0
            obtain ⟨q, hq, k⟩ := a2 x hxm hx0
            rw [List.mem_map] at hq
            obtain ⟨sp, hsp, rfl⟩ := hq
            exact hcon sp hsp k
          rw [weightedMean_zero xs ws hxs, hz] at hy
          exact hy0 hy.symm
      · exact i3 t ht y hy hy0

/-- Where a point of a polar scan is seen. -/
theorem seenAt_near {R : ℝ} {sp : ScanPoint} (h : ∃ r a o, sp = .polar r a o 1 ∧ 0 ≤ r ∧ r ≤ R) (p : Poses.Pose ℝ) :
    |(seenAt p sp).x - p.x| ≤ R ∧ |(seenAt p sp).y - p.y| ≤ R := by
  obtain ⟨r, a, o, rfl, r0, r1⟩ := h
  have ex : (seenAt p (.polar r a o 1)).x - p.x = r * Real.cos (p.theta + a) := by
    rw [Real.cos_add]; simp only [seenAt, ScanPoint.x, ScanPoint.y]; ring
  have ey : (seenAt p (.polar r a o 1)).y - p.y = r * Real.sin (p.theta + a) := by
    rw [Real.sin_add]; simp only [seenAt, ScanPoint.x, ScanPoint.y]; ring
  rw [ex, ey, abs_mul, abs_mul, abs_of_nonneg r0]
  exact ⟨(mul_le_of_le_one_right r0 (Real.abs_cos_le_one _)).trans r1, (mul_le_of_le_one_right r0 (Real.abs_sin_le_one _)).trans r1⟩

theorem point_of_cell {scale X : ℝ} (hs : 0 < scale) (v : ℝ) (h : scale * |((⌊v / scale⌋ : Int) : ℝ)| ≤ X) : |v| ≤ X + scale := by
  have h1 := Int.floor_le (v / scale)
  have h2 := (Int.lt_floor_add_one (v / scale)).le
  rw [le_div_iff₀ hs] at h1
  rw [div_le_iff₀ hs] at h2
  generalize ((⌊v / scale⌋ : Int) : ℝ) = k at *
  have h3 : |scale * k| ≤ X := by rw [abs_mul, abs_of_pos hs]; exact h
  rw [abs_le] at h3 ⊢
  constructor <;> nlinarith [h3.1, h3.2]

/-- **A match does not lead away from the map (C90)**: its pose is the one it started from, or one from which something is seen
near the cells the map was told of. -/
theorem gm_match_near {cfg : GOwnCfg M} {init m : M} (hc : GStarted cfg init) (hz : cfg.rnd 0 = 0) {U f R : ℝ} {w : Nat} (hf : -1 < f)
    (hm : ToldNear cfg init U m) {g g' : GMatch} (hl : LastNear cfg.slam.scale w U (lastOf g.pe)) {scan : List ScanPoint}
    (hR : ∀ sp ∈ scan, ∃ r a o, sp = .polar r a o 1 ∧ 0 ≤ r ∧ r ≤ R) {p : Poses.Pose ℝ} {a : Delta ℝ × Option ℝ}
    (h : IsMatch cfg f w g g' scan p m a) :
    LastNear cfg.slam.scale w U (lastOf g'.pe) ∧ (p.add a.1 = p ∨
      (|(p.add a.1).x| ≤ U + (w + 1) * cfg.slam.scale + R ∧ |(p.add a.1).y| ≤ U + (w + 1) * cfg.slam.scale + R)) := by
  obtain ⟨ws, s0, rest, -, -, ht, h1, h2, -, -, hunit⟩ := h
  obtain ⟨k1, k2, k3⟩ := ht.near hc hz hf hm hl
  refine ⟨k1, ?_⟩
  by_cases h0 : ws.sum = 0
  · left
    rw [h2 h0]
    simp [Poses.Pose.add]
  · obtain ⟨s, -, hs, pre, post, e, e1, -⟩ := h1 h0
    by_cases hs0 : s = 0
    · left
      cases pre with
      | nil =>
        rw [List.nil_append, List.cons.injEq, Prod.mk.injEq] at e
        exact e.1.1.symm
      | cons t pre =>
        exfalso
        rw [List.cons_append, List.cons.injEq] at e
        have ht0 : t.2 ≠ none := k2 h0 t (by rw [← e.1]; simp)
        obtain ⟨v, hv⟩ := Option.ne_none_iff_exists'.1 ht0
        have hlt := e1 t (by simp) v hv
        rw [hs0] at hlt
        have := (hunit t (by rw [← e.1]; simp) v hv).1
        linarith
    · right
      obtain ⟨sp, hsp, c1, c2⟩ := k3 (p.add a.1, some s) (by rw [e]; simp) s rfl hs0
      obtain ⟨n1, n2⟩ := seenAt_near (hR sp (Matcher.usable_subset _ _ _ _ _ sp hsp)) (p.add a.1)
      have b1 := point_of_cell hc.scale _ c1
      have b2 := point_of_cell hc.scale _ c2
      rw [abs_sub_comm] at n1 n2
      constructor
      · have := abs_sub_abs_le_abs_sub (p.add a.1).x (seenAt (p.add a.1) sp).x
        simp only at b1
        nlinarith
      · have := abs_sub_abs_le_abs_sub (p.add a.1).y (seenAt (p.add a.1) sp).y
        simp only at b2
        nlinarith

/-! ## What is inserted is near the robot -/

theorem chain_near (pts : List Coord) : ∀ b : Coord, pts.head? = some b → pts.IsChain Line.KingStep → ∀ c ∈ pts,
    |c.x - b.x| ≤ (pts.length : Int) - 1 ∧ |c.y - b.y| ≤ (pts.length : Int) - 1 := by
  induction pts with
  | nil => intro b _ _ c hc; cases hc
  | cons a pts ih =>
    intro b hb hch c hc
    simp only [List.head?_cons, Option.some.injEq] at hb
    subst hb
    simp only [List.length_cons, Nat.cast_add, Nat.cast_one, add_sub_cancel_right]
    rcases List.mem_cons.1 hc with rfl | hc
    · simp
    · cases pts with
      | nil => cases hc
      | cons a' pts =>
        rw [List.isChain_cons_cons] at hch
        obtain ⟨h1, h2⟩ := ih a' rfl hch.2 c hc
        obtain ⟨-, k1, k2⟩ := hch.1
        simp only [List.length_cons, Nat.cast_add, Nat.cast_one, add_sub_cancel_right] at h1 h2 ⊢
        rw [abs_le] at *
        exact ⟨by omega, by rw [abs_le]; omega⟩

theorem cells_apart {scale R : ℝ} (hs : 0 < scale) (a b : ℝ) (h : |b - a| ≤ R) :
    scale * ((⌊b / scale⌋ - ⌊a / scale⌋).natAbs : ℝ) ≤ R + scale := by
  have e : ((⌊b / scale⌋ - ⌊a / scale⌋).natAbs : ℝ) = |(⌊b / scale⌋ : ℝ) - ⌊a / scale⌋| := by
    rw [← Int.cast_sub, ← Int.cast_abs, Int.abs_eq_natAbs]; simp
  rw [e]
  have a1 := Int.floor_le (a / scale)
  have a2 := (Int.lt_floor_add_one (a / scale)).le
  have b1 := Int.floor_le (b / scale)
  have b2 := (Int.lt_floor_add_one (b / scale)).le
  rw [le_div_iff₀ hs] at a1 b1
  rw [div_le_iff₀ hs] at a2 b2
  generalize ((⌊b / scale⌋ : Int) : ℝ) = k at *
  generalize ((⌊a / scale⌋ : Int) : ℝ) = l at *
  rw [show scale * |k - l| = |scale * (k - l)| by rw [abs_mul, abs_of_pos hs]]
  rw [abs_le] at h ⊢
  constructor <;> nlinarith [h.1, h.2]

theorem cell_of_point {scale X : ℝ} (hs : 0 < scale) (v : ℝ) (h : |v| ≤ X) : scale * |((⌊v / scale⌋ : Int) : ℝ)| ≤ X + scale := by
  have h1 := Int.floor_le (v / scale)
  have h2 := (Int.lt_floor_add_one (v / scale)).le
  rw [le_div_iff₀ hs] at h1
  rw [div_le_iff₀ hs] at h2
  generalize ((⌊v / scale⌋ : Int) : ℝ) = k at *
  rw [show scale * |k| = |scale * k| by rw [abs_mul, abs_of_pos hs]]
  rw [abs_le] at h ⊢
  constructor <;> nlinarith [h.1, h.2]

theorem append_near {cfg : GOwnCfg M} {init m : M} (hc : GStarted cfg init) {N : Int}
    (hok : ∀ v, |v| ≤ 6 * N → cfg.slam.ok v = true) (hfu : 4 * N + 2 ≤ cfg.slam.fuel) {R X U U' : ℝ} (hR : 0 ≤ R)
    (hX : X + R ≤ cfg.slam.scale * (N - 1)) (hU : U ≤ U') (hU' : X + 2 * R + 3 * cfg.slam.scale ≤ U')
    (hm : ToldNear cfg init U m) {hist : Option Hist} {p : Poses.Pose ℝ} {scan : List ScanPoint}
    (h4 : ∀ sp ∈ scan, ∃ r a o, sp = .polar r a o 1 ∧ 0 ≤ r ∧ r ≤ R) (px : |p.x| ≤ X) (py : |p.y| ≤ X) {q : M × Option Hist}
    (h : cfg.slam.append hist m p scan 1 0 = some q) : ToldNear cfg init U' q.1 := by
  obtain ⟨us, u1, u2⟩ := append_spec h
  obtain ⟨vs, v1, v2, v3⟩ := hm
  refine ⟨vs ++ us, by rw [tellAll_append, v1]; exact u2, ?_, ?_⟩
  · rw [List.map_append]
    exact sane_append v2 (u1.sane hc.adder ⟨zero_le_one, le_rfl⟩)
  · intro u hu
    rcases List.mem_append.1 hu with hu | hu
    · exact (v3 u hu).mono hU
    · rcases u1 with ⟨-, rfl⟩ | ⟨-, h, h', k, -, hap⟩
      · cases hu
      · obtain ⟨pt, hpt, cells, hw, hmem⟩ := appendScan_cells hap u hu
        obtain ⟨n1, n2⟩ := worldPoints_near ⟨p.x, p.y, p.theta⟩ scan R h4 pt hpt
        have hd : |pt.at_.x - p.x| ≤ R ∧ |pt.at_.y - p.y| ≤ R := by
          rw [worldPoints_rigid, List.mem_map] at hpt
          obtain ⟨sp, hsp, rfl⟩ := hpt
          have := seenAt_near (h4 sp hsp) p
          simp only [seenAt, add_sub_cancel_left] at this
          simpa only [add_sub_cancel_right] using this
        have ir1 : InRange N cfg.slam.scale ⟨p.x, p.y⟩ := cell_in_range _ hc.scale N _ (by simp only; linarith) (by simp only; linarith)
        have ir2 : InRange N cfg.slam.scale pt.at_ :=
          cell_in_range _ hc.scale N _ (by simp only at n1; linarith) (by simp only at n2; linarith)
        obtain ⟨cells', c1, c2, c3⟩ := Line.world_to_cells_connects cfg.slam.ok N hok (ScanAdder.exactFP cfg.slam.scale) cfg.slam.scale
          p.x p.y pt.at_.x pt.at_.y cfg.slam.fuel ir1.1 ir1.2 ir2.1 ir2.2
          (fuel_in_range cfg.slam.scale N _ _ ir1 ir2 cfg.slam.fuel hfu)
        rw [hw, Option.some.injEq] at c1
        subst c1
        obtain ⟨d1, d2⟩ := chain_near cells _ c2.first c2.steps u.1 hmem
        have s1 := cells_apart hc.scale _ _ hd.1
        have s2 := cells_apart hc.scale _ _ hd.2
        have b1 := cell_of_point hc.scale _ px
        have b2 := cell_of_point hc.scale _ py
        have hc3 : (cells.length : ℝ) - 1 ≤ ((⌊pt.at_.x / cfg.slam.scale⌋ - ⌊p.x / cfg.slam.scale⌋).natAbs : ℝ) +
            ((⌊pt.at_.y / cfg.slam.scale⌋ - ⌊p.y / cfg.slam.scale⌋).natAbs : ℝ) := by
          have : (cells.length : ℝ) ≤ ((⌊pt.at_.x / cfg.slam.scale⌋ - ⌊p.x / cfg.slam.scale⌋).natAbs : ℝ) +
            ((⌊pt.at_.y / cfg.slam.scale⌋ - ⌊p.y / cfg.slam.scale⌋).natAbs : ℝ) + 1 := by exact_mod_cast c3
          linarith
        have key : ∀ (a b : Int), |a - b| ≤ (cells.length : Int) - 1 → cfg.slam.scale * |(b : ℝ)| ≤ X + cfg.slam.scale →
            cfg.slam.scale * |(a : ℝ)| ≤ U' := by
          intro a b hab hb
          have h1 : |(a : ℝ) - b| ≤ (cells.length : ℝ) - 1 := by exact_mod_cast hab
          have h2 : |(a : ℝ)| ≤ |(b : ℝ)| + ((cells.length : ℝ) - 1) := by
            have := abs_sub_abs_le_abs_sub (a : ℝ) b
            linarith
          have h3 := mul_le_mul_of_nonneg_left (h2.trans (add_le_add_right hc3 _)) hc.scale.le
          nlinarith
        exact ⟨key _ _ d1 b1, key _ _ d2 b2⟩

/-! ## One message -/

theorem startPose_near (x : Particle.World ℝ) {guess : Delta ℝ} {G : ℝ} (hG : |guess.x| ≤ G ∧ |guess.y| ≤ G) :
    |(startPose x guess).x| ≤ |x.pose.x| + G ∧ |(startPose x guess).y| ≤ |x.pose.y| + G := by
  have hG0 : 0 ≤ G := (abs_nonneg _).trans hG.1
  unfold startPose
  by_cases h1 : x.scanFirst = true
  · rw [if_pos h1]; exact ⟨by linarith, by linarith⟩
  · rw [if_neg h1]
    by_cases h2 : x.noisy = true
    · rw [if_pos h2]
      exact ⟨(abs_add_le _ _).trans (by linarith [hG.1]), (abs_add_le _ _).trans (by linarith [hG.2])⟩
    · rw [if_neg h2]
      simp only [Poses.Pose.add, add_zero]
      exact ⟨by linarith, by linarith⟩

theorem growth_nonneg {R scale : ℝ} (hR : 0 ≤ R) (hs : 0 < scale) (w : Nat) : 0 ≤ growth R scale w := by
  unfold growth
  have : (0 : ℝ) ≤ (w + 4) * scale := mul_nonneg (by positivity) hs.le
  linarith

theorem observeOwn_total {cfg : GOwnCfg M} {init : M} (hc : GStarted cfg init) {V : Finset ℝ} (hV : Rounded cfg V) {N : Int}
    (hok : ∀ v, |v| ≤ 6 * N → cfg.slam.ok v = true) (hfu : 4 * N + 2 ≤ cfg.slam.fuel) {R G f : ℝ} {w : Nat} (hR : 0 ≤ R)
    (hf : -1 < f) (d : GMsg) (hG : ∀ i, |(d.guess i).x| ≤ G ∧ |(d.guess i).y| ≤ G) (scan : List ScanPoint)
    (h4 : ∀ sp ∈ scan, ∃ r a o, sp = .polar r a o 1 ∧ 0 ≤ r ∧ r ≤ R) (ids : List Nat) :
    ∀ (h : Nat → Particle.World ℝ) (ms : Nat → List (Poses.Pose ℝ)) (m : M) (hist : Option Hist) (g : GMatch) (B : ℝ), ids.Nodup →
      (∀ i ∈ ids, |(h i).pose.x| + G ≤ B ∧ |(h i).pose.y| + G ≤ B) → ToldNear cfg init B m →
      LastNear cfg.slam.scale w B (lastOf g.pe) → GMatchOk f w g → HistOk hist →
      B + ids.length * growth R cfg.slam.scale w + R ≤ cfg.slam.scale * (N - 1) →
      ∃ r, observeOwn cfg d scan ids h ms m hist g = some r ∧
        (∀ i ∈ ids, |(r.1 i).pose.x| ≤ B + ids.length * growth R cfg.slam.scale w ∧
          |(r.1 i).pose.y| ≤ B + ids.length * growth R cfg.slam.scale w) ∧
        (∀ j, j ∉ ids → r.1 j = h j) ∧ ToldNear cfg init (B + ids.length * growth R cfg.slam.scale w) r.2.2.1 ∧
        LastNear cfg.slam.scale w (B + ids.length * growth R cfg.slam.scale w) (lastOf r.2.2.2.2.pe) ∧ HistOk r.2.2.2.1 := by
  have hgr := growth_nonneg hR hc.scale w
  have hG0 : 0 ≤ G := (abs_nonneg _).trans (hG 0).1
  have hgr' : (w + 1) * cfg.slam.scale + R + 2 * R + 3 * cfg.slam.scale = growth R cfg.slam.scale w := by unfold growth; ring
  have hws : (0 : ℝ) ≤ (w + 1) * cfg.slam.scale := mul_nonneg (by positivity) hc.scale.le
  have hfac : ∀ sp ∈ scan, sp.factor = 1 := by
    intro sp hsp
    obtain ⟨r, a, o, rfl, -⟩ := h4 sp hsp
    rfl
  have hs0 := hc.scale
  generalize hgw : growth R cfg.slam.scale w = gr at *
  induction ids with
  | nil =>
    intro h ms m hist g B _ _ hm hl _ hh _
    refine ⟨_, rfl, by simp, fun _ _ => rfl, ?_, ?_, hh⟩ <;> simpa using ‹_›
  | cons i ids ih =>
    intro h ms m hist g B hnd hb hm hl hg hh hN
    rw [List.nodup_cons] at hnd
    simp only [List.length_cons, Nat.cast_add, Nat.cast_one] at hN ⊢
    have hlen : (0 : ℝ) ≤ ids.length * gr := mul_nonneg (Nat.cast_nonneg _) hgr
    have eB : B + ((ids.length : ℝ) + 1) * gr = B + gr + ids.length * gr := by ring
    rw [eB] at hN ⊢
    have hne : ∀ (x : Particle.World ℝ) (j : Nat), j ≠ i → setObj h i x j = h j := by
      intro x j hj
      rw [setObj, if_neg hj]
    have hb' : ∀ x : Particle.World ℝ, ∀ j ∈ ids, |(setObj h i x j).pose.x| + G ≤ B + gr ∧ |(setObj h i x j).pose.y| + G ≤ B + gr := by
      intro x j hj
      have : j ≠ i := fun e => hnd.1 (e ▸ hj)
      rw [hne x j this]
      obtain ⟨b1, b2⟩ := hb j (by simp [hj])
      exact ⟨by linarith, by linarith⟩
    obtain ⟨b1, b2⟩ := hb i (by simp)
    simp only [observeOwn]
    by_cases ht : (h i).tooClose = true
    · rw [if_pos ht]
      obtain ⟨r, r1, r2, r3, r4, r5, r6⟩ := ih h ms m hist g (B + gr) hnd.2
        (fun j hj => by have := hb j (by simp [hj]); exact ⟨by linarith [this.1], by linarith [this.2]⟩)
        (hm.mono (by linarith)) (hl.mono (by linarith)) hg hh (by linarith)
      refine ⟨r, r1, ?_, ?_, r4, r5, r6⟩
      · intro j hj
        rcases List.mem_cons.1 hj with rfl | hj
        · rw [r3 _ hnd.1]; exact ⟨by linarith, by linarith⟩
        · exact r2 j hj
      · intro j hj
        exact r3 j fun hc => hj (by simp [hc])
    · rw [if_neg ht]
      obtain ⟨g1, a, ev, hm1⟩ := gm_matching_total hc hV hm.sane hg hfac (startPose (h i) (d.guess i))
      obtain ⟨isM, hg1⟩ := gm_matching_is_match hc hm.sane hg hfac hm1
      obtain ⟨hl1, hpose⟩ := gm_match_near hc hV.zero hf hm hl h4 isM
      obtain ⟨sp1, sp2⟩ := startPose_near (h i) (hG i)
      have htf : (h i).tooClose = false := by simpa using ht
      have hmp := matched_pose (h i) ⟨d.guess i, fun _ => a, d.nextSm i⟩ htf
      simp only at hmp
      have hX : |((h i).handleObservation ⟨d.guess i, fun _ => a, d.nextSm i⟩).1.pose.x| ≤ B + (w + 1) * cfg.slam.scale + R ∧
          |((h i).handleObservation ⟨d.guess i, fun _ => a, d.nextSm i⟩).1.pose.y| ≤ B + (w + 1) * cfg.slam.scale + R := by
        rw [hmp]
        rcases hpose with e | e
        · rw [e]; exact ⟨by linarith, by linarith⟩
        · exact e
      simp only [hm1, Option.bind_some]
      obtain ⟨o1, -, -⟩ := observation_pose (h i) ⟨d.guess i, fun _ => a, d.nextSm i⟩ G (max |a.1.x| |a.1.y|) (hG i)
        (fun _ => ⟨le_max_left _ _, le_max_right _ _⟩)
      have done : ∀ (ms' : Nat → List (Poses.Pose ℝ)) (m' : M) (hist' : Option Hist), ToldNear cfg init (B + gr) m' → HistOk hist' →
          ∃ r, observeOwn cfg d scan ids (setObj h i ((h i).handleObservation ⟨d.guess i, fun _ => a, d.nextSm i⟩).1) ms' m' hist' g1 =
              some r ∧
            (∀ j ∈ i :: ids, |(r.1 j).pose.x| ≤ B + gr + ids.length * gr ∧ |(r.1 j).pose.y| ≤ B + gr + ids.length * gr) ∧
            (∀ j, j ∉ i :: ids → r.1 j = h j) ∧ ToldNear cfg init (B + gr + ids.length * gr) r.2.2.1 ∧
            LastNear cfg.slam.scale w (B + gr + ids.length * gr) (lastOf r.2.2.2.2.pe) ∧ HistOk r.2.2.2.1 := by
        intro ms' m' hist' hm' hh'
        obtain ⟨r, r1, r2, r3, r4, r5, r6⟩ := ih _ ms' m' hist' g1 (B + gr) hnd.2 (hb' _) hm' (hl1.mono (by linarith)) hg1 hh'
          (by linarith)
        refine ⟨r, r1, ?_, ?_, r4, r5, r6⟩
        · intro j hj
          rcases List.mem_cons.1 hj with rfl | hj
          · rw [r3 _ hnd.1, setObj, if_pos rfl]; exact ⟨by linarith [hX.1], by linarith [hX.2]⟩
          · exact r2 j hj
        · intro j hj
          rw [r3 j fun hc => hj (by simp [hc]), hne _ j fun hc => hj (by simp [hc])]
      cases hq : ((h i).handleObservation ⟨d.guess i, fun _ => a, d.nextSm i⟩).2 with
      | none => exact done _ _ _ (hm.mono (by linarith)) hh
      | some p =>
        have hp := o1 p hq
        rw [← hp] at hX
        obtain ⟨us, u1, -⟩ := hm.sane
        obtain ⟨m', hist', a1, a2, a3⟩ := append_total hc.lawful hc.scale N hok hfu R (B + (w + 1) * cfg.slam.scale + R) (by linarith) hR
          ⟨us, u1⟩ hh h4 (p' := p) hX.1 hX.2 1 0 (by
            by_cases he : scan = []
            · exact .inl he
            · exact .inr (List.length_pos_of_ne_nil he))
        have near := append_near hc hok hfu hR (X := B + (w + 1) * cfg.slam.scale + R) (U := B) (U' := B + gr) (by linarith)
          (by linarith) (by linarith) hm h4 hX.1 hX.2 a1
        simp only [a1, Option.bind_some]
        exact done _ _ _ near a3

/-- One message is handled. -/
theorem gown_handle_total {cfg : GOwnCfg M} {init : M} (hc : GStarted cfg init) {V : Finset ℝ} (hV : Rounded cfg V) {N : Int}
    (hok : ∀ v, |v| ≤ 6 * N → cfg.slam.ok v = true) (hfu : 4 * N + 2 ≤ cfg.slam.fuel) {R G D A f : ℝ} {w n : Nat} (hR : 0 ≤ R)
    (hf : -1 < f) {s : GOwn M} {d : GMsg} (hs : GSound cfg init f w n s) (hd : SamplesOk n d)
    (hG : ∀ i, |(d.guess i).x| ≤ G ∧ |(d.guess i).y| ≤ G) (hg : GoodMsg cfg.slam R d.msg) (hh : HistOk s.st.hist)
    (hA : Near A s.st.filter) (hm : ToldNear cfg init A s.st.map) (hl : LastNear cfg.slam.scale w A (lastOf s.matcher.pe))
    (hD : |d.odom.x - s.st.odom.x| + |d.odom.y - s.st.odom.y| ≤ D)
    (hN : A + (D + G + n * growth R cfg.slam.scale w) + R ≤ cfg.slam.scale * (N - 1)) :
    ∃ s', s.handle cfg d = some s' ∧ GSound cfg init f w n s' ∧ HistOk s'.st.hist ∧ s'.st.odom = d.odom ∧
      Near (A + (D + G + n * growth R cfg.slam.scale w)) s'.st.filter ∧
      ToldNear cfg init (A + (D + G + n * growth R cfg.slam.scale w)) s'.st.map ∧
      LastNear cfg.slam.scale w (A + (D + G + n * growth R cfg.slam.scale w)) (lastOf s'.matcher.pe) := by
  obtain ⟨hi, hn⟩ := Particle.reach_inv _ _ _ _ hs.filter
  obtain ⟨pts, scan, h1, h2, h3, h4⟩ := good_scan hg
  have hG0 : 0 ≤ G := (abs_nonneg _).trans (hG 0).1
  have hD0 : 0 ≤ D := le_trans (by positivity) hD
  have hfac := scanOf_polar h2
  have hlen : (s.st.filter.updatePose Real.sin Real.cos (d.odom.sub s.st.odom)).ids.length = n := hi.length
  have hdel : ∀ i ∈ s.st.filter.ids,
      |((s.st.filter.heap i).updatePose Real.sin Real.cos (d.odom.sub s.st.odom)).pose.x| ≤ A + D ∧
      |((s.st.filter.heap i).updatePose Real.sin Real.cos (d.odom.sub s.st.odom)).pose.y| ≤ A + D := by
    intro i him
    obtain ⟨u1, u2⟩ := update_pose_bound (s.st.filter.heap i) (d.odom.sub s.st.odom)
    have : |(d.odom.sub s.st.odom).x| + |(d.odom.sub s.st.odom).y| ≤ D := hD
    obtain ⟨a1, a2⟩ := hA i him
    exact ⟨by linarith, by linarith⟩
  obtain ⟨r, r1, r2, r3, r4, r5, r6⟩ := observeOwn_total hc hV hok hfu (G := G) (f := f) (w := w) hR hf d hG scan h4
    (s.st.filter.updatePose Real.sin Real.cos (d.odom.sub s.st.odom)).ids
    (s.st.filter.updatePose Real.sin Real.cos (d.odom.sub s.st.odom)).heap
    (s.st.filter.updatePose Real.sin Real.cos (d.odom.sub s.st.odom)).maps s.st.map s.st.hist s.matcher (A + D + G) hi.nodup
    (by
      intro i him
      have him : i ∈ s.st.filter.ids := him
      rw [updated_heap hs.filter _ i him]
      obtain ⟨a1, a2⟩ := hdel i him
      exact ⟨by linarith, by linarith⟩)
    (hm.mono (by linarith)) (hl.mono (by linarith)) hs.matcher hh (by rw [hlen]; linarith)
  rw [hlen] at r2 r4 r5
  rw [show A + D + G + n * growth R cfg.slam.scale w = A + (D + G + n * growth R cfg.slam.scale w) by ring] at r2 r4 r5
  obtain ⟨ans, a1, -, -, -, a5, -⟩ := observeOwn_spec hc d scan hfac _ _ _ _ _ _ _
    (show (s.st.filter.updatePose Real.sin Real.cos (d.odom.sub s.st.odom)).ids.Nodup from hi.nodup) hs.map hs.matcher hs.last r1
  obtain ⟨env, log, e1, e2, -, -, -⟩ := observeEach_spec cfg.slam (d.answered ans) scan _ _ _ _ _ _
    (show (s.st.filter.updatePose Real.sin Real.cos (d.odom.sub s.st.odom)).ids.Nodup from hi.nodup)
    (by
      intro i him
      have him : i ∈ s.st.filter.ids := him
      rw [updated_heap hs.filter _ i him]
      exact hi.shared i him) a1
  have henv : ∀ i p a, ((env i).matcher p).2 = some a → 0 ≤ a := by
    intro i p a ha
    obtain ⟨-, -, m, -, hm'⟩ := e1 i
    rw [hm'] at ha
    exact (answers_unit hc hfac (a5 i) a ha).1
  obtain ⟨f', f1, f2⟩ := Particle.inv_handle Real.sin Real.cos n hn s.st.filter hi (d.odom.sub s.st.odom) env d.samples henv hd.1 hd.2
  have hhd : s.handle cfg d = some ⟨⟨d.odom, f', r.2.2.1, r.2.2.2.1⟩, r.2.2.2.2⟩ := by
    unfold GOwn.handle
    rw [h1, Option.bind_some, h2, Option.bind_some]
    simp only [observerStep, r1, Option.bind_some]
    have f1' := f1
    unfold Particle.Filter.handle at f1'
    simp only [e2] at f1'
    rw [f1']
    rfl
  obtain ⟨-, -, -, -, -, hs', -⟩ := gown_message hc hs hd hhd
  refine ⟨_, hhd, hs', r6, rfl, ?_, r4, r5⟩
  intro y hy
  obtain ⟨x, hx, ⟨c1, -⟩, -⟩ := Particle.noise_inherited Real.sin Real.cos n s.st.filter hs.filter (d.odom.sub s.st.odom) env d.samples
    henv hd.1 hd.2 f' f1 (f'.heap y) (List.mem_map.2 ⟨y, hy, rfl⟩)
  have hrx := Particle.observeAll_heap env _ (show (s.st.filter.updatePose Real.sin Real.cos (d.odom.sub s.st.odom)).ids.Nodup from hi.nodup)
    (s.st.filter.updatePose Real.sin Real.cos (d.odom.sub s.st.odom)).heap
    (s.st.filter.updatePose Real.sin Real.cos (d.odom.sub s.st.odom)).maps x
  rw [e2, if_pos (show x ∈ (s.st.filter.updatePose Real.sin Real.cos (d.odom.sub s.st.odom)).ids from hx),
    updated_heap hs.filter _ x hx] at hrx
  have := r2 x hx
  simp only at hrx
  rw [hrx] at this
  rw [c1]
  exact this

/-! ## Histories -/

/-- **GMapping with its own matcher does not fail (C90).** Messages without NaN ranges whose angles fit together, noise and odometry
steps of at most `G` and `D`, particles and map within `A` at the start, scores rounded to finitely many values: as long as the area
that can be reached (for each message `D + G` and, for each of the `n` particles, `growth`) stays within integers the traversal
copes with (`N`), all messages are handled: every search of the matcher ends, no assertion fails, no cell can not be read, no null
particle is dereferenced, and no index is out of range. -/
theorem gown_run_total {cfg : GOwnCfg M} {init : M} (hc : GStarted cfg init) {V : Finset ℝ} (hV : Rounded cfg V) {N : Int}
    (hok : ∀ v, |v| ≤ 6 * N → cfg.slam.ok v = true) (hfu : 4 * N + 2 ≤ cfg.slam.fuel) {R G D A f : ℝ} {w n : Nat} (hR : 0 ≤ R)
    (hG0 : 0 ≤ G) (hD0 : 0 ≤ D) (hf : -1 < f) (ds : List GMsg)
    (hd : ∀ d ∈ ds, SamplesOk n d ∧ GoodMsg cfg.slam R d.msg ∧ ∀ i, |(d.guess i).x| ≤ G ∧ |(d.guess i).y| ≤ G)
    (hN : A + ds.length * (D + G + n * growth R cfg.slam.scale w) + R ≤ cfg.slam.scale * (N - 1)) {s : GOwn M}
    (hs : GSound cfg init f w n s) (hh : HistOk s.st.hist) (hA : Near A s.st.filter) (hm : ToldNear cfg init A s.st.map)
    (hl : LastNear cfg.slam.scale w A (lastOf s.matcher.pe)) (hst : SmallMoves D s.st.odom ds) :
    ∃ s', s.run cfg ds = some s' := by
  have hgr := growth_nonneg hR hc.scale w
  have hng : (0 : ℝ) ≤ n * growth R cfg.slam.scale w := mul_nonneg (Nat.cast_nonneg _) hgr
  induction ds generalizing s A with
  | nil => exact ⟨s, rfl⟩
  | cons d ds ih =>
    obtain ⟨a, b, c⟩ := hd d (by simp)
    simp only [List.length_cons, Nat.cast_add, Nat.cast_one] at hN
    have hlen : (0 : ℝ) ≤ ds.length * (D + G + n * growth R cfg.slam.scale w) := mul_nonneg (Nat.cast_nonneg _) (by linarith)
    have e : A + ((ds.length : ℝ) + 1) * (D + G + n * growth R cfg.slam.scale w) + R =
      A + (D + G + n * growth R cfg.slam.scale w) + ds.length * (D + G + n * growth R cfg.slam.scale w) + R := by ring
    rw [e] at hN
    unfold SmallMoves at hst
    rw [List.map_cons, List.isChain_cons_cons] at hst
    obtain ⟨s1, h1, h2, h3, h4, h5, h6, h7⟩ := gown_handle_total hc hV hok hfu hR hf hs a c b hh hA hm hl hst.1 (by linarith)
    obtain ⟨s', h'⟩ := ih (A := A + (D + G + n * growth R cfg.slam.scale w)) (fun d' hd' => hd d' (by simp [hd'])) hN h2 h3 h5 h6 h7
      (by rw [h4]; exact hst.2)
    refine ⟨s', ?_⟩
    change (s.handle cfg d).bind _ = _
    rw [h1]
    exact h'

end Slam.Whole
