import Verif.LazyMap.Lemmas

/-! Refinement lemmas for lazily tiled maps. -/

namespace Slam.LazyMap
open Slam.Grid Slam.PlainMap
variable {C O : Type}

theorem live_unique {st : St C} {i : Nat} {m m' : LMap} (h : Live st i m) (h' : Live st i m') : m' = m := by
  unfold Live at h h'; rw [h] at h'; simpa using h'.symm

/-- Effect of a write (in place or by replacement) after `ensure_sole_owning`. -/
structure WriteEffect (S : Nat) (st st3 : St C) (i : Nat) (m m2 : LMap) (x y : Nat) (w : C) : Prop where
  inv : Inv S st3
  maps : st3.maps = st.maps.set i (some m2)
  fields : m2 = { m with tiles := m2.tiles }
  others : ∀ j m', Live st j m' → j ≠ i → ∀ x' y' : Nat, Area S m' x' y' →
    cellInternal S st3 m' ⟨x', y'⟩ = cellInternal S st m' ⟨x', y'⟩
  self : ∀ x' y' : Nat, Area S m x' y' → cellInternal S st3 m2 ⟨x', y'⟩ =
    if x' = x ∧ y' = y then some w else cellInternal S st m ⟨x', y'⟩
  unk : ∀ j m', Live st j m' → st3.cells[m'.unkCell]? = st.cells[m'.unkCell]?

theorem live_of_set {st st2 : St C} {i : Nat} {m m2 : LMap} (hl : Live st i m)
    (hmaps : st2.maps = st.maps.set i (some m2)) (j : Nat) (m' : LMap) :
    Live st2 j m' ↔ (j = i ∧ m' = m2) ∨ (j ≠ i ∧ Live st j m') := by
  have := live_set (m1 := m2) hl st2.tiles st2.cells j m'
  rw [← this]
  unfold Live
  rw [hmaps]

theorem update_effect {S : Nat} (hS : 0 < S) {st : St C} (hI : Inv S st) {i : Nat} {m : LMap}
    (hl : Live st i m) {x y : Nat} (ha : Area S m x y) (g : C → C) :
    ∃ st3 m2 v, ((ensureSole S st i m ⟨x, y⟩).bind fun q => modifyCell S q.1 q.2 ⟨x, y⟩ g) = some st3 ∧
      cellInternal S st m ⟨x, y⟩ = some v ∧ m2 = { m with tiles := m2.tiles } ∧
      WriteEffect S st st3 i m m2 x y (g v) := by
  obtain ⟨st2, m2, t, es, c, v, e1, hI2, hmaps, hl2, hm2, hcells, h1, hts, h2, h3, h4, hcs, hval, hoth, hself⟩ :=
    ensureSole_spec hS hI hl ha
  have htx : m2.tx = m.tx := by rw [hm2]
  have hty : m2.ty = m.ty := by rw [hm2]
  have hunk : m2.unkCell = m.unkCell := by rw [hm2]
  have hclt : c < st2.cells.length := hI2.cellLt _ _ h2 _ (List.mem_of_getElem? h3)
  have hlive := live_of_set hl hmaps
  set st3 : St C := { st2 with cells := st2.cells.set c (g v) } with hst3
  have hrun : ((ensureSole S st i m ⟨x, y⟩).bind fun q => modifyCell S q.1 q.2 ⟨x, y⟩ g) = some st3 := by
    rw [e1, Option.bind_some]
    unfold modifyCell
    simp only [tileIdx_nat, cellIdx_nat, idx_nat, htx, h1, Option.bind_some, h2, h3, h4, Option.map_some, hst3]
  have look : ∀ j m', Live st2 j m' → ∀ x' y' : Nat, Area S m' x' y' →
      cellInternal S st3 m' ⟨x', y'⟩ =
        if j = i ∧ x' = x ∧ y' = y then some (g v) else cellInternal S st2 m' ⟨x', y'⟩ := by
    intro j m' hlj x' y' ha'
    obtain ⟨t', es', c', v', k1, k2, k3, k4⟩ := loc_exists hS hI2 hlj ha'
    rw [cellInternal_nat, cellInternal_nat, k1]
    simp only [Option.bind_some]
    have : st3.tiles = st2.tiles := rfl
    rw [this, k2]
    simp only [Option.bind_some, k3]
    by_cases hc : c' = c
    · subst hc
      obtain ⟨rfl, hk⟩ := hcs.2 t' es' _ ⟨j, m', hlj, Or.inr (List.mem_of_getElem? k1)⟩ k2 k3
      obtain ⟨rfl, hs⟩ := (hts j m' hlj).2 _ k1
      have hmm : m' = m2 := live_unique hl2 hlj
      subst hmm
      have hs' : slot S m'.tx x' y' = slot S m'.tx x y := by rw [hs, htx]
      obtain ⟨rfl, rfl⟩ := slot_kpos_inj S m'.tx x' y' x y hS ha'.1 (by rw [htx]; exact ha.1) hs' hk
      simp only [and_self, if_true, hst3]
      rw [List.getElem?_set_self hclt]
    · have : st3.cells[c']? = st2.cells[c']? := by
        simp only [hst3]; rw [List.getElem?_set_ne (by omega)]
      rw [this, if_neg]
      rintro ⟨rfl, rfl, rfl⟩
      have hmm : m' = m2 := live_unique hl2 hlj
      subst hmm
      rw [htx, h1] at k1
      have := Option.some.inj k1; subst this
      rw [h2] at k2
      have := Option.some.inj k2; subst this
      rw [h3] at k3
      exact hc (Option.some.inj k3).symm
  refine ⟨st3, m2, v, hrun, hval, hm2, ?_⟩
  constructor
  · constructor
    · exact hI2.tileLen
    · intro t' es' h c' hc'
      have := hI2.cellLt t' es' h c' hc'
      simp only [hst3, List.length_set]; exact this
    · exact hI2.mapTiles
    · exact hI2.unkT
    · intro j m' h
      have := hI2.unkC j m' h
      simp only [hst3, List.length_set]; exact this
    · exact hI2.size
  · exact hmaps
  · exact hm2
  · intro j m' hlj hne x' y' ha'
    rw [look j m' ((hlive j m').2 (Or.inr ⟨hne, hlj⟩)) x' y' ha', if_neg (by rintro ⟨h, _⟩; exact hne h),
      hoth j m' hlj hne x' y' ha']
  · intro x' y' ha'
    have ha2 : Area S m2 x' y' := by unfold Area; rw [htx, hty]; exact ha'
    rw [look i m2 hl2 x' y' ha2, hself x' y' ha']
    simp only [true_and]
  · intro j m' hlj
    have hne : m'.unkCell ≠ c := by
      by_cases hj : j = i
      · subst hj
        have := live_unique hl hlj; subst this
        rw [← hunk]; exact hcs.1 j m2 hl2
      · exact hcs.1 j m' ((hlive j m').2 (Or.inr ⟨hj, hlj⟩))
    simp only [hst3]
    rw [List.getElem?_set_ne (by omega)]
    have hlt := hI.unkC j m' hlj
    rw [List.getElem?_eq_getElem hlt]
    exact hcells _ _ (List.getElem?_eq_getElem hlt)

theorem reset_effect {S : Nat} (hS : 0 < S) {st : St C} (hI : Inv S st) {i : Nat} {m : LMap}
    (hl : Live st i m) {x y : Nat} (ha : Area S m x y) (w : C) :
    ∃ st3 m2, ((ensureSole S st i m ⟨x, y⟩).bind fun q => replaceCell S q.1 q.2 ⟨x, y⟩ w) = some st3 ∧
      m2 = { m with tiles := m2.tiles } ∧
      WriteEffect S st st3 i m m2 x y w := by
  obtain ⟨st2, m2, t, es, c, v, e1, hI2, hmaps, hl2, hm2, hcells, h1, hts, h2, h3, h4, hcs, hval, hoth, hself⟩ :=
    ensureSole_spec hS hI hl ha
  have htx : m2.tx = m.tx := by rw [hm2]
  have hty : m2.ty = m.ty := by rw [hm2]
  have hlive := live_of_set hl hmaps
  have ha2 : Area S m2 x y := by unfold Area; rw [htx, hty]; exact ha
  obtain ⟨g1, g2, g3, g4, g5, g6, g7, g8⟩ :=
    freshCell_spec hS hI2 hl2 ha2 (by rw [htx]; exact h1) h2 h3 (by rw [htx]; exact hts) w _ rfl
  refine ⟨_, m2, ?_, hm2, ⟨g1, by rw [g2, hmaps], hm2, ?_, ?_, ?_⟩⟩
  · rw [e1, Option.bind_some]
    unfold replaceCell
    simp only [tileIdx_nat, cellIdx_nat, idx_nat, htx, h1, Option.bind_some, h2, h3, Option.map_some,
      Int.toNat_natCast]
  · intro j m' hlj hne x' y' ha'
    rw [g8 j m' ((hlive j m').2 (Or.inr ⟨hne, hlj⟩)) x' y' ha', if_neg (by rintro ⟨h, _⟩; exact hne h),
      hoth j m' hlj hne x' y' ha']
  · intro x' y' ha'
    have ha2 : Area S m2 x' y' := by unfold Area; rw [htx, hty]; exact ha'
    rw [g8 i m2 hl2 x' y' ha2, hself x' y' ha']
    simp only [true_and]
  · intro j m' hlj
    have hlt := hI.unkC j m' hlj
    rw [List.getElem?_eq_getElem hlt]
    exact g4 _ _ (hcells _ _ (List.getElem?_eq_getElem hlt))

/-! ### growth -/

theorem moveRows_spec (tiles : List Nat) (tx ty ntx prepX prepY : Nat) (dst : List Nat)
    (hlen : tiles.length = tx * ty) (hfit : prepX + tx ≤ ntx) (hd : (prepY + ty) * ntx ≤ dst.length) :
    ∀ n, n ≤ ty → ∃ d, moveRows tiles tx ntx prepX prepY n dst = some d ∧ d.length = dst.length ∧
      ∀ X Y, X < ntx → d[Y * ntx + X]? =
        if prepY ≤ Y ∧ Y < prepY + n ∧ prepX ≤ X ∧ X < prepX + tx
        then tiles[(Y - prepY) * tx + (X - prepX)]? else dst[Y * ntx + X]? := by
  intro n
  induction n with
  | zero =>
    intro _
    refine ⟨dst, rfl, rfl, ?_⟩
    intro X Y _
    rw [if_neg (by omega)]
  | succ n ih =>
    intro hn
    obtain ⟨d, h1, h2, h3⟩ := ih (by omega)
    have hnt : (n + 1) * tx ≤ ty * tx := Nat.mul_le_mul_right _ hn
    have hnt' : n * tx + tx ≤ tiles.length := by
      rw [hlen]
      have e1 : (n + 1) * tx = n * tx + tx := by ring
      have e2 : ty * tx = tx * ty := by ring
      omega
    have hsrc : ((tiles.drop (n * tx)).take tx).length = tx := by
      rw [List.length_take, List.length_drop]; omega
    have hoff : (prepY + n) * ntx + prepX + tx ≤ d.length := by
      have e1 : (prepY + n + 1) * ntx ≤ (prepY + ty) * ntx := Nat.mul_le_mul_right _ (by omega)
      have e2 : (prepY + n + 1) * ntx = (prepY + n) * ntx + ntx := by ring
      omega
    refine ⟨_, by rw [moveRows, h1, Option.bind_some, blit, if_pos (by rw [hsrc]; exact hoff)], ?_, ?_⟩
    · rw [List.length_append, List.length_append, List.length_take, List.length_drop, hsrc]; omega
    · intro X Y hX
      rw [blit_getElem? _ _ _ (by rw [hsrc]; exact hoff), hsrc]
      by_cases hc : (prepY + n) * ntx + prepX ≤ Y * ntx + X ∧ Y * ntx + X < (prepY + n) * ntx + prepX + tx
      · rw [if_pos hc]
        obtain ⟨j, hj⟩ : ∃ j, Y * ntx + X = (prepY + n) * ntx + (prepX + j) :=
          ⟨Y * ntx + X - ((prepY + n) * ntx + prepX), by omega⟩
        have hjt : j < tx := by omega
        obtain ⟨hY, hXj⟩ := radix_inj ntx _ _ _ _ hX (by omega) hj
        rw [if_pos (by omega), List.getElem?_take_of_lt (by omega), List.getElem?_drop]
        congr 1
        have e3 : Y - prepY = n := by omega
        rw [e3]; omega
      · rw [if_neg hc, h3 X Y hX]
        by_cases hr : prepY ≤ Y ∧ Y < prepY + n ∧ prepX ≤ X ∧ X < prepX + tx
        · rw [if_pos hr, if_pos (by omega)]
        · rw [if_neg hr, if_neg]
          intro hh
          apply hc
          have : Y = prepY + n := by omega
          subst this
          omega

theorem extraTiles_spec (S : Nat) (hS : 0 < S) (val : Int) (w tx : Nat) (hw : w ≤ tx * S) :
    let e := extraTiles S val w
    0 ≤ val + (e.1 * S : Nat) ∧ val + (e.1 * S : Nat) < ((e.1 + tx + e.2) * S : Nat) := by
  intro e
  have he : e = extraTiles S val w := rfl
  unfold extraTiles at he
  have hS' : (0 : Int) < S := by omega
  split at he
  · rename_i hneg
    rw [he]
    simp only
    have h1 := Int.emod_add_mul_ediv (0 - val) S
    have h2 := Int.emod_lt_of_pos (0 - val) hS'
    have h3 : 0 ≤ (0 - val) / (S : Int) := Int.ediv_nonneg (by omega) (by omega)
    set q := ((0 - val) / (S : Int)).toNat with hq
    have hq' : (0 - val) / (S : Int) = q := by omega
    rw [hq'] at h1
    have e1 : (((1 + q) * S : Nat) : Int) = S + S * q := by push_cast; ring
    have e2 : (((1 + q + tx + 0) * S : Nat) : Int) = S + S * q + tx * S := by push_cast; ring
    rw [e1, e2]
    have : (0 : Int) ≤ (tx : Int) * S := by positivity
    omega
  · rename_i hneg
    split at he
    · rename_i hge
      rw [he]
      simp only
      have h1 := Int.emod_add_mul_ediv (val - w) S
      have h2 := Int.emod_lt_of_pos (val - w) hS'
      have h3 : 0 ≤ (val - w) / (S : Int) := Int.ediv_nonneg (by omega) (by omega)
      set q := ((val - w) / (S : Int)).toNat with hq
      have hq' : (val - w) / (S : Int) = q := by omega
      rw [hq'] at h1
      have e2 : (((0 + tx + (1 + q)) * S : Nat) : Int) = tx * S + S + S * q := by push_cast; ring
      rw [e2]
      have : (w : Int) ≤ (tx : Int) * S := by exact_mod_cast hw
      simp only [Nat.zero_mul, Nat.cast_zero, add_zero]
      omega
    · rename_i hlt
      rw [he]
      simp only [Nat.zero_mul, Nat.cast_zero, add_zero, Nat.zero_add]
      have : (w : Int) ≤ ((tx * S : Nat) : Int) := by exact_mod_cast hw
      omega

theorem lhasInternal_iff (m : LMap) (ic : Coord) :
    m.hasInternal ic = true ↔ (0 ≤ ic.x ∧ ic.x < m.width) ∧ (0 ≤ ic.y ∧ ic.y < m.height) := by
  simp only [LMap.hasInternal, Dims.hasInternalCell, Bool.and_eq_true, decide_eq_true_eq]

/-- What growth does to a map object. -/
structure Grown (S : Nat) (m m' : LMap) (ox oy : Nat) : Prop where
  unkCell : m'.unkCell = m.unkCell
  unkTile : m'.unkTile = m.unkTile
  unb : m'.unbounded = m.unbounded
  size : m'.tiles.length = m'.tx * m'.ty ∧ m'.width ≤ m'.tx * S ∧ m'.height ≤ m'.ty * S
  mem : ∀ t ∈ m'.tiles, t ∈ m.tiles ∨ t = m.unkTile
  origin : m'.origin = ⟨m.origin.x + ox, m.origin.y + oy⟩
  area : ∀ x y, Area S m x y → Area S m' (x + ox) (y + oy)
  extent : ∀ d, m.hasInternal (external2internal m.origin d) = true →
    m'.hasInternal (external2internal m'.origin d) = true
  back : ∀ x' y', Area S m' x' y' →
    (∃ x y, x' = x + ox ∧ y' = y + oy ∧ Area S m x y ∧
      m'.tiles[slot S m'.tx x' y']? = m.tiles[slot S m.tx x y]? ∧ kpos S x' y' = kpos S x y) ∨
    ((∀ x y, x' = x + ox → y' = y + oy → ¬ Area S m x y) ∧
      m'.tiles[slot S m'.tx x' y']? = some m.unkTile)

theorem growMap_spec {S : Nat} (hS : 0 < S) (m : LMap)
    (hsz : m.tiles.length = m.tx * m.ty ∧ m.width ≤ m.tx * S ∧ m.height ≤ m.ty * S) (c : Coord) :
    ∃ m' ox oy, growMap S m c = some m' ∧ Grown S m m' ox oy ∧
      m'.hasInternal (external2internal m'.origin c) = true := by
  unfold growMap
  simp only
  by_cases hin : m.hasInternal (external2internal m.origin c) = true
  · rw [if_pos hin]
    refine ⟨m, 0, 0, rfl, ⟨rfl, rfl, rfl, hsz, fun t h => Or.inl h, by simp, fun x y h => h, fun d h => h, ?_⟩, hin⟩
    intro x' y' ha
    left
    exact ⟨x', y', rfl, rfl, ha, rfl, rfl⟩
  · rw [if_neg hin]
    set coord := external2internal m.origin c with hcoord
    have sx := extraTiles_spec S hS coord.x m.width m.tx hsz.2.1
    have sy := extraTiles_spec S hS coord.y m.height m.ty hsz.2.2
    simp only at sx sy
    set ex := extraTiles S coord.x m.width
    set ey := extraTiles S coord.y m.height
    set ntx := ex.1 + m.tx + ex.2 with hntx
    set nty := ey.1 + m.ty + ey.2 with hnty
    have hdl : (ey.1 + m.ty) * ntx ≤ (List.replicate (ntx * nty) m.unkTile).length := by
      rw [List.length_replicate, Nat.mul_comm]
      exact Nat.mul_le_mul_left _ (by omega)
    obtain ⟨nt, h1, h2, h3⟩ := moveRows_spec m.tiles m.tx m.ty ntx ex.1 ey.1
      (List.replicate (ntx * nty) m.unkTile) hsz.1 (by omega) hdl m.ty (Nat.le_refl _)
    rw [h1, Option.bind_some]
    rw [List.length_replicate] at h2
    set m' : LMap := { m with tx := ntx, ty := nty, tiles := nt, height := nty * S, width := ntx * S
                              origin := m.origin.add ⟨(ex.1 * S : Nat), (ey.1 * S : Nat)⟩ } with hm'
    have hsh : ∀ d, external2internal m'.origin d =
        ⟨(external2internal m.origin d).x + (ex.1 * S : Nat), (external2internal m.origin d).y + (ey.1 * S : Nat)⟩ := by
      intro d
      simp only [hm', external2internal, Coord.add, Coord.mk.injEq]
      omega
    have hc' : m'.hasInternal (external2internal m'.origin c) = true := by
      rw [hsh, lhasInternal_iff]
      simp only [← hcoord, hm']
      exact ⟨sx, sy⟩
    have hmx : (ntx * S : Nat) = ex.1 * S + m.tx * S + ex.2 * S := by rw [hntx]; ring
    have hmy : (nty * S : Nat) = ey.1 * S + m.ty * S + ey.2 * S := by rw [hnty]; ring
    rw [if_pos hc']
    refine ⟨m', ex.1 * S, ey.1 * S, rfl, ⟨rfl, rfl, rfl, ⟨h2, Nat.le_refl _, Nat.le_refl _⟩, ?_, rfl, ?_, ?_, ?_⟩, hc'⟩
    · intro t ht
      obtain ⟨p, hp, rfl⟩ := List.getElem_of_mem ht
      have hpl : p < ntx * nty := by rw [← h2]; exact hp
      have hpos : 0 < ntx := by
        rcases Nat.eq_zero_or_pos ntx with h | h
        · rw [h] at hpl; omega
        · exact h
      have e : p = p / ntx * ntx + p % ntx := by
        rw [Nat.mul_comm]; exact (Nat.div_add_mod p ntx).symm
      have := h3 (p % ntx) (p / ntx) (Nat.mod_lt _ hpos)
      rw [← e] at this
      have hget : nt[p]? = some nt[p] := List.getElem?_eq_getElem hp
      rw [hget] at this
      split at this
      · left; exact List.mem_of_getElem? this.symm
      · right
        rw [List.getElem?_replicate, if_pos hpl] at this
        exact Option.some.inj this
    · intro x y ha
      unfold Area at *
      simp only [hm']
      omega
    · intro d hd
      rw [hsh, lhasInternal_iff]
      rw [lhasInternal_iff] at hd
      simp only [hm']
      obtain ⟨_, w1, w2⟩ := hsz
      omega
    · intro x' y' ha'
      have hx' : x' < ntx * S := ha'.1
      have hy' : y' < nty * S := ha'.2
      have hX : x' / S < ntx := Nat.div_lt_of_lt_mul (by rw [Nat.mul_comm]; exact hx')
      have key := h3 (x' / S) (y' / S) hX
      have hslot : slot S m'.tx x' y' = y' / S * ntx + x' / S := rfl
      have hnt : m'.tiles = nt := rfl
      rw [hslot, hnt, key]
      by_cases hold : (ex.1 * S ≤ x' ∧ x' < ex.1 * S + m.tx * S) ∧ (ey.1 * S ≤ y' ∧ y' < ey.1 * S + m.ty * S)
      · left
        obtain ⟨⟨a1, a2⟩, a3, a4⟩ := hold
        obtain ⟨x, rfl⟩ : ∃ x, x' = x + ex.1 * S := ⟨x' - ex.1 * S, by omega⟩
        obtain ⟨y, rfl⟩ : ∃ y, y' = y + ey.1 * S := ⟨y' - ey.1 * S, by omega⟩
        have hxt : x / S < m.tx := Nat.div_lt_of_lt_mul (by rw [Nat.mul_comm]; omega)
        have hyt : y / S < m.ty := Nat.div_lt_of_lt_mul (by rw [Nat.mul_comm]; omega)
        have dx : (x + ex.1 * S) / S = x / S + ex.1 := Nat.add_mul_div_right _ _ hS
        have dy : (y + ey.1 * S) / S = y / S + ey.1 := Nat.add_mul_div_right _ _ hS
        refine ⟨x, y, rfl, rfl, ⟨by omega, by omega⟩, ?_, ?_⟩
        · rw [dx, dy, if_pos ⟨Nat.le_add_left _ _, by rw [Nat.add_comm]; exact Nat.add_lt_add_left hyt _,
            Nat.le_add_left _ _, by rw [Nat.add_comm]; exact Nat.add_lt_add_left hxt _⟩]
          have e1 : y / S + ey.1 - ey.1 = y / S := Nat.add_sub_cancel _ _
          have e2 : x / S + ex.1 - ex.1 = x / S := Nat.add_sub_cancel _ _
          rw [e1, e2]; rfl
        · unfold kpos
          rw [Nat.add_mul_mod_self_right, Nat.add_mul_mod_self_right]
      · right
        constructor
        · intro x y hx hy ha
          apply hold
          unfold Area at ha
          omega
        · rw [if_neg]
          · rw [List.getElem?_replicate, if_pos]
            rw [Nat.mul_comm ntx nty]
            exact radix_lt _ _ _ _ (Nat.div_lt_of_lt_mul (by rw [Nat.mul_comm]; exact hy')) hX
          · rintro ⟨b1, b2, b3, b4⟩
            apply hold
            have c1 : ex.1 * S ≤ x' := by
              rw [Nat.le_div_iff_mul_le hS] at b3; exact b3
            have c2 : x' < (ex.1 + m.tx) * S := by
              rw [Nat.div_lt_iff_lt_mul hS] at b4; exact b4
            have c3 : ey.1 * S ≤ y' := by
              rw [Nat.le_div_iff_mul_le hS] at b1; exact b1
            have c4 : y' < (ey.1 + m.ty) * S := by
              rw [Nat.div_lt_iff_lt_mul hS] at b2; exact b2
            rw [Nat.add_mul] at c2 c4
            exact ⟨⟨c1, c2⟩, c3, c4⟩

/-! ### relation to the abstract maps -/

/-- Concrete map object `m` in heap `st` represents the abstract map `a`. -/
structure RelMap (S : Nat) (st : St C) (m : LMap) (a : AMap C) : Prop where
  proto : ∃ p, st.cells[m.unkCell]? = some p ∧ (m.unbounded = true → ∀ d,
    ¬ m.hasInternal (external2internal m.origin d) = true → a.f d = p)
  val : ∀ x y : Nat, Area S m x y →
    cellInternal S st m ⟨x, y⟩ = some (a.f ⟨x - m.origin.x, y - m.origin.y⟩)
  ext : a.extent = if m.unbounded then none else some (m.width, m.height)
  org : m.unbounded = false → m.origin = ⟨(m.width / 2 : Nat), (m.height / 2 : Nat)⟩ ∧
    m.tx = (m.width + S - 1) / S ∧ m.ty = (m.height + S - 1) / S

/-- The whole state represents the family `A`. -/
structure Rel (S : Nat) (st : St C) (A : List (Option (AMap C))) : Prop where
  inv : Inv S st
  len : A.length = st.maps.length
  dead : ∀ i : Nat, st.maps[i]? = some none → A[i]? = some none
  live : ∀ i m, Live st i m → ∃ a, A[i]? = some (some a) ∧ RelMap S st m a

theorem rel_lookup {S : Nat} {st : St C} {A : List (Option (AMap C))} (h : Rel S st A) {i : Nat} {a : AMap C}
    (ha : A[i]? = some (some a)) : ∃ m, Live st i m ∧ RelMap S st m a := by
  have hlt : i < st.maps.length := by
    rw [← h.len]
    by_contra hh; rw [List.getElem?_eq_none (by omega)] at ha; simp at ha
  have hm := List.getElem?_eq_getElem hlt
  cases hx : st.maps[i] with
  | none =>
    rw [hx] at hm
    have := h.dead i hm
    rw [this] at ha; simp at ha
  | some m =>
    rw [hx] at hm
    obtain ⟨a', h1, h2⟩ := h.live i m hm
    rw [h1] at ha
    have : a' = a := by simpa using ha
    subst this
    exact ⟨m, hm, h2⟩

/-- An in-extent coordinate has natural internal coordinates in the tile area. -/
theorem area_of_hasInternal {S : Nat} {m : LMap}
    (hsz : m.tiles.length = m.tx * m.ty ∧ m.width ≤ m.tx * S ∧ m.height ≤ m.ty * S) {c : Coord}
    (h : m.hasInternal (external2internal m.origin c) = true) :
    ∃ x y : Nat, external2internal m.origin c = ⟨x, y⟩ ∧ Area S m x y ∧
      c = ⟨(x : Int) - m.origin.x, (y : Int) - m.origin.y⟩ := by
  rw [lhasInternal_iff] at h
  obtain ⟨⟨h1, h2⟩, h3, h4⟩ := h
  refine ⟨(external2internal m.origin c).x.toNat, (external2internal m.origin c).y.toNat, ?_, ?_, ?_⟩
  · cases hc : external2internal m.origin c
    rw [hc] at h1 h3
    simp only at h1 h3
    simp only [Coord.mk.injEq]
    omega
  · obtain ⟨_, w1, w2⟩ := hsz
    constructor <;> omega
  · cases c
    simp only [external2internal, Coord.add] at *
    simp only [Coord.mk.injEq]
    omega

/-- Reading through the API. -/
theorem readMap_rel {S : Nat} {st : St C} {m : LMap} {a : AMap C}
    (hsz : m.tiles.length = m.tx * m.ty ∧ m.width ≤ m.tx * S ∧ m.height ≤ m.ty * S)
    (h : RelMap S st m a) (d : Coord) (hd : a.Covers d) : readMap S st m d = some (a.f d) := by
  unfold readMap
  simp only
  by_cases hu : m.unbounded = true
  · rw [if_pos hu]
    by_cases hi : m.hasInternal (external2internal m.origin d) = true
    · rw [if_pos hi]
      obtain ⟨x, y, e, hA, hc⟩ := area_of_hasInternal hsz hi
      rw [e, h.val x y hA, ← hc]
    · rw [if_neg hi]
      obtain ⟨p, hp, hf⟩ := h.proto
      rw [hp, hf hu d hi]
  · rw [if_neg hu]
    have hu' : m.unbounded = false := by simpa using hu
    have hi : m.hasInternal (external2internal m.origin d) = true := by
      have hext := h.ext
      rw [if_neg hu] at hext
      unfold AMap.Covers at hd
      rw [hext] at hd
      simp only at hd
      rw [(h.org hu').1]
      exact hd
    obtain ⟨x, y, e, hA, hc⟩ := area_of_hasInternal hsz hi
    rw [e, h.val x y hA, ← hc]

theorem relMap_congr {S : Nat} {st st' : St C} {m : LMap} {a : AMap C} (h : RelMap S st m a)
    (hu : st'.cells[m.unkCell]? = st.cells[m.unkCell]?)
    (hv : ∀ x y : Nat, Area S m x y → cellInternal S st' m ⟨x, y⟩ = cellInternal S st m ⟨x, y⟩) :
    RelMap S st' m a :=
  ⟨by obtain ⟨p, h1, h2⟩ := h.proto; exact ⟨p, by rw [hu, h1], h2⟩,
   fun x y ha => by rw [hv x y ha, h.val x y ha], h.ext, h.org⟩

/-- A write to the cell at internal coordinates `(x, y)` of the tile area. -/
theorem rel_write_gen {S : Nat} {st st3 : St C} {A : List (Option (AMap C))} (h : Rel S st A)
    {i : Nat} {m m2 : LMap} {a : AMap C} (hl : Live st i m) (ha : A[i]? = some (some a)) (hr : RelMap S st m a)
    {x y : Nat} {w : C} (f' : Coord → C)
    (hout : m.unbounded = true → ∀ d, ¬ m.hasInternal (external2internal m.origin d) = true → f' d = a.f d)
    (hf : ∀ x' y' : Nat, Area S m x' y' → f' ⟨(x' : Int) - m.origin.x, (y' : Int) - m.origin.y⟩ =
      if x' = x ∧ y' = y then w else a.f ⟨(x' : Int) - m.origin.x, (y' : Int) - m.origin.y⟩)
    (he : WriteEffect S st st3 i m m2 x y w) :
    Rel S st3 (A.set i (some { a with f := f' })) := by
  have hlive := live_of_set hl he.maps
  have hilt : i < A.length := by
    by_contra hh; rw [List.getElem?_eq_none (by omega)] at ha; simp at ha
  have f1 : m2.tx = m.tx := by rw [he.fields]
  have f2 : m2.ty = m.ty := by rw [he.fields]
  have f3 : m2.origin = m.origin := by rw [he.fields]
  have f4 : m2.unkCell = m.unkCell := by rw [he.fields]
  have f5 : m2.unbounded = m.unbounded := by rw [he.fields]
  have f6 : m2.width = m.width := by rw [he.fields]
  have f7 : m2.height = m.height := by rw [he.fields]
  refine ⟨he.inv, by rw [he.maps, List.length_set, List.length_set, h.len], ?_, ?_⟩
  · intro j hj
    rw [he.maps] at hj
    by_cases hji : j = i
    · subst hji
      rw [List.getElem?_set_self (by rw [← h.len]; exact hilt)] at hj
      simp at hj
    · rw [List.getElem?_set_ne (by omega)] at hj ⊢
      exact h.dead j hj
  · intro j m' hlj
    rcases (hlive j m').1 hlj with ⟨rfl, rfl⟩ | ⟨hne, hlj'⟩
    · refine ⟨_, List.getElem?_set_self hilt, ?_⟩
      constructor
      · obtain ⟨p, h1, h2⟩ := hr.proto
        refine ⟨p, by rw [f4, he.unk j m hl, h1], ?_⟩
        intro hu d hd
        have hsame : m'.hasInternal (external2internal m'.origin d) = m.hasInternal (external2internal m.origin d) := by
          simp only [LMap.hasInternal, f3, f6, f7]
        rw [hsame] at hd
        rw [f5] at hu
        simp only
        rw [hout hu d hd]
        exact h2 hu d hd
      · intro x' y' ha'
        have hA : Area S m x' y' := by unfold Area at *; rw [← f1, ← f2]; exact ha'
        rw [he.self x' y' hA, f3, hr.val x' y' hA]
        simp only
        rw [hf x' y' hA]
        by_cases hxx : x' = x ∧ y' = y
        · rw [if_pos hxx, if_pos hxx]
        · rw [if_neg hxx, if_neg hxx]
      · simp only [f5, f6, f7]; exact hr.ext
      · intro hu; rw [f1, f2, f3, f6, f7]; rw [f5] at hu; exact hr.org hu
    · obtain ⟨a', g1, g2⟩ := h.live j m' hlj'
      refine ⟨a', by rw [List.getElem?_set_ne (by omega)]; exact g1, ?_⟩
      exact relMap_congr g2 (he.unk j m' hlj') (he.others j m' hlj' hne)

/-- A write at an in-extent coordinate. -/
theorem rel_write {S : Nat} {st st3 : St C} {A : List (Option (AMap C))} (h : Rel S st A)
    {i : Nat} {m m2 : LMap} {a : AMap C} (hl : Live st i m) (ha : A[i]? = some (some a)) (hr : RelMap S st m a)
    {c : Coord} {x y : Nat} {w : C} (hin : m.hasInternal (external2internal m.origin c) = true)
    (hxy : external2internal m.origin c = ⟨x, y⟩)
    (he : WriteEffect S st st3 i m m2 x y w) :
    Rel S st3 (A.set i (some { a with f := fun d => if d = c then w else a.f d })) := by
  refine rel_write_gen h hl ha hr _ ?_ ?_ he
  · intro _ d hd
    rw [if_neg (by rintro rfl; exact hd hin)]
  · intro x' y' _
    have hiff : ((⟨(x' : Int) - m.origin.x, (y' : Int) - m.origin.y⟩ : Coord) = c) ↔ (x' = x ∧ y' = y) := by
      cases c
      simp only [external2internal, Coord.add, Coord.mk.injEq] at hxy ⊢
      omega
    by_cases hxx : x' = x ∧ y' = y
    · rw [if_pos hxx, if_pos (hiff.2 hxx)]
    · rw [if_neg hxx, if_neg (fun hh => hxx (hiff.1 hh))]

/-- Growth does not change the represented functions. -/
theorem rel_grow {S : Nat} (hS : 0 < S) {st : St C} {A : List (Option (AMap C))} (h : Rel S st A)
    {i : Nat} {m : LMap} {a : AMap C} (hl : Live st i m) (ha : A[i]? = some (some a)) (hr : RelMap S st m a)
    (c : Coord) (hc : a.Covers c) :
    ∃ st' m', ensureInside S st i m c = some (st', m') ∧ Rel S st' A ∧ Live st' i m' ∧ RelMap S st' m' a ∧
      m'.hasInternal (external2internal m'.origin c) = true := by
  unfold ensureInside
  by_cases hu : m.unbounded = true
  · rw [if_pos hu]
    obtain ⟨m', ox, oy, g1, g, g2⟩ := growMap_spec hS m (h.inv.size i m hl) c
    rw [g1, Option.map_some]
    set st' : St C := { st with maps := st.maps.set i (some m') } with hst'
    have hlive : ∀ j n, Live st' j n ↔ (j = i ∧ n = m') ∨ (j ≠ i ∧ Live st j n) :=
      fun j n => live_of_set (st2 := st') hl rfl j n
    have hl' : Live st' i m' := (hlive i m').2 (Or.inl ⟨rfl, rfl⟩)
    have hnew : RelMap S st' m' a := by
      obtain ⟨p, h1, h2⟩ := hr.proto
      have hcell : ∀ x y : Nat, cellInternal S st' m' ⟨x, y⟩ = cellInternal S st m' ⟨x, y⟩ := fun _ _ => rfl
      constructor
      · refine ⟨p, by rw [g.unkCell]; exact h1, ?_⟩
        intro _ d hd
        exact h2 hu d (fun hh => hd (g.extent d hh))
      · intro x' y' ha'
        rw [hcell]
        rcases g.back x' y' ha' with ⟨x, y, rfl, rfl, hA, hs, hk⟩ | ⟨hno, hs⟩
        · have hv := hr.val x y hA
          rw [cellInternal_nat] at hv ⊢
          rw [hs, hk, hv, g.origin]
          congr 2
          simp only [Coord.mk.injEq]
          push_cast
          omega
        · rw [cellInternal_nat, hs, Option.bind_some, h.inv.unkT i m hl, Option.bind_some,
            List.getElem?_replicate, if_pos (kpos_lt _ _ _ hS), Option.bind_some, h1]
          congr 1
          symm
          apply h2 hu
          intro hh
          obtain ⟨x, y, e, hA, hc'⟩ := area_of_hasInternal (h.inv.size i m hl) hh
          rw [g.origin] at hc'
          simp only [Coord.mk.injEq] at hc'
          exact hno x y (by omega) (by omega) hA
      · rw [g.unb, if_pos hu]; have := hr.ext; rw [if_pos hu] at this; exact this
      · intro hh; rw [g.unb, hu] at hh; simp at hh
    refine ⟨st', m', rfl, ⟨?_, by rw [h.len]; simp [hst'], ?_, ?_⟩, hl', hnew, g2⟩
    · constructor
      · exact h.inv.tileLen
      · exact h.inv.cellLt
      · intro j n hj t ht
        rcases (hlive j n).1 hj with ⟨rfl, rfl⟩ | ⟨_, hj⟩
        · rcases g.mem t ht with ht | rfl
          · exact h.inv.mapTiles j m hl t ht
          · have := h.inv.unkT j m hl
            by_contra hh
            rw [List.getElem?_eq_none (by exact Nat.le_of_not_lt hh)] at this
            simp at this
        · exact h.inv.mapTiles j n hj t ht
      · intro j n hj
        rcases (hlive j n).1 hj with ⟨rfl, rfl⟩ | ⟨_, hj⟩
        · rw [g.unkTile, g.unkCell]; exact h.inv.unkT j m hl
        · exact h.inv.unkT j n hj
      · intro j n hj
        rcases (hlive j n).1 hj with ⟨rfl, rfl⟩ | ⟨_, hj⟩
        · rw [g.unkCell]; exact h.inv.unkC j m hl
        · exact h.inv.unkC j n hj
      · intro j n hj
        rcases (hlive j n).1 hj with ⟨rfl, rfl⟩ | ⟨_, hj⟩
        · exact g.size
        · exact h.inv.size j n hj
    · intro j hj
      simp only [hst'] at hj
      by_cases hji : j = i
      · subst hji
        have hilt : j < st.maps.length := by
          by_contra hh; unfold Live at hl; rw [List.getElem?_eq_none (by omega)] at hl; simp at hl
        rw [List.getElem?_set_self hilt] at hj
        simp at hj
      · rw [List.getElem?_set_ne (by omega)] at hj
        exact h.dead j hj
    · intro j n hj
      rcases (hlive j n).1 hj with ⟨rfl, rfl⟩ | ⟨_, hj⟩
      · exact ⟨a, ha, hnew⟩
      · obtain ⟨a', k1, k2⟩ := h.live j n hj
        exact ⟨a', k1, relMap_congr k2 rfl (fun _ _ _ => rfl)⟩
  · rw [if_neg hu]
    refine ⟨st, m, rfl, h, hl, hr, ?_⟩
    have hu' : m.unbounded = false := by simpa using hu
    have hext := hr.ext
    rw [if_neg hu] at hext
    unfold AMap.Covers at hc
    rw [hext] at hc
    simp only at hc
    rw [(hr.org hu').1]
    exact hc

end Slam.LazyMap
