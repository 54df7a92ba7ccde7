import Verif.LazyMap.Spec
import Verif.PlainMap.Lemmas
import Mathlib.Tactic.Linarith
import Mathlib.Tactic.Ring

/-! Helper lemmas for lazily tiled maps. -/

namespace Slam.LazyMap
open Slam.Grid Slam.PlainMap
variable {C O : Type}

/-! ### counting references -/

theorem count_pos_of_mem (t : Nat) (l : List Nat) (h : t ∈ l) : 1 ≤ l.count t :=
  List.count_pos_iff.2 h

theorem count_two {α : Type} (refs : α → List Nat) (t : Nat) :
    ∀ (l : List α) (i j : Nat) (a b : α), l[i]? = some a → l[j]? = some b → i ≠ j →
      t ∈ refs a → t ∈ refs b → 2 ≤ (l.flatMap refs).count t := by
  intro l
  induction l with
  | nil => intro i j a b h; simp at h
  | cons x l ih =>
    intro i j a b hi hj hne ha hb
    rw [List.flatMap_cons, List.count_append]
    cases i with
    | zero =>
      cases j with
      | zero => exact absurd rfl hne
      | succ j =>
        simp only [List.getElem?_cons_zero, Option.some.injEq] at hi
        subst hi
        have h1 := count_pos_of_mem t _ ha
        have h2 : 1 ≤ (l.flatMap refs).count t := count_pos_of_mem t _
          (List.mem_flatMap.2 ⟨b, List.mem_of_getElem? (by simpa using hj), hb⟩)
        omega
    | succ i =>
      cases j with
      | zero =>
        simp only [List.getElem?_cons_zero, Option.some.injEq] at hj
        subst hj
        have h1 := count_pos_of_mem t _ hb
        have h2 : 1 ≤ (l.flatMap refs).count t := count_pos_of_mem t _
          (List.mem_flatMap.2 ⟨a, List.mem_of_getElem? (by simpa using hi), ha⟩)
        omega
      | succ j =>
        have := ih i j a b (by simpa using hi) (by simpa using hj) (by omega) ha hb
        omega

theorem count_le_flatMap {α : Type} (refs : α → List Nat) (t : Nat) :
    ∀ (l : List α) (i : Nat) (a : α), l[i]? = some a → (refs a).count t ≤ (l.flatMap refs).count t := by
  intro l
  induction l with
  | nil => intro i a h; simp at h
  | cons x l ih =>
    intro i a hi
    rw [List.flatMap_cons, List.count_append]
    cases i with
    | zero =>
      simp only [List.getElem?_cons_zero, Option.some.injEq] at hi
      subst hi; omega
    | succ i =>
      have := ih i a (by simpa using hi)
      omega

theorem count_two_pos (t : Nat) (l : List Nat) (i j : Nat) (hi : l[i]? = some t) (hj : l[j]? = some t)
    (hne : i ≠ j) : 2 ≤ l.count t := by
  have := count_two (fun x => [x]) t l i j t t hi hj hne (by simp) (by simp)
  simpa using this

/-! ### index arithmetic -/

/-- Natural-number slot index. -/
def slot (S tx x y : Nat) : Nat := y / S * tx + x / S
/-- Natural-number index in a tile. -/
def kpos (S x y : Nat) : Nat := x % S * S + y % S

theorem radix_inj (n a b a' b' : Nat) (hb : b < n) (hb' : b' < n) (h : a * n + b = a' * n + b') :
    a = a' ∧ b = b' := by
  have e1 : (a * n + b) / n = a := by
    rw [Nat.add_comm, Nat.add_mul_div_right _ _ (by omega), Nat.div_eq_of_lt hb]; omega
  have e2 : (a' * n + b') / n = a' := by
    rw [Nat.add_comm, Nat.add_mul_div_right _ _ (by omega), Nat.div_eq_of_lt hb']; omega
  have : a = a' := by rw [← e1, ← e2, h]
  subst this
  exact ⟨rfl, by omega⟩

theorem radix_lt (n m a b : Nat) (ha : a < m) (hb : b < n) : a * n + b < m * n := by
  have : (a + 1) * n ≤ m * n := Nat.mul_le_mul_right _ (by omega)
  have e : (a + 1) * n = a * n + n := by ring
  omega

theorem slot_lt (S tx ty x y : Nat) (hx : x < tx * S) (hy : y < ty * S) :
    slot S tx x y < tx * ty := by
  unfold slot
  rw [Nat.mul_comm tx ty]
  exact radix_lt _ _ _ _ (Nat.div_lt_of_lt_mul (by rw [Nat.mul_comm]; exact hy))
    (Nat.div_lt_of_lt_mul (by rw [Nat.mul_comm]; exact hx))

theorem kpos_lt (S x y : Nat) (hS : 0 < S) : kpos S x y < S * S :=
  radix_lt _ _ _ _ (Nat.mod_lt _ hS) (Nat.mod_lt _ hS)

theorem slot_kpos_inj (S tx x y x' y' : Nat) (hS : 0 < S) (hx : x < tx * S) (hx' : x' < tx * S)
    (h1 : slot S tx x y = slot S tx x' y') (h2 : kpos S x y = kpos S x' y') : x = x' ∧ y = y' := by
  have d1 : x / S < tx := Nat.div_lt_of_lt_mul (by rw [Nat.mul_comm]; exact hx)
  have d2 : x' / S < tx := Nat.div_lt_of_lt_mul (by rw [Nat.mul_comm]; exact hx')
  obtain ⟨a1, a2⟩ := radix_inj tx _ _ _ _ d1 d2 h1
  obtain ⟨b1, b2⟩ := radix_inj S _ _ _ _ (Nat.mod_lt _ hS) (Nat.mod_lt _ hS) h2
  constructor
  · rw [← Nat.div_add_mod x S, ← Nat.div_add_mod x' S, a2, b1]
  · rw [← Nat.div_add_mod y S, ← Nat.div_add_mod y' S, a1, b2]

theorem tileIdx_nat (S : Nat) (m : LMap) (x y : Nat) :
    tileIdx S m ⟨x, y⟩ = ((slot S m.tx x y : Nat) : Int) := by
  simp only [tileIdx, slot]; push_cast; rfl

theorem cellIdx_nat (S x y : Nat) : cellIdx S ⟨x, y⟩ = ((kpos S x y : Nat) : Int) := by
  simp only [cellIdx, kpos]; push_cast; rfl

theorem idx_nat {α : Type} (l : List α) (n : Nat) : idx l (n : Int) = l[n]? := by
  simp [idx]

/-- The reading at natural internal coordinates. -/
theorem cellInternal_nat (S : Nat) (st : St C) (m : LMap) (x y : Nat) :
    cellInternal S st m ⟨x, y⟩ =
      (m.tiles[slot S m.tx x y]?).bind fun t => (st.tiles[t]?).bind fun es =>
        (es[kpos S x y]?).bind fun c => st.cells[c]? := by
  simp only [cellInternal, tileIdx_nat, cellIdx_nat, idx_nat]

/-! ### invariant -/

/-- Object `i` is alive with value `m`. -/
def Live (st : St C) (i : Nat) (m : LMap) : Prop := st.maps[i]? = some (some m)

/-- `(x, y)` is inside of the tile area of the map. -/
def Area (S : Nat) (m : LMap) (x y : Nat) : Prop := x < m.tx * S ∧ y < m.ty * S

/-- Heap and object invariant. -/
structure Inv (S : Nat) (st : St C) : Prop where
  tileLen : ∀ (t : Nat) (es : List Nat), st.tiles[t]? = some es → es.length = S * S
  cellLt : ∀ (t : Nat) (es : List Nat), st.tiles[t]? = some es → ∀ c ∈ es, c < st.cells.length
  mapTiles : ∀ i m, Live st i m → ∀ t ∈ m.tiles, t < st.tiles.length
  unkT : ∀ i m, Live st i m → st.tiles[m.unkTile]? = some (List.replicate (S * S) m.unkCell)
  unkC : ∀ i m, Live st i m → m.unkCell < st.cells.length
  size : ∀ i m, Live st i m → m.tiles.length = m.tx * m.ty ∧ m.width ≤ m.tx * S ∧ m.height ≤ m.ty * S

/-- The tile `t` is referenced from slot `s` of object `i` only. -/
def TileSole (st : St C) (i s t : Nat) : Prop :=
  ∀ j m, Live st j m → m.unkTile ≠ t ∧ ∀ s', m.tiles[s']? = some t → j = i ∧ s' = s

/-- The tile `t` is owned by a live object. -/
def TileLive (st : St C) (t : Nat) : Prop := ∃ j m, Live st j m ∧ (m.unkTile = t ∨ t ∈ m.tiles)

/-- The cell `c` is referenced from entry `k` of tile `t` only. -/
def CellSole (st : St C) (t k c : Nat) : Prop :=
  (∀ j m, Live st j m → m.unkCell ≠ c) ∧
  ∀ t' (es : List Nat) (k' : Nat), TileLive st t' → st.tiles[t']? = some es → es[k']? = some c → t' = t ∧ k' = k

theorem live_set {st : St C} {i : Nat} {m m1 : LMap} (hl : Live st i m) (tiles' : List (List Nat)) (cells' : List C)
    (j : Nat) (m' : LMap) :
    Live (St.mk cells' tiles' (st.maps.set i (some m1))) j m' ↔ (j = i ∧ m' = m1) ∨ (j ≠ i ∧ Live st j m') := by
  have hlt : i < st.maps.length := by
    by_contra h
    rw [Live, List.getElem?_eq_none (by omega)] at hl
    exact absurd hl (by simp)
  unfold Live
  by_cases hj : j = i
  · subst hj
    simp only [List.getElem?_set_self hlt, Option.some.injEq]
    constructor
    · intro h; left; exact ⟨trivial, h.symm⟩
    · rintro (⟨_, h⟩ | ⟨h, _⟩)
      · exact h.symm
      · exact absurd rfl h
  · rw [List.getElem?_set_ne (by omega)]
    constructor
    · intro h; right; exact ⟨hj, h⟩
    · rintro (⟨h, _⟩ | ⟨_, h⟩)
      · exact absurd h hj
      · exact h

theorem live_set_self {st : St C} {i : Nat} {m : LMap} (hl : Live st i m) :
    st.maps.set i (some m) = st.maps := by
  apply List.ext_getElem?
  intro j
  by_cases hj : j = i
  · subst hj
    have hlt : j < st.maps.length := by
      by_contra h
      rw [Live, List.getElem?_eq_none (by omega)] at hl
      exact absurd hl (by simp)
    rw [List.getElem?_set_self hlt]; exact hl.symm
  · rw [List.getElem?_set_ne (by omega)]

/-- Everything on the way from an area coordinate to its value exists. -/
theorem loc_exists {S : Nat} (hS : 0 < S) {st : St C} (hI : Inv S st) {i : Nat} {m : LMap} (hl : Live st i m)
    {x y : Nat} (ha : Area S m x y) :
    ∃ (t : Nat) (es : List Nat) (c : Nat) (v : C), m.tiles[slot S m.tx x y]? = some t ∧ st.tiles[t]? = some es ∧
      es[kpos S x y]? = some c ∧ st.cells[c]? = some v := by
  have h1 : slot S m.tx x y < m.tiles.length := by
    rw [(hI.size i m hl).1]; exact slot_lt _ _ _ _ _ ha.1 ha.2
  have e1 := List.getElem?_eq_getElem h1
  have h2 : m.tiles[slot S m.tx x y] < st.tiles.length := hI.mapTiles i m hl _ (List.getElem_mem h1)
  have e2 := List.getElem?_eq_getElem h2
  have h3 : kpos S x y < (st.tiles[m.tiles[slot S m.tx x y]]).length := by
    rw [hI.tileLen _ _ e2]; exact kpos_lt _ _ _ hS
  have e3 := List.getElem?_eq_getElem h3
  have h4 := hI.cellLt _ _ e2 _ (List.getElem_mem h3)
  exact ⟨_, _, _, _, e1, e2, e3, List.getElem?_eq_getElem h4⟩

theorem mem_refs_tile {m : LMap} {t s : Nat} (h : m.tiles[s]? = some t) : t ∈ tileRefs (some m) := by
  simp only [tileRefs, List.mem_cons]
  right; exact List.mem_of_getElem? h

theorem tileUse_pos_of_live {st : St C} {t : Nat} (h : TileLive st t) : 0 < tileUse st t := by
  obtain ⟨j, m, hl, hm⟩ := h
  apply List.count_pos_iff.2
  rw [List.mem_flatMap]
  refine ⟨some m, List.mem_of_getElem? hl, ?_⟩
  simp only [tileRefs, List.mem_cons]
  rcases hm with h | h
  · left; exact h.symm
  · right; exact h

/-- `use_count() ≤ 1` means the slot is the only owner. -/
theorem tileSole_of_use {st : St C} {i : Nat} {m : LMap} (hl : Live st i m) {s t : Nat}
    (hs : m.tiles[s]? = some t) (hu : ¬ 1 < tileUse st t) : TileSole st i s t := by
  unfold tileUse at hu
  intro j m' hl'
  by_cases hj : j = i
  · subst hj
    have : m' = m := by
      unfold Live at hl hl'; rw [hl] at hl'; simpa using hl'.symm
    subst this
    have hc := count_le_flatMap tileRefs t st.maps j (some m') hl
    have hcs : (tileRefs (some m')).count t ≤ 1 := by omega
    simp only [tileRefs] at hcs
    have hge : 1 ≤ m'.tiles.count t := count_pos_of_mem t _ (List.mem_of_getElem? hs)
    constructor
    · intro he
      rw [he, List.count_cons_self] at hcs
      omega
    · intro s' hs'
      refine ⟨rfl, ?_⟩
      by_contra hne
      have h2 := count_two_pos t m'.tiles s' s hs' hs hne
      have := List.count_le_count_cons (a := t) (b := m'.unkTile) (l := m'.tiles)
      omega
  · constructor
    · intro he
      have := count_two tileRefs t st.maps j i (some m') (some m) hl' hl hj
        (by simp [tileRefs, he]) (mem_refs_tile hs)
      omega
    · intro s' hs'
      have := count_two tileRefs t st.maps j i (some m') (some m) hl' hl hj
        (mem_refs_tile hs') (mem_refs_tile hs)
      omega

/-- `use_count() ≤ 1` means the tile entry is the only owner of the cell. -/
theorem cellSole_of_use {st : St C} {t k c : Nat} {es : List Nat} (ht : TileLive st t)
    (hes : st.tiles[t]? = some es) (hk : es[k]? = some c) (hu : ¬ 1 < cellUse st c) :
    CellSole st t k c := by
  unfold cellUse at hu
  set R : Nat → List Nat := fun t => if 0 < tileUse st t then (st.tiles[t]?).getD [] else [] with hR
  have hRt : ∀ (t' : Nat) (es' : List Nat), TileLive st t' → st.tiles[t']? = some es' → R t' = es' := by
    intro t' es' hl he
    simp only [hR, if_pos (tileUse_pos_of_live hl), he, Option.getD_some]
  have hlt : ∀ (t' : Nat) (es' : List Nat), st.tiles[t']? = some es' → (List.range st.tiles.length)[t']? = some t' := by
    intro t' es' he
    have : t' < st.tiles.length := by
      by_contra h; rw [List.getElem?_eq_none (by omega)] at he; simp at he
    exact List.getElem?_range this
  have hmem : c ∈ R t := by rw [hRt t es ht hes]; exact List.mem_of_getElem? hk
  have hone : 1 ≤ ((List.range st.tiles.length).flatMap R).count c :=
    count_pos_of_mem _ _ (List.mem_flatMap.2 ⟨t, List.mem_of_getElem? (hlt t es hes), hmem⟩)
  constructor
  · intro j m hl he
    have : 1 ≤ (st.maps.flatMap unkRefs).count c :=
      count_pos_of_mem _ _ (List.mem_flatMap.2 ⟨some m, List.mem_of_getElem? hl, by simp [unkRefs, he]⟩)
    omega
  · intro t' es' k' hl' he' hk'
    by_cases htt : t' = t
    · subst htt
      rw [hes] at he'
      have : es = es' := by simpa using he'
      subst this
      refine ⟨rfl, ?_⟩
      by_contra hne
      have h2 := count_two_pos c es k' k hk' hk hne
      have h3 := count_le_flatMap R c (List.range st.tiles.length) t' t' (hlt t' es hes)
      rw [hRt t' es ht hes] at h3
      omega
    · have hmem' : c ∈ R t' := by rw [hRt t' es' hl' he']; exact List.mem_of_getElem? hk'
      have := count_two R c (List.range st.tiles.length) t' t t' t (hlt t' es' he') (hlt t es hes) htt hmem' hmem
      omega

theorem getElem?_append_of_some {α : Type} {l r : List α} {i : Nat} {a : α} (h : l[i]? = some a) :
    (l ++ r)[i]? = some a := by
  have : i < l.length := by
    by_contra hh; rw [List.getElem?_eq_none (by omega)] at h; simp at h
  rw [List.getElem?_append_left this, h]

/-- The first half of `ensure_sole_owning`. -/
theorem soleTile_spec {S : Nat} (hS : 0 < S) {st : St C} (hI : Inv S st) {i : Nat} {m : LMap}
    (hl : Live st i m) {x y : Nat} (ha : Area S m x y) :
    ∃ st1 m1 t, soleTile S st i m ⟨x, y⟩ = some (st1, m1) ∧ Inv S st1 ∧
      st1.maps = st.maps.set i (some m1) ∧ st1.cells = st.cells ∧ Live st1 i m1 ∧
      m1 = { m with tiles := m1.tiles } ∧
      m1.tiles[slot S m.tx x y]? = some t ∧ TileSole st1 i (slot S m.tx x y) t ∧
      (∀ j m', Live st j m' → ∀ x' y' : Nat, Area S m' x' y' →
        cellInternal S st1 m' ⟨x', y'⟩ = cellInternal S st m' ⟨x', y'⟩) ∧
      (∀ x' y' : Nat, Area S m x' y' → cellInternal S st1 m1 ⟨x', y'⟩ = cellInternal S st m ⟨x', y'⟩) := by
  obtain ⟨t, es, c, v, h1, h2, h3, h4⟩ := loc_exists hS hI hl ha
  unfold soleTile
  simp only [tileIdx_nat, idx_nat, h1, Option.bind_some, Int.toNat_natCast]
  by_cases hu : 1 < tileUse st t
  · rw [if_pos hu, h2, Option.map_some]
    set s := slot S m.tx x y with hs
    set m1 : LMap := { m with tiles := m.tiles.set s st.tiles.length } with hm1
    set st1 : St C := { st with tiles := st.tiles ++ [es], maps := st.maps.set i (some m1) } with hst1
    have hslt : s < m.tiles.length := by rw [(hI.size i m hl).1]; exact slot_lt _ _ _ _ _ ha.1 ha.2
    have hlive : ∀ j m', Live st1 j m' ↔ (j = i ∧ m' = m1) ∨ (j ≠ i ∧ Live st j m') :=
      fun j m' => live_set hl _ _ j m'
    have hl1 : Live st1 i m1 := (hlive i m1).2 (Or.inl ⟨rfl, rfl⟩)
    have htiles : ∀ (t' : Nat) (es' : List Nat), st1.tiles[t']? = some es' →
        st.tiles[t']? = some es' ∨ (t' = st.tiles.length ∧ es' = es) := by
      intro t' es' h
      simp only [hst1, List.getElem?_append] at h
      split at h
      · left; exact h
      · right
        rename_i hge
        have hlt2 : t' - st.tiles.length = 0 := by
          by_contra hh
          rw [List.getElem?_eq_none (by simp; omega)] at h; simp at h
        rw [hlt2] at h
        simp only [List.getElem?_cons_zero, Option.some.injEq] at h
        exact ⟨by omega, h.symm⟩
    refine ⟨st1, m1, st.tiles.length, rfl, ?_, rfl, rfl, hl1, rfl, ?_, ?_, ?_, ?_⟩
    · constructor
      · intro t' es' h
        rcases htiles t' es' h with h | ⟨_, rfl⟩
        · exact hI.tileLen _ _ h
        · exact hI.tileLen _ _ h2
      · intro t' es' h c' hc'
        rcases htiles t' es' h with h | ⟨_, rfl⟩
        · exact hI.cellLt _ _ h _ hc'
        · exact hI.cellLt _ _ h2 _ hc'
      · intro j m' hlj t' ht'
        simp only [hst1, List.length_append, List.length_singleton]
        rcases (hlive j m').1 hlj with ⟨_, rfl⟩ | ⟨_, h⟩
        · rcases List.mem_or_eq_of_mem_set ht' with h | h
          · have := hI.mapTiles i m hl _ h; omega
          · omega
        · have := hI.mapTiles j m' h _ ht'; omega
      · intro j m' hlj
        rcases (hlive j m').1 hlj with ⟨_, rfl⟩ | ⟨_, h⟩
        · exact getElem?_append_of_some (hI.unkT i m hl)
        · exact getElem?_append_of_some (hI.unkT j m' h)
      · intro j m' hlj
        rcases (hlive j m').1 hlj with ⟨_, rfl⟩ | ⟨_, h⟩
        · exact hI.unkC i m hl
        · exact hI.unkC j m' h
      · intro j m' hlj
        rcases (hlive j m').1 hlj with ⟨_, rfl⟩ | ⟨_, h⟩
        · simpa [hm1] using hI.size i m hl
        · exact hI.size j m' h
    · simp only [hm1]; rw [List.getElem?_set_self hslt]
    · intro j m' hlj
      rcases (hlive j m').1 hlj with ⟨rfl, rfl⟩ | ⟨_, h⟩
      · constructor
        · intro he
          have := hI.unkT j m hl
          rw [show m.unkTile = st.tiles.length from he, List.getElem?_eq_none (by omega)] at this
          simp at this
        · intro s' hs'
          refine ⟨rfl, ?_⟩
          by_contra hne
          simp only [hm1] at hs'
          rw [List.getElem?_set_ne (by omega)] at hs'
          have := hI.mapTiles j m hl _ (List.mem_of_getElem? hs')
          omega
      · constructor
        · intro he
          have := hI.unkT j m' h
          rw [he, List.getElem?_eq_none (by omega)] at this
          simp at this
        · intro s' hs'
          have := hI.mapTiles j m' h _ (List.mem_of_getElem? hs')
          omega
    · intro j m' hlj x' y' ha'
      obtain ⟨t', es', c', v', k1, k2, k3, k4⟩ := loc_exists hS hI hlj ha'
      rw [cellInternal_nat, cellInternal_nat, k1]
      simp only [Option.bind_some, k2]
      have : st1.tiles[t']? = some es' := getElem?_append_of_some k2
      rw [this, Option.bind_some]
    · intro x' y' ha'
      obtain ⟨t', es', c', v', k1, k2, k3, k4⟩ := loc_exists hS hI hl ha'
      rw [cellInternal_nat, cellInternal_nat, k1]
      simp only [Option.bind_some, k2]
      by_cases he : slot S m.tx x' y' = s
      · have ht : t' = t := by rw [he, h1] at k1; simpa using k1.symm
        subst ht
        have e0 : es' = es := by rw [h2] at k2; simpa using k2.symm
        subst e0
        have e1 : m1.tiles[slot S m1.tx x' y']? = some st.tiles.length := by
          have : slot S m1.tx x' y' = s := he
          rw [this]; simp only [hm1]; rw [List.getElem?_set_self hslt]
        have e2 : st1.tiles[st.tiles.length]? = some es' := by
          simp only [hst1]; rw [List.getElem?_append_right (Nat.le_refl _)]; simp
        rw [e1]; simp only [Option.bind_some, e2]; rfl
      · have e1 : m1.tiles[slot S m1.tx x' y']? = some t' := by
          have : slot S m1.tx x' y' ≠ s := he
          simp only [hm1] at this ⊢
          rw [List.getElem?_set_ne (by omega)]; exact k1
        have e2 : st1.tiles[t']? = some es' := getElem?_append_of_some k2
        rw [e1]; simp only [Option.bind_some, e2]; rfl
  · rw [if_neg hu]
    refine ⟨st, m, t, rfl, hI, (live_set_self hl).symm, rfl, hl, rfl, h1, tileSole_of_use hl h1 hu, ?_, ?_⟩
    · intros; rfl
    · intros; rfl

/-- Replacing entry `k` of a solely owned tile `t` by a fresh cell with value `w`. -/
theorem freshCell_spec {S : Nat} (hS : 0 < S) {st : St C} (hI : Inv S st) {i : Nat} {m : LMap}
    (hl : Live st i m) {x y : Nat} (ha : Area S m x y) {t : Nat} {es : List Nat} {c : Nat}
    (h1 : m.tiles[slot S m.tx x y]? = some t) (h2 : st.tiles[t]? = some es)
    (_h3 : es[kpos S x y]? = some c) (hsole : TileSole st i (slot S m.tx x y) t) (w : C)
    (st2 : St C)
    (hst2 : st2 = { st with cells := st.cells ++ [w],
                            tiles := st.tiles.set t (es.set (kpos S x y) st.cells.length) }) :
    Inv S st2 ∧ st2.maps = st.maps ∧ CellSole st2 t (kpos S x y) st.cells.length ∧
      (∀ (n : Nat) (v : C), st.cells[n]? = some v → st2.cells[n]? = some v) ∧
      st2.tiles[t]? = some (es.set (kpos S x y) st.cells.length) ∧
      (es.set (kpos S x y) st.cells.length)[kpos S x y]? = some st.cells.length ∧
      st2.cells[st.cells.length]? = some w ∧
      (∀ j m', Live st j m' → ∀ x' y' : Nat, Area S m' x' y' →
        cellInternal S st2 m' ⟨x', y'⟩ =
          if j = i ∧ x' = x ∧ y' = y then some w else cellInternal S st m' ⟨x', y'⟩) := by
  have htlt : t < st.tiles.length := by
    by_contra hh; rw [List.getElem?_eq_none (by omega)] at h2; simp at h2
  have hklt : kpos S x y < es.length := by rw [hI.tileLen _ _ h2]; exact kpos_lt _ _ _ hS
  have hlive : ∀ j m', Live st2 j m' ↔ Live st j m' := by intro j m'; rw [hst2]; rfl
  have hcell : ∀ (n : Nat) (v : C), st.cells[n]? = some v → st2.cells[n]? = some v := by
    intro n v h; rw [hst2]; exact getElem?_append_of_some h
  have hfresh : st2.cells[st.cells.length]? = some w := by
    rw [hst2]; simp only; rw [List.getElem?_append_right (Nat.le_refl _)]; simp
  have htself : st2.tiles[t]? = some (es.set (kpos S x y) st.cells.length) := by
    rw [hst2]; simp only; rw [List.getElem?_set_self htlt]
  have htne : ∀ t', t' ≠ t → st2.tiles[t']? = st.tiles[t']? := by
    intro t' h; rw [hst2]; simp only; rw [List.getElem?_set_ne (by omega)]
  have hkself : (es.set (kpos S x y) st.cells.length)[kpos S x y]? = some st.cells.length :=
    List.getElem?_set_self hklt
  refine ⟨?_, by rw [hst2], ?_, hcell, htself, hkself, hfresh, ?_⟩
  · constructor
    · intro t' es' h
      by_cases he : t' = t
      · subst he
        rw [htself] at h
        have := Option.some.inj h; subst this
        rw [List.length_set]; exact hI.tileLen _ _ h2
      · rw [htne t' he] at h; exact hI.tileLen _ _ h
    · intro t' es' h c' hc'
      have hlen : st2.cells.length = st.cells.length + 1 := by rw [hst2]; simp
      by_cases he : t' = t
      · subst he
        rw [htself] at h
        have := Option.some.inj h; subst this
        rcases List.mem_or_eq_of_mem_set hc' with h' | h'
        · have := hI.cellLt _ _ h2 _ h'; omega
        · omega
      · rw [htne t' he] at h
        have := hI.cellLt _ _ h _ hc'; omega
    · intro j m' hlj t' ht'
      have := hI.mapTiles j m' ((hlive _ _).1 hlj) t' ht'
      rw [hst2]; simpa using this
    · intro j m' hlj
      have hne := (hsole j m' ((hlive _ _).1 hlj)).1
      rw [htne _ hne]
      exact hI.unkT j m' ((hlive _ _).1 hlj)
    · intro j m' hlj
      have := hI.unkC j m' ((hlive _ _).1 hlj)
      rw [hst2]; simp only [List.length_append, List.length_singleton]; omega
    · intro j m' hlj; exact hI.size j m' ((hlive _ _).1 hlj)
  · constructor
    · intro j m' hlj he
      have := hI.unkC j m' ((hlive _ _).1 hlj)
      omega
    · intro t' es' k' _ he hk'
      by_cases htt : t' = t
      · subst htt
        rw [htself] at he
        have := Option.some.inj he; subst this
        refine ⟨rfl, ?_⟩
        by_contra hne
        rw [List.getElem?_set_ne (by omega)] at hk'
        have := hI.cellLt _ _ h2 _ (List.mem_of_getElem? hk')
        omega
      · rw [htne t' htt] at he
        have := hI.cellLt _ _ he _ (List.mem_of_getElem? hk')
        omega
  · intro j m' hlj x' y' ha'
    obtain ⟨t', es', c', v', k1, k2, k3, k4⟩ := loc_exists hS hI hlj ha'
    rw [cellInternal_nat, cellInternal_nat, k1]
    simp only [Option.bind_some, k2, k3, k4]
    by_cases htt : t' = t
    · subst htt
      obtain ⟨rfl, hslot⟩ := (hsole j m' hlj).2 _ k1
      have hmm : m' = m := by
        unfold Live at hl hlj; rw [hl] at hlj; simpa using hlj.symm
      subst hmm
      have : es' = es := by rw [h2] at k2; simpa using k2.symm
      subst this
      rw [htself]
      simp only [Option.bind_some]
      by_cases hk : kpos S x' y' = kpos S x y
      · obtain ⟨rfl, rfl⟩ := slot_kpos_inj S m'.tx x' y' x y hS ha'.1 ha.1 hslot hk
        rw [hkself]
        simp only [Option.bind_some, hfresh, and_self, if_true]
      · rw [List.getElem?_set_ne (by omega), k3]
        simp only [Option.bind_some, hcell _ _ k4]
        rw [if_neg]
        rintro ⟨_, rfl, rfl⟩; exact hk rfl
    · rw [htne t' htt, k2]
      simp only [Option.bind_some, k3, hcell _ _ k4]
      rw [if_neg]
      rintro ⟨rfl, rfl, rfl⟩
      have hmm : m' = m := by
        unfold Live at hl hlj; rw [hl] at hlj; simpa using hlj.symm
      subst hmm
      rw [h1] at k1
      exact htt (by simpa using k1.symm)

/-- The state reached by `ensure_sole_owning`. -/
theorem ensureSole_spec {S : Nat} (hS : 0 < S) {st : St C} (hI : Inv S st) {i : Nat} {m : LMap}
    (hl : Live st i m) {x y : Nat} (ha : Area S m x y) :
    ∃ (st2 : St C) (m2 : LMap) (t : Nat) (es : List Nat) (c : Nat) (v : C), ensureSole S st i m ⟨x, y⟩ = some (st2, m2) ∧ Inv S st2 ∧
      st2.maps = st.maps.set i (some m2) ∧ Live st2 i m2 ∧
      m2 = { m with tiles := m2.tiles } ∧
      (∀ (n : Nat) (v : C), st.cells[n]? = some v → st2.cells[n]? = some v) ∧
      m2.tiles[slot S m.tx x y]? = some t ∧ TileSole st2 i (slot S m.tx x y) t ∧
      st2.tiles[t]? = some es ∧ es[kpos S x y]? = some c ∧ st2.cells[c]? = some v ∧
      CellSole st2 t (kpos S x y) c ∧
      cellInternal S st m ⟨x, y⟩ = some v ∧
      (∀ j m', Live st j m' → j ≠ i → ∀ x' y' : Nat, Area S m' x' y' →
        cellInternal S st2 m' ⟨x', y'⟩ = cellInternal S st m' ⟨x', y'⟩) ∧
      (∀ x' y' : Nat, Area S m x' y' → cellInternal S st2 m2 ⟨x', y'⟩ = cellInternal S st m ⟨x', y'⟩) := by
  obtain ⟨st1, m1, t, e1, hI1, hmaps, hcells, hl1, hm1, ht1, hsole, hoth, hself⟩ := soleTile_spec hS hI hl ha
  have htx : m1.tx = m.tx := by rw [hm1]
  have hty : m1.ty = m.ty := by rw [hm1]
  have ha1 : Area S m1 x y := by unfold Area; rw [htx, hty]; exact ha
  have ht1' : m1.tiles[slot S m1.tx x y]? = some t := by rw [htx]; exact ht1
  have hsole' : TileSole st1 i (slot S m1.tx x y) t := by rw [htx]; exact hsole
  obtain ⟨t', es, c, v, k1, k2, k3, k4⟩ := loc_exists hS hI1 hl1 ha1
  have htt : t' = t := by rw [ht1'] at k1; simpa using k1.symm
  subst htt
  have hval : cellInternal S st m ⟨x, y⟩ = some v := by
    rw [← hself x y ha, cellInternal_nat, ht1']
    simp only [Option.bind_some, k2, k3, k4]
  unfold ensureSole
  rw [e1, Option.bind_some]
  unfold soleCell
  simp only [tileIdx_nat, cellIdx_nat, idx_nat, ht1', Option.bind_some, k2, k3, Int.toNat_natCast]
  by_cases hu : 1 < cellUse st1 c
  · rw [if_pos hu, k4, Option.map_some, Option.map_some]
    obtain ⟨g1, g2, g3, g4, g5, g6, g7, g8⟩ :=
      freshCell_spec hS hI1 hl1 ha1 ht1' k2 k3 hsole' v _ rfl
    refine ⟨_, m1, t', _, _, v, rfl, g1, ?_, ?_, hm1, ?_, ht1, ?_, g5, g6, g7, g3, hval, ?_, ?_⟩
    · rw [g2, hmaps]
    · exact hl1
    · intro n v h; exact g4 n v (by rw [hcells]; exact h)
    · intro j m' h; exact hsole j m' h
    · intro j m' hlj hne x' y' ha'
      have hlj1 : Live st1 j m' := by
        unfold Live; rw [hmaps, List.getElem?_set_ne (by omega)]; exact hlj
      rw [g8 j m' hlj1 x' y' ha', if_neg (by rintro ⟨h, _⟩; exact hne h), hoth j m' hlj x' y' ha']
    · intro x' y' ha'
      have ha1' : Area S m1 x' y' := by unfold Area; rw [htx, hty]; exact ha'
      rw [g8 i m1 hl1 x' y' ha1', hself x' y' ha']
      split
      · rename_i h; obtain ⟨_, rfl, rfl⟩ := h; exact hval.symm
      · rfl
  · rw [if_neg hu, Option.map_some]
    refine ⟨st1, m1, t', es, c, v, rfl, hI1, hmaps, hl1, hm1, ?_, ht1, hsole, k2, k3, k4, ?_, hval, ?_, hself⟩
    · intro n v h; rw [hcells]; exact h
    · exact cellSole_of_use ⟨i, m1, hl1, Or.inr (List.mem_of_getElem? ht1)⟩ k2 k3 hu
    · intro j m' hlj hne x' y' ha'
      exact hoth j m' hlj x' y' ha'

end Slam.LazyMap
