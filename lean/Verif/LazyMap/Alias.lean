import Verif.LazyMap.Props

/-!
# C12: what a bounded lazily tiled map does with *any* coordinate

The bounded map does not check coordinates. The specification below says which coordinates are stored at all and
which of them share a place; `lazy_maps_any_access` shows that every history, with any coordinates, behaves exactly so.
-/

set_option autoImplicit false

namespace Slam.LazyMap
open Slam.Grid Slam.PlainMap
variable {C O : Type}

/-! ## Specification -/

/-- Where a coordinate of a bounded map is stored: the number of the tile and the position in the tile. -/
structure Place where
  tile : Int
  dx : Int
  dy : Int
deriving DecidableEq

/-- Number of tiles of side `S` that cover `n` cells. -/
def tilesFor (S n : Nat) : Nat := (n + S - 1) / S

/-- The place of an (external) coordinate of a `w × h` map, whose origin is in the middle. -/
def placeOf (S w h : Nat) (c : Coord) : Place :=
  ⟨(c.y + (h / 2 : Nat)) / (S : Int) * tilesFor S w + (c.x + (w / 2 : Nat)) / (S : Int),
   (c.x + (w / 2 : Nat)) % (S : Int), (c.y + (h / 2 : Nat)) % (S : Int)⟩

/-- The tile of the coordinate exists (always, in the unbounded class). -/
def AMap.Stored (S : Nat) (a : AMap C) (c : Coord) : Prop :=
  match a.extent with
  | none => True
  | some (w, h) => 0 ≤ (placeOf S w h c).tile ∧ (placeOf S w h c).tile < (tilesFor S w * tilesFor S h : Nat)

/-- Two coordinates denote the same cell object. -/
def AMap.Same (S : Nat) (a : AMap C) (c d : Coord) : Prop :=
  match a.extent with
  | none => c = d
  | some (w, h) => placeOf S w h c = placeOf S w h d

instance (S : Nat) (a : AMap C) (c : Coord) : Decidable (a.Stored S c) := by
  unfold AMap.Stored; split <;> infer_instance

instance (S : Nat) (a : AMap C) (c d : Coord) : Decidable (a.Same S c d) := by
  unfold AMap.Same; split <;> infer_instance

/-- One operation on the family of maps: a write changes exactly the coordinates that denote the same cell object as
the written one; it is undefined (`none`) iff the object is dead or the coordinate is not stored. -/
def anyStep (S : Nat) (upd : C → O → C) (A : List (Option (AMap C))) : LOp C O → Option (List (Option (AMap C)))
  | .create unb w h p => some (A ++ [some ⟨if unb then none else some (w, h), fun _ => p⟩])
  | .copy i => ((A[i]?).getD none).map fun a => A ++ [some a]
  | .destroy i => ((A[i]?).getD none).map fun _ => A.set i none
  | .update i c o => ((A[i]?).getD none).bind fun a =>
      if a.Stored S c then
        some (A.set i (some { a with f := fun d => if a.Same S d c then upd (a.f c) o else a.f d }))
      else none
  | .reset i c v => ((A[i]?).getD none).bind fun a =>
      if a.Stored S c then
        some (A.set i (some { a with f := fun d => if a.Same S d c then v else a.f d }))
      else none

/-- A history. -/
def anyRun (S : Nat) (upd : C → O → C) (A : List (Option (AMap C))) : List (LOp C O) →
    Option (List (Option (AMap C)))
  | [] => some A
  | op :: ops => (anyStep S upd A op).bind fun A => anyRun S upd A ops

/-! ## Index arithmetic -/

theorem place_tile {S w h : Nat} {m : LMap} (ho : m.origin = ⟨(w / 2 : Nat), (h / 2 : Nat)⟩)
    (hx : m.tx = tilesFor S w) (c : Coord) :
    tileIdx S m (external2internal m.origin c) = (placeOf S w h c).tile ∧
    cellIdx S (external2internal m.origin c) = (placeOf S w h c).dx * S + (placeOf S w h c).dy := by
  rw [ho]
  simp only [tileIdx, cellIdx, placeOf, external2internal, Coord.add, hx, and_self]

/-- Every stored coordinate has the place of exactly one cell of the tile area. -/
theorem canonical {S w h : Nat} (hS : 0 < S) (c : Coord) (h0 : 0 ≤ (placeOf S w h c).tile)
    (h1 : (placeOf S w h c).tile < (tilesFor S w * tilesFor S h : Nat)) :
    ∃ x y : Nat, x < tilesFor S w * S ∧ y < tilesFor S h * S ∧
      placeOf S w h ⟨(x : Int) - (w / 2 : Nat), (y : Int) - (h / 2 : Nat)⟩ = placeOf S w h c := by
  have hS' : (0 : Int) < S := by omega
  set t := (placeOf S w h c).tile.toNat with ht
  have ht' : (placeOf S w h c).tile = t := by omega
  set u := (placeOf S w h c).dx.toNat with hu
  have hu' : (placeOf S w h c).dx = u := by
    have : 0 ≤ (placeOf S w h c).dx := Int.emod_nonneg _ (by omega)
    omega
  set v := (placeOf S w h c).dy.toNat with hv
  have hv' : (placeOf S w h c).dy = v := by
    have : 0 ≤ (placeOf S w h c).dy := Int.emod_nonneg _ (by omega)
    omega
  have huS : u < S := by
    have : (placeOf S w h c).dx < S := Int.emod_lt_of_pos _ hS'
    omega
  have hvS : v < S := by
    have : (placeOf S w h c).dy < S := Int.emod_lt_of_pos _ hS'
    omega
  have htl : t < tilesFor S w * tilesFor S h := by
    rw [ht'] at h1; exact_mod_cast h1
  have hpos : 0 < tilesFor S w := by
    rcases Nat.eq_zero_or_pos (tilesFor S w) with hz | hz
    · rw [hz] at htl; omega
    · exact hz
  have hq : t / tilesFor S w < tilesFor S h := Nat.div_lt_of_lt_mul htl
  have hr : t % tilesFor S w < tilesFor S w := Nat.mod_lt _ hpos
  refine ⟨t % tilesFor S w * S + u, t / tilesFor S w * S + v, radix_lt _ _ _ _ hr huS, radix_lt _ _ _ _ hq hvS, ?_⟩
  have e : placeOf S w h c = ⟨t, u, v⟩ := by rw [← ht', ← hu', ← hv']
  rw [e]
  have dx : (((t % tilesFor S w * S + u : Nat) : Int)) / (S : Int) = (t % tilesFor S w : Nat) := by
    rw [← Int.natCast_ediv, Nat.add_comm, Nat.add_mul_div_right _ _ hS, Nat.div_eq_of_lt huS, Nat.zero_add]
  have dy : (((t / tilesFor S w * S + v : Nat) : Int)) / (S : Int) = (t / tilesFor S w : Nat) := by
    rw [← Int.natCast_ediv, Nat.add_comm, Nat.add_mul_div_right _ _ hS, Nat.div_eq_of_lt hvS, Nat.zero_add]
  have mx : (((t % tilesFor S w * S + u : Nat) : Int)) % (S : Int) = u := by
    rw [← Int.natCast_emod, Nat.add_comm, Nat.add_mul_mod_self_right, Nat.mod_eq_of_lt huS]
  have my : (((t / tilesFor S w * S + v : Nat) : Int)) % (S : Int) = v := by
    rw [← Int.natCast_emod, Nat.add_comm, Nat.add_mul_mod_self_right, Nat.mod_eq_of_lt hvS]
  unfold placeOf
  simp only [sub_add_cancel, dx, dy, mx, my, Place.mk.injEq, and_true]
  rw [Nat.mul_comm] at *
  have := Nat.div_add_mod t (tilesFor S w)
  rw [Nat.mul_comm] at this
  exact_mod_cast this

/-- Cells of the tile area have places of their own. -/
theorem place_inj {S w h : Nat} (hS : 0 < S) {x y x' y' : Nat} (hx : x < tilesFor S w * S) (hx' : x' < tilesFor S w * S)
    (e : placeOf S w h ⟨(x : Int) - (w / 2 : Nat), (y : Int) - (h / 2 : Nat)⟩ =
      placeOf S w h ⟨(x' : Int) - (w / 2 : Nat), (y' : Int) - (h / 2 : Nat)⟩) : x = x' ∧ y = y' := by
  unfold placeOf at e
  simp only [sub_add_cancel, Place.mk.injEq] at e
  obtain ⟨e1, e2, e3⟩ := e
  refine slot_kpos_inj S (tilesFor S w) x y x' y' hS hx hx' ?_ ?_
  · unfold slot; exact_mod_cast e1
  · unfold kpos
    have f2 : x % S = x' % S := by exact_mod_cast e2
    have f3 : y % S = y' % S := by exact_mod_cast e3
    rw [f2, f3]

/-! ## The operations depend on the place only -/

theorem soleTile_tx {S : Nat} {st : St C} {i : Nat} {m : LMap} {ic : Coord} {r : St C × LMap}
    (h : soleTile S st i m ic = some r) : r.2.tx = m.tx ∧ r.2.origin = m.origin := by
  unfold soleTile at h
  obtain ⟨t, -, h⟩ := Option.bind_eq_some_iff.1 h
  split at h
  · obtain ⟨es, -, h⟩ := Option.map_eq_some_iff.1 h
    rw [← h]; exact ⟨rfl, rfl⟩
  · rw [← Option.some.inj h]; exact ⟨rfl, rfl⟩

theorem ensureSole_tx {S : Nat} {st : St C} {i : Nat} {m : LMap} {ic : Coord} {q : St C × LMap}
    (h : ensureSole S st i m ic = some q) : q.2.tx = m.tx ∧ q.2.origin = m.origin := by
  unfold ensureSole at h
  obtain ⟨r, h1, h⟩ := Option.bind_eq_some_iff.1 h
  obtain ⟨st2, -, h⟩ := Option.map_eq_some_iff.1 h
  rw [← h]; exact soleTile_tx (r := r) h1

theorem tileIdx_tx {S : Nat} {m n : LMap} (h : n.tx = m.tx) (ic : Coord) : tileIdx S n ic = tileIdx S m ic := by
  unfold tileIdx; rw [h]

theorem ensureSole_congr {S : Nat} (st : St C) (i : Nat) {m : LMap} {ic ic' : Coord}
    (ht : tileIdx S m ic = tileIdx S m ic') (hc : cellIdx S ic = cellIdx S ic') :
    ensureSole S st i m ic = ensureSole S st i m ic' := by
  unfold ensureSole
  have e : soleTile S st i m ic = soleTile S st i m ic' := by unfold soleTile; rw [ht]
  rw [e]
  cases hr : soleTile S st i m ic' with
  | none => rfl
  | some r =>
    have htx := (soleTile_tx hr).1
    have : soleCell S r.1 r.2 ic = soleCell S r.1 r.2 ic' := by
      unfold soleCell
      rw [tileIdx_tx htx, tileIdx_tx htx, ht, hc]
    rw [Option.bind_some, Option.bind_some, this]

theorem modifyCell_congr {S : Nat} (st : St C) {m n : LMap} {ic ic' : Coord} (hn : n.tx = m.tx)
    (ht : tileIdx S m ic = tileIdx S m ic') (hc : cellIdx S ic = cellIdx S ic') (g : C → C) :
    modifyCell S st n ic g = modifyCell S st n ic' g := by
  unfold modifyCell
  rw [tileIdx_tx hn, tileIdx_tx hn, ht, hc]

theorem replaceCell_congr {S : Nat} (st : St C) {m n : LMap} {ic ic' : Coord} (hn : n.tx = m.tx)
    (ht : tileIdx S m ic = tileIdx S m ic') (hc : cellIdx S ic = cellIdx S ic') (v : C) :
    replaceCell S st n ic v = replaceCell S st n ic' v := by
  unfold replaceCell
  rw [tileIdx_tx hn, tileIdx_tx hn, ht, hc]

theorem cellInternal_congr {S : Nat} (st : St C) {m : LMap} {ic ic' : Coord}
    (ht : tileIdx S m ic = tileIdx S m ic') (hc : cellIdx S ic = cellIdx S ic') :
    cellInternal S st m ic = cellInternal S st m ic' := by
  unfold cellInternal
  rw [ht, hc]

/-! ## Refinement -/

/-- The relation of `Refine.lean`, with the abstract values of bounded maps known for all stored coordinates. -/
structure RelAny (S : Nat) (st : St C) (A : List (Option (AMap C))) : Prop where
  rel : Rel S st A
  resp : ∀ (i : Nat) (a : AMap C), A[i]? = some (some a) → ∀ c d, a.Same S c d → a.f c = a.f d

theorem same_symm {S : Nat} {a : AMap C} {c d : Coord} (h : a.Same S c d) : a.Same S d c := by
  unfold AMap.Same at *; split <;> simp_all

theorem same_trans {S : Nat} {a : AMap C} {c d e : Coord} (h : a.Same S c d) (h' : a.Same S d e) : a.Same S c e := by
  unfold AMap.Same at *; split <;> simp_all

/-- What is known of a bounded map object. -/
theorem bounded_facts {S : Nat} {st : St C} {m : LMap} {a : AMap C} (hr : RelMap S st m a) {w h : Nat}
    (he : a.extent = some (w, h)) :
    m.unbounded = false ∧ m.origin = ⟨(w / 2 : Nat), (h / 2 : Nat)⟩ ∧ m.tx = tilesFor S w ∧ m.ty = tilesFor S h := by
  have hext := hr.ext
  rw [he] at hext
  by_cases hu : m.unbounded = true
  · rw [if_pos hu] at hext; cases hext
  · rw [if_neg hu] at hext
    have hu' : m.unbounded = false := by simpa using hu
    obtain ⟨o1, o2, o3⟩ := hr.org hu'
    simp only [Option.some.injEq, Prod.mk.injEq] at hext
    obtain ⟨rfl, rfl⟩ := hext
    exact ⟨hu', o1, o2, o3⟩

theorem stored_location {S : Nat} (hS : 0 < S) {st : St C} {m : LMap} {a : AMap C} (hr : RelMap S st m a) {w h : Nat}
    (he : a.extent = some (w, h)) {c : Coord} (hs : a.Stored S c) :
    ∃ x y : Nat, Area S m x y ∧ a.Same S ⟨(x : Int) - m.origin.x, (y : Int) - m.origin.y⟩ c ∧
      tileIdx S m (external2internal m.origin c) = tileIdx S m ⟨x, y⟩ ∧
      cellIdx S (external2internal m.origin c) = cellIdx S ⟨x, y⟩ := by
  obtain ⟨hu, ho, hx, hy⟩ := bounded_facts hr he
  unfold AMap.Stored at hs
  rw [he] at hs
  obtain ⟨x, y, hx', hy', e⟩ := canonical hS c hs.1 hs.2
  have key : ∀ d : Coord, placeOf S w h d = placeOf S w h c →
      tileIdx S m (external2internal m.origin c) = tileIdx S m (external2internal m.origin d) ∧
      cellIdx S (external2internal m.origin c) = cellIdx S (external2internal m.origin d) := by
    intro d hd
    obtain ⟨k1, k2⟩ := place_tile ho hx c
    obtain ⟨k3, k4⟩ := place_tile ho hx d
    rw [k1, k2, k3, k4, hd]
    exact ⟨rfl, rfl⟩
  have eint : external2internal m.origin ⟨(x : Int) - (w / 2 : Nat), (y : Int) - (h / 2 : Nat)⟩ = ⟨x, y⟩ := by
    rw [ho]
    simp only [external2internal, Coord.add, sub_add_cancel]
  have := key _ e
  rw [eint] at this
  refine ⟨x, y, ⟨by rw [hx]; exact hx', by rw [hy]; exact hy'⟩, ?_, this⟩
  unfold AMap.Same
  rw [he, ho]
  exact e

theorem not_stored_index {S : Nat} {st : St C} {m : LMap} {a : AMap C} (hr : RelMap S st m a) {w h : Nat}
    (hsz : m.tiles.length = m.tx * m.ty) (he : a.extent = some (w, h)) {c : Coord} (hs : ¬ a.Stored S c) :
    idx m.tiles (tileIdx S m (external2internal m.origin c)) = none := by
  obtain ⟨hu, ho, hx, hy⟩ := bounded_facts hr he
  unfold AMap.Stored at hs
  rw [he] at hs
  rw [(place_tile ho hx c).1]
  unfold idx
  split
  · rename_i h0
    rw [List.getElem?_eq_none]
    rw [hsz, hx, hy]
    simp only [h0, true_and, not_lt] at hs
    omega
  · rfl

theorem anyStep_unbounded {S : Nat} {upd : C → O → C} {A : List (Option (AMap C))} {i : Nat} {a : AMap C}
    (ha : A[i]? = some (some a)) (he : a.extent = none) (op : LOp C O)
    (hop : (∃ c o, op = .update i c o) ∨ (∃ c v, op = .reset i c v)) :
    anyStep S upd A op = specStepL upd A op := by
  have h1 : ∀ c, a.Stored S c := by intro c; unfold AMap.Stored; rw [he]; trivial
  have h2 : ∀ c, a.Covers c := by intro c; unfold AMap.Covers; rw [he]; trivial
  have h3 : ∀ c d, a.Same S d c ↔ d = c := by intro c d; unfold AMap.Same; rw [he]
  rcases hop with ⟨c, o, rfl⟩ | ⟨c, o, rfl⟩
  · simp only [anyStep, specStepL, ha, Option.getD_some, Option.bind_some, if_pos (h1 c), if_pos (h2 c), h3]
  · simp only [anyStep, specStepL, ha, Option.getD_some, Option.bind_some, if_pos (h1 c), if_pos (h2 c), h3]

/-- Writing to a dead object or not: both sides agree that nothing is defined. -/
theorem dead_lookup {S : Nat} {st : St C} {A : List (Option (AMap C))} (h : Rel S st A) {i : Nat}
    (ha : (A[i]?).getD none = none) : (st.maps[i]?).getD none = none := by
  cases hm : (st.maps[i]?).getD none with
  | none => rfl
  | some m =>
    obtain ⟨a, k1, -⟩ := h.live i m (getD_some hm)
    rw [k1] at ha
    cases ha

theorem resp_set {S : Nat} {A : List (Option (AMap C))}
    (h : ∀ (i : Nat) (a : AMap C), A[i]? = some (some a) → ∀ c d, a.Same S c d → a.f c = a.f d)
    {i : Nat} {a : AMap C} (ha : A[i]? = some (some a)) (c : Coord) (w : C) :
    ∀ (j : Nat) (b : AMap C),
      (A.set i (some { a with f := fun d => if a.Same S d c then w else a.f d }))[j]? = some (some b) →
      ∀ c d, b.Same S c d → b.f c = b.f d := by
  intro j b hb p q hpq
  have hilt : i < A.length := by
    by_contra hh; rw [List.getElem?_eq_none (by omega)] at ha; simp at ha
  by_cases hj : j = i
  · subst hj
    rw [List.getElem?_set_self hilt] at hb
    have hb := Option.some.inj (Option.some.inj hb)
    rw [← hb] at hpq ⊢
    have hpq' : a.Same S p q := hpq
    simp only
    by_cases h1 : a.Same S p c
    · rw [if_pos h1, if_pos (same_trans (same_symm hpq') h1)]
    · rw [if_neg h1, if_neg (fun h2 => h1 (same_trans hpq' h2))]
      exact h j a ha p q hpq'
  · rw [List.getElem?_set_ne (by omega)] at hb
    exact h j b hb p q hpq

theorem bounded_write {S : Nat} (hS : 0 < S) {st : St C} {A : List (Option (AMap C))} (h : RelAny S st A) {i : Nat}
    {m : LMap} {a : AMap C} (hl : Live st i m) (ha : A[i]? = some (some a)) (hr : RelMap S st m a) {w' h' : Nat}
    (he : a.extent = some (w', h')) {c : Coord} {x y : Nat} (hA : Area S m x y)
    (hsame : a.Same S ⟨(x : Int) - m.origin.x, (y : Int) - m.origin.y⟩ c) {st3 : St C} {m2 : LMap} {w : C}
    (hw : WriteEffect S st st3 i m m2 x y w) :
    RelAny S st3 (A.set i (some { a with f := fun d => if a.Same S d c then w else a.f d })) := by
  obtain ⟨hu, ho, hx, hy⟩ := bounded_facts hr he
  refine ⟨rel_write_gen h.rel hl ha hr _ ?_ ?_ hw, resp_set h.resp ha c w⟩
  · intro hh; rw [hu] at hh; cases hh
  · intro x' y' hA'
    by_cases hxx : x' = x ∧ y' = y
    · obtain ⟨rfl, rfl⟩ := hxx
      rw [if_pos hsame, if_pos ⟨rfl, rfl⟩]
    · rw [if_neg hxx, if_neg]
      intro hs
      apply hxx
      have := same_trans hs (same_symm hsame)
      unfold AMap.Same at this
      rw [he, ho] at this
      refine place_inj hS (w := w') (h := h') ?_ ?_ this
      · rw [← hx]; exact hA'.1
      · rw [← hx]; exact hA.1

theorem any_step {S : Nat} (hS : 0 < S) (upd : C → O → C) {st : St C} {A : List (Option (AMap C))}
    (h : RelAny S st A) (op : LOp C O) :
    match anyStep S upd A op with
    | none => stepL S upd st op = none
    | some A' => ∃ st', stepL S upd st op = some st' ∧ RelAny S st' A' := by
  have same : ∀ op : LOp C O, anyStep S upd A op = specStepL upd A op →
      (∀ A', specStepL upd A op = some A' → ∀ (i : Nat) (a : AMap C), A'[i]? = some (some a) →
        ∀ c d, a.Same S c d → a.f c = a.f d) → (specStepL upd A op = none → stepL S upd st op = none) →
      match anyStep S upd A op with
      | none => stepL S upd st op = none
      | some A' => ∃ st', stepL S upd st op = some st' ∧ RelAny S st' A' := by
    intro op e hresp hnone
    rw [e]
    cases hs : specStepL upd A op with
    | none => exact hnone hs
    | some A' =>
      obtain ⟨st', k1, k2⟩ := step_refines hS upd h.rel op hs
      exact ⟨st', k1, k2, hresp A' hs⟩
  cases op with
  | create unb w h' p =>
    refine same (.create unb w h' p) rfl ?_ (by intro hh; simp [specStepL] at hh)
    intro A' hA' i a hi c d hcd
    simp only [specStepL, Option.some.injEq] at hA'
    subst hA'
    rw [List.getElem?_append] at hi
    split at hi
    · exact h.resp i a hi c d hcd
    · cases hz : i - A.length with
      | zero =>
        rw [hz] at hi
        simp only [List.getElem?_cons_zero, Option.some.injEq] at hi
        rw [← hi]
      | succ n => rw [hz] at hi; simp at hi
  | copy i =>
    refine same _ rfl ?_ ?_
    · intro A' hA' j a hj c d hcd
      simp only [specStepL, Option.map_eq_some_iff] at hA'
      obtain ⟨b, hb, rfl⟩ := hA'
      have hb := getD_some hb
      rw [List.getElem?_append] at hj
      split at hj
      · exact h.resp j a hj c d hcd
      · cases hz : j - A.length with
        | zero =>
          rw [hz] at hj
          simp only [List.getElem?_cons_zero, Option.some.injEq] at hj
          subst hj
          exact h.resp i b hb c d hcd
        | succ n => rw [hz] at hj; simp at hj
    · intro hh
      simp only [specStepL, Option.map_eq_none_iff] at hh
      simp only [stepL, dead_lookup h.rel hh, Option.map_none]
  | destroy i =>
    refine same _ rfl ?_ ?_
    · intro A' hA' j a hj c d hcd
      simp only [specStepL, Option.map_eq_some_iff] at hA'
      obtain ⟨b, hb, rfl⟩ := hA'
      by_cases hji : j = i
      · subst hji
        rw [List.getElem?_set] at hj
        simp only [if_true] at hj
        split at hj <;> simp at hj
      · rw [List.getElem?_set_ne (by omega)] at hj
        exact h.resp j a hj c d hcd
    · intro hh
      simp only [specStepL, Option.map_eq_none_iff] at hh
      simp only [stepL, dead_lookup h.rel hh, Option.map_none]
  | update i c o =>
    cases ha : (A[i]?).getD none with
    | none =>
      simp only [anyStep, ha, Option.bind_none, stepL, dead_lookup h.rel ha]
    | some a =>
      have ha' := getD_some ha
      obtain ⟨m, hl, hr⟩ := rel_lookup h.rel ha'
      cases he : a.extent with
      | none =>
        refine same _ (anyStep_unbounded ha' he _ (Or.inl ⟨c, o, rfl⟩)) ?_ ?_
        · intro A' hA' j b hj p q hpq
          rw [← anyStep_unbounded (S := S) ha' he _ (Or.inl ⟨c, o, rfl⟩)] at hA'
          have hst : a.Stored S c := by unfold AMap.Stored; rw [he]; trivial
          simp only [anyStep, ha, Option.bind_some, if_pos hst, Option.some.injEq] at hA'
          subst hA'
          exact resp_set h.resp ha' c _ j b hj p q hpq
        · intro hh
          have hcov : a.Covers c := by unfold AMap.Covers; rw [he]; trivial
          simp only [specStepL, ha, Option.bind_some, if_pos hcov] at hh
          cases hh
      | some wh =>
        obtain ⟨w', h'⟩ := wh
        obtain ⟨hu, ho, hx, hy⟩ := bounded_facts hr he
        simp only [anyStep, ha, Option.bind_some]
        have hstep : stepL S upd st (.update i c o) =
            (ensureSole S st i m (external2internal m.origin c)).bind fun q =>
              modifyCell S q.1 q.2 (external2internal q.2.origin c) (fun v => upd v o) := by
          simp only [stepL, live_getD hl, Option.bind_some, ensureInside, hu, Bool.false_eq_true, if_false]
        by_cases hs : a.Stored S c
        · rw [if_pos hs]
          obtain ⟨x, y, hA, hsame, ht, hc⟩ := stored_location hS hr he hs
          obtain ⟨st3, m2, v, k1, k2, k3, k4⟩ := update_effect hS h.rel.inv hl hA (fun v => upd v o)
          have hv : v = a.f c := by
            have := hr.val x y hA
            rw [k2] at this
            rw [Option.some.inj this]
            exact h.resp i a ha' _ _ hsame
          subst hv
          refine ⟨st3, ?_, bounded_write hS h hl ha' hr he hA hsame k4⟩
          rw [hstep, ensureSole_congr st i ht hc, ← k1]
          cases hq : ensureSole S st i m ⟨x, y⟩ with
          | none => rfl
          | some q =>
            obtain ⟨q1, q2⟩ := ensureSole_tx hq
            rw [Option.bind_some, Option.bind_some, q2]
            exact modifyCell_congr q.1 q1 ht hc _
        · rw [if_neg hs]
          rw [hstep]
          have := not_stored_index hr (h.rel.inv.size i m hl).1 he hs
          simp only [ensureSole, soleTile, this, Option.bind_none]
  | reset i c o =>
    cases ha : (A[i]?).getD none with
    | none =>
      simp only [anyStep, ha, Option.bind_none, stepL, dead_lookup h.rel ha]
    | some a =>
      have ha' := getD_some ha
      obtain ⟨m, hl, hr⟩ := rel_lookup h.rel ha'
      cases he : a.extent with
      | none =>
        refine same _ (anyStep_unbounded ha' he _ (Or.inr ⟨c, o, rfl⟩)) ?_ ?_
        · intro A' hA' j b hj p q hpq
          rw [← anyStep_unbounded (S := S) ha' he _ (Or.inr ⟨c, o, rfl⟩)] at hA'
          have hst : a.Stored S c := by unfold AMap.Stored; rw [he]; trivial
          simp only [anyStep, ha, Option.bind_some, if_pos hst, Option.some.injEq] at hA'
          subst hA'
          exact resp_set h.resp ha' c _ j b hj p q hpq
        · intro hh
          have hcov : a.Covers c := by unfold AMap.Covers; rw [he]; trivial
          simp only [specStepL, ha, Option.bind_some, if_pos hcov] at hh
          cases hh
      | some wh =>
        obtain ⟨w', h'⟩ := wh
        obtain ⟨hu, ho, hx, hy⟩ := bounded_facts hr he
        simp only [anyStep, ha, Option.bind_some]
        have hstep : stepL S upd st (.reset i c o) =
            (ensureSole S st i m (external2internal m.origin c)).bind fun q =>
              replaceCell S q.1 q.2 (external2internal q.2.origin c) o := by
          simp only [stepL, live_getD hl, Option.bind_some, ensureInside, hu, Bool.false_eq_true, if_false]
        by_cases hs : a.Stored S c
        · rw [if_pos hs]
          obtain ⟨x, y, hA, hsame, ht, hc⟩ := stored_location hS hr he hs
          obtain ⟨st3, m2, k1, k3, k4⟩ := reset_effect hS h.rel.inv hl hA o
          refine ⟨st3, ?_, bounded_write hS h hl ha' hr he hA hsame k4⟩
          rw [hstep, ensureSole_congr st i ht hc, ← k1]
          cases hq : ensureSole S st i m ⟨x, y⟩ with
          | none => rfl
          | some q =>
            obtain ⟨q1, q2⟩ := ensureSole_tx hq
            rw [Option.bind_some, Option.bind_some, q2]
            exact replaceCell_congr q.1 q1 ht hc _
        · rw [if_neg hs]
          rw [hstep]
          have := not_stored_index hr (h.rel.inv.size i m hl).1 he hs
          simp only [ensureSole, soleTile, this, Option.bind_none]

theorem any_run {S : Nat} (hS : 0 < S) (upd : C → O → C) (ops : List (LOp C O)) :
    ∀ {st : St C} {A : List (Option (AMap C))}, RelAny S st A →
      match anyRun S upd A ops with
      | none => runL S upd st ops = none
      | some A' => ∃ st', runL S upd st ops = some st' ∧ RelAny S st' A' := by
  induction ops with
  | nil => intro st A h; exact ⟨st, rfl, h⟩
  | cons op ops ih =>
    intro st A h
    have h1 := any_step hS upd h op
    simp only [anyRun, runL]
    cases hs : anyStep S upd A op with
    | none =>
      rw [hs] at h1
      simp only at h1
      rw [h1]
      rfl
    | some A1 =>
      rw [hs] at h1
      obtain ⟨st1, k1, k2⟩ := h1
      rw [k1, Option.bind_some, Option.bind_some]
      exact ih k2

/-- C12: every history of creations, copies, destructions, updates and resets of lazily tiled maps, with *any*
coordinates. It is defined exactly when every written coordinate is stored; then a write changes exactly the
coordinates that denote the same cell object, and a coordinate can be read exactly if it is stored. -/
theorem lazy_maps_any_access (S : Nat) (hS : 0 < S) (upd : C → O → C) (ops : List (LOp C O)) :
    match anyRun S upd [] ops with
    | none => runL S upd emptySt ops = none
    | some A => ∃ st, runL S upd emptySt ops = some st ∧
        ∀ i a, A[i]? = some (some a) → ∀ d,
          readL S st i d = if a.Stored S d then some (a.f d) else none := by
  have h0 : Rel S (emptySt : St C) [] := by
    refine ⟨⟨?_, ?_, ?_, ?_, ?_, ?_⟩, rfl, ?_, ?_⟩ <;> intros <;> simp_all [emptySt, Live]
  have h := any_run hS upd ops (st := emptySt) (A := []) ⟨h0, by intro i a hi; simp at hi⟩
  cases hr : anyRun S upd [] ops with
  | none => rw [hr] at h; exact h
  | some A =>
    rw [hr] at h
    obtain ⟨st, k1, k2⟩ := h
    refine ⟨st, k1, ?_⟩
    intro i a ha d
    obtain ⟨m, hl, hr⟩ := rel_lookup k2.rel ha
    unfold readL
    rw [live_getD hl, Option.bind_some]
    cases he : a.extent with
    | none =>
      have hcov : a.Covers d := by unfold AMap.Covers; rw [he]; trivial
      have hst : a.Stored S d := by unfold AMap.Stored; rw [he]; trivial
      rw [if_pos hst]
      exact readMap_rel (k2.rel.inv.size i m hl) hr d hcov
    | some wh =>
      obtain ⟨w', h'⟩ := wh
      obtain ⟨hu, ho, hx, hy⟩ := bounded_facts hr he
      unfold readMap
      simp only [hu, Bool.false_eq_true, if_false]
      by_cases hs : a.Stored S d
      · rw [if_pos hs]
        obtain ⟨x, y, hA, hsame, ht, hc⟩ := stored_location hS hr he hs
        rw [cellInternal_congr st ht hc, hr.val x y hA, k2.resp i a ha _ _ hsame]
      · rw [if_neg hs]
        unfold cellInternal
        rw [not_stored_index hr (k2.rel.inv.size i m hl).1 he hs, Option.bind_none]

theorem tilesFor_ge (S n : Nat) (hS : 0 < S) : n ≤ tilesFor S n * S := by
  unfold tilesFor
  have := Nat.div_add_mod (n + S - 1) S
  have h2 := Nat.mod_lt (n + S - 1) hS
  rw [Nat.mul_comm] at this
  omega

/-- C12: inside of the extent every coordinate is stored, at a place of its own; and a coordinate outside of it is
harmless for all the cells of the extent exactly if it is not stored or none of them has its place. -/
theorem extent_places_distinct (S w h : Nat) (hS : 0 < S) (a : AMap C) (he : a.extent = some (w, h)) (c d : Coord)
    (hc : a.Covers c) (hd : a.Covers d) : a.Stored S c ∧ (a.Same S c d ↔ c = d) := by
  unfold AMap.Covers at hc hd
  rw [he] at hc hd
  unfold Dims.hasCell Dims.hasInternalCell at hc hd
  simp only [external2internal, Coord.add, Bool.and_eq_true] at hc hd
  obtain ⟨⟨c1, c2⟩, c3, c4⟩ := hc
  obtain ⟨⟨d1, d2⟩, d3, d4⟩ := hd
  replace c1 := of_decide_eq_true c1
  replace c2 := of_decide_eq_true c2
  replace c3 := of_decide_eq_true c3
  replace c4 := of_decide_eq_true c4
  replace d1 := of_decide_eq_true d1
  replace d2 := of_decide_eq_true d2
  replace d3 := of_decide_eq_true d3
  replace d4 := of_decide_eq_true d4
  have tw := tilesFor_ge S w hS
  have th := tilesFor_ge S h hS
  have lift : ∀ e : Coord, 0 ≤ e.x + (w / 2 : Nat) → 0 ≤ e.y + (h / 2 : Nat) →
      ∃ x y : Nat, (x : Int) = e.x + (w / 2 : Nat) ∧ (y : Int) = e.y + (h / 2 : Nat) ∧
        e = ⟨(x : Int) - (w / 2 : Nat), (y : Int) - (h / 2 : Nat)⟩ := by
    intro e h1 h2
    refine ⟨(e.x + (w / 2 : Nat)).toNat, (e.y + (h / 2 : Nat)).toNat, by omega, by omega, ?_⟩
    cases e
    simp only [Coord.mk.injEq] at *
    omega
  obtain ⟨x, y, ex, ey, ec⟩ := lift c c1 c3
  obtain ⟨x', y', ex', ey', ed⟩ := lift d d1 d3
  constructor
  · unfold AMap.Stored
    rw [he]
    simp only [placeOf]
    rw [← ex, ← ey]
    have hs := slot_lt S (tilesFor S w) (tilesFor S h) x y (by omega) (by omega)
    unfold slot at hs
    constructor
    · positivity
    · exact_mod_cast hs
  · unfold AMap.Same
    rw [he]
    constructor
    · intro e
      simp only at e
      rw [ec, ed] at e
      obtain ⟨rfl, rfl⟩ := place_inj hS (by omega) (by omega) e
      rw [ec, ed]
    · rintro rfl; rfl

/-- C12, spelled out for one write: it is defined iff its coordinate is stored, and then the readings of that map
change at the coordinates of the same place only. In particular a write inside of the extent never changes another
reading inside of it. -/
theorem bounded_lazy_write (S : Nat) (hS : 0 < S) (upd : C → O → C) (ops : List (LOp C O)) (A : List (Option (AMap C)))
    (hA : anyRun S upd [] ops = some A) (i : Nat) (a : AMap C) (ha : A[i]? = some (some a)) (c : Coord) (o : O)
    (st : St C) (hst : runL S upd emptySt ops = some st) :
    (¬ a.Stored S c → stepL S upd st (.update i c o) = none) ∧
    (a.Stored S c → ∃ st', stepL S upd st (.update i c o) = some st' ∧
      (∀ d, ¬ a.Same S d c → readL S st' i d = readL S st i d) ∧
      (∀ d, a.Same S d c → readL S st' i d = (readL S st i c).map fun v => upd v o) ∧
      (∀ j b, j ≠ i → A[j]? = some (some b) → ∀ d, readL S st' j d = readL S st j d)) := by
  have happ : ∀ (xs ys : List (LOp C O)) (B : List (Option (AMap C))),
      anyRun S upd B (xs ++ ys) = (anyRun S upd B xs).bind fun B => anyRun S upd B ys := by
    intro xs
    induction xs with
    | nil => intro ys B; rfl
    | cons x xs ih =>
      intro ys B
      simp only [List.cons_append, anyRun]
      cases anyStep S upd B x with
      | none => rfl
      | some B1 => simp only [Option.bind_some]; exact ih ys B1
  have happ' : ∀ (xs ys : List (LOp C O)) (s : St C),
      runL S upd s (xs ++ ys) = (runL S upd s xs).bind fun s => runL S upd s ys := by
    intro xs
    induction xs with
    | nil => intro ys B; rfl
    | cons x xs ih =>
      intro ys s
      simp only [List.cons_append, runL]
      cases stepL S upd s x with
      | none => rfl
      | some B1 => simp only [Option.bind_some]; exact ih ys B1
  have hold := lazy_maps_any_access S hS upd ops
  rw [hA] at hold
  obtain ⟨st0, e0, hread⟩ := hold
  rw [hst] at e0
  obtain rfl := Option.some.inj e0
  have hnew := lazy_maps_any_access S hS upd (ops ++ [.update i c o])
  have e1 : anyRun S upd [] (ops ++ [.update i c o]) = anyStep S upd A (.update i c o) := by
    rw [happ, hA, Option.bind_some]
    simp only [anyRun]
    cases anyStep S upd A (.update i c o) <;> rfl
  have e2 : runL S upd emptySt (ops ++ [.update i c o]) = stepL S upd st (.update i c o) := by
    rw [happ', hst, Option.bind_some]
    simp only [runL]
    cases stepL S upd st (.update i c o) <;> rfl
  rw [e1, e2] at hnew
  constructor
  · intro hs
    have : anyStep S upd A (.update i c o) = none := by
      simp only [anyStep, ha, Option.getD_some, Option.bind_some, if_neg hs]
    rw [this] at hnew
    exact hnew
  · intro hs
    have e3 : anyStep S upd A (.update i c o)
        = some (A.set i (some { a with f := fun d => if a.Same S d c then upd (a.f c) o else a.f d })) := by
      simp only [anyStep, ha, Option.getD_some, Option.bind_some, if_pos hs]
    rw [e3] at hnew
    obtain ⟨st', k1, k2⟩ := hnew
    have hilt : i < A.length := by
      by_contra hh; rw [List.getElem?_eq_none (by omega)] at ha; simp at ha
    have hi := k2 i _ (List.getElem?_set_self hilt)
    have hstored : ∀ d, (AMap.Stored S { a with f := fun d => if a.Same S d c then upd (a.f c) o else a.f d } d)
        ↔ a.Stored S d := fun d => Iff.rfl
    refine ⟨st', k1, ?_, ?_, ?_⟩
    · intro d hd
      rw [hi d, hread i a ha d]
      by_cases hsd : a.Stored S d
      · rw [if_pos hsd, if_pos ((hstored d).2 hsd)]
        simp only
        rw [if_neg hd]
      · rw [if_neg hsd, if_neg (fun h => hsd ((hstored d).1 h))]
    · intro d hd
      have hsd : a.Stored S d := by
        unfold AMap.Stored AMap.Same at *
        cases he : a.extent with
        | none => trivial
        | some wh =>
          rw [he] at hs hd
          simp only at hs hd ⊢
          rw [hd]; exact hs
      rw [hi d, hread i a ha c, if_pos hs, if_pos ((hstored d).2 hsd), Option.map_some]
      simp only
      rw [if_pos hd]
    · intro j b hj hb d
      rw [hread j b hb d, k2 j b (by rw [List.getElem?_set_ne (by omega)]; exact hb) d]

/-- Non-vacuity (tile size 2, a 2 × 3 map, i.e. one column of two tiles): the coordinate `(1, -1)` lies outside of the
extent, is stored and shares the place of the cell `(-1, 1)`; `(1, 1)` is not stored. -/
example :
    let a : AMap Nat := ⟨some (2, 3), fun _ => 0⟩
    ¬ a.Covers ⟨1, -1⟩ ∧ a.Stored 2 ⟨1, -1⟩ ∧ a.Covers ⟨-1, 1⟩ ∧ a.Same 2 ⟨1, -1⟩ ⟨-1, 1⟩ ∧ ¬ a.Stored 2 ⟨1, 1⟩ ∧
    (anyRun 2 (fun v (o : Nat) => v + o) [] [.create false 2 3 0, .update 0 ⟨1, -1⟩ 4]).isSome = true ∧
    (anyRun 2 (fun v (o : Nat) => v + o) ([] : List (Option (AMap Nat)))
      [.create false 2 3 0, .update 0 ⟨1, 1⟩ 4]).isNone = true := by
  decide

end Slam.LazyMap
