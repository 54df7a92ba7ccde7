import Mathlib.Tactic.Linarith
import Mathlib.Tactic.NormNum
import Mathlib.Tactic.Ring
import Init.Data.List.SplitOn
import Verif.Primitive.Model

/-!
# Generated maps (C52)
-/

set_option autoImplicit false
set_option linter.unusedSectionVars false

namespace Slam.Primitive

open Slam.Grid

/-! ## Specification -/

/-- The rows of a text raster: its lines up to the first empty one. -/
def textRows (text : List Char) : List (List Char) := (text.splitOn '\n').takeWhile (· ≠ [])

/-- The walls of a blind alley of `w` columns and `h` rows: three sides, the one opposite to `side` is open. -/
def IsWall (side : Side) (w h i j : Nat) : Prop :=
  match side with
  | .top => i = 0 ∨ j = 0 ∨ j = w - 1
  | .bot => i = h - 1 ∨ j = 0 ∨ j = w - 1
  | .left => i = 0 ∨ i = h - 1 ∨ j = 0
  | .right => i = 0 ∨ i = h - 1 ∨ j = w - 1

instance (side : Side) (w h i j : Nat) : Decidable (IsWall side w h i j) := by
  cases side <;> unfold IsWall <;> infer_instance

/-- The square of row `i` and column `j`, with the top left square spanning from 0 to 1 in both directions, meets the
inner part of a rectangle. -/
def MeetsInside (b : Bounds Int) (i j : Nat) : Prop :=
  b.left < (j : Int) + 1 ∧ (j : Int) < b.right ∧ b.bot < -(i : Int) + 1 ∧ -(i : Int) < b.top

/-- The cell `c` belongs to the block of the character in row `i` and column `j` of a raster placed at `o`, each
character being `wZoom` cells wide and `hZoom` cells high; rows go down. -/
def InBlock (wZoom hZoom : Nat) (o c : Coord) (i j : Nat) : Prop :=
  o.x + (j : Int) * wZoom ≤ c.x ∧ c.x < o.x + ((j : Int) + 1) * wZoom ∧
    o.y - ((i : Int) + 1) * hZoom < c.y ∧ c.y ≤ o.y - (i : Int) * hZoom

/-! ## Rows -/

theorem rowsFrom_eq (s cur : List Char) :
    rowsFrom cur s = (s.splitOnPPrepend (· == '\n') cur).takeWhile (· ≠ []) := by
  induction s generalizing cur with
  | nil => by_cases h : cur = [] <;> simp [rowsFrom, h]
  | cons c cs ih =>
    by_cases h : c = '\n'
    · rw [rowsFrom, if_pos h, List.splitOnPPrepend_cons_pos (by simp [h]), ih]
      by_cases hc : cur = []
      · simp [hc]
      · simp [hc]
    · rw [rowsFrom, if_neg h, ih, List.splitOnPPrepend_cons_neg (by simp [h])]

theorem rows_of_text (text : List Char) : rowsFrom [] text = textRows text := rowsFrom_eq text []

theorem rowsFrom_row (r rest cur : List Char) (hr : '\n' ∉ r) (hne : cur ≠ [] ∨ r ≠ []) :
    rowsFrom cur (r ++ '\n' :: rest) = (cur.reverse ++ r) :: rowsFrom [] rest := by
  induction r generalizing cur with
  | nil =>
    have hc : cur ≠ [] := by simpa using hne
    simp [rowsFrom, hc]
  | cons c r ih =>
    have hc : c ≠ '\n' := fun e => hr (by simp [e])
    rw [List.cons_append, rowsFrom, if_neg hc, ih _ (fun e => hr (by simp [e])) (.inl (by simp))]
    simp

theorem rowsFrom_rows (rows : List (List Char)) (h : ∀ r ∈ rows, '\n' ∉ r ∧ r ≠ []) (rest : List Char) :
    rowsFrom [] ((rows.flatMap fun r => r ++ ['\n']) ++ rest) = rows ++ rowsFrom [] rest := by
  induction rows with
  | nil => simp
  | cons r rows ih =>
    have hr := h r (by simp)
    rw [List.flatMap_cons, List.append_assoc, List.append_assoc, List.singleton_append,
      rowsFrom_row r _ [] hr.1 (.inr hr.2), ih fun r' h' => h r' (List.mem_cons_of_mem _ h')]
    simp

/-! ## Blind alleys -/

/-- The row `i` of a blind alley. -/
def alleyRow (side : Side) (w h i : Nat) : List Char :=
  (List.range w).map fun (j : Nat) => if IsWall side w h i j then '+' else ' '

theorem alleyRow_ok (side : Side) (w h i : Nat) (hw : 0 < w) : '\n' ∉ alleyRow side w h i ∧ alleyRow side w h i ≠ [] := by
  constructor
  · intro hm
    obtain ⟨j, _, hj⟩ := List.mem_map.1 hm
    by_cases hwall : IsWall side w h i j
    · rw [if_pos hwall] at hj; revert hj; decide
    · rw [if_neg hwall] at hj; revert hj; decide
  · intro he
    have := congrArg List.length he
    simp [alleyRow] at this
    omega

theorem full_row (side : Side) (w h i : Nat) (hi : ∀ j, IsWall side w h i j) :
    alleyRow side w h i = List.replicate w '+' := by
  apply List.ext_getElem
  · simp [alleyRow]
  · intro n h1 h2
    simp [alleyRow, hi n]

theorem horizontal_eq (side : Side) (w h : Nat) (hw : 0 < w) (hs : side = .top ∨ side = .bot) :
    horizontal side w h = ((List.range h).map (alleyRow side w h)).flatMap fun r => r ++ ['\n'] := by
  rw [horizontal, List.flatMap_map]
  apply List.flatMap_congr
  intro i _
  by_cases hc : (i = 0 ∧ side = .top) ∨ (i = h - 1 ∧ side = .bot)
  · rw [if_pos hc, full_row]
    intro j
    rcases hc with ⟨h1, h2⟩ | ⟨h1, h2⟩
    · subst h2; exact .inl h1
    · subst h2; exact .inl h1
  · rw [if_neg hc]
    congr 1
    obtain ⟨n, rfl⟩ : ∃ n, w = n + 1 := ⟨w - 1, by omega⟩
    have hwall : ∀ j, IsWall side (n + 1) h i j ↔ (j = 0 ∨ j = n) := by
      intro j
      rcases hs with rfl | rfl
      · have : i ≠ 0 := fun e => hc (.inl ⟨e, rfl⟩)
        simp [IsWall, this]
      · have : i ≠ h - 1 := fun e => hc (.inr ⟨e, rfl⟩)
        simp [IsWall, this]
    apply List.ext_getElem
    · simp [alleyRow]
    · intro k h1 h2
      simp only [alleyRow, List.getElem_map, List.getElem_range]
      cases k with
      | zero => simp [hwall]
      | succ k =>
        simp only [List.getElem_cons_succ, List.getElem_map, List.getElem_range', hwall]
        by_cases e : k + 1 = n
        · rw [if_pos (by omega), if_pos (.inr e)]
        · rw [if_neg (by omega), if_neg (by omega)]

theorem vertical_eq (side : Side) (w h : Nat) (hw : 0 < w) (hh : 0 < h) (hs : side = .left ∨ side = .right) :
    vertical side w h =
      (((List.range h).map (alleyRow side w h)).flatMap fun r => r ++ ['\n']) ++ (if h = 1 then ['\n'] else []) := by
  have hfull : ∀ i, i = 0 ∨ i = h - 1 → alleyRow side w h i = List.replicate w '+' := by
    intro i hi
    apply full_row
    intro j
    rcases hs with rfl | rfl
    · rcases hi with h | h
      · exact .inl h
      · exact .inr (.inl h)
    · rcases hi with h | h
      · exact .inl h
      · exact .inr (.inl h)
  by_cases h1 : h = 1
  · subst h1
    simp [vertical, hfull 0 (.inl rfl)]
  · rw [if_neg h1, List.append_nil]
    obtain ⟨n, rfl⟩ : ∃ n, h = n + 2 := ⟨h - 2, by omega⟩
    have hr : List.range (n + 2) = 0 :: (List.range' 1 n ++ [n + 1]) := by
      rw [List.range_eq_range', List.range'_succ, List.range'_concat]
      simp [Nat.add_comm]
    have hr' : List.range' 1 (n + 2 - 1) = List.range' 1 n ++ [n + 1] := by
      have : n + 2 - 1 = n + 1 := by omega
      rw [this, List.range'_concat]
      simp [Nat.add_comm]
    rw [hr, List.map_cons, List.flatMap_cons, hfull 0 (.inl rfl), vertical, hr', List.flatMap_append,
      List.map_append, List.flatMap_append, List.map_singleton, hfull (n + 1) (.inr (by omega)),
      List.flatMap_map]
    simp only [List.append_assoc]
    congr 2
    have hmid : (List.range' 1 n).flatMap (fun (row : Nat) =>
        if row = n + 2 - 1 then List.replicate w '+'
        else (List.range w).map (fun (col : Nat) =>
          if w = 1 ∨ (col = 0 ∧ side = .left) ∨ (col = w - 1 ∧ side = .right) then '+' else ' ') ++ ['\n']) =
        (List.range' 1 n).flatMap fun i => alleyRow side w (n + 2) i ++ ['\n'] := by
      apply List.flatMap_congr
      intro i hi
      have hi' := List.mem_range'_1.1 hi
      rw [if_neg (by omega)]
      congr 1
      apply List.map_congr_left
      intro j hj
      have hj' := List.mem_range.1 hj
      rcases hs with rfl | rfl
      · have : IsWall .left w (n + 2) i j ↔ j = 0 := by
          simp only [IsWall]; omega
        by_cases e : j = 0
        · rw [if_pos (.inr (.inl ⟨e, rfl⟩)), if_pos (this.2 e)]
        · rw [if_neg (by simp [e]; omega), if_neg (fun h => e (this.1 h))]
      · have : IsWall .right w (n + 2) i j ↔ j = w - 1 := by
          simp only [IsWall]; omega
        by_cases e : j = w - 1
        · rw [if_pos (.inr (.inr ⟨e, rfl⟩)), if_pos (this.2 e)]
        · rw [if_neg (by simp [e]; omega), if_neg (fun h => e (this.1 h))]
    rw [hmid]
    simp

theorem cecum_rows (side : Side) (w h : Nat) (hw : 0 < w) (hh : 0 < h) :
    ∃ text, cecum side w h = some text ∧ textRows text = (List.range h).map (alleyRow side w h) := by
  have hok : ∀ r ∈ (List.range h).map (alleyRow side w h), '\n' ∉ r ∧ r ≠ [] := by
    intro r hr
    obtain ⟨i, _, rfl⟩ := List.mem_map.1 hr
    exact alleyRow_ok side w h i hw
  refine ⟨_, by rw [cecum, if_pos ⟨hw, hh⟩], ?_⟩
  rw [← rows_of_text]
  by_cases hs : side = .top ∨ side = .bot
  · rw [if_pos hs, horizontal_eq side w h hw hs]
    have := rowsFrom_rows _ hok []
    simpa [rowsFrom] using this
  · have hs' : side = .left ∨ side = .right := by cases side <;> simp_all
    rw [if_neg hs, vertical_eq side w h hw hh hs', rowsFrom_rows _ hok]
    by_cases h1 : h = 1
    · simp [h1, rowsFrom]
    · simp [h1, rowsFrom]

/-- **A blind alley has the declared size and shape (C52)**: its text has `h` rows of `w` characters, `+` exactly at
the three walls and blank elsewhere. -/
theorem cecum_shape (side : Side) (w h : Nat) (hw : 0 < w) (hh : 0 < h) :
    ∃ text, cecum side w h = some text ∧ (textRows text).length = h ∧
      ∀ i, i < h → ∃ row, (textRows text)[i]? = some row ∧ row.length = w ∧
        ∀ j, j < w → row[j]? = some (if IsWall side w h i j then '+' else ' ') := by
  obtain ⟨text, h1, h2⟩ := cecum_rows side w h hw hh
  refine ⟨text, h1, by rw [h2]; simp, fun i hi => ⟨alleyRow side w h i, ?_, by simp [alleyRow], fun j hj => ?_⟩⟩
  · rw [h2]; simp [hi]
  · simp [alleyRow, hj]

/-- **The declared free space is free (C52)**: every character of the alley whose square meets the inner part of the
free rectangle is blank. -/
theorem free_space_is_free (side : Side) (w h : Nat) (hw : 0 < w) (hh : 0 < h) (i j : Nat)
    (hm : MeetsInside (freeSpace side w h) i j) :
    ∃ text row, cecum side w h = some text ∧ (textRows text)[i]? = some row ∧ row[j]? = some ' ' := by
  have hb : i < h ∧ j < w ∧ ¬ IsWall side w h i j := by
    unfold freeSpace at hm
    by_cases hsm : h ≤ 2 ∨ w ≤ 2
    · rw [if_pos hsm] at hm
      obtain ⟨h1, h2, h3, h4⟩ := hm
      dsimp only at h1 h2 h3 h4
      omega
    · rw [if_neg hsm] at hm
      cases side <;> (obtain ⟨h1, h2, h3, h4⟩ := hm; dsimp only [IsWall] at *; omega)
  obtain ⟨text, h1, _, h3⟩ := cecum_shape side w h hw hh
  obtain ⟨row, h4, _, h6⟩ := h3 i hb.1
  refine ⟨text, row, h1, h4, ?_⟩
  rw [h6 j hb.2.1, if_neg hb.2.2]

/-- **The declared free space is all of it (C52)** for alleys of more than two rows and columns: every blank square
lies in the free rectangle, which is within the alley. -/
theorem free_space_is_complete (side : Side) (w h : Nat) (hw : 2 < w) (hh : 2 < h) (i j : Nat) (hi : i < h)
    (hj : j < w) (hblank : ¬ IsWall side w h i j) :
    let b := freeSpace side w h
    b.left ≤ j ∧ (j : Int) + 1 ≤ b.right ∧ b.bot ≤ -(i : Int) ∧ -(i : Int) + 1 ≤ b.top := by
  unfold freeSpace
  rw [if_neg (by omega)]
  cases side <;> (dsimp only [IsWall] at *; omega)

example : cecum .top 4 3 = some "++++\n+  +\n+  +\n".toList := by decide
example : cecum .left 4 3 = some "++++\n+   \n++++\n".toList := by decide
example : MeetsInside (freeSpace .left 4 3) 1 2 := by unfold MeetsInside; decide

/-! ## Patches -/

theorem mem_patchCols (wS : Nat) (y x : Int) (r : List Char) (c : Coord) (o : Bool) :
    (c, o) ∈ patchCols wS y x r ↔
      c.y = y ∧ ∃ (j : Nat) (ch : Char), r[j]? = some ch ∧ o = charOcc ch ∧ x + (j : Int) * wS ≤ c.x ∧
        c.x < x + ((j : Int) + 1) * wS := by
  induction r generalizing x with
  | nil => simp [patchCols]
  | cons ch r ih =>
    rw [patchCols, List.mem_append, ih]
    constructor
    · rintro (h | ⟨h1, j, ch', h2, h3, h4, h5⟩)
      · obtain ⟨i, hi, he⟩ := List.mem_map.1 h
        have hi' := List.mem_range.1 hi
        injection he with e1 e2
        subst e1
        refine ⟨rfl, 0, ch, rfl, e2.symm, ?_, ?_⟩
        · push_cast; linarith [Int.natCast_nonneg i]
        · have : (i : Int) < wS := by exact_mod_cast hi'
          push_cast; linarith
      · refine ⟨h1, j + 1, ch', by simpa using h2, h3, ?_, ?_⟩
        · push_cast; linarith
        · push_cast; linarith
    · rintro ⟨h1, j, ch', h2, h3, h4, h5⟩
      cases j with
      | zero =>
        left
        simp only [List.getElem?_cons_zero, Option.some.injEq] at h2
        subst h2
        push_cast at h4 h5
        refine List.mem_map.2 ⟨(c.x - x).toNat, List.mem_range.2 (by omega), ?_⟩
        obtain ⟨cx, cy⟩ := c
        dsimp only at h1 h4 h5 ⊢
        rw [h3, h1]
        congr 2
        omega
      | succ j =>
        right
        refine ⟨h1, j, ch', by simpa using h2, h3, ?_, ?_⟩
        · push_cast at h4; linarith
        · push_cast at h5; linarith

theorem mem_patchRows (wS hS : Nat) (y : Int) (rows : List (List Char)) (c : Coord) (o : Bool) :
    (c, o) ∈ patchRows wS hS y rows ↔
      ∃ (i j : Nat) (r : List Char) (ch : Char), rows[i]? = some r ∧ r[j]? = some ch ∧ o = charOcc ch ∧
        InBlock wS hS ⟨0, y⟩ c i j := by
  unfold InBlock
  induction rows generalizing y with
  | nil => simp [patchRows]
  | cons r rows ih =>
    rw [patchRows, List.mem_append, ih]
    constructor
    · rintro (h | ⟨i, j, r', ch, h1, h2, h3, h4, h5, h6, h7⟩)
      · obtain ⟨i, hi, he⟩ := List.mem_flatMap.1 h
        have hi' := List.mem_range.1 hi
        obtain ⟨hy, j, ch, h2, h3, h4, h5⟩ := (mem_patchCols _ _ _ _ _ _).1 he
        refine ⟨0, j, r, ch, rfl, h2, h3, by linarith, by linarith, ?_, ?_⟩
        · have : (i : Int) < hS := by exact_mod_cast hi'
          push_cast; linarith
        · push_cast; linarith [Int.natCast_nonneg i]
      · refine ⟨i + 1, j, r', ch, by simpa using h1, h2, h3, h4, h5, ?_, ?_⟩
        · push_cast at h6 ⊢; linarith
        · push_cast at h7 ⊢; linarith
    · rintro ⟨i, j, r', ch, h1, h2, h3, h4, h5, h6, h7⟩
      cases i with
      | zero =>
        left
        simp only [List.getElem?_cons_zero, Option.some.injEq] at h1
        subst h1
        dsimp only at h4 h5 h6 h7
        push_cast at h6 h7
        refine List.mem_flatMap.2 ⟨(y - c.y).toNat, List.mem_range.2 (by omega), ?_⟩
        refine (mem_patchCols _ _ _ _ _ _).2 ⟨by omega, j, ch, h2, h3, by linarith, by linarith⟩
      | succ i =>
        right
        refine ⟨i, j, r', ch, by simpa using h1, h2, h3, h4, h5, ?_, ?_⟩
        · dsimp only at h6 ⊢; push_cast at h6; linarith
        · dsimp only at h7 ⊢; push_cast at h7; linarith

theorem patchCols_nodup (wS : Nat) (y x : Int) (r : List Char) :
    ((patchCols wS y x r).map Prod.fst).Nodup := by
  induction r generalizing x with
  | nil => simp [patchCols]
  | cons ch r ih =>
    rw [patchCols, List.map_append, List.nodup_append]
    refine ⟨?_, ih _, ?_⟩
    · rw [List.map_map, List.nodup_iff_pairwise_ne, List.pairwise_map]
      refine List.Pairwise.imp ?_ (List.pairwise_lt_range (n := wS))
      intro a b hab he
      have := congrArg Coord.x he
      simp at this
      omega
    · intro a ha b hb hab
      subst hab
      obtain ⟨⟨a1, o1⟩, h1, rfl⟩ := List.mem_map.1 ha
      obtain ⟨⟨a2, o2⟩, h2, he⟩ := List.mem_map.1 hb
      dsimp only at he
      subst he
      obtain ⟨i, hi, hie⟩ := List.mem_map.1 h1
      have hi' := List.mem_range.1 hi
      injection hie with e1 _
      obtain ⟨_, j, _, _, _, h4, _⟩ := (mem_patchCols _ _ _ _ _ _).1 h2
      have hx : a2.x = x + i := by rw [← e1]
      rw [hx] at h4
      have : 0 ≤ (j : Int) * wS := by positivity
      have : (i : Int) < wS := by exact_mod_cast hi'
      linarith

theorem patchRows_nodup (wS hS : Nat) (y : Int) (rows : List (List Char)) :
    ((patchRows wS hS y rows).map Prod.fst).Nodup := by
  induction rows generalizing y with
  | nil => simp [patchRows]
  | cons r rows ih =>
    rw [patchRows, List.map_append, List.nodup_append]
    refine ⟨?_, ih _, ?_⟩
    · generalize hS = n
      induction n with
      | zero => simp
      | succ n ihn =>
        rw [List.range_succ, List.flatMap_append, List.map_append, List.nodup_append]
        refine ⟨ihn, by simpa using patchCols_nodup wS _ 0 r, ?_⟩
        intro a ha b hb hab
        subst hab
        obtain ⟨⟨a1, o1⟩, h1, rfl⟩ := List.mem_map.1 ha
        obtain ⟨⟨a2, o2⟩, h2, he⟩ := List.mem_map.1 hb
        dsimp only at he
        subst he
        obtain ⟨i, hi, hie⟩ := List.mem_flatMap.1 h1
        have hi' := List.mem_range.1 hi
        have e1 := ((mem_patchCols _ _ _ _ _ _).1 hie).1
        simp only [List.flatMap_cons, List.flatMap_nil, List.append_nil] at h2
        have e2 := ((mem_patchCols _ _ _ _ _ _).1 h2).1
        omega
    · intro a ha b hb hab
      subst hab
      obtain ⟨⟨a1, o1⟩, h1, rfl⟩ := List.mem_map.1 ha
      obtain ⟨⟨a2, o2⟩, h2, he⟩ := List.mem_map.1 hb
      dsimp only at he
      subst he
      obtain ⟨i, hi, hie⟩ := List.mem_flatMap.1 h1
      have hi' := List.mem_range.1 hi
      have e1 := ((mem_patchCols _ _ _ _ _ _).1 hie).1
      obtain ⟨k, _, _, _, _, _, _, _, _, _, h7⟩ := (mem_patchRows _ _ _ _ _ _).1 h2
      have : 0 ≤ (k : Int) * hS := by positivity
      dsimp only at h7
      omega

theorem add_left_inj (o a b : Coord) : a.add o = b.add o ↔ a = b := by
  obtain ⟨ax, ay⟩ := a
  obtain ⟨bx, by'⟩ := b
  simp [Coord.add]

theorem applyPatches_spec {C : Type*} (upd : C → Bool → C) (o : Coord) (ps : List Patch)
    (hn : (ps.map Prod.fst).Nodup) (cells : Coord → C) :
    (∀ p ∈ ps, applyPatches upd o ps cells (p.1.add o) = upd (cells (p.1.add o)) p.2) ∧
      ∀ c, (∀ p ∈ ps, c ≠ p.1.add o) → applyPatches upd o ps cells c = cells c := by
  induction ps generalizing cells with
  | nil => exact ⟨by simp, fun c _ => rfl⟩
  | cons q ps ih =>
    rw [List.map_cons, List.nodup_cons] at hn
    have hstep : applyPatches upd o (q :: ps) cells = applyPatches upd o ps
        (fun c => if c = q.1.add o then upd (cells c) q.2 else cells c) := rfl
    obtain ⟨ih1, ih2⟩ := ih hn.2 (fun c => if c = q.1.add o then upd (cells c) q.2 else cells c)
    rw [hstep]
    constructor
    · intro p hp
      rcases List.mem_cons.1 hp with rfl | hp
      · rw [ih2]
        · simp
        · intro p' hp' he
          rw [add_left_inj] at he
          exact hn.1 (he ▸ List.mem_map_of_mem hp')
      · rw [ih1 p hp, if_neg]
        intro he
        rw [add_left_inj] at he
        exact hn.1 (he ▸ List.mem_map_of_mem hp)
    · intro c hc
      rw [ih2 c fun p hp => hc p (List.mem_cons_of_mem _ hp), if_neg (hc q (by simp))]

/-- **The patcher applies each character to exactly its cells (C52)**: after a text raster is applied at an offset with
zooms, every cell in the block of a character has been updated once, as occupied or, for a blank, as free; every cell
outside of all blocks is as it was. -/
theorem patch_applied {C : Type*} (upd : C → Bool → C) (o : Coord) (wZoom hZoom : Nat) (hw : 0 < wZoom)
    (hh : 0 < hZoom) (text : List Char) (cells : Coord → C) :
    ∃ cells', applyTextRaster upd (some o) wZoom hZoom text cells = some cells' ∧
      (∀ i j row ch, (textRows text)[i]? = some row → row[j]? = some ch → ∀ c, InBlock wZoom hZoom o c i j →
        cells' c = upd (cells c) (decide (ch ≠ ' '))) ∧
      ∀ c, (∀ i j row ch, (textRows text)[i]? = some row → row[j]? = some ch → ¬ InBlock wZoom hZoom o c i j) →
        cells' c = cells c := by
  have hsh : ∀ (c : Coord) (i j : Nat), InBlock wZoom hZoom ⟨0, 0⟩ (c.sub o) i j ↔ InBlock wZoom hZoom o c i j := by
    intro c i j
    simp only [InBlock, Coord.sub]
    constructor
    · rintro ⟨h1, h2, h3, h4⟩; exact ⟨by linarith, by linarith, by linarith, by linarith⟩
    · rintro ⟨h1, h2, h3, h4⟩; exact ⟨by linarith, by linarith, by linarith, by linarith⟩
  have hsub : ∀ c : Coord, (c.sub o).add o = c := by
    intro c; simp [Coord.add, Coord.sub]
  refine ⟨_, by rw [applyTextRaster, if_pos ⟨hw, hh⟩], ?_, ?_⟩
  · intro i j row ch hr hc c hb
    rw [← rows_of_text] at hr
    have hmem := (mem_patchRows wZoom hZoom 0 (rowsFrom [] text) (c.sub o) (charOcc ch)).2
      ⟨i, j, row, ch, hr, hc, rfl, (hsh c i j).2 hb⟩
    have := (applyPatches_spec upd o _ (patchRows_nodup wZoom hZoom 0 (rowsFrom [] text)) cells).1 _ hmem
    rw [hsub] at this
    simp only [offsetOf]
    rw [this]
    congr 1
    unfold charOcc
    by_cases e : ch = ' ' <;> simp [e]
  · intro c hc
    simp only [offsetOf]
    refine (applyPatches_spec upd o _ (patchRows_nodup wZoom hZoom 0 (rowsFrom [] text)) cells).2 c ?_
    rintro ⟨d, oc⟩ hp rfl
    obtain ⟨i, j, r, ch, h1, h2, _, h4⟩ := (mem_patchRows _ _ _ _ _ _).1 hp
    rw [rows_of_text] at h1
    refine hc i j r ch h1 h2 ((hsh _ i j).1 ?_)
    have : (Coord.sub (d.add o) o) = d := by simp [Coord.add, Coord.sub]
    rw [this]; exact h4

theorem rasterWidth_spec (rows : List (List Char)) :
    (∀ r ∈ rows, r.length ≤ rasterWidth rows) ∧ (rows ≠ [] → ∃ r ∈ rows, r.length = rasterWidth rows) := by
  suffices H : ∀ (rows : List (List Char)) (w : Nat),
      let m := rows.foldl (fun w r => max w r.length) w
      w ≤ m ∧ (∀ r ∈ rows, r.length ≤ m) ∧ (m = w ∨ ∃ r ∈ rows, r.length = m) by
    obtain ⟨h1, h2, h3⟩ := H rows 0
    refine ⟨h2, fun hne => ?_⟩
    rcases h3 with h3 | h3
    · obtain ⟨r, rs, rfl⟩ := List.exists_cons_of_ne_nil hne
      refine ⟨r, by simp, ?_⟩
      have := h2 r (by simp)
      unfold rasterWidth
      omega
    · exact h3
  intro rows
  induction rows with
  | nil => intro w; simp
  | cons r rows ih =>
    intro w
    obtain ⟨h1, h2, h3⟩ := ih (max w r.length)
    simp only [List.foldl_cons]
    refine ⟨le_trans (le_max_left _ _) h1, ?_, ?_⟩
    · intro r' hr'
      rcases List.mem_cons.1 hr' with rfl | hr'
      · exact le_trans (le_max_right _ _) h1
      · exact h2 r' hr'
    · rcases h3 with h3 | ⟨r', h3, h4⟩
      · rw [h3]
        rcases le_total w r.length with h | h
        · right; exact ⟨r, by simp, by rw [max_eq_right h]⟩
        · left; exact max_eq_left h
      · right; exact ⟨r', List.mem_cons_of_mem _ h3, h4⟩

/-- **Automatic alignment (C52)** puts a raster of `W` columns (its longest row) and `H` rows of cells at the columns
`-⌊W/2⌋ … W-⌊W/2⌋-1` and the rows `⌊H/2⌋ … ⌊H/2⌋-H+1`: horizontally the middle of the raster is within half a cell of
the middle of the world; vertically it is half a cell (odd `H`) or a whole cell (even `H`) above it. -/
theorem autoalign_centred {C : Type*} (upd : C → Bool → C) (wZoom hZoom : Nat) (text : List Char)
    (cells : Coord → C) (hw : 0 < wZoom) (hh : 0 < hZoom) :
    let rows := textRows text
    let o := offsetOf none wZoom hZoom rows
    applyTextRaster upd none wZoom hZoom text cells =
      applyTextRaster upd (some o) wZoom hZoom text cells ∧
    ∀ W, ((rows = [] ∧ W = 0) ∨ ((∃ r ∈ rows, r.length = W) ∧ ∀ r ∈ rows, r.length ≤ W)) →
      (o.x = -((wZoom * W / 2 : Nat) : Int) ∧ o.y = ((hZoom * rows.length / 2 : Nat) : Int)) := by
  intro rows o
  constructor
  · simp only [applyTextRaster, if_pos (And.intro hw hh), rows_of_text]
    rfl
  · intro W hW
    have hr : rasterWidth rows = W := by
      rcases hW with ⟨h1, h2⟩ | ⟨⟨r, h1, h2⟩, h3⟩
      · rw [h1, h2]; rfl
      · obtain ⟨a, b⟩ := rasterWidth_spec rows
        obtain ⟨r', hr', e⟩ := b (List.ne_nil_of_mem h1)
        have := a r h1
        have := h3 r' hr'
        omega
    have e1 : o.x = (-(wZoom : Int) * (W : Int)).tdiv 2 := by rw [← hr]; rfl
    have e2 : o.y = ((hZoom : Int) * (rows.length : Int)).tdiv 2 := rfl
    rw [e1, e2]
    constructor
    · rw [neg_mul, Int.neg_tdiv, Int.tdiv_eq_ediv_of_nonneg (by positivity)]
      push_cast
      rfl
    · rw [Int.tdiv_eq_ediv_of_nonneg (by positivity)]
      push_cast
      rfl

example : (applyTextRaster (fun _ b => b) (some ⟨2, 5⟩) 2 1 "+ \n ++\n\n+".toList (fun _ => true)).map
    (fun m => [m ⟨2, 5⟩, m ⟨3, 5⟩, m ⟨4, 5⟩, m ⟨5, 5⟩, m ⟨2, 4⟩, m ⟨4, 4⟩, m ⟨7, 4⟩, m ⟨2, 3⟩, m ⟨0, 5⟩]) =
    some [true, true, false, false, false, true, true, true, true] := by decide

example : InBlock 2 1 ⟨2, 5⟩ ⟨7, 4⟩ 1 2 := by unfold InBlock; decide

example : offsetOf none 1 1 (textRows "+++\n+ +\n".toList) = ⟨-1, 1⟩ := by
  rw [← rows_of_text]; decide

end Slam.Primitive
