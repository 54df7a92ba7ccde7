import Verif.Multires.Bound

/-!
# Operations on a multi-resolution map that always succeed, and observations that tell nothing

Support for C95: whatever is written, an operation of `MMap.step` succeeds and leaves a pyramid; and an observation a cell
ignores leaves all levels as they were, where unknown cells have the least impact.
-/

set_option autoImplicit false
set_option linter.unusedSectionVars false

namespace Slam.Multires
open Slam.Grid Slam.Rect

variable {K C O : Type*} [Field K] [LinearOrder K] [IsStrictOrderedRing K] [FloorRing K]

theorem addLevels_pyramid (api : CellApi K C O) (s : K) (N : Nat) (hN : 1 ≤ N) (m : MMap K C) (hp : Pyramid s N m) (g : Nat) :
    ∃ N', N ≤ N' ∧ Pyramid s N' (MMap.addLevels api m g) := by
  let api' : CellApi K C O := ⟨api.upd, fun _ => true, api.impact, api.proto⟩
  have hf : ∀ (t : Option K) (n : Nat), freshLevels api t n = freshLevels api' t n := by
    intro t n
    induction n generalizing t with
    | zero => rfl
    | succ n ih => simp only [freshLevels, ih]; rfl
  have he : MMap.addLevels api m g = MMap.addLevels api' m g := by
    simp only [MMap.addLevels, hf]
  have hi : Inv api' s N m := ⟨⟨N, le_rfl, hp⟩, fun l _ d hd => (by cases hd), fun j k a b _ _ _ _ d hd => (by cases hd)⟩
  rw [he]
  exact (addLevels_inv api' rfl s N hN m hi g).1.pyr

theorem addLevels_fine (api : CellApi K C O) (m : MMap K C) (c : Coord) (v : C) (g : Nat) :
    (MMap.addLevels api ⟨m.fine.set c v, m.coarse⟩ g).coarse = (MMap.addLevels api m g).coarse ∧
    (MMap.addLevels api m g).fine = m.fine := by
  refine ⟨?_, rfl⟩
  simp only [MMap.addLevels]
  cases hc : m.coarse with
  | nil => simp [MLevel.set]
  | cons x xs =>
    simp only [List.dropLast_cons_of_ne_nil (List.cons_ne_nil x xs)]
    cases hx : (x :: xs).dropLast with
    | nil => simp [MLevel.set]
    | cons y ys => simp [List.getLast?_cons]

/-- An operation always succeeds, whatever is written, and leaves a pyramid of at least as many levels. -/
theorem step_total (api : CellApi K C O) (s : K) (hs : 2 / 10 ^ 9 < s) (fuel : Nat) (hf : 1 ≤ fuel) (N : Nat) (hN : 1 ≤ N)
    (m : MMap K C) (hp : Pyramid s N m) (op : MOp C O) :
    ∃ m' N', m.step api fuel s op = some m' ∧ N ≤ N' ∧ Pyramid s N' m' := by
  obtain ⟨c, v, g, heff⟩ : ∃ c v g, op.effect api m = (c, v, g) := ⟨_, _, _, rfl⟩
  obtain ⟨N', hN', hq⟩ := addLevels_pyramid api s N hN m hp g
  obtain ⟨hcoarse, hfine⟩ := addLevels_fine api m c v g
  set q := MMap.addLevels api m g with hqd
  have hql : q.levels = m.fine :: q.coarse := by simp only [MMap.levels, hfine]
  obtain ⟨b, ls', p1, p2, p3, p4, p5, p6⟩ := propagate_spec api s hs fuel hf v c q.coarse (by
    intro l hl
    have hm : l ∈ q.levels := by rw [hql]; simp [hl]
    obtain ⟨i, hi, rfl⟩ := List.getElem_of_mem hm
    rcases hq.scale i _ (List.getElem?_eq_getElem hi) with ⟨_, e⟩ | ⟨_, e⟩
    · exact .inl ⟨i, e⟩
    · exact .inr e)
  refine ⟨⟨m.fine.set c v, ls'⟩, N', ?_, hN', ?_⟩
  · unfold MMap.step
    simp only [heff, hcoarse, p1, Option.map_some]
    rfl
  · unfold Pyramid at hq ⊢
    rw [← hq, hql]
    simp only [MMap.levels, List.map_cons, List.cons.injEq]
    refine ⟨rfl, ?_⟩
    apply List.ext_getElem?
    intro k
    simp only [List.getElem?_map]
    by_cases hk : k < q.coarse.length
    · have hl := List.getElem?_eq_getElem hk
      by_cases hkb : k < b
      · rw [(p4 k hkb _ hl).1, hl]; rfl
      · rw [p5 k (by omega)]
    · rw [List.getElem?_eq_none (by omega), List.getElem?_eq_none (by omega)]

theorem set_same (l : MLevel K C) (c : Coord) (v : C) (h : l.cells c = v) : l.set c v = l := by
  cases l with
  | mk sc cells =>
    simp only [MLevel.set, MLevel.mk.injEq, true_and]
    funext d
    by_cases hd : d = c
    · rw [if_pos hd, hd]; exact h.symm
    · rw [if_neg hd]

/-- An observation that an unknown cell ignores only adds levels, where unknown cells are prototypes and have no more impact
than others. -/
theorem step_ignored (api : CellApi K C O) (P : C → Prop) (s : K) (hs : 2 / 10 ^ 9 < s) (fuel : Nat) (hf : 1 ≤ fuel) (N : Nat)
    (hN : 1 ≤ N) (m : MMap K C) (hp : Pyramid s N m) (h0 : P api.proto) (hP : ∀ l ∈ m.levels, ∀ d, P (l.cells d))
    (hunk : ∀ v, P v → api.unknown v = true → v = api.proto) (hmin : ∀ v, P v → api.impact api.proto ≤ api.impact v)
    (c : Coord) (o : O) (g : Nat) (hign : api.upd (m.fine.cells c) o = m.fine.cells c)
    (hu : api.unknown (m.fine.cells c) = true) :
    m.step api fuel s (.update c o g) = some (MMap.addLevels api m g) := by
  have hv : m.fine.cells c = api.proto := hunk _ (hP _ (by simp [MMap.levels]) c) hu
  have heff : (MOp.update c o g : MOp C O).effect api m = (c, api.proto, g) := by
    show (c, api.upd (m.fine.cells c) o, g) = _
    rw [hign, hv]
  have hset : m.fine.set c api.proto = m.fine := set_same _ _ _ hv
  obtain ⟨N', hN', hq⟩ := addLevels_pyramid api s N hN m hp g
  set q := MMap.addLevels api m g with hqd
  have hfine : q.fine = m.fine := rfl
  have hql : q.levels = m.fine :: q.coarse := by simp only [MMap.levels, hfine]
  have hPq : ∀ l ∈ q.coarse, ∀ d, P (l.cells d) := by
    intro l hl d
    simp only [hqd, MMap.addLevels, List.mem_append] at hl
    rcases hl with (hl | hl) | hl
    · exact hP l (by simp [MMap.levels, List.mem_of_mem_dropLast hl]) d
    · rw [freshLevels_cells api _ _ l hl d]; exact h0
    · exact hP l (by simp [MMap.levels, List.mem_of_mem_drop hl]) d
  obtain ⟨b, ls', p1, p2, p3, p4, p5, p6⟩ := propagate_spec api s hs fuel hf api.proto c q.coarse (by
    intro l hl
    have hm : l ∈ q.levels := by rw [hql]; simp [hl]
    obtain ⟨i, hi, rfl⟩ := List.getElem_of_mem hm
    rcases hq.scale i _ (List.getElem?_eq_getElem hi) with ⟨_, e⟩ | ⟨_, e⟩
    · exact .inl ⟨i, e⟩
    · exact .inr e)
  have hls : ls' = q.coarse := by
    apply List.ext_getElem?
    intro k
    by_cases hk : k < q.coarse.length
    · have hl := List.getElem?_eq_getElem hk
      by_cases hkb : k < b
      · obtain ⟨e1, e2⟩ := p4 k hkb _ hl
        rw [e1, hl]
        congr 1
        apply set_same
        rcases e2 with e2 | e2
        · exact hunk _ (hPq _ (List.getElem_mem hk) _) e2
        · exfalso
          have h1 := lessOrEqual_false_lt e2
          have h2 := hmin _ (hPq _ (List.getElem_mem hk) (covering s (q.coarse[k]).scale c))
          have h3 : api.impact api.proto = api.impact ((q.coarse[k]).at s c) := le_antisymm h2 h1
          rw [h3] at e2
          have hp' : (0 : K) < 1 / 2 ^ 52 := by positivity
          simp only [lessOrEqual, less, Bool.or_eq_false_iff, decide_eq_false_iff_not, not_lt] at e2
          linarith [e2.2]
      · rw [p5 k (by omega)]
    · rw [List.getElem?_eq_none (by omega), List.getElem?_eq_none (by omega)]
  unfold MMap.step
  simp only [heff, hset]
  have : MMap.addLevels api ⟨m.fine, m.coarse⟩ g = q := rfl
  rw [this, p1, hls]
  rfl

end Slam.Multires
