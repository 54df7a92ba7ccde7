import Verif.Multires.BoundModel
import Verif.Rect.Raster
import Mathlib.Tactic.Linarith
import Mathlib.Tactic.Ring
import Mathlib.Tactic.Positivity
import Mathlib.Tactic.NormNum
import Mathlib.Tactic.FieldSimp

/-!
# C14: coarse levels bound the fine one
-/

set_option autoImplicit false
set_option linter.unusedSectionVars false

namespace Slam.Multires
open Slam.Grid Slam.Rect

variable {K C O : Type*} [Field K] [LinearOrder K] [IsStrictOrderedRing K] [FloorRing K]

/-! ## Specification -/

/-- The cell of a level of the given scale that contains the fine cell `c` of a map of scale `s`: the one its left
bottom corner is in. -/
def covering (s : K) (scale : Option K) (c : Coord) : Coord :=
  match scale with
  | none => ⟨0, 0⟩
  | some t => worldToCell t ⟨s * c.x, s * c.y⟩

/-- What level `l` says about the fine cell `c`. -/
def MLevel.at (s : K) (l : MLevel K C) (c : Coord) : C := l.cells (covering s l.scale c)

/-- All levels, from the finest to the coarsest. -/
def MMap.levels (m : MMap K C) : List (MLevel K C) := m.fine :: m.coarse

/-- The scales of a pyramid with `n` finite levels. -/
def Pyramid (s : K) (n : Nat) (m : MMap K C) : Prop :=
  m.levels.map (·.scale) = (List.range n).map (fun (i : Nat) => some (s * 2 ^ i)) ++ [none]

/-- A history in which every operation leaves a *known* cell with an impact in `[0, 1]` behind: valid observations and
resets to known cells. -/
def Valid (api : CellApi K C O) (op : MOp C O) : Prop :=
  match op with
  | .update _ o _ => ∀ v, api.unknown (api.upd v o) = false ∧ 0 ≤ api.impact (api.upd v o) ∧
      api.impact (api.upd v o) ≤ 1
  | .reset _ v _ => api.unknown v = false ∧ 0 ≤ api.impact v ∧ api.impact v ≤ 1

/-- The operation leaves a known cell with an impact in `[0, 1]` behind when it is applied to `m`. -/
def ValidAt (api : CellApi K C O) (m : MMap K C) (op : MOp C O) : Prop :=
  api.unknown (op.effect api m).2.1 = false ∧ 0 ≤ api.impact (op.effect api m).2.1 ∧
    api.impact (op.effect api m).2.1 ≤ 1

theorem Valid.at {api : CellApi K C O} {op : MOp C O} (h : Valid api op) (m : MMap K C) : ValidAt api m op := by
  cases op with
  | update c o g => exact h _
  | reset c v g => exact h

/-- The tolerance of one comparison of impacts (math_utils.h:14-20). -/
def tol : K := 1 / 10 ^ 7

/-! ## Covering cells -/

theorem covering_floor (s : K) (hs : 0 < s) (k : Nat) (c : Coord) :
    covering s (some (s * 2 ^ k)) c = ⟨c.x / 2 ^ k, c.y / 2 ^ k⟩ := by
  have key : ∀ x : Int, ⌊s * (x : K) / (s * 2 ^ k)⌋ = x / 2 ^ k := by
    intro x
    have hq : (0 : Int) < 2 ^ k := by positivity
    have hdm := Int.mul_ediv_add_emod x (2 ^ k)
    have hm0 := Int.emod_nonneg x hq.ne'
    have hm1 := Int.emod_lt_of_pos x hq
    have hx : (x : K) = 2 ^ k * ((x / 2 ^ k : Int) : K) + ((x % 2 ^ k : Int) : K) := by
      rw [← Int.cast_two, ← Int.cast_pow, ← Int.cast_mul, ← Int.cast_add, hdm]
    have hr0 : (0 : K) ≤ ((x % 2 ^ k : Int) : K) := by exact_mod_cast hm0
    have hr1 : ((x % 2 ^ k : Int) : K) < 2 ^ k := by exact_mod_cast hm1
    have hP : (0 : K) < 2 ^ k := by positivity
    rw [mul_div_mul_left _ _ hs.ne', Int.floor_eq_iff, le_div_iff₀ hP, div_lt_iff₀ hP, hx]
    constructor <;> nlinarith
  simp only [covering, worldToCell, key]

/-- A fine cell without its border is inside one cell of each coarser level. -/
theorem raster_covering (s : K) (hs : 2 / 10 ^ 9 < s) (k : Nat) (c : Coord) (fuel : Nat) (hf : 1 ≤ fuel)
    (dims : Dims) (origin : Coord) (sc : Option K) (hsc : sc = some (s * 2 ^ k) ∨ sc = none) :
    (RState.create ⟨dims, origin, sc⟩ (.finite (worldCellBounds s c)) false).toVector fuel =
      some [covering s sc c] := by
  have he : (0 : K) < 1 / 10 ^ 9 := by positivity
  have he2 : (2 : K) / 10 ^ 9 = 1 / 10 ^ 9 + 1 / 10 ^ 9 := by ring
  have hs0 : 0 < s := by rw [he2] at hs; linarith
  have ha : area (worldCellBounds s c) ≠ 0 := by
    have : area (worldCellBounds s c) = s * s := by
      simp only [area, vside, hside, worldCellBounds]; ring
    rw [this]; positivity
  have hcr : ∃ d : Coord, covering s sc c = d ∧
      RState.create ⟨dims, origin, sc⟩ (.finite (worldCellBounds s c)) false = ⟨d, d, d.x, d.y⟩ := by
    refine ⟨covering s sc c, rfl, ?_⟩
    rcases hsc with rfl | rfl
    · rw [covering_floor s hs0]
      have hp : (0 : K) < s * 2 ^ k := by positivity
      have f1 : ∀ x : Int, ⌊(s * (x : K) + 1 / 10 ^ 9) / (s * 2 ^ k)⌋ = x / 2 ^ k := by
        intro x
        have hq : (0 : Int) < 2 ^ k := by positivity
        have hdm := Int.mul_ediv_add_emod x (2 ^ k)
        have hm0 := Int.emod_nonneg x hq.ne'
        have hm1 := Int.emod_lt_of_pos x hq
        have hx : (x : K) = 2 ^ k * ((x / 2 ^ k : Int) : K) + ((x % 2 ^ k : Int) : K) := by
          rw [← Int.cast_two, ← Int.cast_pow, ← Int.cast_mul, ← Int.cast_add, hdm]
        have hr0 : (0 : K) ≤ ((x % 2 ^ k : Int) : K) := by exact_mod_cast hm0
        have hr1 : ((x % 2 ^ k : Int) : K) + 1 ≤ 2 ^ k := by
          have : x % 2 ^ k + 1 ≤ 2 ^ k := hm1
          exact_mod_cast this
        rw [Int.floor_eq_iff, le_div_iff₀ hp, div_lt_iff₀ hp, hx]
        generalize ((x / 2 ^ k : Int) : K) = q at *
        generalize ((x % 2 ^ k : Int) : K) = r at *
        generalize (2 : K) ^ k = P at *
        have t1 : 0 ≤ s * r := mul_nonneg hs0.le hr0
        have t2 : s * (r + 1) ≤ s * P := mul_le_mul_of_nonneg_left hr1 hs0.le
        constructor
        · have : q * (s * P) = s * (P * q) := by ring
          rw [this, mul_add]; linarith
        · have : (q + 1) * (s * P) = s * (P * q) + s * P := by ring
          rw [this, mul_add]
          rw [mul_add, mul_one] at t2
          linarith
      have f2 : ∀ x : Int, ⌊(s * ((x : K) + 1) - 1 / 10 ^ 9) / (s * 2 ^ k)⌋ = x / 2 ^ k := by
        intro x
        have hq : (0 : Int) < 2 ^ k := by positivity
        have hdm := Int.mul_ediv_add_emod x (2 ^ k)
        have hm0 := Int.emod_nonneg x hq.ne'
        have hm1 := Int.emod_lt_of_pos x hq
        have hx : (x : K) = 2 ^ k * ((x / 2 ^ k : Int) : K) + ((x % 2 ^ k : Int) : K) := by
          rw [← Int.cast_two, ← Int.cast_pow, ← Int.cast_mul, ← Int.cast_add, hdm]
        have hr0 : (0 : K) ≤ ((x % 2 ^ k : Int) : K) := by exact_mod_cast hm0
        have hr1 : ((x % 2 ^ k : Int) : K) + 1 ≤ 2 ^ k := by
          have : x % 2 ^ k + 1 ≤ 2 ^ k := hm1
          exact_mod_cast this
        rw [Int.floor_eq_iff, le_div_iff₀ hp, div_lt_iff₀ hp, hx]
        generalize ((x / 2 ^ k : Int) : K) = q at *
        generalize ((x % 2 ^ k : Int) : K) = r at *
        generalize (2 : K) ^ k = P at *
        have t1 : 0 ≤ s * r := mul_nonneg hs0.le hr0
        have t2 : s * (r + 1) ≤ s * P := mul_le_mul_of_nonneg_left hr1 hs0.le
        rw [mul_add, mul_one] at t2
        constructor
        · have e1 : q * (s * P) = s * (P * q) := by ring
          have e2 : s * (P * q + r + 1) = s * (P * q) + s * r + s := by ring
          rw [e1, e2]; linarith
        · have e1 : (q + 1) * (s * P) = s * (P * q) + s * P := by ring
          have e2 : s * (P * q + r + 1) = s * (P * q) + s * r + s := by ring
          rw [e1, e2]
          linarith
      simp only [RState.create, if_neg ha, Bool.false_eq_true, if_false, GridView.worldToCell, worldToCell]
      simp only [worldCellBounds, f1, f2]
    · simp only [RState.create, if_neg ha, GridView.worldToCell, covering]
  obtain ⟨d, h1, h2⟩ := hcr
  rw [h1, h2]
  obtain ⟨f, rfl⟩ : ∃ f, fuel = f + 1 := ⟨fuel - 1, by omega⟩
  unfold RState.toVector
  simp only [RState.hasNext, RState.next]
  unfold RState.toVector
  simp [RState.hasNext]

/-! ## One propagation -/

theorem processLevel_spec (api : CellApi K C O) (s : K) (hs : 2 / 10 ^ 9 < s) (fuel : Nat) (hf : 1 ≤ fuel) (v : C)
    (c : Coord) (l : MLevel K C) (hl : (∃ k : Nat, l.scale = some (s * 2 ^ k)) ∨ l.scale = none) :
    processLevel api fuel v (worldCellBounds s c) l = some (visit api v (l, false) (covering s l.scale c)) := by
  obtain ⟨k, hk⟩ : ∃ k : Nat, l.scale = some (s * 2 ^ k) ∨ l.scale = none := by
    rcases hl with ⟨k, h⟩ | h
    · exact ⟨k, .inl h⟩
    · exact ⟨0, .inr h⟩
  unfold processLevel
  rw [raster_covering s hs k c fuel hf _ _ _ hk]
  simp

/-- The effect of a propagation: the levels below some number `b` get the value, level `b` (if any) does not need it. -/
theorem propagate_spec (api : CellApi K C O) (s : K) (hs : 2 / 10 ^ 9 < s) (fuel : Nat) (hf : 1 ≤ fuel) (v : C)
    (c : Coord) (ls : List (MLevel K C))
    (hl : ∀ l ∈ ls, (∃ k : Nat, l.scale = some (s * 2 ^ k)) ∨ l.scale = none) :
    ∃ b ls', propagate api fuel v (worldCellBounds s c) ls = some ls' ∧ b ≤ ls.length ∧ ls'.length = ls.length ∧
      (∀ k, k < b → ∀ l, ls[k]? = some l → ls'[k]? = some (l.set (covering s l.scale c) v) ∧
        (api.unknown (l.at s c) = true ∨ lessOrEqual (api.impact v) (api.impact (l.at s c)) = false)) ∧
      (∀ k, b ≤ k → ls'[k]? = ls[k]?) ∧
      (∀ l, ls[b]? = some l → api.unknown (l.at s c) = false ∧
        lessOrEqual (api.impact v) (api.impact (l.at s c)) = true) := by
  induction ls with
  | nil => exact ⟨0, [], rfl, le_rfl, rfl, by simp, by simp, by simp⟩
  | cons l ls ih =>
    have hp := processLevel_spec api s hs fuel hf v c l (hl l (by simp))
    by_cases hv : (!api.unknown (l.at s c) && lessOrEqual (api.impact v) (api.impact (l.at s c))) = true
    · have hvis : visit api v (l, false) (covering s l.scale c) = (l, false) := by
        unfold visit
        exact if_pos hv
      refine ⟨0, l :: ls, ?_, by simp, rfl, by simp, by simp, ?_⟩
      · simp [propagate, hp, hvis]
      · intro l' hl'
        simp at hl'
        subst hl'
        simpa using hv
    · have hvis : visit api v (l, false) (covering s l.scale c) = (l.set (covering s l.scale c) v, true) := by
        unfold visit
        exact if_neg hv
      obtain ⟨b, ls', h1, h2, h3, h4, h5, h6⟩ := ih fun l' hl' => hl l' (by simp [hl'])
      refine ⟨b + 1, l.set (covering s l.scale c) v :: ls', ?_, by simp; omega, by simp [h3], ?_, ?_, ?_⟩
      · simp [propagate, hp, hvis, h1]
      · intro k hk l' hl'
        cases k with
        | zero =>
          simp at hl'
          subst hl'
          refine ⟨by simp, ?_⟩
          simp only [Bool.and_eq_true, Bool.not_eq_true', not_and, Bool.not_eq_true] at hv
          cases hu : api.unknown (l.at s c) with
          | true => exact .inl rfl
          | false => exact .inr (hv hu)
        | succ k => simpa using h4 k (by omega) l' (by simpa using hl')
      · intro k hk
        cases k with
        | zero => omega
        | succ k => simpa using h5 k (by omega)
      · intro l' hl'
        exact h6 l' (by simpa using hl')

theorem lessOrEqual_false_lt {a b : K} (h : lessOrEqual a b = false) : b ≤ a := by
  have hp : (0 : K) < 1 / 2 ^ 52 := by positivity
  simp only [lessOrEqual, less, Bool.or_eq_false_iff, decide_eq_false_iff_not, not_lt] at h
  linarith [h.2]

theorem lessOrEqual_tol {a b : K} (h : lessOrEqual a b = true) (ha : 0 ≤ a ∧ a ≤ 1) (hb : 0 ≤ b ∧ b ≤ 1) :
    a ≤ b + tol := by
  have hp : (1 : K) / 2 ^ 52 ≤ tol := by unfold tol; norm_num
  simp only [lessOrEqual, areEqual, less, Bool.or_eq_true, decide_eq_true_eq] at h
  rcases h with h | h
  · have h1 : max 1 (max |a| |b|) = 1 := by
      rw [abs_of_nonneg ha.1, abs_of_nonneg hb.1]
      exact max_eq_left (max_le ha.2 hb.2)
    rw [h1, mul_one] at h
    have := (abs_le.1 h).2
    unfold tol
    linarith
  · linarith

/-! ## The invariant -/

/-- Level `a` is bounded by level `b` up to `d` comparison tolerances: where `a` is known, so is `b`, and its impact
is not less. -/
def BoundedBy (api : CellApi K C O) (s : K) (d : Nat) (a b : MLevel K C) : Prop :=
  ∀ c, api.unknown (a.at s c) = false →
    api.unknown (b.at s c) = false ∧ api.impact (a.at s c) ≤ api.impact (b.at s c) + d * tol

/-- Known cells have impacts in `[0, 1]`. -/
def Sane (api : CellApi K C O) (l : MLevel K C) : Prop :=
  ∀ d, api.unknown (l.cells d) = false → 0 ≤ api.impact (l.cells d) ∧ api.impact (l.cells d) ≤ 1

/-- The invariant of the map with `n` initial finite levels: every level is bounded by every later initial level and
by the coarsest one. -/
structure Inv (api : CellApi K C O) (s : K) (n : Nat) (m : MMap K C) : Prop where
  pyr : ∃ N, n ≤ N ∧ Pyramid s N m
  sane : ∀ l ∈ m.levels, Sane api l
  bnd : ∀ (j k : Nat) (a b : MLevel K C), j < k → (k < n ∨ k + 1 = m.levels.length) →
    m.levels[j]? = some a → m.levels[k]? = some b → BoundedBy api s (k - j) a b

theorem Pyramid.length {s : K} {n : Nat} {m : MMap K C} (h : Pyramid s n m) : m.levels.length = n + 1 := by
  have := congrArg List.length h
  simpa using this

theorem Pyramid.scale {s : K} {n : Nat} {m : MMap K C} (h : Pyramid s n m) (i : Nat) (l : MLevel K C)
    (hl : m.levels[i]? = some l) : (i < n ∧ l.scale = some (s * 2 ^ i)) ∨ (i = n ∧ l.scale = none) := by
  have hi : (m.levels.map (·.scale))[i]? = some l.scale := by simp [hl]
  rw [h] at hi
  have hlen : i < n + 1 := by
    by_contra hc
    rw [List.getElem?_eq_none (by rw [h.length]; omega)] at hl
    simp at hl
  by_cases hin : i < n
  · left
    refine ⟨hin, ?_⟩
    simp [List.getElem?_append_left, hin] at hi
    exact hi.symm
  · right
    have hin' : i = n := by omega
    subst hin'
    refine ⟨rfl, ?_⟩
    simp at hi
    exact hi.symm

theorem freshLevels_scales (api : CellApi K C O) (t : K) (n : Nat) :
    (freshLevels api (some t) n).map (·.scale) = (List.range n).map (fun (i : Nat) => some (t * 2 ^ (i + 1))) := by
  induction n generalizing t with
  | zero => simp [freshLevels]
  | succ n ih =>
    simp only [freshLevels, Option.map_some, List.map_cons, ih, List.range_succ_eq_map, List.map_map]
    simp only [zero_add, pow_one, List.cons.injEq, true_and]
    apply List.map_congr_left
    intro i _
    simp only [Function.comp, Nat.succ_eq_add_one, Option.some.injEq]
    ring

theorem freshLevels_length (api : CellApi K C O) (t : Option K) (n : Nat) : (freshLevels api t n).length = n := by
  induction n generalizing t with
  | zero => rfl
  | succ n ih => simp [freshLevels, ih]

theorem freshLevels_cells (api : CellApi K C O) (t : Option K) (n : Nat) (l : MLevel K C)
    (h : l ∈ freshLevels api t n) (c : Coord) : l.cells c = api.proto := by
  induction n generalizing t with
  | zero => simp [freshLevels] at h
  | succ n ih =>
    simp only [freshLevels, List.mem_cons] at h
    rcases h with rfl | h
    · rfl
    · exact ih _ h

theorem create_inv (api : CellApi K C O) (hproto : api.unknown api.proto = true) (s : K) (n : Nat) (hn : 1 ≤ n) :
    Inv api s n (MMap.create api s n) := by
  have hcells : ∀ l ∈ (MMap.create api s n).levels, ∀ c, l.cells c = api.proto := by
    intro l hl c
    simp only [MMap.levels, MMap.create, List.mem_cons, List.mem_append, List.not_mem_nil, or_false] at hl
    rcases hl with rfl | hl | rfl
    · rfl
    · exact freshLevels_cells api _ _ l hl c
    · rfl
  refine ⟨⟨n, le_rfl, ?_⟩, ?_, ?_⟩
  · obtain ⟨k, rfl⟩ : ∃ k, n = k + 1 := ⟨n - 1, by omega⟩
    simp only [Pyramid, MMap.levels, MMap.create, List.map_cons, List.map_append, Nat.add_sub_cancel,
      freshLevels_scales, List.range_succ_eq_map, List.map_map]
    simp only [pow_zero, mul_one, List.cons_append, List.cons.injEq, true_and, List.map_nil]
    rfl
  · intro l hl d hd
    rw [hcells l hl, hproto] at hd
    cases hd
  · intro j k a b _ _ ha _ c hc
    unfold MLevel.at at hc
    rw [hcells a (List.mem_of_getElem? ha), hproto] at hc
    cases hc

/-- Adding unknown levels below the coarsest one keeps the invariant. -/
theorem addLevels_inv (api : CellApi K C O) (hproto : api.unknown api.proto = true) (s : K) (n : Nat) (hn : 1 ≤ n)
    (m : MMap K C) (h : Inv api s n m) (g : Nat) : Inv api s n (MMap.addLevels api m g) ∧
      (MMap.addLevels api m g).fine = m.fine := by
  obtain ⟨⟨N, hN, hp⟩, hsane, hbnd⟩ := h
  have hlen := hp.length
  have hcl : m.coarse.length = N := by
    simp only [MMap.levels, List.length_cons] at hlen; omega
  have hNpos : 0 < N := by omega
  have hne : m.coarse ≠ [] := by intro hc; rw [hc] at hcl; simp at hcl; omega
  -- the last level
  obtain ⟨last, hlast⟩ : ∃ last, m.coarse = m.coarse.dropLast ++ [last] :=
    ⟨m.coarse.getLast hne, (List.dropLast_append_getLast hne).symm⟩
  have hdrop : m.coarse.drop (m.coarse.length - 1) = [last] := by
    conv_lhs => rw [hlast]
    rw [List.drop_append]
    simp
  have hdl : m.coarse.dropLast.length = N - 1 := by rw [List.length_dropLast, hcl]
  have hpre : (m.fine :: m.coarse).dropLast = m.fine :: m.coarse.dropLast := List.dropLast_cons_of_ne_nil hne
  -- the scale to continue
  have hsc : ((m.fine :: m.coarse).dropLast.getLast?).bind (·.scale) = some (s * 2 ^ (N - 1)) := by
    have hidx : (m.fine :: m.coarse).dropLast.getLast? = m.levels[N - 1]? := by
      rw [List.getLast?_eq_getElem?, hpre]
      simp only [List.length_cons, hdl, MMap.levels]
      rw [show N - 1 + 1 - 1 = N - 1 by omega]
      conv_rhs => rw [hlast]
      rw [← List.cons_append, List.getElem?_append_left (by simp [hdl])]
    have hlt : N - 1 < m.levels.length := by omega
    rw [hidx, List.getElem?_eq_getElem hlt, Option.bind_some]
    rcases hp.scale (N - 1) _ (List.getElem?_eq_getElem hlt) with ⟨_, e⟩ | ⟨e, _⟩
    · exact e
    · omega
  have hlv : (MMap.addLevels api m g).levels =
      (m.fine :: m.coarse.dropLast) ++ freshLevels api (some (s * 2 ^ (N - 1))) g ++ [last] := by
    simp only [MMap.levels, MMap.addLevels, hsc, hdrop]
    simp
  have hold : m.levels = (m.fine :: m.coarse.dropLast) ++ [last] := by
    simp only [MMap.levels]
    conv_lhs => rw [hlast]
    simp
  have hlastlvl : m.levels[N]? = some last := by
    have hA' : (m.fine :: m.coarse.dropLast).length = N := by simp [hdl]; omega
    rw [hold, List.getElem?_append_right (by omega), hA']
    simp
  have hA : (m.fine :: m.coarse.dropLast).length = N := by simp [hdl]; omega
  refine ⟨⟨⟨N + g, by omega, ?_⟩, ?_, ?_⟩, rfl⟩
  · unfold Pyramid at hp ⊢
    rw [hold, List.map_append] at hp
    have hp1 : (m.fine :: m.coarse.dropLast).map (·.scale) = (List.range N).map (fun (i : Nat) => some (s * 2 ^ i)) :=
      (List.append_inj hp (by simp [hdl]; omega)).1
    have hp2 : last.scale = none := by
      have := (List.append_inj hp (by simp [hdl]; omega)).2
      simpa using this
    rw [hlv, List.map_append, List.map_append, hp1, freshLevels_scales, List.range_add, List.map_append, List.map_map]
    simp only [List.map_cons, List.map_nil, hp2]
    congr 2
    apply List.map_congr_left
    intro i _
    simp only [Function.comp, Option.some.injEq]
    rw [mul_assoc, ← pow_add]
    congr 2
    omega
  · intro l hl
    rw [hlv, List.mem_append, List.mem_append] at hl
    rcases hl with (hl | hl) | hl
    · exact hsane l (by rw [hold]; simp only [List.mem_append]; exact .inl hl)
    · intro d hd
      rw [freshLevels_cells api _ _ l hl, hproto] at hd
      cases hd
    · exact hsane l (by rw [hold]; simp only [List.mem_append]; exact .inr hl)
  · intro j k a b hjk hk ha hb
    have hlen' : (MMap.addLevels api m g).levels.length = N + g + 1 := by
      rw [hlv]; simp only [List.length_append, hA, freshLevels_length, List.length_cons, List.length_nil]
    -- a new level is unknown everywhere
    by_cases hjnew : N ≤ j ∧ j < N + g
    · intro c hc
      have : a ∈ freshLevels api (some (s * 2 ^ (N - 1))) g := by
        rw [hlv, List.append_assoc, List.getElem?_append_right (by omega), hA,
          List.getElem?_append_left (by rw [freshLevels_length]; omega)] at ha
        exact List.mem_of_getElem? ha
      unfold MLevel.at at hc
      rw [freshLevels_cells api _ _ a this, hproto] at hc
      cases hc
    · have hjN : j < N := by
        have : k < N + g + 1 := by
          by_contra hc
          rw [List.getElem?_eq_none (by omega)] at hb
          simp at hb
        omega
      have ha' : m.levels[j]? = some a := by
        rw [hlv, List.append_assoc, List.getElem?_append_left (by omega)] at ha
        rw [hold, List.getElem?_append_left (by omega)]
        exact ha
      by_cases hkN : k < N
      · have hb' : m.levels[k]? = some b := by
          rw [hlv, List.append_assoc, List.getElem?_append_left (by omega)] at hb
          rw [hold, List.getElem?_append_left (by omega)]
          exact hb
        exact hbnd j k a b hjk (by rw [hlen'] at hk; omega) ha' hb'
      · -- the coarsest
        have hkL : k = N + g := by rw [hlen'] at hk; omega
        have hbl : b = last := by
          rw [hlv, List.getElem?_append_right (by simp only [List.length_append, hA, freshLevels_length]; omega)] at hb
          simp only [List.length_append, hA, freshLevels_length] at hb
          rw [show k - (N + g) = 0 by omega] at hb
          simp at hb
          exact hb.symm
        subst hbl
        intro c hc
        obtain ⟨u1, u2⟩ := hbnd j N a b (by omega) (.inr (by omega)) ha' hlastlvl c hc
        refine ⟨u1, le_trans u2 ?_⟩
        have htol : (0 : K) ≤ tol := by unfold tol; positivity
        have : ((N - j : Nat) : K) ≤ ((k - j : Nat) : K) := by exact_mod_cast (by omega : N - j ≤ k - j)
        nlinarith

/-! ## The property -/

theorem set_at_same (s : K) (l : MLevel K C) (c d : Coord) (v : C) (h : covering s l.scale d = covering s l.scale c) :
    (l.set (covering s l.scale c) v).at s d = v := by
  unfold MLevel.at MLevel.set
  simp only [h, if_true]

theorem set_at_other (s : K) (l : MLevel K C) (c d : Coord) (v : C)
    (h : covering s l.scale d ≠ covering s l.scale c) : (l.set (covering s l.scale c) v).at s d = l.at s d := by
  unfold MLevel.at MLevel.set
  simp only [if_neg h]

/-- In a pyramid, cells that share the covering cell at one level share it at every coarser one. -/
theorem covering_coarser (s : K) (hs : 0 < s) (N : Nat) (m : MMap K C) (hp : Pyramid s N m) (j k : Nat)
    (a b : MLevel K C) (hjk : j ≤ k) (ha : m.levels[j]? = some a) (hb : m.levels[k]? = some b) (c d : Coord)
    (h : covering s a.scale d = covering s a.scale c) : covering s b.scale d = covering s b.scale c := by
  rcases hp.scale k b hb with ⟨h1, h2⟩ | ⟨h1, h2⟩
  · rcases hp.scale j a ha with ⟨g1, g2⟩ | ⟨g1, g2⟩
    · rw [g2, covering_floor s hs, covering_floor s hs] at h
      rw [h2, covering_floor s hs, covering_floor s hs]
      have e : ∀ x : Int, x / 2 ^ k = x / 2 ^ j / 2 ^ (k - j) := by
        intro x
        rw [Int.ediv_ediv_of_nonneg (by positivity), ← pow_add, show j + (k - j) = k by omega]
      injection h with e1 e2
      rw [e d.x, e d.y, e c.x, e c.y, e1, e2]
    · omega
  · rw [h2]; rfl

theorem step_inv (api : CellApi K C O) (hproto : api.unknown api.proto = true) (s : K) (hs : 2 / 10 ^ 9 < s) (n : Nat)
    (hn : 1 ≤ n) (fuel : Nat) (hf : 1 ≤ fuel) (m : MMap K C) (h : Inv api s n m) (op : MOp C O) (hop : ValidAt api m op) :
    ∃ m', m.step api fuel s op = some m' ∧ Inv api s n m' := by
  have he2 : (0 : K) < 2 / 10 ^ 9 := by positivity
  have hs0 : 0 < s := lt_trans he2 hs
  obtain ⟨c, v, g, heff, hvk, hv01⟩ : ∃ c v g, op.effect api m = (c, v, g) ∧ api.unknown v = false ∧
      (0 ≤ api.impact v ∧ api.impact v ≤ 1) := by
    exact ⟨_, _, _, rfl, hop.1, hop.2⟩
  -- add the levels first; it commutes with writing the fine cell
  obtain ⟨hinv, hfine⟩ := addLevels_inv api hproto s n hn m h g
  set q := MMap.addLevels api m g with hq
  have hcoarse : (MMap.addLevels api ⟨m.fine.set c v, m.coarse⟩ g).coarse = q.coarse := by
    simp only [hq, MMap.addLevels]
    cases hc : m.coarse with
    | nil => simp [MLevel.set]
    | cons x xs =>
      simp only [List.dropLast_cons_of_ne_nil (List.cons_ne_nil x xs)]
      cases hx : (x :: xs).dropLast with
      | nil => simp [MLevel.set]
      | cons y ys => simp [List.getLast?_cons]
  obtain ⟨⟨N, hN, hp⟩, hsane, hbnd⟩ := hinv
  have hlen := hp.length
  have hql : q.levels = m.fine :: q.coarse := by simp only [MMap.levels, hfine]
  obtain ⟨b, ls', p1, p2, p3, p4, p5, p6⟩ := propagate_spec api s hs fuel hf v c q.coarse (by
    intro l hl
    have hm : l ∈ q.levels := by rw [hql]; simp [hl]
    obtain ⟨i, hi, rfl⟩ := List.getElem_of_mem hm
    rcases hp.scale i _ (List.getElem?_eq_getElem hi) with ⟨_, e⟩ | ⟨_, e⟩
    · exact .inl ⟨i, e⟩
    · exact .inr e)
  refine ⟨⟨m.fine.set c v, ls'⟩, ?_, ?_⟩
  · unfold MMap.step
    simp only [heff, hcoarse, p1, Option.map_some]
    rfl
  -- uniform description of the new levels: below `b + 1` written, from there on untouched
  have hf0 : q.levels[0]? = some m.fine := by rw [hql]; rfl
  have hfs : m.fine.scale = some s := by
    rcases hp.scale 0 _ hf0 with ⟨_, e⟩ | ⟨e, _⟩
    · simpa using e
    · omega
  have hcov0 : covering s m.fine.scale c = c := by
    rw [hfs]
    have := covering_floor s hs0 0 c
    simpa using this
  have hlen' : (MMap.levels ⟨m.fine.set c v, ls'⟩).length = N + 1 := by
    simp only [MMap.levels, List.length_cons, p3]
    rw [hql] at hlen
    simpa using hlen
  have hnew : ∀ (k : Nat) (l : MLevel K C), q.levels[k]? = some l →
      (k ≤ b → (MMap.levels ⟨m.fine.set c v, ls'⟩)[k]? = some (l.set (covering s l.scale c) v)) ∧
      (b < k → (MMap.levels ⟨m.fine.set c v, ls'⟩)[k]? = some l) := by
    intro k l hl
    cases k with
    | zero =>
      rw [hf0] at hl
      injection hl with hl
      subst hl
      exact ⟨fun _ => by simp [MMap.levels, hcov0], by omega⟩
    | succ k =>
      rw [hql] at hl
      simp only [List.getElem?_cons_succ] at hl
      constructor
      · intro hk
        simp only [MMap.levels, List.getElem?_cons_succ]
        exact (p4 k (by omega) l hl).1
      · intro hk
        simp only [MMap.levels, List.getElem?_cons_succ]
        rw [p5 k (by omega), hl]
  have hback : ∀ (k : Nat) (l' : MLevel K C), (MMap.levels ⟨m.fine.set c v, ls'⟩)[k]? = some l' → ∃ l : MLevel K C, q.levels[k]? = some l := by
    intro k l' hl'
    have : k < N + 1 := by
      by_contra hc
      rw [List.getElem?_eq_none (by omega)] at hl'
      simp at hl'
    exact ⟨_, List.getElem?_eq_getElem (by omega)⟩
  have hrise : ∀ (k : Nat) (l : MLevel K C), 1 ≤ k → k ≤ b → q.levels[k]? = some l → api.unknown (l.at s c) = false →
      api.impact (l.at s c) ≤ api.impact v := by
    intro k l h1 h2 hl hu
    obtain ⟨k, rfl⟩ : ∃ k', k = k' + 1 := ⟨k - 1, by omega⟩
    rw [hql] at hl
    simp only [List.getElem?_cons_succ] at hl
    rcases (p4 k (by omega) l hl).2 with e | e
    · rw [hu] at e; cases e
    · exact lessOrEqual_false_lt e
  have hstop : ∀ l, q.levels[b + 1]? = some l → api.unknown (l.at s c) = false ∧
      api.impact v ≤ api.impact (l.at s c) + tol := by
    intro l hl
    have hl2 : q.coarse[b]? = some l := by rw [hql] at hl; simpa using hl
    obtain ⟨e1, e2⟩ := p6 l hl2
    have hm : l ∈ q.levels := List.mem_of_getElem? hl
    exact ⟨e1, lessOrEqual_tol e2 hv01 (hsane l hm _ e1)⟩
  have htol : (0 : K) ≤ tol := by unfold tol; positivity
  have tolmono : ∀ (x y : Nat), x ≤ y → (x : K) * tol ≤ (y : K) * tol := by
    intro x y hxy
    exact mul_le_mul_of_nonneg_right (by exact_mod_cast hxy) htol
  refine ⟨⟨N, hN, ?_⟩, ?_, ?_⟩
  · unfold Pyramid at hp ⊢
    rw [← hp]
    apply List.ext_getElem?
    intro k
    simp only [List.getElem?_map]
    by_cases hk : k < N + 1
    · have hl := List.getElem?_eq_getElem (l := q.levels) (show k < q.levels.length by omega)
      by_cases hkb : k ≤ b
      · rw [(hnew k _ hl).1 hkb, hl]; rfl
      · rw [(hnew k _ hl).2 (by omega), hl]
    · rw [List.getElem?_eq_none (by omega), List.getElem?_eq_none (by omega)]
  · intro l' hl' d hd
    obtain ⟨k, hk, rfl⟩ := List.getElem_of_mem hl'
    obtain ⟨l, hl⟩ := hback k _ (List.getElem?_eq_getElem hk)
    by_cases hkb : k ≤ b
    · have e := (hnew k l hl).1 hkb
      rw [List.getElem?_eq_getElem hk] at e
      injection e with e
      rw [e] at hd ⊢
      unfold MLevel.set at hd ⊢
      simp only at hd ⊢
      by_cases hdc : d = covering s l.scale c
      · rw [if_pos hdc] at hd ⊢; exact hv01
      · rw [if_neg hdc] at hd ⊢; exact hsane l (List.mem_of_getElem? hl) d hd
    · have e := (hnew k l hl).2 (by omega)
      rw [List.getElem?_eq_getElem hk] at e
      injection e with e
      rw [e] at hd ⊢
      exact hsane l (List.mem_of_getElem? hl) d hd
  · intro j k a' b' hjk hk ha' hb' d hd
    rw [hlen'] at hk
    obtain ⟨a, ha⟩ := hback j a' ha'
    obtain ⟨bb, hbb⟩ := hback k b' hb'
    have hkq : k < n ∨ k + 1 = q.levels.length := by omega
    have old := hbnd j k a bb hjk hkq ha hbb
    -- the upper level where it is written
    have upper : ∀ x : K, (k ≤ b → covering s bb.scale d = covering s bb.scale c →
          x ≤ api.impact v + ((k - j : Nat) : K) * tol) →
        ((b < k ∨ covering s bb.scale d ≠ covering s bb.scale c) → api.unknown (bb.at s d) = false ∧
          x ≤ api.impact (bb.at s d) + ((k - j : Nat) : K) * tol) →
        api.unknown (b'.at s d) = false ∧ x ≤ api.impact (b'.at s d) + ((k - j : Nat) : K) * tol := by
      intro x hx1 hx2
      by_cases hkb : k ≤ b
      · have e := (hnew k bb hbb).1 hkb
        rw [hb'] at e
        injection e with e
        by_cases hcv : covering s bb.scale d = covering s bb.scale c
        · rw [e, set_at_same s bb c d v hcv]
          exact ⟨hvk, hx1 hkb hcv⟩
        · rw [e, set_at_other s bb c d v hcv]
          exact hx2 (.inr hcv)
      · have e := (hnew k bb hbb).2 (by omega)
        rw [hb'] at e
        injection e with e
        rw [e]
        exact hx2 (.inl (by omega))
    by_cases hjw : j ≤ b ∧ covering s a.scale d = covering s a.scale c
    · -- the lower level shows the new value
      have ea := (hnew j a ha).1 hjw.1
      rw [ha'] at ea
      injection ea with ea
      rw [ea, set_at_same s a c d v hjw.2] at hd ⊢
      apply upper
      · intro _ _
        have : (0 : K) ≤ ((k - j : Nat) : K) * tol := by positivity
        linarith
      · have hcv := covering_coarser s hs0 N q hp j k a bb hjk.le ha hbb c d hjw.2
        rintro (hbk | hbk)
        · -- beyond the level where propagation stopped
          have hb1 : b + 1 < q.levels.length := by
            have : k < N + 1 := by
              by_contra hc
              rw [List.getElem?_eq_none (by omega)] at hbb
              simp at hbb
            omega
          have hl := List.getElem?_eq_getElem hb1
          obtain ⟨s1, s2⟩ := hstop _ hl
          have hat : bb.at s d = bb.at s c := by unfold MLevel.at; rw [hcv]
          rw [hat]
          by_cases hkb : k = b + 1
          · subst hkb
            rw [hl] at hbb
            injection hbb with hbb
            rw [← hbb]
            refine ⟨s1, le_trans s2 ?_⟩
            have : (1 : K) * tol ≤ ((b + 1 - j : Nat) : K) * tol := by
              have := tolmono 1 (b + 1 - j) (by omega)
              simpa using this
            linarith
          · obtain ⟨t1, t2⟩ := hbnd (b + 1) k _ bb (by omega) hkq hl hbb c s1
            refine ⟨t1, ?_⟩
            have e1 : ((k - (b + 1) : Nat) : K) * tol + tol ≤ ((k - j : Nat) : K) * tol := by
              have := tolmono (k - (b + 1) + 1) (k - j) (by omega)
              push_cast at this
              linarith
            linarith
        · exact absurd hcv hbk
    · -- the lower level shows what it showed before
      have hsame : a'.at s d = a.at s d := by
        by_cases hjb : j ≤ b
        · have ea := (hnew j a ha).1 hjb
          rw [ha'] at ea
          injection ea with ea
          rw [ea]
          exact set_at_other s a c d v fun hc => hjw ⟨hjb, hc⟩
        · have ea := (hnew j a ha).2 (by omega)
          rw [ha'] at ea
          injection ea with ea
          rw [ea]
      rw [hsame] at hd ⊢
      obtain ⟨o1, o2⟩ := old d hd
      apply upper
      · intro hkb hcv
        have hat : bb.at s d = bb.at s c := by unfold MLevel.at; rw [hcv]
        rw [hat] at o1 o2
        have := hrise k bb (by omega) hkb hbb o1
        linarith
      · intro _
        exact ⟨o1, o2⟩

/-- What holds of the prototype, of all cells of all levels and of the new value holds of all cells of all levels after the
operation: cells are only ever replaced by the new value. -/
theorem step_cells (api : CellApi K C O) (P : C → Prop) (h0 : P api.proto) (s : K) (fuel : Nat) (m m' : MMap K C)
    (op : MOp C O) (h : m.step api fuel s op = some m') (hm : ∀ l ∈ m.levels, ∀ d, P (l.cells d))
    (hv : P (op.effect api m).2.1) : ∀ l ∈ m'.levels, ∀ d, P (l.cells d) := by
  have setP : ∀ (l : MLevel K C) (c : Coord) (v : C), P v → (∀ d, P (l.cells d)) → ∀ d, P ((l.set c v).cells d) := by
    intro l c v hv hl d
    simp only [MLevel.set]
    by_cases hd : d = c
    · rw [if_pos hd]; exact hv
    · rw [if_neg hd]; exact hl d
  have prop : ∀ (v : C) (sp : Bounds K) (ls ls' : List (MLevel K C)), P v → propagate api fuel v sp ls = some ls' →
      (∀ l ∈ ls, ∀ d, P (l.cells d)) → ∀ l ∈ ls', ∀ d, P (l.cells d) := by
    intro v sp ls
    induction ls with
    | nil =>
      intro ls' _ e _ l hl
      simp only [propagate, Option.some.injEq] at e
      subst e
      simp at hl
    | cons l0 ls ih =>
      intro ls' hv e hl
      simp only [propagate, Option.bind_eq_some_iff] at e
      obtain ⟨r, e1, e2⟩ := e
      have hr : ∀ d, P (r.1.cells d) := by
        simp only [processLevel, Option.map_eq_some_iff] at e1
        obtain ⟨cs, -, rfl⟩ := e1
        have fold : ∀ (cs : List Coord) (st : MLevel K C × Bool), (∀ d, P (st.1.cells d)) →
            ∀ d, P ((cs.foldl (visit api v) st).1.cells d) := by
          intro cs
          induction cs with
          | nil => intro st h; exact h
          | cons c cs ihc =>
            intro st h
            rw [List.foldl_cons]
            apply ihc
            unfold visit
            simp only
            split
            · exact h
            · exact setP _ _ _ hv h
        exact fold cs _ (hl l0 (by simp))
      by_cases hb : r.2 = true
      · rw [if_pos hb, Option.map_eq_some_iff] at e2
        obtain ⟨ls1, e3, rfl⟩ := e2
        intro l hml
        rcases List.mem_cons.1 hml with rfl | hml
        · exact hr
        · exact ih ls1 hv e3 (fun l hl' => hl l (by simp [hl'])) l hml
      · rw [if_neg hb, Option.some.injEq] at e2
        subst e2
        intro l hml
        rcases List.mem_cons.1 hml with rfl | hml
        · exact hr
        · exact hl l (by simp [hml])
  simp only [MMap.step, Option.map_eq_some_iff] at h
  obtain ⟨ls, e, rfl⟩ := h
  have hfine : ∀ d, P ((m.fine.set (op.effect api m).1 (op.effect api m).2.1).cells d) :=
    setP _ _ _ hv (hm _ (by simp [MMap.levels]))
  intro l hl
  simp only [MMap.levels, List.mem_cons] at hl
  rcases hl with rfl | hl
  · exact hfine
  · refine prop _ _ _ _ hv e ?_ l hl
    intro l hl d
    simp only [MMap.addLevels, List.mem_append] at hl
    rcases hl with (hl | hl) | hl
    · exact hm l (by simp only [MMap.levels, List.mem_cons]; exact .inr (List.mem_of_mem_dropLast hl)) d
    · rw [freshLevels_cells api _ _ l hl]; exact h0
    · exact hm l (by simp only [MMap.levels, List.mem_cons]; exact .inr (List.mem_of_mem_drop hl)) d

/-- The cells `P` are closed under the observations `ok`: the prototype is one of them and is unknown; after an observation
the cell is one of them and known; their impacts are in `[0, 1]`. -/
structure Closed (api : CellApi K C O) (P : C → Prop) (ok : O → Prop) : Prop where
  proto : P api.proto
  protoUnknown : api.unknown api.proto = true
  upd : ∀ v o, P v → ok o → P (api.upd v o) ∧ api.unknown (api.upd v o) = false
  range : ∀ v, P v → 0 ≤ api.impact v ∧ api.impact v ≤ 1

/-- The operation is an observation of `ok`, or a reset to a known cell of `P`. -/
def MOp.Ok (api : CellApi K C O) (P : C → Prop) (ok : O → Prop) : MOp C O → Prop
  | .update _ o _ => ok o
  | .reset _ v _ => P v ∧ api.unknown v = false

/-- A step keeps the invariant, for kinds of cells whose values are sane only where they can get. -/
theorem step_closed (api : CellApi K C O) (P : C → Prop) (ok : O → Prop) (hc : Closed api P ok) (s : K)
    (hs : 2 / 10 ^ 9 < s) (n : Nat) (hn : 1 ≤ n) (fuel : Nat) (hf : 1 ≤ fuel) (m : MMap K C) (h : Inv api s n m)
    (hP : ∀ l ∈ m.levels, ∀ d, P (l.cells d)) (op : MOp C O) (hop : op.Ok api P ok) :
    ∃ m', m.step api fuel s op = some m' ∧ Inv api s n m' ∧ ∀ l ∈ m'.levels, ∀ d, P (l.cells d) := by
  have hval : P (op.effect api m).2.1 ∧ api.unknown (op.effect api m).2.1 = false := by
    cases op with
    | update c o g => exact hc.upd _ _ (hP _ (by simp [MMap.levels]) c) hop
    | reset c v g => exact hop
  obtain ⟨m', e, hi⟩ := step_inv api hc.protoUnknown s hs n hn fuel hf m h op ⟨hval.2, hc.range _ hval.1⟩
  exact ⟨m', e, hi, step_cells api P hc.proto s fuel m m' op e hP hval.1⟩

/-- The cells of a new map are prototypes. -/
theorem create_cells (api : CellApi K C O) (s : K) (n : Nat) (l : MLevel K C) (hl : l ∈ (MMap.create api s n).levels)
    (d : Coord) : l.cells d = api.proto := by
  simp only [MMap.levels, MMap.create, List.mem_cons, List.mem_append, List.not_mem_nil, or_false] at hl
  rcases hl with rfl | hl | rfl
  · rfl
  · exact freshLevels_cells api _ _ l hl d
  · rfl

/-- Any history of such operations can be carried out and keeps the invariant. -/
theorem run_closed (api : CellApi K C O) (P : C → Prop) (ok : O → Prop) (hc : Closed api P ok) (s : K)
    (hs : 2 / 10 ^ 9 < s) (n : Nat) (hn : 1 ≤ n) (fuel : Nat) (hf : 1 ≤ fuel) (ops : List (MOp C O))
    (hops : ∀ op ∈ ops, op.Ok api P ok) :
    ∃ m, (MMap.create api s n).run api fuel s ops = some m ∧ Inv api s n m ∧ ∀ l ∈ m.levels, ∀ d, P (l.cells d) := by
  have key : ∀ (ops : List (MOp C O)) (m : MMap K C), Inv api s n m → (∀ l ∈ m.levels, ∀ d, P (l.cells d)) →
      (∀ op ∈ ops, op.Ok api P ok) →
      ∃ m', m.run api fuel s ops = some m' ∧ Inv api s n m' ∧ ∀ l ∈ m'.levels, ∀ d, P (l.cells d) := by
    intro ops
    induction ops with
    | nil => intro m h hP _; exact ⟨m, rfl, h, hP⟩
    | cons op ops ih =>
      intro m h hP ho
      obtain ⟨m1, e1, h1, h2⟩ := step_closed api P ok hc s hs n hn fuel hf m h hP op (ho op (by simp))
      obtain ⟨m2, e2, h3⟩ := ih m1 h1 h2 fun o h => ho o (by simp [h])
      exact ⟨m2, by simp [MMap.run, e1, e2], h3⟩
  refine key ops _ (create_inv api hc.protoUnknown s n hn) ?_ hops
  intro l hl d
  rw [create_cells api s n l hl d]
  exact hc.proto

/-- C14, what holds: take a map with `n` finite levels, of a scale above 2e-9, and any history of valid observations
and resets to known cells, during which any number of levels may be added. The history can be carried out, and
afterwards for every known fine cell `c` the cell covering `c` in level `k` — any of the initial finite levels or the
coarsest one — is known and its obstacle impact is at least that of `c`, up to `k` comparison tolerances of 1e-7. -/
theorem coarse_bounds_fine (api : CellApi K C O) (hproto : api.unknown api.proto = true) (s : K)
    (hs : 2 / 10 ^ 9 < s) (n : Nat) (hn : 1 ≤ n) (fuel : Nat) (hf : 1 ≤ fuel) (ops : List (MOp C O))
    (hops : ∀ op ∈ ops, Valid api op) :
    ∃ m, (MMap.create api s n).run api fuel s ops = some m ∧
      (∀ (k : Nat) (l : MLevel K C), m.levels[k]? = some l → l.scale = some (s * 2 ^ k) ∨ l.scale = none) ∧
      ∀ (k : Nat) (l : MLevel K C), m.levels[k]? = some l → (k < n ∨ l.scale = none) → ∀ c,
        api.unknown (m.fine.cells c) = false →
        api.unknown (l.cells (covering s l.scale c)) = false ∧
        api.impact (m.fine.cells c) ≤ api.impact (l.cells (covering s l.scale c)) + k * (1 / 10 ^ 7) := by
  have he2 : (0 : K) < 2 / 10 ^ 9 := by positivity
  have hs0 : 0 < s := lt_trans he2 hs
  have key : ∀ (ops : List (MOp C O)) (m : MMap K C), Inv api s n m → (∀ op ∈ ops, Valid api op) →
      ∃ m', m.run api fuel s ops = some m' ∧ Inv api s n m' := by
    intro ops
    induction ops with
    | nil => intro m h _; exact ⟨m, rfl, h⟩
    | cons op ops ih =>
      intro m h hv
      obtain ⟨m1, e1, h1⟩ := step_inv api hproto s hs n hn fuel hf m h op ((hv op (by simp)).at m)
      obtain ⟨m2, e2, h2⟩ := ih m1 h1 fun o ho => hv o (by simp [ho])
      exact ⟨m2, by simp [MMap.run, e1, e2], h2⟩
  obtain ⟨m, e, hinv⟩ := key ops _ (create_inv api hproto s n hn) hops
  obtain ⟨⟨N, hN, hp⟩, -, hbnd⟩ := hinv
  refine ⟨m, e, ?_, ?_⟩
  · intro k l hl
    rcases hp.scale k l hl with ⟨_, e⟩ | ⟨_, e⟩
    · exact .inl e
    · exact .inr e
  intro k l hl hk c hc
  have hf0 : m.levels[0]? = some m.fine := rfl
  have hcov0 : covering s m.fine.scale c = c := by
    rcases hp.scale 0 _ hf0 with ⟨_, e⟩ | ⟨e, _⟩
    · rw [e]
      have := covering_floor s hs0 0 c
      simpa using this
    · omega
  have hfine : m.fine.at s c = m.fine.cells c := by unfold MLevel.at; rw [hcov0]
  cases k with
  | zero =>
    rw [hf0] at hl
    injection hl with hl
    subst hl
    rw [hcov0]
    exact ⟨hc, by simp⟩
  | succ k =>
    have hk' : k + 1 < n ∨ k + 1 + 1 = m.levels.length := by
      rcases hk with hk | hk
      · exact .inl hk
      · right
        rcases hp.scale (k + 1) l hl with ⟨_, e⟩ | ⟨e, _⟩
        · rw [hk] at e; cases e
        · rw [hp.length]; omega
    obtain ⟨b1, b2⟩ := hbnd 0 (k + 1) m.fine l (by omega) hk' hf0 hl c (by rw [hfine]; exact hc)
    rw [hfine] at b2
    exact ⟨b1, b2⟩

/-- What an ordinary map of one level does to its cell `c` on an operation: an observation of `c` updates what the cell
holds, a reset of `c` replaces it, and operations on other cells leave it alone. -/
def ordinary (api : CellApi K C O) (c : Coord) (v : C) : MOp C O → C
  | .update d o _ => if d = c then api.upd v o else v
  | .reset d w _ => if d = c then w else v

/-- The finest level is an ordinary map: after any history, each of its cells holds what the operations on this cell, in
order, make of the prototype; the coarser levels have no influence on it. -/
theorem finest_level_is_ordinary (api : CellApi K C O) (s : K) (n : Nat) (fuel : Nat) (ops : List (MOp C O))
    (m : MMap K C) (h : (MMap.create api s n).run api fuel s ops = some m) (c : Coord) :
    m.fine.cells c = ops.foldl (ordinary api c) api.proto := by
  have key : ∀ (ops : List (MOp C O)) (m0 m : MMap K C), m0.run api fuel s ops = some m →
      m.fine.cells c = ops.foldl (ordinary api c) (m0.fine.cells c) := by
    intro ops
    induction ops with
    | nil =>
      intro m0 m h
      simp only [MMap.run, Option.some.injEq] at h
      rw [h]; rfl
    | cons op ops ih =>
      intro m0 m h
      simp only [MMap.run, Option.bind_eq_some_iff] at h
      obtain ⟨m1, h1, h2⟩ := h
      rw [ih m1 m h2, List.foldl_cons]
      congr 1
      simp only [MMap.step, Option.map_eq_some_iff] at h1
      obtain ⟨ls, -, rfl⟩ := h1
      cases op with
      | update d o g =>
        simp only [MMap.addLevels, MOp.effect, MLevel.set, ordinary]
        by_cases hd : c = d
        · subst hd; simp
        · have hd' : ¬ d = c := fun e => hd e.symm
          simp [hd, hd']
      | reset d w g =>
        simp only [MMap.addLevels, MOp.effect, MLevel.set, ordinary]
        by_cases hd : c = d
        · subst hd; simp
        · have hd' : ¬ d = c := fun e => hd e.symm
          simp [hd, hd']
  exact key ops _ m h

/-! ## Where it fails -/

/-- A simple kind of cell for the counterexamples and for non-vacuity: it holds the last valid observation; its
obstacle impact is that probability (`OccupancyOIE`); unknown cells have one half. -/
structure DemoCell where
  p : ℚ
  unk : Bool
  deriving DecidableEq

/-- Observations: `none` is invalid and ignored. -/
def demoApi : CellApi ℚ DemoCell (Option ℚ) where
  upd c o := match o with
    | none => c
    | some p => ⟨p, false⟩
  unknown c := c.unk
  impact c := c.p
  proto := ⟨1 / 2, true⟩

/-- Impacts of the fine cell and of the covering cell in level `k` after a history on a map with scale 1. -/
def demoImpacts (n : Nat) (ops : List (MOp DemoCell (Option ℚ))) (k : Nat) (c : Coord) : Option (ℚ × ℚ) :=
  ((MMap.create demoApi 1 n).run demoApi 3 1 ops).bind fun m =>
    (m.levels[k]?).map fun l => ((m.fine.cells c).p, (l.cells (covering 1 l.scale c)).p)

/-- C14 fails after an ignored (invalid) observation of an unknown cell: it makes the coarse cell unknown again, and
the next, smaller observation overwrites the bound. The fine cell (0,0) has impact 3/10, its level-1 cell 1/10. -/
theorem invalid_observation_counterexample :
    demoImpacts 2 [.update ⟨0, 0⟩ (some (3 / 10)) 0, .update ⟨1, 0⟩ none 0, .update ⟨0, 1⟩ (some (1 / 10)) 0] 1 ⟨0, 0⟩ =
      some (3 / 10, 1 / 10) := by decide +kernel

/-- C14 fails for levels added because the map grew: they do not know what was observed before. The fine cell (0,0)
has impact 1, the added level's cell 1/2. -/
theorem added_level_counterexample :
    demoImpacts 2 [.update ⟨0, 0⟩ (some 1) 0, .update ⟨40, 40⟩ (some (1 / 10)) 1] 2 ⟨0, 0⟩ = some (1, 1 / 2) := by
  decide +kernel

/-- C14 is about known cells; an unknown cell (impact 1/2) can be under a coarse cell of less impact. So the bound used
to prune is not a bound at places not observed yet. -/
theorem unknown_cell_counterexample :
    demoImpacts 2 [.update ⟨0, 0⟩ (some (1 / 10)) 0] 1 ⟨1, 0⟩ = some (1 / 2, 1 / 10) := by decide +kernel

/-- The tolerances of the comparisons add up over the levels (so that `validate()`, which tolerates one, may fail). -/
theorem tolerance_adds_up_counterexample :
    demoImpacts 3 [.update ⟨2, 0⟩ (some (1 / 10)) 0, .update ⟨0, 0⟩ (some (1 / 10 + 9 / 10 ^ 8)) 0,
      .update ⟨1, 0⟩ (some (1 / 10 + 18 / 10 ^ 8)) 0] 2 ⟨1, 0⟩ = some (1 / 10 + 18 / 10 ^ 8, 1 / 10) := by
  decide +kernel

/-! ## Non-vacuity -/

example : Valid demoApi (.update ⟨0, 0⟩ (some (3 / 10)) 2) ∧ Valid demoApi (.reset ⟨5, -3⟩ ⟨1, false⟩ 0) ∧
    demoApi.unknown demoApi.proto = true := by
  refine ⟨?_, ?_, rfl⟩
  · intro v; norm_num [demoApi]
  · norm_num [Valid, demoApi]

/-- After two observations below the same coarse cell the latter holds the greater one. -/
example : demoImpacts 2 [.update ⟨0, 0⟩ (some (3 / 10)) 0, .update ⟨1, 1⟩ (some (8 / 10)) 0] 1 ⟨0, 0⟩ =
    some (3 / 10, 8 / 10) := by decide +kernel

end Slam.Multires
