import Mathlib.Tactic.Linarith
import Mathlib.Tactic.NormNum
import Mathlib.Tactic.Ring
import Mathlib.Data.List.Chain
import Mathlib.Data.List.Nodup
import Verif.Dump.Model

/-!
# Dumps of maps show every cell once, at its place (C46)
-/

set_option autoImplicit false
set_option linter.unusedSectionVars false

namespace Slam.Dump

open Slam.Grid

variable {K : Type*} [Field K] [LinearOrder K] [IsStrictOrderedRing K] [FloorRing K]

/-! ## Specification -/

/-- The digits at the beginning of bytes, as a number, and the rest. -/
def readNat (v : Nat) : List Nat → Nat × List Nat
  | [] => (v, [])
  | b :: bs => if 48 ≤ b ∧ b ≤ 57 then readNat (10 * v + (b - 48)) bs else (v, b :: bs)

/-- A reader of binary PGM images (netpbm): magic `P5`, white space, width, white space, height, white space, maximal
value, one white space, and the samples. The white space is one line feed here. -/
def readPgm (bytes : List Nat) : Option (Nat × Nat × Nat × List Nat) :=
  match bytes with
  | 80 :: 53 :: 10 :: r1 =>
    let w := readNat 0 r1
    match w.2 with
    | 10 :: r2 =>
      let h := readNat 0 r2
      match h.2 with
      | 10 :: r3 =>
        let v := readNat 0 r3
        match v.2 with
        | 10 :: r4 => some (w.1, h.1, v.1, r4)
        | _ => none
      | _ => none
    | _ => none
  | _ => none

/-- Lightness of a cell between 0 (black) and 1: unknown cells are half grey, others the free part. -/
def lightness (occ : K) : K :=
  if occ = -1 then 1 / 2 else if occ ≤ 0 then 1 else if 1 ≤ occ then 0 else 1 - occ

/-- `n` is the integral part of the number `x`, which is not negative. -/
def IsIntegralPart (n : Int) (x : K) : Prop := (n : K) ≤ x ∧ x < (n : K) + 1

/-! ## Loops -/

theorem up_eq (a : Int) (n : Nat) : up a (a + n) = (List.range n).map fun (i : Nat) => a + (i : Int) := by
  induction n generalizing a with
  | zero => rw [up, if_neg (by simp)]; rfl
  | succ n ih =>
    rw [up, if_pos (by push_cast; omega)]
    have : a + ((n + 1 : Nat) : Int) = (a + 1) + n := by push_cast; omega
    rw [this, ih, List.range_succ_eq_map, List.map_cons, List.map_map]
    congr 1
    · simp
    · apply List.map_congr_left
      intro i _
      simp only [Function.comp_apply, Nat.succ_eq_add_one]
      push_cast
      omega

theorem down_eq (a : Int) (n : Nat) :
    down (a + n - 1) a = (List.range n).map fun (i : Nat) => a + n - 1 - (i : Int) := by
  induction n with
  | zero => rw [down, if_neg (by push_cast; omega)]; rfl
  | succ n ih =>
    rw [down, if_pos (by push_cast; omega)]
    have : a + ((n + 1 : Nat) : Int) - 1 - 1 = a + n - 1 := by push_cast; omega
    rw [this, ih, List.range_succ_eq_map, List.map_cons, List.map_map]
    congr 1
    · simp
    · apply List.map_congr_left
      intro i _
      simp only [Function.comp_apply, Nat.succ_eq_add_one]
      push_cast
      omega

theorem flatMap_range_length {α : Type*} (n w : Nat) (f : Nat → Nat → α) :
    ((List.range n).flatMap fun (r : Nat) => (List.range w).map fun (c : Nat) => f r c).length = n * w := by
  induction n with
  | zero => simp
  | succ n ih => rw [List.range_succ, List.flatMap_append, List.length_append, ih]; simp [Nat.succ_mul]

theorem flatMap_range_get {α : Type*} (n w : Nat) (f : Nat → Nat → α) (r c : Nat) (hr : r < n) (hc : c < w) :
    ((List.range n).flatMap fun (r : Nat) => (List.range w).map fun (c : Nat) => f r c)[r * w + c]? =
      some (f r c) := by
  induction n with
  | zero => omega
  | succ n ih =>
    rw [List.range_succ, List.flatMap_append]
    have hl := flatMap_range_length n w f
    by_cases h : r < n
    · rw [List.getElem?_append_left]
      · exact ih h
      · rw [hl]
        calc r * w + c < r * w + w := by omega
          _ = (r + 1) * w := by ring
          _ ≤ n * w := Nat.mul_le_mul_right w h
    · have e : r = n := by omega
      subst e
      rw [List.getElem?_append_right (by rw [hl]; omega), hl]
      have : r * w + c - r * w = c := by omega
      rw [this]
      simp [hc]

/-! ## Header -/

theorem readNat_append (ds : List Nat) (hd : ∀ d ∈ ds, 48 ≤ d ∧ d ≤ 57) (rest : List Nat) (v : Nat)
    (hrest : ∀ b, rest.head? = some b → ¬ (48 ≤ b ∧ b ≤ 57)) :
    readNat v (ds ++ rest) = (ds.foldl (fun v d => 10 * v + (d - 48)) v, rest) := by
  induction ds generalizing v with
  | nil =>
    cases rest with
    | nil => rfl
    | cons b bs => simp only [List.nil_append, readNat, if_neg (hrest b rfl), List.foldl_nil]
  | cons d ds ih =>
    simp only [List.cons_append, readNat, if_pos (hd d (by simp)), List.foldl_cons]
    exact ih (fun d hd' => hd d (by simp [hd'])) _

theorem digitChar_toNat (d : Nat) (h : d < 10) : (Nat.digitChar d).toNat = 48 + d := by
  have : ∀ d : Fin 10, (Nat.digitChar d.val).toNat = 48 + d.val := by decide
  exact this ⟨d, h⟩

theorem toDigits_value (n : Nat) :
    ((Nat.toDigits 10 n).map Char.toNat).foldl (fun v d => 10 * v + (d - 48)) 0 = n ∧
      ∀ d ∈ (Nat.toDigits 10 n).map Char.toNat, 48 ≤ d ∧ d ≤ 57 := by
  induction n using Nat.strong_induction_on with
  | _ n ih =>
    rw [Nat.toDigits_eq_if (by norm_num)]
    by_cases h : n < 10
    · rw [if_pos h]
      simp only [List.map_cons, List.map_nil, List.foldl_cons, List.foldl_nil, digitChar_toNat n h,
        List.mem_singleton]
      constructor
      · omega
      · rintro d rfl; omega
    · rw [if_neg h]
      obtain ⟨h1, h2⟩ := ih (n / 10) (by omega)
      have hm : n % 10 < 10 := Nat.mod_lt _ (by norm_num)
      simp only [List.map_append, List.map_cons, List.map_nil, List.foldl_append, h1, List.foldl_cons, List.foldl_nil,
        digitChar_toNat _ hm, List.mem_append, List.mem_singleton]
      constructor
      · omega
      · rintro d (hd | rfl)
        · exact h2 d hd
        · omega

theorem readNat_toStr (n : Nat) (rest : List Nat) :
    readNat 0 ((toStr n).map Char.toNat ++ 10 :: rest) = (n, 10 :: rest) := by
  have : toStr (n : Int) = Nat.toDigits 10 n := by simp [toStr]
  rw [this, readNat_append _ (toDigits_value n).2, (toDigits_value n).1]
  simp

theorem header_bytes (w h : Nat) (body : List Nat) :
    readPgm (((pgmHeader w h 255 ++ ['\n']).map Char.toNat) ++ body) = some (w, h, 255, body) := by
  have e : ((pgmHeader w h 255 ++ ['\n']).map Char.toNat) ++ body =
      80 :: 53 :: 10 :: ((toStr (w : Int)).map Char.toNat ++ 10 :: ((toStr (h : Int)).map Char.toNat ++ 10 ::
        ((toStr ((255 : Nat) : Int)).map Char.toNat ++ 10 :: body))) := by
    simp [pgmHeader]
  rw [e]
  simp only [readPgm, readNat_toStr]

/-! ## Values -/

theorem trunc_integralPart {x : K} (h : 0 ≤ x) : IsIntegralPart (trunc x) x := by
  rw [trunc, if_pos h]
  exact ⟨Int.floor_le x, Int.lt_floor_add_one x⟩

theorem integralPart_unique {m n : Int} {x : K} (hm : IsIntegralPart m x) (hn : IsIntegralPart n x) : m = n := by
  obtain ⟨h1, h2⟩ := hm
  obtain ⟨h3, h4⟩ := hn
  have a : (m : K) < ((n + 1 : Int) : K) := by push_cast; linarith
  have b : (n : K) < ((m + 1 : Int) : K) := by push_cast; linarith
  have := Int.cast_lt.1 a
  have := Int.cast_lt.1 b
  omega

theorem lightness_eq (occ : K) :
    (1 : K) - (if occ = -1 then 1 / 2 else boundValue 0 occ 1) = lightness occ := by
  unfold lightness boundValue
  by_cases h : occ = -1
  · rw [if_pos h, if_pos h]; norm_num
  · rw [if_neg h, if_neg h]
    by_cases h1 : occ ≤ 0
    · rw [if_pos h1, max_eq_left (min_le_of_right_le h1)]; norm_num
    · rw [if_neg h1]
      by_cases h2 : 1 ≤ occ
      · rw [if_pos h2, min_eq_left h2]; norm_num
      · rw [if_neg h2, min_eq_right (not_le.1 h2).le, max_eq_right (not_le.1 h1).le]

theorem lightness_range (occ : K) : 0 ≤ lightness occ ∧ lightness occ ≤ 1 := by
  unfold lightness
  by_cases h : occ = -1
  · rw [if_pos h]; constructor <;> norm_num
  · rw [if_neg h]
    by_cases h1 : occ ≤ 0
    · rw [if_pos h1]; constructor <;> norm_num
    · rw [if_neg h1]
      by_cases h2 : 1 ≤ occ
      · rw [if_pos h2]; constructor <;> norm_num
      · rw [if_neg h2]; constructor <;> linarith [not_le.1 h1, not_le.1 h2]

theorem intensity_spec (occ : K) : intensity occ ≤ 255 ∧ IsIntegralPart (intensity occ : Int) (255 * lightness occ) := by
  obtain ⟨h0, h1⟩ := lightness_range occ
  have hp : (0 : K) ≤ 255 * lightness occ := by positivity
  have ht := trunc_integralPart hp
  have hlo : 0 ≤ trunc (255 * lightness occ) := by rw [trunc, if_pos hp]; exact Int.floor_nonneg.2 hp
  have hhi : trunc (255 * lightness occ) ≤ 255 := by
    have h2 := ht.1
    have : ((trunc (255 * lightness occ) : Int) : K) ≤ ((255 : Int) : K) := by push_cast; linarith
    exact Int.cast_le.1 this
  have he : (intensity occ : Int) = trunc (255 * lightness occ) := by
    unfold intensity
    simp only [lightness_eq]
    rw [Int.toNat_of_nonneg (Int.emod_nonneg _ (by norm_num)), Int.emod_eq_of_lt hlo (by omega)]
  constructor
  · have : (intensity occ : Int) ≤ 255 := by rw [he]; exact hhi
    exact_mod_cast this
  · rw [he]; exact ht

/-! ## The image -/

theorem raster_eq (m : MapView K) (w h : Nat) (hw : m.width = w) (hh : m.height = h) :
    raster m = (List.range h).flatMap fun (r : Nat) => (List.range w).map fun (c : Nat) =>
      intensity (m.occ ⟨(c : Int) - m.origin.x, (h : Int) - 1 - (r : Int) - m.origin.y⟩) := by
  have e1 : m.height - m.origin.y - 1 = -m.origin.y + h - 1 := by rw [hh]; omega
  have e2 : m.width - m.origin.x = -m.origin.x + w := by rw [hw]; omega
  rw [raster, e1, e2, down_eq, up_eq, List.flatMap_map]
  congr 1
  funext r
  rw [List.map_map]
  apply List.map_congr_left
  intro c _
  simp only [Function.comp_apply]
  congr 3 <;> omega

/-- **The image of a map shows every cell once (C46)**: a reader of PGM images finds the width and the height of the
map, the maximal value 255 and `width·height` samples; the sample in row `r` from the top and column `c` from the left
is the integral part of 255 times the lightness of the cell in that row and column of the map, whatever its origin. -/
theorem pgm_shows_map (m : MapView K) (w h : Nat) (hw : m.width = w) (hh : m.height = h) :
    ∃ samples, readPgm (dumpMap m) = some (w, h, 255, samples) ∧ samples.length = h * w ∧
      ∀ r c, r < h → c < w → ∃ s : Nat, samples[r * w + c]? = some s ∧ s ≤ 255 ∧
        IsIntegralPart (s : Int)
          (255 * lightness (m.occ ⟨(c : Int) - m.origin.x, (h : Int) - 1 - (r : Int) - m.origin.y⟩)) := by
  refine ⟨raster m, ?_, ?_, fun r c hr hc => ⟨_, ?_, intensity_spec _⟩⟩
  · rw [dumpMap, hw, hh]
    exact header_bytes w h _
  · rw [raster_eq m w h hw hh]; exact flatMap_range_length _ _ _
  · rw [raster_eq m w h hw hh]
    exact flatMap_range_get h w (fun r c => intensity
      (m.occ ⟨(c : Int) - m.origin.x, (h : Int) - 1 - (r : Int) - m.origin.y⟩)) r c hr hc

/-- **Grey values (C46)**: occupied cells are black, free cells white, unknown cells 127, and a more occupied cell is
never lighter. -/
theorem grey_values (a b : K) :
    (1 ≤ a → intensity a = 0) ∧ (a = 0 → intensity a = 255) ∧ (a = -1 → intensity a = 127) ∧
      (0 ≤ a → a ≤ b → intensity b ≤ intensity a) := by
  have key : ∀ (o : K) (n : Nat), IsIntegralPart (n : Int) (255 * lightness o) → intensity o = n := by
    intro o n h
    have := integralPart_unique (intensity_spec o).2 h
    exact_mod_cast this
  refine ⟨fun h => ?_, fun h => ?_, fun h => ?_, fun h0 hab => ?_⟩
  · apply key
    have : lightness a = 0 := by
      unfold lightness
      rw [if_neg (by linarith), if_neg (by linarith), if_pos h]
    rw [this]; constructor <;> norm_num
  · apply key
    have : lightness a = 1 := by
      unfold lightness
      rw [h, if_neg (by norm_num), if_pos le_rfl]
    rw [this]; constructor <;> norm_num
  · apply key
    have : lightness a = 1 / 2 := by unfold lightness; rw [if_pos h]
    rw [this]; constructor <;> norm_num
  · have hl : lightness b ≤ lightness a := by
      unfold lightness
      have ha : a ≠ -1 := by intro e; linarith
      have hb : b ≠ -1 := by intro e; linarith
      rw [if_neg ha, if_neg hb]
      by_cases a1 : a ≤ 0
      · rw [if_pos a1]
        by_cases b1 : b ≤ 0
        · rw [if_pos b1]
        · rw [if_neg b1]
          by_cases b2 : 1 ≤ b
          · rw [if_pos b2]; norm_num
          · rw [if_neg b2]; linarith [not_le.1 b1]
      · have b1 : ¬ b ≤ 0 := by linarith [not_le.1 a1]
        rw [if_neg a1, if_neg b1]
        by_cases a2 : 1 ≤ a
        · rw [if_pos a2, if_pos (le_trans a2 hab)]
        · rw [if_neg a2]
          by_cases b2 : 1 ≤ b
          · rw [if_pos b2]; linarith [not_le.1 a2]
          · rw [if_neg b2]; linarith
    have h1 := (intensity_spec b).2.1
    have h2 := (intensity_spec a).2.2
    have : ((intensity b : Int) : K) < (((intensity a : Int) + 1 : Int) : K) := by push_cast at h1 h2 ⊢; linarith
    have := Int.cast_lt.1 this
    omega

/-- **Every update of the map is a new file (C46)**: after updates with the maps `ms` there is one file for each of
them, in order, with the image of that map, and no two files have the same name. -/
theorem every_update_dumped (base : List Char) (ms : List (MapView K)) :
    let d := ms.foldl Dumper.onMapUpdate (Dumper.make K base)
    d.files.map Prod.snd = ms.map dumpMap ∧ (d.files.map Prod.fst).Nodup := by
  have gen : ∀ (ms : List (MapView K)) (d : Dumper K),
      (ms.foldl Dumper.onMapUpdate d).files =
        d.files ++ (ms.zipIdx d.id).map fun p => (d.base ++ toStr p.2 ++ ".pgm".toList, dumpMap p.1) := by
    intro ms
    induction ms with
    | nil => intro d; simp
    | cons m ms ih =>
      intro d
      rw [List.foldl_cons, ih]
      simp [Dumper.onMapUpdate, List.zipIdx_cons]
  intro d
  have hd : d.files = (ms.zipIdx 0).map fun p => (base ++ ['_'] ++ toStr p.2 ++ ".pgm".toList, dumpMap p.1) := by
    have := gen ms (Dumper.make K base)
    rw [show d.files = _ from this]
    simp [Dumper.make]
  constructor
  · rw [hd, List.map_map]
    have : (Prod.snd ∘ fun p : MapView K × Nat => (base ++ ['_'] ++ toStr p.2 ++ ".pgm".toList, dumpMap p.1)) =
        dumpMap ∘ Prod.fst := rfl
    rw [this, ← List.map_map, List.zipIdx_map_fst]
  · rw [hd, List.map_map]
    have : (Prod.fst ∘ fun p : MapView K × Nat => (base ++ ['_'] ++ toStr p.2 ++ ".pgm".toList, dumpMap p.1)) =
        (fun n : Nat => base ++ ['_'] ++ toStr n ++ ".pgm".toList) ∘ Prod.snd := rfl
    rw [this, ← List.map_map, List.zipIdx_map_snd]
    refine List.Nodup.map ?_ (List.nodup_range' ..)
    intro a b hab
    have h1 : toStr (a : Int) = toStr (b : Int) := by
      simpa using hab
    have h2 := readNat_toStr a []
    rw [h1, readNat_toStr b []] at h2
    exact (Prod.mk.inj h2).1.symm

/-! ## The message -/

theorem data_eq (m : MapView K) (w h : Nat) (hw : m.width = w) (hh : m.height = h) :
    (gridMsg m).data = (List.range h).flatMap fun (r : Nat) => (List.range w).map fun (c : Nat) =>
      cellValue (m.occ ⟨(c : Int) - m.origin.x, (r : Int) - m.origin.y⟩) := by
  have e1 : m.height - m.origin.y = -m.origin.y + h := by rw [hh]; omega
  have e2 : m.width - m.origin.x = -m.origin.x + w := by rw [hw]; omega
  simp only [gridMsg]
  rw [e1, e2, up_eq, up_eq, List.flatMap_map]
  congr 1
  funext r
  rw [List.map_map]
  apply List.map_congr_left
  intro c _
  simp only [Function.comp_apply]
  congr 3 <;> omega

theorem cellValue_spec (v : K) :
    (v = -1 → cellValue v = -1) ∧
      (0 ≤ v → v ≤ 1 → 0 ≤ cellValue v ∧ cellValue v ≤ 100 ∧ IsIntegralPart (cellValue v) (100 * v)) := by
  constructor
  · intro h
    simp [cellValue, h, toInt8]
  · intro h0 h1
    have hp : (0 : K) ≤ v * 100 := by positivity
    have ht := trunc_integralPart hp
    have hlo : 0 ≤ trunc (v * 100) := by rw [trunc, if_pos hp]; exact Int.floor_nonneg.2 hp
    have hhi : trunc (v * 100) ≤ 100 := by
      have : ((trunc (v * 100) : Int) : K) ≤ ((100 : Int) : K) := by push_cast; linarith [ht.1]
      exact Int.cast_le.1 this
    have he : cellValue v = trunc (v * 100) := by
      rw [cellValue, if_neg (by linarith), toInt8]
      omega
    rw [he]
    exact ⟨hlo, hhi, by rw [mul_comm 100 v]; exact ht⟩

/-- **The published grid shows every cell once (C46)**: it has the size and the scale of the map and one value per
cell, row by row from the bottom. The square of row `r` and column `c`, as consumers of the message place it (origin
plus column and row times the resolution), is the square of the cell in the world; its value is `-1` if the cell is
unknown, and the integral part of the percentage of occupancy, between 0 and 100, if that is between 0 and 1. -/
theorem grid_msg_shows_map (m : MapView K) (w h : Nat) (hw : m.width = w) (hh : m.height = h) :
    (gridMsg m).width = w ∧ (gridMsg m).height = h ∧ (gridMsg m).resolution = m.scale ∧
      (gridMsg m).data.length = h * w ∧
      ∀ r c, r < h → c < w →
        let cell : Coord := ⟨(c : Int) - m.origin.x, (r : Int) - m.origin.y⟩
        let square := worldCellBounds m.scale cell
        (gridMsg m).originX + (c : K) * (gridMsg m).resolution = square.left ∧
        (gridMsg m).originX + ((c : K) + 1) * (gridMsg m).resolution = square.right ∧
        (gridMsg m).originY + (r : K) * (gridMsg m).resolution = square.bot ∧
        (gridMsg m).originY + ((r : K) + 1) * (gridMsg m).resolution = square.top ∧
        ∃ v : Int, (gridMsg m).data[r * w + c]? = some v ∧ (m.occ cell = -1 → v = -1) ∧
          (0 ≤ m.occ cell → m.occ cell ≤ 1 → 0 ≤ v ∧ v ≤ 100 ∧ IsIntegralPart v (100 * m.occ cell)) := by
  refine ⟨hw, hh, rfl, ?_, fun r c hr hc => ?_⟩
  · rw [data_eq m w h hw hh]; exact flatMap_range_length _ _ _
  · refine ⟨?_, ?_, ?_, ?_, _, ?_, cellValue_spec _⟩
    · simp only [gridMsg, worldCellBounds]; push_cast; ring
    · simp only [gridMsg, worldCellBounds]; push_cast; ring
    · simp only [gridMsg, worldCellBounds]; push_cast; ring
    · simp only [gridMsg, worldCellBounds]; push_cast; ring
    · rw [data_eq m w h hw hh]
      exact flatMap_range_get h w (fun r c => cellValue (m.occ ⟨(c : Int) - m.origin.x, (r : Int) - m.origin.y⟩))
        r c hr hc

/-! ## The publishing interval -/

/-- **Maps are published at most once per interval (C46)**: whatever the updates, if the clock does not run back, two
messages are at least the interval apart; and an update is not published only if the previous message (or the start
of the clock) is nearer than the interval. -/
theorem publishing_interval (interval start : K) (us : List (MapView K × K × K))
    (hclock : ∀ u ∈ us, u.2.1 ≤ u.2.2) :
    ((us.foldl (Publisher.onMapUpdate interval) ⟨start, []⟩).sent.map Prod.fst).IsChain
      (fun a b => interval ≤ b - a) := by
  suffices H : ∀ (us : List (MapView K × K × K)) (p : Publisher K), (∀ u ∈ us, u.2.1 ≤ u.2.2) →
      (p.sent.map Prod.fst).IsChain (fun a b => interval ≤ b - a) →
      (∀ a, (p.sent.map Prod.fst).getLast? = some a → a ≤ p.last) →
      ((us.foldl (Publisher.onMapUpdate interval) p).sent.map Prod.fst).IsChain (fun a b => interval ≤ b - a) by
    exact H us ⟨start, []⟩ hclock (by simp) (by simp)
  intro us
  induction us with
  | nil => intro p _ h _; exact h
  | cons u us ih =>
    intro p hc hch hl
    obtain ⟨m, checked, stored⟩ := u
    have hu := hc _ (List.mem_cons_self ..)
    rw [List.foldl_cons]
    apply ih _ (fun u hu => hc u (List.mem_cons_of_mem _ hu))
    · simp only [Publisher.onMapUpdate]
      by_cases h : checked - p.last < interval
      · rw [if_pos h]; exact hch
      · rw [if_neg h]
        simp only [List.map_append, List.map_cons, List.map_nil]
        rw [List.isChain_append]
        refine ⟨hch, List.isChain_singleton _, fun a ha b hb => ?_⟩
        simp only [List.head?_cons, Option.mem_def, Option.some.injEq] at hb
        have := hl a ha
        rw [← hb]
        linarith [not_lt.1 h]
    · simp only [Publisher.onMapUpdate]
      by_cases h : checked - p.last < interval
      · rw [if_pos h]; exact hl
      · rw [if_neg h]
        intro a ha
        simp only [List.map_append, List.map_cons, List.map_nil, List.getLast?_concat, Option.some.injEq] at ha
        rw [← ha]; exact hu

/-- An update is published exactly if the interval has passed, and then it is the last message, of that map. -/
theorem update_published_iff (interval : K) (p : Publisher K) (m : MapView K) (checked stored : K) :
    (interval ≤ checked - p.last →
      (p.onMapUpdate interval (m, checked, stored)).sent = p.sent ++ [(checked, gridMsg m)]) ∧
    (checked - p.last < interval → (p.onMapUpdate interval (m, checked, stored)) = p) := by
  constructor
  · intro h
    simp only [Publisher.onMapUpdate, if_neg (not_lt.2 h)]
  · intro h
    simp only [Publisher.onMapUpdate, if_pos h]

/-! ## Non-vacuity -/

/-- A map of 3 x 2 cells with its origin at the second column of the bottom row. -/
def exampleView : MapView ℚ where
  width := 3
  height := 2
  origin := ⟨1, 0⟩
  scale := 1 / 10
  occ c := if c = ⟨-1, 1⟩ then 1 else if c = ⟨0, 0⟩ then -1 else if c = ⟨1, 1⟩ then 1 / 4 else 0

example : dumpMap exampleView =
    ("P5\n3\n2\n255\n".toList.map Char.toNat) ++ [0, 255, 191, 255, 127, 255] := by
  have i0 : intensity (1 : ℚ) = 0 := (grey_values 1 0).1 le_rfl
  have i1 : intensity (0 : ℚ) = 255 := (grey_values 0 0).2.1 rfl
  have i2 : intensity (-1 : ℚ) = 127 := (grey_values (-1) 0).2.2.1 rfl
  have i3 : intensity (1 / 4 : ℚ) = 191 := by
    have h := (intensity_spec (1 / 4 : ℚ)).2
    have : IsIntegralPart (191 : Int) (255 * lightness (1 / 4 : ℚ)) := by
      unfold lightness IsIntegralPart; norm_num
    have := integralPart_unique h this
    exact_mod_cast this
  have hr := raster_eq exampleView 3 2 rfl rfl
  have h0 : raster exampleView = [0, 255, 191, 255, 127, 255] := by
    rw [hr]
    simp [List.range_succ, exampleView, i0, i1, i2]
    simpa using i3
  rw [dumpMap, h0]
  rfl

example : (gridMsg exampleView).data[1 * 3 + 2]? = some 25 := by
  have h := data_eq exampleView 3 2 rfl rfl
  rw [h]
  have : cellValue (1 / 4 : ℚ) = 25 := by
    have h := ((cellValue_spec (1 / 4 : ℚ)).2 (by norm_num) (by norm_num)).2.2
    have : IsIntegralPart (25 : Int) (100 * (1 / 4 : ℚ)) := by unfold IsIntegralPart; norm_num
    exact integralPart_unique h this
  simp [List.range_succ, exampleView]
  simpa using this

end Slam.Dump
