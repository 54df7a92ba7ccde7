import Mathlib.Tactic.Linarith
import Mathlib.Tactic.NormNum
import Mathlib.Data.Rat.Floor
import Verif.Config.Lookup

/-!
# Values of properties, map dimensions, ignored transforms, command line (C45, C53, C60, C61)
-/

set_option autoImplicit false
set_option linter.unusedSectionVars false

namespace Slam.Config

/-! ## Numbers (C60) -/

theorem digit_digitChar (d : Fin 10) : digit (digitChar d) = some d.val := by
  revert d; decide

theorem digitsFrom_append (ds : List (Fin 10)) (rest : Str) (h : ∀ c, rest.head? = some c → digit c = none)
    (v n : Nat) :
    digitsFrom v n (ds.map digitChar ++ rest) = (ds.foldl (fun v d => 10 * v + d.val) v, n + ds.length) := by
  induction ds generalizing v n with
  | nil =>
    cases rest with
    | nil => rfl
    | cons c cs => simp [digitsFrom, h c rfl]
  | cons d ds ih =>
    simp only [List.map_cons, List.cons_append, digitsFrom, digit_digitChar, ih, List.foldl_cons, List.length_cons,
      Prod.mk.injEq, true_and]
    omega

theorem dropWhile_space (sp rest : Str) (h : ∀ c ∈ sp, isSpace c = true)
    (h2 : ∀ c, rest.head? = some c → isSpace c = false) : (sp ++ rest).dropWhile isSpace = rest := by
  induction sp with
  | nil =>
    cases rest with
    | nil => rfl
    | cons c cs => simp [h2 c rfl]
  | cons c sp ih =>
    simp only [List.cons_append, h c (by simp), List.dropWhile_cons_of_pos]
    exact ih fun c hc => h c (by simp [hc])

theorem digitChar_facts (d : Fin 10) : isSpace (digitChar d) = false ∧ digitChar d ≠ '-' ∧ digitChar d ≠ '+' := by
  revert d; decide

/-- The text of a number: white space, a sign (`none`, `some true` for a minus, `some false` for a plus), digits, and
anything that does not begin with a digit. -/
def numberText (sp : Str) (sign : Option Bool) (ds : List (Fin 10)) (rest : Str) : Str :=
  sp ++ ((match sign with | none => [] | some true => ['-'] | some false => ['+']) ++ (ds.map digitChar ++ rest))

theorem scan_numberText (sp : Str) (sign : Option Bool) (ds : List (Fin 10)) (rest : Str)
    (hsp : ∀ c ∈ sp, isSpace c = true) (hds : ds ≠ []) (hrest : ∀ c, rest.head? = some c → digit c = none) :
    scanNumber (numberText sp sign ds rest) = some (sign == some true, decimal ds) := by
  obtain ⟨d, dt, rfl⟩ := List.exists_cons_of_ne_nil hds
  have hd := digitsFrom_append (d :: dt) rest hrest 0 0
  have hf := digitChar_facts d
  unfold scanNumber numberText
  rcases sign with _ | _ | _
  · rw [dropWhile_space sp _ hsp (by
      intro c hc
      simp only [List.map_cons, List.cons_append, List.nil_append, List.head?_cons, Option.some.injEq] at hc
      rw [← hc]; exact hf.1)]
    simp only [List.nil_append, List.map_cons, List.cons_append] at hd ⊢
    split
    · next h => exact absurd (List.cons.inj h).1 hf.2.1
    · next h => exact absurd (List.cons.inj h).1 hf.2.2
    · rw [hd, if_neg (by simp)]; rfl
  · rw [dropWhile_space sp _ hsp (by
      intro c hc
      simp only [List.cons_append, List.head?_cons, Option.some.injEq] at hc
      rw [← hc]; decide)]
    simp only [List.nil_append, List.cons_append]
    rw [hd, if_neg (by simp)]; rfl
  · rw [dropWhile_space sp _ hsp (by
      intro c hc
      simp only [List.cons_append, List.head?_cons, Option.some.injEq] at hc
      rw [← hc]; decide)]
    simp only [List.nil_append, List.cons_append]
    rw [hd, if_neg (by simp)]; rfl

/-- The characters that may precede a number: blank, tab, newline, vertical tab, form feed, carriage return. -/
def blanks : List Char := [' ', '\t', '\n', '\x0b', '\x0c', '\r']

theorem blank_space (sp : Str) (h : ∀ c ∈ sp, c ∈ blanks) : ∀ c ∈ sp, isSpace c = true := by
  intro c hc
  have := h c hc
  simp only [blanks, List.mem_cons, List.not_mem_nil, or_false] at this
  rcases this with rfl | rfl | rfl | rfl | rfl | rfl <;> decide

/-- **Integers are read as written (C60)**: the value of an integer property is the number that its text begins with,
and numbers which do not fit are an error, not another number. -/
theorem int_property_as_written (t : Table) (k : Str) (dflt : Int) (sp : Str) (sign : Option Bool)
    (ds : List (Fin 10)) (rest : Str) (hsp : ∀ c ∈ sp, c ∈ blanks) (hds : ds ≠ [])
    (hrest : ∀ c, rest.head? = some c → digit c = none) (ht : t k = some (numberText sp sign ds rest)) :
    getInt t k dflt =
      if sign = some true then
        if decimal ds ≤ 2147483648 then some (-(decimal ds : Int)) else none
      else if decimal ds ≤ 2147483647 then some (decimal ds : Int) else none := by
  simp only [getInt, ht, stoi, scan_numberText sp sign ds rest (blank_space sp hsp) hds hrest, Option.bind_some]
  by_cases hs : sign = some true
  · subst hs
    simp only [BEq.rfl, if_true]
    by_cases h : decimal ds ≤ 2147483648
    · rw [if_pos h, if_pos (by constructor <;> omega)]
    · rw [if_neg h, if_neg (by omega)]
  · have : (sign == some true) = false := by simpa using hs
    rw [this, if_neg hs]
    simp only [Bool.false_eq_true, if_false]
    by_cases h : decimal ds ≤ 2147483647
    · rw [if_pos h, if_pos (by constructor <;> omega)]
    · rw [if_neg h, if_neg (by omega)]

/-- **Natural numbers are read as written (C60)** if they have no minus sign and fit into 32 bits. Otherwise: other
numbers are silently replaced by different ones, see the counterexamples. -/
theorem uint_property_as_written (t : Table) (k : Str) (dflt : Nat) (sp : Str) (sign : Option Bool)
    (ds : List (Fin 10)) (rest : Str) (hsp : ∀ c ∈ sp, c ∈ blanks) (hds : ds ≠ [])
    (hrest : ∀ c, rest.head? = some c → digit c = none) (ht : t k = some (numberText sp sign ds rest))
    (hsign : sign ≠ some true) (hfit : decimal ds < 4294967296) : getUint t k dflt = some (decimal ds) := by
  have h0 : (sign == some true) = false := by simpa using hsign
  simp only [getUint, ht, stoul, scan_numberText sp sign ds rest (blank_space sp hsp) hds hrest, Option.bind_some, h0,
    Bool.false_eq_true, if_false]
  rw [if_pos (by omega)]
  simp only [Option.map_some, Option.some.injEq]
  exact Nat.mod_eq_of_lt (by omega)

/-- What natural numbers are read as in general: modulo `2^32`, an error from `2^64` on (C60). -/
theorem uint_property_wraps (t : Table) (k : Str) (dflt : Nat) (sp : Str) (sign : Option Bool)
    (ds : List (Fin 10)) (rest : Str) (hsp : ∀ c ∈ sp, c ∈ blanks) (hds : ds ≠ [])
    (hrest : ∀ c, rest.head? = some c → digit c = none) (ht : t k = some (numberText sp sign ds rest)) :
    (2 ^ 64 ≤ decimal ds → getUint t k dflt = none) ∧
    (decimal ds < 2 ^ 64 → ∃ v, getUint t k dflt = some v ∧ v < 2 ^ 32 ∧
      ∃ q : Int, (v : Int) = (if sign = some true then -(decimal ds : Int) else decimal ds) + q * 2 ^ 32) := by
  simp only [getUint, ht, stoul, scan_numberText sp sign ds rest (blank_space sp hsp) hds hrest, Option.bind_some]
  constructor
  · intro h
    rw [if_neg (by omega)]; rfl
  · intro h
    rw [if_pos h]
    refine ⟨_, rfl, Nat.mod_lt _ (by norm_num), ?_⟩
    by_cases hs : sign = some true
    · subst hs
      simp only [BEq.rfl, if_true]
      refine ⟨((((2 ^ 64 - decimal ds) % 2 ^ 64 % 2 ^ 32 : Nat) : Int) + decimal ds) / 2 ^ 32, ?_⟩
      omega
    · have : (sign == some true) = false := by simpa using hs
      rw [this, if_neg hs]
      simp only [Bool.false_eq_true, if_false]
      refine ⟨(((decimal ds % 2 ^ 32 : Nat) : Int) - decimal ds) / 2 ^ 32, ?_⟩
      omega

/-- A missing numeric or boolean property has the default; any text but `false` and `0` is true (C60). -/
theorem missing_and_bool (t : Table) (k : Str) :
    (t k = none → (∀ d, getInt t k d = some d) ∧ (∀ d, getUint t k d = some d) ∧ (∀ d, getBool t k d = d)) ∧
    (∀ v d, t k = some v → (getBool t k d = false ↔ v = "false".toList ∨ v = "0".toList)) := by
  refine ⟨fun h => ⟨fun d => by simp [getInt, h], fun d => by simp [getUint, h], fun d => by simp [getBool, h]⟩,
    fun v d h => ?_⟩
  simp only [getBool, h, Bool.not_eq_false', Bool.or_eq_true, decide_eq_true_eq]

example : getInt (Table.empty.set "n".toList " -12 cells".toList) "n".toList 5 = some (-12) := by decide
example : " -12 cells".toList = numberText [' '] (some true) [1, 2] " cells".toList := by decide
example : getInt (Table.empty.set "n".toList "2147483648".toList) "n".toList 5 = none := by decide
example : getUint (Table.empty.set "n".toList "007".toList) "n".toList 5 = some 7 := by decide

/-- A negative natural number is silently read as a huge one. -/
theorem negative_uint_counterexample :
    getUint (Table.empty.set "n".toList "-1".toList) "n".toList 5 = some 4294967295 := by decide

/-- A too large natural number is silently read as a small one, although the same text is an error as an integer. -/
theorem large_uint_counterexample :
    getUint (Table.empty.set "n".toList "4294967296".toList) "n".toList 5 = some 0 ∧
    getInt (Table.empty.set "n".toList "4294967296".toList) "n".toList 5 = none := by
  constructor <;> decide

/-- `False` is true. -/
theorem capital_false_counterexample :
    getBool (Table.empty.set "b".toList "False".toList) "b".toList false = true := by decide

/-! ## Map dimensions (C45) -/

section
variable {K : Type*} [Field K] [LinearOrder K] [IsStrictOrderedRing K] [FloorRing K]

/-- The configured value in metres, or the default. -/
def Reads (stod : Str → Option K) (t : Table) (k : Str) (dflt v : K) : Prop :=
  (t k = none ∧ v = dflt) ∨ ∃ s, t k = some s ∧ stod s = some v

theorem reads_getDbl {stod : Str → Option K} {t : Table} {k : Str} {dflt v : K} :
    Reads stod t k dflt v ↔ getDbl stod t k dflt = some v := by
  unfold Reads getDbl
  cases t k with
  | none => simp [eq_comm]
  | some s => simp

/-- The least number of cells of size `scale` that cover `size`. -/
def Covers (n : Int) (size scale : K) : Prop := size ≤ (n : K) * scale ∧ ((n : K) - 1) * scale < size

theorem covers_ceil {size scale : K} (hs : 0 < scale) (n : Int) : Covers n size scale ↔ ⌈size / scale⌉ = n := by
  rw [Int.ceil_eq_iff, Covers, div_le_iff₀ hs, lt_div_iff₀ hs]
  exact and_comm

/-- **Map dimensions (C45)** as they are: the width of the map in cells comes from the property of the height and the
height from the property of the width; each is the least number of cells which covers the configured metres. -/
theorem map_dimensions (stod : Str → Option K) (t : Table) (w h scale : K)
    (hw : Reads stod t "slam/map/width_in_meters".toList 10 w)
    (hh : Reads stod t "slam/map/height_in_meters".toList 10 h)
    (hs : Reads stod t "slam/map/meters_per_cell".toList (1 / 10) scale) (hpos : 0 < scale) (p : GridParams K) :
    gridParams stod t = some p ↔
      p.scale = scale ∧ Covers p.width h scale ∧ Covers p.height w scale ∧
        (-2147483648 ≤ p.width ∧ p.width ≤ 2147483647) ∧ (-2147483648 ≤ p.height ∧ p.height ≤ 2147483647) := by
  rw [reads_getDbl] at hw hh hs
  simp only [gridParams, hw, hh, hs, Option.bind_some, if_neg hpos.ne', covers_ceil hpos, toInt32]
  obtain ⟨pw, ph, ps⟩ := p
  dsimp only
  by_cases h1 : -2 ^ 31 ≤ ⌈h / scale⌉ ∧ ⌈h / scale⌉ < 2 ^ 31
  · by_cases h2 : -2 ^ 31 ≤ ⌈w / scale⌉ ∧ ⌈w / scale⌉ < 2 ^ 31
    · rw [if_pos h1, if_pos h2]
      simp only [Option.bind_some, Option.map_some, Option.some.injEq, GridParams.mk.injEq]
      constructor
      · rintro ⟨rfl, rfl, rfl⟩
        exact ⟨rfl, rfl, rfl, ⟨by omega, by omega⟩, ⟨by omega, by omega⟩⟩
      · rintro ⟨rfl, rfl, rfl, -⟩
        exact ⟨rfl, rfl, rfl⟩
    · rw [if_pos h1, if_neg h2]
      simp only [Option.bind_some, Option.map_none, reduceCtorEq, false_iff]
      rintro ⟨-, -, h3, -, h4⟩
      rw [← h3] at h4
      omega
  · rw [if_neg h1]
    simp only [Option.bind_none, reduceCtorEq, false_iff]
    rintro ⟨-, h3, -, h4, -⟩
    rw [← h3] at h4
    omega

/-- **Map dimensions follow the configuration (C45)** for square maps. Otherwise: with different width and height the
two are exchanged, see the counterexample. -/
theorem square_map_dimensions (stod : Str → Option K) (t : Table) (w h scale : K)
    (hw : Reads stod t "slam/map/width_in_meters".toList 10 w)
    (hh : Reads stod t "slam/map/height_in_meters".toList 10 h)
    (hs : Reads stod t "slam/map/meters_per_cell".toList (1 / 10) scale) (hpos : 0 < scale) (hsq : w = h)
    (p : GridParams K) (hp : gridParams stod t = some p) :
    p.scale = scale ∧ Covers p.width w scale ∧ Covers p.height h scale := by
  obtain ⟨h1, h2, h3, -⟩ := (map_dimensions stod t w h scale hw hh hs hpos p).1 hp
  subst hsq
  exact ⟨h1, h2, h3⟩
end

/-- Numbers of the examples. -/
def exampleStod (s : Str) : Option ℚ :=
  if s = "20".toList then some 20 else if s = "0.3".toList then some (3 / 10) else none

/-- Width 20 m, height by default, scale 0.3 m. -/
def exampleTable : Table :=
  (Table.empty.set "slam/map/width_in_meters".toList "20".toList).set "slam/map/meters_per_cell".toList "0.3".toList

example : gridParams exampleStod exampleTable = some ⟨34, 67, 3 / 10⟩ := by
  have h1 : getDbl exampleStod exampleTable "slam/map/height_in_meters".toList 10 = some 10 := by decide +kernel
  have h2 : getDbl exampleStod exampleTable "slam/map/width_in_meters".toList 10 = some 20 := by decide +kernel
  have h3 : getDbl exampleStod exampleTable "slam/map/meters_per_cell".toList (1 / 10) = some (3 / 10) := by
    decide +kernel
  have h4 : ⌈(10 : ℚ) / (3 / 10)⌉ = 34 := by rw [Int.ceil_eq_iff]; norm_num
  have h5 : ⌈(20 : ℚ) / (3 / 10)⌉ = 67 := by rw [Int.ceil_eq_iff]; norm_num
  simp only [gridParams, h1, h2, h3, Option.bind_some, h4, h5, toInt32]
  norm_num

/-- A map configured as 20 m wide and 10 m high is 10 m wide and 20 m high. -/
theorem width_height_swapped_counterexample :
    Reads exampleStod exampleTable "slam/map/width_in_meters".toList 10 20 ∧
    Reads exampleStod exampleTable "slam/map/height_in_meters".toList 10 10 ∧
    ∃ p, gridParams exampleStod exampleTable = some p ∧ ¬ Covers p.width 20 p.scale ∧
      ¬ Covers p.height 10 p.scale := by
  have h1 : getDbl exampleStod exampleTable "slam/map/height_in_meters".toList 10 = some 10 := by decide +kernel
  have h2 : getDbl exampleStod exampleTable "slam/map/width_in_meters".toList 10 = some 20 := by decide +kernel
  have h3 : getDbl exampleStod exampleTable "slam/map/meters_per_cell".toList (1 / 10) = some (3 / 10) := by
    decide +kernel
  have h4 : ⌈(10 : ℚ) / (3 / 10)⌉ = 34 := by rw [Int.ceil_eq_iff]; norm_num
  have h5 : ⌈(20 : ℚ) / (3 / 10)⌉ = 67 := by rw [Int.ceil_eq_iff]; norm_num
  refine ⟨reads_getDbl.2 h2, reads_getDbl.2 h1, ⟨34, 67, 3 / 10⟩, ?_, ?_, ?_⟩
  · simp only [gridParams, h1, h2, h3, Option.bind_some, h4, h5, toInt32]
    norm_num
  · rw [covers_ceil (by norm_num), h5]; decide
  · rw [covers_ceil (by norm_num), h4]; decide

/-! ## Ignored transforms (C61) -/

theorem mem_split_first (sep : Char) (s : Str) (h : sep ∈ s) : ∃ a b, s = a ++ sep :: b ∧ sep ∉ a := by
  induction s with
  | nil => simp at h
  | cons c s ih =>
    by_cases hc : c = sep
    · exact ⟨[], s, by simp [hc], by simp⟩
    · have : sep ∈ s := by
        rcases List.mem_cons.1 h with h | h
        · exact absurd h.symm hc
        · exact h
      obtain ⟨a, b, rfl, ha⟩ := ih this
      exact ⟨c :: a, b, by simp, by simp [ha, Ne.symm hc]⟩

theorem splitAt1_append (sep : Char) (a b : Str) (h : sep ∉ a) : splitAt1 sep (a ++ sep :: b) = some (a, b) := by
  have hm : sep ∈ a ++ sep :: b := by simp
  rw [splitAt1, if_pos hm]
  induction a with
  | nil => simp
  | cons c a ih =>
    have hc : c ≠ sep := fun e => h (by simp [e])
    have ha : sep ∉ a := fun e => h (by simp [e])
    have := ih ha (by simp)
    simpa [hc] using this

theorem splitAt1_none (sep : Char) (s : Str) (h : sep ∉ s) : splitAt1 sep s = none := by rw [splitAt1, if_neg h]

theorem mem_addIgnore (ig : Str → List Str) (a b : Str) (h : '-' ∉ a) (x y : Str) :
    y ∈ addIgnore ig (a ++ '-' :: b) x ↔ y ∈ ig x ∨ (x = '/' :: a ∧ y = '/' :: b) := by
  simp only [addIgnore, splitAt1_append '-' a b h]
  by_cases hx : x = '/' :: a
  · simp [hx]
  · simp [hx]

theorem mem_ignoresFrom (l : List (Str × Str)) (h : ∀ p ∈ l, '-' ∉ p.1 ∧ ':' ∉ p.1 ∧ ':' ∉ p.2)
    (ig : Str → List Str) (fuel : Nat) (hf : (ignoreText l).length < fuel) (x y : Str) :
    y ∈ ignoresFrom ig fuel (ignoreText l) x ↔ y ∈ ig x ∨ ∃ p ∈ l, x = '/' :: p.1 ∧ y = '/' :: p.2 := by
  induction l generalizing ig fuel with
  | nil =>
    cases fuel with
    | zero => simp [ignoresFrom]
    | succ n => simp [ignoresFrom, ignoreText]
  | cons p l ih =>
    have hp := h p (by simp)
    have hne : ∀ z : Str, p.1 ++ '-' :: z ≠ [] := by intro z; simp
    have hcol : ':' ∉ p.1 ++ '-' :: p.2 := by simp [hp.2.1, hp.2.2]
    cases fuel with
    | zero => simp at hf
    | succ n =>
      cases l with
      | nil =>
        have ht : ignoreText [p] = p.1 ++ '-' :: p.2 := rfl
        rw [ht]
        simp only [ignoresFrom]
        rw [if_neg (hne _), splitAt1_none _ _ hcol]
        simp only [mem_addIgnore _ _ _ hp.1, List.mem_singleton, exists_eq_left]
      | cons q r =>
        have ht : ignoreText (p :: q :: r) = (p.1 ++ '-' :: p.2) ++ ':' :: ignoreText (q :: r) := by
          simp [ignoreText]
        rw [ht] at hf ⊢
        simp only [ignoresFrom]
        rw [if_neg (by simp), splitAt1_append _ _ _ hcol]
        have hlen : (ignoreText (q :: r)).length < n := by
          simp only [List.length_append, List.length_cons] at hf
          omega
        simp only
        rw [ih (fun p' hp' => h p' (List.mem_cons_of_mem _ hp')) _ _ hlen, mem_addIgnore _ _ _ hp.1]
        simp only [List.mem_cons]
        constructor
        · rintro ((h1 | ⟨h1, h2⟩) | ⟨p', h1, h2⟩)
          · exact .inl h1
          · exact .inr ⟨p, .inl rfl, h1, h2⟩
          · exact .inr ⟨p', .inr h1, h2⟩
        · rintro (h1 | ⟨p', (rfl | h1), h2⟩)
          · exact .inl (.inl h1)
          · exact .inl (.inr h2)
          · exact .inr ⟨p', h1, h2⟩

theorem mem_addIgnore_any (ig : Str → List Str) (e : Str) (x y : Str) :
    y ∈ addIgnore ig e x ↔
      y ∈ ig x ∨ ∃ a b, e = a ++ '-' :: b ∧ '-' ∉ a ∧ x = '/' :: a ∧ y = '/' :: b := by
  by_cases h : '-' ∈ e
  · obtain ⟨a, b, rfl, ha⟩ := mem_split_first '-' e h
    rw [mem_addIgnore _ _ _ ha]
    constructor
    · rintro (h1 | ⟨h1, h2⟩)
      · exact .inl h1
      · exact .inr ⟨a, b, rfl, ha, h1, h2⟩
    · rintro (h1 | ⟨a', b', he, ha', h1, h2⟩)
      · exact .inl h1
      · have e1 := splitAt1_append '-' a b ha
        rw [he, splitAt1_append '-' a' b' ha'] at e1
        simp only [Option.some.injEq, Prod.mk.injEq] at e1
        exact .inr ⟨by rw [h1, e1.1], by rw [h2, e1.2]⟩
  · simp only [addIgnore, splitAt1_none _ _ h]
    constructor
    · exact .inl
    · rintro (h1 | ⟨a, b, rfl, -⟩)
      · exact h1
      · exact absurd (by simp) h

theorem mem_ignoresFrom_any (fuel : Nat) (ig : Str → List Str) (data : Str) (hf : data.length < fuel) (x y : Str) :
    y ∈ ignoresFrom ig fuel data x ↔ y ∈ ig x ∨ Listed data x y := by
  induction fuel generalizing ig data with
  | zero => omega
  | succ n ih =>
    simp only [ignoresFrom]
    by_cases hd : data = []
    · rw [if_pos hd]
      subst hd
      constructor
      · exact .inl
      · rintro (h1 | ⟨e, he, a, b, rfl, -⟩)
        · exact h1
        · obtain ⟨p, q, hpq, -⟩ := he
          simp at hpq
    · rw [if_neg hd]
      by_cases hc : ':' ∈ data
      · obtain ⟨e, r, rfl, he⟩ := mem_split_first ':' data hc
        rw [splitAt1_append _ _ _ he]
        simp only
        rw [ih _ _ (by simp only [List.length_append, List.length_cons] at hf; omega), mem_addIgnore_any, or_assoc]
        apply or_congr_right
        constructor
        · rintro (⟨a, b, h⟩ | ⟨f, hf, h⟩)
          · exact ⟨e, ⟨[], ':' :: r, by simp, he, .inl rfl, .inr ⟨r, rfl⟩⟩, a, b, h⟩
          · obtain ⟨p, q, hpq, h1, h2, h3⟩ := hf
            refine ⟨f, ⟨e ++ ':' :: p, q, by simp [hpq], h1, .inr ?_, h3⟩, h⟩
            rcases h2 with rfl | ⟨p', rfl⟩
            · exact ⟨e, by simp⟩
            · exact ⟨e ++ ':' :: p', by simp⟩
        · rintro ⟨f, ⟨p, q, hpq, h1, h2, h3⟩, h⟩
          rcases h2 with rfl | ⟨p', rfl⟩
          · left
            rcases h3 with rfl | ⟨q', rfl⟩
            · exfalso; apply h1; rw [List.nil_append, List.append_nil] at hpq; rw [← hpq]; simp
            · have e1 := splitAt1_append ':' e r he
              rw [hpq, List.nil_append, splitAt1_append ':' f q' h1] at e1
              simp only [Option.some.injEq, Prod.mk.injEq] at e1
              rw [← e1.1]; exact h
          · right
            refine ⟨f, ?_, h⟩
            -- the first colon of the text is at the end of `e`
            by_cases hp : ':' ∈ p'
            · obtain ⟨a, b, rfl, ha⟩ := mem_split_first ':' p' hp
              have e1 := splitAt1_append ':' e r he
              rw [hpq] at e1
              rw [show a ++ ':' :: b ++ [':'] ++ f ++ q = a ++ ':' :: (b ++ [':'] ++ f ++ q) by simp,
                splitAt1_append ':' a _ ha] at e1
              simp only [Option.some.injEq, Prod.mk.injEq] at e1
              exact ⟨b ++ [':'], q, e1.2.symm, h1, .inr ⟨b, rfl⟩, h3⟩
            · have e1 := splitAt1_append ':' e r he
              rw [hpq] at e1
              rw [show p' ++ [':'] ++ f ++ q = p' ++ ':' :: (f ++ q) by simp, splitAt1_append ':' p' _ hp] at e1
              simp only [Option.some.injEq, Prod.mk.injEq] at e1
              exact ⟨[], q, by simpa using e1.2.symm, h1, .inl rfl, h3⟩
      · rw [splitAt1_none _ _ hc]
        simp only
        rw [mem_addIgnore_any]
        apply or_congr_right
        constructor
        · rintro ⟨a, b, h⟩
          exact ⟨data, ⟨[], [], by simp, hc, .inl rfl, .inl rfl⟩, a, b, h⟩
        · rintro ⟨f, ⟨p, q, hpq, h1, h2, h3⟩, h⟩
          rcases h2 with rfl | ⟨p', rfl⟩
          · rcases h3 with rfl | ⟨q', rfl⟩
            · have : data = f := by simpa using hpq
              rw [this]; exact h
            · exact absurd (by rw [hpq]; simp) hc
          · exact absurd (by rw [hpq]; simp) hc

/-- **The meaning of every ignore text (C61)**: whatever the text of the property is, a transform is skipped exactly if
an entry of the text, split at its first hyphen, names it. -/
theorem ignored_transforms (t : Table) (fromFrame toFrame : Str) :
    shouldSkip (tfIgnores t) fromFrame toFrame = true ↔
      Listed (getStr t "in/odometry/ros/tf/ignore".toList []) fromFrame toFrame := by
  have h : shouldSkip (tfIgnores t) fromFrame toFrame = true ↔ toFrame ∈ tfIgnores t fromFrame := by
    simp [shouldSkip]
  rw [h]
  simp only [tfIgnores]
  rw [mem_ignoresFrom_any _ _ _ (Nat.lt_succ_self _)]
  simp

example : Listed "odom-base_link:map-odom-1".toList "/map".toList "/odom-1".toList :=
  ⟨"map-odom-1".toList, ⟨"odom-base_link:".toList, [], by decide, by decide, .inr ⟨"odom-base_link".toList, by decide⟩,
    .inl rfl⟩, "map".toList, "odom-1".toList, by decide, by decide, by decide, by decide⟩


/-- **Exactly the listed transforms are ignored (C61)**: every list of transforms the text can express (no colons in the
names, no hyphens in the first ones) has a text that ignores exactly them. -/
theorem ignored_transforms_listed (t : Table) (l : List (Str × Str))
    (hl : ∀ p ∈ l, '-' ∉ p.1 ∧ ':' ∉ p.1 ∧ ':' ∉ p.2)
    (ht : getStr t "in/odometry/ros/tf/ignore".toList [] = ignoreText l) (fromFrame toFrame : Str) :
    shouldSkip (tfIgnores t) fromFrame toFrame = true ↔
      ∃ p ∈ l, fromFrame = '/' :: p.1 ∧ toFrame = '/' :: p.2 := by
  simp only [shouldSkip, decide_eq_true_eq, tfIgnores, ht]
  rw [mem_ignoresFrom l hl _ _ (Nat.lt_succ_self _)]
  simp

example : shouldSkip (tfIgnores (Table.empty.set "in/odometry/ros/tf/ignore".toList
    "odom-base_link:map-odom-1".toList)) "/map".toList "/odom-1".toList = true := by decide

example : ignoreText [("odom".toList, "base_link".toList), ("map".toList, "odom-1".toList)] =
    "odom-base_link:map-odom-1".toList := by decide

/-- A frame with a hyphen can not be ignored as the source of a transform: the entry of `base-link → laser` ignores
`base → link-laser`. -/
theorem hyphen_frame_counterexample :
    let t := Table.empty.set "in/odometry/ros/tf/ignore".toList (ignoreText [("base-link".toList, "laser".toList)])
    shouldSkip (tfIgnores t) "/base-link".toList "/laser".toList = false ∧
      shouldSkip (tfIgnores t) "/base".toList "/link-laser".toList = true := by
  constructor <;> decide

/-! ## Command line (C53) -/

theorem isFlag_iff (a : Str) : IsFlag a ↔ a.head? = some '-' := by
  cases a with
  | nil => simp [IsFlag]
  | cons c cs => simp [IsFlag]

/-- What the positional arguments `done` make of the fields. -/
structure Shows (s : ArgState) (is : List Item) : Prop where
  valid : s.args.isValid = decide ((positionals is).length ≤ 2)
  slam : s.args.slamType = (positionals is).getD 0 []
  bag : s.args.bag = (positionals is).getD 1 []
  traj : s.args.traj = (trajFiles is).getLast?
  map : s.args.map = (mapFiles is).getLastD []
  verbose : s.args.verbose = isVerbose is
  props : s.args.props = propFiles is
  warned : s.args.warned = unknownFlags is
  count : s.mandatory = (positionals is).length

theorem getD_concat (l : List Str) (a : Str) (i : Nat) :
    (l ++ [a]).getD i [] = if i < l.length then l.getD i [] else if i = l.length then a else [] := by
  by_cases h : i < l.length
  · rw [if_pos h]; simp [List.getD_eq_getElem?_getD, List.getElem?_append_left h]
  · rw [if_neg h]
    by_cases h2 : i = l.length
    · rw [if_pos h2, h2]; simp [List.getD_eq_getElem?_getD]
    · rw [if_neg h2, List.getD_eq_getElem?_getD, List.getElem?_eq_none (by simp; omega)]; rfl

/-- A state of the parser after the parts `pre`: the flag is empty, or it is that of a dangling part. -/
def FlagOk (s : ArgState) (rest : List Item) : Prop :=
  s.flag = [] ∨ ∀ a, (rest.flatMap Item.args).head? = some a → IsFlag a

theorem parse_parts (is pre : List Item) (s : ArgState) (hw : WellFormed is) (hs : Shows s pre) (hf : FlagOk s is) :
    Shows ((is.flatMap Item.args).foldl argStep s) (pre ++ is) := by
  induction is generalizing pre s with
  | nil => simpa using hs
  | cons i r ih =>
    have happ : pre ++ i :: r = (pre ++ [i]) ++ r := by simp
    rw [happ, List.flatMap_cons, List.foldl_append]
    obtain ⟨hv, h1, h2, h3, h4, h5, h6, h7, h8⟩ := hs
    cases i with
    | positional a =>
      have hna : ¬ a.head? = some '-' := fun h => hw.1 ((isFlag_iff a).2 h)
      have hfl : s.flag = [] := by
        rcases hf with h | h
        · exact h
        · exact absurd (h a (by simp [Item.args])) hw.1
      have hstep : (Item.args (.positional a)).foldl argStep s = { s with
          args := if s.mandatory = 0 then { s.args with slamType := a }
            else if s.mandatory = 1 then { s.args with bag := a } else { s.args with isValid := false }
          mandatory := s.mandatory + 1 } := by
        simp only [Item.args, List.foldl_cons, List.foldl_nil, argStep]
        rw [if_neg hna, if_pos hfl]
      rw [hstep]
      clear hstep
      have hp : positionals (pre ++ [.positional a]) = positionals pre ++ [a] := by simp [positionals]
      refine ih (pre ++ [.positional a]) ⟨_, s.mandatory + 1, s.flag⟩ hw.2 ?_ (.inl hfl)
      by_cases m0 : s.mandatory = 0
      · have hl : (positionals pre).length = 0 := by omega
        constructor <;> simp only [m0, if_true, hp, getD_concat, hl]
        · simp [hv, hl]
        · simp
        · rw [h2, List.length_eq_zero_iff.1 hl]; simp
        · rw [h3]; simp [trajFiles]
        · rw [h4]; simp [mapFiles]
        · rw [h5]; simp [isVerbose]
        · rw [h6]; simp [propFiles]
        · rw [h7]; simp [unknownFlags]
        · simp [hl]
      · by_cases m1 : s.mandatory = 1
        · have hl : (positionals pre).length = 1 := by omega
          constructor <;> simp only [m1, hp, getD_concat, hl]
          · simp [hv, hl]
          · simp [h1]
          · simp
          · simp [h3, trajFiles]
          · simp [h4, mapFiles]
          · simp [h5, isVerbose]
          · simp [h6, propFiles]
          · simp [h7, unknownFlags]
          · simp [hl]
        · have hl : 2 ≤ (positionals pre).length := by omega
          constructor <;> simp only [m0, m1, if_false, hp, getD_concat]
          · simp; omega
          · rw [if_pos (by omega), h1]
          · rw [if_pos (by omega), h2]
          · rw [h3]; simp [trajFiles]
          · rw [h4]; simp [mapFiles]
          · rw [h5]; simp [isVerbose]
          · rw [h6]; simp [propFiles]
          · rw [h7]; simp [unknownFlags]
          · simp [h8]
    | verbose =>
      have hstep : (Item.args .verbose).foldl argStep s =
          { s with args := { s.args with verbose := true }, flag := [] } := by
        simp only [Item.args, List.foldl_cons, List.foldl_nil, argStep]
        simp
      rw [hstep]
      refine ih (pre ++ [.verbose]) ⟨_, s.mandatory, []⟩ hw ?_ (by exact .inl rfl)
      constructor
      · simp [hv, positionals] <;> rfl
      · simp [h1, positionals]
      · simp [h2, positionals]
      · simp [h3, trajFiles]
      · simp [h4, mapFiles]
      · simp [isVerbose]
      · simp [h6, propFiles]
      · simp [h7, unknownFlags]
      · simp [h8, positionals]
    | props a =>
      have hna : ¬ a.head? = some '-' := fun h => hw.1 ((isFlag_iff a).2 h)
      have hstep : (Item.args (.props a)).foldl argStep s =
          { s with args := { s.args with props := s.args.props ++ [a] }, flag := [] } := by
        simp only [Item.args, List.foldl_cons, List.foldl_nil, argStep]
        rw [if_neg hna]
        simp
      rw [hstep]
      refine ih (pre ++ [.props a]) ⟨_, s.mandatory, []⟩ hw.2 ?_ (by exact .inl rfl)
      constructor
      · simp [hv, positionals] <;> rfl
      · simp [h1, positionals]
      · simp [h2, positionals]
      · simp [h3, trajFiles]
      · simp [h4, mapFiles]
      · simp [h5, isVerbose]
      · simp [h6, propFiles]
      · simp [h7, unknownFlags]
      · simp [h8, positionals]
    | traj a =>
      have hna : ¬ a.head? = some '-' := fun h => hw.1 ((isFlag_iff a).2 h)
      have hstep : (Item.args (.traj a)).foldl argStep s =
          { s with args := { s.args with traj := some a }, flag := [] } := by
        simp only [Item.args, List.foldl_cons, List.foldl_nil, argStep]
        rw [if_neg hna]
        simp
      rw [hstep]
      refine ih (pre ++ [.traj a]) ⟨_, s.mandatory, []⟩ hw.2 ?_ (by exact .inl rfl)
      constructor
      · simp [hv, positionals] <;> rfl
      · simp [h1, positionals]
      · simp [h2, positionals]
      · simp [trajFiles]
      · simp [h4, mapFiles]
      · simp [h5, isVerbose]
      · simp [h6, propFiles]
      · simp [h7, unknownFlags]
      · simp [h8, positionals]
    | map a =>
      have hna : ¬ a.head? = some '-' := fun h => hw.1 ((isFlag_iff a).2 h)
      have hstep : (Item.args (.map a)).foldl argStep s =
          { s with args := { s.args with map := a }, flag := [] } := by
        simp only [Item.args, List.foldl_cons, List.foldl_nil, argStep]
        rw [if_neg hna]
        simp
      rw [hstep]
      refine ih (pre ++ [.map a]) ⟨_, s.mandatory, []⟩ hw.2 ?_ (by exact .inl rfl)
      constructor
      · simp [hv, positionals] <;> rfl
      · simp [h1, positionals]
      · simp [h2, positionals]
      · simp [h3, trajFiles]
      · simp [mapFiles]
      · simp [h5, isVerbose]
      · simp [h6, propFiles]
      · simp [h7, unknownFlags]
      · simp [h8, positionals]
    | unknown f a =>
      obtain ⟨hw1, hw2, hw3, hw4⟩ := hw
      have hna : ¬ a.head? = some '-' := fun h => hw3 ((isFlag_iff a).2 h)
      have hff : f.head? = some '-' := (isFlag_iff f).1 hw1
      simp only [List.mem_cons, List.not_mem_nil, or_false, not_or] at hw2
      obtain ⟨e1, e2, e3, e4⟩ := hw2
      have hstep : (Item.args (.unknown f a)).foldl argStep s =
          { s with args := { s.args with warned := s.args.warned ++ [f] }, flag := [] } := by
        simp only [Item.args, List.foldl_cons, List.foldl_nil]
        have : argStep s f = { s with flag := f } := by
          simp only [argStep]; rw [if_pos hff, if_neg e1]
        rw [this]
        simp only [argStep]
        have hne : f ≠ [] := by rintro rfl; simp at hff
        rw [if_neg hna, if_neg hne, if_neg e2, if_neg e3, if_neg e4]
      rw [hstep]
      refine ih (pre ++ [.unknown f a]) ⟨_, s.mandatory, []⟩ hw4 ?_ (by exact .inl rfl)
      constructor
      · simp [hv, positionals] <;> rfl
      · simp [h1, positionals]
      · simp [h2, positionals]
      · simp [h3, trajFiles]
      · simp [h4, mapFiles]
      · simp [h5, isVerbose]
      · simp [h6, propFiles]
      · simp [h7, unknownFlags]
      · simp [h8, positionals]
    | dangling f =>
      obtain ⟨hw1, hw2, hw3, hw4⟩ := hw
      have hff : f.head? = some '-' := (isFlag_iff f).1 hw1
      have hstep : (Item.args (.dangling f)).foldl argStep s = { s with flag := f } := by
        simp only [Item.args, List.foldl_cons, List.foldl_nil, argStep]
        rw [if_pos hff, if_neg hw2]
      rw [hstep]
      refine ih (pre ++ [.dangling f]) _ hw4 ?_ (by exact .inr hw3)
      constructor
      · simp [hv, positionals] <;> rfl
      · simp [h1, positionals]
      · simp [h2, positionals]
      · simp [h3, trajFiles]
      · simp [h4, mapFiles]
      · simp [h5, isVerbose]
      · simp [h6, propFiles]
      · simp [h7, unknownFlags]
      · simp [h8, positionals]

/-- **The command line is read by parts (C53)**: whatever the order of the parts, the first two positional arguments
are the type and the bag, the line is valid exactly if there are two, each option has the value that follows it (the
last one counts; of properties files all, in order), and undocumented flags with values are reported. Not reported: flags
without a value are dropped without a report, see the counterexamples. -/
theorem command_line (is : List Item) (h : WellFormed is) :
    parseArgs (is.flatMap Item.args) =
      { isValid := decide ((positionals is).length = 2)
        slamType := (positionals is).getD 0 []
        bag := (positionals is).getD 1 []
        traj := (trajFiles is).getLast?
        map := (mapFiles is).getLastD []
        verbose := isVerbose is
        props := propFiles is
        warned := unknownFlags is } := by
  have := parse_parts is [] ⟨⟨true, [], [], none, [], false, [], []⟩, 0, []⟩ h
    (by constructor <;> simp [positionals, trajFiles, mapFiles, isVerbose, propFiles, unknownFlags]) (.inl rfl)
  rw [List.nil_append] at this
  obtain ⟨hv, h1, h2, h3, h4, h5, h6, h7, h8⟩ := this
  unfold parseArgs
  rw [← h1, ← h2, ← h3, ← h4, ← h5, ← h6, ← h7]
  simp only [hv, h8]
  congr 1
  by_cases e : (positionals is).length = 2
  · simp [e]
  · simp [e]

/-- **Every command line is made of such parts (C53)**, so `command_line` says what any argument list does. -/
theorem every_command_line (argv : List Str) : ∃ is, WellFormed is ∧ is.flatMap Item.args = argv := by
  induction hn : argv.length using Nat.strong_induction_on generalizing argv with
  | _ n ih =>
    match argv, hn with
    | [], _ => exact ⟨[], trivial, rfl⟩
    | a :: rest, hn =>
      have hlen : rest.length < n := by rw [← hn]; simp
      obtain ⟨is, hw, he⟩ := ih _ hlen rest rfl
      by_cases hf : IsFlag a
      · by_cases hvb : a = "-v".toList
        · exact ⟨.verbose :: is, hw, by simp [Item.args, he, hvb]⟩
        match rest, he, hn with
        | [], he, hn =>
          refine ⟨.dangling a :: is, ⟨hf, hvb, ?_, hw⟩, by simp [Item.args, he]⟩
          rw [he]; simp
        | b :: rest', he, hn =>
          by_cases hb : IsFlag b
          · refine ⟨.dangling a :: is, ⟨hf, hvb, ?_, hw⟩, by simp [Item.args, he]⟩
            rw [he]
            intro c hc
            simp only [List.head?_cons, Option.some.injEq] at hc
            exact hc ▸ hb
          · obtain ⟨is', hw', he'⟩ := ih rest'.length (by rw [← hn]; simp; omega) rest' rfl
            by_cases h1 : a = "-p".toList
            · exact ⟨.props b :: is', ⟨hb, hw'⟩, by simp [Item.args, he', h1]⟩
            by_cases h2 : a = "-t".toList
            · exact ⟨.traj b :: is', ⟨hb, hw'⟩, by simp [Item.args, he', h2]⟩
            by_cases h3 : a = "-m".toList
            · exact ⟨.map b :: is', ⟨hb, hw'⟩, by simp [Item.args, he', h3]⟩
            refine ⟨.unknown a b :: is', ⟨hf, ?_, hb, hw'⟩, by simp [Item.args, he']⟩
            simp only [List.mem_cons, List.not_mem_nil, or_false, not_or]
            exact ⟨hvb, h1, h2, h3⟩
      · exact ⟨.positional a :: is, ⟨hf, hw⟩, by simp [Item.args, he]⟩

example : parseArgs ["-p".toList, "a.properties".toList, "tiny".toList, "-v".toList, "-m".toList, "map.pgm".toList,
    "x.bag".toList, "-q".toList, "1".toList] =
    ⟨true, "tiny".toList, "x.bag".toList, none, "map.pgm".toList, true, ["a.properties".toList], ["-q".toList]⟩ := by
  decide

example : WellFormed [.props "a.properties".toList, .positional "tiny".toList, .verbose, .map "map.pgm".toList,
    .positional "x.bag".toList, .unknown "-q".toList "1".toList] := by
  simp [WellFormed, IsFlag]

/-- A flag without value is lost without any report: the trajectory is not written. -/
theorem dangling_flag_counterexample :
    parseArgs ["tiny".toList, "x.bag".toList, "-t".toList] =
      ⟨true, "tiny".toList, "x.bag".toList, none, [], false, [], []⟩ := by decide

/-- `-t -v out` loses the option and takes its value as a positional argument. -/
theorem split_option_counterexample :
    parseArgs ["tiny".toList, "-t".toList, "-v".toList, "out".toList] =
      ⟨true, "tiny".toList, "out".toList, none, [], true, [], []⟩ := by decide

/-- An undocumented switch swallows the following positional argument. -/
theorem unknown_switch_counterexample :
    parseArgs ["-x".toList, "tiny".toList, "x.bag".toList] =
      ⟨false, "x.bag".toList, [], none, [], false, [], ["-x".toList]⟩ := by decide

end Slam.Config
