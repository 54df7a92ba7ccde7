import Verif.Config.Props
import Verif.Text.Number

/-!
# Floating point properties (C60)

`get_dbl`, src/utils/properties_providers.h:54-56, with `std::stod` on decimal numbers.
-/

set_option autoImplicit false
set_option linter.unusedSectionVars false

namespace Slam.Config
open Slam.Float

variable {K : Type} [Field K] [LinearOrder K] [IsStrictOrderedRing K] [FloorRing K]

/-! ## Model -/

/-- The result of `strtod` does not fit: too large, or an inexact result below the normal numbers (`ERANGE`). `v` is the
number written, `r` the rounding. -/
def outOfRange (r : K → K) (v : K) : Prop := 2 ^ (1024 : ℤ) ≤ |r v| ∨ (|r v| < 2 ^ (-1022 : ℤ) ∧ r v ≠ v)

instance (r : K → K) (v : K) : Decidable (outOfRange r v) := by unfold outOfRange; infer_instance

/-- `std::stod` (C++ library) on texts that do not begin with a hexadecimal number, `inf` or `nan`, which are not
modelled: blanks, sign, digits with an optional point, an optional exponent (an `e` without digits after it is not part of
the number); anything after that is ignored. `none`: an exception. -/
def stodDec (r : K → K) (s : Str) : Option K :=
  let s := Text.takeSign (s.dropWhile isSpace)
  let i := s.2.takeWhile Text.isDig
  let f := Text.takeFrac (s.2.dropWhile Text.isDig)
  if i ++ f.1 = [] then none
  else
    let e : ℤ := ((Text.takeExp f.2).map Prod.fst).getD 0
    let v : K := (Text.natOf (i ++ f.1) : K) * 10 ^ (e - (f.1.length : ℤ))
    let v := if s.1 then -v else v
    if outOfRange r v then none else some (r v)

/-! ## Specification -/

/-- A decimal number as people write it. -/
structure Decimal where
  /-- `some true`: minus, `some false`: plus -/
  sign : Option Bool
  int : List (Fin 10)
  /-- digits after the point, if there is a point -/
  frac : Option (List (Fin 10))
  /-- letter, sign and digits of the exponent -/
  exp : Option (Bool × Option Bool × List (Fin 10))

def signText : Option Bool → Str
  | none => []
  | some true => ['-']
  | some false => ['+']

def fracText : Option (List (Fin 10)) → Str
  | none => []
  | some f => '.' :: f.map digitChar

def expText : Option (Bool × Option Bool × List (Fin 10)) → Str
  | none => []
  | some (u, s, ds) => (if u then 'E' else 'e') :: (signText s ++ ds.map digitChar)

/-- Its text. -/
def Decimal.text (d : Decimal) : Str := signText d.sign ++ (d.int.map digitChar ++ (fracText d.frac ++ expText d.exp))

/-- The fractional digits. -/
def Decimal.fraction (d : Decimal) : List (Fin 10) := d.frac.getD []

/-- The exponent. -/
def Decimal.exponent (d : Decimal) : ℤ :=
  match d.exp with
  | none => 0
  | some (_, s, ds) => if s = some true then -(decimal ds : ℤ) else decimal ds

/-- It has digits, and digits in the exponent if there is one. -/
def Decimal.Ok (d : Decimal) : Prop := (d.int ≠ [] ∨ d.fraction ≠ []) ∧ ∀ u s ds, d.exp = some (u, s, ds) → ds ≠ []

/-- The number it denotes. -/
def Decimal.value (d : Decimal) : K :=
  (if d.sign = some true then -1 else 1) *
    ((decimal d.int : K) + (decimal d.fraction : K) / 10 ^ d.fraction.length) * 10 ^ d.exponent

/-! ## Proofs -/

theorem isDig_digitChar (d : Fin 10) : Text.isDig (digitChar d) = true := by revert d; decide

theorem digitChar_ne : ∀ d : Fin 10, digitChar d ≠ '-' ∧ digitChar d ≠ '+' := by decide

theorem digitChar_space : ∀ d : Fin 10, isSpace (digitChar d) = false := by decide

theorem isDig_map (ds : List (Fin 10)) : ∀ c ∈ ds.map digitChar, Text.isDig c = true := by
  intro c hc
  obtain ⟨d, _, rfl⟩ := List.mem_map.1 hc
  exact isDig_digitChar d

theorem natOf_map (ds : List (Fin 10)) : Text.natOf (ds.map digitChar) = decimal ds := by
  have hd : ∀ d : Fin 10, (digitChar d).toNat - 48 = d.val := by decide
  unfold Text.natOf decimal
  rw [List.foldl_map]
  simp only [hd]

theorem takeSign_text (s : Option Bool) (t : Str) (h : ∀ c, t.head? = some c → c ≠ '-' ∧ c ≠ '+') :
    Text.takeSign (signText s ++ t) = (decide (s = some true), t) := by
  match s with
  | some true => rfl
  | some false => rfl
  | none =>
    simp only [signText, List.nil_append, reduceCtorEq, decide_false]
    unfold Text.takeSign
    split
    · exact absurd rfl (h '-' rfl).1
    · exact absurd rfl (h '+' rfl).2
    · rfl

/-- **Floating point properties are read as written (C60)**: the value of a property is the decimal number its text begins
with (after blanks), rounded to a double; text after the number is ignored; a number of 2^1024 or more, or an inexact one below
2^-1022, is an error. -/
theorem double_property_as_written (r : K → K) (t : Table) (k : Str) (dflt : K) (sp rest : Str) (d : Decimal) (hd : d.Ok)
    (hsp : ∀ c ∈ sp, isSpace c = true)
    (hrest : ∀ c, rest.head? = some c → digit c = none ∧ c ∉ ['.', 'e', 'E', 'x', 'X'])
    (ht : t k = some (sp ++ (d.text ++ rest))) :
    getDbl (stodDec r) t k dflt =
      if 2 ^ (1024 : ℤ) ≤ |r d.value| ∨ |r d.value| < 2 ^ (-1022 : ℤ) ∧ r d.value ≠ d.value then none
      else some (r d.value) := by
  have dig_none : ∀ c, digit c = none → Text.isDig c = false := by
    intro c h
    unfold digit at h
    unfold Text.isDig
    by_cases hc : 48 ≤ c.toNat ∧ c.toNat ≤ 57
    · rw [if_pos hc] at h; simp at h
    · simpa using fun h1 => by omega
  have hends : Text.Ends rest := by
    intro c hc
    obtain ⟨a, b⟩ := hrest c hc
    simp only [List.mem_cons, List.not_mem_nil, or_false, not_or] at b
    exact ⟨dig_none c a, b.1, b.2.1, b.2.2.1⟩
  obtain ⟨sign, i, frac, exp⟩ := d
  obtain ⟨hne, hexp⟩ := hd
  -- the parts after the sign
  obtain ⟨X, hX⟩ : ∃ X, X = expText exp := ⟨_, rfl⟩
  obtain ⟨F, hF⟩ : ∃ F, F = fracText frac := ⟨_, rfl⟩
  have htext : (Decimal.mk sign i frac exp).text ++ rest = signText sign ++ (i.map digitChar ++ (F ++ (X ++ rest))) := by
    simp [Decimal.text, hX, hF]
  have hXhead : ∀ c, (X ++ rest).head? = some c → Text.isDig c = false ∧ c ≠ '.' ∧ c ≠ '-' ∧ c ≠ '+' ∨ (X = [] ∧ rest.head? = some c) := by
    intro c hc
    match exp, hX with
    | none, hX => rw [hX] at hc ⊢; exact .inr ⟨rfl, hc⟩
    | some (true, s, ds), hX => rw [hX] at hc; simp [expText] at hc; subst hc; left; decide
    | some (false, s, ds), hX => rw [hX] at hc; simp [expText] at hc; subst hc; left; decide
  have hXd : ∀ c, (X ++ rest).head? = some c → Text.isDig c = false ∧ c ≠ '.' := by
    intro c hc
    rcases hXhead c hc with h | h
    · exact ⟨h.1, h.2.1⟩
    · exact ⟨(hends c h.2).1, (hends c h.2).2.1⟩
  have hFd : ∀ c, (F ++ (X ++ rest)).head? = some c → Text.isDig c = false := by
    intro c hc
    match frac, hF with
    | none, hF => rw [hF] at hc; exact (hXd c hc).1
    | some f, hF => rw [hF] at hc; simp [fracText] at hc; subst hc; decide
  have hfracTake : Text.takeFrac (F ++ (X ++ rest)) = ((Decimal.mk sign i frac exp).fraction.map digitChar, X ++ rest) := by
    match frac, hF with
    | none, hF =>
      rw [show F = [] from hF]
      simp only [List.nil_append, Decimal.fraction, Option.getD_none, List.map_nil]
      unfold Text.takeFrac
      split
      · rename_i u heq
        exact absurd rfl (hXd '.' (by rw [heq]; rfl)).2
      · rfl
    | some f, hF =>
      obtain ⟨a, b⟩ := Text.takeWhile_digits (f.map digitChar) (X ++ rest) (isDig_map f) (fun c h => (hXd c h).1)
      rw [show F = '.' :: f.map digitChar from hF]
      simp only [List.cons_append, Text.takeFrac, a, b]
      rfl
  have hexpTake : ((Text.takeExp (X ++ rest)).map Prod.fst).getD 0 = (Decimal.mk sign i frac exp).exponent := by
    match exp, hX, hexp with
    | none, hX, _ =>
      rw [show X = [] from hX, List.nil_append, Text.takeExp_rest rest hends]; rfl
    | some (u, s, ds), hX, hexp =>
      have hds := hexp u s ds rfl
      obtain ⟨a, b⟩ := Text.takeWhile_digits (ds.map digitChar) rest (isDig_map ds) (fun c h => (hends c h).1)
      have hs : Text.takeSign (signText s ++ (ds.map digitChar ++ rest)) = (decide (s = some true), ds.map digitChar ++ rest) := by
        apply takeSign_text
        intro c hc
        cases ds with
        | nil => exact absurd rfl hds
        | cons d ds =>
          simp only [List.map_cons, List.cons_append, List.head?_cons, Option.some.injEq] at hc
          subst hc
          exact digitChar_ne d
      have hu : (if u = true then 'E' else 'e') = 'e' ∨ (if u = true then 'E' else 'e') = 'E' := by cases u <;> simp
      rw [show X = (if u = true then 'E' else 'e') :: (signText s ++ ds.map digitChar) from hX, List.cons_append, List.append_assoc]
      unfold Text.takeExp
      simp only [hu, if_true, hs, a, b, List.map_eq_nil_iff, hds, if_false, Option.map_some, Option.getD_some, natOf_map,
        Decimal.exponent, decide_eq_true_eq]
  -- the digits after the sign do not look like a sign
  have hhead : ∀ c, (i.map digitChar ++ (F ++ (X ++ rest))).head? = some c → c ≠ '-' ∧ c ≠ '+' := by
    intro c hc
    cases i with
    | cons d i =>
      simp only [List.map_cons, List.cons_append, List.head?_cons, Option.some.injEq] at hc
      subst hc
      exact digitChar_ne d
    | nil =>
      match frac, hF with
      | none, hF => simp [Decimal.fraction] at hne
      | some f, hF =>
        rw [show F = '.' :: f.map digitChar from hF] at hc
        simp only [List.map_nil, List.nil_append, List.cons_append, List.head?_cons, Option.some.injEq] at hc
        subst hc; decide
  have hblank : (sp ++ (signText sign ++ (i.map digitChar ++ (F ++ (X ++ rest))))).dropWhile isSpace =
      signText sign ++ (i.map digitChar ++ (F ++ (X ++ rest))) := by
    have hstart : ∃ c u, signText sign ++ (i.map digitChar ++ (F ++ (X ++ rest))) = c :: u ∧ isSpace c = false := by
      match sign with
      | some true => exact ⟨'-', _, rfl, by decide⟩
      | some false => exact ⟨'+', _, rfl, by decide⟩
      | none =>
        cases i with
        | cons d i => exact ⟨digitChar d, _, rfl, digitChar_space d⟩
        | nil =>
          match frac, hF with
          | none, hF => simp [Decimal.fraction] at hne
          | some f, hF => rw [hF]; exact ⟨'.', _, rfl, by decide⟩
    obtain ⟨c, u, hcu, hc⟩ := hstart
    rw [hcu]
    clear ht
    induction sp with
    | nil => simp [hc]
    | cons b sp ih =>
      rw [List.cons_append, List.dropWhile_cons, if_pos (hsp b (by simp))]
      exact ih (fun c hc => hsp c (by simp [hc]))
  obtain ⟨t1, t2⟩ := Text.takeWhile_digits (i.map digitChar) (F ++ (X ++ rest)) (isDig_map i) hFd
  have hnn : i.map digitChar ++ (Decimal.mk sign i frac exp).fraction.map digitChar ≠ [] := by
    intro e
    rw [List.append_eq_nil_iff, List.map_eq_nil_iff, List.map_eq_nil_iff] at e
    rcases hne with h | h
    · exact h e.1
    · exact h e.2
  unfold getDbl
  rw [ht, htext]
  simp only [stodDec, hblank, takeSign_text sign _ hhead, t1, t2, hfracTake, hnn, if_false, hexpTake]
  have hv : (if decide (sign = some true) = true then
        -((Text.natOf (i.map digitChar ++ (Decimal.mk sign i frac exp).fraction.map digitChar) : K) *
          10 ^ ((Decimal.mk sign i frac exp).exponent - (((Decimal.mk sign i frac exp).fraction.map digitChar).length : ℤ)))
      else (Text.natOf (i.map digitChar ++ (Decimal.mk sign i frac exp).fraction.map digitChar) : K) *
          10 ^ ((Decimal.mk sign i frac exp).exponent - (((Decimal.mk sign i frac exp).fraction.map digitChar).length : ℤ)))
      = (Decimal.mk sign i frac exp).value := by
    rw [Text.natOf_append, natOf_map, natOf_map]
    simp only [List.length_map, Decimal.value, decide_eq_true_eq]
    generalize (Decimal.mk sign i frac exp).fraction = f
    generalize (Decimal.mk sign i frac exp).exponent = e
    rw [zpow_sub₀ (by norm_num), zpow_natCast]
    push_cast
    have h10 : (10 : K) ^ f.length ≠ 0 := pow_ne_zero _ (by norm_num)
    by_cases hs : sign = some true
    · rw [if_pos hs, if_pos hs]; field_simp
    · rw [if_neg hs, if_neg hs]; field_simp
  rw [hv]
  rfl

/-- A missing property has the default, whatever its text would have to be (C60). -/
theorem missing_double (r : K → K) (t : Table) (k : Str) (dflt : K) (h : t k = none) :
    getDbl (stodDec r) t k dflt = some dflt := by
  simp [getDbl, h]

/-- Concrete: blanks, sign, fraction, exponent, trailing text. -/
example : getDbl (stodDec (id : ℚ → ℚ)) (Table.empty.set "n".toList " -12.50e-1 m".toList) "n".toList 5 = some (-5 / 4) := by
  decide +kernel

/-- A text that is no number is an error. -/
example : getDbl (stodDec (id : ℚ → ℚ)) (Table.empty.set "n".toList "abc".toList) "n".toList 5 = none := by decide +kernel

/-- An exponent without digits is not part of the number. -/
example : getDbl (stodDec (id : ℚ → ℚ)) (Table.empty.set "n".toList "2e".toList) "n".toList 5 = some 2 := by decide +kernel

/-- Hypotheses of `double_property_as_written`. -/
example : (Decimal.mk (some true) [1, 2] (some [5, 0]) (some (false, some true, [1]))).Ok ∧
    (Decimal.mk (some true) [1, 2] (some [5, 0]) (some (false, some true, [1]))).text = "-12.50e-1".toList ∧
    (Decimal.mk (some true) [1, 2] (some [5, 0]) (some (false, some true, [1]))).value = (-5 / 4 : ℚ) := by
  refine ⟨⟨.inl (by simp), ?_⟩, by decide, by decide +kernel⟩
  intro u s ds h
  simp only [Option.some.injEq, Prod.mk.injEq] at h
  obtain ⟨_, _, rfl⟩ := h
  simp

/-- A number too large for a double is an error. -/
example : getDbl (stodDec (id : ℚ → ℚ)) (Table.empty.set "n".toList "1e400".toList) "n".toList 5 = none := by decide +kernel

/-- The decimal comma of other locales ends the number: `0,5` is read as zero. -/
theorem double_comma_counterexample :
    getDbl (stodDec (id : ℚ → ℚ)) (Table.empty.set "n".toList "0,5".toList) "n".toList 5 = some 0 := by decide +kernel

end Slam.Config
