import Verif.Config.Double

/-!
# Texts without a number (C60)

A property whose text does not begin with a number (after blanks and an optional sign) is an error when it is asked for
as a number, src/utils/properties_providers.h:50-64.
-/

set_option autoImplicit false
set_option linter.unusedSectionVars false

namespace Slam.Config

theorem space_blank {c : Char} (h : isSpace c = true) : c ∈ blanks := by
  simp only [isSpace, Bool.or_eq_true, decide_eq_true_eq] at h
  simp only [blanks, List.mem_cons, List.not_mem_nil, or_false]
  have h11 : c.toNat = 11 → c = '\x0b' := fun h => by
    have := Char.ofNat_toNat c; rw [h] at this; exact this.symm
  have h12 : c.toNat = 12 → c = '\x0c' := fun h => by
    have := Char.ofNat_toNat c; rw [h] at this; exact this.symm
  tauto

theorem digit_char {c : Char} (h : 48 ≤ c.toNat ∧ c.toNat ≤ 57) : ∃ d : Fin 10, c = digitChar d := by
  refine ⟨⟨c.toNat - 48, by omega⟩, ?_⟩
  have h1 : 48 + (c.toNat - 48) = c.toNat := by omega
  have : digitChar ⟨c.toNat - 48, by omega⟩ = Char.ofNat (48 + (c.toNat - 48)) := rfl
  rw [this, h1, Char.ofNat_toNat]

theorem of_takeWhile {p : Char → Bool} {l : Str} {c : Char} (h : c ∈ l.takeWhile p) : p c = true := by
  induction l with
  | nil => simp at h
  | cons a as ih =>
    by_cases ha : p a = true
    · rw [List.takeWhile_cons_of_pos ha] at h
      rcases List.mem_cons.1 h with rfl | h
      · exact ha
      · exact ih h
    · rw [List.takeWhile_cons_of_neg ha] at h
      simp at h

/-- The sign of a text and what follows it. -/
theorem sign_split (s : Str) : ∃ sign : Option Bool, s = signText sign ++ (Text.takeSign s).2 := by
  unfold Text.takeSign
  split
  · exact ⟨some true, rfl⟩
  · exact ⟨some false, rfl⟩
  · exact ⟨none, rfl⟩

theorem numberText_eq (sp : Str) (sign : Option Bool) (ds : List (Fin 10)) (rest : Str) :
    numberText sp sign ds rest = sp ++ (signText sign ++ (ds.map digitChar ++ rest)) := by
  unfold numberText signText
  cases sign with
  | none => rfl
  | some b => cases b <;> rfl

theorem scan_none {s : Str} (h : ∀ sp sign ds rest, (∀ c ∈ sp, c ∈ blanks) → ds ≠ [] → s ≠ numberText sp sign ds rest) :
    scanNumber s = none := by
  obtain ⟨sign, hs⟩ := sign_split (s.dropWhile isSpace)
  have hr : scanNumber s = if (digitsFrom 0 0 (Text.takeSign (s.dropWhile isSpace)).2).2 = 0 then none
      else some ((Text.takeSign (s.dropWhile isSpace)).1, (digitsFrom 0 0 (Text.takeSign (s.dropWhile isSpace)).2).1) := rfl
  rw [hr]
  generalize ht : (Text.takeSign (s.dropWhile isSpace)).2 = t at hs ⊢
  cases t with
  | nil => rfl
  | cons c cs =>
    cases hd : digit c with
    | none =>
      have : digitsFrom 0 0 (c :: cs) = (0, 0) := by simp only [digitsFrom, hd]
      rw [this]; rfl
    | some d =>
      exfalso
      have hc : 48 ≤ c.toNat ∧ c.toNat ≤ 57 := by
        unfold digit at hd
        by_contra hn
        rw [if_neg hn] at hd
        exact absurd hd (by simp)
      obtain ⟨d', rfl⟩ := digit_char hc
      refine h (s.takeWhile isSpace) sign [d'] cs (fun c hc => space_blank (of_takeWhile hc)) (by simp) ?_
      rw [numberText_eq]
      conv_lhs => rw [← List.takeWhile_append_dropWhile (p := isSpace) (l := s), hs]
      rfl

/-- **A text without a number is an error (C60)**: if the text of a property does not begin with blanks, an optional sign
and a digit, asking for it as an integer, signed or not, throws. -/
theorem int_without_number (t : Table) (k s : Str) (hk : t k = some s)
    (h : ∀ sp sign ds rest, (∀ c ∈ sp, c ∈ blanks) → ds ≠ [] → s ≠ numberText sp sign ds rest) :
    (∀ d, getInt t k d = none) ∧ ∀ d, getUint t k d = none := by
  constructor <;> intro d
  · simp only [getInt, hk, stoi, scan_none h, Option.bind_none]
  · simp only [getUint, hk, stoul, scan_none h, Option.bind_none, Option.map_none]

variable {K : Type} [Field K] [LinearOrder K] [IsStrictOrderedRing K] [FloorRing K]

/-- **A text without a number is an error (C60)**, floating point: if the text does not begin with blanks and a decimal
number, asking for it as a number throws (texts beginning with `inf` or `nan` are outside the model). -/
theorem double_without_number (r : K → K) (t : Table) (k s : Str) (hk : t k = some s)
    (h : ∀ (sp : Str) (d : Decimal) (rest : Str), (∀ c ∈ sp, c ∈ blanks) → d.Ok → s ≠ sp ++ (d.text ++ rest)) (dflt : K) :
    getDbl (stodDec r) t k dflt = none := by
  have hsp : ∀ c ∈ s.takeWhile isSpace, c ∈ blanks := fun c hc => space_blank (of_takeWhile hc)
  obtain ⟨sign, hs⟩ := sign_split (s.dropWhile isSpace)
  have hw : s = s.takeWhile isSpace ++ (signText sign ++ (Text.takeSign (s.dropWhile isSpace)).2) := by
    conv_lhs => rw [← List.takeWhile_append_dropWhile (p := isSpace) (l := s), hs]
  simp only [getDbl, hk]
  unfold stodDec
  rw [if_pos]
  generalize (Text.takeSign (s.dropWhile isSpace)).2 = u at hw ⊢
  cases u with
  | nil => rfl
  | cons c cs =>
    by_cases hc : Text.isDig c = true
    · exfalso
      obtain ⟨d, rfl⟩ := digit_char (c := c) (by simpa [Text.isDig] using hc)
      exact h _ ⟨sign, [d], none, none⟩ cs hsp ⟨Or.inl (by simp), by simp⟩ (hw.trans (by simp [Decimal.text, fracText, expText]))
    · have h1 : (c :: cs).takeWhile Text.isDig = [] := List.takeWhile_cons_of_neg hc
      have h2 : (c :: cs).dropWhile Text.isDig = c :: cs := List.dropWhile_cons_of_neg hc
      rw [h1, h2, List.nil_append]
      by_cases hp : c = '.'
      · subst hp
        cases cs with
        | nil => rfl
        | cons e es =>
          by_cases he : Text.isDig e = true
          · exfalso
            obtain ⟨d, rfl⟩ := digit_char (c := e) (by simpa [Text.isDig] using he)
            exact h _ ⟨sign, [], some [d], none⟩ es hsp ⟨Or.inr (by simp [Decimal.fraction]), by simp⟩ (hw.trans (by simp [Decimal.text, fracText, expText]))
          · exact List.takeWhile_cons_of_neg he
      · unfold Text.takeFrac
        split
        · rename_i heq; exact absurd (List.cons.inj heq).1 hp
        · rfl

/-! ## Non-vacuity -/

/-- A word, a lone sign, a lone point and an empty text have no number. -/
theorem no_number_of_head {s : Str} (hs : s.head? = none ∨ ∃ c, s.head? = some c ∧ c ∉ blanks ∧ Text.isDig c = false ∧
    c ∉ ['-', '+', '.']) (sp : Str) (d : Decimal) (rest : Str) (hsp : ∀ c ∈ sp, c ∈ blanks) (hd : d.Ok) :
    s ≠ sp ++ (d.text ++ rest) := by
  rintro rfl
  have hsome : ∃ c, (sp ++ (d.text ++ rest)).head? = some c ∧
      (c ∈ blanks ∨ Text.isDig c = true ∨ c ∈ ['-', '+', '.']) := by
    cases sp with
    | cons c cs => exact ⟨c, rfl, Or.inl (hsp c (by simp))⟩
    | nil =>
      obtain ⟨sign, i, f, e⟩ := d
      cases sign with
      | some b => cases b <;> exact ⟨_, rfl, Or.inr (Or.inr (by simp))⟩
      | none =>
        cases i with
        | cons a as => exact ⟨_, rfl, Or.inr (Or.inl (isDig_digitChar a))⟩
        | nil =>
          cases f with
          | some f => exact ⟨_, rfl, Or.inr (Or.inr (by simp))⟩
          | none => simp [Decimal.Ok, Decimal.fraction] at hd
  obtain ⟨c, hc, hh⟩ := hsome
  rcases hs with h0 | ⟨c', h0, h1, h2, h3⟩
  · rw [h0] at hc; exact absurd hc (by simp)
  · rw [h0] at hc
    obtain rfl := Option.some.inj hc
    rcases hh with hh | hh | hh
    · exact h1 hh
    · rw [h2] at hh; exact absurd hh (by simp)
    · exact h3 hh

example : getDbl (stodDec (id : ℚ → ℚ)) (Table.empty.set "n".toList "abc".toList) "n".toList 5 = none :=
  double_without_number _ _ _ "abc".toList (by decide)
    (fun sp d rest hsp hd => no_number_of_head (Or.inr ⟨'a', rfl, by decide, by decide, by decide⟩) sp d rest hsp hd) _

example : getInt (Table.empty.set "n".toList "abc".toList) "n".toList 5 = none :=
  (int_without_number _ _ "abc".toList (by decide) (fun sp sign ds rest hsp hds => by
    rw [numberText_eq]
    have := no_number_of_head (s := "abc".toList) (Or.inr ⟨'a', rfl, by decide, by decide, by decide⟩) sp
      ⟨sign, ds, none, none⟩ rest hsp ⟨Or.inl hds, by simp⟩
    simpa [Decimal.text, fracText, expText] using this)).1 5

end Slam.Config
