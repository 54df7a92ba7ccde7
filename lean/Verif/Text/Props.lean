import Verif.Text.Number

/-! # C83: poses and scans as text -/

set_option autoImplicit false
set_option linter.unusedSectionVars false

namespace Slam.Text
open Slam.Float

variable {K : Type} [Field K] [LinearOrder K] [IsStrictOrderedRing K] [FloorRing K]

/-! ## Specification -/

/-- `y` is `x` rounded to six significant decimal digits: of the multiples of the unit of the sixth digit of `x` (the
first one being at exponent `e`) a nearest one. -/
def SixDigit (x y : K) : Prop :=
  (x = 0 ∧ y = 0) ∨ ∃ e : ℤ, (10 ^ e ≤ |x| ∧ |x| < 10 ^ (e + 1)) ∧ (∃ k : ℤ, y = (k : K) * 10 ^ (e - 5)) ∧
    ∀ k : ℤ, |y - x| ≤ |(k : K) * 10 ^ (e - 5) - x|

/-- `y` is `x` rounded to six significant digits and then by `r` to a double. -/
def ReadBack (r : K → K) (x y : K) : Prop := ∃ z, SixDigit x z ∧ y = r z

/-- Point `q` is `p` read back. -/
def PtReadBack (r : K → K) (p q : Pt K) : Prop :=
  ReadBack r p.range q.range ∧ ReadBack r p.angle q.angle ∧ q.occ = p.occ

/-! ## One number -/

theorem sixValue_spec (x : K) : SixDigit x (sixValue x) := by
  by_cases h : x = 0
  · left; exact ⟨h, by simp [sixValue, h]⟩
  right
  obtain ⟨_, _, hv⟩ := sixDigits_spec h
  refine ⟨Int.log 10 |x|, log_bounds h, ?_⟩
  have hp : (0 : K) < 10 ^ (Int.log 10 |x| - 5) := ten_pos _
  have hnear : ∀ k : ℤ, abs ((halfEven (|x| / 10 ^ (Int.log 10 |x| - 5)) : K) * 10 ^ (Int.log 10 |x| - 5) - abs x)
      ≤ abs ((k : K) * 10 ^ (Int.log 10 |x| - 5) - abs x) := by
    intro k
    have := halfEven_near (|x| / 10 ^ (Int.log 10 |x| - 5)) k
    have e : ∀ j : K, abs (j * 10 ^ (Int.log 10 |x| - 5) - abs x) = abs (j - abs x / 10 ^ (Int.log 10 |x| - 5)) * 10 ^ (Int.log 10 |x| - 5) := by
      intro j
      conv_rhs => rw [← abs_of_pos hp, ← abs_mul, abs_of_pos hp]
      congr 1
      field_simp
    rw [e, e]
    exact mul_le_mul_of_nonneg_right this hp.le
  unfold sixValue
  rw [if_neg h, hv]
  by_cases hn : x < 0
  · rw [if_pos hn]
    refine ⟨⟨-halfEven (|x| / 10 ^ (Int.log 10 |x| - 5)), by push_cast; ring⟩, ?_⟩
    intro k
    have := hnear (-k)
    generalize (halfEven (|x| / 10 ^ (Int.log 10 |x| - 5)) : K) * 10 ^ (Int.log 10 |x| - 5) = q at *
    generalize (10 : K) ^ (Int.log 10 |x| - 5) = u at *
    rw [abs_of_neg hn] at this
    push_cast at this
    rw [show -q - x = -(q - -x) by ring, show (k : K) * u - x = -(-(k : K) * u - -x) by ring, abs_neg, abs_neg]
    exact this
  · rw [if_neg hn]
    refine ⟨⟨halfEven (|x| / 10 ^ (Int.log 10 |x| - 5)), rfl⟩, ?_⟩
    intro k
    have := hnear k
    rwa [abs_of_nonneg (not_lt.1 hn)] at this ⊢

theorem take_ne {s : Str} {n : Nat} (h : s.length = 6) : s.take (n + 1) ≠ [] := by
  intro e
  have := congrArg List.length e
  simp [h] at this

theorem digits_sub (n : Nat) (s : Str) (hs : ∀ c ∈ s, isDig c = true) :
    (∀ c ∈ s.take n, isDig c = true) ∧ (∀ c ∈ s.drop n, isDig c = true) :=
  ⟨fun c h => hs c (List.mem_of_mem_take h), fun c h => hs c (List.mem_of_mem_drop h)⟩

theorem parse_print (r : K → K) (x : K) (rest : Str) (hr : Ends rest) :
    parseDouble r (printDouble x ++ rest) = some (r (sixValue x), rest) := by
  by_cases h : x = 0
  · subst h
    have := parse_shape r false ['0'] [] [] rest 0 (by simp) (by decide) (by simp)
      (by intro c hc; exact ⟨(hr c hc).1, (hr c hc).2.1⟩) (takeExp_rest rest hr)
    simpa [printDouble, sixValue, withPoint, stripZeros, natOf] using this
  obtain ⟨m1, m2, _⟩ := sixDigits_spec h
  have hlen : (fixed 6 (sixDigits x).1).length = 6 := fixed_length _ _
  have hdig := isDig_fixed 6 (sixDigits x).1
  have hval : natOf (fixed 6 (sixDigits x).1) = (sixDigits x).1 := by
    rw [natOf_fixed, Nat.mod_eq_of_lt (by simpa using m2)]
  have hsv : sixValue x = if (decide (x < 0)) = true then -(((sixDigits x).1 : K) * 10 ^ ((sixDigits x).2 - 5))
      else ((sixDigits x).1 : K) * 10 ^ ((sixDigits x).2 - 5) := by
    simp [sixValue, h]
  have hsign : (if x < 0 then ['-'] else []) = (if decide (x < 0) = true then ['-'] else ([] : Str)) := by simp
  unfold printDouble
  rw [if_neg h]
  simp only [hsign]
  generalize decide (x < 0) = neg at hsv ⊢
  generalize hds : fixed 6 (sixDigits x).1 = ds at *
  generalize (sixDigits x).2 = e at *
  generalize (sixDigits x).1 = m at *
  by_cases h1 : e < -4 ∨ 6 ≤ e
  · rw [if_pos h1]
    have he := takeExp_text e rest hr
    have := parse_shape r neg (ds.take 1) (ds.drop 1) (expText e) rest e (take_ne hlen) (digits_sub 1 ds hdig).1
      (digits_sub 1 ds hdig).2 (by
        intro c hc
        simp only [expText, List.cons_append, List.head?_cons, Option.some.injEq] at hc
        subst hc; decide) he
    rw [List.take_append_drop, hval, List.length_drop, hlen] at this
    rw [hsv]
    rw [show ((6 - 1 : Nat) : ℤ) = 5 by norm_num] at this
    rw [← this]
    simp [expText, List.append_assoc]
  rw [if_neg h1]
  have he := takeExp_rest rest hr
  have hends : ∀ c, ([] ++ rest).head? = some c → isDig c = false ∧ c ≠ '.' := fun c hc => ⟨(hr c hc).1, (hr c hc).2.1⟩
  by_cases h2 : 0 ≤ e
  · rw [if_pos h2]
    have := parse_shape r neg (ds.take (e.toNat + 1)) (ds.drop (e.toNat + 1)) [] rest 0 (take_ne hlen)
      (digits_sub _ ds hdig).1 (digits_sub _ ds hdig).2 hends he
    rw [List.take_append_drop, hval, List.length_drop, hlen] at this
    rw [show (0 : ℤ) - ((6 - (e.toNat + 1) : Nat) : ℤ) = e - 5 by omega] at this
    rw [hsv, ← this]
    simp
  · rw [if_neg h2]
    have := parse_shape r neg ['0'] (List.replicate (-e - 1).toNat '0' ++ ds) [] rest 0 (by simp) (by decide) (by
        intro c hc
        rcases List.mem_append.1 hc with hc | hc
        · rw [List.eq_of_mem_replicate hc]; decide
        · exact hdig c hc) hends he
    have hv : natOf (['0'] ++ (List.replicate (-e - 1).toNat '0' ++ ds)) = m := by
      rw [natOf_append, natOf_append, natOf_zeros, hval]
      simp [natOf]
    rw [hv] at this
    simp only [List.length_append, List.length_replicate, hlen] at this
    rw [show (0 : ℤ) - (((-e - 1).toNat + 6 : Nat) : ℤ) = e - 5 by omega] at this
    rw [hsv, ← this]
    simp

/-! ## Printed numbers are not blank -/

theorem withPoint_head (i f : Str) (hi : i ≠ []) : (withPoint i f).head? = i.head? := by
  unfold withPoint
  by_cases h : f = []
  · rw [if_pos h]
  · rw [if_neg h]
    cases i with
    | nil => exact absurd rfl hi
    | cons a i => rfl

/-- A printed number begins with a digit or a minus sign. -/
theorem printDouble_head (x : K) : ∃ c t, printDouble x = c :: t ∧ isBlank c = false := by
  have hb : ∀ c : Char, isDig c = true → isBlank c = false := by
    intro c hc
    simp only [isDig, Bool.and_eq_true, decide_eq_true_eq] at hc
    have hne : ∀ d : Char, d.toNat < 48 → c ≠ d := by rintro d hd rfl; omega
    simp only [isBlank, Bool.or_eq_false_iff, decide_eq_false_iff_not]
    refine ⟨⟨⟨⟨⟨hne _ (by decide), hne _ (by decide)⟩, hne _ (by decide)⟩, hne _ (by decide)⟩, by omega⟩, by omega⟩
  by_cases h : x = 0
  · exact ⟨'0', [], by simp [printDouble, h], by decide⟩
  have hlen : (fixed 6 (sixDigits x).1).length = 6 := fixed_length _ _
  have hdig := isDig_fixed 6 (sixDigits x).1
  have key : ∀ i f u : Str, i ≠ [] → (∀ c ∈ i, isDig c = true) →
      ∃ c t, (if x < 0 then ['-'] else []) ++ (withPoint i f ++ u) = c :: t ∧ isBlank c = false := by
    intro i f u hi hid
    by_cases hx : x < 0
    · rw [if_pos hx]; exact ⟨'-', _, rfl, by decide⟩
    · rw [if_neg hx]
      have := withPoint_head i f hi
      cases i with
      | nil => exact absurd rfl hi
      | cons a i =>
        cases hw : withPoint (a :: i) f with
        | nil => rw [hw] at this; simp at this
        | cons b t =>
          rw [hw] at this
          simp only [List.head?_cons, Option.some.injEq] at this
          subst this
          exact ⟨b, t ++ u, by simp, hb b (hid b (by simp))⟩
  unfold printDouble
  rw [if_neg h]
  simp only
  generalize hds : fixed 6 (sixDigits x).1 = ds at *
  by_cases h1 : (sixDigits x).2 < -4 ∨ 6 ≤ (sixDigits x).2
  · rw [if_pos h1]; exact key _ _ _ (take_ne hlen) (digits_sub _ ds hdig).1
  rw [if_neg h1]
  by_cases h2 : 0 ≤ (sixDigits x).2
  · rw [if_pos h2]
    have := key (ds.take ((sixDigits x).2.toNat + 1)) (stripZeros (ds.drop ((sixDigits x).2.toNat + 1))) [] (take_ne hlen)
      (digits_sub _ ds hdig).1
    simpa using this
  · rw [if_neg h2]
    have := key ['0'] (stripZeros (List.replicate (-(sixDigits x).2 - 1).toNat '0' ++ ds)) [] (by simp) (by decide)
    simpa using this

theorem sentry_print (b : Str) (hb : ∀ c ∈ b, isBlank c = true) (x : K) (rest : Str) :
    sentry (some (b ++ (printDouble x ++ rest))) = some (printDouble x ++ rest) := by
  obtain ⟨c, t, hc, hnb⟩ := printDouble_head x
  have : (b ++ (printDouble x ++ rest)).dropWhile isBlank = printDouble x ++ rest := by
    induction b with
    | nil => rw [hc]; simp [hnb]
    | cons d b ih =>
      rw [List.cons_append, List.dropWhile_cons, if_pos (hb d (by simp))]
      exact ih (fun c hc => hb c (by simp [hc]))
  simp only [sentry, Option.bind_some, this]
  rw [if_neg (by rw [hc]; simp)]

theorem getDouble_print (r : K → K) (b : Str) (hb : ∀ c ∈ b, isBlank c = true) (x old : K) (rest : Str) (hr : Ends rest) :
    getDouble r (some (b ++ (printDouble x ++ rest))) old = (r (sixValue x), some rest) := by
  unfold getDouble
  rw [sentry_print b hb]
  simp only [parse_print r x rest hr]

theorem ends_blank (c : Char) (h : c = ' ' ∨ c = '\n') (t : Str) : Ends (c :: t) := by
  intro d hd
  simp only [List.head?_cons, Option.some.injEq] at hd
  subst hd
  rcases h with rfl | rfl <;> decide

theorem ends_nil : Ends [] := by intro c h; simp at h

/-! ## Poses -/

theorem readPose_print (r : K → K) (p : K × K × K) :
    readPose r (printPose p) = (r (sixValue p.1), r (sixValue p.2.1), r (sixValue p.2.2)) := by
  have h1 := getDouble_print r [] (by simp) p.1 0 (' ' :: (printDouble p.2.1 ++ ' ' :: printDouble p.2.2)) (ends_blank _ (.inl rfl) _)
  have h2 := getDouble_print r [' '] (by decide) p.2.1 0 (' ' :: printDouble p.2.2) (ends_blank _ (.inl rfl) _)
  have h3 := getDouble_print r [' '] (by decide) p.2.2 0 [] ends_nil
  simp only [List.nil_append, List.append_nil, List.cons_append] at h1 h2 h3
  unfold readPose printPose
  simp only [h1, h2, h3]

/-- **The dumped pose is read back (C83)**: up to six significant digits of each coordinate. -/
theorem pose_file_round_trip (r : K → K) (p : K × K × K) :
    ReadBack r p.1 (readPose r (printPose p)).1 ∧ ReadBack r p.2.1 (readPose r (printPose p)).2.1 ∧
    ReadBack r p.2.2 (readPose r (printPose p)).2.2 := by
  rw [readPose_print]
  exact ⟨⟨_, sixValue_spec _, rfl⟩, ⟨_, sixValue_spec _, rfl⟩, ⟨_, sixValue_spec _, rfl⟩⟩

/-! ## Scans -/

theorem parseInt_digits (ds rest : Str) (hne : ds ≠ []) (hd : ∀ c ∈ ds, isDig c = true)
    (hr : ∀ c, rest.head? = some c → isDig c = false) : parseInt (ds ++ rest) = some (false, natOf ds, rest) := by
  obtain ⟨a, b⟩ := takeWhile_digits ds rest hd hr
  unfold parseInt
  rw [takeSign_digit _ (by
    intro c hc
    cases ds with
    | nil => exact absurd rfl hne
    | cons d ds =>
      simp only [List.cons_append, List.head?_cons, Option.some.injEq] at hc
      subst hc; exact .inl (hd _ (by simp)))]
  simp only [a, b, hne, if_false]

theorem getBool_print (o : Bool) (old : Option Bool) (rest : Str) :
    getBool (some (' ' :: (printBool o ++ '\n' :: rest))) old = (some o, some ('\n' :: rest)) := by
  cases o <;> simp [getBool, sentry, printBool, List.dropWhile_cons, isBlank, parseInt, takeSign, isDig, natOf]

/-- A point read back. -/
def backPt (r : K → K) (p : Pt K) : Pt K := ⟨r (sixValue p.range), r (sixValue p.angle), p.occ⟩

theorem readPts_print (r : K → K) (ps : List (Pt K)) (n : Nat) (tail : Str) :
    readPts r (ps.length + n) (some ('\n' :: (ps.flatMap printPt ++ tail))) =
      (readPts r n (some ('\n' :: tail))).map fun q => (ps.map (backPt r) ++ q.1, q.2) := by
  induction ps with
  | nil =>
    simp only [List.length_nil, Nat.zero_add, List.flatMap_nil, List.nil_append, List.map_nil]
    cases readPts r n (some ('\n' :: tail)) <;> rfl
  | cons p ps ih =>
    have e1 : '\n' :: ((p :: ps).flatMap printPt ++ tail) =
        ['\n'] ++ (printDouble p.range ++ (' ' :: (printDouble p.angle ++ (' ' :: (printBool p.occ ++ '\n' :: (ps.flatMap printPt ++ tail)))))) := by
      simp [printPt]
    have h1 := getDouble_print r ['\n'] (by decide) p.range 0
      (' ' :: (printDouble p.angle ++ (' ' :: (printBool p.occ ++ '\n' :: (ps.flatMap printPt ++ tail))))) (ends_blank _ (.inl rfl) _)
    have h2 := getDouble_print r [' '] (by decide) p.angle 0
      (' ' :: (printBool p.occ ++ '\n' :: (ps.flatMap printPt ++ tail))) (ends_blank _ (.inl rfl) _)
    rw [List.cons_append, List.nil_append] at h2
    rw [List.length_cons, show ps.length + 1 + n = (ps.length + n) + 1 by omega, readPts, e1, h1]
    simp only [h2, getBool_print, Option.bind_some, ih, Option.map_map, List.map_cons, List.cons_append]
    rfl

theorem getSize_print (n : Nat) (hn : n < 2 ^ 64) (tail : Str) :
    getSize (some (printNat n ++ '\n' :: tail)) 0 = (n, some ('\n' :: tail)) := by
  have hv : natOf (printNat n) = n := by
    unfold printNat
    rw [natOf_fixed, Nat.mod_eq_of_lt (Nat.lt_pow_succ_log_self (b := 10) (by norm_num) _)]
  have hne : printNat n ≠ [] := by
    intro e
    have := congrArg List.length e
    simp [printNat, fixed_length] at this
  have hp := parseInt_digits (printNat n) ('\n' :: tail) hne (isDig_fixed _ _) (by
    intro c hc; simp only [List.head?_cons, Option.some.injEq] at hc; subst hc; decide)
  have hs : sentry (some (printNat n ++ '\n' :: tail)) = some (printNat n ++ '\n' :: tail) := by
    cases hc : printNat n with
    | nil => exact absurd hc hne
    | cons c t =>
      have hd : isDig c = true := isDig_fixed _ _ c (by rw [show fixed _ _ = printNat n from rfl, hc]; simp)
      have hb : isBlank c = false := by
        simp only [isDig, Bool.and_eq_true, decide_eq_true_eq] at hd
        have hne : ∀ d : Char, d.toNat < 48 → c ≠ d := by rintro d hd rfl; omega
        simp only [isBlank, Bool.or_eq_false_iff, decide_eq_false_iff_not]
        refine ⟨⟨⟨⟨⟨hne _ (by decide), hne _ (by decide)⟩, hne _ (by decide)⟩, hne _ (by decide)⟩, by omega⟩, by omega⟩
      simp [sentry, hb]
  unfold getSize
  rw [hs]
  simp only [hp, hv, hn, if_true]
  simp

theorem setupScan_print (r : K → K) (ps : List (Pt K)) (tail : Str) (hlen : ps.length < 2 ^ 64) :
    setupScan r (printScan ps ++ tail) = some (ps.map (backPt r)) := by
  unfold setupScan readScan printScan
  rw [List.append_assoc, List.cons_append, getSize_print _ hlen]
  have := readPts_print r ps 0 tail
  rw [Nat.add_zero] at this
  simp only [this, readPts, Option.map_some, List.append_nil]

/-- **A dumped scan is read back (C83)**: as many points in the same order, each with the same flag and the same range
and angle up to six significant digits. No matter what follows the scan in the file. -/
theorem scan_file_round_trip (r : K → K) (ps : List (Pt K)) (tail : Str) (hlen : ps.length < 2 ^ 64) :
    ∃ qs, setupScan r (printScan ps ++ tail) = some qs ∧ List.Forall₂ (PtReadBack r) ps qs := by
  refine ⟨_, setupScan_print r ps tail hlen, ?_⟩
  rw [List.forall₂_map_right_iff, List.forall₂_same]
  intro p _
  exact ⟨⟨_, sixValue_spec _, rfl⟩, ⟨_, sixValue_spec _, rfl⟩, rfl⟩

/-! ## How close -/

/-- Six significant digits: the relative error is at most five in a million; the sign and zero are kept. -/
theorem six_digits_close {x y : K} (h : SixDigit x y) :
    |y - x| ≤ 5 / 1000000 * |x| ∧ (y = 0 ↔ x = 0) ∧ (0 < y ↔ 0 < x) := by
  rcases h with ⟨rfl, rfl⟩ | ⟨e, ⟨h1, h2⟩, ⟨k, hk⟩, hn⟩
  · simp
  have hu : (0 : K) < 10 ^ (e - 5) := ten_pos _
  have e1 : (10 : K) ^ e = 100000 * 10 ^ (e - 5) := by
    rw [zpow_sub₀ (by norm_num)]; norm_num; ring
  have hx : 0 < |x| := lt_of_lt_of_le (ten_pos e) h1
  have half : |y - x| ≤ 1 / 2 * 10 ^ (e - 5) := by
    refine (hn (halfEven (x / 10 ^ (e - 5)))).trans ?_
    have := halfEven_err (x / 10 ^ (e - 5))
    have e2 : (halfEven (x / 10 ^ (e - 5)) : K) * 10 ^ (e - 5) - x = ((halfEven (x / 10 ^ (e - 5)) : K) - x / 10 ^ (e - 5)) * 10 ^ (e - 5) := by
      field_simp
    rw [e2, abs_mul, abs_of_pos hu]
    exact mul_le_mul_of_nonneg_right this hu.le
  have hb : |y - x| ≤ 5 / 1000000 * |x| := by
    have : 1 / 2 * (10 : K) ^ (e - 5) ≤ 5 / 1000000 * |x| := by rw [e1] at h1; linarith
    exact half.trans this
  refine ⟨hb, ?_, ?_⟩
  · constructor
    · rintro rfl
      by_contra hx0
      rw [zero_sub, abs_neg] at hb
      linarith
    · rintro rfl; simp at hx
  · rw [abs_le] at hb
    constructor
    · intro hy
      by_contra hx0
      rw [abs_of_nonpos (not_lt.1 hx0)] at hb hx
      linarith [hb.2]
    · intro hx0
      rw [abs_of_pos hx0] at hb
      linarith [hb.1]

/-! ## Dumping again -/

theorem sixDigits_stable {x y : K} (hx : x ≠ 0) (h : |y - sixValue x| ≤ 1 / 100000000 * |sixValue x|) :
    sixDigits y = sixDigits x ∧ (y < 0 ↔ x < 0) ∧ y ≠ 0 := by
  obtain ⟨m1, m2, _⟩ := sixDigits_spec hx
  have hu : (0 : K) < 10 ^ ((sixDigits x).2 - 5) := ten_pos _
  have hm1 : (100000 : K) ≤ ((sixDigits x).1 : K) := by exact_mod_cast m1
  have hm2 : ((sixDigits x).1 : K) ≤ 999999 := by
    have : (sixDigits x).1 ≤ 999999 := by omega
    exact_mod_cast this
  have habs : |sixValue x| = ((sixDigits x).1 : K) * 10 ^ ((sixDigits x).2 - 5) := by
    unfold sixValue
    rw [if_neg hx]
    have : 0 ≤ ((sixDigits x).1 : K) * 10 ^ ((sixDigits x).2 - 5) := mul_nonneg (by linarith) hu.le
    by_cases hn : x < 0
    · rw [if_pos hn, abs_neg, abs_of_nonneg this]
    · rw [if_neg hn, abs_of_nonneg this]
  have hsgn : (sixValue x < 0 ↔ x < 0) := by
    have : 0 < ((sixDigits x).1 : K) * 10 ^ ((sixDigits x).2 - 5) := mul_pos (by linarith) hu
    unfold sixValue
    rw [if_neg hx]
    by_cases hn : x < 0
    · simp only [hn, if_true, iff_true]; linarith
    · simp only [hn, if_false, iff_false]; linarith
  generalize he : (sixDigits x).2 = e at *
  generalize hm : (sixDigits x).1 = m at *
  have hpos : 0 < |sixValue x| := by rw [habs]; exact mul_pos (by linarith) hu
  have hyabs : abs (abs y - abs (sixValue x)) ≤ 1 / 100000000 * |sixValue x| := (abs_abs_sub_abs_le y _).trans h
  have hsy : (y < 0 ↔ sixValue x < 0) ∧ y ≠ 0 := by
    rcases lt_or_ge (sixValue x) 0 with hs | hs
    · rw [abs_of_neg hs] at h hpos
      rw [abs_le] at h
      refine ⟨⟨fun _ => hs, fun _ => by linarith [h.2]⟩, by linarith [h.2] |> ne_of_lt⟩
    · rw [abs_of_nonneg hs] at h hpos
      rw [abs_le] at h
      refine ⟨⟨fun hy => by linarith [h.1], fun hs' => by linarith⟩, (by linarith [h.1] : (0 : K) < y).ne'⟩
  refine ⟨?_, hsy.1.trans hsgn, hsy.2⟩
  rw [habs] at hyabs
  rw [abs_le] at hyabs
  have e1 : (10 : K) ^ e = 100000 * 10 ^ (e - 5) := by
    rw [zpow_sub₀ (by norm_num)]; norm_num; ring
  have e2 : (10 : K) ^ (e + 1) = 1000000 * 10 ^ (e - 5) := by
    rw [zpow_sub₀ (by norm_num), zpow_add₀ (by norm_num)]; norm_num; ring
  have e3 : (10 : K) ^ (e - 1) = 10000 * 10 ^ (e - 5) := by
    rw [zpow_sub₀ (by norm_num), zpow_sub₀ (by norm_num)]; norm_num; ring
  have e4 : (10 : K) ^ (e - 1 - 5) = 1 / 10 * 10 ^ (e - 5) := by
    rw [show e - 1 - 5 = (e - 5) + (-1) by ring, zpow_add₀ (by norm_num)]; norm_num; ring
  have hpair : sixDigits x = (m, e) := by rw [← hm, ← he]
  rw [hpair]
  set u := (10 : K) ^ (e - 5) with hudef
  have mu1 : 100000 * u ≤ (m : K) * u := mul_le_mul_of_nonneg_right hm1 hu.le
  have mu2 : (m : K) * u ≤ 999999 * u := mul_le_mul_of_nonneg_right hm2 hu.le
  by_cases hc : (10 : K) ^ e ≤ |y|
  · have hl : Int.log 10 |y| = e := log_unique hc (by rw [e2]; linarith [hyabs.2])
    have hq : halfEven (|y| / 10 ^ (e - 5)) = (m : ℤ) := by
      apply halfEven_eq
      have : |y| / 10 ^ (e - 5) - ((m : ℤ) : K) = (|y| - m * u) / u := by
        rw [← hudef]; push_cast; field_simp
      rw [this, abs_div, abs_of_pos hu, div_lt_iff₀ hu, abs_lt]
      constructor <;> linarith [hyabs.1, hyabs.2]
    unfold sixDigits
    simp only [hl, hq, Int.toNat_natCast]
    rw [if_neg (by omega)]
  · push Not at hc
    rw [e1] at hc
    have hmm : m = 100000 := by
      by_contra hne
      have : (100001 : K) ≤ m := by
        have : 100001 ≤ m := by omega
        exact_mod_cast this
      have := mul_le_mul_of_nonneg_right this hu.le
      linarith [hyabs.1]
    have hl : Int.log 10 |y| = e - 1 := by
      apply log_unique
      · rw [e3]; linarith [hyabs.1]
      · rw [show e - 1 + 1 = e by ring, e1]; exact hc
    have hmK : (m : K) = 100000 := by rw [hmm]; norm_num
    rw [hmK] at hyabs mu1 mu2
    have hq : halfEven (|y| / 10 ^ (e - 1 - 5)) = 1000000 := by
      apply halfEven_eq
      have : |y| / 10 ^ (e - 1 - 5) - ((1000000 : ℤ) : K) = (|y| - 100000 * u) * 10 / u := by
        rw [e4]; push_cast; field_simp; ring
      rw [this, abs_div, abs_of_pos hu, div_lt_iff₀ hu, abs_lt]
      constructor <;> linarith [hyabs.1, hyabs.2]
    unfold sixDigits
    simp only [hl, hq]
    rw [if_pos (by rfl), hmm]
    simp

/-- Printing what was read gives the text that was read. -/
theorem print_read_print {r : K → K} (R : Nearest r) {x : K} (hx : x = 0 ∨ 2 ^ (-1021 : ℤ) ≤ |x|) :
    printDouble (r (sixValue x)) = printDouble x := by
  by_cases h0 : x = 0
  · subst h0
    rw [show sixValue (0 : K) = 0 by simp [sixValue], R.fix isDouble_zero]
  have hx := hx.resolve_left h0
  have hc := (six_digits_close (sixValue_spec x)).1
  have hbig : (2 : K) ^ (-1022 : ℤ) ≤ |sixValue x| := by
    have e : (2 : K) ^ (-1021 : ℤ) = 2 * 2 ^ (-1022 : ℤ) := by
      rw [show (-1021 : ℤ) = 1 + -1022 by norm_num, zpow_add₀ (by norm_num), zpow_one]
    rw [e] at hx
    have hp := two_zpow_pos (K := K) (-1022)
    have h1 := abs_sub_abs_le_abs_sub x (sixValue x)
    rw [abs_sub_comm] at h1
    have hx0 := abs_nonneg x
    generalize (2 : K) ^ (-1022 : ℤ) = u at *
    linarith
  have hr := R.rel hbig
  have hs : |r (sixValue x) - sixValue x| ≤ 1 / 100000000 * |sixValue x| := by
    refine hr.trans (mul_le_mul_of_nonneg_right ?_ (abs_nonneg _))
    rw [zpow_neg]
    norm_num
  obtain ⟨a, b, c⟩ := sixDigits_stable h0 hs
  unfold printDouble
  rw [if_neg c, if_neg h0, a]
  simp only [b]

/-- Zero or not extremely close to it (the loss of digits of subnormal doubles is excluded). -/
def Normal (x : K) : Prop := x = 0 ∨ 2 ^ (-1021 : ℤ) ≤ |x|

/-- **Reading and dumping again changes nothing (C83)**: the file written from what was read is the same, character for
character, so repeated round trips do not lose any more digits. -/
theorem scan_file_fixed_point {r : K → K} (R : Nearest r) (ps qs : List (Pt K)) (hlen : ps.length < 2 ^ 64)
    (hn : ∀ p ∈ ps, Normal p.range ∧ Normal p.angle) (h : setupScan r (printScan ps) = some qs) :
    printScan qs = printScan ps := by
  have := setupScan_print r ps [] hlen
  rw [List.append_nil, h, Option.some.injEq] at this
  subst this
  unfold printScan
  rw [List.length_map, List.flatMap_map]
  congr 2
  apply List.flatMap_congr
  intro p hp
  obtain ⟨h1, h2⟩ := hn p hp
  simp only [printPt, backPt, print_read_print R h1, print_read_print R h2]

/-- The same for pose files. -/
theorem pose_file_fixed_point {r : K → K} (R : Nearest r) (p : K × K × K) (h1 : Normal p.1) (h2 : Normal p.2.1)
    (h3 : Normal p.2.2) : printPose (readPose r (printPose p)) = printPose p := by
  rw [readPose_print]
  simp only [printPose, print_read_print R h1, print_read_print R h2, print_read_print R h3]

/-! ## Files that are too short -/

theorem dropWhile_all (b : Str) (hb : ∀ c ∈ b, isBlank c = true) : b.dropWhile isBlank = [] := by
  induction b with
  | nil => rfl
  | cons c b ih =>
    rw [List.dropWhile_cons, if_pos (hb c (by simp))]
    exact ih fun c hc => hb c (by simp [hc])

theorem getDouble_failed (r : K → K) (old : K) : getDouble r none old = (old, none) := rfl

theorem getDouble_end (r : K → K) (old : K) (b : Str) (hb : ∀ c ∈ b, isBlank c = true) : getDouble r (some b) old = (old, none) := by
  have : b.dropWhile isBlank = [] := dropWhile_all b hb
  simp [getDouble, sentry, this]

/-- **A scan file that announces more points than it has (C83)** makes the reader use an uninitialised flag, which is
undefined behaviour. -/
theorem scan_file_too_short (r : K → K) (ps : List (Pt K)) (n : Nat) (hn : 0 < n) (hlen : ps.length + n < 2 ^ 64) :
    setupScan r (printNat (ps.length + n) ++ '\n' :: ps.flatMap printPt) = none := by
  unfold setupScan readScan
  rw [getSize_print _ hlen]
  have h1 := readPts_print r ps n []
  rw [List.append_nil] at h1
  simp only [h1]
  cases n with
  | zero => omega
  | succ n =>
    simp only [readPts, getDouble_end r 0 ['\n'] (by decide), getDouble_failed]
    rfl

/-- An unreadable number of points is an empty scan. -/
theorem scan_file_empty (r : K → K) (b : Str) (hb : ∀ c ∈ b, isBlank c = true) : setupScan r b = some [] := by
  have : b.dropWhile isBlank = [] := dropWhile_all b hb
  simp [setupScan, readScan, getSize, sentry, this, readPts]

/-- **Coordinates missing in a pose file are zero (C83).** -/
theorem pose_file_too_short (r : K → K) (x y : K) :
    (readPose r [] = (0, 0, 0)) ∧
    ((readPose r (printDouble x)).2 = (0, 0)) ∧
    ((readPose r (printDouble x ++ ' ' :: printDouble y)).2.2 = 0) := by
  have hx := getDouble_print r [] (by simp) x 0 [] ends_nil
  have hx' := getDouble_print r [] (by simp) x 0 (' ' :: printDouble y) (ends_blank _ (.inl rfl) _)
  have hy := getDouble_print r [' '] (by decide) y 0 [] ends_nil
  have he := getDouble_end r 0 [] (by simp)
  simp only [List.nil_append, List.append_nil, List.cons_append] at hx hx' hy
  refine ⟨?_, ?_, ?_⟩
  · simp only [readPose, he, getDouble_failed]
  · simp only [readPose, hx, he, getDouble_failed]
  · simp only [readPose, hx', hy, he]

/-! ## Concrete cases -/

/-- A scan and the file it is dumped to. -/
example : printScan ([⟨5 / 2, -1 / 3, true⟩, ⟨1234567, 1 / 100000, false⟩] : List (Pt ℚ)) =
    "2\n2.5 -0.333333 1\n1.23457e+06 1e-05 0\n".toList := by decide +kernel

/-- What is read back, with exact reading of decimal numbers. -/
example : setupScan id "2\n2.5 -0.333333 1\n1.23457e+06 1e-05 0\n".toList =
    some ([⟨5 / 2, -333333 / 1000000, true⟩, ⟨1234570, 1 / 100000, false⟩] : List (Pt ℚ)) := by decide +kernel

/-- A rounding that carries into a new digit. -/
example : printDouble (9999999 / 1000000 : ℚ) = "10".toList ∧ printDouble (999999 + 1 / 2 : ℚ) = "1e+06".toList ∧
    printDouble (100000 : ℚ) = "100000".toList ∧ printDouble (-1 / 10000 : ℚ) = "-0.0001".toList := by decide +kernel

/-- Hypotheses of the fixed point theorems. -/
example : Nearest (rne : ℚ → ℚ) ∧ Normal (1 / 3 : ℚ) ∧ Normal (0 : ℚ) := by
  refine ⟨rne_nearest, .inr ?_, .inl rfl⟩
  rw [abs_of_pos (by norm_num)]
  calc (2 : ℚ) ^ (-1021 : ℤ) ≤ 2 ^ (-2 : ℤ) := two_zpow_le (by norm_num)
    _ ≤ 1 / 3 := by norm_num

/-- An infinite range (printed as `inf`) cannot be read back: the stream fails and the flag stays uninitialised. -/
theorem scan_file_infinite_counterexample : setupScan (id : ℚ → ℚ) "1\ninf 0 1\n".toList = none := by decide +kernel

/-- More than six digits are lost: two different poses have the same file. -/
theorem pose_file_precision_counterexample :
    printPose ((1000000 : ℚ), 0, 0) = printPose ((1000001 : ℚ), 0, 0) := by decide +kernel

end Slam.Text
