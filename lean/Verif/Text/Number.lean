import Verif.Text.Model
import Mathlib.Tactic.Linarith
import Mathlib.Tactic.FieldSimp
import Mathlib.Tactic.Ring

/-! # Numbers as text: lemmas -/

set_option autoImplicit false
set_option linter.unusedSectionVars false

namespace Slam.Text
open Slam.Float

variable {K : Type} [Field K] [LinearOrder K] [IsStrictOrderedRing K] [FloorRing K]

/-! ## Digits -/

theorem digitChar_toNat (d : Nat) : (digitChar d).toNat = 48 + d % 10 := by
  have h : d % 10 < 10 := Nat.mod_lt _ (by norm_num)
  unfold digitChar
  generalize d % 10 = k at h
  have : ∀ k : Fin 10, (Char.ofNat (48 + k.val)).toNat = 48 + k.val := by decide
  exact this ⟨k, h⟩

theorem isDig_digitChar (d : Nat) : isDig (digitChar d) = true := by
  have h : d % 10 < 10 := Nat.mod_lt _ (by norm_num)
  simp only [isDig, digitChar_toNat, Bool.and_eq_true, decide_eq_true_eq]
  omega

theorem isDig_fixed (w m : Nat) : ∀ c ∈ fixed w m, isDig c = true := by
  induction w generalizing m with
  | zero => simp [fixed]
  | succ w ih =>
    intro c hc
    simp only [fixed, List.mem_append, List.mem_singleton] at hc
    rcases hc with hc | rfl
    · exact ih _ c hc
    · exact isDig_digitChar m

theorem fixed_length (w m : Nat) : (fixed w m).length = w := by
  induction w generalizing m with
  | zero => rfl
  | succ w ih => simp [fixed, ih]

theorem natOf_foldl (s : Str) (v : Nat) :
    s.foldl (fun v c => 10 * v + (c.toNat - 48)) v = v * 10 ^ s.length + natOf s := by
  induction s generalizing v with
  | nil => simp [natOf]
  | cons c s ih =>
    have h2 : natOf (c :: s) = s.foldl (fun v c => 10 * v + (c.toNat - 48)) (10 * 0 + (c.toNat - 48)) := rfl
    rw [List.foldl_cons, ih, h2, ih]
    simp only [List.length_cons, pow_succ]
    ring

theorem natOf_append (a b : Str) : natOf (a ++ b) = natOf a * 10 ^ b.length + natOf b := by
  have h : natOf (a ++ b) = b.foldl (fun v c => 10 * v + (c.toNat - 48)) (natOf a) := by simp only [natOf, List.foldl_append]
  rw [h, natOf_foldl]

theorem natOf_fixed (w m : Nat) : natOf (fixed w m) = m % 10 ^ w := by
  induction w generalizing m with
  | zero => simp [fixed, natOf, Nat.mod_one]
  | succ w ih =>
    rw [fixed, natOf_append, ih]
    have : natOf [digitChar m] = m % 10 := by
      simp [natOf, digitChar_toNat]
    rw [this]
    simp only [List.length_singleton, pow_one]
    rw [pow_succ, mul_comm (10 ^ w) 10, Nat.mod_mul]
    ring

theorem natOf_zeros (k : Nat) : natOf (List.replicate k '0') = 0 := by
  induction k with
  | zero => rfl
  | succ k ih =>
    rw [List.replicate_succ', natOf_append, ih]
    rfl

theorem stripZeros_spec (s : Str) : ∃ k, s = stripZeros s ++ List.replicate k '0' := by
  unfold stripZeros
  have h := List.takeWhile_append_dropWhile (p := (· == '0')) (l := s.reverse)
  have hz : ∀ c ∈ s.reverse.takeWhile (· == '0'), c = '0' := by
    intro c hc
    have := List.all_takeWhile (p := (· == '0')) (l := s.reverse)
    rw [List.all_eq_true] at this
    simpa using this c hc
  have hz := List.eq_replicate_of_mem hz
  refine ⟨(s.reverse.takeWhile (· == '0')).length, ?_⟩
  have h2 := congrArg List.reverse h
  rw [List.reverse_append, List.reverse_reverse] at h2
  conv_lhs => rw [← h2]
  rw [hz]
  simp

theorem isDig_strip (s : Str) (h : ∀ c ∈ s, isDig c = true) : ∀ c ∈ stripZeros s, isDig c = true := by
  obtain ⟨k, hk⟩ := stripZeros_spec s
  intro c hc
  exact h c (by rw [hk]; simp [hc])

/-! ## Reading what has the shape of a number -/

/-- What may follow a number: nothing that would be taken for a part of it. -/
def Ends (rest : Str) : Prop := ∀ c, rest.head? = some c → isDig c = false ∧ c ≠ '.' ∧ c ≠ 'e' ∧ c ≠ 'E'

theorem takeWhile_digits (s rest : Str) (hs : ∀ c ∈ s, isDig c = true) (hr : ∀ c, rest.head? = some c → isDig c = false) :
    (s ++ rest).takeWhile isDig = s ∧ (s ++ rest).dropWhile isDig = rest := by
  induction s with
  | nil =>
    cases rest with
    | nil => simp
    | cons c t => simp [hr c rfl]
  | cons c s ih =>
    have h1 := hs c (by simp)
    obtain ⟨a, b⟩ := ih (fun c hc => hs c (by simp [hc]))
    simp [h1, a, b]

theorem takeSign_digit (s : Str) (h : ∀ c, s.head? = some c → isDig c = true ∨ c = '.') : takeSign s = (false, s) := by
  unfold takeSign
  split
  · rcases h '-' rfl with h | h <;> exact absurd h (by decide)
  · rcases h '+' rfl with h | h <;> exact absurd h (by decide)
  · rfl

/-- The text of an exponent. -/
def expText (e : ℤ) : Str := 'e' :: (if e < 0 then '-' else '+') :: printExp e.natAbs

theorem printExp_ne (n : Nat) : printExp n ≠ [] := by
  intro h
  have := congrArg List.length h
  simp only [printExp, fixed_length, List.length_nil] at this
  omega

theorem natOf_printExp (n : Nat) : natOf (printExp n) = n := by
  unfold printExp
  rw [natOf_fixed, Nat.mod_eq_of_lt]
  refine lt_of_lt_of_le (Nat.lt_pow_succ_log_self (b := 10) (by norm_num) n) ?_
  exact Nat.pow_le_pow_right (by norm_num) (le_max_right _ _)

theorem takeExp_text (e : ℤ) (rest : Str) (hr : Ends rest) : takeExp (expText e ++ rest) = some (e, rest) := by
  have hd := takeWhile_digits (printExp e.natAbs) rest (isDig_fixed _ _) (fun c h => (hr c h).1)
  unfold expText takeExp
  simp only [List.cons_append, true_or, if_true]
  by_cases h : e < 0
  · rw [if_pos h]
    simp only [takeSign, hd.1, hd.2, printExp_ne, if_false, natOf_printExp, if_true]
    congr 2
    omega
  · rw [if_neg h]
    simp only [takeSign, hd.1, hd.2, printExp_ne, if_false, natOf_printExp, Bool.false_eq_true]
    congr 2
    omega

theorem takeExp_rest (rest : Str) (hr : Ends rest) : takeExp rest = some (0, rest) := by
  cases rest with
  | nil => rfl
  | cons c t =>
    obtain ⟨_, _, h1, h2⟩ := hr c rfl
    simp [takeExp, h1, h2]

/-- A number with digits `i`, a fraction `f` without its trailing zeros and an exponent text is read as that number. -/
theorem parse_shape (r : K → K) (neg : Bool) (i f ex rest : Str) (e : ℤ) (hi : i ≠ []) (hid : ∀ c ∈ i, isDig c = true)
    (hfd : ∀ c ∈ f, isDig c = true) (hex : ∀ c, (ex ++ rest).head? = some c → isDig c = false ∧ c ≠ '.')
    (he : takeExp (ex ++ rest) = some (e, rest)) :
    parseDouble r ((if neg then ['-'] else []) ++ withPoint i (stripZeros f) ++ ex ++ rest) =
      some (r (if neg then -((natOf (i ++ f) : K) * 10 ^ (e - (f.length : ℤ))) else (natOf (i ++ f) : K) * 10 ^ (e - (f.length : ℤ))),
        rest) := by
  have hhead : ∀ u : Str, ∀ c, (i ++ u).head? = some c → isDig c = true ∨ c = '.' := by
    intro u c hc
    cases i with
    | nil => exact absurd rfl hi
    | cons d i =>
      simp only [List.cons_append, List.head?_cons, Option.some.injEq] at hc
      subst hc
      exact .inl (hid _ (by simp))
  have hsign : ∀ u : Str, takeSign ((if neg then ['-'] else []) ++ (i ++ u)) = (neg, i ++ u) := by
    intro u
    cases neg with
    | true => rfl
    | false => exact takeSign_digit _ (hhead u)
  obtain ⟨k, hk⟩ := stripZeros_spec f
  have hval : ∀ g : Str, f = g ++ List.replicate k '0' →
      (natOf (i ++ g) : K) * 10 ^ (e - (g.length : ℤ)) = (natOf (i ++ f) : K) * 10 ^ (e - (f.length : ℤ)) := by
    intro g hg
    rw [hg, ← List.append_assoc, natOf_append (i ++ g), natOf_zeros]
    simp only [List.length_replicate, add_zero, List.length_append]
    push_cast
    rw [mul_assoc, ← zpow_natCast, ← zpow_add₀ (by norm_num)]
    congr 2
    ring
  unfold withPoint
  by_cases hg : stripZeros f = []
  · rw [if_pos hg]
    have e1 : (if neg = true then ['-'] else []) ++ i ++ ex ++ rest = (if neg = true then ['-'] else []) ++ (i ++ (ex ++ rest)) := by
      simp
    rw [e1]
    unfold parseDouble
    rw [hsign]
    obtain ⟨t1, t2⟩ := takeWhile_digits i (ex ++ rest) hid (fun c h => (hex c h).1)
    have tf : takeFrac (ex ++ rest) = ([], ex ++ rest) := by
      unfold takeFrac
      split
      · rename_i t heq
        exact absurd rfl (hex '.' (by rw [heq]; rfl)).2
      · rfl
    simp only [t1, t2, tf, List.append_nil, hi, if_false, he, Option.map_some]
    have := hval [] (by rw [← hg]; exact hk)
    simp only [List.append_nil, List.length_nil] at this
    simp only [List.length_nil]
    rw [this]
  · rw [if_neg hg]
    have e1 : (if neg = true then ['-'] else []) ++ (i ++ '.' :: stripZeros f) ++ ex ++ rest =
        (if neg = true then ['-'] else []) ++ (i ++ ('.' :: (stripZeros f ++ (ex ++ rest)))) := by simp
    rw [e1]
    unfold parseDouble
    rw [hsign]
    obtain ⟨t1, t2⟩ := takeWhile_digits i ('.' :: (stripZeros f ++ (ex ++ rest))) hid (by
      intro c h
      simp only [List.head?_cons, Option.some.injEq] at h
      subst h; decide)
    obtain ⟨t3, t4⟩ := takeWhile_digits (stripZeros f) (ex ++ rest) (isDig_strip f hfd) (fun c h => (hex c h).1)
    have tf : takeFrac ('.' :: (stripZeros f ++ (ex ++ rest))) = (stripZeros f, ex ++ rest) := by
      simp only [takeFrac, t3, t4]
    have hne : i ++ stripZeros f ≠ [] := by simp [hi]
    simp only [t1, t2, tf, hne, if_false, he, Option.map_some]
    rw [hval (stripZeros f) hk]

/-! ## Six digits -/

/-- The number a printed double denotes. -/
def sixValue (x : K) : K :=
  if x = 0 then 0
  else if x < 0 then -(((sixDigits x).1 : K) * 10 ^ ((sixDigits x).2 - 5)) else ((sixDigits x).1 : K) * 10 ^ ((sixDigits x).2 - 5)

theorem ten_pos (e : ℤ) : (0 : K) < 10 ^ e := zpow_pos (by norm_num) e

theorem log_bounds {x : K} (h : x ≠ 0) : (10 : K) ^ Int.log 10 |x| ≤ |x| ∧ |x| < 10 ^ (Int.log 10 |x| + 1) := by
  have hp : 0 < |x| := abs_pos.2 h
  constructor
  · have := Int.zpow_log_le_self (b := 10) (by norm_num) hp
    exact_mod_cast this
  · have := Int.lt_zpow_succ_log_self (b := 10) (by norm_num) |x|
    exact_mod_cast this

theorem log_unique {x : K} {e : ℤ} (h1 : (10 : K) ^ e ≤ |x|) (h2 : |x| < 10 ^ (e + 1)) : Int.log 10 |x| = e := by
  have hp : 0 < |x| := lt_of_lt_of_le (ten_pos e) h1
  obtain ⟨a, b⟩ := log_bounds (x := x) (abs_pos.1 hp)
  have one : (1 : K) < 10 := by norm_num
  have c := (zpow_lt_zpow_iff_right₀ one).1 (lt_of_le_of_lt h1 b)
  have d := (zpow_lt_zpow_iff_right₀ one).1 (lt_of_le_of_lt a h2)
  omega

theorem halfEven_err (x : K) : |(halfEven x : K) - x| ≤ 1 / 2 := by
  have h0 := Int.floor_le x
  have h1 := Int.lt_floor_add_one x
  by_cases h : x - ⌊x⌋ ≤ 1 / 2
  · refine (halfEven_near x ⌊x⌋).trans ?_
    rw [abs_le]; constructor <;> linarith
  · push Not at h
    refine (halfEven_near x (⌊x⌋ + 1)).trans ?_
    push_cast
    rw [abs_le]; constructor <;> linarith

theorem halfEven_eq {x : K} {m : ℤ} (h : |x - m| < 1 / 2) : halfEven x = m := by
  have h1 := halfEven_err x
  rw [abs_lt] at h
  rw [abs_le] at h1
  have a : (halfEven x : K) < m + 1 := by linarith [h.1, h.2, h1.1, h1.2]
  have b : (m : K) < halfEven x + 1 := by linarith [h.1, h.2, h1.1, h1.2]
  have a : halfEven x < m + 1 := by exact_mod_cast a
  have b : m < halfEven x + 1 := by exact_mod_cast b
  omega

/-- The scaled number before rounding is between 10^5 and 10^6. -/
theorem scaled_bounds {x : K} (h : x ≠ 0) :
    (100000 : K) ≤ |x| / 10 ^ (Int.log 10 |x| - 5) ∧ |x| / 10 ^ (Int.log 10 |x| - 5) < 1000000 := by
  obtain ⟨a, b⟩ := log_bounds h
  have hp : (0 : K) < 10 ^ (Int.log 10 |x| - 5) := ten_pos _
  rw [le_div_iff₀ hp, div_lt_iff₀ hp]
  have e1 : (10 : K) ^ Int.log 10 |x| = 100000 * 10 ^ (Int.log 10 |x| - 5) := by
    rw [zpow_sub₀ (by norm_num)]; norm_num; ring
  have e2 : (10 : K) ^ (Int.log 10 |x| + 1) = 1000000 * 10 ^ (Int.log 10 |x| - 5) := by
    rw [zpow_sub₀ (by norm_num), zpow_add₀ (by norm_num)]; norm_num; ring
  constructor
  · rw [← e1]; exact a
  · rw [← e2]; exact b

theorem halfEven_mono {x : K} {m : ℤ} (h : (m : K) ≤ x) : m ≤ halfEven x := by
  have h1 := halfEven_err x
  rw [abs_le] at h1
  have : (m : K) < halfEven x + 1 := by linarith [h1.1]
  have : m < halfEven x + 1 := by exact_mod_cast this
  omega

theorem halfEven_mono' {x : K} {m : ℤ} (h : x ≤ (m : K)) : halfEven x ≤ m := by
  have h1 := halfEven_err x
  rw [abs_le] at h1
  have : (halfEven x : K) < m + 1 := by linarith [h1.2]
  have : halfEven x < m + 1 := by exact_mod_cast this
  omega

/-- Six digits: the mantissa has exactly six, and denotes the rounded scaled number. -/
theorem sixDigits_spec {x : K} (h : x ≠ 0) :
    100000 ≤ (sixDigits x).1 ∧ (sixDigits x).1 < 1000000 ∧
    ((sixDigits x).1 : K) * 10 ^ ((sixDigits x).2 - 5) =
      (halfEven (|x| / 10 ^ (Int.log 10 |x| - 5)) : K) * 10 ^ (Int.log 10 |x| - 5) := by
  obtain ⟨a, b⟩ := scaled_bounds h
  set q := |x| / 10 ^ (Int.log 10 |x| - 5) with hq
  have h1 : (100000 : ℤ) ≤ halfEven q := halfEven_mono (by exact_mod_cast a)
  have h2 : halfEven q ≤ (1000000 : ℤ) := halfEven_mono' (by push_cast; exact b.le)
  have hc : ((halfEven q).toNat : K) = (halfEven q : K) := by
    have : ((halfEven q).toNat : ℤ) = halfEven q := Int.toNat_of_nonneg (by omega)
    exact_mod_cast congrArg (Int.cast (R := K)) this
  unfold sixDigits
  simp only [← hq]
  by_cases hm : (halfEven q).toNat = 1000000
  · rw [if_pos hm]
    refine ⟨by norm_num, by norm_num, ?_⟩
    rw [← hc, hm]
    have : (10 : K) ^ (Int.log 10 |x| + 1 - 5) = 10 * 10 ^ (Int.log 10 |x| - 5) := by
      rw [show Int.log 10 |x| + 1 - 5 = 1 + (Int.log 10 |x| - 5) by ring, zpow_add₀ (by norm_num), zpow_one]
    simp only [this]
    push_cast; ring
  · rw [if_neg hm]
    refine ⟨by simp only; omega, by simp only; omega, ?_⟩
    simp only [hc]

end Slam.Text
