import Verif.Config.Props

/-!
# Parameters from a launch file (C69)

Model of `LaunchPropertiesProvider` (src/ros/launch_properties_provider.h) and its agreement with the providers of
property files.
-/

set_option autoImplicit false
set_option linter.unusedSectionVars false

namespace Slam.Config

/-- A value on the parameter server: string, `int`, `double`, `bool`, or anything else (lists, structures). -/
inductive Param (K : Type*) where
  | str (s : Str)
  | int (i : Int)
  | dbl (d : K)
  | bool (b : Bool)
  | other

/-- The private parameters of the node; the prefix `~` of names is left out. -/
abbrev Server (K : Type*) := Str → Option (Param K)

/-- `ros::param::set` of a string, launch_properties_provider.h:13-15. -/
def Server.setProperty {K : Type*} (srv : Server K) (id val : Str) : Server K :=
  fun k => if k = id then some (.str val) else srv k

variable {K : Type*} [Field K]

/-- `launch_param<std::string>`, launch_properties_provider.h:47-52: `ros::param::param` gives the default unless the
parameter is a string. -/
def paramStr (srv : Server K) (id dflt : Str) : Str :=
  match srv id with
  | some (.str s) => s
  | _ => dflt

/-- `launch_param<int>`: roscpp also converts a `double`, by `round`. -/
def paramInt (round : K → Int) (srv : Server K) (id : Str) (dflt : Int) : Int :=
  match srv id with
  | some (.int i) => i
  | some (.dbl d) => round d
  | _ => dflt

/-- `launch_param<double>`: roscpp also converts an `int`. -/
def paramDbl (srv : Server K) (id : Str) (dflt : K) : K :=
  match srv id with
  | some (.int i) => (i : K)
  | some (.dbl d) => d
  | _ => dflt

/-- `launch_param<bool>`. -/
def paramBool (srv : Server K) (id : Str) (dflt : Bool) : Bool :=
  match srv id with
  | some (.bool b) => b
  | _ => dflt

/-- `Dflt_Str`, launch_properties_provider.h:18. -/
def unset : Str := "<unset>".toList

/-- `get_str`, launch_properties_provider.h:29-31. -/
def launchStr (srv : Server K) (id dflt : Str) : Str := paramStr srv id dflt

/-- `get_int`, launch_properties_provider.h:17-21; `none`: `std::stoi` throws. -/
def launchInt (round : K → Int) (srv : Server K) (id : Str) (dflt : Int) : Option Int :=
  let val := launchStr srv id unset
  if val = unset then some (paramInt round srv id dflt) else stoi val

/-- `get_dbl`, launch_properties_provider.h:23-27. -/
def launchDbl (stod : Str → Option K) (srv : Server K) (id : Str) (dflt : K) : Option K :=
  let val := launchStr srv id unset
  if val = unset then some (paramDbl srv id dflt) else stod val

/-- Conversion of an `unsigned` to an `int`. -/
def unsignedToInt (n : Nat) : Int := if n % 2 ^ 32 < 2 ^ 31 then ((n % 2 ^ 32 : Nat) : Int) else ((n % 2 ^ 32 : Nat) : Int) - 2 ^ 32

/-- `get_uint`, launch_properties_provider.h:33-37; `none`: an exception, or the assertion fails. -/
def launchUint (round : K → Int) (srv : Server K) (id : Str) (dflt : Nat) : Option Nat :=
  (launchInt round srv id (unsignedToInt dflt)).bind fun v => if 0 ≤ v then some v.toNat else none

/-- `get_bool`, launch_properties_provider.h:39-44. -/
def launchBool (srv : Server K) (id : Str) (dflt : Bool) : Bool :=
  let val := launchStr srv id unset
  if val = unset then paramBool srv id dflt
  else !(decide (val = "false".toList) || decide (val = "0".toList))

/-! ## Specification and proofs -/

/-- Specification: the parameter server holds a property as text, or neither has it; the text is not the reserved
word. -/
def SameText (srv : Server K) (t : Table) (k : Str) : Prop :=
  (srv k = none ∧ t k = none) ∨ ∃ v, srv k = some (.str v) ∧ t k = some v ∧ v ≠ "<unset>".toList

/-- **A configuration means the same in a launch file and in a property file (C69)**: for every property that the
launch file gives as text (other than the reserved word), or not at all, the values of type string, `int`, `double`
and `bool` are those that a property file with the same text gives, errors included. -/
theorem launch_agrees_with_file (round : K → Int) (stod : Str → Option K) (srv : Server K) (t : Table) (k : Str)
    (h : SameText srv t k) :
    (∀ d, launchStr srv k d = getStr t k d) ∧ (∀ d, launchInt round srv k d = getInt t k d) ∧
    (∀ d, launchDbl stod srv k d = getDbl stod t k d) ∧ (∀ d, launchBool srv k d = getBool t k d) := by
  rcases h with ⟨h1, h2⟩ | ⟨v, h1, h2, h3⟩
  · have hu : ∀ d, launchStr srv k d = d := by intro d; simp [launchStr, paramStr, h1]
    refine ⟨?_, ?_, ?_, ?_⟩ <;> intro d
    · rw [hu, getStr, h2]; rfl
    · simp [launchInt, hu, paramInt, getInt, h1, h2]
    · simp [launchDbl, hu, paramDbl, getDbl, h1, h2]
    · simp [launchBool, hu, paramBool, getBool, h1, h2]
  · have hu : ∀ d, launchStr srv k d = v := by intro d; simp [launchStr, paramStr, h1]
    have h3' : v ≠ unset := h3
    refine ⟨?_, ?_, ?_, ?_⟩ <;> intro d
    · rw [hu, getStr, h2]; rfl
    · simp [launchInt, hu, getInt, h2, h3']
    · simp [launchDbl, hu, getDbl, h2, h3']
    · simp [launchBool, hu, getBool, h2, h3']

/-- **Unsigned properties (C69)**: if the launch file gives a property as text or not at all, and a value is returned,
it is below `2^31` and it is the value that the property file gives, provided that the default is below `2^31`. -/
theorem launch_uint_agrees (round : K → Int) (srv : Server K) (t : Table) (k : Str) (h : SameText srv t k)
    (dflt n : Nat) (hd : dflt < 2 ^ 31) (hn : launchUint round srv k dflt = some n) :
    n < 2 ^ 31 ∧ getUint t k dflt = some n := by
  have hl := (launch_agrees_with_file round (fun _ => none) srv t k h).2.1 (unsignedToInt dflt)
  unfold launchUint at hn
  rw [hl] at hn
  have hdm : dflt % 2 ^ 32 = dflt := Nat.mod_eq_of_lt (by omega)
  rcases h with ⟨h1, h2⟩ | ⟨v, h1, h2, h3⟩
  · simp only [getInt, h2, Option.bind_some] at hn
    rw [unsignedToInt, hdm, if_pos hd, if_pos (by omega)] at hn
    simp only [Option.some.injEq, Int.toNat_natCast] at hn
    subst hn
    exact ⟨hd, by simp [getUint, h2]⟩
  · simp only [getInt, h2] at hn
    cases hs : stoi v with
    | none => rw [hs] at hn; cases hn
    | some i =>
      rw [hs] at hn
      simp only [Option.bind_some] at hn
      by_cases hi : 0 ≤ i
      · rw [if_pos hi] at hn
        simp only [Option.some.injEq] at hn
        unfold stoi at hs
        cases hsc : scanNumber v with
        | none => rw [hsc] at hs; cases hs
        | some r =>
          obtain ⟨neg, m⟩ := r
          rw [hsc] at hs
          simp only [Option.bind_some] at hs
          cases neg with
          | true =>
            simp only [if_true] at hs
            by_cases hb : -2 ^ 31 ≤ (-(m : Int)) ∧ (-(m : Int)) < 2 ^ 31
            · rw [if_pos hb] at hs
              simp only [Option.some.injEq] at hs
              have hm : m = 0 := by omega
              have hn0 : n = 0 := by omega
              subst hm hn0
              refine ⟨by norm_num, ?_⟩
              simp only [getUint, h2, stoul, hsc, Option.bind_some]
              norm_num
            · rw [if_neg hb] at hs; cases hs
          | false =>
            simp only [Bool.false_eq_true, if_false] at hs
            by_cases hb : -2 ^ 31 ≤ (m : Int) ∧ (m : Int) < 2 ^ 31
            · rw [if_pos hb] at hs
              simp only [Option.some.injEq] at hs
              have hn0 : n = m := by omega
              subst hn0
              have hlt : n < 2 ^ 31 := by omega
              refine ⟨hlt, ?_⟩
              simp only [getUint, h2, stoul, hsc, Option.bind_some]
              rw [if_pos (by omega)]
              simp only [Bool.false_eq_true, if_false, Option.map_some, Option.some.injEq]
              omega
            · rw [if_neg hb] at hs; cases hs
      · rw [if_neg hi] at hn; cases hn

/-- **Typed parameters (C69)**: a parameter that the launch file gives as a number or truth value is read with that
value, if it is asked for in its own type; a parameter that is not given, or whose text is the reserved word, has the
default of the program. -/
theorem launch_typed (round : K → Int) (stod : Str → Option K) (srv : Server K) (k : Str) :
    (∀ i d, srv k = some (.int i) → launchInt round srv k d = some i ∧ ∀ d', launchDbl stod srv k d' = some (i : K)) ∧
    (∀ x d, srv k = some (.dbl x) → launchDbl stod srv k d = some x ∧ ∀ i, launchInt round srv k i = some (round x)) ∧
    (∀ b d, srv k = some (.bool b) → launchBool srv k d = b) ∧
    (srv k = none ∨ srv k = some (.str "<unset>".toList) →
      (∀ d, launchInt round srv k d = some d) ∧ (∀ d, launchDbl stod srv k d = some d) ∧
      (∀ d, launchBool srv k d = d) ∧
      ∀ d : Nat, d < 2 ^ 31 → launchUint round srv k d = some d) := by
  refine ⟨?_, ?_, ?_, ?_⟩
  · intro i d h
    refine ⟨?_, fun d' => ?_⟩
    · simp [launchInt, launchStr, paramStr, h, paramInt]
    · simp [launchDbl, launchStr, paramStr, h, paramDbl]
  · intro x d h; simp [launchDbl, launchInt, launchStr, paramStr, h, paramDbl, paramInt]
  · intro b d h; simp [launchBool, launchStr, paramStr, h, paramBool]
  · intro h
    have hu : launchStr srv k unset = unset := by
      rcases h with h | h
      · simp [launchStr, paramStr, h]
      · rw [launchStr, paramStr, h]; rfl
    have hi : ∀ d, launchInt round srv k d = some d := by
      intro d
      rcases h with h | h <;> simp [launchInt, hu, paramInt, h]
    refine ⟨hi, ?_, ?_, ?_⟩ 
    · intro d
      rcases h with h | h <;> simp [launchDbl, hu, paramDbl, h]
    · intro d
      rcases h with h | h <;> simp [launchBool, hu, paramBool, h]
    · intro d hd
      have hdm : d % 2 ^ 32 = d := Nat.mod_eq_of_lt (by omega)
      rw [launchUint, hi, Option.bind_some, unsignedToInt, hdm, if_pos hd, if_pos (by omega)]
      simp

/-- **A property set by the program is read back (C69)**, and the others keep their values. -/
theorem launch_set (srv : Server K) (id val d : Str) :
    launchStr (srv.setProperty id val) id d = val ∧
    ∀ k, k ≠ id → (srv.setProperty id val) k = srv k := by
  refine ⟨by simp [launchStr, paramStr, Server.setProperty], fun k hk => by simp [Server.setProperty, hk]⟩

/-- Not each parameter is read as it is written (C69): a number is not seen by who asks for a text, a number is not
seen by who asks for a truth value, a large default of an unsigned property trips the assertion, and a large unsigned value, which
a property file may give, throws. -/
theorem launch_type_counterexample (round : ℚ → Int) :
    (launchStr (fun _ => some (.int 7) : Server ℚ) "k".toList "dflt".toList = "dflt".toList) ∧
    (launchBool (fun _ => some (.int 0) : Server ℚ) "k".toList true = true) ∧
    (launchUint round (fun _ => none : Server ℚ) "k".toList (2 ^ 31) = none) ∧
    (launchUint round (fun _ => some (.str "3000000000".toList) : Server ℚ) "k".toList 0 = none ∧
      getUint (fun _ => some "3000000000".toList) "k".toList 0 = some 3000000000) := by
  refine ⟨rfl, rfl, ?_, ?_, ?_⟩
  · simp [launchUint, launchInt, launchStr, paramStr, paramInt, unsignedToInt]
  · have h : stoi "3000000000".toList = none := by decide
    have hne : "3000000000".toList ≠ unset := by decide
    have hl : launchStr (fun _ => some (.str "3000000000".toList) : Server ℚ) "k".toList unset =
        "3000000000".toList := rfl
    rw [launchUint, launchInt, hl, if_neg hne, h, Option.bind_none]
  · have h : stoul "3000000000".toList = some 3000000000 := by decide
    rw [getUint]
    simp only [h, Option.map_some]
    norm_num

/-- A launch file with a text and a truth value. -/
def exampleServer : Server ℚ := fun k =>
  if k = "slam/map/width".toList then some (.str "20".toList) else if k = "verbose".toList then some (.bool true) else none

example : SameText exampleServer (Table.empty.set "slam/map/width".toList "20".toList) "slam/map/width".toList :=
  Or.inr ⟨"20".toList, rfl, by decide, by decide⟩

example : launchUint (fun _ => 0) exampleServer "slam/map/width".toList 5 = some 20 := by decide +kernel

example : launchBool exampleServer "verbose".toList false = true := by decide +kernel

end Slam.Config
