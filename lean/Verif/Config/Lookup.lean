import Mathlib.Tactic.Common
import Verif.Config.Spec

/-!
# Which value a property has (C44)
-/

set_option autoImplicit false
set_option linter.unusedSectionVars false

namespace Slam.Config

/-! ## Lines -/

theorem linesFrom_eq (s cur : Str) :
    linesFrom cur s =
      if (s.splitOnPPrepend (· == '\n') cur).getLast? = some [] then (s.splitOnPPrepend (· == '\n') cur).dropLast
      else s.splitOnPPrepend (· == '\n') cur := by
  induction s generalizing cur with
  | nil => by_cases h : cur = [] <;> simp [linesFrom, h]
  | cons c cs ih =>
    by_cases h : c = '\n'
    · have hne := List.splitOnPPrepend_ne_nil (· == '\n') cs []
      rw [linesFrom, if_pos h, ih, List.splitOnPPrepend_cons_pos (by simp [h])]
      rw [← List.splitOnPPrepend_nil_right]
      obtain ⟨a, l, hl⟩ := List.exists_cons_of_ne_nil hne
      rw [hl, List.getLast?_cons_cons]
      by_cases h2 : (a :: l).getLast? = some []
      · rw [if_pos h2, if_pos h2, List.dropLast_cons_cons]
      · rw [if_neg h2, if_neg h2]
    · rw [linesFrom, if_neg h, ih, List.splitOnPPrepend_cons_neg (by simp [h])]

/-- The reader splits a text into its lines. -/
theorem lines_of_text (c : Str) : linesOf c = textLines c := linesFrom_eq c []

/-! ## One line -/

theorem takeWhile_drop_ne (l : Str) (h : '=' ∈ l) :
    l = l.takeWhile (· ≠ '=') ++ '=' :: (l.dropWhile (· ≠ '=')).drop 1 := by
  induction l with
  | nil => simp at h
  | cons a l ih =>
    by_cases ha : a = '='
    · simp [ha]
    · have : '=' ∈ l := by simpa [Ne.symm ha] using h
      have := ih this
      simp only [ne_eq, ha, not_false_eq_true, decide_true, List.takeWhile_cons_of_pos, List.dropWhile_cons_of_pos,
        List.cons_append, List.cons.injEq, true_and]
      exact this

theorem takeWhile_append_eq (k v : Str) (h : '=' ∉ k) :
    (k ++ '=' :: v).takeWhile (· ≠ '=') = k ∧ ((k ++ '=' :: v).dropWhile (· ≠ '=')).drop 1 = v := by
  induction k with
  | nil => simp
  | cons a k ih =>
    have ha : a ≠ '=' := fun e => h (by simp [e])
    have hk : '=' ∉ k := fun e => h (by simp [e])
    have := ih hk
    simpa [ha] using this

/-- The reader takes a line as an entry exactly if it is one. -/
theorem readLine_entry (l k v : Str) : readLine l = .entry k v ↔ IsEntry l k v := by
  constructor
  · intro h
    unfold readLine at h
    match l, h with
    | c :: rest, h =>
      dsimp only at h
      by_cases h1 : c = '#'
      · rw [if_pos h1] at h; cases h
      rw [if_neg h1] at h
      by_cases h2 : c = '<'
      · rw [if_pos h2] at h
        split_ifs at h
      rw [if_neg h2] at h
      by_cases h3 : '=' ∈ c :: rest
      · rw [if_pos h3] at h
        injection h with ha hb
        refine ⟨?_, ?_, by simpa using h1, by simpa using h2⟩
        · rw [← ha, ← hb]; exact takeWhile_drop_ne _ h3
        · rw [← ha]
          intro hm
          simpa using (List.all_eq_true.1 (List.all_takeWhile (p := (· ≠ '=')) (l := c :: rest))) _ hm
      · rw [if_neg h3] at h; cases h
  · rintro ⟨h1, h2, h3, h4⟩
    have hm : '=' ∈ l := by rw [h1]; simp
    have ht := takeWhile_append_eq k v h2
    rw [← h1] at ht
    unfold readLine
    match l, h3, h4, hm, ht with
    | c :: rest, h3, h4, hm, ht =>
      have h3' : c ≠ '#' := by simpa using h3
      have h4' : c ≠ '<' := by simpa using h4
      dsimp only
      rw [if_neg h3', if_neg h4', if_pos hm, ht.1, ht.2]

/-- The reader takes a line as an include exactly if it is one. -/
theorem readLine_include (l n : Str) : readLine l = .incl n ↔ IsInclude l n := by
  constructor
  · intro h
    unfold readLine at h
    match l, h with
    | c :: rest, h =>
      dsimp only at h
      by_cases h1 : c = '#'
      · rw [if_pos h1] at h; cases h
      rw [if_neg h1] at h
      by_cases h2 : c = '<'
      · rw [if_pos h2] at h
        by_cases h3 : (c :: rest).getLast? = some '>'
        · rw [if_pos h3] at h
          injection h with hn
          subst h2
          match rest, h3, hn with
          | a :: r, h3, hn =>
            rw [List.getLast?_cons_cons] at h3
            have := List.dropLast_append_getLast? _ (Option.mem_def.2 h3)
            rw [IsInclude, ← hn, this]
        · rw [if_neg h3] at h; cases h
      · rw [if_neg h2] at h
        split_ifs at h
  · intro h
    rw [IsInclude] at h
    subst h
    have h1 : ('<' :: (n ++ ['>'])).getLast? = some '>' := by
      rw [← List.cons_append, List.getLast?_concat]
    unfold readLine
    dsimp only
    rw [if_neg (by decide), if_pos rfl, if_pos h1, List.dropLast_concat]

/-! ## One text -/

/-- Names included by lines. -/
def namesOf (ls : List Str) : List Str :=
  ls.filterMap fun l => match readLine l with | .incl n => some n | _ => none

/-- Table of the entries of lines. -/
def tableOf (ls : List Str) (t : Table) : Table :=
  ls.foldl (fun t l => match readLine l with | .entry k v => t.set k v | _ => t) t

/-- `appendAll` with any reader. -/
def chain (app : Str → Table → Option Table) : List Str → Table → Option Table
  | [], s => some s
  | p :: ps, s => (app p s).bind fun s => chain app ps s

theorem appendAll_eq (F : Files) (n : Nat) (ps : List Str) (s : Table) :
    appendAll F n ps s = chain (append F n) ps s := by
  induction ps generalizing s with
  | nil => rfl
  | cons p ps ih => simp only [appendAll, chain, ih]

theorem parseLines_eq (F : Files) (app : Str → Table → Option Table) (p : Str) (ls : List Str) (s t : Table) :
    parseLines F app p ls s t = (chain app ((namesOf ls).map (F.resolve p)) s).map fun s => (s, tableOf ls t) := by
  induction ls generalizing s t with
  | nil => rfl
  | cons l ls ih =>
    unfold parseLines
    cases h : readLine l with
    | skip =>
      dsimp only
      rw [ih]
      simp only [namesOf, tableOf, List.filterMap_cons, List.foldl_cons, h]
    | incl n =>
      dsimp only
      simp only [namesOf, tableOf, List.filterMap_cons, List.foldl_cons, h, List.map_cons, chain]
      cases app (F.resolve p n) s with
      | none => rfl
      | some s' =>
        simp only [Option.bind_some]
        rw [ih]
        rfl
    | entry k v =>
      dsimp only
      rw [ih]
      simp only [namesOf, tableOf, List.filterMap_cons, List.foldl_cons, h]

theorem append_succ (F : Files) (n : Nat) (p : Str) (s : Table) :
    append F (n + 1) p s =
      match F.content p with
      | none => some s
      | some c => (chain (append F n) ((namesOf (textLines c)).map (F.resolve p)) s).map fun s =>
          s.merge (tableOf (textLines c) Table.empty) := by
  rw [append]
  cases F.content p with
  | none => rfl
  | some c =>
    simp only [parseLines_eq, lines_of_text, Option.map_map]
    rfl

theorem includesOf_names (ls : List Str) : IncludesOf ls (namesOf ls) := by
  induction ls with
  | nil => exact .nil
  | cons l ls ih =>
    cases h : readLine l with
    | incl n =>
      have : namesOf (l :: ls) = n :: namesOf ls := by simp only [namesOf, List.filterMap_cons, h]
      rw [this]
      exact .incl ((readLine_include _ _).1 h) ih
    | skip =>
      have : namesOf (l :: ls) = namesOf ls := by simp only [namesOf, List.filterMap_cons, h]
      rw [this]
      refine .other (fun n hn => ?_) ih
      rw [← readLine_include, h] at hn
      cases hn
    | entry k v =>
      have : namesOf (l :: ls) = namesOf ls := by simp only [namesOf, List.filterMap_cons, h]
      rw [this]
      refine .other (fun n hn => ?_) ih
      rw [← readLine_include, h] at hn
      cases hn

theorem includesOf_unique {ls ns : List Str} (h : IncludesOf ls ns) : ns = namesOf ls := by
  induction h with
  | nil => rfl
  | incl hl _ ih =>
    rw [← readLine_include] at hl
    simp only [namesOf, List.filterMap_cons, hl, List.cons.injEq, true_and]
    exact ih
  | @other l ls ns hl _ ih =>
    have : ∀ n, readLine l ≠ .incl n := fun n hn => hl n ((readLine_include _ _).1 hn)
    cases h : readLine l with
    | incl n => exact absurd h (this n)
    | skip => simp only [namesOf, List.filterMap_cons, h]; exact ih
    | entry k v => simp only [namesOf, List.filterMap_cons, h]; exact ih

theorem tableOf_append (a b : List Str) (t : Table) : tableOf (a ++ b) t = tableOf b (tableOf a t) := by
  simp only [tableOf, List.foldl_append]

theorem tableOf_silent (ls : List Str) (t : Table) (k : Str) (h : ∀ l ∈ ls, ∀ w, ¬ IsEntry l k w) :
    tableOf ls t k = t k := by
  induction ls generalizing t with
  | nil => rfl
  | cons l ls ih =>
    have h1 := ih (match readLine l with | .entry k v => t.set k v | _ => t)
      (fun l' hl' => h l' (List.mem_cons_of_mem _ hl'))
    have h2 : tableOf (l :: ls) t k = tableOf ls (match readLine l with | .entry k v => t.set k v | _ => t) k := rfl
    rw [h2, h1]
    cases hr : readLine l with
    | incl n => rfl
    | skip => rfl
    | entry k' v =>
      have hk : k ≠ k' := by
        rintro rfl
        exact h l (by simp) v ((readLine_entry _ _ _).1 hr)
      simp only [Table.set, if_neg hk]

theorem tableOf_gives {c k v : Str} (h : TextGives c k v) : tableOf (textLines c) Table.empty k = some v := by
  obtain ⟨pre, l, post, h1, h2, h3⟩ := h
  rw [h1, tableOf_append]
  have : tableOf (l :: post) (tableOf pre Table.empty) =
      tableOf post (match readLine l with
        | .entry k v => (tableOf pre Table.empty).set k v
        | _ => tableOf pre Table.empty) := rfl
  rw [this, tableOf_silent _ _ _ h3, (readLine_entry _ _ _).2 h2]
  simp [Table.set]

theorem gives_or_silent (c k : Str) : (∃ v, TextGives c k v) ∨ TextSilent c k := by
  unfold TextGives TextSilent
  generalize textLines c = ls
  induction ls with
  | nil => right; simp
  | cons l ls ih =>
    rcases ih with ⟨v, pre, m, post, h1, h2, h3⟩ | h
    · left; exact ⟨v, l :: pre, m, post, by rw [h1]; rfl, h2, h3⟩
    · by_cases hl : ∃ v, IsEntry l k v
      · obtain ⟨v, hv⟩ := hl
        left; exact ⟨v, [], l, ls, rfl, hv, h⟩
      · right
        intro m hm w
        rcases List.mem_cons.1 hm with rfl | hm
        · exact fun hw => hl ⟨w, hw⟩
        · exact h m hm w

theorem tableOf_iff (c k v : Str) : tableOf (textLines c) Table.empty k = some v ↔ TextGives c k v := by
  constructor
  · intro h
    rcases gives_or_silent c k with ⟨w, hw⟩ | hs
    · rw [tableOf_gives hw] at h
      injection h with h
      exact h ▸ hw
    · rw [tableOf_silent _ _ _ hs] at h
      simp [Table.empty] at h
  · exact tableOf_gives

theorem tableOf_none (c k : Str) : tableOf (textLines c) Table.empty k = none ↔ TextSilent c k := by
  constructor
  · intro h
    rcases gives_or_silent c k with ⟨w, hw⟩ | hs
    · rw [tableOf_gives hw] at h
      cases h
    · exact hs
  · intro h
    rw [tableOf_silent _ _ _ h]; rfl

/-! ## Many texts -/

/-- Merge of the tables of texts into a store. -/
def mergeAll (s : Table) (cs : List Str) : Table := cs.foldl (fun s c => s.merge (tableOf (textLines c) Table.empty)) s

theorem chain_append (app : Str → Table → Option Table) (a b : List Str) (s : Table) :
    chain app (a ++ b) s = (chain app a s).bind fun s => chain app b s := by
  induction a generalizing s with
  | nil => rfl
  | cons p a ih =>
    simp only [List.cons_append, chain]
    cases app p s with
    | none => rfl
    | some s' => simp only [Option.bind_some, ih]

theorem visits_reads {F : Files} {ps cs : List Str} (h : Visits F ps cs) :
    ∃ N, ∀ n, N ≤ n → ∀ s, chain (append F n) ps s = some (mergeAll s cs) := by
  induction h with
  | nil => exact ⟨0, fun n _ s => rfl⟩
  | @missing p ps cs hp _ ih =>
    obtain ⟨N, hN⟩ := ih
    refine ⟨N + 1, fun n hn s => ?_⟩
    obtain ⟨m, rfl⟩ : ∃ m, n = m + 1 := ⟨n - 1, by omega⟩
    simp only [chain, append_succ, hp, Option.bind_some]
    exact hN (m + 1) (by omega) s
  | @file p c names ps is cs hp hi _ _ ih1 ih2 =>
    obtain ⟨N1, h1⟩ := ih1
    obtain ⟨N2, h2⟩ := ih2
    refine ⟨N1 + N2 + 1, fun n hn s => ?_⟩
    obtain ⟨m, rfl⟩ : ∃ m, n = m + 1 := ⟨n - 1, by omega⟩
    have hnames := includesOf_unique hi
    simp only [chain, append_succ, hp, ← hnames]
    rw [h1 m (by omega)]
    simp only [Option.map_some, Option.bind_some]
    rw [h2 (m + 1) (by omega)]
    simp only [mergeAll, List.foldl_append, List.foldl_cons]

theorem reads_visits (F : Files) (n : Nat) : ∀ (ps : List Str) (s t : Table), chain (append F n) ps s = some t →
    ∃ cs, Visits F ps cs := by
  induction n with
  | zero =>
    intro ps s t h
    cases ps with
    | nil => exact ⟨[], .nil⟩
    | cons p ps => simp [chain, append] at h
  | succ n ih =>
    intro ps
    induction ps with
    | nil => exact fun s t _ => ⟨[], .nil⟩
    | cons p ps ihp =>
      intro s t h
      simp only [chain, append_succ] at h
      cases hc : F.content p with
      | none =>
        simp only [hc, Option.bind_some] at h
        obtain ⟨cs, hcs⟩ := ihp _ _ h
        exact ⟨cs, .missing hc hcs⟩
      | some c =>
        simp only [hc] at h
        cases hi : chain (append F n) ((namesOf (textLines c)).map (F.resolve p)) s with
        | none => simp [hi] at h
        | some s' =>
          simp only [hi, Option.map_some, Option.bind_some] at h
          obtain ⟨cs, hcs⟩ := ihp _ _ h
          obtain ⟨is, his⟩ := ih _ _ _ hi
          exact ⟨_, .file hc (includesOf_names _) his hcs⟩

theorem mergeAll_found {s : Table} {k v : Str} (h : s k = some v) (cs : List Str) : mergeAll s cs k = some v := by
  induction cs generalizing s with
  | nil => exact h
  | cons c cs ih =>
    refine ih (s := s.merge (tableOf (textLines c) Table.empty)) ?_
    simp only [Table.merge, h]

theorem mergeAll_silent {cs : List Str} {k : Str} (h : ∀ c ∈ cs, TextSilent c k) (s : Table) :
    mergeAll s cs k = s k := by
  induction cs generalizing s with
  | nil => rfl
  | cons c cs ih =>
    have h1 := ih (fun c' hc' => h c' (List.mem_cons_of_mem _ hc')) (s.merge (tableOf (textLines c) Table.empty))
    refine h1.trans ?_
    have h2 := (tableOf_none c k).2 (h c (by simp))
    simp only [Table.merge]
    cases hs : s k with
    | some v => rfl
    | none => simp only [h2]

theorem mergeAll_first {cs : List Str} {k v : Str} (h : FirstGives cs k v) {s : Table} (hs : s k = none) :
    mergeAll s cs k = some v := by
  obtain ⟨pre, c, post, rfl, h2, h3⟩ := h
  have h1 : mergeAll s (pre ++ c :: post) =
      mergeAll ((mergeAll s pre).merge (tableOf (textLines c) Table.empty)) post := by
    simp only [mergeAll, List.foldl_append, List.foldl_cons]
  rw [h1]
  apply mergeAll_found
  simp only [Table.merge, mergeAll_silent h3, hs]
  exact tableOf_gives h2

theorem first_or_silent (cs : List Str) (k : Str) : (∃ v, FirstGives cs k v) ∨ ∀ c ∈ cs, TextSilent c k := by
  induction cs with
  | nil => right; simp
  | cons c cs ih =>
    rcases gives_or_silent c k with ⟨v, hv⟩ | hs
    · left; exact ⟨v, [], c, cs, rfl, hv, by simp⟩
    · rcases ih with ⟨v, pre, d, post, h1, h2, h3⟩ | h
      · left
        refine ⟨v, c :: pre, d, post, by rw [h1]; rfl, h2, fun c' hc' => ?_⟩
        rcases List.mem_cons.1 hc' with rfl | hc'
        · exact hs
        · exact h3 c' hc'
      · right
        intro c' hc'
        rcases List.mem_cons.1 hc' with rfl | hc'
        · exact hs
        · exact h c' hc'

/-! ## The rules -/

/-- **Precedence of properties (C44).** Whenever the reading of files ends, the value of a property is: the value it
had before the files were read; else the value given by the first of the visited texts which has an entry of it, where
an included text comes before the text which includes it; else the default. -/
theorem property_precedence (F : Files) (n : Nat) (paths : List Str) (before after : Table)
    (h : appendAll F n paths before = some after) :
    ∃ cs, Visits F paths cs ∧ ∀ k dflt,
      (∀ v, before k = some v → getStr after k dflt = v) ∧
      (before k = none → ∀ v, FirstGives cs k v → getStr after k dflt = v) ∧
      (before k = none → (∀ c ∈ cs, TextSilent c k) → getStr after k dflt = dflt) ∧
      ((∃ v, before k = some v) ∨ (∃ v, FirstGives cs k v) ∨ ∀ c ∈ cs, TextSilent c k) := by
  rw [appendAll_eq] at h
  obtain ⟨cs, hv⟩ := reads_visits F n _ _ _ h
  refine ⟨cs, hv, fun k dflt => ?_⟩
  have key : after = mergeAll before cs := by
    obtain ⟨N, hN⟩ := visits_reads hv
    have mono : ∀ (m n : Nat), n ≤ m → ∀ ps s t, chain (append F n) ps s = some t →
        chain (append F m) ps s = some t := by
      intro m
      induction m with
      | zero => intro n hn ps s t h; obtain rfl : n = 0 := by omega
                exact h
      | succ m ihm =>
        intro n hn ps s t h
        induction ps generalizing s with
        | nil => exact h
        | cons p ps ihp =>
          cases n with
          | zero => simp [chain, append] at h
          | succ n =>
            simp only [chain, append_succ] at h ⊢
            cases hc : F.content p with
            | none =>
              simp only [hc, Option.bind_some] at h ⊢
              exact ihp _ h
            | some c =>
              simp only [hc] at h ⊢
              cases hi : chain (append F n) ((namesOf (textLines c)).map (F.resolve p)) s with
              | none => simp [hi] at h
              | some s' =>
                rw [ihm n (by omega) _ _ _ hi]
                simp only [hi, Option.map_some, Option.bind_some] at h ⊢
                exact ihp _ h
    have h1 := mono (max n N) n (le_max_left _ _) _ _ _ h
    rw [hN _ (le_max_right _ _)] at h1
    exact (Option.some.inj h1).symm
  subst key
  refine ⟨fun v hv => ?_, fun hb v hv => ?_, fun hb hs => ?_, ?_⟩
  · simp only [getStr, mergeAll_found hv, Option.getD_some]
  · simp only [getStr, mergeAll_first hv hb, Option.getD_some]
  · simp only [getStr, mergeAll_silent hs, hb, Option.getD_none]
  · right; exact first_or_silent cs k

/-- **Reading ends (C44)** for every stack of files whose texts can be visited, whatever was read before. -/
theorem reading_ends (F : Files) (paths cs : List Str) (h : Visits F paths cs) :
    ∃ N, ∀ n, N ≤ n → ∀ before, ∃ after, appendAll F n paths before = some after := by
  obtain ⟨N, hN⟩ := visits_reads h
  exact ⟨N, fun n hn before => ⟨_, by rw [appendAll_eq]; exact hN n hn before⟩⟩

theorem mem_names_iff (F : Files) (p q c : Str) (hc : F.content p = some c) :
    q ∈ (namesOf (textLines c)).map (F.resolve p) ↔ IncludedBy F q p := by
  constructor
  · intro h
    obtain ⟨n, hn, rfl⟩ := List.mem_map.1 h
    obtain ⟨l, hl, hln⟩ := List.mem_filterMap.1 hn
    refine ⟨c, l, n, hc, hl, ?_, rfl⟩
    rw [← readLine_include]
    cases hr : readLine l with
    | incl m => simp only [hr, Option.some.injEq] at hln; rw [hln]
    | skip => simp [hr] at hln
    | entry _ _ => simp [hr] at hln
  · rintro ⟨c', l, n, hc', hl, hi, rfl⟩
    rw [hc] at hc'
    injection hc' with hc'
    subst hc'
    refine List.mem_map.2 ⟨n, List.mem_filterMap.2 ⟨l, hl, ?_⟩, rfl⟩
    rw [(readLine_include _ _).2 hi]

theorem chain_acc (F : Files) (n : Nat) : ∀ (ps : List Str) (s t : Table), chain (append F n) ps s = some t →
    ∀ p ∈ ps, Acc (IncludedBy F) p := by
  induction n with
  | zero =>
    intro ps s t h
    cases ps with
    | nil => simp
    | cons p ps => simp [chain, append] at h
  | succ n ih =>
    intro ps
    induction ps with
    | nil => intro s t _ p hp; simp at hp
    | cons p ps ihp =>
      intro s t h
      simp only [chain, append_succ] at h
      intro q hq
      cases hc : F.content p with
      | none =>
        simp only [hc, Option.bind_some] at h
        rcases List.mem_cons.1 hq with rfl | hq
        · refine Acc.intro _ fun y hy => ?_
          obtain ⟨c, _, _, h1, _⟩ := hy
          rw [hc] at h1; cases h1
        · exact ihp _ _ h q hq
      | some c =>
        simp only [hc] at h
        cases hi : chain (append F n) ((namesOf (textLines c)).map (F.resolve p)) s with
        | none => simp [hi] at h
        | some s' =>
          simp only [hi, Option.map_some, Option.bind_some] at h
          rcases List.mem_cons.1 hq with rfl | hq
          · exact Acc.intro _ fun y hy => ih _ _ _ hi y ((mem_names_iff F _ y c hc).2 hy)
          · exact ihp _ _ h q hq

theorem visits_of_each (F : Files) (ps : List Str) (h : ∀ p ∈ ps, ∃ cs, Visits F [p] cs) :
    ∃ cs, Visits F ps cs := by
  induction ps with
  | nil => exact ⟨[], .nil⟩
  | cons p ps ih =>
    obtain ⟨cs, hcs⟩ := ih fun q hq => h q (List.mem_cons_of_mem _ hq)
    obtain ⟨ds, hds⟩ := h p (by simp)
    cases hds with
    | missing h1 _ => exact ⟨cs, .missing h1 hcs⟩
    | file h1 h2 h3 _ => exact ⟨_, .file h1 h2 h3 hcs⟩

/-- **Reading a file ends exactly if there is no endless chain of includes from it (C44)**: the recursion of the
reader is as deep as the includes, and nothing else stops it. -/
theorem reading_ends_iff (F : Files) (path : Str) (before : Table) :
    (∃ n after, append F n path before = some after) ↔ Acc (IncludedBy F) path := by
  constructor
  · rintro ⟨n, t, h⟩
    refine chain_acc F n [path] before t ?_ path (by simp)
    simp only [chain, h, Option.bind_some]
  · intro h
    have : ∃ cs, Visits F [path] cs := by
      induction h with
      | intro p _ ih =>
        cases hc : F.content p with
        | none => exact ⟨[], .missing hc .nil⟩
        | some c =>
          obtain ⟨is, his⟩ := visits_of_each F _ fun q hq => ih q ((mem_names_iff F p q c hc).1 hq)
          exact ⟨_, .file hc (includesOf_names _) his .nil⟩
    obtain ⟨cs, hcs⟩ := this
    obtain ⟨N, hN⟩ := visits_reads hcs
    have := hN N le_rfl before
    simp only [chain] at this
    cases ha : append F N path before with
    | none => simp [ha] at this
    | some t => exact ⟨N, t, ha⟩

/-- **Circular includes are never detected (C44)**: reading a file that includes itself, directly or through other
files, does not end. -/
theorem circular_include_never_ends (F : Files) (path : Str) (h : Relation.TransGen (IncludedBy F) path path)
    (n : Nat) (before : Table) : append F n path before = none := by
  cases ha : append F n path before with
  | none => rfl
  | some t =>
    exfalso
    have hacc := ((reading_ends_iff F path before).1 ⟨n, t, ha⟩).transGen
    generalize hp : path = q at hacc
    rw [hp] at h
    clear hp ha
    induction hacc with
    | intro x _ ih => exact ih x h h

/-- **Properties set by the program win (C44)**: a property set on the provider is what is read, until it is set
again, whatever files are read after. -/
theorem set_property_wins (F : Files) (n : Nat) (paths : List Str) (before after : Table) (k v dflt : Str)
    (h : appendAll F n paths (before.set k v) = some after) : getStr after k dflt = v := by
  obtain ⟨cs, _, hk⟩ := property_precedence F n paths _ _ h
  exact (hk k dflt).1 v (by simp [Table.set])

/-! ## Non-vacuity and surprises -/

/-- Files `a` and `b` of an example: `a` includes `b`. -/
def exampleFiles : Files where
  content p :=
    if p = "a".toList then some "# main\n<b>\nx=1\ny=2=3\nx=4".toList
    else if p = "b".toList then some "x=7\nz\n".toList else none
  resolve _ n := n

example : IncludedBy exampleFiles "b".toList "a".toList :=
  ⟨"# main\n<b>\nx=1\ny=2=3\nx=4".toList, "<b>".toList, "b".toList, by decide, by
    rw [← lines_of_text]; decide, by unfold IsInclude; decide, rfl⟩

example : (appendAll exampleFiles 2 ["a".toList] Table.empty).map (fun t => (getStr t "x".toList [],
    getStr t "y".toList [], getStr t "z".toList "none".toList)) =
    some ("7".toList, "2=3".toList, "none".toList) := by decide

example : (append exampleFiles 1 "a".toList Table.empty).isNone = true := by decide

/-- **Included files override the files that include them**: a value written after the include in the including file
is ignored, although in one file the last entry counts. -/
theorem include_overrides_counterexample :
    ∃ (F : Files) (path k : Str) (c : Str), F.content path = some c ∧ TextGives c k "4".toList ∧
      ∃ after, append F 2 path Table.empty = some after ∧ getStr after k [] = "7".toList := by
  refine ⟨exampleFiles, "a".toList, "x".toList, "# main\n<b>\nx=1\ny=2=3\nx=4".toList, by decide, ?_, ?_⟩
  · refine ⟨["# main".toList, "<b>".toList, "x=1".toList, "y=2=3".toList], "x=4".toList, [], ?_, ?_, by simp⟩
    · rw [← lines_of_text]; decide
    · exact ⟨by decide, by decide, by decide, by decide⟩
  · cases h : append exampleFiles 2 "a".toList Table.empty with
    | none =>
      have : (append exampleFiles 2 "a".toList Table.empty).isSome = true := by decide
      rw [h] at this
      cases this
    | some t =>
      refine ⟨t, rfl, ?_⟩
      have : (append exampleFiles 2 "a".toList Table.empty).map (fun t => getStr t "x".toList []) =
          some "7".toList := by decide
      rw [h] at this
      exact Option.some.inj this

/-- A file that includes itself. -/
def loopFiles : Files where
  content _ := some "<a>".toList
  resolve _ n := n

example (n : Nat) : append loopFiles n "a".toList Table.empty = none :=
  circular_include_never_ends loopFiles _ (.single ⟨"<a>".toList, "<a>".toList, "a".toList, rfl, by
    rw [← lines_of_text]; decide, by unfold IsInclude; decide, rfl⟩) n _

end Slam.Config
