import Verif.Runner.Model
import Verif.Bag.Props
import Verif.Dump.Props

/-!
# C97: the bag runner as a whole
-/

set_option autoImplicit false
set_option linter.unusedSectionVars false

namespace Slam.Runner
open Slam.Config (Str Table Args ArgState parseArgs)

variable {D C : Type}

/-! ## Specification -/

/-- In the command line `v` stands right after `flag`. -/
def After (argv : List Str) (flag v : Str) : Prop := ∃ pre post, argv = pre ++ flag :: v :: post

/-- No properties file that is read, be it named in the command line or included by one that is read, is also named as a
trajectory file (which is emptied when its option is read). -/
def Undisturbed (env : Env D C) (fs : Fs) (argv : List Str) : Prop :=
  ∃ R : Str → Prop, (∀ p ∈ (parseArgs argv).props, R p) ∧
    (∀ p c name, R p → fs p = some c → Config.Line.incl name ∈ (Config.linesOf (chars c)).map Config.readLine →
      R (env.resolve p name)) ∧
    ∀ f, After argv "-t".toList f → ¬ R f

/-- The records of the bag on the two topics, each of the right type. -/
def Recorded (topic tfTopic : Str) (ms : List (BagMsg D)) (rs : List (Bag.Rec LaserMsg (TransformMsg D))) : Prop :=
  List.Forall₂ (fun b r => (b.topic = topic ∧ ∃ m, b.payload = .laser m ∧ r = .msg m) ∨
      (b.topic ≠ topic ∧ b.topic = tfTopic ∧ ∃ ts, b.payload = .transforms ts ∧ r = .tf ts))
    (ms.filter fun b => decide (b.topic = topic) || decide (b.topic = tfTopic)) rs

/-- What the command line asks for can be set up: it is valid; the properties files are read, giving `props`; the type names a SLAM,
which is made from `props`; laser scans and odometry are enabled; the bag can be read, and holds `rs` on the two topics. -/
structure Setup (env : Env D C) (fs : Fs) (argv : List Str) (props : Table) (P : Engine)
    (rs : List (Bag.Rec LaserMsg (TransformMsg D))) : Prop where
  valid : (parseArgs argv).isValid = true
  undisturbed : Undisturbed env fs argv
  read : Config.appendAll (env.files fs) env.depth (parseArgs argv).props Table.empty = some props
  made : (((parseArgs argv).slamType = "tiny".toList ∨ (parseArgs argv).slamType = "viny".toList) ∧ env.oneHypothesis props = some P) ∨
    ((parseArgs argv).slamType = "gmapping".toList ∧ env.gmapping props = some P)
  scans : Config.getBool props "in/lscan2D/ros/topic/enabled".toList false = true
  odometry : Config.getBool props "in/odometry/ros/tf/enabled".toList false = true
  kept : ¬ After argv "-t".toList (parseArgs argv).bag
  bag : ∃ c ms, fs (parseArgs argv).bag = some c ∧ env.openBag c = some ms ∧
    Recorded (Config.getStr props "in/lscan2D/ros/topic/name".toList "/base_scan".toList)
      (Config.getStr props "in/odometry/ros/tf/name".toList "/tf".toList) ms rs

/-- The SLAM handles the messages one after another, from the state `s` on: the states after each of them. -/
inductive Serves (P : Engine) : P.S → List (LaserMsg × Poses.Pose ℝ) → List P.S → Prop
  | nil (s : P.S) : Serves P s [] []
  | cons (s s' : P.S) (m : LaserMsg) (x : Poses.Pose ℝ) (l : List (LaserMsg × Poses.Pose ℝ)) (ss : List P.S) :
      P.handle s (x, m.body) = some s' → Serves P s' l ss → Serves P s ((m, x) :: l) (s' :: ss)

/-- One entry for each message: its time stamp and the pose in the state after it. -/
def Logs (P : Engine) (hs : List (LaserMsg × Poses.Pose ℝ)) (ss : List P.S) (ls : List Text.Logged) : Prop :=
  List.Forall₂ (fun (p : (LaserMsg × Poses.Pose ℝ) × P.S) (l : Text.Logged) =>
    l.sec = p.1.1.sec ∧ l.nsec = p.1.1.nsec ∧ P.pose p.2 = some ⟨l.x, l.y, l.θ⟩) (hs.zip ss) ls

/-! ## The command line -/

/-- The state before the first argument. -/
def argStart : ArgState := ⟨⟨true, [], [], none, [], false, [], []⟩, 0, []⟩

theorem argStep_flag (s : ArgState) (arg : Str) : (Config.argStep s arg).flag ≠ [] → (Config.argStep s arg).flag = arg ∧ arg.head? = some '-' := by
  unfold Config.argStep
  by_cases h1 : arg.head? = some '-'
  · rw [if_pos h1]
    by_cases h2 : arg = "-v".toList
    · rw [if_pos h2]; intro h; exact absurd rfl h
    · rw [if_neg h2]; intro _; exact ⟨rfl, h1⟩
  · rw [if_neg h1]
    by_cases h2 : s.flag = []
    · rw [if_pos h2]; intro h; exact absurd h2 h
    · rw [if_neg h2]
      by_cases h3 : s.flag = "-p".toList
      · rw [if_pos h3]; intro h; exact absurd rfl h
      · rw [if_neg h3]
        by_cases h4 : s.flag = "-t".toList
        · rw [if_pos h4]; intro h; exact absurd rfl h
        · rw [if_neg h4]
          by_cases h5 : s.flag = "-m".toList
          · rw [if_pos h5]; intro h; exact absurd rfl h
          · rw [if_neg h5]; intro h; exact absurd rfl h

theorem last_flag (argv : List Str) : (argv.foldl Config.argStep argStart).flag ≠ [] →
    argv.getLast? = some (argv.foldl Config.argStep argStart).flag := by
  induction argv using List.reverseRecOn with
  | nil => intro h; exact absurd rfl h
  | append_singleton l a ih =>
    rw [List.foldl_append]
    intro h
    simp only [List.foldl_cons, List.foldl_nil] at h ⊢
    rw [(argStep_flag _ _ h).1]
    simp

theorem after_snoc {l : List Str} {a flag v : Str} (h : After l flag v) : After (l ++ [a]) flag v := by
  obtain ⟨pre, post, rfl⟩ := h
  exact ⟨pre, post ++ [a], by simp⟩

theorem after_last {l : List Str} {flag v : Str} (h : l.getLast? = some flag) : After (l ++ [v]) flag v := by
  obtain ⟨pre, rfl⟩ : ∃ pre, l = pre ++ [flag] := by
    rw [List.getLast?_eq_some_iff] at h
    exact h
  exact ⟨pre, [], by simp⟩

theorem after_snoc_iff {l : List Str} {a flag v : Str} (h : After (l ++ [a]) flag v) :
    After l flag v ∨ (v = a ∧ l.getLast? = some flag) := by
  obtain ⟨pre, post, e⟩ := h
  induction post using List.reverseRecOn with
  | nil =>
    right
    have e' : l ++ [a] = (pre ++ [flag]) ++ [v] := by simpa using e
    obtain ⟨h1, h2⟩ := List.append_inj' e' rfl
    refine ⟨by simpa using h2.symm, by rw [h1]; simp⟩
  | append_singleton post b _ =>
    left
    have e' : l ++ [a] = (pre ++ flag :: v :: post) ++ [b] := by simpa using e
    exact ⟨pre, post, (List.append_inj' e' rfl).1⟩

theorem appendAll_snoc (F : Config.Files) (fuel : Nat) (ps : List Str) (p : Str) : ∀ t,
    Config.appendAll F fuel (ps ++ [p]) t = (Config.appendAll F fuel ps t).bind fun t => Config.append F fuel p t := by
  induction ps with
  | nil =>
    intro t
    simp only [List.nil_append, Config.appendAll, Option.bind_some]
    cases Config.append F fuel p t <;> rfl
  | cons q ps ih =>
    intro t
    simp only [List.cons_append, Config.appendAll]
    cases Config.append F fuel q t with
    | none => rfl
    | some t' => exact ih t'

theorem parseLines_congr {F F' : Config.Files} {a a' : Str → Table → Option Table} (hr : F.resolve = F'.resolve) (path : Str)
    (ls : List Str) (h : ∀ l ∈ ls, ∀ name, Config.readLine l = .incl name → ∀ t, a (F.resolve path name) t = a' (F.resolve path name) t) :
    ∀ t u, Config.parseLines F a path ls t u = Config.parseLines F' a' path ls t u := by
  induction ls with
  | nil => intro t u; rfl
  | cons l ls ih =>
    intro t u
    have ih' := ih fun l' hl' => h l' (List.mem_cons_of_mem _ hl')
    have hl := h l (by simp)
    unfold Config.parseLines
    cases hrd : Config.readLine l with
    | skip => exact ih' t u
    | entry id val => exact ih' t _
    | incl name =>
      simp only
      rw [hl name hrd t, hr]
      cases a' (F'.resolve path name) t with
      | none => rfl
      | some t' => exact ih' t' u

theorem append_congr (F F' : Config.Files) (hr : F.resolve = F'.resolve) (R : Str → Prop)
    (hc : ∀ p c name, R p → F.content p = some c → Config.Line.incl name ∈ (Config.linesOf c).map Config.readLine → R (F.resolve p name))
    (he : ∀ p, R p → F'.content p = F.content p) (fuel : Nat) : ∀ p, R p → ∀ t,
    Config.append F fuel p t = Config.append F' fuel p t := by
  induction fuel with
  | zero => intro p _ t; rfl
  | succ fuel ih =>
    intro p hp t
    unfold Config.append
    rw [he p hp]
    cases hcont : F.content p with
    | none => rfl
    | some c =>
      simp only
      rw [parseLines_congr hr p (Config.linesOf c) (fun l hl name hn t => ih _ (hc p c name hp hcont
        (List.mem_map.2 ⟨l, hl, hn⟩)) t)]

theorem argStep_props (s : ArgState) (arg : Str) : (Config.argStep s arg).args.props =
    if arg.head? ≠ some '-' ∧ s.flag = "-p".toList then s.args.props ++ [arg] else s.args.props := by
  by_cases hb : arg.head? ≠ some '-' ∧ s.flag = "-p".toList
  · have h2 : ¬ s.flag = [] := by rw [hb.2]; decide
    rw [if_pos hb, Config.argStep, if_neg hb.1, if_neg h2, if_pos hb.2]
  · refine Eq.trans ?_ (if_neg hb).symm
    unfold Config.argStep
    by_cases h1 : arg.head? = some '-'
    · rw [if_pos h1]
      by_cases h2 : arg = "-v".toList
      · rw [if_pos h2]
      · rw [if_neg h2]
    · have h3 : ¬ s.flag = "-p".toList := fun h => hb ⟨h1, h⟩
      rw [if_neg h1, if_neg h3]
      by_cases h2 : s.flag = []
      · rw [if_pos h2]
        by_cases h3 : s.mandatory = 0
        · simp [h3]
        · by_cases h4 : s.mandatory = 1
          · simp [h4]
          · simp [h3, h4]
      · rw [if_neg h2]
        by_cases h4 : s.flag = "-t".toList
        · rw [if_pos h4]
        · rw [if_neg h4]
          by_cases h5 : s.flag = "-m".toList
          · rw [if_pos h5]
          · rw [if_neg h5]

/-- The cases of the loop body. -/
theorem initStep_cases (env : Env D C) (s : Init) (a : Str) (hd : s.dead = false) :
    ((a.head? ≠ some '-' ∧ s.st.flag = "-p".toList) ∧
      ((∃ t, Config.append (env.files s.fs) env.depth a s.props = some t ∧
        initStep env s a = { s with st := Config.argStep s.st a, props := t }) ∨
      (Config.append (env.files s.fs) env.depth a s.props = none ∧ initStep env s a = { s with dead := true }))) ∨
    ((a.head? ≠ some '-' ∧ s.st.flag = "-t".toList) ∧
      initStep env s a = { s with st := Config.argStep s.st a, fs := env.put s.fs a [] }) ∨
    (¬ (a.head? ≠ some '-' ∧ s.st.flag = "-p".toList) ∧ ¬ (a.head? ≠ some '-' ∧ s.st.flag = "-t".toList) ∧
      initStep env s a = { s with st := Config.argStep s.st a }) := by
  have hn : ¬ s.dead = true := by rw [hd]; simp
  by_cases hp : a.head? ≠ some '-' ∧ s.st.flag = "-p".toList
  · refine .inl ⟨hp, ?_⟩
    have h2 : ¬ (a.head? = some '-' ∨ s.st.flag = []) := by
      rintro (h | h)
      · exact hp.1 h
      · rw [hp.2] at h; revert h; decide
    cases ha : Config.append (env.files s.fs) env.depth a s.props with
    | none =>
      refine .inr ⟨rfl, ?_⟩
      unfold initStep
      rw [if_neg hn, if_neg h2, if_pos hp.2, ha]
    | some t =>
      refine .inl ⟨t, rfl, ?_⟩
      unfold initStep
      rw [if_neg hn, if_neg h2, if_pos hp.2, ha]
  · by_cases ht : a.head? ≠ some '-' ∧ s.st.flag = "-t".toList
    · refine .inr (.inl ⟨ht, ?_⟩)
      have h2 : ¬ (a.head? = some '-' ∨ s.st.flag = []) := by
        rintro (h | h)
        · exact ht.1 h
        · rw [ht.2] at h; revert h; decide
      unfold initStep
      rw [if_neg hn, if_neg h2, if_neg (fun h => hp ⟨ht.1, h⟩), if_pos ht.2]
    · refine .inr (.inr ⟨hp, ht, ?_⟩)
      unfold initStep
      rw [if_neg hn]
      by_cases h1 : a.head? = some '-' ∨ s.st.flag = []
      · rw [if_pos h1]
      · rw [if_neg h1, if_neg (fun h => hp ⟨fun h' => h1 (.inl h'), h⟩), if_neg (fun h => ht ⟨fun h' => h1 (.inl h'), h⟩)]

theorem put_other (env : Env D C) (fs : Fs) (name f : Str) (b : List Nat) (h : f ≠ name) : env.put fs name b f = fs f := by
  unfold Env.put
  by_cases hw : env.writable name = true
  · rw [if_pos hw, if_neg h]
  · rw [if_neg hw]

theorem put_self (env : Env D C) (fs : Fs) (name : Str) (b : List Nat) (h : env.writable name = true) :
    env.put fs name b name = some b := by
  unfold Env.put
  rw [if_pos h, if_pos rfl]

theorem put_unwritable (env : Env D C) (fs : Fs) (name : Str) (b : List Nat) (h : env.writable name = false) :
    env.put fs name b = fs := by
  unfold Env.put
  rw [if_neg (by rw [h]; simp)]

theorem put_keeps (env : Env D C) (fs : Fs) (name f : Str) (b : List Nat) (h : env.writable f = false) :
    env.put fs name b f = fs f := by
  by_cases e : f = name
  · rw [e] at h ⊢
    rw [put_unwritable env fs name b h]
  · exact put_other env fs name f b e

/-- What `init` has done after the arguments `argv`. -/
structure InitInv (env : Env D C) (fs : Fs) (argv : List Str) (s : Init) : Prop where
  args : s.dead = false → s.st = argv.foldl Config.argStep argStart
  others : ∀ f, ¬ After argv "-t".toList f → s.fs f = fs f
  emptied : s.dead = false → ∀ f, After argv "-t".toList f → f.head? ≠ some '-' → env.writable f = true → s.fs f = some []
  unwritable : ∀ f, env.writable f = false → s.fs f = fs f

theorem initAll_snoc (env : Env D C) (fs : Fs) (l : List Str) (a : Str) :
    initAll env fs (l ++ [a]) = initStep env (initAll env fs l) a := by
  unfold initAll
  rw [List.foldl_append]
  rfl

theorem dead_stays (env : Env D C) (s : Init) (a : Str) (h : (initStep env s a).dead = false) : s.dead = false := by
  cases hd : s.dead with
  | false => rfl
  | true =>
    unfold initStep at h
    rw [if_pos hd, hd] at h
    cases h

theorem init_inv (env : Env D C) (fs : Fs) (argv : List Str) : InitInv env fs argv (initAll env fs argv) := by
  induction argv using List.reverseRecOn with
  | nil =>
    refine ⟨fun _ => rfl, fun _ _ => rfl, fun _ f h => ?_, fun _ _ => rfl⟩
    obtain ⟨pre, post, e⟩ := h
    simp at e
  | append_singleton l a ih =>
    rw [initAll_snoc]
    generalize initAll env fs l = s at ih
    have hfold : (l ++ [a]).foldl Config.argStep argStart = Config.argStep (l.foldl Config.argStep argStart) a := by
      rw [List.foldl_append]; rfl
    cases hd : s.dead with
    | true =>
      have e : initStep env s a = s := by unfold initStep; rw [if_pos hd]
      rw [e]
      exact ⟨fun h => (by rw [hd] at h; cases h), fun f hf => ih.others f fun h => hf (after_snoc h),
        fun h => (by rw [hd] at h; cases h), ih.unwritable⟩
    | false =>
      have hst := ih.args hd
      have hn : ¬ s.dead = true := by rw [hd]; simp
      -- the case in which nothing but the arguments changes
      have quiet : ∀ s', s'.st = Config.argStep s.st a → s'.fs = s.fs →
          ¬ (a.head? ≠ some '-' ∧ s.st.flag = "-t".toList) → InitInv env fs (l ++ [a]) s' := by
        intro s' e1 e2 hnt
        refine ⟨fun _ => by rw [e1, hst, hfold], fun f hf => by rw [e2]; exact ih.others f fun h => hf (after_snoc h), ?_,
          fun f hf => by rw [e2]; exact ih.unwritable f hf⟩
        intro _ f hf hdash hw
        rw [e2]
        rcases after_snoc_iff hf with h | ⟨rfl, hl⟩
        · exact ih.emptied hd f h hdash hw
        · exfalso
          refine hnt ⟨hdash, ?_⟩
          obtain ⟨l', rfl⟩ : ∃ l', l = l' ++ ["-t".toList] := List.getLast?_eq_some_iff.1 hl
          rw [hst, List.foldl_append]
          simp [Config.argStep]
      rcases initStep_cases env s a hd with ⟨hp, ⟨t, -, e⟩ | ⟨-, e⟩⟩ | ⟨ht, e⟩ | ⟨-, ht, e⟩
      · rw [e]
        refine quiet _ rfl rfl ?_
        rintro ⟨-, h3⟩
        rw [hp.2] at h3
        revert h3; decide
      · rw [e]
        exact ⟨fun h => (by cases h), fun f hf => ih.others f fun h => hf (after_snoc h), fun h => (by cases h), ih.unwritable⟩
      · rw [e]
        have hl : l.getLast? = some "-t".toList := by
          have := last_flag l (by rw [← hst, ht.2]; decide)
          rw [this, ← hst, ht.2]
        refine ⟨fun _ => by rw [hfold, ← hst], fun f hf => ?_, fun _ f hf hdash hw => ?_, fun f hf => ?_⟩
        · have hne : f ≠ a := by rintro rfl; exact hf (after_last hl)
          exact (put_other env s.fs a f [] hne).trans (ih.others f fun h => hf (after_snoc h))
        · by_cases hfa : f = a
          · subst hfa; exact put_self env s.fs f [] hw
          · rcases after_snoc_iff hf with h | ⟨h, -⟩
            · exact (put_other env s.fs a f [] hfa).trans (ih.emptied hd f h hdash hw)
            · exact absurd h hfa
        · by_cases hfa : f = a
          · subst hfa
            show env.put s.fs f [] f = fs f
            rw [put_unwritable env s.fs f [] hf]; exact ih.unwritable f hf
          · exact (put_other env s.fs a f [] hfa).trans (ih.unwritable f hf)
      · rw [e]
        exact quiet _ rfl rfl ht

theorem parseArgs_props (argv : List Str) : (parseArgs argv).props = (argv.foldl Config.argStep argStart).args.props := rfl

theorem parsed_args (env : Env D C) (fs : Fs) (argv : List Str) (h : (initAll env fs argv).dead = false) :
    (initAll env fs argv).args = parseArgs argv := by
  unfold Init.args
  rw [(init_inv env fs argv).args h]
  rfl

/-- **Properties (C97)**: the properties are those of the files named with `-p`, in this order, as they were when the program was
started, provided none of the files read is named as a trajectory file. -/
theorem properties_read (env : Env D C) (fs : Fs) (argv : List Str) (hu : Undisturbed env fs argv) :
    (if (initAll env fs argv).dead then none else some (initAll env fs argv).props) =
      Config.appendAll (env.files fs) env.depth (parseArgs argv).props Table.empty := by
  obtain ⟨R, h1, h2, h3⟩ := hu
  have hc : ∀ p c name, R p → (env.files fs).content p = some c →
      Config.Line.incl name ∈ (Config.linesOf c).map Config.readLine → R ((env.files fs).resolve p name) := by
    intro p c name hp hcont hn
    simp only [Env.files, Option.map_eq_some_iff] at hcont
    obtain ⟨b, hb, rfl⟩ := hcont
    exact h2 p b name hp hb hn
  suffices key : ∀ l, (∃ post, argv = l ++ post) →
      (if (initAll env fs l).dead then none else some (initAll env fs l).props) =
        Config.appendAll (env.files fs) env.depth (l.foldl Config.argStep argStart).args.props Table.empty from
    key argv ⟨[], by simp⟩
  intro l
  induction l using List.reverseRecOn with
  | nil => intro _; rfl
  | append_singleton l a ih =>
    rintro ⟨post, hpost⟩
    have ih := ih ⟨a :: post, by rw [hpost]; simp⟩
    have hinv := init_inv env fs l
    rw [initAll_snoc]
    generalize initAll env fs l = s at ih hinv
    rw [List.foldl_append]
    simp only [List.foldl_cons, List.foldl_nil]
    rw [argStep_props]
    have hR : ∀ p ∈ (Config.argStep (l.foldl Config.argStep argStart) a).args.props, R p := by
      intro p hp
      refine h1 p ?_
      rw [parseArgs_props, hpost, List.foldl_append, List.foldl_append]
      simp only [List.foldl_cons, List.foldl_nil]
      generalize Config.argStep (l.foldl Config.argStep argStart) a = u at hp
      clear hpost
      induction post generalizing u with
      | nil => exact hp
      | cons b post ih' =>
        refine ih' _ ?_
        rw [argStep_props]
        by_cases hb : b.head? ≠ some '-' ∧ u.flag = "-p".toList
        · rw [if_pos hb]; simp [hp]
        · rw [if_neg hb]; exact hp
    cases hd : s.dead with
    | true =>
      have e : initStep env s a = s := by unfold initStep; rw [if_pos hd]
      rw [e, hd]
      rw [hd] at ih
      simp only [if_true] at ih ⊢
      by_cases hb : a.head? ≠ some '-' ∧ (l.foldl Config.argStep argStart).flag = "-p".toList
      · rw [if_pos hb, appendAll_snoc, ← ih]; rfl
      · rw [if_neg hb, ← ih]
    | false =>
      have hst := hinv.args hd
      rw [hd] at ih
      simp only [Bool.false_eq_true, if_false] at ih
      have hpe : (a.head? ≠ some '-' ∧ (l.foldl Config.argStep argStart).flag = "-p".toList) ↔
          (a.head? ≠ some '-' ∧ s.st.flag = "-p".toList) := by rw [hst]
      rcases initStep_cases env s a hd with ⟨hp, hcases⟩ | ⟨ht, e⟩ | ⟨hp, -, e⟩
      · have hb := hpe.2 hp
        rw [if_pos hb, appendAll_snoc, ← ih]
        have hra : R a := hR a (by rw [argStep_props, if_pos hb]; simp)
        have := append_congr (env.files fs) (env.files s.fs) rfl R hc (by
          intro p hp
          show (s.fs p).map chars = (fs p).map chars
          rw [hinv.others p]
          rintro ⟨pre, post', e⟩
          exact h3 p ⟨pre, post' ++ a :: post, by rw [hpost, e]; simp⟩ hp) env.depth a hra s.props
        simp only [Option.bind_some]
        rw [this]
        rcases hcases with ⟨t, h4, e⟩ | ⟨h4, e⟩
        · rw [e, h4]; simp [hd]
        · rw [e, h4]; simp
      · have hb : ¬ (a.head? ≠ some '-' ∧ (l.foldl Config.argStep argStart).flag = "-p".toList) := by
          rintro ⟨-, h⟩
          rw [← hst, ht.2] at h
          revert h; decide
        rw [e]
        refine Eq.trans ?_ (ih.trans ?_)
        · simp [hd]
        · rw [if_neg hb]
      · have hb := fun h => hp (hpe.1 h)
        rw [e]
        refine Eq.trans ?_ (ih.trans ?_)
        · simp [hd]
        · rw [if_neg hb]

/-! ## The bag -/

theorem records_iff (topic tfTopic : Str) (ms : List (BagMsg D)) : ∀ rs,
    records topic tfTopic ms = some rs ↔ Recorded topic tfTopic ms rs := by
  induction ms with
  | nil =>
    intro rs
    simp only [records, Recorded, List.filter_nil, List.forall₂_nil_left_iff, Option.some.injEq]
    exact eq_comm
  | cons b bs ih =>
    intro rs
    unfold records
    by_cases h1 : b.topic = topic
    · have hf : (decide (b.topic = topic) || decide (b.topic = tfTopic)) = true := by simp [h1]
      rw [if_pos h1]
      unfold Recorded
      rw [List.filter_cons_of_pos (by exact hf)]
      cases hp : b.payload with
      | laser m =>
        simp only [Option.map_eq_some_iff, List.forall₂_cons_left_iff]
        constructor
        · rintro ⟨rs', h, rfl⟩
          exact ⟨.msg m, rs', .inl ⟨h1, m, hp, rfl⟩, (ih rs').1 h, rfl⟩
        · rintro ⟨r, rs', hr, h, rfl⟩
          refine ⟨rs', (ih rs').2 h, ?_⟩
          rcases hr with ⟨-, m', h3, rfl⟩ | ⟨h2, -⟩
          · rw [hp] at h3; cases h3; rfl
          · exact absurd h1 h2
      | transforms ts =>
        simp only [List.forall₂_cons_left_iff, reduceCtorEq, false_iff, not_exists, not_and]
        rintro r rs' (⟨-, m', h3, -⟩ | ⟨h2, -⟩)
        · rw [hp] at h3; cases h3
        · exact absurd h1 h2
      | other =>
        simp only [List.forall₂_cons_left_iff, reduceCtorEq, false_iff, not_exists, not_and]
        rintro r rs' (⟨-, m', h3, -⟩ | ⟨h2, -⟩)
        · rw [hp] at h3; cases h3
        · exact absurd h1 h2
    · rw [if_neg h1]
      by_cases h2 : b.topic = tfTopic
      · have hf : (decide (b.topic = topic) || decide (b.topic = tfTopic)) = true := by simp [h2]
        rw [if_pos h2]
        unfold Recorded
        rw [List.filter_cons_of_pos (by exact hf)]
        cases hp : b.payload with
        | transforms ts =>
          simp only [Option.map_eq_some_iff, List.forall₂_cons_left_iff]
          constructor
          · rintro ⟨rs', h, rfl⟩
            exact ⟨.tf ts, rs', .inr ⟨h1, h2, ts, hp, rfl⟩, (ih rs').1 h, rfl⟩
          · rintro ⟨r, rs', hr, h, rfl⟩
            refine ⟨rs', (ih rs').2 h, ?_⟩
            rcases hr with ⟨h3, -⟩ | ⟨-, -, ts', h3, rfl⟩
            · exact absurd h3 h1
            · rw [hp] at h3; cases h3; rfl
        | laser m =>
          simp only [List.forall₂_cons_left_iff, reduceCtorEq, false_iff, not_exists, not_and]
          rintro r rs' (⟨h3, -⟩ | ⟨-, -, ts', h3, -⟩)
          · exact absurd h3 h1
          · rw [hp] at h3; cases h3
        | other =>
          simp only [List.forall₂_cons_left_iff, reduceCtorEq, false_iff, not_exists, not_and]
          rintro r rs' (⟨h3, -⟩ | ⟨-, -, ts', h3, -⟩)
          · exact absurd h3 h1
          · rw [hp] at h3; cases h3
      · have hf : ¬ (decide (b.topic = topic) || decide (b.topic = tfTopic)) = true := by simp [h1, h2]
        rw [if_neg h2]
        unfold Recorded
        rw [List.filter_cons_of_neg (by exact hf)]
        exact ih rs

section
variable {M T S X : Type*}

theorem extract_cur {tf : Bag.Tf M T S X} (unread : List (Bag.Rec M T)) : ∀ {st st' : Bag.St M S X} {rest : List (Bag.Rec M T)},
    Bag.extract tf unread st = some (rest, st', true) → ∃ mx, st'.cur = some mx := by
  have hat : ∀ {st st' : Bag.St M S X}, Bag.attempt tf st = some (st', true) → ∃ mx, st'.cur = some mx := by
    intro st st' h
    unfold Bag.attempt at h
    cases hq : st.queue with
    | nil => simp [hq] at h
    | cons m q =>
      simp only [hq] at h
      cases hl : tf.lookup st.cache m with
      | ok x =>
        simp only [hl, Option.some.injEq, Prod.mk.injEq, and_true] at h
        exact ⟨(m, x), by rw [← h]⟩
      | future => simp [hl] at h
      | past => simp [hl] at h
      | unclear => simp [hl] at h
      | thrown => simp [hl] at h
  induction unread with
  | nil =>
    intro st st' rest h
    simp only [Bag.extract, Option.map_eq_some_iff] at h
    obtain ⟨⟨a, b⟩, h1, h2⟩ := h
    simp only [Prod.mk.injEq] at h2
    obtain ⟨-, rfl, rfl⟩ := h2
    exact hat h1
  | cons r unread ih =>
    intro st st' rest h
    unfold Bag.extract at h
    cases ha : Bag.attempt tf (Bag.feed tf st r) with
    | none => simp [ha] at h
    | some p =>
      obtain ⟨s1, b⟩ := p
      cases b with
      | true =>
        simp only [ha, Option.some.injEq, Prod.mk.injEq, and_true] at h
        rw [← h.2]
        exact hat ha
      | false =>
        simp only [ha] at h
        exact ih h
end

/-! ## The loop -/

theorem loop_sound (tf : Bag.Tf LaserMsg (TransformMsg D) C (Poses.Pose ℝ)) (P : Engine) (logging : Bool) (fuel : Nat) :
    ∀ unread st s s', (loop tf P logging fuel unread st s).stop = .done s' →
    ∃ ss fin, Bag.run tf fuel unread st = ((loop tf P logging fuel unread st s).handled, .ended fin) ∧
      Serves P s (loop tf P logging fuel unread st s).handled ss ∧ ss.getLastD s = s' ∧
      (logging = true → Logs P (loop tf P logging fuel unread st s).handled ss (loop tf P logging fuel unread st s).log) := by
  induction fuel with
  | zero => intro unread st s s' h; cases h
  | succ fuel ih =>
    intro unread st s s' h
    unfold loop at h ⊢
    unfold Bag.run
    cases he : Bag.extract tf unread st with
    | none => rw [he] at h; cases h
    | some p =>
      obtain ⟨rest, st', b⟩ := p
      cases b with
      | false =>
        rw [he] at h
        simp only [Stop.done.injEq] at h ⊢
        exact ⟨[], st', rfl, .nil s, h, fun _ => .nil⟩
      | true =>
        obtain ⟨⟨m, x⟩, hcur⟩ := extract_cur unread he
        rw [he] at h
        simp only [hcur] at h ⊢
        cases hh : P.handle s (x, m.body) with
        | none => rw [hh] at h; cases h
        | some s1 =>
          rw [hh] at h
          simp only at h ⊢
          cases hen : entryOf P logging m s1 with
          | none => rw [hen] at h; cases h
          | some e =>
            rw [hen] at h
            simp only at h ⊢
            obtain ⟨ss, fin, h1, h2, h3, h4⟩ := ih rest st' s1 s' h
            refine ⟨s1 :: ss, fin, ?_, .cons s s1 m x _ ss hh h2, ?_, ?_⟩
            · rw [h1]; rfl
            · rw [← h3]
              cases ss with
              | nil => rfl
              | cons a l => simp [List.getLastD]
            · intro hl
              have h4 := h4 hl
              unfold entryOf at hen
              rw [if_pos hl] at hen
              simp only [Option.map_eq_some_iff] at hen
              obtain ⟨p, hp, rfl⟩ := hen
              exact .cons ⟨rfl, rfl, hp⟩ h4

theorem loop_complete (tf : Bag.Tf LaserMsg (TransformMsg D) C (Poses.Pose ℝ)) (P : Engine) (logging : Bool) (fuel : Nat) :
    ∀ unread st s hs fin ss, Bag.run tf fuel unread st = (hs, .ended fin) → Serves P s hs ss →
    (logging = true → ∀ t ∈ ss, ∃ p, P.pose t = some p) →
    (loop tf P logging fuel unread st s).stop = .done (ss.getLastD s) := by
  induction fuel with
  | zero => intro unread st s hs fin ss h; cases h
  | succ fuel ih =>
    intro unread st s hs fin ss h hsv hpose
    unfold Bag.run at h
    unfold loop
    cases he : Bag.extract tf unread st with
    | none => rw [he] at h; cases h
    | some p =>
      obtain ⟨rest, st', b⟩ := p
      cases b with
      | false =>
        rw [he] at h
        simp only [Prod.mk.injEq] at h
        obtain ⟨rfl, -⟩ := h
        cases hsv
        rfl
      | true =>
        obtain ⟨⟨m, x⟩, hcur⟩ := extract_cur unread he
        rw [he] at h
        simp only [hcur, Option.toList, List.singleton_append, Prod.mk.injEq] at h ⊢
        obtain ⟨rfl, h2⟩ := h
        cases hsv with
        | cons _ s1 _ _ _ ss h3 h4 =>
          rw [h3]
          simp only
          have hen : ∃ e, entryOf P logging m s1 = some e := by
            unfold entryOf
            cases hl : logging with
            | false => exact ⟨_, rfl⟩
            | true =>
              obtain ⟨p, hp⟩ := hpose hl s1 (by simp)
              rw [hp]
              exact ⟨_, rfl⟩
          obtain ⟨e, hen⟩ := hen
          rw [hen]
          simp only
          have := ih rest st' s1 _ fin ss (Prod.ext rfl h2) h4 fun hl t ht => hpose hl t (List.mem_cons_of_mem _ ht)
          rw [this]
          cases ss with
          | nil => rfl
          | cons a l => simp [List.getLastD]

/-! ## The program -/

theorem not_dead {env : Env D C} {fs : Fs} {argv : List Str} {props : Table} (hu : Undisturbed env fs argv)
    (hr : Config.appendAll (env.files fs) env.depth (parseArgs argv).props Table.empty = some props) :
    (initAll env fs argv).dead = false ∧ (initAll env fs argv).props = props := by
  have h := properties_read env fs argv hu
  rw [hr] at h
  cases hd : (initAll env fs argv).dead with
  | true => rw [hd] at h; simp at h
  | false => rw [hd] at h; simpa using h

theorem main_setup {env : Env D C} {fs : Fs} {argv : List Str} {props : Table} {P : Engine}
    {rs : List (Bag.Rec LaserMsg (TransformMsg D))} (h : Setup env fs argv props P rs) :
    main env fs argv = runSlam env P (parseArgs argv) props (initAll env fs argv).fs := by
  obtain ⟨h1, h2⟩ := not_dead h.undisturbed h.read
  have h3 := parsed_args env fs argv h1
  unfold main
  simp only [h1, Bool.false_eq_true, if_false, h3, h2, h.valid]
  rw [if_neg (by simp)]
  rcases h.made with ⟨ht, hp⟩ | ⟨ht, hp⟩
  · rw [if_pos (ht.symm), hp]; rfl
  · rw [if_neg (by rw [ht]; decide), if_pos ht, hp]; rfl

theorem runSlam_setup {env : Env D C} {fs : Fs} {argv : List Str} {props : Table} {P : Engine}
    {rs : List (Bag.Rec LaserMsg (TransformMsg D))} (h : Setup env fs argv props P rs) :
    runSlam env P (parseArgs argv) props (initAll env fs argv).fs =
      (let r := loop (reader env props) P (parseArgs argv).traj.isSome (rs.length + 1) rs (Bag.St.start (reader env props)) P.start
      let out := if (parseArgs argv).verbose then progress r.handled.length else []
      match r.stop with
      | .done s =>
        match (if (parseArgs argv).map = [] then some (initAll env fs argv).fs
          else (P.view s).map fun v => env.put (initAll env fs argv).fs (parseArgs argv).map (Dump.dumpMap v)) with
        | none => ⟨(initAll env fs argv).fs, out, none⟩
        | some fs' =>
          match (parseArgs argv).traj with
          | none => ⟨fs', out, some 0⟩
          | some f => ⟨env.put fs' f (bytes (Text.tumFile r.log)), out, some 0⟩
      | _ => ⟨(initAll env fs argv).fs, out, none⟩ : Result) := by
  obtain ⟨c, ms, h1, h2, h3⟩ := h.bag
  have hb : (initAll env fs argv).fs (parseArgs argv).bag = some c := by
    rw [(init_inv env fs argv).others _ h.kept, h1]
  have hrec : (((initAll env fs argv).fs (parseArgs argv).bag).bind env.openBag).bind (records (laserTopic props) (tfTopic props)) =
      some rs := by
    rw [hb, Option.bind_some, h2, Option.bind_some]
    exact (records_iff _ _ _ _).2 h3
  unfold runSlam
  rw [if_neg (by rw [h.scans, h.odometry]; simp), hrec]
  simp only
  cases (loop (reader env props) P (parseArgs argv).traj.isSome (rs.length + 1) rs (Bag.St.start (reader env props)) P.start).stop with
  | aborted => rfl
  | running => rfl
  | done s =>
    simp only
    cases (if (parseArgs argv).map = [] then some (initAll env fs argv).fs
          else (P.view s).map fun v => env.put (initAll env fs argv).fs (parseArgs argv).map (Dump.dumpMap v)) with
    | none => rfl
    | some fs' => cases (parseArgs argv).traj <;> rfl

theorem Serves.length {P : Engine} {s : P.S} {l : List (LaserMsg × Poses.Pose ℝ)} {ss : List P.S} (h : Serves P s l ss) :
    l.length = ss.length := by
  induction h with
  | nil => rfl
  | cons _ _ _ _ _ _ _ _ ih => simp [ih]

theorem serves_unique {P : Engine} {s : P.S} {l : List (LaserMsg × Poses.Pose ℝ)} {ss ss' : List P.S} (h : Serves P s l ss)
    (h' : Serves P s l ss') : ss = ss' := by
  induction h generalizing ss' with
  | nil => cases h'; rfl
  | cons s s1 m x l ss e _ ih =>
    cases h' with
    | cons _ s2 _ _ _ ss2 e2 h2 =>
      rw [e, Option.some.injEq] at e2
      subst e2
      rw [ih h2]

/-- **When the runner ends normally (C97)**: exactly if the reader of the bag comes to its end without an exception (C47 says which
messages it hands out), the SLAM handles every message handed out and, as far as they are asked for, has a pose after each of
them and a map after the last. Otherwise it is aborted. -/
theorem runner_exit {env : Env D C} {fs : Fs} {argv : List Str} {props : Table} {P : Engine}
    {rs : List (Bag.Rec LaserMsg (TransformMsg D))} (h : Setup env fs argv props P rs) :
    ((main env fs argv).exit = some 0 ∨ (main env fs argv).exit = none) ∧
    ((main env fs argv).exit = some 0 ↔ ∃ hs fin ss,
      Bag.run (reader env props) (rs.length + 1) rs (Bag.St.start (reader env props)) = (hs, .ended fin) ∧
      Serves P P.start hs ss ∧ ((parseArgs argv).traj ≠ none → ∀ t ∈ ss, ∃ p, P.pose t = some p) ∧
      ((parseArgs argv).map ≠ [] → ∃ v, P.view (ss.getLastD P.start) = some v)) := by
  rw [main_setup h, runSlam_setup h]
  have hS := loop_sound (reader env props) P (parseArgs argv).traj.isSome (rs.length + 1) rs (Bag.St.start (reader env props)) P.start
  have hC := loop_complete (reader env props) P (parseArgs argv).traj.isSome (rs.length + 1) rs (Bag.St.start (reader env props)) P.start
  generalize loop (reader env props) P (parseArgs argv).traj.isSome (rs.length + 1) rs (Bag.St.start (reader env props)) P.start = r
    at hS hC
  have htr : (parseArgs argv).traj.isSome = true ↔ (parseArgs argv).traj ≠ none := Option.isSome_iff_ne_none
  simp only
  cases hst : r.stop with
  | aborted =>
    refine ⟨.inr rfl, ⟨fun h => (by cases h), ?_⟩⟩
    rintro ⟨hs, fin, ss, h1, h2, h3, -⟩
    rw [hC hs fin ss h1 h2 fun hl => h3 (htr.1 hl)] at hst
    cases hst
  | running =>
    refine ⟨.inr rfl, ⟨fun h => (by cases h), ?_⟩⟩
    rintro ⟨hs, fin, ss, h1, h2, h3, -⟩
    rw [hC hs fin ss h1 h2 fun hl => h3 (htr.1 hl)] at hst
    cases hst
  | done s =>
    obtain ⟨ss, fin, h1, h2, h3, h4⟩ := hS s hst
    have hpose : (parseArgs argv).traj ≠ none → ∀ t ∈ ss, ∃ p, P.pose t = some p := by
      intro hl t ht
      have hlog := h4 (htr.2 hl)
      obtain ⟨i, hi, rfl⟩ := List.getElem_of_mem ht
      have hlen : r.handled.length = ss.length := h2.length
      have hz := (List.forall₂_iff_get.1 hlog)
      have hi' : i < (r.handled.zip ss).length := by simp [hlen, hi]
      obtain ⟨-, -, hp⟩ := hz.2 i hi' (by rw [← hz.1]; exact hi')
      simp only [List.get_eq_getElem, List.getElem_zip] at hp
      exact ⟨_, hp⟩
    by_cases hm : (parseArgs argv).map = []
    · simp only
      rw [if_pos hm]
      have : ∃ hs fin ss,
          Bag.run (reader env props) (rs.length + 1) rs (Bag.St.start (reader env props)) = (hs, .ended fin) ∧
          Serves P P.start hs ss ∧ ((parseArgs argv).traj ≠ none → ∀ t ∈ ss, ∃ p, P.pose t = some p) ∧
          ((parseArgs argv).map ≠ [] → ∃ v, P.view (ss.getLastD P.start) = some v) :=
        ⟨r.handled, fin, ss, h1, h2, hpose, fun h => absurd hm h⟩
      cases ht : (parseArgs argv).traj with
      | none => rw [ht] at this; exact ⟨.inl rfl, ⟨fun _ => this, fun _ => rfl⟩⟩
      | some f => rw [ht] at this; exact ⟨.inl rfl, ⟨fun _ => this, fun _ => rfl⟩⟩
    · simp only [hm, if_false]
      cases hv : P.view s with
      | none =>
        refine ⟨.inr rfl, ⟨fun h => (by cases h), ?_⟩⟩
        rintro ⟨hs, fin', ss', g1, g2, g3, g4⟩
        have e := hC hs fin' ss' g1 g2 fun hl => g3 (htr.1 hl)
        rw [hst, Stop.done.injEq] at e
        obtain ⟨v, hv'⟩ := g4 hm
        rw [← e, hv] at hv'
        cases hv'
      | some v =>
        have : ∃ hs fin ss,
            Bag.run (reader env props) (rs.length + 1) rs (Bag.St.start (reader env props)) = (hs, .ended fin) ∧
            Serves P P.start hs ss ∧ ((parseArgs argv).traj ≠ none → ∀ t ∈ ss, ∃ p, P.pose t = some p) ∧
            ((parseArgs argv).map ≠ [] → ∃ v, P.view (ss.getLastD P.start) = some v) :=
          ⟨r.handled, fin, ss, h1, h2, hpose, fun _ => ⟨v, by rw [h3]; exact hv⟩⟩
        simp only [Option.map_some]
        cases ht : (parseArgs argv).traj with
        | none => rw [ht] at this; exact ⟨.inl rfl, ⟨fun _ => this, fun _ => rfl⟩⟩
        | some f => rw [ht] at this; exact ⟨.inl rfl, ⟨fun _ => this, fun _ => rfl⟩⟩

/-- **What the runner leaves behind (C97)** when it ends normally: the trajectory file has one entry for each message handled, in
order, with the message's time stamp and the pose after it; the map file is the image of the map after the last message;
every other file named with `-t` is empty; no other file is touched; and the progress messages count the
messages handled, if they are wanted. -/
theorem runner_files {env : Env D C} {fs : Fs} {argv : List Str} {props : Table} {P : Engine}
    {rs : List (Bag.Rec LaserMsg (TransformMsg D))} (h : Setup env fs argv props P rs) (hx : (main env fs argv).exit = some 0) :
    ∃ hs fin ss, Bag.run (reader env props) (rs.length + 1) rs (Bag.St.start (reader env props)) = (hs, .ended fin) ∧
      Serves P P.start hs ss ∧
      (∀ f, (parseArgs argv).traj = some f → env.writable f = true →
        ∃ ls, Logs P hs ss ls ∧ (main env fs argv).fs f = some (bytes (Text.tumFile ls))) ∧
      ((parseArgs argv).map ≠ [] → (parseArgs argv).traj ≠ some (parseArgs argv).map → env.writable (parseArgs argv).map = true →
        ∃ v, P.view (ss.getLastD P.start) = some v ∧ (main env fs argv).fs (parseArgs argv).map = some (Dump.dumpMap v)) ∧
      (∀ f, ¬ After argv "-t".toList f → (parseArgs argv).traj ≠ some f → f ≠ (parseArgs argv).map → (main env fs argv).fs f = fs f) ∧
      (∀ f, After argv "-t".toList f → f.head? ≠ some '-' → (parseArgs argv).traj ≠ some f → f ≠ (parseArgs argv).map →
        env.writable f = true → (main env fs argv).fs f = some []) ∧
      (∀ f, env.writable f = false → (main env fs argv).fs f = fs f) ∧
      (main env fs argv).out = if (parseArgs argv).verbose then
        (List.range hs.length).map fun i => "Handled scan #".toList ++ Nat.toDigits 10 (i + 1) else [] := by
  rw [main_setup h, runSlam_setup h] at hx ⊢
  have hS := loop_sound (reader env props) P (parseArgs argv).traj.isSome (rs.length + 1) rs (Bag.St.start (reader env props)) P.start
  generalize loop (reader env props) P (parseArgs argv).traj.isSome (rs.length + 1) rs (Bag.St.start (reader env props)) P.start = r
    at hS hx ⊢
  have hoth := (init_inv env fs argv).others
  have hemp := (init_inv env fs argv).emptied (not_dead h.undisturbed h.read).1
  have hunw := (init_inv env fs argv).unwritable
  generalize (initAll env fs argv).fs = fs0 at hx hoth hemp hunw ⊢
  simp only at hx ⊢
  cases hst : r.stop with
  | aborted => rw [hst] at hx; cases hx
  | running => rw [hst] at hx; cases hx
  | done s =>
    rw [hst] at hx
    obtain ⟨ss, fin, h1, h2, h3, h4⟩ := hS s hst
    refine ⟨r.handled, fin, ss, h1, h2, ?_⟩
    simp only at hx ⊢
    have key : ∃ fs', (if (parseArgs argv).map = [] then some fs0 else
        (P.view s).map fun v => env.put fs0 (parseArgs argv).map (Dump.dumpMap v)) = some fs' ∧
        (∀ f, f ≠ (parseArgs argv).map → fs' f = fs0 f) ∧ (∀ f, env.writable f = false → fs' f = fs0 f) ∧
        ((parseArgs argv).map ≠ [] → env.writable (parseArgs argv).map = true →
          ∃ v, P.view s = some v ∧ fs' (parseArgs argv).map = some (Dump.dumpMap v)) := by
      by_cases hm : (parseArgs argv).map = []
      · rw [if_pos hm]
        exact ⟨fs0, rfl, fun _ _ => rfl, fun _ _ => rfl, fun h => absurd hm h⟩
      · rw [if_neg hm] at hx ⊢
        cases hv : P.view s with
        | none => rw [hv] at hx; cases hx
        | some v =>
          exact ⟨_, rfl, fun f hf => put_other env fs0 _ f _ hf, fun f hf => put_keeps env fs0 _ f _ hf, fun _ hw => ⟨v, rfl, put_self env fs0 _ _ hw⟩⟩
    obtain ⟨fs', k1, k2, k3, k4⟩ := key
    rw [k1]
    simp only
    cases ht : (parseArgs argv).traj with
    | none =>
      simp only
      refine ⟨fun f hf => (by cases hf), fun hm _ hw => ?_, fun f hf _ hfm => ?_, fun f hf hf' _ hfm hw => ?_, fun f hw => ?_, rfl⟩
      · rw [h3]; exact k4 hm hw
      · rw [k2 f hfm, hoth f hf]
      · rw [k2 f hfm, hemp f hf hf' hw]
      · rw [k3 f hw, hunw f hw]
    | some g =>
      simp only
      refine ⟨fun f hf hw => ?_, fun hm hne hw => ?_, fun f hf hne hfm => ?_, fun f hf hf' hne hfm hw => ?_,
        fun f hw => ?_, rfl⟩
      · cases hf
        exact ⟨r.log, h4 (by rw [ht]; rfl), put_self env fs' g _ hw⟩
      · obtain ⟨v, v1, v2⟩ := k4 hm hw
        refine ⟨v, by rw [h3]; exact v1, ?_⟩
        rw [put_other env fs' g _ _ (fun e => hne (by rw [e])), v2]
      · rw [put_other env fs' g _ _ (fun e => hne (by rw [e])), k2 f hfm, hoth f hf]
      · rw [put_other env fs' g _ _ (fun e => hne (by rw [e])), k2 f hfm, hemp f hf hf' hw]
      · rw [put_keeps env fs' g f _ hw, k3 f hw, hunw f hw]

theorem runSlam_aborted (env : Env D C) (P : Engine) (args : Args) (props : Table) (fs : Fs)
    (h : (runSlam env P args props fs).exit = none) : (runSlam env P args props fs).fs = fs := by
  unfold runSlam at h ⊢
  by_cases h1 : Config.getBool props "in/lscan2D/ros/topic/enabled".toList false = false ∨
      Config.getBool props "in/odometry/ros/tf/enabled".toList false = false
  · rw [if_pos h1]
  · rw [if_neg h1] at h ⊢
    cases hb : ((fs args.bag).bind env.openBag).bind (records (laserTopic props) (tfTopic props)) with
    | none => rfl
    | some rs =>
      rw [hb] at h
      simp only at h ⊢
      cases hst : (loop (reader env props) P args.traj.isSome (rs.length + 1) rs (Bag.St.start (reader env props)) P.start).stop with
      | aborted => rfl
      | running => rfl
      | done s =>
        rw [hst] at h
        simp only at h ⊢
        cases hf : (if args.map = [] then some fs else (P.view s).map fun v => env.put fs args.map (Dump.dumpMap v)) with
        | none => rfl
        | some fs' =>
          rw [hf] at h
          cases ht : args.traj with
          | none => rw [ht] at h; cases h
          | some f => rw [ht] at h; cases h

theorem runMade_aborted (env : Env D C) (P : Option Engine) (args : Args) (props : Table) (fs : Fs)
    (h : (runMade env P args props fs).exit = none) : (runMade env P args props fs).fs = fs := by
  cases P with
  | none => rfl
  | some P => exact runSlam_aborted env P args props fs h

theorem runSlam_exit (env : Env D C) (P : Engine) (args : Args) (props : Table) (fs : Fs) :
    (runSlam env P args props fs).exit = none ∨ (runSlam env P args props fs).exit = some 0 := by
  unfold runSlam
  by_cases h1 : Config.getBool props "in/lscan2D/ros/topic/enabled".toList false = false ∨
      Config.getBool props "in/odometry/ros/tf/enabled".toList false = false
  · rw [if_pos h1]; exact .inl rfl
  · rw [if_neg h1]
    cases ((fs args.bag).bind env.openBag).bind (records (laserTopic props) (tfTopic props)) with
    | none => exact .inl rfl
    | some rs =>
      simp only
      cases (loop (reader env props) P args.traj.isSome (rs.length + 1) rs (Bag.St.start (reader env props)) P.start).stop with
      | aborted => exact .inl rfl
      | running => exact .inl rfl
      | done s =>
        simp only
        cases (if args.map = [] then some fs else (P.view s).map fun v => env.put fs args.map (Dump.dumpMap v)) with
        | none => exact .inl rfl
        | some fs' =>
          cases args.traj with
          | none => exact .inr rfl
          | some f => exact .inr rfl

/-- **An aborted run writes no map (C97)**: whatever the command line, if the program is aborted, or refuses the command line, no file is
touched that is not named with `-t`. -/
theorem runner_no_map (env : Env D C) (fs : Fs) (argv : List Str) (h : (main env fs argv).exit ≠ some 0) :
    ∀ f, ¬ After argv "-t".toList f → (main env fs argv).fs f = fs f := by
  intro f hf
  have hoth := (init_inv env fs argv).others f hf
  suffices e : (main env fs argv).fs = (initAll env fs argv).fs by rw [e]; exact hoth
  unfold main at h ⊢
  simp only at h ⊢
  cases hd : (initAll env fs argv).dead with
  | true => rfl
  | false =>
    rw [hd] at h
    simp only [Bool.false_eq_true, if_false] at h ⊢
    by_cases h1 : (initAll env fs argv).args.isValid = false
    · rw [if_pos h1]
    · rw [if_neg h1] at h ⊢
      by_cases h2 : (initAll env fs argv).args.slamType = "viny".toList ∨ (initAll env fs argv).args.slamType = "tiny".toList
      · rw [if_pos h2] at h ⊢
        apply runMade_aborted
        cases hP : env.oneHypothesis (initAll env fs argv).props with
        | none => rfl
        | some P =>
          rw [hP] at h
          exact (runSlam_exit env P _ _ _).resolve_right h
      · rw [if_neg h2] at h ⊢
        by_cases h3 : (initAll env fs argv).args.slamType = "gmapping".toList
        · rw [if_pos h3] at h ⊢
          apply runMade_aborted
          cases hP : env.gmapping (initAll env fs argv).props with
          | none => rfl
          | some P =>
            rw [hP] at h
            exact (runSlam_exit env P _ _ _).resolve_right h
        · rw [if_neg h3]

/-- **Command lines that ask for nothing (C97)**: without exactly two positional arguments the usage is printed and the status is -1; for
a type other than `tiny`, `viny` and `gmapping` a message is printed and the status is 0. In both cases nothing is run: files
named with `-t` are emptied, the others stay as they are. -/
theorem runner_refuses (env : Env D C) (fs : Fs) (argv : List Str) {props : Table} (hu : Undisturbed env fs argv)
    (hr : Config.appendAll (env.files fs) env.depth (parseArgs argv).props Table.empty = some props)
    (hbad : (parseArgs argv).isValid = false ∨
      ∀ t ∈ ["tiny".toList, "viny".toList, "gmapping".toList], (parseArgs argv).slamType ≠ t) :
    ((parseArgs argv).isValid = false → (main env fs argv).exit = some (-1) ∧ (main env fs argv).out = usage) ∧
    ((parseArgs argv).isValid = true → (main env fs argv).exit = some 0 ∧
      (main env fs argv).out = ["Unkonw slam type: ".toList ++ (parseArgs argv).slamType]) ∧
    (∀ f, ¬ After argv "-t".toList f → (main env fs argv).fs f = fs f) ∧
    ∀ f, After argv "-t".toList f → f.head? ≠ some '-' → env.writable f = true → (main env fs argv).fs f = some [] := by
  obtain ⟨h1, -⟩ := not_dead hu hr
  have h3 := parsed_args env fs argv h1
  have hi := init_inv env fs argv
  have hm : main env fs argv = if (parseArgs argv).isValid = false then ⟨(initAll env fs argv).fs, usage, some (-1)⟩
      else ⟨(initAll env fs argv).fs, ["Unkonw slam type: ".toList ++ (parseArgs argv).slamType], some 0⟩ := by
    unfold main
    simp only [h1, Bool.false_eq_true, if_false, h3]
    by_cases hv : (parseArgs argv).isValid = false
    · rw [if_pos hv, if_pos hv]
    · rw [if_neg hv, if_neg hv]
      have ht := hbad.resolve_left hv
      rw [if_neg, if_neg]
      · exact ht _ (by simp)
      · rintro (e | e)
        · exact ht _ (by simp) e
        · exact ht _ (by simp) e
  by_cases hv : (parseArgs argv).isValid = false
  · rw [hm, if_pos hv]
    exact ⟨fun _ => ⟨rfl, rfl⟩, fun h => (by rw [hv] at h; cases h), hi.others, hi.emptied h1⟩
  · rw [hm, if_neg hv]
    exact ⟨fun h => absurd h hv, fun _ => ⟨rfl, rfl⟩, hi.others, hi.emptied h1⟩

/-! ## Reading the files -/

theorem chars_bytes (s : Str) : chars (bytes s) = s := by
  induction s with
  | nil => rfl
  | cons c s ih =>
    simp only [chars, bytes, List.map_cons, List.cons.injEq] at ih ⊢
    exact ⟨Char.ofNat_toNat c, ih⟩

/-- **What a reader finds in the files (C97)**, with C84 and C46: in the trajectory eight numbers for each message handled, in order; in
the map an image of the map's size with every cell once. -/
theorem runner_files_read {env : Env D C} {fs : Fs} {argv : List Str} {props : Table} {P : Engine}
    {rs : List (Bag.Rec LaserMsg (TransformMsg D))} (h : Setup env fs argv props P rs) (hx : (main env fs argv).exit = some 0) :
    ∃ hs fin ss, Bag.run (reader env props) (rs.length + 1) rs (Bag.St.start (reader env props)) = (hs, .ended fin) ∧
      Serves P P.start hs ss ∧
      (∀ f, (parseArgs argv).traj = some f → env.writable f = true → ∀ rd : ℝ → ℝ,
        ∃ ls b vs s, Logs P hs ss ls ∧ (main env fs argv).fs f = some b ∧
          Text.numbers rd (8 * ls.length) (some (chars b)) = some (vs.flatten, s) ∧
          List.Forall₂ (Text.EntryReads rd) ls vs ∧ (Text.getDouble rd s 0).2 = none) ∧
      ((parseArgs argv).map ≠ [] → (parseArgs argv).traj ≠ some (parseArgs argv).map → env.writable (parseArgs argv).map = true →
        ∃ v b, P.view (ss.getLastD P.start) = some v ∧ (main env fs argv).fs (parseArgs argv).map = some b ∧
          ∀ w ht : Nat, v.width = w → v.height = ht → ∃ samples, Dump.readPgm b = some (w, ht, 255, samples) ∧
            samples.length = ht * w ∧ ∀ r c, r < ht → c < w → ∃ s : Nat, samples[r * w + c]? = some s ∧ s ≤ 255 ∧
              Dump.IsIntegralPart (s : Int)
                (255 * Dump.lightness (v.occ ⟨(c : Int) - v.origin.x, (ht : Int) - 1 - (r : Int) - v.origin.y⟩))) := by
  obtain ⟨hs, fin, ss, h1, h2, h3, h4, -⟩ := runner_files h hx
  refine ⟨hs, fin, ss, h1, h2, fun f hf hw rd => ?_, fun hm hne hw => ?_⟩
  · obtain ⟨ls, h5, h6⟩ := h3 f hf hw
    obtain ⟨vs, s, h7, h8, h9⟩ := Text.trajectory_file_reads rd ls
    exact ⟨ls, _, vs, s, h5, h6, by rw [chars_bytes]; exact h7, h8, h9⟩
  · obtain ⟨v, h5, h6⟩ := h4 hm hne hw
    exact ⟨v, _, h5, h6, fun w ht hww hh => Dump.pgm_shows_map v w ht hww hh⟩

/-! ## Progress messages -/

/-- With the progress messages switched on. -/
def Init.loud (s : Init) : Init := { s with st := { s.st with args := { s.st.args with verbose := true } } }

theorem argStep_loud (s : ArgState) (a : Str) : Config.argStep { s with args := { s.args with verbose := true } } a =
    { Config.argStep s a with args := { (Config.argStep s a).args with verbose := true } } := by
  unfold Config.argStep
  simp only
  by_cases h1 : a.head? = some '-'
  · simp only [if_pos h1]
    by_cases h2 : a = "-v".toList
    · simp only [if_pos h2]
    · simp only [if_neg h2]
  · simp only [if_neg h1]
    by_cases h2 : s.flag = []
    · simp only [if_pos h2]
      by_cases h3 : s.mandatory = 0
      · simp only [if_pos h3]
      · simp only [if_neg h3]
        by_cases h4 : s.mandatory = 1
        · simp only [if_pos h4]
        · simp only [if_neg h4]
    · simp only [if_neg h2]
      by_cases h3 : s.flag = "-p".toList
      · simp only [if_pos h3]
      · simp only [if_neg h3]
        by_cases h4 : s.flag = "-t".toList
        · simp only [if_pos h4]
        · simp only [if_neg h4]
          by_cases h5 : s.flag = "-m".toList
          · simp only [if_pos h5]
          · simp only [if_neg h5]

theorem initStep_loud (env : Env D C) (s : Init) (a : Str) : initStep env s.loud a = (initStep env s a).loud := by
  have hst : s.loud.st = { s.st with args := { s.st.args with verbose := true } } := rfl
  cases hd : s.dead with
  | true =>
    have hd' : s.loud.dead = true := hd
    unfold initStep
    rw [if_pos hd, if_pos hd']
  | false =>
    have hd' : s.loud.dead = false := hd
    rcases initStep_cases env s a hd with ⟨hp, ⟨t, h1, e⟩ | ⟨h1, e⟩⟩ | ⟨ht, e⟩ | ⟨hp, ht, e⟩ <;>
    rcases initStep_cases env s.loud a hd' with ⟨hp', ⟨t', h1', e'⟩ | ⟨h1', e'⟩⟩ | ⟨ht', e'⟩ | ⟨hp', ht', e'⟩
    · rw [e, e', hst, argStep_loud]
      have : some t = some t' := h1.symm.trans h1'
      cases this
      rfl
    · exact absurd (h1.symm.trans h1') (by simp)
    · exact absurd (hp.2.symm.trans ht'.2) (by decide)
    · exact absurd hp hp'
    · exact absurd (h1.symm.trans h1') (by simp)
    · rw [e, e']; rfl
    · exact absurd (hp.2.symm.trans ht'.2) (by decide)
    · exact absurd hp hp'
    · exact absurd (hp'.2.symm.trans ht.2) (by decide)
    · exact absurd (hp'.2.symm.trans ht.2) (by decide)
    · rw [e, e', hst, argStep_loud]; rfl
    · exact absurd ht ht'
    · exact absurd hp' hp
    · exact absurd hp' hp
    · exact absurd ht' ht
    · rw [e, e', hst, argStep_loud]; rfl

theorem foldl_loud (env : Env D C) (as : List Str) : ∀ s : Init,
    as.foldl (initStep env) s.loud = (as.foldl (initStep env) s).loud := by
  induction as with
  | nil => intro s; rfl
  | cons a as ih =>
    intro s
    simp only [List.foldl_cons]
    rw [initStep_loud]
    exact ih _

theorem runSlam_loud (env : Env D C) (P : Engine) (args : Args) (props : Table) (fs : Fs) (b : Bool) :
    (runSlam env P { args with verbose := b } props fs).fs = (runSlam env P args props fs).fs ∧
    (runSlam env P { args with verbose := b } props fs).exit = (runSlam env P args props fs).exit := by
  unfold runSlam
  by_cases h1 : Config.getBool props "in/lscan2D/ros/topic/enabled".toList false = false ∨
      Config.getBool props "in/odometry/ros/tf/enabled".toList false = false
  · rw [if_pos h1, if_pos h1]; exact ⟨rfl, rfl⟩
  · rw [if_neg h1, if_neg h1]
    simp only
    cases ((fs args.bag).bind env.openBag).bind (records (laserTopic props) (tfTopic props)) with
    | none => exact ⟨rfl, rfl⟩
    | some rs =>
      simp only
      cases (loop (reader env props) P args.traj.isSome (rs.length + 1) rs (Bag.St.start (reader env props)) P.start).stop with
      | aborted => exact ⟨rfl, rfl⟩
      | running => exact ⟨rfl, rfl⟩
      | done s =>
        simp only
        cases (if args.map = [] then some fs else (P.view s).map fun v => env.put fs args.map (Dump.dumpMap v)) with
        | none => exact ⟨rfl, rfl⟩
        | some fs' =>
          cases args.traj with
          | none => exact ⟨rfl, rfl⟩
          | some f => exact ⟨rfl, rfl⟩

/-- **`-v` only adds messages on the console (C97)**: put anywhere in the command line but between an option and its value, it changes
neither the files nor the exit status. -/
theorem verbose_only_talks (env : Env D C) (fs : Fs) (as bs : List Str)
    (h : ∀ f, as.getLast? = some f → f.head? ≠ some '-') :
    (main env fs (as ++ "-v".toList :: bs)).fs = (main env fs (as ++ bs)).fs ∧
    (main env fs (as ++ "-v".toList :: bs)).exit = (main env fs (as ++ bs)).exit := by
  have hinit : initAll env fs (as ++ "-v".toList :: bs) = (initAll env fs (as ++ bs)).loud ∨
      ((initAll env fs (as ++ "-v".toList :: bs)) = initAll env fs (as ++ bs) ∧ (initAll env fs (as ++ bs)).dead = true) := by
    have hfl : (as.foldl Config.argStep argStart).flag = [] := by
      by_contra hne
      have h1 := last_flag as hne
      have h2 := h _ h1
      refine h2 ?_
      cases as using List.reverseRecOn with
      | nil => exact absurd rfl hne
      | append_singleton l a _ =>
        rw [List.foldl_append] at hne ⊢
        simp only [List.foldl_cons, List.foldl_nil] at hne ⊢
        obtain ⟨e1, e2⟩ := argStep_flag _ _ hne
        rw [e1]
        exact e2
    have hinv := init_inv env fs as
    unfold initAll at hinv ⊢
    simp only [List.foldl_append, List.foldl_cons]
    generalize as.foldl (initStep env) _ = s at hinv ⊢
    cases hd : s.dead with
    | true =>
      right
      have hs : ∀ b, initStep env s b = s := fun b => by unfold initStep; rw [if_pos hd]
      have hall : ∀ cs : List Str, cs.foldl (initStep env) s = s := by
        intro cs
        induction cs with
        | nil => rfl
        | cons c cs ih => rw [List.foldl_cons, hs, ih]
      rw [hs, hall]
      exact ⟨rfl, hd⟩
    | false =>
      left
      have hst := hinv.args hd
      have e : initStep env s "-v".toList = s.loud := by
        have : Config.argStep s.st "-v".toList = s.loud.st := by
          have hf : s.st.flag = [] := by rw [hst]; exact hfl
          unfold Config.argStep
          rw [if_pos (by decide), if_pos rfl]
          show _ = { s.st with args := { s.st.args with verbose := true } }
          cases hq : s.st with
          | mk a m f =>
            rw [hq] at hf
            cases hf
            rfl
        unfold initStep
        rw [if_neg (by rw [hd]; simp), if_pos (.inl (by decide)), this]
        rfl
      rw [e, foldl_loud]
  rcases hinit with e | ⟨e, hd⟩
  · unfold main
    simp only
    rw [e]
    generalize initAll env fs (as ++ bs) = s
    have hargs : s.loud.args = { s.args with verbose := true } := rfl
    have hdead : s.loud.dead = s.dead := rfl
    have hfs : s.loud.fs = s.fs := rfl
    have hprops : s.loud.props = s.props := rfl
    rw [hargs, hdead, hfs, hprops]
    cases s.dead with
    | true => exact ⟨rfl, rfl⟩
    | false =>
      simp only [Bool.false_eq_true, if_false]
      by_cases h1 : s.args.isValid = false
      · rw [if_pos h1, if_pos h1]; exact ⟨rfl, rfl⟩
      · rw [if_neg h1, if_neg h1]
        by_cases h2 : s.args.slamType = "viny".toList ∨ s.args.slamType = "tiny".toList
        · rw [if_pos h2, if_pos h2]
          cases env.oneHypothesis s.props with
          | none => exact ⟨rfl, rfl⟩
          | some P => exact runSlam_loud env P s.args s.props s.fs true
        · rw [if_neg h2, if_neg h2]
          by_cases h3 : s.args.slamType = "gmapping".toList
          · rw [if_pos h3, if_pos h3]
            cases env.gmapping s.props with
            | none => exact ⟨rfl, rfl⟩
            | some P => exact runSlam_loud env P s.args s.props s.fs true
          · rw [if_neg h3, if_neg h3]; exact ⟨rfl, rfl⟩
  · unfold main
    simp only
    rw [e]
    exact ⟨rfl, rfl⟩

/-! ## Examples -/

/-- A SLAM that counts messages and has no map at first. -/
noncomputable def countingEngine : Engine where
  S := Nat
  start := 0
  handle := fun n _ => some (n + 1)
  pose := fun n => some ⟨(n : ℝ), 0, 0⟩
  view := fun n => if n = 0 then none else some ⟨2, 1, ⟨0, 0⟩, 1, fun c => if c.x = 0 then 0 else 1⟩

/-- Surroundings with that SLAM, and a bag with a scan. -/
noncomputable def countingEnv : Env Unit Unit where
  writable := fun _ => true
  resolve := fun _ n => n
  depth := 3
  openBag := fun c => if c = [1] then some [⟨"/base_scan".toList, .laser ⟨1, 5, [], ⟨0, 0, 1, 0, 30, [none]⟩⟩⟩] else none
  tf := ⟨(), fun _ _ => (), fun _ _ _ _ _ => .ok ⟨1, 2, 0⟩⟩
  oneHypothesis := fun _ => some countingEngine
  gmapping := fun _ => none

/-- A properties file, a bag and a trajectory of an earlier run. -/
def countingFs : Fs := fun p =>
  if p = "p".toList then some (bytes "in/lscan2D/ros/topic/enabled=true\nin/odometry/ros/tf/enabled=true".toList)
  else if p = "b".toList then some [1] else if p = "t".toList then some [7] else none

/-- The command line of the example. -/
def countingLine : List Str := ["tiny".toList, "b".toList, "-t".toList, "t".toList, "-p".toList, "p".toList, "-m".toList, "m".toList]

theorem after_zip {argv : List Str} {flag v : Str} : After argv flag v → (flag, v) ∈ argv.zip argv.tail := by
  rintro ⟨pre, post, rfl⟩
  induction pre with
  | nil => simp
  | cons a pre ih =>
    have e : ∃ b l, pre ++ flag :: v :: post = b :: l := by
      cases pre with
      | nil => exact ⟨_, _, rfl⟩
      | cons b l => exact ⟨_, _, rfl⟩
    obtain ⟨b, l, e⟩ := e
    rw [e] at ih
    rw [List.cons_append, e]
    simp only [List.tail_cons, List.zip_cons_cons] at ih ⊢
    exact List.mem_cons_of_mem _ ih

theorem counting_undisturbed : Undisturbed countingEnv countingFs countingLine := by
  refine ⟨fun p => p = "p".toList, by decide, ?_, ?_⟩
  · rintro p c name rfl hc hn
    cases hc
    revert hn
    rw [chars_bytes]
    have : (Config.linesOf "in/lscan2D/ros/topic/enabled=true\nin/odometry/ros/tf/enabled=true".toList).map Config.readLine =
      [.entry "in/lscan2D/ros/topic/enabled".toList "true".toList, .entry "in/odometry/ros/tf/enabled".toList "true".toList] := by
      decide +kernel
    rw [this]
    simp
  · rintro f ⟨pre, post, h⟩ rfl
    have := after_zip ⟨pre, post, h⟩
    revert this
    decide

theorem counting_props : ∃ t, Config.appendAll (countingEnv.files countingFs) countingEnv.depth (parseArgs countingLine).props Table.empty = some t ∧
    Config.getBool t "in/lscan2D/ros/topic/enabled".toList false = true ∧ Config.getBool t "in/odometry/ros/tf/enabled".toList false = true ∧
    Config.getStr t "in/lscan2D/ros/topic/name".toList "/base_scan".toList = "/base_scan".toList ∧
    Config.getStr t "in/odometry/ros/tf/name".toList "/tf".toList = "/tf".toList := by
  have h : (Config.appendAll ⟨fun p => (countingFs p).map chars, fun _ n => n⟩ 3 (parseArgs countingLine).props Table.empty).map (fun t =>
      ((Config.getBool t "in/lscan2D/ros/topic/enabled".toList false, Config.getBool t "in/odometry/ros/tf/enabled".toList false),
        Config.getStr t "in/lscan2D/ros/topic/name".toList "/base_scan".toList, Config.getStr t "in/odometry/ros/tf/name".toList "/tf".toList)) =
      some ((true, true), "/base_scan".toList, "/tf".toList) := by decide +kernel
  rw [Option.map_eq_some_iff] at h
  obtain ⟨t, h1, h2⟩ := h
  simp only [Prod.mk.injEq] at h2
  exact ⟨t, h1, h2.1.1, h2.1.2, h2.2.1, h2.2.2⟩

/-- The example can be set up. -/
theorem counting_setup : ∃ props, Setup countingEnv countingFs countingLine props countingEngine
    [.msg ⟨1, 5, [], ⟨0, 0, 1, 0, 30, [none]⟩⟩] := by
  obtain ⟨t, h1, h2, h3, h4, h5⟩ := counting_props
  refine ⟨t, by decide, counting_undisturbed, h1, .inl ⟨by decide, rfl⟩, h2, h3, fun h => ?_, [1], _, rfl, rfl, ?_⟩
  · have := after_zip h
    revert this
    decide
  · rw [h4, h5]
    exact .cons (.inl ⟨rfl, _, rfl, rfl⟩) .nil

/-- The example ends normally, with one entry in the trajectory. -/
example : (main countingEnv countingFs countingLine).exit = some 0 ∧
    (main countingEnv countingFs countingLine).fs "t".toList = some (bytes (Text.tumFile [⟨1, 5, 1, 0, 0⟩])) ∧
    (main countingEnv countingFs countingLine).fs "b".toList = some [1] := by
  obtain ⟨props, h⟩ := counting_setup
  have hrun : ∃ fin, Bag.run (reader countingEnv props) 2 [.msg ⟨1, 5, [], ⟨0, 0, 1, 0, 30, [none]⟩⟩] (Bag.St.start (reader countingEnv props)) =
      ([(⟨1, 5, [], ⟨0, 0, 1, 0, 30, [none]⟩⟩, ⟨1, 2, 0⟩)], .ended fin) := ⟨_, rfl⟩
  obtain ⟨fin, hrun⟩ := hrun
  have hs : Serves countingEngine countingEngine.start [(⟨1, 5, [], ⟨0, 0, 1, 0, 30, [none]⟩⟩, ⟨1, 2, 0⟩)] [(1 : Nat)] :=
    .cons _ _ _ _ _ _ rfl (.nil _)
  have hx : (main countingEnv countingFs countingLine).exit = some 0 :=
    (runner_exit h).2.2 ⟨_, fin, _, hrun, hs, fun _ t _ => ⟨_, rfl⟩, fun _ => ⟨_, rfl⟩⟩
  obtain ⟨hs', fin', ss', g1, g2, g3, g4, g5, -⟩ := runner_files h hx
  obtain ⟨ls, g6, g7⟩ := g3 "t".toList (by decide) rfl
  rw [show ([Bag.Rec.msg ⟨1, 5, [], ⟨0, 0, 1, 0, 30, [none]⟩⟩] : List (Bag.Rec LaserMsg (TransformMsg Unit))).length + 1 = 2 from rfl, hrun] at g1
  cases g1
  have e : ss' = [(1 : Nat)] := serves_unique g2 hs
  subst e
  refine ⟨hx, ?_, g5 _ (fun h => ?_) (by decide) (by decide)⟩
  · rw [g7]
    cases g6 with
    | cons a b =>
      cases b
      rename_i l
      obtain ⟨a1, a2, a3⟩ := a
      obtain ⟨s, n, x, y, θ⟩ := l
      simp only [countingEngine, Option.some.injEq, Poses.Pose.mk.injEq] at a1 a2 a3
      obtain ⟨b1, b2, b3⟩ := a3
      subst a1 a2 b2 b3
      rw [← b1]
      norm_num
  · have := after_zip h
    revert this
    decide

/-- Without a bag the usage is printed; the trajectory of the earlier run is lost. -/
example : (main countingEnv countingFs ["tiny".toList, "-t".toList, "t".toList]).exit = some (-1) ∧
    (main countingEnv countingFs ["tiny".toList, "-t".toList, "t".toList]).fs "t".toList = some [] := by
  have h := runner_refuses countingEnv countingFs ["tiny".toList, "-t".toList, "t".toList] (props := Table.empty)
    ⟨fun _ => False, by decide, fun _ _ _ h => h.elim, fun _ _ => id⟩ rfl (.inl (by decide))
  exact ⟨(h.1 (by decide)).1, h.2.2.2 _ ⟨["tiny".toList], [], rfl⟩ (by decide) rfl⟩

/-- A file that is no bag: the program is aborted, and the file for the map is not touched. -/
example : (main countingEnv countingFs ["tiny".toList, "p".toList, "-m".toList, "m".toList]).exit = none ∧
    (main countingEnv countingFs ["tiny".toList, "p".toList, "-m".toList, "m".toList]).fs "m".toList = none := by
  have h : (main countingEnv countingFs ["tiny".toList, "p".toList, "-m".toList, "m".toList]).exit = none := by rfl
  exact ⟨h, (runner_no_map _ _ _ (by rw [h]; simp) _ fun h => absurd (after_zip h) (by decide)).trans rfl⟩

/-- With `-v`, somewhere. -/
example : (main countingEnv countingFs ("-v".toList :: countingLine)).exit = (main countingEnv countingFs countingLine).exit :=
  (verbose_only_talks countingEnv countingFs [] countingLine (by simp)).2

end Slam.Runner
