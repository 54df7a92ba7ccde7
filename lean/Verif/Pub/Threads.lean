import Mathlib.Tactic.Common
import Mathlib.Data.List.OfFn
import Mathlib.Data.List.Induction
import Mathlib.Logic.Function.Basic

/-!
# The publisher of the correction with two threads (C48)

`on_pose_update` and `publishing_loop` of `PoseCorrectionTfPublisher` (src/ros/pose_correction_tf_publisher.h) run in
two threads. `_map2odom` is `n` words of memory, each written and read in a step of its own, so that a transform can be
seen half written; the mutex is a step that waits. The other fields are used by one thread only.
-/

set_option autoImplicit false
set_option linter.unusedSectionVars false

namespace Slam.Pub

variable {W : Type*} {n : Nat}

/-! ## Model -/

/-- The thread of the callbacks and that of `publishing_loop`. -/
inductive Thread where
  | main | loop
  deriving DecidableEq

/-- Where a thread is, pose_correction_tf_publisher.h:43-66. -/
inductive Pc (W : Type*) (n : Nat) where
  /-- outside of the publisher -/
  | idle
  /-- line 44: before the mutex of the assignment -/
  | lockW (v : Fin n → W)
  /-- line 45: `i` words of `_map2odom` are assigned -/
  | write (v : Fin n → W) (i : Nat)
  /-- line 61: before the mutex of `publish_map_to_odom` -/
  | lockP
  /-- lines 62-64: `buf` are the words copied so far -/
  | read (buf : List W)
  /-- line 65 -/
  | unlockP

/-- What is observable: a transform has been stored, a thread has sent words. -/
inductive Event (W : Type*) (n : Nat) where
  | stored (v : Fin n → W)
  | sent (t : Thread) (buf : List W)

/-- The shared memory, the owner of the mutex, the threads, the transforms of the poses to come, and the trace. -/
structure Sys (W : Type*) (n : Nat) where
  mem : Fin n → W
  owner : Option Thread
  pc : Thread → Pc W n
  todo : List (Fin n → W)
  trace : List (Event W n)

/-- After the constructor, pose_correction_tf_publisher.h:17-30. -/
def Sys.start (init : Fin n → W) (todo : List (Fin n → W)) : Sys W n := ⟨init, none, fun _ => .idle, todo, []⟩

/-- A thread goes on. -/
def Sys.goto (s : Sys W n) (t : Thread) (p : Pc W n) : Sys W n := { s with pc := Function.update s.pc t p }

/-- One step of a thread; `none` if it waits for the mutex or has nothing to do. `on_pose_update`, 39-48;
`publishing_loop`, 52-58; `publish_map_to_odom`, 60-66. -/
def Sys.step (s : Sys W n) (t : Thread) : Option (Sys W n) :=
  match s.pc t with
  | .idle =>
    match t with
    | .main =>
      match s.todo with
      | [] => none
      | v :: rest => some ({ s with todo := rest }.goto t (.lockW v))
    | .loop => some (s.goto t .lockP)
  | .lockW v => if s.owner = none then some ({ s with owner := some t }.goto t (.write v 0)) else none
  | .write v i =>
    if h : i < n then some ({ s with mem := Function.update s.mem ⟨i, h⟩ (v ⟨i, h⟩) }.goto t (.write v (i + 1)))
    else some ({ s with owner := none, trace := s.trace ++ [Event.stored v] }.goto t .lockP)
  | .lockP => if s.owner = none then some ({ s with owner := some t }.goto t (.read [])) else none
  | .read buf =>
    if h : buf.length < n then some (s.goto t (.read (buf ++ [s.mem ⟨buf.length, h⟩])))
    else some ({ s with trace := s.trace ++ [Event.sent t buf] }.goto t .unlockP)
  | .unlockP => some ({ s with owner := none }.goto t .idle)

/-- States of all interleavings. -/
inductive Reach (init : Fin n → W) (todo : List (Fin n → W)) : Sys W n → Prop
  | start : Reach init todo (Sys.start init todo)
  | step {s s' : Sys W n} (t : Thread) : Reach init todo s → s.step t = some s' → Reach init todo s'

/-! ## Specification -/

/-- The transform stored last in a trace. -/
def lastStored (init : Fin n → W) (tr : List (Event W n)) : Fin n → W :=
  tr.foldl (fun cur e => match e with | .stored v => v | .sent _ _ => cur) init

/-- The transforms stored in a trace. -/
def storedOf (tr : List (Event W n)) : List (Fin n → W) :=
  tr.filterMap fun (e : Event W n) => match e with
    | .stored v => some v
    | .sent _ _ => none

/-- The words sent in a trace. -/
def sentOf (tr : List (Event W n)) : List (List W) :=
  tr.filterMap fun (e : Event W n) => match e with
    | .stored _ => none
    | .sent _ b => some b

/-! ## Invariant -/

/-- The thread holds the mutex there. -/
def Pc.critical : Pc W n → Bool
  | .write _ _ => true
  | .read _ => true
  | .unlockP => true
  | _ => false

/-- After the last transform was stored, the main thread has not yet sent one. -/
def pending (tr : List (Event W n)) : Bool :=
  tr.foldl (fun cur e => match e with | .stored _ => true | .sent .main _ => false | .sent .loop _ => cur) false

/-- The invariant of all interleavings. -/
structure Inv (init : Fin n → W) (s : Sys W n) : Prop where
  own : ∀ t, s.owner = some t ↔ (s.pc t).critical = true
  loopPc : (∀ v, s.pc .loop ≠ .lockW v) ∧ ∀ v i, s.pc .loop ≠ .write v i
  mem : (∀ v i, s.pc .main ≠ .write v i) → s.mem = lastStored init s.trace
  part : ∀ v i, s.pc .main = .write v i → i ≤ n ∧ ∀ j : Fin n, j.val < i → s.mem j = v j
  buf : ∀ t b, s.pc t = .read b → b.length ≤ n ∧ b = (List.ofFn s.mem).take b.length
  sent : ∀ pre t b post, s.trace = pre ++ .sent t b :: post → b = List.ofFn (lastStored init pre)
  pend : pending s.trace = true → s.pc .main = .lockP ∨ ∃ b, s.pc .main = .read b
  each : ∀ pre v mid w post, s.trace = pre ++ .stored v :: (mid ++ .stored w :: post) → ∃ b, .sent .main b ∈ mid

theorem append_eq_concat {α : Type*} {a : List α} {e f : α} {pre post : List α}
    (h : a ++ [e] = pre ++ f :: post) :
    (post = [] ∧ pre = a ∧ e = f) ∨ ∃ post', post = post' ++ [e] ∧ a = pre ++ f :: post' := by
  rcases List.eq_nil_or_concat post with rfl | ⟨post', x, rfl⟩
  · left
    have := List.append_inj' h rfl
    exact ⟨rfl, this.1.symm, by simpa using this.2⟩
  · right
    rw [List.concat_eq_append] at h ⊢
    rw [← List.cons_append, ← List.append_assoc] at h
    have := List.append_inj' h rfl
    have hx : e = x := by simpa using this.2
    exact ⟨post', by rw [hx], this.1⟩

theorem Inv.start (init : Fin n → W) (todo : List (Fin n → W)) : Inv init (Sys.start init todo) := by
  constructor <;> simp [Sys.start, Pc.critical, lastStored, pending]

theorem goto_same (s : Sys W n) (t : Thread) (p : Pc W n) : (s.goto t p).pc t = p := by simp [Sys.goto]

theorem goto_other (s : Sys W n) {t u : Thread} (p : Pc W n) (h : u ≠ t) : (s.goto t p).pc u = s.pc u := by
  simp [Sys.goto, h]

theorem lastStored_concat (init : Fin n → W) (tr : List (Event W n)) (e : Event W n) :
    lastStored init (tr ++ [e]) = match e with | .stored v => v | .sent _ _ => lastStored init tr := by
  simp [lastStored]

theorem pending_concat (tr : List (Event W n)) (e : Event W n) :
    pending (tr ++ [e]) =
      match e with | .stored _ => true | .sent .main _ => false | .sent .loop _ => pending tr := by
  simp [pending]

theorem pending_sent (tr : List (Event W n)) : ∀ pre v post, tr = pre ++ .stored v :: post →
    pending tr = false → ∃ b, .sent .main b ∈ post := by
  induction tr using List.reverseRecOn with
  | nil => intro pre v post h; simp at h
  | append_singleton tr e ih =>
    intro pre v post h hp
    rcases append_eq_concat h with ⟨h1, h2, h3⟩ | ⟨post', h1, h2⟩
    · subst h3
      simp [pending_concat] at hp
    · subst h1
      rw [pending_concat] at hp
      match e, hp with
      | .sent .main b, _ => exact ⟨b, by simp⟩
      | .sent .loop b, hp =>
        obtain ⟨b', hb'⟩ := ih pre v post' h2 hp
        exact ⟨b', by simp [hb']⟩

theorem Inv.step {init : Fin n → W} {s s' : Sys W n} (h : Inv init s) (t : Thread) (hs : s.step t = some s') :
    Inv init s' := by
  obtain ⟨hown, hloop, hmem, hpart, hbuf, hsent, hpend, heach⟩ := h
  have hother : ∀ u, u ≠ t → s.owner = some t → (s.pc u).critical = false := by
    intro u hu ho
    cases hc : (s.pc u).critical with
    | false => rfl
    | true =>
      have := (hown u).2 hc
      rw [ho] at this
      exact absurd (Option.some.inj this).symm hu
  unfold Sys.step at hs
  cases hp : s.pc t with
  | idle =>
    simp only [hp] at hs
    have ht0 : s.owner ≠ some t := by
      intro ho
      have := (hown t).1 ho
      rw [hp] at this
      simp [Pc.critical] at this
    cases t with
    | main =>
      simp only at hs
      cases hq : s.todo with
      | nil => simp [hq] at hs
      | cons v rest =>
        simp only [hq, Option.some.injEq] at hs
        subst hs
        have hlp : (({ s with todo := rest } : Sys W n).goto .main (.lockW v)).pc .loop = s.pc .loop :=
          goto_other _ _ (by decide)
        have hmp : (({ s with todo := rest } : Sys W n).goto .main (.lockW v)).pc .main = .lockW v :=
          goto_same _ _ _
        constructor
        · intro u
          cases u with
          | main => rw [hmp]; simpa [Pc.critical, Sys.goto] using ht0
          | loop => rw [hlp]; exact hown .loop
        · rw [hlp]; exact hloop
        · intro _; exact hmem (by simp [hp])
        · intro w i hw; rw [hmp] at hw; cases hw
        · intro u b hb
          cases u with
          | main => rw [hmp] at hb; cases hb
          | loop => rw [hlp] at hb; exact hbuf .loop b hb
        · exact hsent
        · intro hpp
          rcases hpend hpp with h1 | ⟨b, h1⟩ <;> rw [hp] at h1 <;> cases h1
        · exact heach
    | loop =>
      simp only [Option.some.injEq] at hs
      subst hs
      have hmp : (s.goto .loop .lockP).pc .main = s.pc .main := goto_other _ _ (by decide)
      have hlp : (s.goto .loop .lockP).pc .loop = .lockP := goto_same _ _ _
      constructor
      · intro u
        cases u with
        | main => rw [hmp]; exact hown .main
        | loop => rw [hlp]; simpa [Pc.critical, Sys.goto] using ht0
      · rw [hlp]; simp
      · rw [hmp]; exact hmem
      · rw [hmp]; exact hpart
      · intro u b hb
        cases u with
        | main => rw [hmp] at hb; exact hbuf .main b hb
        | loop => rw [hlp] at hb; cases hb
      · exact hsent
      · rw [hmp]; exact hpend
      · exact heach
  | lockW v =>
    simp only [hp] at hs
    have htm : t = .main := by
      cases t with
      | main => rfl
      | loop => exact absurd hp (hloop.1 v)
    subst htm
    by_cases ho : s.owner = none
    · rw [if_pos ho] at hs
      injection hs with hs
      subst hs
      have hlp : (({ s with owner := some .main } : Sys W n).goto .main (.write v 0)).pc .loop = s.pc .loop :=
        goto_other _ _ (by decide)
      have hmp : (({ s with owner := some .main } : Sys W n).goto .main (.write v 0)).pc .main = .write v 0 :=
        goto_same _ _ _
      have hlc : (s.pc .loop).critical = false := by
        cases hc : (s.pc .loop).critical with
        | false => rfl
        | true => have := (hown .loop).2 hc; rw [ho] at this; cases this
      constructor
      · intro u
        cases u with
        | main => rw [hmp]; simp [Pc.critical, Sys.goto]
        | loop => rw [hlp, hlc]; simp [Sys.goto]
      · rw [hlp]; exact hloop
      · intro hne; rw [hmp] at hne; exact absurd rfl (hne v 0)
      · intro w i hw
        rw [hmp] at hw
        injection hw with h1 h2
        subst h2
        exact ⟨Nat.zero_le _, fun j hj => absurd hj (Nat.not_lt_zero _)⟩
      · intro u b hb
        cases u with
        | main => rw [hmp] at hb; cases hb
        | loop => rw [hlp] at hb; exact hbuf .loop b hb
      · exact hsent
      · intro hpp
        rcases hpend hpp with h1 | ⟨b, h1⟩ <;> rw [hp] at h1 <;> cases h1
      · exact heach
    · rw [if_neg ho] at hs; cases hs
  | write v i =>
    simp only [hp] at hs
    have htm : t = .main := by
      cases t with
      | main => rfl
      | loop => exact absurd hp (hloop.2 v i)
    subst htm
    have ho : s.owner = some .main := (hown .main).2 (by rw [hp]; rfl)
    have hlc := hother .loop (by decide) ho
    have hlr : ∀ b, s.pc .loop ≠ .read b := by intro b hb; rw [hb] at hlc; cases hlc
    by_cases hi : i < n
    · rw [dif_pos hi] at hs
      injection hs with hs
      subst hs
      have hlp : (({ s with mem := Function.update s.mem ⟨i, hi⟩ (v ⟨i, hi⟩) } : Sys W n).goto .main
          (.write v (i + 1))).pc .loop = s.pc .loop := goto_other _ _ (by decide)
      have hmp : (({ s with mem := Function.update s.mem ⟨i, hi⟩ (v ⟨i, hi⟩) } : Sys W n).goto .main
          (.write v (i + 1))).pc .main = .write v (i + 1) := goto_same _ _ _
      constructor
      · intro u
        cases u with
        | main => rw [hmp]; simpa [Pc.critical, Sys.goto] using ho
        | loop => rw [hlp]; exact hown .loop
      · rw [hlp]; exact hloop
      · intro hne; rw [hmp] at hne; exact absurd rfl (hne v (i + 1))
      · intro w k hw
        rw [hmp] at hw
        injection hw with h1 h2
        subst h1 h2
        refine ⟨hi, fun j hj => ?_⟩
        have hpj := (hpart v i hp).2
        show Function.update s.mem ⟨i, hi⟩ (v ⟨i, hi⟩) j = v j
        by_cases e : j = ⟨i, hi⟩
        · subst e; simp
        · rw [Function.update_of_ne e]
          refine hpj j ?_
          have : j.val ≠ i := fun e' => e (Fin.ext e')
          omega
      · intro u b hb
        cases u with
        | main => rw [hmp] at hb; cases hb
        | loop => rw [hlp] at hb; exact absurd hb (hlr b)
      · exact hsent
      · intro hpp
        rcases hpend hpp with h1 | ⟨b, h1⟩ <;> rw [hp] at h1 <;> cases h1
      · exact heach
    · rw [dif_neg hi] at hs
      injection hs with hs
      subst hs
      have hlp : (({ s with owner := none, trace := s.trace ++ [Event.stored v] } : Sys W n).goto .main
          .lockP).pc .loop = s.pc .loop := goto_other _ _ (by decide)
      have hmp : (({ s with owner := none, trace := s.trace ++ [Event.stored v] } : Sys W n).goto .main
          .lockP).pc .main = .lockP := goto_same _ _ _
      have hnp : pending s.trace = false := by
        cases hc : pending s.trace with
        | false => rfl
        | true => rcases hpend hc with h1 | ⟨b, h1⟩ <;> rw [hp] at h1 <;> cases h1
      constructor
      · intro u
        cases u with
        | main => rw [hmp]; simp [Pc.critical, Sys.goto]
        | loop => rw [hlp, hlc]; simp [Sys.goto]
      · rw [hlp]; exact hloop
      · intro _
        show s.mem = lastStored init (s.trace ++ [.stored v])
        rw [lastStored_concat]
        funext j
        exact (hpart v i hp).2 j (by omega)
      · intro w k hw; rw [hmp] at hw; cases hw
      · intro u b hb
        cases u with
        | main => rw [hmp] at hb; cases hb
        | loop => rw [hlp] at hb; exact absurd hb (hlr b)
      · intro pre u b post he
        have he0 : s.trace ++ [Event.stored v] = pre ++ Event.sent u b :: post := he
        rcases append_eq_concat he0 with ⟨_, _, h3⟩ | ⟨post', _, h2⟩
        · cases h3
        · exact hsent _ _ _ _ h2
      · intro _; left; exact hmp
      · intro pre w mid x post he
        have he' : s.trace ++ [.stored v] = (pre ++ .stored w :: mid) ++ .stored x :: post := by
          have he0 : s.trace ++ [Event.stored v] = pre ++ .stored w :: (mid ++ .stored x :: post) := he
          rw [he0]; simp
        rcases append_eq_concat he' with ⟨_, h2, _⟩ | ⟨post', _, h2⟩
        · exact pending_sent s.trace pre w mid h2.symm hnp
        · exact heach pre w mid x post' (by rw [h2]; simp)
  | lockP =>
    simp only [hp] at hs
    by_cases ho : s.owner = none
    · rw [if_pos ho] at hs
      injection hs with hs
      subst hs
      have hnc : ∀ u, (s.pc u).critical = false := by
        intro u
        cases hc : (s.pc u).critical with
        | false => rfl
        | true => have := (hown u).2 hc; rw [ho] at this; cases this
      have htp : (({ s with owner := some t } : Sys W n).goto t (.read [])).pc t = .read [] := goto_same _ _ _
      have hup : ∀ u, u ≠ t → (({ s with owner := some t } : Sys W n).goto t (.read [])).pc u = s.pc u :=
        fun u hu => goto_other _ _ hu
      constructor
      · intro u
        by_cases hu : u = t
        · subst hu; rw [htp]; simp [Pc.critical, Sys.goto]
        · rw [hup u hu, hnc u]; simp [Sys.goto, Ne.symm hu]
      · by_cases hu : Thread.loop = t
        · subst hu; rw [htp]; simp
        · rw [hup _ hu]; exact hloop
      · intro hne
        refine hmem fun v i hvi => ?_
        have := hnc .main
        rw [hvi] at this; cases this
      · intro v i hvi
        by_cases hu : Thread.main = t
        · subst hu; rw [htp] at hvi; cases hvi
        · rw [hup _ hu] at hvi; exact hpart v i hvi
      · intro u b hb
        by_cases hu : u = t
        · subst hu
          rw [htp] at hb
          injection hb with hb
          subst hb
          simp
        · rw [hup u hu] at hb; exact hbuf u b hb
      · exact hsent
      · intro hpp
        by_cases hu : Thread.main = t
        · subst hu; right; exact ⟨[], htp⟩
        · rw [hup _ hu]; exact hpend hpp
      · exact heach
    · rw [if_neg ho] at hs; cases hs
  | read buf =>
    simp only [hp] at hs
    have ho : s.owner = some t := (hown t).2 (by rw [hp]; rfl)
    have hb0 := hbuf t buf hp
    have hnw : ∀ v i, s.pc .main ≠ .write v i := by
      intro v i hvi
      by_cases hu : Thread.main = t
      · subst hu; rw [hp] at hvi; cases hvi
      · have := hother .main hu ho; rw [hvi] at this; cases this
    by_cases hl : buf.length < n
    · rw [dif_pos hl] at hs
      injection hs with hs
      subst hs
      have htp : (s.goto t (.read (buf ++ [s.mem ⟨buf.length, hl⟩]))).pc t =
          .read (buf ++ [s.mem ⟨buf.length, hl⟩]) := goto_same _ _ _
      have hup : ∀ u, u ≠ t → (s.goto t (.read (buf ++ [s.mem ⟨buf.length, hl⟩]))).pc u = s.pc u :=
        fun u hu => goto_other _ _ hu
      constructor
      · intro u
        by_cases hu : u = t
        · subst hu; rw [htp]; simpa [Pc.critical, Sys.goto] using ho
        · rw [hup u hu]; exact hown u
      · by_cases hu : Thread.loop = t
        · subst hu; rw [htp]; simp
        · rw [hup _ hu]; exact hloop
      · intro _; exact hmem hnw
      · intro v i hvi
        by_cases hu : Thread.main = t
        · subst hu; rw [htp] at hvi; cases hvi
        · rw [hup _ hu] at hvi; exact hpart v i hvi
      · intro u b hb
        by_cases hu : u = t
        · subst hu
          rw [htp] at hb
          injection hb with hb
          subst hb
          refine ⟨by simp; omega, ?_⟩
          show buf ++ [s.mem ⟨buf.length, hl⟩] = (List.ofFn s.mem).take _
          rw [List.length_append, List.length_singleton, List.take_succ, ← hb0.2]
          congr 1
          rw [List.getElem?_ofFn, dif_pos hl]
          rfl
        · rw [hup u hu] at hb; exact hbuf u b hb
      · exact hsent
      · intro hpp
        by_cases hu : Thread.main = t
        · subst hu; right; exact ⟨_, htp⟩
        · rw [hup _ hu]; exact hpend hpp
      · exact heach
    · rw [dif_neg hl] at hs
      injection hs with hs
      subst hs
      have hfull : buf = List.ofFn (lastStored init s.trace) := by
        rw [← hmem hnw]
        have h1 := hb0.2
        have h2 : buf.length = n := le_antisymm hb0.1 (not_lt.1 hl)
        rw [h2, List.take_of_length_le (by simp)] at h1
        exact h1
      have htp : (({ s with trace := s.trace ++ [Event.sent t buf] } : Sys W n).goto t .unlockP).pc t = .unlockP :=
        goto_same _ _ _
      have hup : ∀ u, u ≠ t → (({ s with trace := s.trace ++ [Event.sent t buf] } : Sys W n).goto t .unlockP).pc u =
          s.pc u := fun u hu => goto_other _ _ hu
      constructor
      · intro u
        by_cases hu : u = t
        · subst hu; rw [htp]; simpa [Pc.critical, Sys.goto] using ho
        · rw [hup u hu]; exact hown u
      · by_cases hu : Thread.loop = t
        · subst hu; rw [htp]; simp
        · rw [hup _ hu]; exact hloop
      · intro _
        show s.mem = lastStored init (s.trace ++ [.sent t buf])
        rw [lastStored_concat]; exact hmem hnw
      · intro v i hvi
        by_cases hu : Thread.main = t
        · subst hu; rw [htp] at hvi; cases hvi
        · rw [hup _ hu] at hvi; exact hpart v i hvi
      · intro u b hb
        by_cases hu : u = t
        · subst hu; rw [htp] at hb; cases hb
        · rw [hup u hu] at hb; exact hbuf u b hb
      · intro pre u b post he
        have he0 : s.trace ++ [Event.sent t buf] = pre ++ Event.sent u b :: post := he
        rcases append_eq_concat he0 with ⟨_, h2, h3⟩ | ⟨post', _, h2⟩
        · injection h3 with _ h4
          rw [h2, ← h4]; exact hfull
        · exact hsent _ _ _ _ h2
      · intro hpp
        have hpp' : pending (s.trace ++ [.sent t buf]) = true := hpp
        rw [pending_concat] at hpp'
        cases t with
        | main => simp at hpp'
        | loop =>
          rw [hup .main (by decide)]
          exact hpend hpp'
      · intro pre w mid x post he
        have he' : s.trace ++ [.sent t buf] = (pre ++ .stored w :: mid) ++ .stored x :: post := by
          have he0 : s.trace ++ [Event.sent t buf] = pre ++ .stored w :: (mid ++ .stored x :: post) := he
          rw [he0]; simp
        rcases append_eq_concat he' with ⟨_, _, h3⟩ | ⟨post', _, h2⟩
        · cases h3
        · exact heach pre w mid x post' (by rw [h2]; simp)
  | unlockP =>
    simp only [hp, Option.some.injEq] at hs
    subst hs
    have ho : s.owner = some t := (hown t).2 (by rw [hp]; rfl)
    have htp : (({ s with owner := none } : Sys W n).goto t .idle).pc t = .idle := goto_same _ _ _
    have hup : ∀ u, u ≠ t → (({ s with owner := none } : Sys W n).goto t .idle).pc u = s.pc u :=
      fun u hu => goto_other _ _ hu
    have hnw : ∀ v i, s.pc .main ≠ .write v i := by
      intro v i hvi
      by_cases hu : Thread.main = t
      · subst hu; rw [hp] at hvi; cases hvi
      · have := hother .main hu ho; rw [hvi] at this; cases this
    constructor
    · intro u
      by_cases hu : u = t
      · subst hu; rw [htp]; simp [Pc.critical, Sys.goto]
      · rw [hup u hu, hother u hu ho]; simp [Sys.goto]
    · by_cases hu : Thread.loop = t
      · subst hu; rw [htp]; simp
      · rw [hup _ hu]; exact hloop
    · intro _; exact hmem hnw
    · intro v i hvi
      by_cases hu : Thread.main = t
      · subst hu; rw [htp] at hvi; cases hvi
      · rw [hup _ hu] at hvi; exact hpart v i hvi
    · intro u b hb
      by_cases hu : u = t
      · subst hu; rw [htp] at hb; cases hb
      · rw [hup u hu] at hb; exact hbuf u b hb
    · exact hsent
    · intro hpp
      by_cases hu : Thread.main = t
      · subst hu
        rcases hpend hpp with h1 | ⟨b, h1⟩ <;> rw [hp] at h1 <;> cases h1
      · rw [hup _ hu]; exact hpend hpp
    · exact heach

theorem Reach.inv {init : Fin n → W} {todo : List (Fin n → W)} {s : Sys W n} (h : Reach init todo s) :
    Inv init s := by
  induction h with
  | start => exact Inv.start init todo
  | step t _ hs ih => exact ih.step t hs

/-! ## Theorems -/

/-- **No torn or outdated transform is sent (C48)**: in every interleaving, what any thread sends is, word for word,
the transform stored last before (the initial one if there is none). -/
theorem sent_is_latest (init : Fin n → W) (todo : List (Fin n → W)) (s : Sys W n) (h : Reach init todo s)
    (pre : List (Event W n)) (t : Thread) (b : List W) (post : List (Event W n))
    (he : s.trace = pre ++ .sent t b :: post) : b = List.ofFn (lastStored init pre) :=
  h.inv.sent pre t b post he

/-- **The sequence of sent transforms never goes back (C48)**: there are numbers, non-decreasing in the order of
sending, such that each transform sent is the one of its number among the initial one and those stored, in the order
of the poses. -/
theorem sent_never_goes_back (init : Fin n → W) (todo : List (Fin n → W)) (s : Sys W n) (h : Reach init todo s) :
    ∃ ks : List Nat, ks.Pairwise (· ≤ ·) ∧ (∀ k ∈ ks, k ≤ (storedOf s.trace).length) ∧
      sentOf s.trace = ks.map fun k => List.ofFn ((init :: storedOf s.trace).getD k init) := by
  have hs := h.inv.sent
  generalize s.trace = tr at hs
  induction tr using List.reverseRecOn with
  | nil => exact ⟨[], by simp, by simp, by simp [sentOf]⟩
  | append_singleton tr e ih =>
    have hs' : ∀ pre t b post, tr = pre ++ .sent t b :: post → b = List.ofFn (lastStored init pre) := by
      intro pre t b post he
      exact hs pre t b (post ++ [e]) (by rw [he]; simp)
    obtain ⟨ks, h1, h2, h3⟩ := ih hs'
    cases e with
    | stored v =>
      have e1 : storedOf (tr ++ [.stored v]) = storedOf tr ++ [v] := by simp [storedOf]
      have e2 : sentOf (tr ++ [.stored v]) = sentOf tr := by simp [sentOf]
      refine ⟨ks, h1, fun k hk => ?_, ?_⟩
      · rw [e1]; have := h2 k hk; simp; omega
      · rw [e1, e2, h3]
        apply List.map_congr_left
        intro k hk
        have hk' := h2 k hk
        rw [← List.cons_append, List.getD_eq_getElem?_getD, List.getD_eq_getElem?_getD,
          List.getElem?_append_left (by simp; omega)]
    | sent t b =>
      have e1 : storedOf (tr ++ [.sent t b]) = storedOf tr := by simp [storedOf]
      have e2 : sentOf (tr ++ [.sent t b]) = sentOf tr ++ [b] := by simp [sentOf]
      have hb := hs tr t b [] rfl
      have hlast : ∀ (tr : List (Event W n)) (i : Fin n → W),
          lastStored i tr = (i :: storedOf tr).getD (storedOf tr).length init := by
        intro tr
        induction tr with
        | nil => intro i; rfl
        | cons e tr ih =>
          intro i
          cases e with
          | stored v =>
            have : lastStored i (.stored v :: tr) = lastStored v tr := rfl
            rw [this, ih v]
            simp [storedOf]
          | sent t b =>
            have : lastStored i (.sent t b :: tr) = lastStored i tr := rfl
            rw [this, ih i]
            simp [storedOf]
      refine ⟨ks ++ [(storedOf tr).length], ?_, ?_, ?_⟩
      · rw [List.pairwise_append]
        refine ⟨h1, by simp, fun k hk m hm => ?_⟩
        rw [List.mem_singleton] at hm
        rw [hm]; exact h2 k hk
      · intro k hk
        rw [e1]
        rcases List.mem_append.1 hk with hk | hk
        · exact h2 k hk
        · rw [List.mem_singleton] at hk; omega
      · rw [e1, e2, h3, List.map_append, hb, hlast tr init]
        rfl

/-- **The stored transforms are those of the poses, in order (C48).** -/
theorem stored_in_order (init : Fin n → W) (todo : List (Fin n → W)) (s : Sys W n) (h : Reach init todo s) :
    todo = storedOf s.trace ++ (match s.pc .main with | .lockW v => [v] | .write v _ => [v] | _ => []) ++ s.todo := by
  induction h with
  | start => simp [Sys.start, storedOf]
  | @step s s' t hr hs ih =>
    have hl := hr.inv.loopPc
    unfold Sys.step at hs
    cases hp : s.pc t with
    | idle =>
      simp only [hp] at hs
      cases t with
      | main =>
        simp only at hs
        cases hq : s.todo with
        | nil => simp [hq] at hs
        | cons v rest =>
          simp only [hq, Option.some.injEq] at hs
          subst hs
          rw [goto_same, ih, hp, hq]
          simp [Sys.goto]
      | loop =>
        simp only [Option.some.injEq] at hs
        subst hs
        rw [goto_other _ _ (by decide), ih]; rfl
    | lockW v =>
      simp only [hp] at hs
      cases t with
      | loop => exact absurd hp (hl.1 v)
      | main =>
        by_cases ho : s.owner = none
        · rw [if_pos ho] at hs
          injection hs with hs
          subst hs
          rw [goto_same, ih, hp]; rfl
        · rw [if_neg ho] at hs; cases hs
    | write v i =>
      simp only [hp] at hs
      cases t with
      | loop => exact absurd hp (hl.2 v i)
      | main =>
        by_cases hi : i < n
        · rw [dif_pos hi] at hs
          injection hs with hs
          subst hs
          rw [goto_same, ih, hp]; rfl
        · rw [dif_neg hi] at hs
          injection hs with hs
          subst hs
          rw [goto_same, ih, hp]
          simp [Sys.goto, storedOf]
    | lockP =>
      simp only [hp] at hs
      by_cases ho : s.owner = none
      · rw [if_pos ho] at hs
        injection hs with hs
        subst hs
        cases t with
        | main => rw [goto_same, ih, hp]; rfl
        | loop => rw [goto_other _ _ (by decide), ih]; rfl
      · rw [if_neg ho] at hs; cases hs
    | read buf =>
      simp only [hp] at hs
      by_cases hi : buf.length < n
      · rw [dif_pos hi] at hs
        injection hs with hs
        subst hs
        cases t with
        | main => rw [goto_same, ih, hp]; rfl
        | loop => rw [goto_other _ _ (by decide), ih]; rfl
      · rw [dif_neg hi] at hs
        injection hs with hs
        subst hs
        cases t with
        | main => rw [goto_same, ih, hp]; simp [Sys.goto, storedOf]
        | loop => rw [goto_other _ _ (by decide), ih]; simp [Sys.goto, storedOf]
    | unlockP =>
      simp only [hp, Option.some.injEq] at hs
      subst hs
      cases t with
      | main => rw [goto_same, ih, hp]; rfl
      | loop => rw [goto_other _ _ (by decide), ih]; rfl

/-- **Every estimated transform is sent (C48)** before the next one is stored, and before the callback returns: if the
main thread is outside of the publisher, each stored transform has been sent after it was stored and before the next
was. -/
theorem every_stored_is_sent (init : Fin n → W) (todo : List (Fin n → W)) (s : Sys W n) (h : Reach init todo s)
    (hidle : s.pc .main = .idle) (pre : List (Event W n)) (v : Fin n → W) (post : List (Event W n))
    (he : s.trace = pre ++ .stored v :: post) :
    ∃ mid post' t, post = mid ++ .sent t (List.ofFn v) :: post' ∧ storedOf mid = [] := by
  have hinv := h.inv
  have hnp : pending s.trace = false := by
    cases hc : pending s.trace with
    | false => rfl
    | true => rcases hinv.pend hc with h1 | ⟨b, h1⟩ <;> rw [hidle] at h1 <;> cases h1
  obtain ⟨b0, hb0⟩ := pending_sent s.trace pre v post he hnp
  -- the first event after the store is a sending
  cases post with
  | nil => simp at hb0
  | cons e post' =>
    cases e with
    | stored w =>
      obtain ⟨b, hb⟩ := hinv.each pre v [] w post' he
      simp at hb
    | sent t b =>
      refine ⟨[], post', t, ?_, rfl⟩
      have := hinv.sent (pre ++ [.stored v]) t b post' (by rw [he]; simp)
      rw [lastStored_concat] at this
      rw [this]; rfl

/-- **No deadlock (C48)**: in every reachable state a thread can go on, whichever holds the mutex. -/
theorem no_deadlock (init : Fin n → W) (todo : List (Fin n → W)) (s : Sys W n) (h : Reach init todo s) :
    (∃ s', s.step .loop = some s') ∨ ∃ s', s.step .main = some s' := by
  have hinv := h.inv
  have crit : ∀ t, (s.pc t).critical = true → ∃ s', s.step t = some s' := by
    intro t ht
    unfold Sys.step
    cases hp : s.pc t with
    | idle => rw [hp] at ht; cases ht
    | lockW v => rw [hp] at ht; cases ht
    | lockP => rw [hp] at ht; cases ht
    | write v i =>
      simp only
      by_cases hi : i < n
      · rw [dif_pos hi]; exact ⟨_, rfl⟩
      · rw [dif_neg hi]; exact ⟨_, rfl⟩
    | read b =>
      simp only
      by_cases hi : b.length < n
      · rw [dif_pos hi]; exact ⟨_, rfl⟩
      · rw [dif_neg hi]; exact ⟨_, rfl⟩
    | unlockP => exact ⟨_, rfl⟩
  cases ho : s.owner with
  | some t =>
    have := crit t ((hinv.own t).1 ho)
    cases t with
    | main => exact .inr this
    | loop => exact .inl this
  | none =>
    left
    cases hp : s.pc .loop with
    | idle => exact ⟨_, by simp only [Sys.step, hp]; rfl⟩
    | lockW v => exact absurd hp (hinv.loopPc.1 v)
    | write v i => exact absurd hp (hinv.loopPc.2 v i)
    | lockP => exact ⟨_, by simp only [Sys.step, hp, if_pos ho]; rfl⟩
    | read b => have := (hinv.own .loop).2 (by rw [hp]; rfl); rw [ho] at this; cases this
    | unlockP => have := (hinv.own .loop).2 (by rw [hp]; rfl); rw [ho] at this; cases this

/-! ## Non-vacuity -/

/-- Runs a schedule; a thread that can not go on is passed over. -/
def runSchedule (s : Sys W n) (sched : List Thread) : Sys W n := sched.foldl (fun s t => (s.step t).getD s) s

theorem runSchedule_reach {init : Fin n → W} {todo : List (Fin n → W)} (sched : List Thread) (s : Sys W n)
    (h : Reach init todo s) : Reach init todo (runSchedule s sched) := by
  induction sched generalizing s with
  | nil => exact h
  | cons t sched ih =>
    refine ih _ ?_
    show Reach init todo ((s.step t).getD s)
    cases hs : s.step t with
    | none => exact h
    | some s' => exact .step t h hs

/-- Two words; the loop comes while the main thread is writing and sends after it, once before and once after the main
thread's own sending. -/
example : sentOf (runSchedule (Sys.start (fun _ : Fin 2 => 0) [fun _ => 7])
    [.loop, .main, .main, .main, .loop, .main, .main, .loop, .loop, .main, .loop, .loop, .loop, .main, .main, .main,
      .main]).trace = [[7, 7], [7, 7]] := by decide

end Slam.Pub
