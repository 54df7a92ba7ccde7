import Verif.Random.Particles

/-!
# Copies made by resampling draw alike (C102)
-/

set_option autoImplicit false
set_option linter.unusedSectionVars false

namespace Slam.Random
open Slam.Poses (Delta Pose)
open Slam.Particle (World rebuild setObj)

variable {E : Type} {N : Engine E}

/-! ## Specification -/

/-- Object `j` of the filter, with its random part. -/
def SFilter.particle (s : SFilter E) (j : Nat) : RWorld E := ⟨s.filter.heap j, s.rng j⟩

/-- The two particles draw alike: whatever happens to each of them until the filter resamples the next time, at their `k`-th
matching they are moved by the same noise and draw the same step. -/
def DrawAlike (N : Engine E) (a b : RWorld E) : Prop :=
  ∀ (sn cs : ℝ → ℝ) (da db : List Happening) (ra rb : RWorld E × List Draw), a.follow N sn cs da = some ra → b.follow N sn cs db = some rb →
    ∀ (k : Nat) (x y : Draw), ra.2[k]? = some x → rb.2[k]? = some y → x = y

/-- The indices the resampler chooses. -/
noncomputable def SFilter.chosen (N : Engine E) (s : SFilter E) (e : E) : List Nat :=
  Particle.resampleIndices s.filter.weights (uniformDraws N e s.filter.ids.length)

/-! ## Proofs -/

theorem rebuild_frame (ids : List Nat) (is : List Nat) : ∀ (seen out : List Nat) (h : Nat → World ℝ) (g : Nat → Rng E) (next : Nat)
    {out' : List Nat} {h' : Nat → World ℝ} {next' : Nat}, rebuild ids is seen out h next = some (out', h', next') →
    (∀ x < next, h' x = h x ∧ rebuildRng ids is seen g next x = g x) ∧ out <+: out' := by
  induction is with
  | nil =>
    intro seen out h g next out' h' next' hr
    simp only [rebuild, Option.some.injEq, Prod.mk.injEq] at hr
    obtain ⟨rfl, rfl, rfl⟩ := hr
    exact ⟨fun x _ => ⟨rfl, rfl⟩, List.prefix_rfl⟩
  | cons i is ih =>
    intro seen out h g next out' h' next' hr
    simp only [rebuild] at hr
    cases hi : ids[i]? with
    | none => rw [hi] at hr; cases hr
    | some y =>
      simp only [hi] at hr
      simp only [rebuildRng, hi]
      by_cases hs : seen.contains i = true
      · simp only [hs, if_true] at hr ⊢
        obtain ⟨h1, h2⟩ := ih seen _ _ (fun j => if j = next then (g y).copy else g j) (next + 1) hr
        refine ⟨fun x hx => ?_, (List.prefix_append _ _).trans h2⟩
        obtain ⟨a, b⟩ := h1 x (by omega)
        rw [a, b]
        simp only [setObj, if_neg hx.ne, and_self]
      · rw [Bool.not_eq_true] at hs
        simp only [hs, Bool.false_eq_true, if_false] at hr ⊢
        obtain ⟨h1, h2⟩ := ih (i :: seen) _ _ g next hr
        exact ⟨h1, (List.prefix_append _ _).trans h2⟩

/-- Where the particles after `try_resample` come from: the first one chosen of an index is the particle itself; every other one is new,
with the state of that particle and a copy of its random part. -/
theorem rebuild_copies (ids : List Nat) (n0 : Nat) (hlt : ∀ x ∈ ids, x < n0) (h0 : Nat → World ℝ) (g0 : Nat → Rng E) (is : List Nat) :
    ∀ (seen out : List Nat) (h : Nat → World ℝ) (g : Nat → Rng E) (next : Nat)
    {out' : List Nat} {h' : Nat → World ℝ} {next' : Nat}, n0 ≤ next → (∀ x < n0, h x = h0 x ∧ g x = g0 x) →
    rebuild ids is seen out h next = some (out', h', next') →
    ∀ (k i : Nat), is[k]? = some i → ∃ y j, ids[i]? = some y ∧ out'[out.length + k]? = some j ∧
      (i ∈ seen ∨ i ∈ is.take k → n0 ≤ j ∧ h' j = (h0 y).sample ∧ rebuildRng ids is seen g next j = (g0 y).copy) ∧
      (¬ (i ∈ seen ∨ i ∈ is.take k) → j = y) := by
  induction is with
  | nil => intro seen out h g next out' h' next' _ _ _ k i hk; cases hk
  | cons i0 is ih =>
    intro seen out h g next out' h' next' hn hh hr k i hk
    simp only [rebuild] at hr
    cases hi : ids[i0]? with
    | none => rw [hi] at hr; cases hr
    | some y =>
      have hy : y < n0 := hlt y (List.mem_of_getElem? hi)
      simp only [hi] at hr
      simp only [rebuildRng, hi]
      by_cases hs : seen.contains i0 = true
      · simp only [hs, if_true] at hr ⊢
        obtain ⟨f1, t, f2⟩ := rebuild_frame ids is seen _ _ (fun j => if j = next then (g y).copy else g j) (next + 1) hr
        cases k with
        | zero =>
          rw [List.getElem?_cons_zero, Option.some.injEq] at hk
          subst hk
          refine ⟨y, next, hi, ?_, ?_, ?_⟩
          · rw [← f2]
            simp
          · intro _
            obtain ⟨a, b⟩ := f1 next (by omega)
            rw [a, b]
            simp only [setObj, if_true, (hh y hy).1, (hh y hy).2, hn, and_self]
          · intro hc
            exact absurd (Or.inl (by simpa using hs)) hc
        | succ k =>
          rw [List.getElem?_cons_succ] at hk
          obtain ⟨y', j, e1, e2, e3, e4⟩ := ih seen (out ++ [next]) _ (fun j => if j = next then (g y).copy else g j) (next + 1) (by omega) (by
            intro x hx
            have : x ≠ next := by omega
            simp only [setObj, if_neg this]
            exact hh x hx) hr k i hk
          have hsm : i0 ∈ seen := by simpa using hs
          have hiff : (i ∈ seen ∨ i ∈ (i0 :: is).take (k + 1)) ↔ (i ∈ seen ∨ i ∈ is.take k) := by
            rw [List.take_succ_cons, List.mem_cons]
            constructor
            · rintro (h | rfl | h)
              · exact .inl h
              · exact .inl hsm
              · exact .inr h
            · rintro (h | h)
              · exact .inl h
              · exact .inr (.inr h)
          rw [hiff]
          refine ⟨y', j, e1, ?_, e3, e4⟩
          rw [List.length_append, List.length_singleton] at e2
          rw [← e2]
          congr 1
          omega
      · rw [Bool.not_eq_true] at hs
        simp only [hs, Bool.false_eq_true, if_false] at hr ⊢
        obtain ⟨f1, t, f2⟩ := rebuild_frame ids is (i0 :: seen) _ _ g next hr
        have hsm : i0 ∉ seen := by
          intro hc
          rw [← List.contains_iff_mem, hs] at hc
          cases hc
        cases k with
        | zero =>
          rw [List.getElem?_cons_zero, Option.some.injEq] at hk
          subst hk
          refine ⟨y, y, hi, ?_, ?_, fun _ => rfl⟩
          · rw [← f2]
            simp
          · rintro (h | h)
            · exact absurd h hsm
            · simp at h
        | succ k =>
          rw [List.getElem?_cons_succ] at hk
          obtain ⟨y', j, e1, e2, e3, e4⟩ := ih (i0 :: seen) (out ++ [y]) _ g next hn hh hr k i hk
          have hiff : (i ∈ seen ∨ i ∈ (i0 :: is).take (k + 1)) ↔ (i ∈ i0 :: seen ∨ i ∈ is.take k) := by
            rw [List.take_succ_cons, List.mem_cons, List.mem_cons]
            tauto
          rw [hiff]
          refine ⟨y', j, e1, ?_, e3, e4⟩
          rw [List.length_append, List.length_singleton] at e2
          rw [← e2]
          congr 1
          omega

theorem sameState_refl (a : World ℝ) : Particle.SameState a a := ⟨rfl, rfl, rfl, rfl, rfl, rfl, rfl⟩

theorem sameState_trans {a b c : World ℝ} (h : Particle.SameState a b) (h' : Particle.SameState b c) : Particle.SameState a c :=
  ⟨h.1.trans h'.1, h.2.1.trans h'.2.1, h.2.2.1.trans h'.2.2.1, h.2.2.2.1.trans h'.2.2.2.1, h.2.2.2.2.1.trans h'.2.2.2.2.1,
    h.2.2.2.2.2.1.trans h'.2.2.2.2.2.1, h.2.2.2.2.2.2.trans h'.2.2.2.2.2.2⟩

theorem forEach_same {g : World ℝ → World ℝ} (hg : ∀ w, Particle.SameState w (g w)) (ids : List Nat) : ∀ (h : Nat → World ℝ) (j : Nat),
    Particle.SameState (h j) (Particle.forEach g h ids j) := by
  induction ids with
  | nil => intro h j; exact sameState_refl _
  | cons i ids ih =>
    intro h j
    refine sameState_trans ?_ (ih (setObj h i (g (h i))) j)
    unfold setObj
    by_cases hj : j = i
    · rw [if_pos hj, hj]; exact hg _
    · rw [if_neg hj]; exact sameState_refl _

/-- **Where the particles come from after resampling (C102)**: of an index that is chosen several times the first one is the particle
itself; each further one is a new object with the same state, the same engine, and clones of the random variables. -/
theorem resampled_from {s s' : SFilter E} {e : E} (hlt : ∀ x ∈ s.filter.ids, x < s.filter.next)
    (h : s.tryResample N e = some (true, s')) (k i : Nat) (hk : (s.chosen N e)[k]? = some i) :
    ∃ y j, s.filter.ids[i]? = some y ∧ s'.filter.ids[k]? = some j ∧ Particle.SameState (s.filter.heap y) (s'.filter.heap j) ∧
      (i ∉ (s.chosen N e).take k → j = y ∧ s'.rng j = s.rng y) ∧
      (i ∈ (s.chosen N e).take k → j ∉ s.filter.ids ∧ s'.rng j = (s.rng y).copy) := by
  simp only [SFilter.tryResample, Option.map_eq_some_iff, Prod.mk.injEq, Particle.Filter.tryResample] at h
  obtain ⟨r, hr, hr1, rfl⟩ := h
  by_cases hreq : Particle.resamplingRequired s.filter.weights = true
  · simp only [hreq, Bool.not_true, Bool.false_eq_true, if_false, Option.map_eq_some_iff] at hr
    obtain ⟨⟨ids, hp, next⟩, hre, rfl⟩ := hr
    have e0 : s.chosen N e = Particle.resampleIndices s.filter.weights (uniformDraws N e s.filter.ids.length) := rfl
    rw [← e0] at hre
    obtain ⟨y, j, c1, c2, c3, c4⟩ := rebuild_copies s.filter.ids s.filter.next hlt s.filter.heap s.rng (s.chosen N e) [] []
      s.filter.heap s.rng s.filter.next le_rfl (fun x _ => ⟨rfl, rfl⟩) hre k i hk
    obtain ⟨f1, -⟩ := rebuild_frame s.filter.ids (s.chosen N e) [] [] s.filter.heap s.rng s.filter.next hre
    simp only [List.length_nil, Nat.zero_add] at c2
    simp only [List.not_mem_nil, false_or] at c3 c4
    have hnorm : ∀ j, Particle.SameState (hp j)
        (({ s.filter with ids := ids, heap := hp, next := next } : Particle.Filter ℝ).normalize.heap j) :=
      fun j => by
        simp only [Particle.Filter.normalize]
        apply forEach_same
        intro w
        exact ⟨rfl, rfl, rfl, rfl, rfl, rfl, rfl⟩
    have hyn : y < s.filter.next := hlt y (List.mem_of_getElem? c1)
    refine ⟨y, j, c1, c2, ?_, ?_, ?_⟩
    · refine sameState_trans ?_ (hnorm j)
      by_cases hm : i ∈ (s.chosen N e).take k
      · rw [(c3 hm).2.1]
        exact ⟨rfl, rfl, rfl, rfl, rfl, rfl, rfl⟩
      · rw [c4 hm, (f1 y hyn).1]
        exact sameState_refl _
    · intro hm
      refine ⟨c4 hm, ?_⟩
      rw [c4 hm]
      simp only [if_true]
      exact (f1 y hyn).2
    · intro hm
      obtain ⟨d1, -, d3⟩ := c3 hm
      refine ⟨fun hc => ?_, ?_⟩
      · have := hlt j hc
        omega
      · simp only [if_true]
        exact d3
  · rw [Bool.not_eq_true] at hreq
    simp only [hreq, Bool.not_false, if_true, Option.some.injEq] at hr
    subst hr
    cases hr1

theorem Rng.copy_fresh {g : Rng E} (h1 : g.guess.Fresh) (h2 : g.step.Fresh) : g.copy = g := by
  cases g
  simp only [Rng.copy, DeltaRV.clone_of_fresh h1, DeltaRV.clone_of_fresh h2]

/-- **The copies of a particle draw the same noise (C102).** After resampling, let places `k` and `l` hold particles that come from the
same particle. If both are copies, or if the variables of that particle had no saved number, they draw alike: they
do not spread. -/
theorem copies_draw_alike {s s' : SFilter E} {e : E} (hlt : ∀ x ∈ s.filter.ids, x < s.filter.next)
    (h : s.tryResample N e = some (true, s')) {k l i y jk jl : Nat} (hk : (s.chosen N e)[k]? = some i) (hl : (s.chosen N e)[l]? = some i)
    (hy : s.filter.ids[i]? = some y) (hjk : s'.filter.ids[k]? = some jk) (hjl : s'.filter.ids[l]? = some jl)
    (hc : (i ∈ (s.chosen N e).take k ∧ i ∈ (s.chosen N e).take l) ∨ ((s.rng y).guess.Fresh ∧ (s.rng y).step.Fresh)) :
    DrawAlike N (s'.particle jk) (s'.particle jl) := by
  obtain ⟨y1, j1, a1, a2, a3, a4, a5⟩ := resampled_from hlt h k i hk
  obtain ⟨y2, j2, b1, b2, b3, b4, b5⟩ := resampled_from hlt h l i hl
  obtain rfl := Option.some.inj (hy.symm.trans a1)
  obtain rfl := Option.some.inj (hy.symm.trans b1)
  obtain rfl := Option.some.inj (hjk.symm.trans a2)
  obtain rfl := Option.some.inj (hjl.symm.trans b2)
  have hsf : (s'.particle jk).world.scanFirst = (s'.particle jl).world.scanFirst := a3.2.1.symm.trans b3.2.1
  have hr : (s'.particle jk).rng = (s'.particle jl).rng := by
    show s'.rng jk = s'.rng jl
    rcases hc with ⟨h1, h2⟩ | ⟨h1, h2⟩
    · rw [(a5 h1).2, (b5 h2).2]
    · have hcp := Rng.copy_fresh h1 h2
      have e1 : s'.rng jk = s.rng y := by
        by_cases hm : i ∈ (s.chosen N e).take k
        · rw [(a5 hm).2, hcp]
        · exact (a4 hm).2
      have e2 : s'.rng jl = s.rng y := by
        by_cases hm : i ∈ (s.chosen N e).take l
        · rw [(b5 hm).2, hcp]
        · exact (b4 hm).2
      rw [e1, e2]
  intro sn cs da db ra rb ha hb
  exact same_rng_draw_alike sn cs hr hsf ha hb

/-! ### When is there a saved number? -/

/-- All three variables have saved a number. -/
def DeltaRV.Full (d : DeltaRV) : Prop := ¬ d.x.Fresh ∧ ¬ d.y.Fresh ∧ ¬ d.theta.Fresh

/-- Three normal variables. -/
def DeltaRV.Normal (d : DeltaRV) : Prop := ∃ m s mt st, (DeltaRV.normal m s mt st).Same d

theorem RV.gaussian_alternates {m s : ℝ} {sv : Option ℝ} {e : E} {r : ℝ × RV × E} (h : (RV.gaussian m s sv).sample N e = some r) :
    ∃ sv', r.2.1 = .gaussian m s sv' ∧ (sv'.isSome ↔ sv = none) := by
  cases sv with
  | some z =>
    simp only [RV.sample, Option.some.injEq] at h
    subst h
    exact ⟨none, rfl, by simp⟩
  | none =>
    simp only [RV.sample, Option.map_eq_some_iff] at h
    obtain ⟨q, -, rfl⟩ := h
    exact ⟨some _, rfl, by simp⟩

/-- **Every second draw leaves no saved number (C102)**: a fresh (newly made or copied) noise variable is full after one noise, and fresh again after
two. -/
theorem guess_alternates {g : Rng E} (hn : g.guess.Normal) {r : Delta ℝ × Rng E} (h : g.drawGuess N = some r) :
    r.2.guess.Normal ∧ (g.guess.Fresh → r.2.guess.Full) ∧ (g.guess.Full → r.2.guess.Fresh) := by
  obtain ⟨e, ⟨x, y, t⟩, st⟩ := g
  obtain ⟨m, s, mt, sd, hx, hy, ht⟩ := hn
  cases x with
  | uniform a b => exact hx.elim
  | gaussian xm xs xv =>
  cases y with
  | uniform a b => exact hy.elim
  | gaussian ym ys yv =>
  cases t with
  | uniform a b => exact ht.elim
  | gaussian tm ts tv =>
    simp only [Rng.drawGuess, DeltaRV.sample, Option.map_eq_some_iff, Option.bind_eq_some_iff] at h
    obtain ⟨q, ⟨a, ha, b, hb, c, hc, rfl⟩, rfl⟩ := h
    obtain ⟨xv', ex, exi⟩ := RV.gaussian_alternates ha
    obtain ⟨yv', ey, eyi⟩ := RV.gaussian_alternates hb
    obtain ⟨tv', et, eti⟩ := RV.gaussian_alternates hc
    simp only [ex, ey, et]
    refine ⟨⟨m, s, mt, sd, hx, hy, ht⟩, ?_, ?_⟩
    · rintro ⟨f1, f2, f3⟩
      cases xv <;> cases yv <;> cases tv <;> simp only [RV.Fresh] at f1 f2 f3
      cases xv' <;> cases yv' <;> cases tv' <;> simp_all [DeltaRV.Full, RV.Fresh]
    · rintro ⟨f1, f2, f3⟩
      cases xv <;> cases yv <;> cases tv <;> simp only [RV.Fresh, not_true_eq_false, not_false_eq_true] at f1 f2 f3
      cases xv' <;> cases yv' <;> cases tv' <;> simp_all [DeltaRV.Fresh, RV.Fresh]

end Slam.Random
