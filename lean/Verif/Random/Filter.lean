import Verif.Random.Copies
import Verif.Particle.Master

/-!
# The particle filter with its generators (C102)
-/

set_option autoImplicit false
set_option linter.unusedSectionVars false

namespace Slam.Random
open Slam.Poses (Delta Pose)
open Slam.Particle (World rebuild setObj)

variable {E : Type} (N : Engine E)

/-! ## Specification -/

/-- The states of the seeded filter: `n` particles with engines made by the environment, the configured variables, and any number of
messages; at each of them the scan matchers answer what they like (a probability is not negative), and the resampler makes its engine. -/
inductive SReach (sn cs : ℝ → ℝ) (guess step : DeltaRV) (n : Nat) : SFilter E → Prop
  | create (engines : List E) (s : SFilter E) (hn : engines.length = n) (hl : ∀ e ∈ engines, Lively N e)
      (h : SFilter.create N guess step engines = some s) : SReach sn cs guess step n s
  | handle (s s' : SFilter E) (hs : SReach sn cs guess step n s) (delta : Delta ℝ) (matcher : Nat → Pose ℝ → Delta ℝ × Option ℝ) (e : E)
      (hm : ∀ i p a, (matcher i p).2 = some a → 0 ≤ a)
      (h : s.handle N sn cs delta matcher e = some s') : SReach sn cs guess step n s'

/-- The random part of a particle is sound: its engine lets rejection loops end; the variables are the configured ones or, for a
particle without noise, zero. -/
structure SoundAt (guess step : DeltaRV) (noisy : Bool) (g : Rng E) : Prop where
  lively : Lively N g.engine
  fits : Fits noisy g
  same : noisy = true → guess.Same g.guess ∧ step.Same g.step

/-- What a particle draws is what its configuration allows, or zero. -/
def Allowed (d : DeltaRV) (v : Delta ℝ) : Prop := d.Within v ∨ v = ⟨0, 0, 0⟩

/-! ## Proofs -/

section
variable {N} {guess step : DeltaRV}

theorem SoundAt.copy {b : Bool} {g : Rng E} (h : SoundAt N guess step b g) : SoundAt N guess step b g.copy := by
  obtain ⟨-, g2, g3⟩ := g.guess.clone_ok
  obtain ⟨-, s2, s3⟩ := g.step.clone_ok
  exact ⟨h.lively, ⟨g2, s2, fun hb => ⟨(h.fits.zero hb).1.trans g3, (h.fits.zero hb).2.trans s3⟩⟩,
    fun hb => ⟨(h.same hb).1.trans g3, (h.same hb).2.trans s3⟩⟩

theorem SoundAt.markMaster {b : Bool} {g : Rng E} (h : SoundAt N guess step b g) : SoundAt N guess step false g.markMaster :=
  ⟨h.lively, ⟨DeltaRV.normal_ok _ _ _ _, DeltaRV.normal_ok _ _ _ _, fun _ => ⟨DeltaRV.Same.refl _, DeltaRV.Same.refl _⟩⟩, fun h => by cases h⟩

theorem RV.Same.within' {r r' : RV} (h : r.Same r') {v : ℝ} (hv : r'.Within v) : r.Within v := by
  cases r <;> cases r' <;> simp only [RV.Same] at h
  · obtain ⟨rfl, rfl⟩ := h; exact hv
  · obtain ⟨rfl, rfl⟩ := h; exact hv

theorem DeltaRV.Same.within' {d d' : DeltaRV} (h : d.Same d') {v : Delta ℝ} (hv : d'.Within v) : d.Within v :=
  ⟨h.1.within' hv.1, h.2.1.within' hv.2.1, h.2.2.within' hv.2.2⟩

theorem SoundAt.drawStep {b : Bool} {g : Rng E} (h : SoundAt N guess step b g) :
    ∃ r, g.drawStep N = some r ∧ SoundAt N guess step b r.2 ∧ Allowed step r.1 ∧ (b = false → r.1 = ⟨0, 0, 0⟩) := by
  obtain ⟨q, hq, hl⟩ := delta_sample_lively (N := N) h.fits.step h.lively
  have hd : g.drawStep N = some (q.1, ⟨q.2.2, g.guess, q.2.1⟩) := by rw [Rng.drawStep, hq]; rfl
  obtain ⟨w1, w2, w3, -, -⟩ := drawStep_some h.fits.step hd
  refine ⟨_, hd, ⟨hl, ⟨h.fits.guess, w3, fun hb => ⟨(h.fits.zero hb).1, (h.fits.zero hb).2.trans w2⟩⟩,
    fun hb => ⟨(h.same hb).1, (h.same hb).2.trans w2⟩⟩, ?_, fun hb => zero_within (h.fits.zero hb).2 w1⟩
  cases b with
  | true => exact .inl ((h.same rfl).2.within' w1)
  | false => exact .inr (zero_within (h.fits.zero rfl).2 w1)

theorem SoundAt.drawGuess {b : Bool} {g : Rng E} (h : SoundAt N guess step b g) :
    ∃ r, g.drawGuess N = some r ∧ SoundAt N guess step b r.2 ∧ Allowed guess r.1 ∧ (b = false → r.1 = ⟨0, 0, 0⟩) := by
  obtain ⟨q, hq, hl⟩ := delta_sample_lively (N := N) h.fits.guess h.lively
  have hd : g.drawGuess N = some (q.1, ⟨q.2.2, q.2.1, g.step⟩) := by rw [Rng.drawGuess, hq]; rfl
  obtain ⟨w1, w2, w3, -, -⟩ := drawGuess_some h.fits.guess hd
  refine ⟨_, hd, ⟨hl, ⟨w3, h.fits.step, fun hb => ⟨(h.fits.zero hb).1.trans w2, (h.fits.zero hb).2⟩⟩,
    fun hb => ⟨(h.same hb).1.trans w2, (h.same hb).2⟩⟩, ?_, fun hb => zero_within (h.fits.zero hb).1 w1⟩
  cases b with
  | true => exact .inl ((h.same rfl).1.within' w1)
  | false => exact .inr (zero_within (h.fits.zero rfl).1 w1)

theorem SoundAt.drawFor {w : World ℝ} {g : Rng E} (h : SoundAt N guess step w.noisy g) :
    ∃ r, drawFor N w g = some r ∧ SoundAt N guess step w.noisy r.2.2 ∧ Allowed guess r.1 ∧ Allowed step r.2.1 ∧
      (w.noisy = false → r.1 = ⟨0, 0, 0⟩) := by
  unfold Random.drawFor
  by_cases ht : w.tooClose = true
  · simp only [ht, if_true]
    exact ⟨_, rfl, h, .inr rfl, .inr rfl, fun _ => rfl⟩
  rw [Bool.not_eq_true] at ht
  simp only [ht, Bool.false_eq_true, if_false]
  by_cases hf : w.scanFirst = true
  · simp only [hf, if_true]
    obtain ⟨r, hr, h1, h2, -⟩ := h.drawStep
    rw [hr]
    exact ⟨_, rfl, h1, .inr rfl, h2, fun _ => rfl⟩
  · rw [Bool.not_eq_true] at hf
    simp only [hf, Bool.false_eq_true, if_false]
    obtain ⟨r, hr, h1, h2, h3⟩ := h.drawGuess
    obtain ⟨q, hq, k1, k2, -⟩ := h1.drawStep
    rw [hr, Option.bind_some, hq]
    exact ⟨_, rfl, k1, h2, k2, h3⟩

/-! ### The filter under the random parts -/

theorem SFilter.ensureMaster_filter (s : SFilter E) : s.ensureMaster.map SFilter.filter = s.filter.ensureMaster := by
  unfold SFilter.ensureMaster Particle.Filter.ensureMaster
  by_cases h : s.filter.particles.any World.master = true
  · rw [if_pos h, if_pos h]; rfl
  · rw [if_neg h, if_neg h, Option.map_map]; rfl

theorem SFilter.gTryResample_filter (s : SFilter E) (e : E) :
    (s.gTryResample N e).map SFilter.filter = s.filter.gTryResample (uniformDraws N e s.filter.ids.length) := by
  unfold SFilter.gTryResample Particle.Filter.gTryResample
  by_cases h : (decide (s.filter.traversed.sqDist ≤ 1 / 2) && decide (s.filter.traversed.theta ≤ 1 / 5)) = true
  · rw [if_pos h, if_pos h]; rfl
  · rw [if_neg h, if_neg h]
    simp only [SFilter.tryResample]
    cases hr : s.filter.tryResample (uniformDraws N e s.filter.ids.length) with
    | none => rfl
    | some r =>
      obtain ⟨d, f⟩ := r
      cases d with
      | false => rfl
      | true =>
        simp only [Option.map_some, Option.bind_some, if_true]
        exact SFilter.ensureMaster_filter _

theorem rebuild_length (ids : List Nat) (is : List Nat) : ∀ (seen out : List Nat) (h : Nat → World ℝ) (next : Nat)
    {out' : List Nat} {h' : Nat → World ℝ} {next' : Nat}, rebuild ids is seen out h next = some (out', h', next') →
    out'.length = out.length + is.length := by
  induction is with
  | nil =>
    intro seen out h next out' h' next' hr
    simp only [rebuild, Option.some.injEq, Prod.mk.injEq] at hr
    obtain ⟨rfl, rfl, rfl⟩ := hr
    rfl
  | cons i is ih =>
    intro seen out h next out' h' next' hr
    simp only [rebuild] at hr
    cases hi : ids[i]? with
    | none => rw [hi] at hr; cases hr
    | some y =>
      simp only [hi] at hr
      by_cases hs : seen.contains i = true
      · simp only [hs, if_true] at hr
        rw [ih _ _ _ _ hr, List.length_append, List.length_singleton, List.length_cons]
        omega
      · rw [Bool.not_eq_true] at hs
        simp only [hs, Bool.false_eq_true, if_false] at hr
        rw [ih _ _ _ _ hr, List.length_append, List.length_singleton, List.length_cons]
        omega

/-- All particles of the filter are sound. -/
def SFilter.Sound (N : Engine E) (guess step : DeltaRV) (s : SFilter E) : Prop :=
  ∀ i ∈ s.filter.ids, SoundAt N guess step (s.filter.heap i).noisy (s.rng i)

theorem tryResample_sound {s : SFilter E} {e : E} (hlt : ∀ x ∈ s.filter.ids, x < s.filter.next) (hs : s.Sound N guess step)
    {b : Bool} {s' : SFilter E} (h : s.tryResample N e = some (b, s')) : s'.Sound N guess step := by
  cases b with
  | false =>
    simp only [SFilter.tryResample, Option.map_eq_some_iff, Prod.mk.injEq, Particle.Filter.tryResample] at h
    obtain ⟨r, hr, hr1, rfl⟩ := h
    by_cases hreq : Particle.resamplingRequired s.filter.weights = true
    · simp only [hreq, Bool.not_true, Bool.false_eq_true, if_false, Option.map_eq_some_iff] at hr
      obtain ⟨q, -, rfl⟩ := hr
      cases hr1
    · rw [Bool.not_eq_true] at hreq
      simp only [hreq, Bool.not_false, if_true, Option.some.injEq] at hr
      subst hr
      simpa using hs
  | true =>
    intro j hj
    obtain ⟨k, hk, hjk⟩ := List.getElem_of_mem hj
    have hlen : s'.filter.ids.length = (s.chosen N e).length := by
      have h' := h
      simp only [SFilter.tryResample, Option.map_eq_some_iff, Prod.mk.injEq, Particle.Filter.tryResample] at h'
      obtain ⟨r, hr, hr1, rfl⟩ := h'
      by_cases hreq : Particle.resamplingRequired s.filter.weights = true
      · simp only [hreq, Bool.not_true, Bool.false_eq_true, if_false, Option.map_eq_some_iff] at hr
        obtain ⟨⟨ids, hp, next⟩, hre, rfl⟩ := hr
        have := rebuild_length _ _ _ _ _ _ hre
        simpa [Particle.Filter.normalize, SFilter.chosen] using this
      · rw [Bool.not_eq_true] at hreq
        simp only [hreq, Bool.not_false, if_true, Option.some.injEq] at hr
        subst hr
        cases hr1
    obtain ⟨y, j', a1, a2, a3, a4, a5⟩ := resampled_from hlt h k ((s.chosen N e)[k]'(by omega)) (List.getElem?_eq_getElem _)
    have hjj : j' = j := by
      rw [List.getElem?_eq_getElem hk, Option.some.injEq] at a2
      rw [← a2, hjk]
    subst hjj
    have hy := hs y (List.mem_of_getElem? a1)
    rw [← a3.1]
    by_cases hm : (s.chosen N e)[k]'(by omega) ∈ (s.chosen N e).take k
    · rw [(a5 hm).2]; exact hy.copy
    · rw [(a4 hm).2]; exact hy

theorem ensureMaster_sound {s s' : SFilter E} (hs : s.Sound N guess step) (h : s.ensureMaster = some s') : s'.Sound N guess step := by
  unfold SFilter.ensureMaster at h
  by_cases hm : s.filter.particles.any World.master = true
  · rw [if_pos hm, Option.some.injEq] at h
    rw [← h]; exact hs
  · rw [if_neg hm, Option.map_eq_some_iff] at h
    obtain ⟨i, hi, rfl⟩ := h
    intro j hj
    by_cases hji : j = i
    · subst hji
      have := (hs j hj).markMaster
      simpa [setObj, World.markMaster] using this
    · simpa only [setObj, if_neg hji] using hs j hj

theorem gTryResample_sound {s s' : SFilter E} {e : E} (hlt : ∀ x ∈ s.filter.ids, x < s.filter.next) (hs : s.Sound N guess step)
    (h : s.gTryResample N e = some s') : s'.Sound N guess step := by
  unfold SFilter.gTryResample at h
  by_cases hd : (decide (s.filter.traversed.sqDist ≤ 1 / 2) && decide (s.filter.traversed.theta ≤ 1 / 5)) = true
  · rw [if_pos hd, Option.some.injEq] at h
    rw [← h]; exact hs
  · rw [if_neg hd, Option.bind_eq_some_iff] at h
    obtain ⟨⟨b, t⟩, ht, h⟩ := h
    have hts := tryResample_sound hlt hs ht
    cases b with
    | true =>
      simp only [if_true] at h
      exact ensureMaster_sound (s := { t with filter := { t.filter with traversed := ⟨0, 0, 0⟩ } }) hts h
    | false =>
      simp only [Bool.false_eq_true, if_false, Option.some.injEq] at h
      rw [← h]; exact hts

/-- **One message, with what is drawn (C102)**: a filter whose particles are sound never hangs or fails; it does what the filter of
the earlier properties does for the noise, the steps and the samples drawn, and all of these are what the configuration allows. -/
theorem seeded_step (sn cs : ℝ → ℝ) {n : Nat} {s : SFilter E} (hn : 0 < n) (hi : Particle.Inv n s.filter) (hs : s.Sound N guess step)
    (delta : Delta ℝ) (matcher : Nat → Pose ℝ → Delta ℝ × Option ℝ) (hm : ∀ i p a, (matcher i p).2 = some a → 0 ≤ a) (e : E) :
    ∃ (s' : SFilter E) (noise steps : Nat → Delta ℝ) (samples : List ℝ), s.handle N sn cs delta matcher e = some s' ∧
      s.filter.handle sn cs delta (fun i => ⟨noise i, matcher i, steps i⟩) samples = some s'.filter ∧
      (∀ i ∈ s.filter.ids, Allowed guess (noise i) ∧ Allowed step (steps i) ∧ ((s.filter.heap i).noisy = false → noise i = ⟨0, 0, 0⟩)) ∧
      samples.length = n ∧ (∀ u ∈ samples, 0 ≤ u ∧ u < 1) ∧ Particle.Inv n s'.filter ∧ s'.Sound N guess step := by
  set f := s.filter.updatePose sn cs delta with hf
  have hids : f.ids = s.filter.ids := rfl
  have hup : ∀ i, (f.heap i).noisy = (s.filter.heap i).noisy := by
    intro i
    obtain ⟨a, -⟩ : Particle.forEach (fun w => w.updatePose sn cs delta) s.filter.heap s.filter.ids i = _ ∧ True := ⟨rfl, trivial⟩
    have key : ∀ (ids : List Nat) (h : Nat → World ℝ) (j : Nat),
        (Particle.forEach (fun w => w.updatePose sn cs delta) h ids j).noisy = (h j).noisy := by
      intro ids
      induction ids with
      | nil => intro h j; rfl
      | cons k ids ih =>
        intro h j
        simp only [Particle.forEach, List.foldl_cons] at ih ⊢
        rw [ih]
        unfold setObj
        by_cases hj : j = k
        · rw [if_pos hj, hj]; rfl
        · rw [if_neg hj]
    exact key _ _ _
  have hdr : ∀ i ∈ f.ids, ∃ r, drawFor N (f.heap i) (s.rng i) = some r ∧ SoundAt N guess step (f.heap i).noisy r.2.2 ∧ Allowed guess r.1 ∧
      Allowed step r.2.1 ∧ ((f.heap i).noisy = false → r.1 = ⟨0, 0, 0⟩) := fun i hi' => SoundAt.drawFor (by rw [hup]; exact hs i hi')
  set at_ := fun i => (drawFor N (f.heap i) (s.rng i)).getD (⟨0, 0, 0⟩, ⟨0, 0, 0⟩, s.rng i) with hat
  have hat' : ∀ i ∈ f.ids, SoundAt N guess step (f.heap i).noisy (at_ i).2.2 ∧ Allowed guess (at_ i).1 ∧ Allowed step (at_ i).2.1 ∧
      ((f.heap i).noisy = false → (at_ i).1 = ⟨0, 0, 0⟩) := by
    intro i hi'
    obtain ⟨r, hr, h1⟩ := hdr i hi'
    simp only [hat, hr, Option.getD_some]
    exact h1
  have hall : (f.ids.all fun i => (drawFor N (f.heap i) (s.rng i)).isSome) = true := by
    rw [List.all_eq_true]
    intro i hi'
    obtain ⟨r, hr, -⟩ := hdr i hi'
    rw [hr]; rfl
  obtain ⟨u1, u2⟩ := uniform_draws_unit (N := N) e n
  obtain ⟨f', hf', hinv⟩ := Particle.inv_handle sn cs n hn s.filter hi delta (fun i => ⟨(at_ i).1, matcher i, (at_ i).2.1⟩)
    (uniformDraws N e n) hm u1 u2
  set env : Nat → Particle.Env ℝ := fun i => ⟨(at_ i).1, matcher i, (at_ i).2.1⟩ with henv
  set r := Particle.observeAll env f.ids f.heap f.maps with hr
  set g : Particle.Filter ℝ := ({ f with heap := r.1, maps := r.2 } : Particle.Filter ℝ).normalize with hg
  set t : SFilter E := ⟨g, fun i => if i ∈ f.ids then (at_ i).2.2 else s.rng i⟩ with ht
  have hh : s.handle N sn cs delta matcher e = t.gTryResample N e := by
    unfold SFilter.handle
    simp only
    rw [← hf, if_pos hall]
  have hgl : t.filter.ids.length = n := hi.length
  have hproj := SFilter.gTryResample_filter (N := N) t e
  rw [hgl] at hproj
  have hff : s.filter.handle sn cs delta env (uniformDraws N e n) = t.filter.gTryResample (uniformDraws N e n) := rfl
  rw [hff] at hf'
  rw [hf', Option.map_eq_some_iff] at hproj
  obtain ⟨s', hs', rfl⟩ := hproj
  have hts : t.Sound N guess step := by
    intro i hi'
    have hi'' : i ∈ f.ids := hi'
    have hnoisy : (t.filter.heap i).noisy = (f.heap i).noisy := by
      have e1 : (t.filter.heap i).noisy = (r.1 i).noisy :=
        (forEach_same (g := fun w => { w with weight := Particle.divN w.weight (Particle.sumN _) }) (fun w => ⟨rfl, rfl, rfl, rfl, rfl, rfl, rfl⟩)
          f.ids r.1 i).1.symm
      rw [e1, hr, Particle.observeAll_heap env f.ids hi.nodup, if_pos hi'']
      exact (Particle.handleObservation_fields _ _).2.1
    rw [hnoisy]
    simp only [ht, if_pos hi'']
    exact (hat' i hi'').1
  refine ⟨s', fun i => (at_ i).1, fun i => (at_ i).2.1, uniformDraws N e n, hh.trans hs', hff.trans hf', fun i hi' => by rw [← hup]; exact (hat' i hi').2, u1, u2,
    hinv, ?_⟩
  exact gTryResample_sound (s := t) hi.below hts hs'

theorem mapM_some {α β : Type} (f : α → Option β) (l : List α) (P : β → Prop) (h : ∀ a ∈ l, ∃ b, f a = some b ∧ P b) :
    ∃ r, l.mapM f = some r ∧ r.length = l.length ∧ ∀ b ∈ r, P b := by
  induction l with
  | nil => exact ⟨[], rfl, rfl, by simp⟩
  | cons a l ih =>
    obtain ⟨b, hb, hp⟩ := h a (by simp)
    obtain ⟨r, hr, hl, hq⟩ := ih fun x hx => h x (by simp [hx])
    refine ⟨b :: r, ?_, by simp [hl], ?_⟩
    · rw [List.mapM_cons, hb, hr]; rfl
    · intro x hx
      rcases List.mem_cons.1 hx with rfl | hx
      · exact hp
      · exact hq x hx

/-- **The filter is made (C102)** as the filter of the earlier properties is, with steps that the configuration allows. -/
theorem seeded_create {n : Nat} (hn : 0 < n) (engines : List E) (hl : engines.length = n) (hlive : ∀ e ∈ engines, Lively N e) :
    ∃ (s : SFilter E) (steps : List (Delta ℝ)), SFilter.create N guess step engines = some s ∧ steps.length = n ∧
      (∀ d ∈ steps, step.Within d) ∧ Particle.Filter.create steps = some s.filter ∧ s.Sound N guess step := by
  obtain ⟨-, g2, g3⟩ := guess.clone_ok
  obtain ⟨-, s2, s3⟩ := step.clone_ok
  obtain ⟨gs, hgs, hgl, hgp⟩ := mapM_some (fun e => Rng.drawStep N ⟨e, guess.clone, step.clone⟩) engines
    (fun r => SoundAt N guess step true r.2 ∧ step.Within r.1) (by
      intro e he
      obtain ⟨r, hr, h1, h2, -⟩ := SoundAt.drawStep (N := N) (guess := guess) (step := step) (b := true) (g := ⟨e, guess.clone, step.clone⟩)
        ⟨hlive e he, ⟨g2, s2, fun h => by cases h⟩, fun _ => ⟨g3, s3⟩⟩
      exact ⟨r, hr, h1, s3.within' (drawStep_some (N := N) (g := ⟨e, guess.clone, step.clone⟩) s2 hr).1⟩)
  have hsl : (gs.map Prod.fst).length = n := by rw [List.length_map, hgl, hl]
  obtain ⟨f, hf⟩ := (Particle.filter_never_fails (fun _ => (0 : ℝ)) (fun _ => 1) n hn).1 _ hsl
  cases engines with
  | nil => simp at hl; omega
  | cons e0 rest =>
    refine ⟨⟨f, fun i =>
          let g := (gs.map Prod.snd).getD i ⟨e0, guess.clone, step.clone⟩
          if (f.heap i).noisy then g else g.markMaster⟩, gs.map Prod.fst, ?_, hsl, ?_, hf, ?_⟩
    · unfold SFilter.create
      simp only
      rw [hgs, Option.bind_some, hf]
      rfl
    · intro d hd
      obtain ⟨r, hr, rfl⟩ := List.mem_map.1 hd
      exact (hgp r hr).2
    · intro i hi
      have hin : i < gs.length := by
        have : f.ids = List.range (gs.map Prod.fst).length := by
          unfold Particle.Filter.create at hf
          simp only [Option.map_eq_some_iff] at hf
          obtain ⟨j, -, rfl⟩ := hf
          rfl
        have hi' : i ∈ f.ids := hi
        rw [this, List.mem_range, List.length_map] at hi'
        exact hi'
      have hg : (gs.map Prod.snd).getD i ⟨e0, guess.clone, step.clone⟩ = (gs[i]).2 := by
        rw [List.getD_eq_getElem?_getD, List.getElem?_map, List.getElem?_eq_getElem hin]
        rfl
      have hsi := (hgp _ (List.getElem_mem hin)).1
      simp only [hg]
      cases hb : (f.heap i).noisy with
      | true => simpa [hb] using hsi
      | false => simpa [hb] using hsi.markMaster

/-- **The filter with its generators is the filter of the earlier properties (C102)**: each of its states is one that that filter
reaches, and it never hangs. -/
theorem seeded_reach (sn cs : ℝ → ℝ) {n : Nat} (hn : 0 < n) {s : SFilter E} (h : SReach N sn cs guess step n s) :
    Particle.Reach sn cs n s.filter ∧ s.Sound N guess step := by
  induction h with
  | create engines s hl hlive h =>
    obtain ⟨s1, steps, h1, h2, -, h4, h5⟩ := seeded_create (guess := guess) (step := step) hn engines hl hlive
    obtain rfl := Option.some.inj (h1.symm.trans h)
    exact ⟨.create steps _ h2 h4, h5⟩
  | handle s s' hs delta matcher e hm h ih =>
    obtain ⟨s1, noise, steps, samples, h1, h2, -, h4, h5, -, h7⟩ := seeded_step sn cs hn (Particle.reach_inv sn cs n _ ih.1).1 ih.2 delta matcher hm e
    obtain rfl := Option.some.inj (h1.symm.trans h)
    exact ⟨.handle _ _ ih.1 delta _ samples (fun i p a => hm i p a) h4 h5 h2, h7⟩

/-- **The seeded filter copes with every history (C102)**: it is made, and from every state it reaches it handles every message, moving each
particle by noise that the configuration allows, and the master (and every particle without noise) by none. -/
theorem seeded_filter_total (sn cs : ℝ → ℝ) {n : Nat} (hn : 0 < n) :
    (∀ engines : List E, engines.length = n → (∀ e ∈ engines, Lively N e) → ∃ s, SFilter.create N guess step engines = some s) ∧
    ∀ s, SReach N sn cs guess step n s → s.filter.particles.length = n ∧ s.filter.particles.countP World.master = 1 ∧
      ∀ (delta : Delta ℝ) (matcher : Nat → Pose ℝ → Delta ℝ × Option ℝ) (e : E), (∀ i p a, (matcher i p).2 = some a → 0 ≤ a) →
        ∃ (s' : SFilter E) (noise steps : Nat → Delta ℝ) (samples : List ℝ), s.handle N sn cs delta matcher e = some s' ∧
          s.filter.handle sn cs delta (fun i => ⟨noise i, matcher i, steps i⟩) samples = some s'.filter ∧
          (∀ i ∈ s.filter.ids, Allowed guess (noise i) ∧ Allowed step (steps i) ∧ ((s.filter.heap i).master = true → noise i = ⟨0, 0, 0⟩)) ∧
          samples.length = n ∧ ∀ u ∈ samples, 0 ≤ u ∧ u < 1 := by
  refine ⟨fun engines hl hlive => ?_, fun s hs => ?_⟩
  · obtain ⟨s, -, h, -⟩ := seeded_create (guess := guess) (step := step) hn engines hl hlive
    exact ⟨s, h⟩
  · obtain ⟨h1, h2⟩ := seeded_reach sn cs hn hs
    obtain ⟨c1, c2⟩ := Particle.exactly_one_master sn cs n _ h1
    refine ⟨c1, c2, fun delta matcher e hm => ?_⟩
    obtain ⟨s', noise, steps, samples, k1, k2, k3, k4, k5, -⟩ := seeded_step sn cs hn (Particle.reach_inv sn cs n _ h1).1 h2 delta matcher hm e
    exact ⟨s', noise, steps, samples, k1, k2, fun i hi => ⟨(k3 i hi).1, (k3 i hi).2.1, fun hm =>
      (k3 i hi).2.2 ((Particle.reach_inv sn cs n _ h1).1.quiet i hi hm)⟩, k4, k5⟩

/-! ### The copies of a filter's message -/

/-- After a message at which the filter resampled: the objects at two places, both copies of the same particle (or, if its
variables have no saved number, one of them the particle itself), neither of them just made the master, draw alike. -/
theorem message_copies_alike {t s' : SFilter E} {e : E} (hlt : ∀ x ∈ t.filter.ids, x < t.filter.next)
    (hd : ¬ (t.filter.traversed.sqDist ≤ 1 / 2 ∧ t.filter.traversed.theta ≤ 1 / 5)) (hreq : Particle.resamplingRequired t.filter.weights = true)
    (h : t.gTryResample N e = some s') {k l i y jk jl : Nat} (hk : (t.chosen N e)[k]? = some i) (hl : (t.chosen N e)[l]? = some i)
    (hy : t.filter.ids[i]? = some y) (hjk : s'.filter.ids[k]? = some jk) (hjl : s'.filter.ids[l]? = some jl)
    (hnk : (s'.filter.heap jk).noisy = true) (hnl : (s'.filter.heap jl).noisy = true)
    (hc : (i ∈ (t.chosen N e).take k ∧ i ∈ (t.chosen N e).take l) ∨ ((t.rng y).guess.Fresh ∧ (t.rng y).step.Fresh)) :
    DrawAlike N (s'.particle jk) (s'.particle jl) := by
  unfold SFilter.gTryResample at h
  rw [if_neg (by simpa using hd), Option.bind_eq_some_iff] at h
  obtain ⟨⟨b, u⟩, hu, h⟩ := h
  have hb : b = true := by
    simp only [SFilter.tryResample, Option.map_eq_some_iff, Prod.mk.injEq, Particle.Filter.tryResample] at hu
    obtain ⟨r, hr, hr1, -⟩ := hu
    simp only [hreq, Bool.not_true, Bool.false_eq_true, if_false, Option.map_eq_some_iff] at hr
    obtain ⟨q, -, rfl⟩ := hr
    exact hr1.symm
  subst hb
  simp only [if_true] at h
  unfold SFilter.ensureMaster at h
  by_cases hm : (Particle.Filter.particles { u.filter with traversed := ⟨0, 0, 0⟩ }).any World.master = true
  · simp only [hm, if_true, Option.some.injEq] at h
    subst h
    have := copies_draw_alike hlt hu hk hl hy hjk hjl hc
    exact this
  · rw [Bool.not_eq_true] at hm
    simp only [hm, Bool.false_eq_true, if_false, Option.map_eq_some_iff] at h
    obtain ⟨q, hq, rfl⟩ := h
    have hne : ∀ j, (({ u.filter with traversed := ⟨0, 0, 0⟩, heap := setObj u.filter.heap q (u.filter.heap q).markMaster } : Particle.Filter ℝ).heap j).noisy = true → j ≠ q := by
      rintro j hj rfl
      simp [setObj, World.markMaster] at hj
    have ek := hne jk hnk
    have el := hne jl hnl
    have := copies_draw_alike hlt hu hk hl hy hjk hjl hc
    simpa only [SFilter.particle, setObj, if_neg ek, if_neg el] using this

/-- **When the particle itself draws alike (C102)**: after an even number of noisy matchings since the particle was made or copied, its
noise variable has no saved number; after an odd number it has. -/
theorem fresh_after_even {g : Rng E} (hn : g.guess.Normal) (hg : g.guess.Fresh) (hok : g.step.Ok) : ∀ (m : Nat) {r : List Draw × Rng E},
    draws N m false g = some r → (m % 2 = 0 → r.2.guess.Fresh) ∧ (m % 2 = 1 → r.2.guess.Full) := by
  have key : ∀ (m : Nat) (g : Rng E), g.guess.Normal → g.step.Ok → ∀ {r : List Draw × Rng E}, draws N m false g = some r →
      (g.guess.Fresh → (m % 2 = 0 → r.2.guess.Fresh) ∧ (m % 2 = 1 → r.2.guess.Full)) ∧
      (g.guess.Full → (m % 2 = 0 → r.2.guess.Full) ∧ (m % 2 = 1 → r.2.guess.Fresh)) := by
    intro m
    induction m with
    | zero =>
      intro g _ _ r h
      simp only [draws, Option.some.injEq] at h
      subst h
      exact ⟨fun h => ⟨fun _ => h, fun h => by cases h⟩, fun h => ⟨fun _ => h, fun h => by cases h⟩⟩
    | succ m ih =>
      intro g hn hok r h
      simp only [draws, Bool.false_eq_true, if_false, Option.bind_eq_some_iff, Option.map_eq_some_iff] at h
      obtain ⟨a, ⟨d, hd, rfl⟩, st, hst, q, hq, rfl⟩ := h
      obtain ⟨n1, n2, n3⟩ := guess_alternates hn hd
      have hstep : d.2.step = g.step := by
        simp only [Rng.drawGuess, Option.map_eq_some_iff] at hd
        obtain ⟨x, -, rfl⟩ := hd
        rfl
      obtain ⟨-, -, w3, w4, -⟩ := drawStep_some (by rw [hstep]; exact hok) hst
      obtain ⟨i1, i2⟩ := ih st.2 (by rw [w4]; exact n1) w3 hq
      rw [w4] at i1 i2
      constructor
      · intro hf
        obtain ⟨j1, j2⟩ := i2 (n2 hf)
        exact ⟨fun h => j2 (by omega), fun h => j1 (by omega)⟩
      · intro hf
        obtain ⟨j1, j2⟩ := i1 (n3 hf)
        exact ⟨fun h => j2 (by omega), fun h => j1 (by omega)⟩
  intro m r h
  exact (key m g hn hok h).1 hg

end

end Slam.Random
