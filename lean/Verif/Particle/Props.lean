import Verif.Particle.Lemmas
import Mathlib.Tactic.NormNum
import Mathlib.Data.Rat.Floor

/-!
# C35, C36, C37, C41, C55–C57: the particle filter
-/

set_option autoImplicit false
set_option linter.unusedSectionVars false

namespace Slam.Particle
open Slam.Poses

variable {K : Type*} [Field K] [LinearOrder K] [IsStrictOrderedRing K]

/-! ## C35 -/

theorem sum_div (ws : List K) (t : K) : (ws.map fun w => w / t).sum = ws.sum / t := by
  induction ws with
  | nil => simp
  | cons w ws ih => simp [ih, add_div]

theorem normalize_particles (f : Filter K) (hd : f.ids.Nodup) :
    f.normalize.particles = f.particles.map fun w => { w with weight := divN w.weight (sumN f.weights) } := by
  unfold Filter.particles Filter.normalize
  simp only
  rw [forEach_map _ _ hd, List.map_map]
  rfl

theorem normalize_weights_eq (f : Filter K) (hd : f.ids.Nodup) :
    f.normalize.weights = f.weights.map fun w => divN w (sumN f.weights) := by
  rw [Filter.weights, normalize_particles f hd, List.map_map, Filter.weights, List.map_map]
  rfl

/-- C35: for any number of particles (distinct objects) and any weights of non-zero total, normalisation replaces
each weight by its quotient by the total; the new weights sum to one and keep their ratios; nothing else about any
particle changes. -/
theorem normalize_weights_spec (f : Filter K) (hd : f.ids.Nodup) (ws : List K) (hw : f.weights = ws.map some)
    (h0 : ws.sum ≠ 0) :
    ∃ vs : List K, f.normalize.weights = vs.map some ∧ vs.length = ws.length ∧ vs.sum = 1 ∧
      (∀ i j (hi : i < ws.length) (hj : j < ws.length) (hi' : i < vs.length) (hj' : j < vs.length),
        vs[i] * ws[j] = vs[j] * ws[i]) ∧
      f.normalize.particles.map (fun w => { w with weight := none }) =
        f.particles.map (fun w => { w with weight := none }) ∧
      f.normalize.ids = f.ids ∧ f.normalize.maps = f.maps ∧ ∀ i, i ∉ f.ids → f.normalize.heap i = f.heap i := by
  refine ⟨ws.map fun w => w / ws.sum, ?_, by simp, ?_, ?_, ?_, rfl, rfl, ?_⟩
  · rw [normalize_weights_eq f hd, hw, sumN_some, List.map_map, List.map_map]
    apply List.map_congr_left
    intro w _
    simp [divN, h0]
  · rw [sum_div, div_self h0]
  · intro i j hi hj hi' hj'
    simp only [List.getElem_map]
    field_simp
  · rw [normalize_particles f hd, List.map_map]
    apply List.map_congr_left
    intro w _
    rfl
  · intro i hi
    unfold Filter.normalize
    simp only
    rw [forEach_apply _ _ hd, if_neg hi]

/-- C35: if a weight is NaN, or the non-negative weights total zero, every weight becomes NaN. -/
theorem normalize_undefined (f : Filter K) (hd : f.ids.Nodup)
    (h : none ∈ f.weights ∨ sumN f.weights = some 0) : ∀ w ∈ f.normalize.weights, w = none := by
  rw [normalize_weights_eq f hd]
  intro w hw
  rw [List.mem_map] at hw
  obtain ⟨v, -, rfl⟩ := hw
  rcases h with h | h
  · rw [sumN_none _ h]; cases v <;> rfl
  · rw [h]; cases v <;> simp [divN]

/-- After normalising non-negative or NaN weights they form a distribution, or all are NaN. -/
theorem normalize_cases (f : Filter K) (hd : f.ids.Nodup) (hnn : ∀ a, some a ∈ f.weights → (0 : K) ≤ a) :
    (∀ w ∈ f.normalize.weights, w = none) ∨
      ∃ vs : List K, f.normalize.weights = vs.map some ∧ Distribution vs := by
  rcases options_cases f.weights with h | ⟨ws, hw⟩
  · exact .inl (normalize_undefined f hd (.inl h))
  · by_cases h0 : ws.sum = 0
    · exact .inl (normalize_undefined f hd (.inr (by rw [hw, sumN_some, h0])))
    · right
      have hws : ∀ w ∈ ws, 0 ≤ w := fun w hw' => hnn w (by rw [hw]; exact List.mem_map.2 ⟨w, hw', rfl⟩)
      refine ⟨ws.map fun w => w / ws.sum, ?_, ?_, ?_⟩
      · rw [normalize_weights_eq f hd, hw, sumN_some, List.map_map, List.map_map]
        apply List.map_congr_left
        intro w _
        simp [divN, h0]
      · intro v hv
        rw [List.mem_map] at hv
        obtain ⟨w, hw', rfl⟩ := hv
        exact div_nonneg (hws w hw') (List.sum_nonneg hws)
      · rw [sum_div, div_self h0]

/-! ## C36 -/

/-- C36: each index drawn is valid, belongs to a particle of positive weight, and is the one whose interval of
cumulative weights contains the sample; one index is drawn for each sample. -/
theorem resample_indices_spec (ws : List K) (hws : ws.sum = 1) (samples : List K)
    (hs : ∀ s ∈ samples, 0 ≤ s ∧ s < 1) :
    List.Forall₂ (fun s j => ∃ hj : j < ws.length, 0 < ws[j] ∧
      (ws.take j).sum ≤ s ∧ s < (ws.take j).sum + ws[j]) samples (resampleIndices (ws.map some) samples) := by
  unfold resampleIndices
  induction samples with
  | nil => exact .nil
  | cons s samples ih =>
    refine .cons ?_ (ih fun x hx => hs x (by simp [hx]))
    obtain ⟨h0, h1⟩ := hs s (by simp)
    obtain ⟨k, e, hk, ha, hb⟩ := pick_spec s ws 0 0 h0 (by rw [hws]; simpa using h1)
    have e' : pick s 0 (some 0) (List.map some ws) = k := by rw [e, Nat.zero_add]
    simp only [e']
    have hb' := hb
    rw [take_succ_sum ws k hk] at hb'
    rw [zero_add] at ha hb'
    exact ⟨hk, by linarith, ha, hb'⟩

/-- C36: the effective number of particles is between one and the number of particles. -/
theorem effective_sample_size (ws : List K) (h : Distribution ws) :
    1 ≤ 1 / (ws.map fun w => w * w).sum ∧ 1 / (ws.map fun w => w * w).sum ≤ ws.length := by
  obtain ⟨h1, -⟩ := sum_sq_le ws h.1
  have h2 := sum_sq_ge ws
  rw [h.2] at h1 h2
  have hpos : 0 < (ws.map fun w => w * w).sum := by
    rcases lt_trichotomy 0 (ws.map fun w => w * w).sum with h' | h' | h'
    · exact h'
    · rw [← h'] at h2; simp at h2; exact absurd h2 (by norm_num)
    · have : (ws.length : K) * (ws.map fun w => w * w).sum ≤ 0 :=
        mul_nonpos_of_nonneg_of_nonpos (Nat.cast_nonneg _) (le_of_lt h')
      linarith
  constructor
  · rw [le_div_iff₀ hpos]; linarith
  · rw [div_le_iff₀ hpos]; linarith

/-- C36: resampling happens exactly when the effective number of particles is below half of their number; it never
happens when a weight is undefined. -/
theorem resampling_rule (ws : List (Option K)) :
    (none ∈ ws → resamplingRequired ws = false) ∧
    ∀ vs : List K, ws = vs.map some → Distribution vs →
      (resamplingRequired ws = true ↔ 1 / (vs.map fun w => w * w).sum < (vs.length : K) / 2) := by
  constructor
  · intro h
    unfold resamplingRequired
    rw [sumN_none]
    exact List.mem_map.2 ⟨none, h, rfl⟩
  · rintro vs rfl hv
    have e : (vs.map some).map (fun w => mulN w w) = (vs.map fun w => w * w).map some := by
      rw [List.map_map, List.map_map]; rfl
    have hne : (vs.map fun w => w * w).sum ≠ 0 := by
      intro h0
      have := (effective_sample_size vs hv).1
      rw [h0] at this
      simp at this
      exact absurd this (by norm_num)
    unfold resamplingRequired
    rw [e, sumN_some]
    simp only [hne, if_false, List.length_map, decide_eq_true_eq]
    constructor
    · intro h; rw [lt_div_iff₀ (by norm_num)]; exact h
    · intro h; rw [lt_div_iff₀ (by norm_num)] at h; exact h

/-- C36: equal weights never trigger resampling. -/
theorem uniform_never_resamples (n : Nat) (ws : List (Option K)) (h : ws = List.replicate n (some (1 / (n : K)))) :
    resamplingRequired ws = false := by
  subst h
  cases n with
  | zero => simp [resamplingRequired, sumN]
  | succ n =>
    have hn : ((n + 1 : Nat) : K) ≠ 0 := by positivity
    have hpos : (0 : K) < ((n + 1 : Nat) : K) := by positivity
    rw [Bool.eq_false_iff]
    intro hc
    have hd : Distribution (List.replicate (n + 1) (1 / ((n + 1 : Nat) : K))) := by
      refine ⟨?_, ?_⟩
      · intro w hw
        rw [List.eq_of_mem_replicate hw]
        positivity
      · rw [List.sum_replicate, nsmul_eq_mul, mul_one_div, div_self hn]
    have h2 := ((resampling_rule _).2 (List.replicate (n + 1) (1 / ((n + 1 : Nat) : K))) rfl hd).1
      (by rw [List.map_replicate]; exact hc)
    have h3 : (List.map (fun w => w * w) (List.replicate (n + 1) (1 / ((n + 1 : Nat) : K)))).sum =
        1 / ((n + 1 : Nat) : K) := by
      rw [List.map_replicate, List.sum_replicate, nsmul_eq_mul]
      field_simp
    rw [h3] at h2
    simp only [one_div_one_div, List.length_replicate] at h2
    linarith

theorem forall₂_length {α β : Type*} {R : α → β → Prop} {l : List α} {r : List β} (h : List.Forall₂ R l r) :
    l.length = r.length := h.length_eq

theorem forall₂_right {α β : Type*} {R : α → β → Prop} {l : List α} {r : List β} (h : List.Forall₂ R l r) :
    ∀ b ∈ r, ∃ a ∈ l, R a b := by
  induction h with
  | nil => simp
  | cons h _ ih =>
    intro b hb
    rcases List.mem_cons.1 hb with rfl | hb
    · exact ⟨_, by simp, h⟩
    · obtain ⟨a, ha, hr⟩ := ih b hb
      exact ⟨a, by simp [ha], hr⟩

/-- Everything `try_resample` guarantees when it resamples, in one statement (used by the invariant and by
`resample_population`). -/
theorem tryResample_spec (f : Filter K) (hd : f.ids.Nodup) (hlt : ∀ x ∈ f.ids, x < f.next) (ws : List K)
    (hw : f.weights = ws.map some) (hdist : Distribution ws) (samples : List K)
    (hlen : samples.length = f.ids.length) (hs : ∀ s ∈ samples, 0 ≤ s ∧ s < 1)
    (hr : resamplingRequired f.weights = true) :
    ∃ f', f.tryResample samples = some (true, f') ∧ f'.ids.length = f.ids.length ∧ f'.ids.Nodup ∧
      (∀ x ∈ f'.ids, x < f'.next) ∧ (∃ vs : List K, f'.weights = vs.map some ∧ Distribution vs) ∧
      f'.maps = f.maps ∧ f'.traversed = f.traversed ∧
      (∀ x ∈ f'.ids, ∃ i ∈ f.ids, (∃ a, (f.heap i).weight = some a ∧ 0 < a) ∧ SameState (f'.heap x) (f.heap i) ∧
        (x = i ∧ (f'.heap x).master = (f.heap i).master ∨ x ∉ f.ids ∧ (f'.heap x).master = false)) ∧
      List.Forall₂ (fun j x => ∃ i, f.ids[j]? = some i ∧ SameState (f'.heap x) (f.heap i))
        (resampleIndices f.weights samples) f'.ids := by
  have hidx := resample_indices_spec ws hdist.2 samples hs
  have hwl : ws.length = f.ids.length := by
    have := congrArg List.length hw
    simpa [Filter.weights, Filter.particles] using this.symm
  obtain ⟨out, h', next', e, h1, h2, h3, h4, h5⟩ := rebuild_spec f.ids hd f.heap f.next hlt
    (resampleIndices f.weights samples) [] [] f.heap f.next
    (by
      intro i hi
      rw [hw] at hi
      obtain ⟨s, -, hj, -⟩ := forall₂_right hidx i hi
      omega)
    (fun _ _ => rfl) (le_refl _) (by simp) (by simp) (by simp) [] .nil
  simp only [List.nil_append] at h5
  -- the rebuilt filter before normalisation
  set g : Filter K := { f with ids := out, heap := h', next := next' } with hg
  have hparents : ∀ x ∈ out, ∃ i ∈ f.ids, (∃ a, (f.heap i).weight = some a ∧ 0 < a) ∧
      (h' x).weight = (f.heap i).weight ∧ SameState (h' x) (f.heap i) ∧
      (x = i ∧ (h' x).master = (f.heap i).master ∨ x ∉ f.ids ∧ (h' x).master = false) := by
    intro x hx
    obtain ⟨j, hj, y, ey, hy⟩ := forall₂_right h5 x hx
    have hjj := hj
    rw [hw] at hjj
    obtain ⟨s, -, hjl, hpos, -⟩ := forall₂_right hidx j hjj
    have hjl' : j < f.ids.length := by omega
    rw [List.getElem?_eq_getElem hjl'] at ey
    injection ey with ey
    have hmem : y ∈ f.ids := ey ▸ List.getElem_mem hjl'
    have hwt : (f.heap y).weight = some ws[j] := by
      have h6 : f.weights[j]? = some (f.heap y).weight := by
        simp [Filter.weights, Filter.particles, hjl', ey]
      rw [hw] at h6
      simp [hjl] at h6
      exact h6.symm
    refine ⟨y, hmem, ⟨_, hwt, hpos⟩, ?_⟩
    rcases hy with rfl | ⟨hge, hs'⟩
    · have : h' x = f.heap x := h1 x (hlt x hmem)
      rw [this]
      exact ⟨rfl, ⟨rfl, rfl, rfl, rfl, rfl, rfl, rfl⟩, .inl ⟨rfl, rfl⟩⟩
    · rw [hs']
      refine ⟨rfl, ⟨rfl, rfl, rfl, rfl, rfl, rfl, rfl⟩, .inr ⟨fun hc => ?_, rfl⟩⟩
      have := hlt x hc
      omega
  have hres : f.tryResample samples = some (true, g.normalize) := by
    unfold Filter.tryResample
    rw [hr]
    simp [e, g]
  have hlenout : out.length = f.ids.length := by
    rw [← forall₂_length h5, ← forall₂_length (by rw [hw]; exact hidx), hlen]
  have hnheap : ∀ x ∈ out, g.normalize.heap x =
      { h' x with weight := divN (h' x).weight (sumN g.weights) } := by
    intro x hx
    unfold Filter.normalize
    simp only
    rw [forEach_apply _ _ h4, if_pos hx]
  refine ⟨g.normalize, hres, hlenout, h4, h3, ?_, rfl, rfl, ?_, ?_⟩
  · -- weights
    have hnn : ∀ a, some a ∈ g.weights → (0 : K) ≤ a := by
      intro a ha
      rw [Filter.weights, Filter.particles, List.map_map, List.mem_map] at ha
      obtain ⟨x, hx, hxv⟩ := ha
      obtain ⟨i, -, ⟨b, hb, hp⟩, hwx, -⟩ := hparents x hx
      change (h' x).weight = some a at hxv
      rw [hwx, hb] at hxv
      injection hxv with hxv
      exact hxv ▸ le_of_lt hp
    rcases normalize_cases g h4 hnn with hnone | h
    · exfalso
      rcases options_cases g.weights with hn | ⟨vs, hv⟩
      · rw [Filter.weights, Filter.particles, List.map_map, List.mem_map] at hn
        obtain ⟨x, hx, hxn⟩ := hn
        obtain ⟨i, -, ⟨a, ha, -⟩, hwx, -⟩ := hparents x hx
        change (h' x).weight = none at hxn
        rw [hwx, ha] at hxn
        cases hxn
      · have hvpos : ∀ v ∈ vs, 0 < v := by
          intro v hv'
          have : some v ∈ g.weights := by rw [hv]; exact List.mem_map.2 ⟨v, hv', rfl⟩
          rw [Filter.weights, Filter.particles, List.map_map, List.mem_map] at this
          obtain ⟨x, hx, hxv⟩ := this
          obtain ⟨i, -, ⟨a, ha, hp⟩, hwx, -⟩ := hparents x hx
          change (h' x).weight = some v at hxv
          rw [hwx, ha] at hxv
          injection hxv with hxv
          exact hxv ▸ hp
        have hvne : vs ≠ [] := by
          rintro rfl
          have h9 := congrArg List.length hv
          simp [Filter.weights, Filter.particles, g, hlenout] at h9
          rw [h9] at hwl
          have : ws = [] := List.length_eq_zero_iff.1 hwl
          rw [this] at hdist
          have := hdist.2
          simp at this
        have hsum : 0 < vs.sum := List.sum_pos vs hvpos hvne
        obtain ⟨us, hus, hul, -⟩ := normalize_weights_spec g h4 vs hv (ne_of_gt hsum)
        have : us = [] := by
          by_contra hne
          obtain ⟨u, us', rfl⟩ := List.exists_cons_of_ne_nil hne
          have := hnone (some u) (by rw [hus]; simp)
          cases this
        rw [this] at hul
        exact hvne (List.length_eq_zero_iff.1 hul.symm)
    · exact h
  · intro x hx
    obtain ⟨i, hi, hpos, -, hss, hm⟩ := hparents x hx
    rw [hnheap x hx]
    exact ⟨i, hi, hpos, hss, hm⟩
  · have : ∀ (l r : List Nat), (∀ x ∈ r, x ∈ out) → List.Forall₂ (fun i x => ∃ y, f.ids[i]? = some y ∧
        (x = y ∨ f.next ≤ x ∧ h' x = (f.heap y).sample)) l r →
        List.Forall₂ (fun j x => ∃ i, f.ids[j]? = some i ∧ SameState (g.normalize.heap x) (f.heap i)) l r := by
      intro l r hr hlr
      induction hlr with
      | nil => exact .nil
      | @cons i x l r hix _ ih =>
        refine .cons ?_ (ih fun x hx => hr x (by simp [hx]))
        obtain ⟨y, ey, hy⟩ := hix
        refine ⟨y, ey, ?_⟩
        rw [hnheap x (hr x (by simp))]
        rcases hy with rfl | ⟨-, hy⟩
        · have hxl : x ∈ f.ids := List.mem_of_getElem? ey
          rw [h1 x (hlt x hxl)]
          exact ⟨rfl, rfl, rfl, rfl, rfl, rfl, rfl⟩
        · rw [hy]
          exact ⟨rfl, rfl, rfl, rfl, rfl, rfl, rfl⟩
    exact this _ _ (fun x hx => hx) h5

/-- C36: resampling keeps the number of particles; the `k`-th new particle is a distinct object that continues, or
is a copy of, the old particle the `k`-th sample picked; every parent had positive weight; the new weights are
again a distribution. -/
theorem resample_population (f : Filter K) (hd : f.ids.Nodup) (hlt : ∀ x ∈ f.ids, x < f.next) (ws : List K)
    (hw : f.weights = ws.map some) (hdist : Distribution ws) (samples : List K)
    (hlen : samples.length = f.particles.length) (hs : ∀ s ∈ samples, 0 ≤ s ∧ s < 1)
    (hr : resamplingRequired f.weights = true) :
    ∃ f', f.tryResample samples = some (true, f') ∧ f'.particles.length = f.particles.length ∧ f'.ids.Nodup ∧
      (∃ vs : List K, f'.weights = vs.map some ∧ Distribution vs) ∧
      List.Forall₂ (fun s p => ∃ j, ∃ hj : j < f.particles.length, ∃ a, 0 < a ∧
          f.particles[j].weight = some a ∧ (ws.take j).sum ≤ s ∧ s < (ws.take j).sum + a ∧ SameState p f.particles[j])
        samples f'.particles := by
  have hlen' : samples.length = f.ids.length := by simpa [Filter.particles] using hlen
  obtain ⟨f', h1, h2, h3, -, h5, -, -, -, h8⟩ := tryResample_spec f hd hlt ws hw hdist samples hlen' hs hr
  refine ⟨f', h1, by simp [Filter.particles, h2], h3, h5, ?_⟩
  have hidx := resample_indices_spec ws hdist.2 samples hs
  rw [← hw] at hidx
  have hwl : ws.length = f.ids.length := by
    have := congrArg List.length hw
    simpa [Filter.weights, Filter.particles] using this.symm
  unfold Filter.particles
  rw [List.forall₂_map_right_iff]
  generalize resampleIndices f.weights samples = idx at hidx h8
  clear h1 h2 h3 hlen hlen' hs
  generalize f'.ids = out at h8
  induction hidx generalizing out with
  | nil => cases h8; exact .nil
  | @cons s j ss js hsj _ ih =>
    cases h8 with
    | @cons _ x _ xs hjx hrest =>
      refine .cons ?_ (ih _ hrest)
      obtain ⟨hj, hpos, ha, hb⟩ := hsj
      obtain ⟨i, ei, hss⟩ := hjx
      have hj' : j < f.ids.length := by omega
      rw [List.getElem?_eq_getElem hj'] at ei
      injection ei with ei
      refine ⟨j, by simpa using hj', ws[j], hpos, ?_, ha, hb, ?_⟩
      · have h6 : f.weights[j]? = some (f.heap f.ids[j]).weight := by
          simp [Filter.weights, Filter.particles, hj']
        rw [hw] at h6
        simp [hj] at h6
        simpa using h6.symm
      · simpa [ei] using hss

end Slam.Particle
