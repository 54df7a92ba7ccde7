import Verif.Particle.Props

/-!
# C37 and C55–C57: what holds in every reachable filter state
-/

set_option autoImplicit false
set_option linter.unusedSectionVars false

namespace Slam.Particle
open Slam.Poses

variable {K : Type*} [Field K] [LinearOrder K] [IsStrictOrderedRing K]

theorem observeAll_heap (env : Nat → Env K) (ids : List Nat) (hd : ids.Nodup) (h : Nat → World K)
    (m : Nat → List (Pose K)) (j : Nat) :
    (observeAll env ids h m).1 j = if j ∈ ids then ((h j).handleObservation (env j)).1 else h j := by
  induction ids generalizing h m with
  | nil => simp [observeAll]
  | cons i ids ih =>
    rw [List.nodup_cons] at hd
    simp only [observeAll]
    rw [ih hd.2]
    by_cases hji : j = i
    · subst hji
      simp [hd.1, setObj]
    · simp [hji, setObj]

theorem handleObservation_fields (w : World K) (e : Env K) :
    (w.handleObservation e).1.master = w.master ∧ (w.handleObservation e).1.noisy = w.noisy ∧
      (w.handleObservation e).1.mapRef = w.mapRef ∧
      ((w.handleObservation e).1.weight = w.weight ∨
        ∃ p, (w.handleObservation e).1.weight = mulN (e.matcher p).2 w.weight) := by
  unfold World.handleObservation
  by_cases h : w.tooClose = true
  · rw [if_pos h]; exact ⟨rfl, rfl, rfl, .inl rfl⟩
  · rw [if_neg h]
    by_cases hf : w.scanFirst = true
    · simp only [hf, if_true]
      exact ⟨trivial, trivial, trivial, .inr ⟨_, rfl⟩⟩
    · simp only [hf, Bool.false_eq_true, if_false]
      exact ⟨trivial, trivial, trivial, .inr ⟨_, rfl⟩⟩

/-- The invariant of the reachable states. -/
structure Inv (n : Nat) (f : Filter K) : Prop where
  nodup : f.ids.Nodup
  length : f.ids.length = n
  below : ∀ x ∈ f.ids, x < f.next
  exists_master : ∃ x ∈ f.ids, (f.heap x).master = true
  unique_master : ∀ x ∈ f.ids, ∀ y ∈ f.ids, (f.heap x).master = true → (f.heap y).master = true → x = y
  weights : (∀ w ∈ f.weights, w = none) ∨ ∃ vs : List K, f.weights = vs.map some ∧ Distribution vs
  quiet : ∀ x ∈ f.ids, (f.heap x).master = true → (f.heap x).noisy = false
  shared : ∀ x ∈ f.ids, (f.heap x).mapRef = 0

theorem inv_create (steps : List (Delta K)) (f : Filter K) (h : Filter.create steps = some f) :
    Inv steps.length f := by
  unfold Filter.create at h
  simp only at h
  rw [Option.map_eq_some_iff] at h
  obtain ⟨i, hi, rfl⟩ := h
  have hmem := (heaviest_mem _ _ _).1 i hi
  have hmem : i ∈ List.range steps.length := by
    rcases hmem with h | h
    · exact h
    · cases h
  have hval : ∀ x ∈ List.range steps.length,
      forEach World.sample (fun i => { World.create (steps.getD i ⟨0, 0, 0⟩) with
        weight := some (1 / (steps.length : K)) }) (List.range steps.length) x =
      { World.create (steps.getD x ⟨0, 0, 0⟩) with weight := some (1 / (steps.length : K)) } := by
    intro x hx
    rw [forEach_apply _ _ List.nodup_range, if_pos hx]
    rfl
  have hn : (steps.length : K) ≠ 0 := by
    have : i < steps.length := List.mem_range.1 hmem
    have : 0 < steps.length := by omega
    exact_mod_cast this.ne'
  refine ⟨List.nodup_range, by simp, by simp, ⟨i, hmem, ?_⟩, ?_, .inr ?_, ?_, ?_⟩
  · simp [setObj, World.markMaster]
  · intro x hx y hy hmx hmy
    have key : ∀ x ∈ List.range steps.length, (setObj (forEach World.sample (fun i =>
        { World.create (steps.getD i ⟨0, 0, 0⟩) with weight := some (1 / (steps.length : K)) })
        (List.range steps.length)) i (World.markMaster (forEach World.sample (fun i =>
        { World.create (steps.getD i ⟨0, 0, 0⟩) with weight := some (1 / (steps.length : K)) })
        (List.range steps.length) i)) x).master = true → x = i := by
      intro x hx hm
      by_contra hne
      rw [setObj, if_neg hne, hval x hx] at hm
      simp [World.create] at hm
    rw [key x hx hmx, key y hy hmy]
  · refine ⟨List.replicate steps.length (1 / (steps.length : K)), ?_, ?_, ?_⟩
    · rw [Filter.weights, Filter.particles, List.map_map, List.map_replicate]
      rw [List.eq_replicate_iff]
      refine ⟨by simp, ?_⟩
      intro b hb
      rw [List.mem_map] at hb
      obtain ⟨x, hx, rfl⟩ := hb
      simp only [Function.comp]
      by_cases hxi : x = i
      · rw [setObj, if_pos hxi, hval i hmem]; rfl
      · rw [setObj, if_neg hxi, hval x hx]
    · intro w hw
      rw [List.eq_of_mem_replicate hw]
      positivity
    · rw [List.sum_replicate, nsmul_eq_mul, mul_one_div, div_self hn]
  · intro x hx hm
    by_cases hxi : x = i
    · simp [setObj, hxi, World.markMaster]
    · simp only at hm ⊢
      rw [setObj, if_neg hxi, hval x hx] at hm
      simp [World.create] at hm
  · intro x hx
    simp only
    by_cases hxi : x = i
    · rw [setObj, if_pos hxi, hval i hmem]; rfl
    · rw [setObj, if_neg hxi, hval x hx]; rfl

/-- A change of the heap that keeps marks and map references keeps the invariant, except for the weights. -/
theorem inv_of_fields (n : Nat) (f g : Filter K) (hf : Inv n f) (hids : g.ids = f.ids) (hnext : g.next = f.next)
    (hm : ∀ x ∈ f.ids, (g.heap x).master = (f.heap x).master ∧ (g.heap x).noisy = (f.heap x).noisy ∧
      (g.heap x).mapRef = (f.heap x).mapRef)
    (hw : (∀ w ∈ g.weights, w = none) ∨ ∃ vs : List K, g.weights = vs.map some ∧ Distribution vs) : Inv n g := by
  refine ⟨by rw [hids]; exact hf.nodup, by rw [hids]; exact hf.length, by rw [hids, hnext]; exact hf.below,
    ?_, ?_, hw, ?_, ?_⟩
  · obtain ⟨x, hx, h⟩ := hf.exists_master
    exact ⟨x, by rw [hids]; exact hx, by rw [(hm x hx).1]; exact h⟩
  · rw [hids]
    intro x hx y hy h1 h2
    rw [(hm x hx).1] at h1
    rw [(hm y hy).1] at h2
    exact hf.unique_master x hx y hy h1 h2
  · rw [hids]
    intro x hx h
    rw [(hm x hx).1] at h
    rw [(hm x hx).2.1]
    exact hf.quiet x hx h
  · rw [hids]
    intro x hx
    rw [(hm x hx).2.2]
    exact hf.shared x hx

theorem inv_ensureMaster (n : Nat) (hn : 0 < n) (f : Filter K) (hd : f.ids.Nodup) (hl : f.ids.length = n)
    (hb : ∀ x ∈ f.ids, x < f.next)
    (hu : ∀ x ∈ f.ids, ∀ y ∈ f.ids, (f.heap x).master = true → (f.heap y).master = true → x = y)
    (hw : (∀ w ∈ f.weights, w = none) ∨ ∃ vs : List K, f.weights = vs.map some ∧ Distribution vs)
    (hq : ∀ x ∈ f.ids, (f.heap x).master = true → (f.heap x).noisy = false)
    (hs : ∀ x ∈ f.ids, (f.heap x).mapRef = 0) :
    ∃ f', f.ensureMaster = some f' ∧ Inv n f' := by
  unfold Filter.ensureMaster
  by_cases ha : f.particles.any World.master = true
  · rw [if_pos ha]
    refine ⟨f, rfl, hd, hl, hb, ?_, hu, hw, hq, hs⟩
    rw [List.any_eq_true] at ha
    obtain ⟨w, hw', hm⟩ := ha
    rw [Filter.particles, List.mem_map] at hw'
    obtain ⟨x, hx, rfl⟩ := hw'
    exact ⟨x, hx, hm⟩
  · rw [if_neg ha]
    have hnone : ∀ x ∈ f.ids, (f.heap x).master = false := by
      intro x hx
      rw [Bool.eq_false_iff]
      intro h
      apply ha
      rw [List.any_eq_true]
      exact ⟨f.heap x, List.mem_map.2 ⟨x, hx, rfl⟩, h⟩
    cases hh : heaviest f.heap f.ids none with
    | none =>
      have := ((heaviest_mem f.heap f.ids none).2 hh).1
      rw [this] at hl
      simp at hl
      omega
    | some i =>
      have hmem : i ∈ f.ids := by
        rcases (heaviest_mem f.heap f.ids none).1 i hh with h | h
        · exact h
        · cases h
      refine ⟨_, rfl, hd, hl, hb, ⟨i, hmem, by simp [setObj, World.markMaster]⟩, ?_, ?_, ?_, ?_⟩
      · intro x hx y hy h1 h2
        have key : ∀ x ∈ f.ids, (setObj f.heap i (f.heap i).markMaster x).master = true → x = i := by
          intro x hx h
          by_contra hne
          rw [setObj, if_neg hne, hnone x hx] at h
          cases h
        rw [key x hx h1, key y hy h2]
      · have : (Filter.weights { f with heap := setObj f.heap i (f.heap i).markMaster }) = f.weights := by
          unfold Filter.weights Filter.particles
          rw [List.map_map, List.map_map]
          apply List.map_congr_left
          intro x _
          simp only [Function.comp]
          by_cases hxi : x = i
          · rw [setObj, if_pos hxi, hxi]; rfl
          · rw [setObj, if_neg hxi]
        rw [this]; exact hw
      · intro x hx h
        by_cases hxi : x = i
        · simp [setObj, hxi, World.markMaster]
        · simp only at h ⊢
          rw [setObj, if_neg hxi] at h ⊢
          exact hq x hx h
      · intro x hx
        simp only
        by_cases hxi : x = i
        · rw [setObj, if_pos hxi]; exact hs i hmem
        · rw [setObj, if_neg hxi]; exact hs x hx

/-- One scan keeps the invariant, and handling it never goes wrong. -/
theorem inv_handle (sn cs : K → K) (n : Nat) (hn : 0 < n) (f : Filter K) (hf : Inv n f) (delta : Delta K)
    (env : Nat → Env K) (samples : List K) (henv : ∀ i p a, ((env i).matcher p).2 = some a → 0 ≤ a)
    (hlen : samples.length = n) (hs : ∀ s ∈ samples, 0 ≤ s ∧ s < 1) :
    ∃ f', f.handle sn cs delta env samples = some f' ∧ Inv n f' := by
  unfold Filter.handle
  simp only
  set g := f.updatePose sn cs delta with hg
  have gids : g.ids = f.ids := rfl
  have gheap : ∀ x ∈ f.ids, g.heap x = (f.heap x).updatePose sn cs delta := by
    intro x hx
    rw [hg]
    unfold Filter.updatePose
    simp only
    rw [forEach_apply _ _ hf.nodup, if_pos hx]
  set r := observeAll env g.ids g.heap g.maps with hr
  set o : Filter K := { g with heap := r.1, maps := r.2 } with ho
  have oheap : ∀ x ∈ f.ids, o.heap x = ((g.heap x).handleObservation (env x)).1 := by
    intro x hx
    rw [ho]
    simp only
    rw [hr, observeAll_heap env g.ids (by rw [gids]; exact hf.nodup), if_pos (by rw [gids]; exact hx)]
  have ond : o.ids.Nodup := hf.nodup
  have onn : ∀ a, some a ∈ o.weights → (0 : K) ≤ a := by
    intro a ha
    rw [Filter.weights, Filter.particles, List.map_map, List.mem_map] at ha
    obtain ⟨x, hx, hxa⟩ := ha
    have hx : x ∈ f.ids := hx
    change (o.heap x).weight = some a at hxa
    rw [oheap x hx, gheap x hx] at hxa
    have hold : ∀ b, (f.heap x).weight = some b → 0 ≤ b := by
      intro b hb
      have hmemw : some b ∈ f.weights := by
        rw [Filter.weights, Filter.particles, List.map_map, List.mem_map]
        exact ⟨x, hx, hb⟩
      rcases hf.weights with h | ⟨vs, hv, hd⟩
      · cases h _ hmemw
      · rw [hv, List.mem_map] at hmemw
        obtain ⟨v, hv', e⟩ := hmemw
        injection e with e
        exact e ▸ hd.1 v hv'
    have hup : ((f.heap x).updatePose sn cs delta).weight = (f.heap x).weight := rfl
    rcases (handleObservation_fields ((f.heap x).updatePose sn cs delta) (env x)).2.2.2 with h | ⟨p, h⟩
    · rw [h, hup] at hxa; exact hold a hxa
    · rw [h, hup] at hxa
      cases hp : ((env x).matcher p).2 with
      | none => rw [hp] at hxa; simp [mulN] at hxa
      | some q =>
        cases hb : (f.heap x).weight with
        | none => rw [hp, hb] at hxa; simp [mulN] at hxa
        | some b =>
          rw [hp, hb] at hxa
          simp only [mulN] at hxa
          injection hxa with hxa
          rw [← hxa]
          exact mul_nonneg (henv x p q hp) (hold b hb)
  have nheap : ∀ x ∈ f.ids, o.normalize.heap x =
      { o.heap x with weight := divN (o.heap x).weight (sumN o.weights) } := by
    intro x hx
    unfold Filter.normalize
    simp only
    rw [forEach_apply _ _ ond]
    exact if_pos hx
  have hinv : Inv n o.normalize := by
    refine inv_of_fields n f o.normalize hf rfl rfl ?_ (normalize_cases o ond onn)
    intro x hx
    rw [nheap x hx, oheap x hx, gheap x hx]
    obtain ⟨h1, h2, h3, -⟩ := handleObservation_fields ((f.heap x).updatePose sn cs delta) (env x)
    exact ⟨h1, h2, h3⟩
  generalize o.normalize = q at hinv
  clear nheap onn ond oheap gheap gids
  unfold Filter.gTryResample
  by_cases ht : (decide (q.traversed.sqDist ≤ 1 / 2) && decide (q.traversed.theta ≤ 1 / 5)) = true
  · rw [if_pos ht]; exact ⟨q, rfl, hinv⟩
  · rw [if_neg ht]
    by_cases hreq : resamplingRequired q.weights = true
    · rcases hinv.weights with h | ⟨ws, hw, hdist⟩
      · have hne : q.weights ≠ [] := by
          intro h0
          have := congrArg List.length h0
          simp [Filter.weights, Filter.particles, hinv.length] at this
          omega
        obtain ⟨w, ws, e⟩ := List.exists_cons_of_ne_nil hne
        have hnone : none ∈ q.weights := by
          have := h w (by rw [e]; simp)
          rw [e, this]; simp
        rw [(resampling_rule q.weights).1 hnone] at hreq
        cases hreq
      · obtain ⟨f', h1, h2, h3, h4, h5, -, -, h8, -⟩ := tryResample_spec q hinv.nodup hinv.below ws hw hdist samples
          (by rw [hlen, hinv.length]) hs hreq
        rw [h1]
        simp only [Option.bind_some, if_true]
        apply inv_ensureMaster n hn
        · exact h3
        · rw [← hinv.length]; exact h2
        · exact h4
        · intro x hx y hy hmx hmy
          obtain ⟨i, hi, -, -, hci⟩ := h8 x hx
          obtain ⟨j, hj, -, -, hcj⟩ := h8 y hy
          simp only at hmx hmy
          rcases hci with ⟨rfl, hci⟩ | ⟨-, hci⟩
          · rcases hcj with ⟨rfl, hcj⟩ | ⟨-, hcj⟩
            · exact hinv.unique_master _ hi _ hj (hci ▸ hmx) (hcj ▸ hmy)
            · rw [hcj] at hmy; cases hmy
          · rw [hci] at hmx; cases hmx
        · exact .inr h5
        · intro x hx hm
          obtain ⟨i, hi, -, hss, hci⟩ := h8 x hx
          simp only at hm ⊢
          rcases hci with ⟨-, hci⟩ | ⟨-, hci⟩
          · rw [hss.1]; exact hinv.quiet i hi (hci ▸ hm)
          · rw [hci] at hm; cases hm
        · intro x hx
          obtain ⟨i, hi, -, hss, -⟩ := h8 x hx
          simp only
          rw [hss.2.2.2.2.2.2]
          exact hinv.shared i hi
    · have : q.tryResample samples = some (false, q) := by
        unfold Filter.tryResample
        rw [Bool.eq_false_iff.2 hreq]; rfl
      rw [this]
      exact ⟨q, rfl, hinv⟩

theorem reach_inv (sn cs : K → K) (n : Nat) (f : Filter K) (h : Reach sn cs n f) : Inv n f ∧ 0 < n := by
  induction h with
  | create steps f hn h =>
    have := inv_create steps f h
    rw [hn] at this
    refine ⟨this, ?_⟩
    obtain ⟨x, hx, -⟩ := this.exists_master
    rw [← this.length]
    exact List.length_pos_of_mem hx
  | handle f f' hf delta env samples henv hlen hs h ih =>
    obtain ⟨g, hg, hinv⟩ := inv_handle sn cs n ih.2 f ih.1 delta env samples henv hlen hs
    rw [h] at hg
    injection hg with hg
    exact ⟨hg ▸ hinv, ih.2⟩

/-! ## The properties -/

/-- C37: in every reachable state exactly one particle is the master. -/
theorem exactly_one_master (sn cs : K → K) (n : Nat) (f : Filter K) (h : Reach sn cs n f) :
    f.particles.length = n ∧ f.particles.countP World.master = 1 := by
  obtain ⟨hi, -⟩ := reach_inv sn cs n f h
  refine ⟨by simp [Filter.particles, hi.length], ?_⟩
  obtain ⟨m, hm, hmm⟩ := hi.exists_master
  have hkey : ∀ l : List Nat, l.Nodup → (∀ x ∈ l, x ∈ f.ids) →
      (l.map f.heap).countP World.master = if m ∈ l then 1 else 0 := by
    intro l hl hsub
    induction l with
    | nil => simp
    | cons a l ih =>
      rw [List.nodup_cons] at hl
      rw [List.map_cons, List.countP_cons, ih hl.2 fun x hx => hsub x (by simp [hx])]
      by_cases ham : a = m
      · subst ham
        simp [hl.1, hmm]
      · have : (f.heap a).master = false := by
          rw [Bool.eq_false_iff]
          intro hc
          exact ham (hi.unique_master a (hsub a (by simp)) m hm hc hmm)
        have hma : m ∈ a :: l ↔ m ∈ l := by simp [Ne.symm ham]
        simp [this, hma]
  have := hkey f.ids hi.nodup fun x hx => hx
  rw [if_pos hm] at this
  exact this

/-- C37: with at least one particle configured, creation succeeds and handling any scan succeeds (the filter never
runs out of particles or picks an invalid index). -/
theorem filter_never_fails (sn cs : K → K) (n : Nat) (hn : 0 < n) :
    (∀ steps : List (Delta K), steps.length = n → ∃ f, Filter.create steps = some f) ∧
    ∀ f, Reach sn cs n f → ∀ (delta : Delta K) (env : Nat → Env K) (samples : List K),
      (∀ i p a, ((env i).matcher p).2 = some a → 0 ≤ a) → samples.length = n → (∀ s ∈ samples, 0 ≤ s ∧ s < 1) →
      ∃ f', f.handle sn cs delta env samples = some f' := by
  constructor
  · intro steps hs
    unfold Filter.create
    simp only
    cases hh : heaviest (forEach World.sample (fun i => { World.create (steps.getD i ⟨0, 0, 0⟩) with
        weight := some (1 / (steps.length : K)) }) (List.range steps.length)) (List.range steps.length) none with
    | none =>
      have := ((heaviest_mem _ _ none).2 hh).1
      have := congrArg List.length this
      simp at this
      rw [this] at hs
      simp at hs
      omega
    | some i => exact ⟨_, rfl⟩
  · intro f hf delta env samples h1 h2 h3
    obtain ⟨f', h, -⟩ := inv_handle sn cs n hn f (reach_inv sn cs n f hf).1 delta env samples h1 h2 h3
    exact ⟨f', h⟩

/-- C35 (over histories): in every reachable state the weights are a probability distribution, or all are NaN. -/
theorem weights_always_normalised (sn cs : K → K) (n : Nat) (f : Filter K) (h : Reach sn cs n f) :
    (∀ w ∈ f.weights, w = none) ∨ ∃ vs : List K, f.weights = vs.map some ∧ Distribution vs :=
  (reach_inv sn cs n f h).1.weights

/-- C55: the particle whose pose and map the filter reports carries a maximal weight, and among the equally heavy
ones it is the last. -/
theorem reports_heaviest (ids : List Nat) (h : Nat → World K) (hne : ids ≠ [])
    (hdef : ∀ i ∈ ids, ∃ a, (h i).weight = some a) :
    ∃ (l r : List Nat) (b : Nat) (a : K), ids = l ++ b :: r ∧ heaviest h ids none = some b ∧
      (h b).weight = some a ∧
      (∀ i ∈ l, ∀ c, (h i).weight = some c → c ≤ a) ∧ ∀ i ∈ r, ∀ c, (h i).weight = some c → c < a := by
  have key : ∀ (ids pre : List Nat) (b : Nat) (mid : List Nat) (a : K), (h b).weight = some a →
      (∀ i ∈ ids, ∃ a, (h i).weight = some a) →
      (∀ i ∈ pre, ∀ c, (h i).weight = some c → c ≤ a) → (∀ i ∈ mid, ∀ c, (h i).weight = some c → c < a) →
      ∃ (l r : List Nat) (b' : Nat) (a' : K), pre ++ b :: mid ++ ids = l ++ b' :: r ∧
        heaviest h ids (some b) = some b' ∧ (h b').weight = some a' ∧
        (∀ i ∈ l, ∀ c, (h i).weight = some c → c ≤ a') ∧ ∀ i ∈ r, ∀ c, (h i).weight = some c → c < a' := by
    intro ids
    induction ids with
    | nil => intro pre b mid a hb _ h1 h2; exact ⟨pre, mid, b, a, by simp, rfl, hb, h1, h2⟩
    | cons x ids ih =>
      intro pre b mid a hb hd h1 h2
      obtain ⟨c, hc⟩ := hd x (by simp)
      simp only [heaviest, hc, hb, ltN]
      by_cases hlt : c < a
      · rw [if_pos (by simpa using hlt)]
        obtain ⟨l, r, b', a', e, h3, h4, h5, h6⟩ := ih pre b (mid ++ [x]) a hb (fun i hi => hd i (by simp [hi])) h1
          (by
            intro i hi d hd'
            rcases List.mem_append.1 hi with hi | hi
            · exact h2 i hi d hd'
            · rw [List.mem_singleton.1 hi, hc] at hd'
              injection hd' with hd'
              exact hd' ▸ hlt)
        exact ⟨l, r, b', a', by rw [← e]; simp, h3, h4, h5, h6⟩
      · rw [if_neg (by simpa using hlt)]
        obtain ⟨l, r, b', a', e, h3, h4, h5, h6⟩ := ih (pre ++ b :: mid) x [] c hc (fun i hi => hd i (by simp [hi]))
          (by
            intro i hi d hd'
            have hac := not_lt.1 hlt
            rcases List.mem_append.1 hi with hi | hi
            · exact le_trans (h1 i hi d hd') hac
            · rcases List.mem_cons.1 hi with rfl | hi
              · rw [hb] at hd'; injection hd' with hd'; exact hd' ▸ hac
              · exact le_of_lt (lt_of_lt_of_le (h2 i hi d hd') hac))
          (by simp)
        exact ⟨l, r, b', a', by rw [← e]; simp, h3, h4, h5, h6⟩
  obtain ⟨x, ids, rfl⟩ := List.exists_cons_of_ne_nil hne
  obtain ⟨a, ha⟩ := hdef x (by simp)
  obtain ⟨l, r, b', a', e, h3, h4, h5, h6⟩ := key ids [] x [] a ha (fun i hi => hdef i (by simp [hi]))
    (by simp) (by simp)
  exact ⟨l, r, b', a', by simpa using e, h3, h4, h5, h6⟩

/-- C55: consequently `world()` of a reachable state whose weights are defined is a heaviest particle. -/
theorem world_is_heaviest (sn cs : K → K) (n : Nat) (f : Filter K) (h : Reach sn cs n f)
    (hdef : none ∉ f.weights) :
    ∃ w a, f.world = some w ∧ w ∈ f.particles ∧ w.weight = some a ∧
      ∀ v ∈ f.particles, ∃ c, v.weight = some c ∧ c ≤ a := by
  obtain ⟨hi, hn⟩ := reach_inv sn cs n f h
  have hne : f.ids ≠ [] := by
    intro h0
    have := hi.length
    rw [h0] at this
    simp at this
    omega
  have hd : ∀ i ∈ f.ids, ∃ a, (f.heap i).weight = some a := by
    intro i hx
    cases hw : (f.heap i).weight with
    | none =>
      exfalso
      apply hdef
      rw [Filter.weights, Filter.particles, List.map_map, List.mem_map]
      exact ⟨i, hx, hw⟩
    | some a => exact ⟨a, rfl⟩
  obtain ⟨l, r, b, a, e, h1, h2, h3, h4⟩ := reports_heaviest f.ids f.heap hne hd
  refine ⟨f.heap b, a, by simp [Filter.world, h1], ?_, h2, ?_⟩
  · exact List.mem_map.2 ⟨b, by rw [e]; simp, rfl⟩
  · intro v hv
    rw [Filter.particles, List.mem_map] at hv
    obtain ⟨i, hx, rfl⟩ := hv
    obtain ⟨c, hc⟩ := hd i hx
    refine ⟨c, hc, ?_⟩
    rw [e] at hx
    rcases List.mem_append.1 hx with hx | hx
    · exact h3 i hx c hc
    · rcases List.mem_cons.1 hx with rfl | hx
      · rw [h2] at hc; injection hc with hc; exact le_of_eq hc.symm
      · exact le_of_lt (h4 i hx c hc)

/-- C56 (what holds): the master is never perturbed: whatever the random samples, a scan that the master matches
moves it by the matcher's correction only. -/
theorem master_unperturbed (sn cs : K → K) (n : Nat) (f : Filter K) (h : Reach sn cs n f) (w : World K)
    (hw : w ∈ f.particles) (hm : w.master = true) (e : Env K) (hc : w.tooClose = false) :
    (w.handleObservation e).1.pose = w.pose.add (e.matcher w.pose).1 := by
  obtain ⟨hi, -⟩ := reach_inv sn cs n f h
  rw [Filter.particles, List.mem_map] at hw
  obtain ⟨i, hx, rfl⟩ := hw
  have hq := hi.quiet i hx hm
  have hz : (f.heap i).pose.add ⟨0, 0, 0⟩ = (f.heap i).pose := by simp [Pose.add]
  unfold World.handleObservation
  rw [hc]
  simp only [Bool.false_eq_true, if_false, hq, hz]
  by_cases hf : (f.heap i).scanFirst = true <;> simp [hf]

/-- C57 (fails): in every reachable state all particles refer to one and the same map object. -/
theorem particles_share_one_map (sn cs : K → K) (n : Nat) (f : Filter K) (h : Reach sn cs n f) :
    ∀ w ∈ f.particles, w.mapRef = 0 := by
  obtain ⟨hi, -⟩ := reach_inv sn cs n f h
  intro w hw
  rw [Filter.particles, List.mem_map] at hw
  obtain ⟨i, hx, rfl⟩ := hw
  exact hi.shared i hx

/-! ## Counterexamples and concrete runs -/

/-- Three particles whose scan matching step is (0, 0, 0), so that every scan is matched. -/
def demo : Option (Filter ℚ) := Filter.create [⟨0, 0, 0⟩, ⟨0, 0, 0⟩, ⟨0, 0, 0⟩]

/-- A scan that the master (object 2) explains with probability 1 and the others with probability 1/100. -/
def demoEnv (i : Nat) : Env ℚ :=
  ⟨⟨1 / 10, 1 / 10, 0⟩, fun _ => (⟨0, 0, 0⟩, some (if i = 2 then 1 else 1 / 100)), ⟨0, 0, 0⟩⟩

/-- One scan after a move of two metres: the resampler draws the master three times. -/
def demoRun : Option (Filter ℚ) :=
  demo.bind fun f => f.handle (fun _ => 0) (fun _ => 1) ⟨2, 0, 0⟩ demoEnv [1 / 2, 1 / 2, 1 / 2]

/-- The run is reachable: `demoRun` meets the hypotheses of the theorems above (with three particles). -/
theorem demo_reach (f : Filter ℚ) (h : demoRun = some f) : Reach (fun _ => 0) (fun _ => 1) 3 f := by
  unfold demoRun at h
  rw [Option.bind_eq_some_iff] at h
  obtain ⟨g, hg, h⟩ := h
  refine .handle g f (.create _ g rfl hg) _ _ _ ?_ rfl ?_ h
  · intro i p a ha
    simp only [demoEnv] at ha
    injection ha with ha
    rw [← ha]
    split_ifs <;> norm_num
  · intro s hs
    simp at hs
    rw [hs]
    norm_num

/-- C56 (fails): after the master is drawn three times, the two copies are not masters but have lost their sampling
noise for good: all three particles are noise-free. (`sample()` resets the mark only; the copied random variables
stay constant.) -/
theorem copies_lose_noise_counterexample :
    (demoRun.map fun f => f.particles.map fun w => (w.master, w.noisy)) =
      some [(true, false), (false, false), (false, false)] := by
  decide +kernel

/-- C57 (fails): after one scan, which each of the three particles inserts once, the map of each particle has all
three insertions. -/
theorem shared_map_counterexample :
    (demo.map fun f => f.particles.map fun w => (f.maps w.mapRef).length) = some [0, 0, 0] ∧
    (demoRun.map fun f => f.particles.map fun w => (f.maps w.mapRef).length) = some [3, 3, 3] := by
  decide +kernel

/-- Non-vacuity: weights after the run (all equal, since the same particle was drawn three times). -/
example : (demoRun.map Filter.weights) = some [some (1 / 3), some (1 / 3), some (1 / 3)] := by decide +kernel

/-- Non-vacuity of the resampling theorems: a distribution that requires resampling. -/
example : Distribution ([98 / 100, 1 / 100, 1 / 100] : List ℚ) ∧
    resamplingRequired ([98 / 100, 1 / 100, 1 / 100].map some : List (Option ℚ)) = true ∧
    resampleIndices ([98 / 100, 1 / 100, 1 / 100].map some : List (Option ℚ)) [0, 985 / 1000, 999 / 1000] = [0, 1, 2] := by
  refine ⟨⟨?_, by norm_num⟩, by decide +kernel, by decide +kernel⟩
  intro w hw
  simp at hw
  rcases hw with rfl | rfl <;> norm_num

end Slam.Particle
