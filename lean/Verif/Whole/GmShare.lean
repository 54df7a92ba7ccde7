import Verif.Whole.GmPair

/-!
# With at most two particles, the weights are products of the scores (C119)

The weight of a particle is multiplied by the score of its match (src/slams/gmapping/gmapping_world.h:99) and the weights are normalised
after every scan (src/core/particle_filter.h:107-112, src/slams/gmapping/gmapping_particle_filter.h:74). With one or two particles nothing
is ever resampled (C118); so the weights at any time are the products of all the scores so far, divided by their sum, and the pose shown
(src/slams/gmapping/gmapping_particle_filter.h:59-63) is that of the particle whose scores multiply to most.
-/

set_option autoImplicit false
set_option linter.unusedSectionVars false

namespace Slam.Whole
open Slam.Grid Slam.Cells Slam.Poses Slam.Sensor Slam.Score Slam.ScanAdder Slam.Worlds Slam.Matcher
open Slam.Particle (setObj forEach World positive mulN divN sumN)

/-! ## Specification -/

section
variable {M : Type}

/-- What a message contributes to the weight of particle `i`: nothing (a factor of one) if the particle has not gone its step since its
last scan; else the score of the match from its pose after the motion and the noise (`none`: the score is no number). -/
def Factor (g : GOwnCfg M) (init : M) (f : ℝ) (w : Nat) (s : GOwn M) (d : GMsg) (i : Nat) (q : Option ℝ) : Prop :=
  (((s.st.filter.heap i).updatePose Real.sin Real.cos (d.odom.sub s.st.odom)).tooClose = true ∧ q = some 1) ∨
    (((s.st.filter.heap i).updatePose Real.sin Real.cos (d.odom.sub s.st.odom)).tooClose = false ∧ ∃ scan a, ScanOf g.slam d.msg scan ∧
      MatchedOn g init f w s.st.map scan (startPose ((s.st.filter.heap i).updatePose Real.sin Real.cos (d.odom.sub s.st.odom)) (d.guess i)) a ∧
      q = a.2)

/-- `u i` is the product of what the messages contribute to the weight of particle `i` (`none` if one of the scores is no number). -/
def Earned (g : GOwnCfg M) (init : M) (f : ℝ) (w : Nat) : GOwn M → List GMsg → (Nat → Option ℝ) → Prop
  | s, [], u => ∀ i ∈ s.st.filter.ids, u i = some 1
  | s, d :: ds, u => ∃ (s1 : GOwn M) (q u1 : Nat → Option ℝ), s.handle g d = some s1 ∧ Earned g init f w s1 ds u1 ∧
      ∀ i ∈ s.st.filter.ids, Factor g init f w s d i (q i) ∧ u i = mulN (q i) (u1 i)

/-- The share of `i` in the whole (`none` if something is no number, or the whole is nothing). -/
noncomputable def share (ids : List Nat) (v : Nat → Option ℝ) (i : Nat) : Option ℝ := divN (v i) (sumN (ids.map v))

/-! ## Proofs -/

variable {g : GOwnCfg M} {init : M} {f : ℝ} {w n : Nat}

theorem sum_numbers (ids : List Nat) (v : Nat → Option ℝ) (y : Nat → ℝ) (h : ∀ j ∈ ids, v j = some (y j)) :
    sumN (ids.map v) = some (ids.map y).sum := by
  rw [← Particle.sumN_some, List.map_map]
  congr 1
  exact List.map_congr_left h

theorem share_undefined (ids : List Nat) (v : Nat → Option ℝ) (i j : Nat) (hj : j ∈ ids) (h : v j = none) : share ids v i = none := by
  unfold share
  rw [Particle.sumN_none _ (List.mem_map.2 ⟨j, hj, h⟩)]
  cases v i <;> rfl

theorem share_number (ids : List Nat) (v : Nat → Option ℝ) (y : Nat → ℝ) (h : ∀ j ∈ ids, v j = some (y j)) (i : Nat) (hi : i ∈ ids) :
    share ids v i = if (ids.map y).sum = 0 then none else some (y i / (ids.map y).sum) := by
  unfold share
  rw [sum_numbers ids v y h, h i hi]
  rfl

theorem numbers_or_not (ids : List Nat) (v : Nat → Option ℝ) : (∃ j ∈ ids, v j = none) ∨ ∃ y : Nat → ℝ, ∀ j ∈ ids, v j = some (y j) := by
  by_cases h : ∃ j ∈ ids, v j = none
  · exact .inl h
  · push Not at h
    refine .inr ⟨fun j => (v j).getD 0, fun j hj => ?_⟩
    cases e : v j with
    | none => exact absurd e (h j hj)
    | some a => simp [e]

/-- Normalising in between changes no share. -/
theorem share_step (ids : List Nat) (q w u w1 : Nat → Option ℝ) (hnn : ∀ j ∈ ids, ∀ a, mulN (q j) (w j) = some a → 0 ≤ a)
    (h1 : ∀ i ∈ ids, w1 i = share ids (fun j => mulN (q j) (w j)) i) (i : Nat) (hi : i ∈ ids) :
    share ids (fun j => mulN (u j) (w1 j)) i = share ids (fun j => mulN (mulN (q j) (u j)) (w j)) i := by
  have comm : (fun j => mulN (mulN (q j) (u j)) (w j)) = fun j => mulN (u j) (mulN (q j) (w j)) := by
    funext j
    cases q j <;> cases u j <;> cases w j <;> simp [mulN]
    ring
  rw [comm]
  generalize hv : (fun j => mulN (q j) (w j)) = v at h1
  have hv' : ∀ j, mulN (q j) (w j) = v j := fun j => congrFun hv j
  simp only [hv'] at hnn ⊢
  clear comm hv hv'
  have right_none : ∀ a : Option ℝ, mulN a none = none := fun a => by cases a <;> rfl
  have left_none : ∀ a : Option ℝ, mulN none a = none := fun a => by cases a <;> rfl
  rcases numbers_or_not ids v with ⟨j, hj, hn⟩ | ⟨y, hy⟩
  · rw [share_undefined ids _ i j hj (by rw [h1 j hj, share_undefined ids v j j hj hn, right_none]),
      share_undefined ids _ i j hj (by rw [hn, right_none])]
  · rcases numbers_or_not ids u with ⟨j, hj, hn⟩ | ⟨z, hz⟩
    · rw [share_undefined ids _ i j hj (by rw [hn, left_none]), share_undefined ids _ i j hj (by rw [hn, left_none])]
    · rw [share_number ids (fun j => mulN (u j) (v j)) (fun j => z j * y j) (fun j hj => by rw [hz j hj, hy j hj]; rfl) i hi]
      by_cases h0 : (ids.map y).sum = 0
      · rw [share_undefined ids _ i i hi (by rw [h1 i hi, share_number ids v y hy i hi, if_pos h0, right_none])]
        have hall : ∀ j ∈ ids, y j = 0 := by
          intro j hj
          by_contra hne
          have hp : 0 < y j := lt_of_le_of_ne (hnn j hj _ (hy j hj)) (Ne.symm hne)
          have hle : y j ≤ (ids.map y).sum := List.single_le_sum (by
            intro x hx
            obtain ⟨k, hk, rfl⟩ := List.mem_map.1 hx
            exact hnn k hk _ (hy k hk)) _ (List.mem_map.2 ⟨j, hj, rfl⟩)
          linarith
        rw [if_pos]
        apply List.sum_eq_zero
        intro x hx
        obtain ⟨k, hk, rfl⟩ := List.mem_map.1 hx
        rw [hall k hk, mul_zero]
      · rw [share_number ids (fun j => mulN (u j) (w1 j)) (fun j => z j * y j * (ids.map y).sum⁻¹) (fun j hj => by
          rw [hz j hj, h1 j hj, share_number ids v y hy j hj, if_neg h0]
          simp only [mulN]
          rw [div_eq_mul_inv, mul_assoc]) i hi]
        rw [List.sum_map_mul_right]
        by_cases hs : (ids.map fun j => z j * y j).sum = 0
        · rw [if_pos (by rw [hs, zero_mul]), if_pos hs]
        · rw [if_neg (mul_ne_zero hs (inv_ne_zero h0)), if_neg hs, mul_div_mul_right _ _ (inv_ne_zero h0)]

theorem weight_after (x : World ℝ) (e : Particle.Env ℝ) (a : Delta ℝ × Option ℝ) (h : ∀ p, e.matcher p = a) :
    (x.handleObservation e).1.weight = mulN (if x.tooClose then some 1 else a.2) x.weight := by
  unfold World.handleObservation
  by_cases hc : x.tooClose = true
  · rw [if_pos hc, if_pos hc]
    cases x.weight <;> simp [mulN]
  · rw [if_neg hc, if_neg hc]
    simp only [h]
    by_cases hs : x.scanFirst = true
    · simp [hs]
    · simp [hs]

/-- **One message (C119).** -/
theorem pair_weights (hc : GStarted g init) {s : GOwn M} (hs : GSound g init f w n s) (hn : n ≤ 2) {d : GMsg} {s' : GOwn M}
    (h : s.handle g d = some s') : ∃ q : Nat → Option ℝ, ∀ i ∈ s.st.filter.ids, Factor g init f w s d i (q i) ∧
      (∀ a, q i = some a → Unit01 a) ∧
      (s'.st.filter.heap i).weight = share s.st.filter.ids (fun j => mulN (q j) (s.st.filter.heap j).weight) i := by
  simp only [GOwn.handle, Option.bind_eq_some_iff, Option.map_eq_some_iff] at h
  obtain ⟨pts, h1, scan, h2, r, h3, f', h4, rfl⟩ := h
  have hd : observerStep s.st.odom d.odom = (d.odom, d.odom.sub s.st.odom) := rfl
  rw [hd] at h3 h4
  simp only at h3 h4
  have hfac := scanOf_polar h2
  obtain ⟨k1, -⟩ := pair_kept hc hs hn d hfac rfl h3 d.samples _ rfl
  rw [k1, Option.some.injEq] at h4
  subst h4
  obtain ⟨hinv, hpos⟩ := Particle.reach_inv _ _ _ _ hs.filter
  generalize hfu : s.st.filter.updatePose Real.sin Real.cos (d.odom.sub s.st.odom) = fu at h3
  have hids : fu.ids = s.st.filter.ids := by rw [← hfu]; rfl
  have hheap : ∀ i ∈ s.st.filter.ids, fu.heap i = (s.st.filter.heap i).updatePose Real.sin Real.cos (d.odom.sub s.st.odom) := by
    intro i hi
    rw [← hfu]
    exact updated_heap hs.filter _ i hi
  obtain ⟨ans, a1, -, -, -, a5, a6⟩ := observeOwn_spec hc d scan hfac fu.ids fu.heap fu.maps _ _ _ r (by rw [hids]; exact hinv.nodup)
    hs.map hs.matcher hs.last h3
  obtain ⟨env, log, e1, e2, -⟩ := observeEach_spec g.slam (d.answered ans) scan fu.ids fu.heap fu.maps _ _ _ (by rw [hids]; exact hinv.nodup)
    (by
      intro i hi
      rw [hids] at hi
      rw [hheap i hi]
      exact hinv.shared i hi) a1
  have henv : ∀ i p, (env i).matcher p = ans i := by
    intro i p
    obtain ⟨-, -, m, -, hm⟩ := e1 i
    exact hm p
  have hr1 : ∀ i ∈ s.st.filter.ids, (r.1 i).weight =
      mulN (if (fu.heap i).tooClose then some 1 else (ans i).2) (s.st.filter.heap i).weight := by
    intro i hi
    have := Particle.observeAll_heap env fu.ids (by rw [hids]; exact hinv.nodup) fu.heap fu.maps i
    rw [e2, if_pos (by rw [hids]; exact hi)] at this
    have this : r.1 i = ((fu.heap i).handleObservation (env i)).1 := this
    rw [this, weight_after _ _ _ (henv i)]
    congr 1
    rw [hheap i hi]
    rfl
  refine ⟨fun i => if (fu.heap i).tooClose then some 1 else (ans i).2, fun i hi => ⟨?_, ?_, ?_⟩⟩
  · by_cases ht : (fu.heap i).tooClose = true
    · refine .inl ⟨by rw [← hheap i hi]; exact ht, ?_⟩
      simp only [ht, if_true]
    · refine .inr ⟨by rw [← hheap i hi]; simpa using ht, scan, ans i, ⟨pts, h1, h2⟩, ?_, ?_⟩
      · have := a6 i (by rw [hids]; exact hi) (by simpa using ht)
        rw [hheap i hi] at this
        exact this
      · simp only [ht, Bool.false_eq_true, if_false]
  · intro a ha
    by_cases ht : (fu.heap i).tooClose = true
    · simp only [ht, if_true, Option.some.injEq] at ha
      rw [← ha]
      exact ⟨by norm_num, le_rfl⟩
    · simp only [ht, Bool.false_eq_true, if_false] at ha
      exact answers_unit hc hfac (a5 i) a ha
  · change (forEach (fun w : World ℝ => { w with weight := divN w.weight (sumN ({ fu with
        heap := r.1
        maps := r.2.1 } : Particle.Filter ℝ).weights) }) r.1 fu.ids i).weight = _
    rw [Particle.forEach_apply _ _ (by rw [hids]; exact hinv.nodup), if_pos (by rw [hids]; exact hi)]
    simp only
    have hsum : ({ fu with
        heap := r.1
        maps := r.2.1 } : Particle.Filter ℝ).weights =
        s.st.filter.ids.map fun j => mulN (if (fu.heap j).tooClose then some 1 else (ans j).2) (s.st.filter.heap j).weight := by
      change (fu.ids.map r.1).map World.weight = _
      rw [hids, List.map_map]
      exact List.map_congr_left hr1
    rw [hsum, hr1 i hi]
    rfl

/-- The weights are numbers that are not negative, or not defined. -/
theorem weights_nonneg {ff : Particle.Filter ℝ} (h : Particle.Inv n ff) (i : Nat) (hi : i ∈ ff.ids) (a : ℝ)
    (ha : (ff.heap i).weight = some a) : 0 ≤ a := by
  have hm : (ff.heap i).weight ∈ ff.weights := by
    rw [Particle.Filter.weights, Particle.Filter.particles, List.map_map]
    exact List.mem_map.2 ⟨i, hi, rfl⟩
  rw [ha] at hm
  rcases h.weights with h | ⟨vs, hv, hd⟩
  · cases h _ hm
  · rw [hv, List.mem_map] at hm
    obtain ⟨v, hv', e⟩ := hm
    rw [Option.some.injEq] at e
    exact e ▸ hd.1 v hv'

theorem weights_own_shares {ff : Particle.Filter ℝ} (h : Particle.Inv n ff) (i : Nat) (hi : i ∈ ff.ids) :
    (ff.heap i).weight = share ff.ids (fun j => (ff.heap j).weight) i := by
  have e : ff.weights = ff.ids.map fun j => (ff.heap j).weight := by
    rw [Particle.Filter.weights, Particle.Filter.particles, List.map_map]
    rfl
  rcases h.weights with h | ⟨vs, hv, hd⟩
  · have hi' : (ff.heap i).weight = none := h _ (by rw [e]; exact List.mem_map.2 ⟨i, hi, rfl⟩)
    rw [share_undefined ff.ids _ i i hi hi', hi']
  · unfold share
    rw [← e, hv, Particle.sumN_some, hd.2]
    change _ = divN (ff.heap i).weight (some 1)
    cases (ff.heap i).weight <;> simp [divN]

/-- **Histories (C119).** -/
theorem pair_shares (hc : GStarted g init) (hn : n ≤ 2) : ∀ (ds : List GMsg) {s s' : GOwn M}, GSound g init f w n s →
    s.run g ds = some s' → ∃ u : Nat → Option ℝ, Earned g init f w s ds u ∧ ∀ i ∈ s.st.filter.ids, (∀ a, u i = some a → Unit01 a) ∧
      (s'.st.filter.heap i).weight = share s.st.filter.ids (fun j => mulN (u j) (s.st.filter.heap j).weight) i
  | [], s, s', hs, h => by
    simp only [GOwn.run, Option.some.injEq] at h
    subst h
    refine ⟨fun _ => some 1, fun i _ => rfl, fun i hi => ⟨fun a ha => ?_, ?_⟩⟩
    · rw [Option.some.injEq] at ha
      rw [← ha]
      exact ⟨by norm_num, le_rfl⟩
    · have : (fun j => mulN (some 1) (s.st.filter.heap j).weight) = fun j => (s.st.filter.heap j).weight := by
        funext j
        cases (s.st.filter.heap j).weight <;> simp [mulN]
      rw [this]
      exact weights_own_shares (Particle.reach_inv _ _ _ _ hs.filter).1 i hi
  | d :: ds, s, s', hs, h => by
    simp only [GOwn.run, Option.bind_eq_some_iff] at h
    obtain ⟨s1, h1, h2⟩ := h
    obtain ⟨hs1, hsame, -, -⟩ := (pair_message hc hs hn (d := d) (e := d) ⟨rfl, rfl, rfl, rfl⟩).2 s1 h1
    obtain ⟨q, hq⟩ := pair_weights hc hs hn h1
    obtain ⟨u1, k1, k2⟩ := pair_shares hc hn ds hs1 h2
    rw [hsame.1] at k2
    refine ⟨fun i => mulN (q i) (u1 i), ⟨s1, q, u1, h1, k1, fun i hi => ⟨(hq i hi).1, rfl⟩⟩, fun i hi => ⟨fun a ha => ?_, ?_⟩⟩
    · change mulN (q i) (u1 i) = some a at ha
      cases eq : q i with
      | none => rw [eq] at ha; cases u1 i <;> simp [mulN] at ha
      | some x =>
        cases eu : u1 i with
        | none => rw [eq, eu] at ha; simp [mulN] at ha
        | some y =>
          rw [eq, eu] at ha
          simp only [mulN, Option.some.injEq] at ha
          obtain ⟨x0, x1⟩ := (hq i hi).2.1 x eq
          obtain ⟨y0, y1⟩ := (k2 i hi).1 y eu
          rw [← ha]
          exact ⟨mul_nonneg x0 y0, mul_le_one₀ x1 y0 y1⟩
    · rw [(k2 i hi).2]
      refine share_step s.st.filter.ids q _ u1 _ ?_ (fun j hj => (hq j hj).2.2) i hi
      intro j hj a ha
      cases eq : q j with
      | none => rw [eq] at ha; cases (s.st.filter.heap j).weight <;> simp [mulN] at ha
      | some x =>
        cases ew : (s.st.filter.heap j).weight with
        | none => rw [eq, ew] at ha; simp [mulN] at ha
        | some y =>
          rw [eq, ew] at ha
          simp only [mulN, Option.some.injEq] at ha
          rw [← ha]
          exact mul_nonneg ((hq j hj).2.1 x eq).1 (weights_nonneg (Particle.reach_inv _ _ _ _ hs.filter).1 j hj y ew)

end

/-! ## GMapping as started -/

section
variable {stod : Config.Str → Option ℝ} {env : Env} {rnd : ℝ → ℝ} {draws : Config.GmappingParams ℝ → Nat → Delta ℝ} {t : Config.Table}

/-- **GMapping started with at most two particles (C119).** The weights after any messages are the products of the scores, divided by
their sum; the pose shown is that of the particle whose product is greatest, the later one if they are equal. If one of the products is
no number, or all are zero, no weight is a number, and the pose shown is that of the last particle. -/
theorem launched_shares (hrnd : ∀ x, Unit01 x → Unit01 (rnd x)) {w : Config.World ℝ} {p : Config.GmappingParams ℝ} {n : Nat}
    (hw : Config.initGmapping stod t = some (w, p, n)) (h : GSensible w n) (hn : n ≤ 2) {P : GProgram}
    (hP : launchGmapping stod env rnd draws t = some P) (ds : List GMsg) {s : GOwn (AnyMap (GmCell ℝ))}
    (hs : P.start.run P.cfg ds = some s) :
    ∃ u : Nat → Option ℝ, Earned P.cfg P.start.st.map P.start.matcher.pe.fullness P.start.matcher.pe.window P.start ds u ∧
      (∀ x : Nat → ℝ, (∀ i < n, u i = some (x i)) → (∃ i < n, x i ≠ 0) →
        (∀ i < n, 0 ≤ x i ∧ (s.st.filter.heap i).weight = some (x i / ((List.range n).map x).sum)) ∧
        ∃ b < n, s.st.pose = some (s.st.filter.heap b).pose ∧ (∀ i < n, x i ≤ x b) ∧ ∀ i < n, b < i → x i < x b) ∧
      ((∃ i < n, u i = none) ∨ (∀ i < n, u i = some 0) →
        (∀ i < n, (s.st.filter.heap i).weight = none) ∧ s.st.pose = some (s.st.filter.heap (n - 1)).pose) := by
  obtain ⟨P', hP', -, hst, hsd, hg, -, -⟩ := gmapping_launches (env := env) (draws := draws) hrnd hw h
  rw [hP, Option.some.injEq] at hP'
  subst hP'
  have hcold := cold_start_state hg
  have hids : P.start.st.filter.ids = List.range n := by rw [hcold.ids]; simp
  obtain ⟨m, hm, -, hrun⟩ := launched_two hrnd hw h hn hP
  have hids' := (hrun ds s hs).1
  have hn0 : 0 < n := by omega
  have hnr : (0 : ℝ) < n := by exact_mod_cast hn0
  have hwt : ∀ i < n, (P.start.st.filter.heap i).weight = some (1 / (n : ℝ)) := by
    intro i hi
    obtain ⟨-, -, -, -, -, -, hwi⟩ := hcold.one i (by simpa using hi)
    simpa using hwi
  obtain ⟨u, k1, k2⟩ := pair_shares hst hn ds hsd hs
  rw [hids] at k2
  have hmem : ∀ {i}, i ∈ List.range n ↔ i < n := List.mem_range
  refine ⟨u, k1, fun x hx hne => ?_, fun hbad => ?_⟩
  · have hx0 : ∀ i < n, 0 ≤ x i := fun i hi => ((k2 i (hmem.2 hi)).1 _ (hx i hi)).1
    have hsum : 0 < ((List.range n).map x).sum := by
      obtain ⟨j, hj, hxj⟩ := hne
      have hp : 0 < x j := lt_of_le_of_ne (hx0 j hj) (Ne.symm hxj)
      refine hp.trans_le (List.single_le_sum ?_ _ (List.mem_map.2 ⟨j, hmem.2 hj, rfl⟩))
      intro y hy
      obtain ⟨k, hk, rfl⟩ := List.mem_map.1 hy
      exact hx0 k (hmem.1 hk)
    have hweight : ∀ i < n, (s.st.filter.heap i).weight = some (x i / ((List.range n).map x).sum) := by
      intro i hi
      rw [(k2 i (hmem.2 hi)).2, share_number (List.range n) _ (fun j => x j * (1 / n)) (fun j hj => by
        rw [hx j (hmem.1 hj), hwt j (hmem.1 hj)]; rfl) i (hmem.2 hi), List.sum_map_mul_right, if_neg (by positivity)]
      congr 1
      rw [mul_div_mul_right _ _ (by positivity)]
    refine ⟨fun i hi => ⟨hx0 i hi, hweight i hi⟩, ?_⟩
    obtain ⟨l, rr, b, a, e1, e2, e3, e4, e5⟩ := Particle.reports_heaviest s.st.filter.ids s.st.filter.heap
      (by rw [hids']; intro h0; rw [List.range_eq_nil] at h0; omega)
      (fun i hi => by rw [hids'] at hi; exact ⟨_, hweight i (hmem.1 hi)⟩)
    have hb : b < n := by
      rw [← hmem, ← hids', e1]
      simp
    have ha : a = x b / ((List.range n).map x).sum := by
      rw [hweight b hb, Option.some.injEq] at e3
      exact e3.symm
    have hord : (l ++ b :: rr).Pairwise (· < ·) := by
      rw [← e1, hids']
      exact List.pairwise_lt_range
    rw [List.pairwise_append] at hord
    obtain ⟨-, o2, o3⟩ := hord
    have hcase : ∀ i < n, (i ∈ l ∧ i < b) ∨ i = b ∨ (i ∈ rr ∧ b < i) := by
      intro i hi
      have hi' : i ∈ l ++ b :: rr := by rw [← e1, hids']; exact hmem.2 hi
      rcases List.mem_append.1 hi' with hl | hr
      · exact .inl ⟨hl, o3 i hl b (by simp)⟩
      · rcases List.mem_cons.1 hr with rfl | hr
        · exact .inr (.inl rfl)
        · exact .inr (.inr ⟨hr, (List.pairwise_cons.1 o2).1 i hr⟩)
    refine ⟨b, hb, ?_, fun i hi => ?_, fun i hi hbi => ?_⟩
    · simp only [GSt.pose, Particle.Filter.world, e2, Option.map_some]
    · rcases hcase i hi with ⟨hl, -⟩ | rfl | ⟨hr, -⟩
      · have := e4 i hl _ (hweight i hi)
        rw [ha, div_le_div_iff_of_pos_right hsum] at this
        exact this
      · exact le_rfl
      · have := e5 i hr _ (hweight i hi)
        rw [ha, div_lt_div_iff_of_pos_right hsum] at this
        exact this.le
    · rcases hcase i hi with ⟨-, hlt⟩ | rfl | ⟨hr, -⟩
      · omega
      · omega
      · have := e5 i hr _ (hweight i hi)
        rw [ha, div_lt_div_iff_of_pos_right hsum] at this
        exact this
  · have hall : ∀ i < n, (s.st.filter.heap i).weight = none := by
      intro i hi
      rw [(k2 i (hmem.2 hi)).2]
      rcases hbad with ⟨j, hj, hnone⟩ | hzero
      · refine share_undefined _ _ i j (hmem.2 hj) ?_
        simp only [hnone]
        rfl
      · rw [share_number (List.range n) _ (fun _ => 0) (fun j hj => by
          simp only [hzero j (hmem.1 hj), hwt j (hmem.1 hj), mulN, zero_mul]) i (hmem.2 hi)]
        simp
    refine ⟨hall, ?_⟩
    obtain rfl | rfl : n = 1 ∨ n = 2 := by omega
    · simp only [GSt.pose, Particle.Filter.world, hids', List.range_succ, List.range_zero, List.nil_append, Particle.heaviest,
        Option.map_some]
    · simp only [GSt.pose, Particle.Filter.world, hids', List.range_succ, List.range_zero, List.nil_append, List.cons_append,
        Particle.heaviest, hall 1 (by norm_num), Particle.ltN, Bool.false_eq_true, if_false, Option.map_some]

/-- Two particles, up to a hundred messages. -/
example (k : Nat) (hk : k ≤ 100) : ∃ init s s' u, GStarted gOwnDemoCfg init ∧ GSound gOwnDemoCfg init (1 / 10) 1 2 s ∧
    s.run gOwnDemoCfg ((List.range k).map gOwnDemoMsg) = some s' ∧
    Earned gOwnDemoCfg init (1 / 10) 1 s ((List.range k).map gOwnDemoMsg) u := by
  obtain ⟨init, st, hL, -, hs, hrun⟩ := gown_demo_start
  obtain ⟨s', h1⟩ := hrun k hk
  obtain ⟨u, hu, -⟩ := pair_shares (gown_demo_started hL) le_rfl _ hs h1
  exact ⟨init, _, s', u, gown_demo_started hL, hs, h1, hu⟩

/-- The GMapping of C115's instance: one particle, which carries all the weight or none. -/
example (stod : Config.Str → Option ℝ) (draws : Config.GmappingParams ℝ → Nat → Delta ℝ) : ∃ P s,
    launchGmapping stod gLeastEnv (fun x => (⌊x * 1024⌋ : ℝ) / 1024) draws gLone = some P ∧
    P.start.run P.cfg ([gLoneMsg 0, gLoneMsg 1] ++ List.replicate 50 (gLoneMsg 1)) = some s ∧
    ((s.st.filter.heap 0).weight = some 1 ∨ (s.st.filter.heap 0).weight = none) := by
  obtain ⟨P, s, hP, hs, -⟩ := glone_total stod draws (k := 50) le_rfl
  obtain ⟨u, -, h1, h2⟩ := launched_shares (fun x hx => (lone_rnd x hx).1) (glone_read stod) glone_sensible (by norm_num) hP _ hs
  refine ⟨P, s, hP, hs, ?_⟩
  cases e : u 0 with
  | none => exact .inr ((h2 (.inl ⟨0, by norm_num, e⟩)).1 0 (by norm_num))
  | some x =>
    by_cases hx : x = 0
    · exact .inr ((h2 (.inr fun i hi => by
        have : i = 0 := by omega
        rw [this, e, hx])).1 0 (by norm_num))
    · left
      rw [((h1 (fun _ => x) (fun i hi => by
        have : i = 0 := by omega
        rw [this, e]) ⟨0, by norm_num, hx⟩).1 0 (by norm_num)).2]
      simp [hx]

end

end Slam.Whole
