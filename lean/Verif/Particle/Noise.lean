import Verif.Particle.Master

/-!
# Which particles the sampling noise is applied to (C56)
-/

set_option autoImplicit false
set_option linter.unusedSectionVars false

namespace Slam.Particle
open Slam.Poses

variable {K : Type*} [Field K] [LinearOrder K] [IsStrictOrderedRing K]

/-- The particle `w` is what became of the particle `p` in a scan: it is where `p` is after the robot's motion, the
noise and the matching, and remembers the same things; weight and marks are left open. -/
def CameFrom (sn cs : K → K) (delta : Delta K) (e : Env K) (p w : World K) : Prop :=
  let q := ((p.updatePose sn cs delta).handleObservation e).1
  w.pose = q.pose ∧ w.rawOdom = q.rawOdom ∧ w.deltaSince = q.deltaSince ∧ w.nextSm = q.nextSm ∧
    w.scanFirst = q.scanFirst ∧ w.mapRef = q.mapRef

/-- **Where the noise goes (C56), one particle**: a particle that matches a scan and has inserted one before first
moves by the sampled noise if it is subject to noise, and not otherwise; then the matcher, started at the moved pose,
adds its correction. -/
theorem perturbed_then_matched (w : World K) (e : Env K) (hc : w.tooClose = false) (hf : w.scanFirst = false) :
    (w.handleObservation e).1.pose =
      (w.pose.add (if w.noisy then e.guess else ⟨0, 0, 0⟩)).add
        (e.matcher (w.pose.add (if w.noisy then e.guess else ⟨0, 0, 0⟩))).1 := by
  unfold World.handleObservation
  rw [hc, hf]
  simp

/-- **Where the noise goes (C56), at the start**: all particles but the master are subject to noise. -/
theorem noise_at_creation (steps : List (Delta K)) (f : Filter K) (h : Filter.create steps = some f) :
    ∀ w ∈ f.particles, w.noisy = !w.master := by
  have hinv := inv_create steps f h
  unfold Filter.create at h
  simp only at h
  rw [Option.map_eq_some_iff] at h
  obtain ⟨i, hi, rfl⟩ := h
  intro w hw
  rw [Filter.particles, List.mem_map] at hw
  obtain ⟨x, hx, rfl⟩ := hw
  simp only at hx ⊢
  by_cases hxi : x = i
  · simp [setObj, hxi, World.markMaster]
  · rw [setObj, if_neg hxi, forEach_apply _ _ List.nodup_range, if_pos hx]
    rfl

theorem ensureMaster_came (f g : Filter K) (h : f.ensureMaster = some g) :
    g.ids = f.ids ∧ ∀ x ∈ f.ids, g.heap x = f.heap x ∨ g.heap x = (f.heap x).markMaster := by
  unfold Filter.ensureMaster at h
  by_cases ha : f.particles.any World.master = true
  · rw [if_pos ha] at h
    injection h with h
    subst h
    exact ⟨rfl, fun x _ => .inl rfl⟩
  · rw [if_neg ha, Option.map_eq_some_iff] at h
    obtain ⟨i, -, rfl⟩ := h
    refine ⟨rfl, fun x _ => ?_⟩
    by_cases hxi : x = i
    · right; simp [setObj, hxi]
    · left; simp [setObj, hxi]

/-- **Where the noise goes (C56), over a scan**: every particle after a scan came from a particle before it, and it is
subject to noise exactly if that one was and it is not itself the master. So the exempt particles are the master
and the descendants of masters; copies of a master are not given the noise back. -/
theorem noise_inherited (sn cs : K → K) (n : Nat) (f : Filter K) (hr : Reach sn cs n f) (delta : Delta K)
    (env : Nat → Env K) (samples : List K) (henv : ∀ i p a, ((env i).matcher p).2 = some a → 0 ≤ a)
    (hlen : samples.length = n) (hs : ∀ s ∈ samples, 0 ≤ s ∧ s < 1) (g : Filter K)
    (hg : f.handle sn cs delta env samples = some g) :
    ∀ w ∈ g.particles, ∃ x ∈ f.ids, CameFrom sn cs delta (env x) (f.heap x) w ∧
      w.noisy = ((f.heap x).noisy && !w.master) := by
  obtain ⟨hf, hn⟩ := reach_inv sn cs n f hr
  have hginv : Inv n g := by
    obtain ⟨g', h1, h2⟩ := inv_handle sn cs n hn f hf delta env samples henv hlen hs
    rw [hg] at h1
    injection h1 with h1
    exact h1 ▸ h2
  unfold Filter.handle at hg
  simp only at hg
  set u := f.updatePose sn cs delta with hu
  have uheap : ∀ x ∈ f.ids, u.heap x = (f.heap x).updatePose sn cs delta := by
    intro x hx
    rw [hu]
    unfold Filter.updatePose
    simp only
    rw [forEach_apply _ _ hf.nodup, if_pos hx]
  set r := observeAll env u.ids u.heap u.maps with hr'
  set o : Filter K := { u with heap := r.1, maps := r.2 } with ho
  have oheap : ∀ x ∈ f.ids, o.heap x = ((u.heap x).handleObservation (env x)).1 := by
    intro x hx
    rw [ho]
    simp only
    rw [hr', observeAll_heap env u.ids hf.nodup]
    exact if_pos hx
  have nheap : ∀ x ∈ f.ids, o.normalize.heap x =
      { o.heap x with weight := divN (o.heap x).weight (sumN o.weights) } := by
    intro x hx
    unfold Filter.normalize
    simp only
    rw [forEach_apply _ _ (show o.ids.Nodup from hf.nodup)]
    exact if_pos hx
  -- before resampling
  have qcame : ∀ x ∈ f.ids, CameFrom sn cs delta (env x) (f.heap x) (o.normalize.heap x) ∧
      (o.normalize.heap x).noisy = (f.heap x).noisy ∧ (o.normalize.heap x).master = (f.heap x).master := by
    intro x hx
    rw [nheap x hx, oheap x hx, uheap x hx]
    obtain ⟨h1, h2, h3, -⟩ := handleObservation_fields ((f.heap x).updatePose sn cs delta) (env x)
    exact ⟨⟨rfl, rfl, rfl, rfl, rfl, rfl⟩, h2, h1⟩
  have qids : o.normalize.ids = f.ids := rfl
  have qnext : o.normalize.next = f.next := rfl
  have onn : ∀ a, some a ∈ o.weights → (0 : K) ≤ a := by
    intro a ha
    rw [Filter.weights, Filter.particles, List.map_map, List.mem_map] at ha
    obtain ⟨x, hx, hxa⟩ := ha
    have hx : x ∈ f.ids := hx
    change (o.heap x).weight = some a at hxa
    rw [oheap x hx, uheap x hx] at hxa
    have hold : ∀ b, (f.heap x).weight = some b → 0 ≤ b := by
      intro b hb
      have hmemw : some b ∈ f.weights := by
        rw [Filter.weights, Filter.particles, List.map_map, List.mem_map]
        exact ⟨x, hx, hb⟩
      rcases hf.weights with h | ⟨vs, hv, hd⟩
      · cases h _ hmemw
      · rw [hv, List.mem_map] at hmemw
        obtain ⟨v, hv', e⟩ := hmemw
        injection e with e
        exact e ▸ hd.1 v hv'
    have hup : ((f.heap x).updatePose sn cs delta).weight = (f.heap x).weight := rfl
    rcases (handleObservation_fields ((f.heap x).updatePose sn cs delta) (env x)).2.2.2 with h | ⟨p, h⟩
    · rw [h, hup] at hxa; exact hold a hxa
    · rw [h, hup] at hxa
      cases hp : ((env x).matcher p).2 with
      | none => rw [hp] at hxa; simp [mulN] at hxa
      | some q =>
        cases hb : (f.heap x).weight with
        | none => rw [hp, hb] at hxa; simp [mulN] at hxa
        | some b =>
          rw [hp, hb] at hxa
          simp only [mulN] at hxa
          injection hxa with hxa
          rw [← hxa]
          exact mul_nonneg (henv x p q hp) (hold b hb)
  have qw := normalize_cases o hf.nodup onn
  generalize o.normalize = q at qcame qids qnext hg qw
  have qquiet : ∀ x ∈ f.ids, (q.heap x).master = true → (q.heap x).noisy = false := by
    intro x hx hm
    obtain ⟨-, h1, h2⟩ := qcame x hx
    rw [h1]; exact hf.quiet x hx (h2 ▸ hm)
  -- what resampling makes of it
  have main : ∀ y ∈ g.ids, ∃ x ∈ f.ids, (SameState (g.heap y) (q.heap x) ∨
      (SameState (g.heap y) { q.heap x with noisy := false } ∧ (g.heap y).master = true)) := by
    unfold Filter.gTryResample at hg
    by_cases ht : (decide (q.traversed.sqDist ≤ 1 / 2) && decide (q.traversed.theta ≤ 1 / 5)) = true
    · rw [if_pos ht] at hg
      injection hg with hg
      subst hg
      intro y hy
      exact ⟨y, qids ▸ hy, .inl ⟨rfl, rfl, rfl, rfl, rfl, rfl, rfl⟩⟩
    · rw [if_neg ht] at hg
      by_cases hreq : resamplingRequired q.weights = true
      · rcases qw with h | ⟨ws, hw, hdist⟩
        · have hne : q.weights ≠ [] := by
            intro h0
            have := congrArg List.length h0
            simp [Filter.weights, Filter.particles, qids, hf.length] at this
            omega
          obtain ⟨w, ws, e⟩ := List.exists_cons_of_ne_nil hne
          have hnone : none ∈ q.weights := by
            have := h w (by rw [e]; simp)
            rw [e, this]; simp
          rw [(resampling_rule q.weights).1 hnone] at hreq
          cases hreq
        · obtain ⟨f', h1, h2, h3, h4, h5, -, -, h8, -⟩ := tryResample_spec q (qids ▸ hf.nodup)
            (by rw [qids, qnext]; exact hf.below) ws hw hdist samples (by rw [hlen, qids, hf.length]) hs hreq
          rw [h1] at hg
          simp only [Option.bind_some, if_true] at hg
          obtain ⟨gi, gh⟩ := ensureMaster_came _ g hg
          simp only at gi gh
          intro y hy
          rw [gi] at hy
          obtain ⟨i, hi, -, hss, -⟩ := h8 y hy
          refine ⟨i, qids ▸ hi, ?_⟩
          rcases gh y hy with h | h
          · left; rw [h]; exact hss
          · right; rw [h]
            exact ⟨⟨rfl, hss.2⟩, rfl⟩
      · have : q.tryResample samples = some (false, q) := by
          unfold Filter.tryResample
          rw [Bool.eq_false_iff.2 hreq]; rfl
        rw [this] at hg
        simp only [Option.bind_some, Bool.false_eq_true, if_false] at hg
        injection hg with hg
        subst hg
        intro y hy
        exact ⟨y, qids ▸ hy, .inl ⟨rfl, rfl, rfl, rfl, rfl, rfl, rfl⟩⟩
  intro w hw
  rw [Filter.particles, List.mem_map] at hw
  obtain ⟨y, hy, rfl⟩ := hw
  obtain ⟨x, hx, h⟩ := main y hy
  obtain ⟨⟨c1, c2, c3, c4, c5, c6⟩, hno, -⟩ := qcame x hx
  refine ⟨x, hx, ?_, ?_⟩
  · rcases h with ⟨-, s1, s2, s3, s4, s5, s6⟩ | ⟨⟨-, s1, s2, s3, s4, s5, s6⟩, -⟩
    · exact ⟨s2.trans c1, s3.trans c2, s4.trans c3, s5.trans c4, s1.trans c5, s6.trans c6⟩
    · exact ⟨s2.trans c1, s3.trans c2, s4.trans c3, s5.trans c4, s1.trans c5, s6.trans c6⟩
  · have hq := hginv.quiet y hy
    rcases h with h | ⟨h, hm⟩
    · cases hm : (g.heap y).master with
      | true => rw [hq hm]; simp
      | false => rw [h.1, hno]; simp
    · rw [hm, hq hm]; simp

/-- Non-vacuity: `demoRun` is such a scan; the copies of the master came from the exempt master. -/
example : (demo.map fun f => f.particles.map fun w => (w.master, w.noisy)) =
      some [(false, true), (false, true), (true, false)] ∧
    (demoRun.map fun f => f.particles.map fun w => (w.master, w.noisy)) =
      some [(true, false), (false, false), (false, false)] := by decide +kernel

end Slam.Particle
