import Verif.Float.Round
import Verif.World.Props

/-!
# Following the odometry in floating point

`LaserScanObserver::handle_transformed_msg` (src/ros/laser_scan_observer.h) subtracts the previous odometry pose from the new
one, the world adds the difference to its pose (src/core/states/world.h), then the scan matcher's correction
(src/core/states/single_state_hypothesis_laser_scan_grid_world.h). Every operation is rounded by `r`.
-/

set_option autoImplicit false
set_option linter.unusedSectionVars false

namespace Slam.Float
open Slam.Poses Slam.Worlds

variable {K : Type*} [Field K] [LinearOrder K] [IsStrictOrderedRing K] [FloorRing K]

/-- `RobotPose::operator-`, robot_pose.h:116-118, rounded. -/
def subF (r : K → K) (p q : Pose K) : Delta K := ⟨r (p.x - q.x), r (p.y - q.y), r (p.theta - q.theta)⟩

/-- `RobotPose::operator+=`, robot_pose.h:124-131, rounded. -/
def addF (r : K → K) (p d : Pose K) : Pose K := ⟨r (p.x + d.x), r (p.y + d.y), r (p.theta + d.theta)⟩

/-- One scan message, laser_scan_observer.h:28-39, laser_scan_grid_world.h:26-32 and
single_state_hypothesis_laser_scan_grid_world.h:52-65: the pose after it. `m` is the scan matcher. -/
def trackF (r : K → K) (pose prev new : Pose K) (m : Pose K → Delta K) : Pose K :=
  let q := addF r pose (subF r new prev)
  addF r q (m q)

/-- The poses after each of a sequence of messages, laser_scan_observer.h:34-35. -/
def tracksF (r : K → K) (pose prev : Pose K) : List (Pose K × (Pose K → Delta K)) → List (Pose K)
  | [] => []
  | (p, m) :: l => trackF r pose prev p m :: tracksF r (trackF r pose prev p m) p l

/-- Without rounding these are the poses of the exact world. -/
theorem tracks_exact (P : Worlds.Props K) (s : State K) (prev : Pose K) (l : List (Pose K × (Pose K → Delta K))) :
    (tracksF id s.pose prev l).getLastD s.pose = (drive P s prev l).pose := by
  induction l generalizing s prev with
  | nil => rfl
  | cons x l ih =>
    obtain ⟨p, m⟩ := x
    rw [tracksF, List.getLastD_cons]
    exact ih (s.handle P (observerStep prev p).2 m).1 p

/-! ## Specification -/

/-- Every coordinate of `p` is within `δ` of `q`'s. -/
def PoseNear (δ : K) (p q : Pose K) : Prop := |p.x - q.x| ≤ δ ∧ |p.y - q.y| ≤ δ ∧ |p.theta - q.theta| ≤ δ

/-- No coordinate exceeds `B`. -/
def Bounded (B : K) (p : Pose K) : Prop := |p.x| ≤ B ∧ |p.y| ≤ B ∧ |p.theta| ≤ B

/-- Every coordinate is a multiple of `2^e`, of at most 2^52 times its size. -/
def OnLattice (e : ℤ) (p : Pose K) : Prop :=
  ∃ a b c : ℤ, |a| ≤ 2 ^ 52 ∧ |b| ≤ 2 ^ 52 ∧ |c| ≤ 2 ^ 52 ∧ p = ⟨a * 2 ^ e, b * 2 ^ e, c * 2 ^ e⟩

/-! ## Proofs -/

section
variable {r : K → K}

/-- If the rounded sum is bounded, so is the sum, and the error is small. -/
theorem sum_err (R : Nearest r) {k : ℤ} (hk : -1022 ≤ k) {z : K} (h : |r z| ≤ 2 ^ k) : |r z - z| ≤ 2 ^ (k - 53) := by
  have hd : IsDouble ((2 : K) ^ (k + 1)) := ⟨1, k + 1, by norm_num, by omega, by simp⟩
  have h2 : (2 : K) ^ k < 2 ^ (k + 1) := by
    rw [zpow_add_one₀ (by norm_num)]; linarith [two_zpow_pos (K := K) k]
  have hz : |z| ≤ 2 ^ (k + 1) := by
    rw [abs_le]
    have h' := abs_le.1 h
    constructor
    · by_contra hc
      have := R.le_of_le hd.neg (not_le.1 hc).le
      linarith [h'.1]
    · by_contra hc
      have := R.ge_of_ge hd (not_le.1 hc).le
      linarith [h'.2]
  have := R.err (k := k + 1) (by omega) hz
  rwa [show k + 1 - 54 = k - 53 by ring] at this

/-- One coordinate of one message. -/
theorem track_coord (R : Nearest r) {k : ℤ} (hk : -1022 ≤ k) {u v w c : K} (hu : |u| ≤ 2 ^ k) (hv : |v| ≤ 2 ^ k)
    (hw : |w| ≤ 2 ^ k) (h : |r (r (u + r (w - v)) + c)| ≤ 2 ^ k) :
    |r (r (u + r (w - v)) + c) - (u + (w - v) + c)| ≤ 2 ^ (k - 51) := by
  have e1 : (2 : K) ^ (k + 1) = 2 * 2 ^ k := by rw [zpow_add_one₀ (by norm_num)]; ring
  have e2 : (2 : K) ^ (k + 2) = 4 * 2 ^ k := by
    rw [show k + 2 = k + 1 + 1 by ring, zpow_add_one₀ (by norm_num), e1]; ring
  have e51 : (2 : K) ^ (k - 51) = 4 * 2 ^ (k - 53) := by
    rw [show k - 51 = (k - 53) + 1 + 1 by ring, zpow_add_one₀ (by norm_num), zpow_add_one₀ (by norm_num)]; ring
  have e52 : (2 : K) ^ (k - 52) = 2 * 2 ^ (k - 53) := by
    rw [show k - 52 = (k - 53) + 1 by ring, zpow_add_one₀ (by norm_num)]; ring
  have h53 : (2 : K) ^ (k - 53) ≤ 2 ^ k := two_zpow_le (by omega)
  obtain ⟨u1, u2⟩ := abs_le.1 hu
  obtain ⟨v1, v2⟩ := abs_le.1 hv
  obtain ⟨w1, w2⟩ := abs_le.1 hw
  have a := R.err (x := w - v) (k := k + 1) (by omega) (by rw [e1, abs_le]; constructor <;> linarith)
  rw [show k + 1 - 54 = k - 53 by ring] at a
  obtain ⟨a1, a2⟩ := abs_le.1 a
  have b := R.err (x := u + r (w - v)) (k := k + 2) (by omega) (by rw [e2, abs_le]; constructor <;> linarith)
  rw [show k + 2 - 54 = k - 52 by ring, e52] at b
  obtain ⟨b1, b2⟩ := abs_le.1 b
  obtain ⟨c1, c2⟩ := abs_le.1 (sum_err R hk h)
  rw [e51, abs_le]
  constructor <;> linarith

theorem track_near (R : Nearest r) {k : ℤ} (hk : -1022 ≤ k) {pose prev new : Pose K} {m : Pose K → Delta K}
    (h1 : Bounded (2 ^ k) pose) (h2 : Bounded (2 ^ k) prev) (h3 : Bounded (2 ^ k) new)
    (h4 : Bounded (2 ^ k) (trackF r pose prev new m)) :
    PoseNear (2 ^ (k - 51)) (trackF r pose prev new m)
      ((pose.add (new.sub prev)).add (m (addF r pose (subF r new prev)))) :=
  ⟨track_coord R hk h1.1 h2.1 h3.1 h4.1, track_coord R hk h1.2.1 h2.2.1 h3.2.1 h4.2.1,
    track_coord R hk h1.2.2 h2.2.2 h3.2.2 h4.2.2⟩

/-- Adding the same to both. -/
theorem near_add {δ ε : K} {p q p' : Pose K} {d : Delta K} (h : PoseNear ε p q) (h' : PoseNear δ p' (p.add d)) :
    PoseNear (ε + δ) p' (q.add d) := by
  have one : ∀ {a b c x : K}, |a - b| ≤ ε → |c - (a + x)| ≤ δ → |c - (b + x)| ≤ ε + δ := by
    intro a b c x ha hc
    have e : c - (b + x) = (a - b) + (c - (a + x)) := by ring
    rw [e]
    exact (abs_add_le _ _).trans (add_le_add ha hc)
  exact ⟨one h.1 h'.1, one h.2.1 h'.2.1, one h.2.2 h'.2.2⟩

theorem tracks_near (R : Nearest r) {k : ℤ} (hk : -1022 ≤ k) (l : List (Pose K × (Pose K → Delta K))) (pose start prev : Pose K)
    (ε : K) (h0 : PoseNear ε pose start) (h1 : Bounded (2 ^ k) pose) (h2 : Bounded (2 ^ k) prev)
    (h3 : ∀ d ∈ l, Bounded (2 ^ k) d.1) (h4 : ∀ p ∈ tracksF r pose prev l, Bounded (2 ^ k) p) :
    ∃ cs : List (Delta K), cs.length = l.length ∧
      (∀ (i : Nat) (hi : i < l.length) (hi' : i < cs.length), ∃ q, cs[i] = l[i].2 q) ∧
      PoseNear (ε + (l.length : K) * 2 ^ (k - 51)) ((tracksF r pose prev l).getLastD pose)
        (cs.foldl Pose.add (start.add (((l.map Prod.fst).getLastD prev).sub prev))) := by
  induction l generalizing pose start prev ε with
  | nil =>
    refine ⟨[], rfl, by simp, ?_⟩
    simpa [tracksF, Pose.add, Pose.sub] using h0
  | cons x l ih =>
    obtain ⟨p, m⟩ := x
    have hp : Bounded (2 ^ k) p := h3 (p, m) (by simp)
    have hq : Bounded (2 ^ k) (trackF r pose prev p m) := h4 _ (by simp [tracksF])
    have hn := track_near R hk h1 h2 hp hq
    set c := m (addF r pose (subF r p prev)) with hc
    have hn' : PoseNear (2 ^ (k - 51)) (trackF r pose prev p m) (pose.add ((p.sub prev).add c)) := by
      have : (pose.add (p.sub prev)).add c = pose.add ((p.sub prev).add c) := by
        simp only [Pose.add, Pose.mk.injEq]; exact ⟨by ring, by ring, by ring⟩
      rwa [← this]
    have hs := near_add h0 hn'
    obtain ⟨cs, c1, c2, c3⟩ := ih (trackF r pose prev p m) (start.add ((p.sub prev).add c)) p _ hs hq hp
      (fun d hd => h3 d (by simp [hd])) (fun d hd => h4 d (by simp [tracksF, hd]))
    refine ⟨c :: cs, by simp [c1], ?_, ?_⟩
    · intro i hi hi'
      cases i with
      | zero => exact ⟨_, rfl⟩
      | succ i => exact c2 i (by simpa using hi) (by simpa using hi')
    · rw [List.foldl_cons, tracksF, List.getLastD_cons, List.map_cons, List.getLastD_cons, List.length_cons]
      have e1 : ε + 2 ^ (k - 51) + (l.length : K) * 2 ^ (k - 51) = ε + ((l.length + 1 : Nat) : K) * 2 ^ (k - 51) := by
        push_cast; ring
      have e2 : (start.add ((p.sub prev).add c)).add (((l.map Prod.fst).getLastD p).sub p) =
          (start.add (((l.map Prod.fst).getLastD p).sub prev)).add c := by
        simp only [Pose.add, Pose.sub, Pose.mk.injEq]; exact ⟨by ring, by ring, by ring⟩
      rw [← e1, ← e2]
      exact c3

/-! ## C109 -/

/-- C109: over any sequence of messages during which no odometry coordinate and no estimated one exceeds 2^k, the estimated
pose, computed with rounded arithmetic, is the first one moved by the odometry's displacement and by the matcher's
corrections (one for each message, an answer of its matcher), but for n 2^(k-51) in each coordinate, n being the number of
messages. -/
theorem odometry_rounded (R : Nearest r) {k : ℤ} (hk : -1022 ≤ k) (l : List (Pose K × (Pose K → Delta K)))
    (pose prev : Pose K) (h1 : Bounded (2 ^ k) pose) (h2 : Bounded (2 ^ k) prev) (h3 : ∀ d ∈ l, Bounded (2 ^ k) d.1)
    (h4 : ∀ p ∈ tracksF r pose prev l, Bounded (2 ^ k) p) :
    ∃ cs : List (Delta K), cs.length = l.length ∧
      (∀ (i : Nat) (hi : i < l.length) (hi' : i < cs.length), ∃ q, cs[i] = l[i].2 q) ∧
      PoseNear ((l.length : K) * 2 ^ (k - 51)) ((tracksF r pose prev l).getLastD pose)
        (cs.foldl Pose.add (pose.add (((l.map Prod.fst).getLastD prev).sub prev))) := by
  have := tracks_near R hk l pose pose prev 0 (by simp [PoseNear]) h1 h2 h3 h4
  simpa using this

theorem lattice_step (R : Nearest r) {e : ℤ} (he : -1074 ≤ e) {a b : ℤ} (ha : |a| ≤ 2 ^ 52) (hb : |b| ≤ 2 ^ 52) :
    r (r ((a : K) * 2 ^ e + r ((b : K) * 2 ^ e - a * 2 ^ e)) + 0) = b * 2 ^ e := by
  have h1 : (b : K) * 2 ^ e - a * 2 ^ e = ((b - a : ℤ) : K) * 2 ^ e := by push_cast; ring
  have d1 : IsDouble (((b - a : ℤ) : K) * 2 ^ e) := by
    refine isDouble_scaled ?_ he
    rw [abs_le] at *; constructor <;> norm_num at * <;> omega
  have d2 : IsDouble ((b : K) * 2 ^ e) := isDouble_scaled (hb.trans (by norm_num)) he
  rw [h1, R.fix d1, ← h1, add_sub_cancel, R.fix d2, add_zero, R.fix d2]

/-- C109: if the odometry's coordinates are multiples of some power of two (such as ticks of a fixed-point encoder) of at
most 2^52 times its size, the rounding has no effect: with a matcher that never corrects, the poses after each message are
exactly the odometry poses, for ever. -/
theorem dead_reckoning_exact (R : Nearest r) {e : ℤ} (he : -1074 ≤ e) (ps : List (Pose K)) (h : ∀ p ∈ ps, OnLattice e p)
    (start : Pose K) (hs : OnLattice e start) :
    tracksF r start start (ps.map fun p => (p, fun _ => ⟨0, 0, 0⟩)) = ps := by
  induction ps generalizing start with
  | nil => rfl
  | cons p ps ih =>
    have hp := h p (by simp)
    have hstep : trackF r start start p (fun _ => ⟨0, 0, 0⟩) = p := by
      obtain ⟨a, b, c, ha, hb, hc, rfl⟩ := hs
      obtain ⟨a', b', c', ha', hb', hc', rfl⟩ := hp
      simp only [trackF, addF, subF, lattice_step R he ha ha', lattice_step R he hb hb', lattice_step R he hc hc']
    rw [List.map_cons, tracksF, hstep]
    exact congrArg _ (ih (fun q hq => h q (by simp [hq])) p hp)

end

/-- C109, why not always: the odometry goes to 2^-60 (or any heading, coordinate below the precision of the way), to one, and
back; the estimate comes back to zero. -/
theorem return_counterexample :
    (tracksF rne (⟨0, 0, 0⟩ : Pose ℚ) ⟨0, 0, 0⟩
      [(⟨1 / 2 ^ 60, 0, 0⟩, fun _ => ⟨0, 0, 0⟩), (⟨1, 0, 0⟩, fun _ => ⟨0, 0, 0⟩), (⟨1 / 2 ^ 60, 0, 0⟩, fun _ => ⟨0, 0, 0⟩)]) =
      [⟨1 / 2 ^ 60, 0, 0⟩, ⟨1, 0, 0⟩, ⟨0, 0, 0⟩] := by
  decide +kernel

/-- Not vacuous: a run with a correction, its poses within 2^3. -/
example : ∃ cs : List (Delta ℚ), cs.length = 2 ∧
    PoseNear (2 * 2 ^ ((3 : ℤ) - 51)) ((tracksF rne (⟨0, 0, 0⟩ : Pose ℚ) ⟨0, 0, 0⟩
      [(⟨1 / 10, 0, 0⟩, fun _ => ⟨1 / 100, 0, 0⟩), (⟨3 / 10, 1 / 7, 0⟩, fun _ => ⟨0, 0, 1 / 3⟩)]).getLastD ⟨0, 0, 0⟩)
      (cs.foldl Pose.add ⟨3 / 10, 1 / 7, 0⟩) := by
  obtain ⟨cs, h1, -, h3⟩ := odometry_rounded (K := ℚ) rne_nearest (k := 3) (by norm_num)
    [(⟨1 / 10, 0, 0⟩, fun _ => ⟨1 / 100, 0, 0⟩), (⟨3 / 10, 1 / 7, 0⟩, fun _ => ⟨0, 0, 1 / 3⟩)] ⟨0, 0, 0⟩ ⟨0, 0, 0⟩
    (by norm_num [Bounded]) (by norm_num [Bounded]) (by norm_num [Bounded, abs_le])
    (by unfold Bounded; decide +kernel)
  refine ⟨cs, h1, ?_⟩
  have e : (⟨0, 0, 0⟩ : Pose ℚ).add ((⟨3 / 10, 1 / 7, 0⟩ : Pose ℚ).sub ⟨0, 0, 0⟩) = ⟨3 / 10, 1 / 7, 0⟩ := by
    norm_num [Pose.add, Pose.sub]
  have h3' : PoseNear (((2 : ℕ) : ℚ) * 2 ^ ((3 : ℤ) - 51)) ((tracksF rne (⟨0, 0, 0⟩ : Pose ℚ) ⟨0, 0, 0⟩
      [(⟨1 / 10, 0, 0⟩, fun _ => ⟨1 / 100, 0, 0⟩), (⟨3 / 10, 1 / 7, 0⟩, fun _ => ⟨0, 0, 1 / 3⟩)]).getLastD ⟨0, 0, 0⟩)
      (cs.foldl Pose.add ((⟨0, 0, 0⟩ : Pose ℚ).add ((⟨3 / 10, 1 / 7, 0⟩ : Pose ℚ).sub ⟨0, 0, 0⟩))) := h3
  rw [Nat.cast_ofNat] at h3'
  rw [e] at h3'
  exact h3'

/-- Not vacuous: odometry in steps of 1/1024. -/
example : OnLattice (-10) (⟨3 / 1024, -5, 1 / 2⟩ : Pose ℚ) :=
  ⟨3, -5120, 512, by norm_num, by norm_num, by norm_num, by norm_num⟩

end Slam.Float
