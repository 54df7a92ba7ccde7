import Verif.Random.Model
import Mathlib.Analysis.Complex.ExponentialBounds

/-!
# What the random variables hand out (C101)
-/

set_option autoImplicit false
set_option linter.unusedSectionVars false

namespace Slam.Random
open Slam.Poses (Delta Pose)

/-! ## Specification -/

/-- A number the variable may hand out: within 14 standard deviations of the mean, or within the range. -/
def RV.Within : RV → ℝ → Prop
  | .gaussian m s _, v => |v - m| ≤ 14 * |s|
  | .uniform a b, v => (a < b → a ≤ v ∧ v < b) ∧ (a = b → v = a)

/-- The variables have the same distribution. -/
def RV.Same : RV → RV → Prop
  | .gaussian m s _, .gaussian m' s' _ => m = m' ∧ s = s'
  | .uniform a b, .uniform a' b' => a = a' ∧ b = b'
  | _, _ => False

/-- The number saved, if there is one, is one that the distribution makes. -/
def RV.Ok : RV → Prop
  | .gaussian _ _ (some z) => |z| ≤ 14
  | _ => True

/-- No number is saved. -/
def RV.Fresh : RV → Prop
  | .gaussian _ _ (some _) => False
  | _ => True

def DeltaRV.Ok (d : DeltaRV) : Prop := d.x.Ok ∧ d.y.Ok ∧ d.theta.Ok
def DeltaRV.Fresh (d : DeltaRV) : Prop := d.x.Fresh ∧ d.y.Fresh ∧ d.theta.Fresh
def DeltaRV.Same (d d' : DeltaRV) : Prop := d.x.Same d'.x ∧ d.y.Same d'.y ∧ d.theta.Same d'.theta
def DeltaRV.Within (d : DeltaRV) (v : Delta ℝ) : Prop := d.x.Within v.x ∧ d.y.Within v.y ∧ d.theta.Within v.theta

variable {E : Type} (N : Engine E)

/-- The engine after `k` numbers of `generate_canonical`. -/
noncomputable def skip (e : E) : Nat → E
  | 0 => e
  | k + 1 => (canonical N (skip e k)).2

/-- The loop of the normal distribution ends whenever it is entered. -/
def Lively (e : E) : Prop := ∀ k, ∃ n, Accepted (attempt N (afterAttempts N (skip N e k) n)).1

/-! ## Proofs -/

section
variable {N}

/-- **Canonical numbers (C101)**: multiples of `2^-64` in `[0, 1)`. -/
theorem canonical_range (e : E) : ∃ k : Nat, k < 2 ^ 64 ∧ (canonical N e).1 = (k : ℝ) / 2 ^ 64 := by
  have h1 := N.bound e
  have h2 := N.bound (N.next e).2
  refine ⟨(N.next e).1 + (N.next (N.next e).2).1 * 2 ^ 32, by norm_num at *; omega, ?_⟩
  simp only [canonical]
  push_cast
  norm_num

theorem canonical_unit (e : E) : 0 ≤ (canonical N e).1 ∧ (canonical N e).1 < 1 := by
  obtain ⟨k, h1, h2⟩ := canonical_range (N := N) e
  rw [h2]
  have : (k : ℝ) < 2 ^ 64 := by exact_mod_cast h1
  exact ⟨by positivity, by rw [div_lt_one (by positivity)]; exact this⟩

/-- **Resampling draws (C101)**: as many numbers as asked for, all in `[0, 1)`. -/
theorem uniform_draws_unit (e : E) (n : Nat) :
    (uniformDraws N e n).length = n ∧ ∀ s ∈ uniformDraws N e n, 0 ≤ s ∧ s < 1 := by
  induction n generalizing e with
  | zero => simp [uniformDraws]
  | succ n ih =>
    obtain ⟨h1, h2⟩ := ih (canonical N e).2
    refine ⟨by simp [uniformDraws, h1], ?_⟩
    intro s hs
    simp only [uniformDraws, List.mem_cons] at hs
    rcases hs with rfl | hs
    · have := canonical_unit (N := N) e
      constructor <;> linarith [this.1, this.2]
    · exact h2 s hs

theorem attempt_grid (e : E) : ∃ i j : ℤ, (attempt N e).1 = ((i : ℝ) / 2 ^ 63, (j : ℝ) / 2 ^ 63) := by
  obtain ⟨k, -, h1⟩ := canonical_range (N := N) e
  obtain ⟨l, -, h2⟩ := canonical_range (N := N) (canonical N e).2
  refine ⟨(k : ℤ) - 2 ^ 63, (l : ℤ) - 2 ^ 63, ?_⟩
  simp only [attempt, h1, h2, Prod.mk.injEq]
  constructor <;> (push_cast; field_simp; ring)

/-- An accepted point of the square is at least `2^-63` away from the middle. -/
theorem accepted_far {e : E} (h : Accepted (attempt N e).1) :
    2 ^ (-126 : ℤ) ≤ (attempt N e).1.1 * (attempt N e).1.1 + (attempt N e).1.2 * (attempt N e).1.2 ∧
      (attempt N e).1.1 * (attempt N e).1.1 + (attempt N e).1.2 * (attempt N e).1.2 ≤ 1 := by
  obtain ⟨i, j, h1⟩ := attempt_grid (N := N) e
  rw [h1] at h ⊢
  simp only [Accepted, not_or, not_lt] at h
  refine ⟨?_, h.1⟩
  have e1 : (i : ℝ) / 2 ^ 63 * ((i : ℝ) / 2 ^ 63) + (j : ℝ) / 2 ^ 63 * ((j : ℝ) / 2 ^ 63) = ((i * i + j * j : ℤ) : ℝ) * 2 ^ (-126 : ℤ) := by
    rw [zpow_neg]
    push_cast
    norm_num
    ring
  have e2 : (1 : ℤ) ≤ i * i + j * j := by
    by_contra hc
    have h0 : i * i + j * j = 0 := by nlinarith [mul_self_nonneg i, mul_self_nonneg j]
    apply h.2
    show (i : ℝ) / 2 ^ 63 * ((i : ℝ) / 2 ^ 63) + (j : ℝ) / 2 ^ 63 * ((j : ℝ) / 2 ^ 63) = 0
    rw [e1, h0]
    simp
  show _ ≤ (i : ℝ) / 2 ^ 63 * ((i : ℝ) / 2 ^ 63) + (j : ℝ) / 2 ^ 63 * ((j : ℝ) / 2 ^ 63)
  rw [e1]
  have e3 : (1 : ℝ) ≤ ((i * i + j * j : ℤ) : ℝ) := by exact_mod_cast e2
  have e4 : (0 : ℝ) < 2 ^ (-126 : ℤ) := by positivity
  nlinarith

/-- **Normal numbers come in pairs (C101)**: the sum of the squares of the two numbers is `-2 log r²`, where `r` is the distance of the
accepted point of the disc from its middle, and their direction is that of the point. -/
theorem gaussian_pair {q : ℝ × ℝ} (h : Accepted q) :
    (q.1 * polarFactor q) ^ 2 + (q.2 * polarFactor q) ^ 2 = -2 * Real.log (q.1 * q.1 + q.2 * q.2) ∧ 0 ≤ polarFactor q := by
  simp only [Accepted, not_or, not_lt] at h
  have h0 : 0 < q.1 * q.1 + q.2 * q.2 :=
    lt_of_le_of_ne (by nlinarith [mul_self_nonneg q.1, mul_self_nonneg q.2]) (Ne.symm h.2)
  have hl : Real.log (q.1 * q.1 + q.2 * q.2) ≤ 0 := Real.log_nonpos h0.le h.1
  have hf : polarFactor q ^ 2 = -2 * Real.log (q.1 * q.1 + q.2 * q.2) / (q.1 * q.1 + q.2 * q.2) := by
    unfold polarFactor
    exact Real.sq_sqrt (div_nonneg (by linarith) h0.le)
  refine ⟨?_, Real.sqrt_nonneg _⟩
  have : (q.1 * polarFactor q) ^ 2 + (q.2 * polarFactor q) ^ 2 = (q.1 * q.1 + q.2 * q.2) * polarFactor q ^ 2 := by ring
  rw [this, hf, mul_div_cancel₀ _ h0.ne']

theorem polar_bound {e : E} (h : Accepted (attempt N e).1) :
    |(attempt N e).1.1 * polarFactor (attempt N e).1| ≤ 14 ∧ |(attempt N e).1.2 * polarFactor (attempt N e).1| ≤ 14 := by
  obtain ⟨h1, -⟩ := gaussian_pair h
  obtain ⟨h2, -⟩ := accepted_far h
  have h3 : Real.log (2 ^ (-126 : ℤ)) ≤
      Real.log ((attempt N e).1.1 * (attempt N e).1.1 + (attempt N e).1.2 * (attempt N e).1.2) :=
    Real.log_le_log (by positivity) h2
  rw [Real.log_zpow] at h3
  have h4 := Real.log_two_lt_d9
  generalize Real.log ((attempt N e).1.1 * (attempt N e).1.1 + (attempt N e).1.2 * (attempt N e).1.2) = L at *
  have h5 : -2 * L ≤ 14 ^ 2 := by push_cast at h3; linarith
  constructor <;> refine abs_le_of_sq_le_sq ?_ (by norm_num) <;>
    nlinarith [sq_nonneg ((attempt N e).1.1 * polarFactor (attempt N e).1),
      sq_nonneg ((attempt N e).1.2 * polarFactor (attempt N e).1)]

theorem skip_add (e : E) (k l : Nat) : skip N (skip N e k) l = skip N e (k + l) := by
  induction l with
  | zero => rfl
  | succ l ih =>
    show (canonical N (skip N (skip N e k) l)).2 = (canonical N (skip N e (k + l))).2
    rw [ih]

theorem attempt_skip (e : E) : (attempt N e).2 = skip N e 2 := rfl

theorem afterAttempts_skip (e : E) (n : Nat) : afterAttempts N e n = skip N e (2 * n) := by
  induction n with
  | zero => rfl
  | succ n ih => rw [afterAttempts, ih, attempt_skip, skip_add]; rfl

theorem Lively.skip {e : E} (h : Lively N e) (k : Nat) : Lively N (skip N e k) := by
  intro l
  rw [skip_add]
  exact h (k + l)

/-- The loop hands out the first accepted point. -/
theorem polarPoint_eq {e : E} {n : Nat} (h : Accepted (attempt N (afterAttempts N e n)).1)
    (hn : ∀ m < n, ¬ Accepted (attempt N (afterAttempts N e m)).1) :
    polarPoint N e = some (attempt N (afterAttempts N e n)) := by
  unfold polarPoint
  have hex : ∃ n, Accepted (attempt N (afterAttempts N e n)).1 := ⟨n, h⟩
  rw [dif_pos hex]
  congr 3
  classical
  apply le_antisymm
  · exact Nat.find_min' hex h
  · by_contra hlt
    exact hn _ (not_le.1 hlt) (Nat.find_spec hex)

theorem polarPoint_some {e : E} {r : (ℝ × ℝ) × E} (h : polarPoint N e = some r) :
    ∃ n, r = attempt N (skip N e (2 * n)) ∧ Accepted r.1 := by
  unfold polarPoint at h
  by_cases hex : ∃ n, Accepted (attempt N (afterAttempts N e n)).1
  · rw [dif_pos hex, Option.some.injEq] at h
    classical
    refine ⟨Nat.find hex, ?_, ?_⟩
    · rw [← h, ← afterAttempts_skip]
    · rw [← h]; exact Nat.find_spec hex
  · rw [dif_neg hex] at h; cases h

theorem polarPoint_lively {e : E} (h : Lively N e) : ∃ r, polarPoint N e = some r := by
  have h0 : ∃ n, Accepted (attempt N (afterAttempts N e n)).1 := h 0
  unfold polarPoint
  rw [dif_pos h0]
  exact ⟨_, rfl⟩

/-- **One random number (C101)**: it is within the bounds of its variable, the variable keeps its distribution, and the engine has gone
on by some canonical numbers. -/
theorem rv_sample {rv : RV} {e : E} {r : ℝ × RV × E} (hok : rv.Ok) (h : rv.sample N e = some r) :
    rv.Within r.1 ∧ rv.Same r.2.1 ∧ r.2.1.Ok ∧ ∃ k, r.2.2 = skip N e k := by
  cases rv with
  | uniform a b =>
    simp only [RV.sample, Option.some.injEq] at h
    subst h
    have hu := canonical_unit (N := N) e
    refine ⟨⟨fun hab => ⟨?_, ?_⟩, fun hab => ?_⟩, ⟨rfl, rfl⟩, trivial, 1, rfl⟩
    · nlinarith [hu.1]
    · nlinarith [hu.2]
    · rw [hab]; ring
  | gaussian m s sv =>
    cases sv with
    | some z =>
      simp only [RV.sample, Option.some.injEq] at h
      subst h
      refine ⟨?_, ⟨rfl, rfl⟩, trivial, 0, rfl⟩
      show |z * s + m - m| ≤ 14 * |s|
      rw [add_sub_cancel_right, abs_mul]
      exact mul_le_mul_of_nonneg_right hok (abs_nonneg s)
    | none =>
      simp only [RV.sample, Option.map_eq_some_iff] at h
      obtain ⟨p, hp, rfl⟩ := h
      obtain ⟨n, rfl, hacc⟩ := polarPoint_some hp
      obtain ⟨b1, b2⟩ := polar_bound hacc
      refine ⟨?_, ⟨rfl, rfl⟩, b1, 2 * n + 2, by rw [attempt_skip, skip_add]⟩
      show |_ * _ * s + m - m| ≤ 14 * |s|
      rw [add_sub_cancel_right, abs_mul]
      exact mul_le_mul_of_nonneg_right b2 (abs_nonneg s)

/-- **A variable hands out pairs (C101)**: of the points that the engine proposes, the first one in the disc (and not in its middle) gives
two numbers, the second one without the engine being asked. -/
theorem gaussian_two_draws {m s : ℝ} {e : E} {r : ℝ × RV × E} (h : (RV.gaussian m s none).sample N e = some r) (e' : E) :
    ∃ n : Nat, ∃ u v : ℝ, (u, v) = (attempt N (afterAttempts N e n)).1 ∧ 0 < u ^ 2 + v ^ 2 ∧ u ^ 2 + v ^ 2 ≤ 1 ∧
      (∀ i < n, ∀ x y, (x, y) = (attempt N (afterAttempts N e i)).1 → 1 < x ^ 2 + y ^ 2 ∨ (x = 0 ∧ y = 0)) ∧
      r.2.2 = afterAttempts N e (n + 1) ∧
      r.1 = m + s * (v * Real.sqrt (-2 * Real.log (u ^ 2 + v ^ 2) / (u ^ 2 + v ^ 2))) ∧
      r.2.1.sample N e' = some (m + s * (u * Real.sqrt (-2 * Real.log (u ^ 2 + v ^ 2) / (u ^ 2 + v ^ 2))), .gaussian m s none, e') := by
  classical
  simp only [RV.sample, Option.map_eq_some_iff] at h
  obtain ⟨p, hp, rfl⟩ := h
  unfold polarPoint at hp
  by_cases hex : ∃ n, Accepted (attempt N (afterAttempts N e n)).1
  · rw [dif_pos hex, Option.some.injEq] at hp
    subst hp
    have hacc := Nat.find_spec hex
    have hmin : ∀ i < Nat.find hex, ¬ Accepted (attempt N (afterAttempts N e i)).1 := fun i hi => Nat.find_min hex hi
    generalize hn : Nat.find hex = n at hacc hmin
    clear hn
    obtain ⟨⟨u, v⟩, e1⟩ : ∃ q, q = (attempt N (afterAttempts N e n)).1 := ⟨_, rfl⟩
    refine ⟨n, u, v, e1, ?_, ?_, ?_, rfl, ?_, ?_⟩
    · rw [← e1] at hacc
      simp only [Accepted, not_or, not_lt] at hacc
      have h0 := lt_of_le_of_ne (add_nonneg (mul_self_nonneg u) (mul_self_nonneg v)) (Ne.symm hacc.2)
      rw [pow_two, pow_two]
      exact h0
    · rw [← e1] at hacc
      simp only [Accepted, not_or, not_lt] at hacc
      rw [pow_two, pow_two]
      exact hacc.1
    · intro i hi x y hxy
      have := hmin i hi
      rw [← hxy] at this
      simp only [Accepted, not_not] at this
      rw [pow_two, pow_two]
      rcases this with h | h
      · exact .inl h
      · have hx := mul_self_nonneg x
        have hy := mul_self_nonneg y
        exact .inr ⟨mul_self_eq_zero.1 (by linarith), mul_self_eq_zero.1 (by linarith)⟩
    · simp only [← e1, polarFactor, pow_two]
      ring
    · simp only [RV.sample, ← e1, polarFactor, pow_two, Option.some.injEq, Prod.mk.injEq, and_true]
      ring
  · rw [dif_neg hex] at hp
    cases hp

theorem rv_sample_lively {rv : RV} {e : E} (h : Lively N e) : ∃ r, rv.sample N e = some r := by
  cases rv with
  | uniform a b => exact ⟨_, rfl⟩
  | gaussian m s sv =>
    cases sv with
    | some z => exact ⟨_, rfl⟩
    | none =>
      obtain ⟨r, hr⟩ := polarPoint_lively h
      simp only [RV.sample, hr, Option.map_some]
      exact ⟨_, rfl⟩

/-- **One random displacement (C101)**, as `rv_sample`. -/
theorem delta_sample {d : DeltaRV} {e : E} {r : Delta ℝ × DeltaRV × E} (hok : d.Ok) (h : d.sample N e = some r) :
    d.Within r.1 ∧ d.Same r.2.1 ∧ r.2.1.Ok ∧ ∃ k, r.2.2 = skip N e k := by
  simp only [DeltaRV.sample, Option.bind_eq_some_iff, Option.map_eq_some_iff] at h
  obtain ⟨a, ha, b, hb, c, hc, rfl⟩ := h
  obtain ⟨a1, a2, a3, k, a4⟩ := rv_sample hok.1 ha
  obtain ⟨b1, b2, b3, l, b4⟩ := rv_sample hok.2.1 hb
  obtain ⟨c1, c2, c3, n, c4⟩ := rv_sample hok.2.2 hc
  exact ⟨⟨a1, b1, c1⟩, ⟨a2, b2, c2⟩, ⟨a3, b3, c3⟩, k + l + n, by rw [c4, b4, a4, skip_add, skip_add, Nat.add_assoc]⟩

/-- **A displacement is always handed out (C101)** if the loop of the normal distribution ends. -/
theorem delta_sample_lively {d : DeltaRV} {e : E} (hok : d.Ok) (h : Lively N e) :
    ∃ r, d.sample N e = some r ∧ Lively N r.2.2 := by
  obtain ⟨a, ha⟩ := rv_sample_lively (rv := d.x) h
  obtain ⟨-, -, -, k, a4⟩ := rv_sample hok.1 ha
  obtain ⟨b, hb⟩ := rv_sample_lively (rv := d.y) (e := a.2.2) (by rw [a4]; exact h.skip k)
  obtain ⟨-, -, -, l, b4⟩ := rv_sample hok.2.1 hb
  obtain ⟨c, hc⟩ := rv_sample_lively (rv := d.theta) (e := b.2.2) (by rw [b4, a4]; exact (h.skip k).skip l)
  obtain ⟨-, -, -, n, c4⟩ := rv_sample hok.2.2 hc
  refine ⟨(⟨a.1, b.1, c.1⟩, ⟨a.2.1, b.2.1, c.2.1⟩, c.2.2), ?_, ?_⟩
  · simp only [DeltaRV.sample, ha, Option.bind_some, hb, hc, Option.map_some]
  · show Lively N c.2.2
    rw [c4, b4, a4]
    exact ((h.skip k).skip l).skip n

theorem RV.clone_of_fresh {r : RV} (h : r.Fresh) : r.clone = r := by
  cases r with
  | uniform a b => rfl
  | gaussian m s sv =>
    cases sv with
    | none => rfl
    | some z => exact h.elim

theorem RV.clone_fresh (r : RV) : r.clone.Fresh ∧ r.clone.Ok ∧ r.Same r.clone := by
  cases r with
  | uniform a b => exact ⟨trivial, trivial, rfl, rfl⟩
  | gaussian m s sv => exact ⟨trivial, trivial, rfl, rfl⟩

theorem DeltaRV.clone_of_fresh {d : DeltaRV} (h : d.Fresh) : d.clone = d := by
  unfold DeltaRV.clone
  rw [RV.clone_of_fresh h.1, RV.clone_of_fresh h.2.1, RV.clone_of_fresh h.2.2]

theorem DeltaRV.clone_ok (d : DeltaRV) : d.clone.Fresh ∧ d.clone.Ok ∧ d.Same d.clone :=
  ⟨⟨d.x.clone_fresh.1, d.y.clone_fresh.1, d.theta.clone_fresh.1⟩,
    ⟨d.x.clone_fresh.2.1, d.y.clone_fresh.2.1, d.theta.clone_fresh.2.1⟩,
    ⟨d.x.clone_fresh.2.2, d.y.clone_fresh.2.2, d.theta.clone_fresh.2.2⟩⟩

theorem DeltaRV.normal_ok (m s mt st : ℝ) : (DeltaRV.normal m s mt st).Ok := ⟨trivial, trivial, trivial⟩

theorem RV.Same.within {r r' : RV} (h : r.Same r') {v : ℝ} (hv : r.Within v) : r'.Within v := by
  cases r with
  | uniform a b =>
    cases r' with
    | uniform a' b' => obtain ⟨rfl, rfl⟩ := h; exact hv
    | gaussian m s sv => exact h.elim
  | gaussian m s sv =>
    cases r' with
    | uniform a' b' => exact h.elim
    | gaussian m' s' sv' => obtain ⟨rfl, rfl⟩ := h; exact hv

/-- A displacement of three normal variables. -/
theorem normal_within {m s mt st : ℝ} {d : DeltaRV} (h : (DeltaRV.normal m s mt st).Same d) {v : Delta ℝ} (hv : d.Within v) :
    |v.x - m| ≤ 14 * |s| ∧ |v.y - m| ≤ 14 * |s| ∧ |v.theta - mt| ≤ 14 * |st| := by
  obtain ⟨x, y, t⟩ := d
  obtain ⟨h1, h2, h3⟩ := h
  obtain ⟨v1, v2, v3⟩ := hv
  cases x with
  | uniform a b => exact h1.elim
  | gaussian mx sx svx =>
    cases y with
    | uniform a b => exact h2.elim
    | gaussian my sy svy =>
      cases t with
      | uniform a b => exact h3.elim
      | gaussian mz sz svz =>
        obtain ⟨rfl, rfl⟩ := h1
        obtain ⟨rfl, rfl⟩ := h2
        obtain ⟨rfl, rfl⟩ := h3
        exact ⟨v1, v2, v3⟩
end

end Slam.Random
