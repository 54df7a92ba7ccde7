import Verif.Sensor.Model
import Mathlib.Tactic.Linarith
import Mathlib.Tactic.Ring
import Mathlib.Tactic.FieldSimp

/-!
# C42, C43: trigonometry providers and scan points
-/

set_option autoImplicit false

namespace Slam.Sensor

/-! ## C42 -/

/-- Specification: the base angle in force after a history. -/
def lastBase : List TrigOp → ℝ → ℝ
  | [], b => b
  | .setBase a :: h, _ => lastBase h a
  | .update _ _ _ :: h, b => lastBase h b

/-- Specification: the configuration in force after a history. -/
def lastConfig : List TrigOp → Option (ℝ × ℝ × ℝ) → Option (ℝ × ℝ × ℝ)
  | [], c => c
  | .setBase _ :: h, c => lastConfig h c
  | .update a b d :: h, _ => lastConfig h (some (a, b, d))

/-- Specification: the number of angles `a, a + d, a + 2d, …` below `b`. -/
noncomputable def angleCount (a b d : ℝ) : Nat := ⌈(b - a) / d⌉₊

theorem sweep_eq (max inc : ℝ) (hi : 0 < inc) (n : Nat) (a : ℝ) (h1 : ∀ i < n, a + i * inc < max)
    (h2 : max ≤ a + n * inc) (fuel : Nat) (hf : n < fuel) :
    sweep max inc fuel a = some ((List.range n).map fun (i : Nat) => a + i * inc) := by
  induction n generalizing a fuel with
  | zero =>
    obtain ⟨fuel, rfl⟩ : ∃ f, fuel = f + 1 := ⟨fuel - 1, by omega⟩
    simp only [sweep]
    rw [if_neg (by simp at h2; linarith)]
    simp
  | succ n ih =>
    obtain ⟨fuel, rfl⟩ : ∃ f, fuel = f + 1 := ⟨fuel - 1, by omega⟩
    simp only [sweep]
    rw [if_pos (by simpa using h1 0 (by omega))]
    rw [ih (a + inc) (by
      intro i hi'
      have := h1 (i + 1) (by omega)
      push_cast at this
      linarith) (by push_cast at h2; linarith) fuel (by omega)]
    rw [Option.map_some, List.range_succ_eq_map, List.map_cons, List.map_map]
    congr 1
    simp only [Nat.cast_zero, zero_mul, add_zero, List.cons.injEq, true_and]
    apply List.map_congr_left
    intro i _
    simp only [Function.comp, Nat.succ_eq_add_one]
    push_cast
    ring

theorem angleCount_spec (a b d : ℝ) (hd : 0 < d) (i : Nat) : i < angleCount a b d ↔ a + i * d < b := by
  unfold angleCount
  rw [Nat.lt_ceil, lt_div_iff₀ hd]
  constructor <;> intro h <;> linarith

theorem sweep_count (a b d : ℝ) (hd : 0 < d) (fuel : Nat) (hf : angleCount a b d < fuel) :
    sweep b d fuel a = some ((List.range (angleCount a b d)).map fun (i : Nat) => a + i * d) := by
  apply sweep_eq b d hd
  · intro i hi; exact (angleCount_spec a b d hd i).1 hi
  · by_contra hc
    exact absurd ((angleCount_spec a b d hd _).2 (not_le.1 hc)) (lt_irrefl _)
  · exact hf

theorem roundC_near (x : ℝ) (i : Nat) (h : |x - i| < 1 / 2) : roundC x = i := by
  rw [abs_lt] at h
  unfold roundC
  by_cases h0 : 0 ≤ x
  · rw [if_pos h0, Int.floor_eq_iff]
    push_cast
    constructor <;> linarith [h.1, h.2]
  · rw [if_neg h0, Int.ceil_eq_iff]
    push_cast
    push Not at h0
    have : (0 : ℝ) ≤ i := Nat.cast_nonneg i
    constructor <;> linarith [h.1, h.2]

/-- What a provider whose history had base `b` and configuration `(lo, hi, d)` looks like. -/
def Cached.Holds (c : Cached) (b : ℝ) (cfg : Option (ℝ × ℝ × ℝ)) : Prop :=
  c.sinBase = Real.sin b ∧ c.cosBase = Real.cos b ∧
  match cfg with
  | none => c.angleMin = 0 ∧ c.angleMax = 0 ∧ c.delta = 0 ∧ c.sinT = [] ∧ c.cosT = []
  | some (lo, hi, d) => c.angleMin = lo ∧ c.angleMax = hi ∧ c.delta = d ∧
      c.sinT = (List.range (angleCount lo hi d)).map (fun (i : Nat) => Real.sin (lo + i * d)) ∧
      c.cosT = (List.range (angleCount lo hi d)).map (fun (i : Nat) => Real.cos (lo + i * d))

theorem run_holds (h : List TrigOp) (hpos : ∀ a b d, TrigOp.update a b d ∈ h → 0 < d) (c : Cached) (b : ℝ)
    (cfg : Option (ℝ × ℝ × ℝ)) (hc : c.Holds b cfg) :
    ∃ N, ∀ fuel, N ≤ fuel → ∃ c', Cached.run fuel c h = some c' ∧ c'.Holds (lastBase h b) (lastConfig h cfg) := by
  induction h generalizing c b cfg with
  | nil => exact ⟨0, fun fuel _ => ⟨c, rfl, hc⟩⟩
  | cons op h ih =>
    have hpos' : ∀ a b d, TrigOp.update a b d ∈ h → 0 < d := fun a b d hm => hpos a b d (by simp [hm])
    cases op with
    | setBase a =>
      obtain ⟨N, hN⟩ := ih hpos' (c.setBase a) a cfg ⟨rfl, rfl, by
        obtain ⟨-, -, h3⟩ := hc
        cases cfg with
        | none => exact h3
        | some p => exact h3⟩
      refine ⟨N, fun fuel hf => ?_⟩
      obtain ⟨c', h1, h2⟩ := hN fuel hf
      exact ⟨c', by simpa [Cached.run, Cached.step] using h1, h2⟩
    | update a e d =>
      have hd : 0 < d := hpos a e d (by simp)
      by_cases hsame : a = c.angleMin ∧ e = c.angleMax ∧ d = c.delta
      · have hc2 : c.Holds b (some (a, e, d)) := by
          obtain ⟨h1, h2, h3⟩ := hc
          refine ⟨h1, h2, ?_⟩
          obtain ⟨e1, e2, e3⟩ := hsame
          cases cfg with
          | none =>
            obtain ⟨_, _, h5, _⟩ := h3
            rw [e3, h5] at hd
            exact absurd hd (lt_irrefl _)
          | some p =>
            obtain ⟨lo, hi, dd⟩ := p
            obtain ⟨g1, g2, g3, g4, g5⟩ := h3
            subst e1; subst e2; subst e3
            refine ⟨rfl, rfl, rfl, ?_, ?_⟩
            · rw [g1, g2, g3]; exact g4
            · rw [g1, g2, g3]; exact g5
        obtain ⟨N, hN⟩ := ih hpos' c b _ hc2
        refine ⟨N, fun fuel hf => ?_⟩
        obtain ⟨c', h1, h2⟩ := hN fuel hf
        refine ⟨c', ?_, h2⟩
        simp only [Cached.run, Cached.step, Cached.update]
        rw [if_pos hsame]
        exact h1
      · obtain ⟨N, hN⟩ := ih hpos'
          { c with
            sinT := ((List.range (angleCount a e d)).map fun (i : Nat) => a + i * d).map Real.sin
            cosT := ((List.range (angleCount a e d)).map fun (i : Nat) => a + i * d).map Real.cos
            angleMin := a, angleMax := e, delta := d } b (some (a, e, d))
          ⟨hc.1, hc.2.1, rfl, rfl, rfl, by simp, by simp⟩
        refine ⟨max N (angleCount a e d + 1), fun fuel hf => ?_⟩
        obtain ⟨c', h1, h2⟩ := hN fuel (le_trans (le_max_left _ _) hf)
        refine ⟨c', ?_, h2⟩
        simp only [Cached.run, Cached.step, Cached.update]
        rw [if_neg hsame, sweep_count a e d hd fuel (lt_of_lt_of_le (Nat.lt_succ_self _)
          (le_trans (le_max_right _ _) hf))]
        exact h1

/-- C42: after any history of configurations (with positive steps) and base angles, for every configured angle
`lo + i·d` below `hi` — and any angle nearer to it than half a step — the provider returns the sine and the cosine of
the current base angle plus that configured angle, exactly as the raw provider does for the configured angle. -/
theorem cached_equals_direct (h : List TrigOp) (hpos : ∀ a b d, TrigOp.update a b d ∈ h → 0 < d)
    (lo hi d : ℝ) (hcfg : lastConfig h none = some (lo, hi, d)) :
    ∃ N, ∀ fuel, N ≤ fuel → ∃ c, Cached.run fuel Cached.init h = some c ∧
      ∀ (i : Nat) (a : ℝ), lo + i * d < hi → |a - (lo + i * d)| < d / 2 →
        c.sin a = some (Raw.sin ⟨lastBase h 0⟩ (lo + i * d)) ∧
        c.cos a = some (Raw.cos ⟨lastBase h 0⟩ (lo + i * d)) := by
  obtain ⟨N, hN⟩ := run_holds h hpos Cached.init 0 none ⟨rfl, rfl, rfl, rfl, rfl, rfl, rfl⟩
  have hd : 0 < d := by
    have key : ∀ (h : List TrigOp) (c : Option (ℝ × ℝ × ℝ)), (∀ a b d, TrigOp.update a b d ∈ h → 0 < d) →
        (∀ p, c = some p → 0 < p.2.2) → ∀ p, lastConfig h c = some p → 0 < p.2.2 := by
      intro h
      induction h with
      | nil => intro c _ hc p hp; exact hc p hp
      | cons op h ih =>
        intro c hpos hc p hp
        cases op with
        | setBase a => exact ih c (fun a b d hm => hpos a b d (by simp [hm])) hc p hp
        | update a b d =>
          refine ih (some (a, b, d)) (fun a b d hm => hpos a b d (by simp [hm])) ?_ p hp
          rintro q hq
          injection hq with hq
          rw [← hq]
          exact hpos a b d (by simp)
    exact key h none hpos (by simp) _ hcfg
  refine ⟨N, fun fuel hf => ?_⟩
  obtain ⟨c, h1, h2, h3, h4⟩ := hN fuel hf
  rw [hcfg] at h4
  obtain ⟨g1, g2, g3, g4, g5⟩ := h4
  refine ⟨c, h1, ?_⟩
  intro i a hia hnear
  have hi' : i < angleCount lo hi d := (angleCount_spec lo hi d hd i).2 hia
  have hr : roundC ((a - c.angleMin) / c.delta) = i := by
    apply roundC_near
    rw [g1, g3]
    have : (a - lo) / d - i = (a - (lo + i * d)) / d := by field_simp; ring
    rw [this, abs_div, abs_of_pos hd, div_lt_iff₀ hd]
    linarith
  have e1 : at? c.sinT i = some (Real.sin (lo + i * d)) := by
    rw [g4]; simp [at?, hi']
  have e2 : at? c.cosT i = some (Real.cos (lo + i * d)) := by
    rw [g5]; simp [at?, hi']
  constructor
  · simp only [Cached.sin, hr, e1, e2, Option.bind_some, Option.map_some, h2, h3]
    exact congrArg some (Real.sin_add (lastBase h 0) (lo + i * d)).symm
  · simp only [Cached.cos, hr, e1, e2, Option.bind_some, Option.map_some, h2, h3]
    exact congrArg some (Real.cos_add (lastBase h 0) (lo + i * d)).symm

/-- C42, as the ROS node uses the cache (laser_scan_observer.h:77-86: configured with the message's minimal angle, its
maximal angle plus one increment, and the increment): for a message of `n` beams every beam's angle is served
from the table. -/
theorem cache_serves_every_beam (lo inc base : ℝ) (n : Nat) (hinc : 0 < inc) :
    ∃ N, ∀ fuel, N ≤ fuel → ∃ c,
      Cached.run fuel Cached.init [.update lo (lo + ((n : ℝ) - 1) * inc + inc) inc, .setBase base] = some c ∧
      ∀ i < n, c.sin (lo + i * inc) = some (Real.sin (base + (lo + i * inc))) ∧
        c.cos (lo + i * inc) = some (Real.cos (base + (lo + i * inc))) := by
  obtain ⟨N, hN⟩ := cached_equals_direct [.update lo (lo + ((n : ℝ) - 1) * inc + inc) inc, .setBase base]
    (by
      intro a b d hm
      simp at hm
      rw [hm.2.2]; exact hinc) lo (lo + ((n : ℝ) - 1) * inc + inc) inc rfl
  refine ⟨N, fun fuel hf => ?_⟩
  obtain ⟨c, h1, h2⟩ := hN fuel hf
  refine ⟨c, h1, fun i hi => ?_⟩
  have : (i : ℝ) + 1 ≤ n := by exact_mod_cast hi
  exact h2 i (lo + i * inc) (by nlinarith) (by simp; linarith)

/-- Non-vacuity of `cached_equals_direct`: two configurations and two base angles; the last ones count, and the
configured angle number 3 is in range. -/
example : lastConfig [.update 0 1 (1 / 2), .setBase 5, .update (-1) 1 (1 / 4), .setBase 2] none =
      some (-1, 1, 1 / 4) ∧
    lastBase [.update 0 1 (1 / 2), .setBase 5, .update (-1) 1 (1 / 4), .setBase 2] 0 = 2 ∧
    (-1 : ℝ) + (3 : Nat) * (1 / 4) < 1 := ⟨rfl, rfl, by norm_num⟩

/-! ## C43 -/

theorem polar_coords (r a : ℝ) (o : Bool) (f : ℝ) :
    (ScanPoint.polar r a o f).x = r * Real.cos a ∧ (ScanPoint.polar r a o f).y = r * Real.sin a := ⟨rfl, rfl⟩

theorem range_angle_coords (p : ScanPoint) : p.range * Real.cos p.angle = p.x ∧ p.range * Real.sin p.angle = p.y := by
  cases p with
  | polar r a o f => exact ⟨rfl, rfl⟩
  | cartesian x y o f =>
    have hn : ‖(⟨x, y⟩ : ℂ)‖ = Real.sqrt (x ^ 2 + y ^ 2) := by
      rw [Complex.norm_def, Complex.normSq_apply]
      congr 1
      ring
    simp only [ScanPoint.range, ScanPoint.angle, ScanPoint.x, ScanPoint.y, atan2]
    rw [← hn]
    exact ⟨Complex.norm_mul_cos_arg _, Complex.norm_mul_sin_arg _⟩

/-- C43: every point has the Cartesian coordinates its range and angle describe, and (for a non-negative stored range)
its range is its distance from the origin. -/
theorem coordinates_consistent (p : ScanPoint) :
    p.x = p.range * Real.cos p.angle ∧ p.y = p.range * Real.sin p.angle ∧
      p.range ^ 2 = p.x ^ 2 + p.y ^ 2 := by
  obtain ⟨h1, h2⟩ := range_angle_coords p
  refine ⟨h1.symm, h2.symm, ?_⟩
  rw [← h1, ← h2]
  have := Real.sin_sq_add_cos_sq p.angle
  have hs : Real.sin p.angle ^ 2 = 1 - Real.cos p.angle ^ 2 := by linarith
  rw [mul_pow, mul_pow, hs]
  ring

/-- C43: conversions between polar and Cartesian form keep the coordinates and the occupancy flag (the factor is
reset to one). -/
theorem conversions_keep_coordinates (p : ScanPoint) :
    (p.toCartesian 0 0).x = p.x ∧ (p.toCartesian 0 0).y = p.y ∧ (p.toCartesian 0 0).occupied = p.occupied ∧
    (p.toPolar 0 0).x = p.x ∧ (p.toPolar 0 0).y = p.y ∧ (p.toPolar 0 0).occupied = p.occupied ∧
    (p.toPolar 0 0).range = Real.sqrt (p.x ^ 2 + p.y ^ 2) := by
  obtain ⟨h1, h2⟩ := range_angle_coords p
  obtain ⟨h3, h4⟩ := range_angle_coords (.cartesian (p.x + 0) (p.y + 0) p.occupied 1)
  refine ⟨?_, ?_, rfl, ?_, ?_, rfl, ?_⟩
  · simp only [ScanPoint.toCartesian, ScanPoint.x, ScanPoint.y]
    rw [add_zero, add_zero, h1]
    cases p <;> rfl
  · simp only [ScanPoint.toCartesian, ScanPoint.x, ScanPoint.y]
    rw [add_zero, add_zero, h2]
    cases p <;> rfl
  · have : (p.toPolar 0 0).x = p.x + 0 := h3
    rw [this, add_zero]
  · have : (p.toPolar 0 0).y = p.y + 0 := h4
    rw [this, add_zero]
  · simp only [ScanPoint.toPolar, ScanPoint.range]
    rw [add_zero, add_zero]

/-- C43: conversions with offsets: a Cartesian shift adds to the coordinates, a polar one to the range and the angle. -/
theorem conversions_shift (p : ScanPoint) (dx dy da dr : ℝ) :
    (p.toPolar dx dy).x = p.x + dx ∧ (p.toPolar dx dy).y = p.y + dy ∧ (p.toPolar dx dy).occupied = p.occupied ∧
    (p.toPolar dx dy).range = Real.sqrt ((p.x + dx) ^ 2 + (p.y + dy) ^ 2) ∧
    (p.toCartesian da dr).x = (p.range + dr) * Real.cos (p.angle + da) ∧
    (p.toCartesian da dr).y = (p.range + dr) * Real.sin (p.angle + da) ∧
    (p.toCartesian da dr).occupied = p.occupied := by
  obtain ⟨h3, h4⟩ := range_angle_coords (.cartesian (p.x + dx) (p.y + dy) p.occupied 1)
  exact ⟨h3, h4, rfl, rfl, rfl, rfl, rfl⟩


/-- C43: the conversions are inverse to each other: on Cartesian points always, on polar points with positive range
and angle in `(-π, π]`. -/
theorem conversions_inverse :
    (∀ x y o, ((ScanPoint.cartesian x y o 1).toPolar 0 0).toCartesian 0 0 = .cartesian x y o 1) ∧
    (∀ r a o, 0 < r → -Real.pi < a → a ≤ Real.pi →
      ((ScanPoint.polar r a o 1).toCartesian 0 0).toPolar 0 0 = .polar r a o 1) := by
  constructor
  · intro x y o
    obtain ⟨h3, h4⟩ := range_angle_coords (.cartesian (x + 0) (y + 0) o 1)
    simp only [ScanPoint.toCartesian, ScanPoint.toPolar, ScanPoint.occupied]
    simp only [ScanPoint.range, ScanPoint.angle, ScanPoint.x, ScanPoint.y] at h3 h4 ⊢
    simp only [add_zero] at h3 h4 ⊢
    rw [h3, h4]
  · intro r a o hr h1 h2
    simp only [ScanPoint.toCartesian, ScanPoint.toPolar, ScanPoint.occupied]
    simp only [ScanPoint.range, ScanPoint.angle, ScanPoint.x, ScanPoint.y, add_zero, atan2]
    have e1 : Real.sqrt ((r * Real.cos a) ^ 2 + (r * Real.sin a) ^ 2) = r := by
      have : (r * Real.cos a) ^ 2 + (r * Real.sin a) ^ 2 = r ^ 2 := by
        have := Real.sin_sq_add_cos_sq a
        have hs : Real.sin a ^ 2 = 1 - Real.cos a ^ 2 := by linarith
        rw [mul_pow, mul_pow, hs]
        ring
      rw [this, Real.sqrt_sq hr.le]
    have e2 : Complex.arg ⟨r * Real.cos a, r * Real.sin a⟩ = a := by
      have : (⟨r * Real.cos a, r * Real.sin a⟩ : ℂ) = (r : ℂ) * (Complex.cos a + Complex.sin a * Complex.I) := by
        apply Complex.ext
        · simp [Complex.cos_ofReal_re, Complex.sin_ofReal_re]
        · simp [Complex.cos_ofReal_re, Complex.sin_ofReal_re]
      rw [this, Complex.arg_mul_cos_add_sin_mul_I hr ⟨h1, h2⟩]
    rw [e1, e2]

/-- C43: the three ways of moving a point into world coordinates agree: with a provider based at the heading, with the
heading as an angle, and with a scan rotated beforehand. -/
theorem moves_agree (p : ScanPoint) (dx dy th : ℝ) :
    p.moveBy dx dy (Raw.sin ⟨th⟩) (Raw.cos ⟨th⟩) = p.moveRot dx dy th ∧
    (p.toCartesianBy (Raw.sin ⟨th⟩) (Raw.cos ⟨th⟩)).move dx dy = p.moveRot dx dy th := by
  constructor
  · simp only [ScanPoint.moveBy, ScanPoint.moveRot, Raw.sin, Raw.cos, ScanPoint.x, ScanPoint.y, Prod.mk.injEq]
    rw [add_comm th]
    exact ⟨add_comm _ _, add_comm _ _⟩
  · simp only [ScanPoint.moveBy, ScanPoint.moveRot, ScanPoint.toCartesianBy, ScanPoint.move, Raw.sin, Raw.cos,
      ScanPoint.x, ScanPoint.y, Prod.mk.injEq]
    rw [add_comm th]
    exact ⟨by ring, by ring⟩

/-- C43: a scan rotated beforehand has the same number of points in the same order, each in Cartesian form, rotated
about the sensor, with its occupancy flag (and the factor reset to one). -/
theorem scan_rotated (ps : List ScanPoint) (th : ℝ) :
    (scanToCartesian ps th).length = ps.length ∧
    ∀ (i : Nat) (p : ScanPoint), ps[i]? = some p →
      (scanToCartesian ps th)[i]? = some (.cartesian (Real.cos th * p.x - Real.sin th * p.y)
        (Real.sin th * p.x + Real.cos th * p.y) p.occupied 1) := by
  refine ⟨by simp [scanToCartesian], fun i p hp => ?_⟩
  obtain ⟨h1, h2⟩ := range_angle_coords p
  simp only [scanToCartesian, List.getElem?_map, hp, Option.map_some, ScanPoint.toCartesianBy, ScanPoint.moveBy,
    Raw.sin, Raw.cos, Option.some.injEq, ScanPoint.cartesian.injEq, true_and, and_true]
  rw [Real.cos_add, Real.sin_add, ← h1, ← h2]
  constructor <;> ring

example : (scanToCartesian [.cartesian 2 1 false 3, .cartesian 0 5 true 1] 0)[0]? = some (.cartesian 2 1 false 1) := by
  rw [(scan_rotated _ _).2 0 _ rfl]
  simp [ScanPoint.x, ScanPoint.y, ScanPoint.occupied]

/-- C43: moving by a pose is the rotation by its heading followed by the shift by its position. -/
theorem move_is_rigid (p : ScanPoint) (dx dy th : ℝ) :
    p.moveRot dx dy th =
      (Real.cos th * p.x - Real.sin th * p.y + dx, Real.sin th * p.x + Real.cos th * p.y + dy) := by
  obtain ⟨h1, h2⟩ := range_angle_coords p
  have e : p.moveRot dx dy th = (p.range * Real.cos (p.angle + th) + dx, p.range * Real.sin (p.angle + th) + dy) := rfl
  rw [e, Real.cos_add, Real.sin_add, ← h1, ← h2, Prod.mk.injEq]
  constructor <;> ring

/-- C43: hence it is an isometry: distances between any two points of a scan are kept. -/
theorem move_is_isometry (p q : ScanPoint) (dx dy th : ℝ) :
    ((p.moveRot dx dy th).1 - (q.moveRot dx dy th).1) ^ 2 + ((p.moveRot dx dy th).2 - (q.moveRot dx dy th).2) ^ 2 =
      (p.x - q.x) ^ 2 + (p.y - q.y) ^ 2 := by
  rw [move_is_rigid, move_is_rigid]
  have := Real.sin_sq_add_cos_sq th
  have hs : Real.sin th ^ 2 = 1 - Real.cos th ^ 2 := by linarith
  ring_nf
  rw [hs]
  ring

/-- C43: a scan rotated beforehand keeps its points one for one. -/
theorem prerotated_scan (ps : List ScanPoint) (th dx dy : ℝ) :
    (scanToCartesian ps th).length = ps.length ∧
    (scanToCartesian ps th).map (fun p => p.move dx dy) = ps.map (fun p => p.moveRot dx dy th) := by
  constructor
  · simp [scanToCartesian]
  · rw [scanToCartesian, List.map_map]
    apply List.map_congr_left
    intro p _
    exact (moves_agree p dx dy th).2

/-- Non-vacuity: a point one metre ahead seen from (1, 2) with a heading of a quarter turn. -/
example : (ScanPoint.polar 1 0 true 1).moveRot 1 2 (Real.pi / 2) = (1, 3) := by
  simp [ScanPoint.moveRot, ScanPoint.x, ScanPoint.y, ScanPoint.range, ScanPoint.angle]
  norm_num

end Slam.Sensor
