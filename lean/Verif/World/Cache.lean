import Verif.World.Props
import Verif.Sensor.Props

/-!
# C42: the table of sines and cosines behind one message

`LaserScanObserver::trig_provider` (laser_scan_observer.h:77-86) builds the provider of a message's scan, `msg2scan`
(lines 40-70) puts the points' angles into the scan, and whoever reads the scan asks the provider for those angles.
Here both sides are put together.
-/

set_option autoImplicit false
set_option linter.unusedSectionVars false

namespace Slam.Worlds
open Slam.Sensor

/-- `trig_provider` with the cache switched on, laser_scan_observer.h:78-82: what happens to a fresh provider before the
scan is used with base angle `b` (`set_base_angle`). -/
def providerCalls (m : Msg ℝ) (b : ℝ) : List TrigOp :=
  [.update m.angleMin (m.angleMax + m.increment) m.increment, .setBase b]

/-- C42: for every message the node accepts, with beams in counter-clockwise order further apart than the tolerance of
its angle check, the provider it builds serves every point of the scan: for any base angle it answers with the sine and
the cosine of base plus the point's angle, as the provider without a table does. -/
theorem message_cache (m : Msg ℝ) (skip : Bool) (tol b : ℝ) (ps : List (Point ℝ))
    (h : msg2scan m skip tol = some ps) (htol : tol < m.increment) :
    ∃ N, ∀ fuel, N ≤ fuel → ∃ c, Cached.run fuel Cached.init (providerCalls m b) = some c ∧
      ∀ p ∈ ps, c.sin p.angle = some (Raw.sin ⟨b⟩ p.angle) ∧ c.cos p.angle = some (Raw.cos ⟨b⟩ p.angle) := by
  have hacc : |(convert m skip (m.angleMin - m.increment) m.ranges).2 - m.angleMax| ≤ tol := by
    unfold msg2scan at h
    by_contra hc
    simp [hc] at h
  have hlast := convert_spec m skip m.ranges 0
  simp only [Nat.cast_zero, zero_mul, add_zero, Nat.zero_add] at hlast
  have hinc : 0 < m.increment := lt_of_le_of_lt (le_trans (abs_nonneg _) hacc) htol
  rw [hlast] at hacc
  obtain ⟨N, hN⟩ := cached_equals_direct (providerCalls m b)
    (by
      intro a e d hm
      simp [providerCalls] at hm
      rw [hm.2.2]; exact hinc) m.angleMin (m.angleMax + m.increment) m.increment rfl
  refine ⟨N, fun fuel hf => ?_⟩
  obtain ⟨c, h1, h2⟩ := hN fuel hf
  refine ⟨c, h1, fun p hp => ?_⟩
  obtain ⟨i, r, hir, ha, -⟩ := (message_points m skip tol ps h).1 p hp
  have hi : i < m.ranges.length := by
    by_contra hc
    rw [List.getElem?_eq_none (by omega)] at hir
    cases hir
  have hi' : (i : ℝ) + 1 ≤ m.ranges.length := by exact_mod_cast hi
  have := (abs_le.1 hacc).2
  rw [ha]
  exact h2 i _ (by nlinarith) (by simp; linarith)

theorem sweep_none_below (max inc a : ℝ) (h : max ≤ a) (fuel : Nat) : sweep max inc (fuel + 1) a = some [] := by
  simp only [sweep]
  rw [if_neg (not_lt.2 h)]

/-- C42, the limit of the cache: a message whose beams are listed clockwise (as a scanner mounted upside down sends
them), or all at one angle, is accepted, but the provider's table is empty: every lookup for every angle reads outside
it. Without the cache the same message works. -/
theorem clockwise_cache_empty (m : Msg ℝ) (skip : Bool) (tol b : ℝ) (ps : List (Point ℝ))
    (h : msg2scan m skip tol = some ps) (hne : m.ranges ≠ []) (hinc : m.increment ≤ 0)
    (htol : tol < |m.increment| ∨ m.increment = 0 ∧ m.angleMax ≤ m.angleMin) :
    ∀ fuel, 1 ≤ fuel → ∃ c, Cached.run fuel Cached.init (providerCalls m b) = some c ∧
      ∀ a, c.sin a = none ∧ c.cos a = none := by
  have hacc : |(convert m skip (m.angleMin - m.increment) m.ranges).2 - m.angleMax| ≤ tol := by
    unfold msg2scan at h
    by_contra hc
    simp [hc] at h
  have hlast := convert_spec m skip m.ranges 0
  simp only [Nat.cast_zero, zero_mul, add_zero, Nat.zero_add] at hlast
  rw [hlast] at hacc
  have hn : (1 : ℝ) ≤ m.ranges.length := by
    have := List.length_pos_iff.2 hne
    exact_mod_cast this
  have hle : m.angleMax + m.increment ≤ m.angleMin := by
    rcases htol with ht | ⟨h0, hle⟩
    · rw [abs_of_nonpos hinc] at ht
      have := (abs_le.1 hacc).1
      nlinarith
    · rw [h0]; linarith
  intro fuel hf
  obtain ⟨fuel, rfl⟩ : ∃ f, fuel = f + 1 := ⟨fuel - 1, by omega⟩
  have key : ∀ c : Cached, c.sinT = [] → ∀ a, (c.setBase b).sin a = none ∧ (c.setBase b).cos a = none := by
    intro c hc a
    have hat : ∀ i, at? c.sinT i = none := by intro i; simp [at?, hc]
    constructor
    · simp only [Cached.sin, Cached.setBase]
      cases at? c.cosT _ with
      | none => rfl
      | some v => simp [hat]
    · simp only [Cached.cos, Cached.setBase]
      cases at? c.cosT _ with
      | none => rfl
      | some v => simp [hat]
  simp only [Cached.run, Cached.step, providerCalls, Cached.update, Option.bind_some]
  by_cases hs : m.angleMin = Cached.init.angleMin ∧ m.angleMax + m.increment = Cached.init.angleMax ∧
      m.increment = Cached.init.delta
  · rw [if_pos hs]
    exact ⟨_, rfl, key _ rfl⟩
  · rw [if_neg hs, sweep_none_below _ _ _ hle]
    exact ⟨_, rfl, key _ rfl⟩

/-- Non-vacuity of `message_cache`: three beams half a radian apart, one beyond the maximal range and kept. -/
example : ∃ ps, msg2scan (⟨-1/2, 1/2, 1/2, 0, 10, [some 1, some 20, some 3]⟩ : Msg ℝ) false (1/100) = some ps ∧
    ps.length = 3 ∧ (1/100 : ℝ) < 1/2 := by
  refine ⟨[⟨some 1, -1/2 - 1/2 + 1/2, true⟩, ⟨some 10, -1/2 - 1/2 + 1/2 + 1/2, false⟩,
    ⟨some 3, -1/2 - 1/2 + 1/2 + 1/2 + 1/2, true⟩], ?_, rfl, by norm_num⟩
  norm_num [msg2scan, convert]

/-- Non-vacuity of `clockwise_cache_empty`: the same beams listed clockwise, and a single beam with increment 0. -/
example : (∃ ps, msg2scan (⟨1/2, -1/2, -1/2, 0, 10, [some 1, some 2, some 3]⟩ : Msg ℝ) false (1/100) = some ps ∧
      ps.length = 3) ∧ (1/100 : ℝ) < |(-1/2 : ℝ)| ∧
    (∃ ps, msg2scan (⟨0, 0, 0, 0, 10, [some 1]⟩ : Msg ℝ) false (1/100) = some ps ∧ ps.length = 1) := by
  refine ⟨⟨[⟨some 1, 1/2, true⟩, ⟨some 2, 0, true⟩, ⟨some 3, -1/2, true⟩], ?_, rfl⟩, by norm_num,
    ⟨[⟨some 1, 0, true⟩], ?_, rfl⟩⟩
  · norm_num [msg2scan, convert]
  · norm_num [msg2scan, convert]

end Slam.Worlds
