import Verif.ScanAdder.Props
import Verif.Line.Exact

/-!
# C16 in geometric terms: the cells a beam changes are the cells it runs through
-/

set_option autoImplicit false
set_option linter.unusedSectionVars false

namespace Slam.ScanAdder
open Slam.Grid Slam.Line Slam.Rect Slam.Cells

variable {K : Type} [Field K] [LinearOrder K] [IsStrictOrderedRing K] [FloorRing K]

/-- The beam is horizontal or vertical, or in no cell on its way does the code's comparison see it through the corner it
leaves the cell towards. -/
def NoTie (scale : K) (beam : Beam K) : Prop :=
  (beam.fin.x = beam.beg.x ∨ beam.fin.y = beam.beg.y) ∨
  ∀ c, Passes scale beam.beg beam.fin c → c ≠ worldToCell scale beam.fin →
    areEqual (tieDiff scale beam.beg beam.fin c) 0 = false

/-- C16 and C54 together: a beam that is not too long and meets no corner updates the cell it ends in with the end
observation, every other cell it runs through exactly once with a pass observation, and no other cell. -/
theorem beam_updates_cells_passed (A : Adder K) (ok : Int → Bool) (M : Int) (hok : ∀ v, |v| ≤ 6 * M → ok v = true)
    (scale : K) (hs : 0 < scale) (isOcc : Bool) (quality : K) (beam : Beam K)
    (hb : InRange M scale beam.beg) (he : InRange M scale beam.fin) (fuel : Nat)
    (hf : fuelFor (worldToCell scale beam.beg) (worldToCell scale beam.fin) ≤ fuel) (hnt : NoTie scale beam)
    (hlen : ∀ r, A.maxRange = some r → beamSq beam ≤ r ^ 2) :
    ∃ us, A.beamUpdates ok fuel scale isOcc quality beam = some us ∧
      (us.map Prod.fst).Nodup ∧ (∀ c, c ∈ us.map Prod.fst ↔ Passes scale beam.beg beam.fin c) ∧
      ∀ {C : Type} (upd : C → Aoo K → C) (f : Coord → C),
        (∀ c, ¬ Passes scale beam.beg beam.fin c → tell upd f us c = f c) ∧
        tell upd f us (worldToCell scale beam.fin) =
          upd (f (worldToCell scale beam.fin)) (endObservation A scale isOcc quality beam) ∧
        (∀ c, Passes scale beam.beg beam.fin c → c ≠ worldToCell scale beam.fin →
          ∃ a, IsPassObservation A scale isOcc quality beam c a ∧ tell upd f us c = upd (f c) a) := by
  have hz : (fun d : K => areEqual d 0) 0 = true := by simp [areEqual]
  obtain ⟨us, h1, -, h3⟩ := beam_insertion A ok M hok scale hs isOcc quality beam hb he fuel hf
  obtain ⟨cells, hw, -, hperm, hcl⟩ := h3 hlen
  have hrun : RunsThrough scale beam.beg beam.fin cells := by
    obtain ⟨cells', hw', hr⟩ : ∃ cells', worldToCells ok (Line.exactFP scale fun d => areEqual d 0) fuel scale
        beam.beg.x beam.beg.y beam.fin.x beam.fin.y = some cells' ∧ RunsThrough scale beam.beg beam.fin cells' := by
      rcases hnt with h | h
      · exact world_to_cells_axis_parallel ok scale hs (fun d => areEqual d 0) hz _ _ h fuel hf
      · exact world_to_cells_exact_of_no_tie ok scale hs (fun d => areEqual d 0) hz _ _ h fuel hf
    have : some cells = some cells' := hw.symm.trans hw'
    cases this
    exact hr
  refine ⟨us, h1, hperm.nodup_iff.2 hrun.nodup, fun c => ?_, fun upd f => ?_⟩
  · rw [hperm.mem_iff, hrun.exact]
  · obtain ⟨g1, g2, g3⟩ := hcl upd f
    exact ⟨fun c hc => g1 c fun h => hc ((hrun.exact c).1 h), g2, fun c hc hne => g3 c ((hrun.exact c).2 hc) hne⟩

/-- Non-vacuity: a slanted beam over four cells of a 10 cm grid. -/
example : NoTie (1 / 10 : ℚ) ⟨⟨1 / 20, 1 / 20⟩, ⟨31 / 100, 13 / 100⟩⟩ := by
  right
  intro c hc hne
  have hm : c ∈ [(⟨0, 0⟩ : Coord), ⟨1, 0⟩, ⟨2, 0⟩, ⟨2, 1⟩, ⟨3, 1⟩] := by
    obtain ⟨cells, h1, h2⟩ := world_to_cells_exact_of_no_tie (fun _ => true) (1 / 10 : ℚ) (by norm_num)
      (fun d => decide (d = 0)) (by simp) ⟨1 / 20, 1 / 20⟩ ⟨31 / 100, 13 / 100⟩ (by
        intro c hc hne
        obtain ⟨t, t0, t1, ht⟩ := hc
        rw [cell_iff _ (by norm_num)] at ht
        obtain ⟨⟨a1, a2⟩, a3, a4⟩ := ht
        simp only [along] at a1 a2 a3 a4
        norm_num at a1 a2 a3 a4
        have l1 : (c.x : ℚ) < 4 := by linarith
        have l2 : (-1 : ℚ) < c.x := by linarith
        have l3 : (c.y : ℚ) < 2 := by linarith
        have l4 : (-1 : ℚ) < c.y := by linarith
        obtain ⟨x, y⟩ := c
        simp only at l1 l2 l3 l4
        have m1 : x < 4 := by exact_mod_cast l1
        have m2 : -1 < x := by exact_mod_cast l2
        have m3 : y < 2 := by exact_mod_cast l3
        have m4 : -1 < y := by exact_mod_cast l4
        have : x = 0 ∨ x = 1 ∨ x = 2 ∨ x = 3 := by omega
        have : y = 0 ∨ y = 1 := by omega
        rcases ‹x = 0 ∨ _› with rfl | rfl | rfl | rfl <;> rcases ‹y = 0 ∨ _› with rfl | rfl <;> decide +kernel) 30 (by decide +kernel)
    have e : worldToCells (fun _ => true) (Line.exactFP (1 / 10 : ℚ) fun d => decide (d = 0)) 30 (1 / 10) (1 / 20) (1 / 20)
        (31 / 100) (13 / 100) = some [⟨0, 0⟩, ⟨1, 0⟩, ⟨2, 0⟩, ⟨2, 1⟩, ⟨3, 1⟩] := by decide +kernel
    rw [e] at h1
    cases h1
    exact (h2.exact c).2 hc
  simp only [List.mem_cons, List.not_mem_nil, or_false] at hm
  rcases hm with rfl | rfl | rfl | rfl | rfl
  · decide +kernel
  · decide +kernel
  · decide +kernel
  · decide +kernel
  · exact absurd (by decide +kernel) hne

end Slam.ScanAdder
