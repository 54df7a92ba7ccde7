import Verif.Line.Lemmas

/-! # C03, C04: segment rasterisation -/

namespace Slam.Line
open Slam.Grid (Coord)

/-- C03: rasterising the segment between two cells terminates (in at most `max(|dx|,|dy|)+1` loop
iterations), never leaves the representable range `ok` if that contains `[-6M, 6M]` where `M` bounds the
coordinates of the ends, and yields a digital straight segment. -/
theorem bresenham_is_digital_line (ok : Int → Bool) (M : Int) (hok : ∀ v, |v| ≤ 6 * M → ok v = true)
    (b e : Coord) (hbx : |b.x| ≤ M) (hby : |b.y| ≤ M) (hex : |e.x| ≤ M) (hey : |e.y| ≤ M) (fuel : Nat)
    (hf : max (e.x - b.x).natAbs (e.y - b.y).natAbs < fuel) :
    ∃ pts, bresenham ok fuel b e = some pts ∧ IsDigitalLine b e pts := by
  have hM : 0 ≤ M := (abs_nonneg _).trans hbx
  have hdx : |e.x - b.x| ≤ 2 * M := (abs_sub _ _).trans (by omega)
  have hdy : |e.y - b.y| ≤ 2 * M := (abs_sub _ _).trans (by omega)
  have o1 : ok (e.x - b.x) = true := hok _ (by omega)
  have o2 : ok (e.y - b.y) = true := hok _ (by omega)
  have o3 : ok |e.x - b.x| = true := hok _ (by rw [abs_abs]; omega)
  have o4 : ok |e.y - b.y| = true := hok _ (by rw [abs_abs]; omega)
  unfold bresenham
  simp only [o1, o2, o3, o4, Bool.and_self, if_true]
  split
  · rename_i hlt
    obtain ⟨l, hl, H⟩ := bresenhamLoop_line ok (6 * M) hok b.y b.x (e.y - b.y) (e.x - b.x) hlt.le (by omega) fuel (by omega)
    rw [show b.y + (e.y - b.y) = e.y by ring] at hl
    refine ⟨_, by rw [hl]; rfl, ?_⟩
    have hmax : max |e.x - b.x| |e.y - b.y| = |e.y - b.y| := max_eq_right hlt.le
    constructor
    · simp [H.first]
    · simp [H.last]
    · rw [hmax, ← H.length]; simp
    · rw [List.isChain_map]
      refine H.steps.imp ?_
      rintro u v ⟨h1, h2⟩
      refine ⟨?_, h2, h1.le⟩
      intro heq
      have := congrArg Coord.y heq
      simp only at this
      rw [this] at h1; simp at h1
    · refine H.nodup.map ?_
      rintro ⟨u1, u2⟩ ⟨v1, v2⟩ h
      simp only [Coord.mk.injEq] at h
      ext <;> simp [h.1, h.2]
    · intro p hp
      simp only [List.mem_map] at hp
      obtain ⟨u, hu, rfl⟩ := hp
      rw [hmax]
      have := H.close u hu
      rwa [abs_sub_comm] at this
  · rename_i hlt
    rw [not_lt] at hlt
    obtain ⟨l, hl, H⟩ := bresenhamLoop_line ok (6 * M) hok b.x b.y (e.x - b.x) (e.y - b.y) hlt (by omega) fuel (by omega)
    rw [show b.x + (e.x - b.x) = e.x by ring] at hl
    refine ⟨_, by rw [hl]; rfl, ?_⟩
    have hmax : max |e.x - b.x| |e.y - b.y| = |e.x - b.x| := max_eq_left hlt
    constructor
    · simp [H.first]
    · simp [H.last]
    · rw [hmax, ← H.length]; simp
    · rw [List.isChain_map]
      refine H.steps.imp ?_
      rintro u v ⟨h1, h2⟩
      refine ⟨?_, h1.le, h2⟩
      intro heq
      have := congrArg Coord.x heq
      simp only at this
      rw [this] at h1; simp at h1
    · refine H.nodup.map ?_
      rintro ⟨u1, u2⟩ ⟨v1, v2⟩ h
      simp only [Coord.mk.injEq] at h
      ext <;> simp [h.1, h.2]
    · intro p hp
      simp only [List.mem_map] at hp
      obtain ⟨u, hu, rfl⟩ := hp
      rw [hmax]
      exact H.close u hu

/-- C03 for mathematical integers: no bound on the coordinates. -/
theorem bresenham_unbounded (b e : Coord) :
    ∃ pts, bresenham (fun _ => true) (max (e.x - b.x).natAbs (e.y - b.y).natAbs + 1) b e = some pts ∧
      IsDigitalLine b e pts :=
  bresenham_is_digital_line (fun _ => true)
    (|b.x| + |b.y| + |e.x| + |e.y|) (fun _ _ => rfl) b e
    (by have := abs_nonneg b.y; have := abs_nonneg e.x; have := abs_nonneg e.y; omega)
    (by have := abs_nonneg b.x; have := abs_nonneg e.x; have := abs_nonneg e.y; omega)
    (by have := abs_nonneg b.y; have := abs_nonneg b.x; have := abs_nonneg e.y; omega)
    (by have := abs_nonneg b.y; have := abs_nonneg e.x; have := abs_nonneg b.x; omega) _ (by omega)

/-- C03 for 32-bit `int`: no overflow (no undefined behaviour) for cells up to ±300 million. -/
theorem bresenham_int32 (b e : Coord) (hbx : |b.x| ≤ 300000000) (hby : |b.y| ≤ 300000000)
    (hex : |e.x| ≤ 300000000) (hey : |e.y| ≤ 300000000) :
    ∃ pts, bresenham int32 (max (e.x - b.x).natAbs (e.y - b.y).natAbs + 1) b e = some pts ∧
      IsDigitalLine b e pts :=
  bresenham_is_digital_line int32 300000000
    (fun v hv => by rw [abs_le] at hv; simp [int32]; omega) b e hbx hby hex hey _ (by omega)

/-- Without a bound on the coordinates the 32-bit code does overflow. -/
theorem bresenham_int32_overflow :
    ∀ fuel, bresenham int32 fuel ⟨-2000000000, 0⟩ ⟨2000000000, 0⟩ = none := by
  intro fuel; rfl

/-- Test: the model on one literal segment. -/
example : bresenham int32 10 ⟨0, 0⟩ ⟨4, -2⟩ =
    some [⟨0, 0⟩, ⟨1, -1⟩, ⟨2, -1⟩, ⟨3, -2⟩, ⟨4, -2⟩] := by decide

/-- The number of loop iterations after which `world_to_cells` has certainly terminated. -/
def fuelFor (b e : Coord) : Nat := (e.x - b.x).natAbs + (e.y - b.y).natAbs + 2

/-- C04 (`ok`, `M` as in `bresenham_is_digital_line`): for *every* interpretation of the floating point operations, `world_to_cells` terminates and its
result starts at the cell of the segment's begin, ends at the cell of its end, is connected by king steps,
visits no cell twice, and has at most (Manhattan distance + 1) cells. -/
theorem world_to_cells_connects {D : Type} (ok : Int → Bool) (M : Int)
    (hok : ∀ v, |v| ≤ 6 * M → ok v = true) (fp : FP D) (m bx by_ ex ey : D) (fuel : Nat)
    (hbx : |(fp.cell bx by_).x| ≤ M) (hby : |(fp.cell bx by_).y| ≤ M)
    (hex : |(fp.cell ex ey).x| ≤ M) (hey : |(fp.cell ex ey).y| ≤ M)
    (hf : fuelFor (fp.cell bx by_) (fp.cell ex ey) ≤ fuel) :
    ∃ cells, worldToCells ok fp fuel m bx by_ ex ey = some cells ∧
      Connects (fp.cell bx by_) (fp.cell ex ey) cells ∧
      cells.length ≤ ((fp.cell ex ey).x - (fp.cell bx by_).x).natAbs +
        ((fp.cell ex ey).y - (fp.cell bx by_).y).natAbs + 1 := by
  unfold worldToCells fuelFor at *
  simp only
  generalize hb : fp.cell bx by_ = b at *
  generalize he : fp.cell ex ey = endc at *
  set incX : Int := if fp.pos (fp.sub ex bx) = true then 1 else -1 with hincX
  set incY : Int := if fp.pos (fp.sub ey by_) = true then 1 else -1 with hincY
  have hX : incX = 1 ∨ incX = -1 := by rw [hincX]; split <;> simp
  have hY : incY = 1 ∨ incY = -1 := by rw [hincY]; split <;> simp
  generalize fp.mul (fp.mul (fp.ofInt incX) m) (fp.sub ey by_) = exInc
  generalize fp.mul (fp.mul (fp.ofInt (-incY)) m) (fp.sub ex bx) = eyInc
  generalize fp.sub _ _ = e0
  rcases walk_spec fp ((endc.x - b.x).natAbs + (endc.y - b.y).natAbs + 1) b endc incX incY hX hY exInc eyInc
    fuel b e0 [] (by simp) (by simp) (by simp) (by simp; omega) with h | ⟨cells, h, h1, h2, h3⟩
  · rw [h]
    obtain ⟨pts, hp, H⟩ := bresenham_is_digital_line ok M hok b endc hbx hby hex hey fuel (by omega)
    refine ⟨pts, hp, ⟨H.first, H.last, H.steps, H.nodup⟩, ?_⟩
    have := H.length
    rw [Int.abs_eq_natAbs, Int.abs_eq_natAbs] at this
    omega
  · rw [h]
    have hpot : cells.IsChain (fun u v => (fun c : Coord => incX * c.x + incY * c.y) u + 1 ≤
        (fun c : Coord => incX * c.x + incY * c.y) v) := h3.imp (fun u v h => h.2)
    refine ⟨cells, rfl, ⟨h1, h2, ?_, chain_nodup _ _ hpot⟩, ?_⟩
    · refine h3.imp ?_
      rintro u v ⟨hk, hp⟩
      refine ⟨?_, hk⟩
      rintro rfl
      omega
    · have := chain_pot _ cells b endc h1 h2 hpot
      rcases hX with e1 | e1 <;> rcases hY with e2 | e2 <;> rw [e1, e2] at this <;> omega

end Slam.Line
