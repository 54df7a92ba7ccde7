import Verif.Estimator.Props

/-!
# C49: obstacles in a corner of the cell

The line across the beam at its end then meets the cell in that one point, and `estimate_occupancy` falls back on the
beam itself (area_occupancy_estimator.h:49-62).
-/

set_option autoImplicit false
set_option linter.unusedSectionVars false

namespace Slam.Estimator
open Slam.Grid Slam.Cells Slam.Rect

variable {K : Type*} [Field K] [LinearOrder K] [IsStrictOrderedRing K]

/-- The beam ends in the cell, and the line through its end at right angles to it meets the cell nowhere else. -/
def EndsInCorner (c : Bounds K) (beam : Seg K) : Prop :=
  InCell c beam.fin ∧ ∀ p : Point K, InCell c p →
    (p.x - beam.fin.x) * (beam.fin.x - beam.beg.x) + (p.y - beam.fin.y) * (beam.fin.y - beam.beg.y) = 0 → p = beam.fin

theorem corner_facts (c : Bounds K) (hx : c.left < c.right) (hy : c.bot < c.top) (beam : Seg K) (h : EndsInCorner c beam) :
    beam.fin.x ≠ beam.beg.x ∧ beam.fin.y ≠ beam.beg.y := by
  obtain ⟨⟨h1, h2, h3, h4⟩, h5⟩ := h
  constructor
  · intro e
    have a := h5 ⟨c.left, beam.fin.y⟩ ⟨le_refl _, hx.le, h3, h4⟩ (by simp [e])
    have b := h5 ⟨c.right, beam.fin.y⟩ ⟨hx.le, le_refl _, h3, h4⟩ (by simp [e])
    rw [← b] at a; injection a with a; exact hx.ne a
  · intro e
    have a := h5 ⟨beam.fin.x, c.bot⟩ ⟨h1, h2, le_refl _, hy.le⟩ (by simp [e])
    have b := h5 ⟨beam.fin.x, c.top⟩ ⟨h1, h2, hy.le, le_refl _⟩ (by simp [e])
    rw [← b] at a; injection a with _ a; exact hy.ne a

/-- The single intersection across the beam, and those of the beam itself. -/
theorem corner_chunks (c : Bounds K) (hx : c.left < c.right) (hy : c.bot < c.top) (beam : Seg K)
    (h : EndsInCorner c beam) (hin : ¬ Inside c beam.fin) :
    ∃ l, chunkInters exactCmp beam c true = some l ∧ l.length = 1 := by
  obtain ⟨n1, n2⟩ := corner_facts c hx hy beam h
  obtain ⟨l, l1, l2, l3, l4, l5⟩ := rayInters_spec c hx hy ⟨beam.fin, ⟨beam.beg.y - beam.fin.y, beam.fin.x - beam.beg.x⟩⟩
  have lin := rayInters_inCell exactCmp c _ hx.le hy.le l l1
  refine ⟨l, l1, ?_⟩
  have all : ∀ i ∈ l, i.pt = beam.fin := by
    intro i hi
    obtain ⟨t, ht⟩ := l4 i hi
    refine h.2 i.pt (lin i hi) ?_
    rw [ht]; simp only [Ray.at]; ring
  obtain ⟨i, hi, -⟩ := l5 (Or.inl (sub_ne_zero.2 n2.symm))
    ⟨fun e => absurd e (sub_ne_zero.2 n1), fun e => absurd e (sub_ne_zero.2 n2.symm)⟩ 0
    (by have : (⟨beam.fin, ⟨beam.beg.y - beam.fin.y, beam.fin.x - beam.beg.x⟩⟩ : Ray K).at 0 = beam.fin :=
          point_ext (by simp [Ray.at]) (by simp [Ray.at])
        rw [this]; exact ⟨h.1, hin⟩)
  match l, l2, l3, all, hi with
  | [a], _, _, _, _ => rfl
  | [a, b], _, l3, all, _ => exact absurd ((all a (by simp)).trans (all b (by simp)).symm) (l3 a b rfl)

theorem corner_positions (c : Bounds K) (hx : c.left < c.right) (hy : c.bot < c.top) (beam : Seg K)
    (h : EndsInCorner c beam) (hin : ¬ Inside c beam.fin) (hb : ¬ InCell c beam.beg) :
    ¬ AlongEdgeLine c beam.beg beam.fin ∧ beam.beg ≠ beam.fin ∧ classify exactCmp beam c = some .stopsInside := by
  obtain ⟨n1, n2⟩ := corner_facts c hx hy beam h
  have hs : beam.beg ≠ beam.fin := fun e => n1 (by rw [e])
  have hoff : ¬ AlongEdgeLine c beam.beg beam.fin := by
    rintro (⟨e, -⟩ | ⟨e, -⟩)
    · exact n1 e.symm
    · exact n2 e.symm
  obtain ⟨bi, ei, k1, k2, k3⟩ := isInside_exact c hx hy beam
  have hbi : bi = false := by
    rw [← Bool.not_eq_true, k2]
    exact fun q => hb ⟨q.1.le, q.2.1.le, q.2.2.1.le, q.2.2.2.le⟩
  have hei : ei = true := k3.2 (Or.inr ⟨⟨h.1, hin⟩, hb⟩)
  refine ⟨hoff, hs, ?_⟩
  unfold classify
  rw [k1, hbi, hei]; rfl

theorem corner_unmoved (c : Bounds K) (shift : K) (beam : Seg K) (hs : beam.beg ≠ beam.fin)
    (hoff : ¬ AlongEdgeLine c beam.beg beam.fin) : notOnEdge exactCmp shift beam c = some beam := by
  have : hasOnEdgeLine exactCmp c beam = false := by
    rw [← Bool.not_eq_true, hasOnEdgeLine_exact c beam hs]; exact hoff
  unfold notOnEdge
  rw [this]; rfl

/-- **C49, near corner.** A beam that arrives at a corner from outside, without having passed through the interior, makes
the whole cell occupied. -/
theorem obstacle_at_near_corner (E : Est K) (c : Bounds K) (hx : c.left < c.right) (hsq : vside c = hside c)
    (shift : K) (beam : Seg K) (h : EndsInCorner c beam) (hin : ¬ Inside c beam.fin) (hb : ¬ InCell c beam.beg)
    (hm : ¬ MeetsInterior c beam.beg beam.fin) :
    E.estimateWith exactCmp shift beam c true = some (some ⟨max 1 E.empty.prob, E.occ.qual⟩) := by
  have hy : c.bot < c.top := by unfold vside hside at hsq; linarith
  obtain ⟨hoff, hs, hcl⟩ := corner_positions c hx hy beam h hin hb
  obtain ⟨l, l1, l2⟩ := corner_chunks c hx hy beam h hin
  obtain ⟨f, f1, f2, f3, f4⟩ := segInters_spec c hx hy beam hs hoff
  have e1 : between beam.beg beam.fin 1 = beam.fin := point_ext (by simp [between]) (by simp [between])
  obtain ⟨i, hi, -⟩ := f3 1 zero_le_one (le_refl _) (by rw [e1]; exact ⟨h.1, hin⟩)
  have hf : f.length = 1 := by
    have h2 : f.length ≠ 2 := fun e => hm (f4 e)
    have h0 : f.length ≠ 0 := fun e => by rw [List.length_eq_zero_iff] at e; rw [e] at hi; simp at hi
    omega
  have hchunk : E.byChunk exactCmp beam c true = some (E.byArea (area c) (area c) true) := by
    unfold Est.byChunk
    rw [l1]
    simp only [Option.bind_some]
    rw [if_pos l2, f1]
    simp only [Option.bind_some, Bool.not_true, Bool.false_eq_true, if_false, hf]
  have ha : area c / area c = 1 := by
    refine div_self ?_
    unfold area hside vside
    exact (mul_pos (by linarith) (by linarith)).ne'
  unfold Est.estimateWith
  rw [corner_unmoved c shift beam hs hoff]
  simp only [Option.bind_some, hcl, hchunk, Option.map_some, Est.byArea, if_true, ha]

/-- **C49, far corner.** A beam that passes through the interior and ends in the corner where it would leave the cell gives,
although it ended at an obstacle, the estimate of a beam that met none. -/
theorem obstacle_at_far_corner (E : Est K) (c : Bounds K) (hx : c.left < c.right) (hsq : vside c = hside c)
    (shift : K) (beam : Seg K) (h : EndsInCorner c beam) (hin : ¬ Inside c beam.fin) (hb : ¬ InCell c beam.beg)
    (hm : MeetsInterior c beam.beg beam.fin) :
    E.estimateWith exactCmp shift beam c true = E.estimateWith exactCmp shift beam c false ∧
      ∃ o, E.estimateWith exactCmp shift beam c true = some (some o) ∧ o.prob = E.empty.prob := by
  have hy : c.bot < c.top := by unfold vside hside at hsq; linarith
  obtain ⟨hoff, hs, hcl⟩ := corner_positions c hx hy beam h hin hb
  obtain ⟨l, l1, l2⟩ := corner_chunks c hx hy beam h hin
  obtain ⟨f, f1, f2, f3, -⟩ := segInters_spec c hx hy beam hs hoff
  have hbi : ¬ Inside c beam.beg := fun q => hb ⟨q.1.le, q.2.1.le, q.2.2.1.le, q.2.2.2.le⟩
  obtain ⟨t, u, htu, t0, t1, u0, u1, ht, hu⟩ := segInters_two c beam hs hbi hin hm
  have hne : between beam.beg beam.fin t ≠ between beam.beg beam.fin u := by
    rw [← ofSeg_at, ← ofSeg_at, ne_eq, at_inj _ (ofSeg_delta beam hs)]; exact htu
  have hf : f.length = 2 := by
    have := two_of_distinct f _ _ hne (f3 t t0 t1 ht) (f3 u u0 u1 hu)
    omega
  have fin := segInters_inCell exactCmp c beam hx.le hy.le f f1
  obtain ⟨a, ha, -⟩ := chunkArea_part beam c false hx.le hsq f fin (by omega)
  have hT : E.byChunk exactCmp beam c true = some (E.byArea a (area c) false) := by
    unfold Est.byChunk
    rw [l1]
    simp only [Option.bind_some]
    rw [if_pos l2, f1]
    simp only [Option.bind_some, Bool.not_true, Bool.false_eq_true, if_false, hf, ha, Option.map_some]
  have hF : E.byChunk exactCmp beam c false = some (E.byArea a (area c) false) := by
    unfold Est.byChunk
    rw [show chunkInters exactCmp beam c false = some f from f1]
    simp only [Option.bind_some]
    rw [if_neg (by omega), ha, Option.map_some]
  have eT : E.estimateWith exactCmp shift beam c true = some (some (E.byArea a (area c) false)) := by
    unfold Est.estimateWith
    rw [corner_unmoved c shift beam hs hoff]
    simp only [Option.bind_some, hcl, hT, Option.map_some]
  have eF : E.estimateWith exactCmp shift beam c false = some (some (E.byArea a (area c) false)) := by
    unfold Est.estimateWith
    rw [corner_unmoved c shift beam hs hoff]
    simp only [Option.bind_some, hcl, hF, Option.map_some]
  refine ⟨eT.trans eF.symm, _, eT, ?_⟩
  simp [Est.byArea]

/-- A corner reached from outside: its hypotheses hold. -/
example : EndsInCorner (⟨0, 1, 0, 1⟩ : Bounds ℚ) ⟨⟨-1, -1⟩, ⟨0, 0⟩⟩ ∧ ¬ Inside (⟨0, 1, 0, 1⟩ : Bounds ℚ) ⟨0, 0⟩ ∧
    ¬ InCell (⟨0, 1, 0, 1⟩ : Bounds ℚ) ⟨-1, -1⟩ ∧ ¬ MeetsInterior (⟨0, 1, 0, 1⟩ : Bounds ℚ) ⟨-1, -1⟩ ⟨0, 0⟩ := by
  refine ⟨⟨by norm_num [InCell], ?_⟩, by norm_num [Inside], by norm_num [InCell], ?_⟩
  · rintro ⟨x, y⟩ ⟨h1, h2, h3, h4⟩ h
    simp only at *
    exact point_ext (by simp only; linarith) (by simp only; linarith)
  · rintro ⟨t, h0, h1, h2, h3, h4, h5⟩
    simp only [between] at *
    linarith

/-- The corner opposite, reached through the cell. -/
example : EndsInCorner (⟨0, 1, 0, 1⟩ : Bounds ℚ) ⟨⟨-1, -1⟩, ⟨1, 1⟩⟩ ∧ ¬ Inside (⟨0, 1, 0, 1⟩ : Bounds ℚ) ⟨1, 1⟩ ∧
    ¬ InCell (⟨0, 1, 0, 1⟩ : Bounds ℚ) ⟨-1, -1⟩ ∧ MeetsInterior (⟨0, 1, 0, 1⟩ : Bounds ℚ) ⟨-1, -1⟩ ⟨1, 1⟩ := by
  refine ⟨⟨by norm_num [InCell], ?_⟩, by norm_num [Inside], by norm_num [InCell], ⟨3 / 4, by norm_num, by norm_num, ?_⟩⟩
  · rintro ⟨x, y⟩ ⟨h1, h2, h3, h4⟩ h
    simp only at *
    exact point_ext (by simp only; linarith) (by simp only; linarith)
  · norm_num [Inside, between]

end Slam.Estimator
