import Verif.PlainMap.Spec
import Mathlib.Tactic.Linarith
import Mathlib.Tactic.Ring

/-! Helper lemmas for plain maps. -/

namespace Slam.PlainMap
open Slam.Grid
variable {C O : Type}

/-- Representation invariant: the storage has the declared size. -/
structure WF (m : PMap C) : Prop where
  rows : m.cells.length = m.height
  cols : ∀ row ∈ m.cells, row.length = m.width

theorem hasInternal_iff (m : PMap C) (ic : Coord) :
    m.hasInternal ic = true ↔ (0 ≤ ic.x ∧ ic.x < m.width) ∧ (0 ≤ ic.y ∧ ic.y < m.height) := by
  simp only [PMap.hasInternal, Dims.hasInternalCell, Bool.and_eq_true, decide_eq_true_eq]

theorem create_wf (w h : Nat) (p : C) : WF (create w h p) :=
  ⟨by simp [create], by
    intro row hrow
    simp only [create, List.mem_replicate] at hrow
    simp [hrow.2, create]⟩

theorem create_cellInternal (w h : Nat) (p : C) (ic : Coord)
    (hi : (create w h p).hasInternal ic = true) : (create w h p).cellInternal ic = some p := by
  rw [hasInternal_iff] at hi
  have h1 : ic.x < w := hi.1.2
  have h2 : ic.y < h := hi.2.2
  unfold PMap.cellInternal idx
  rw [if_pos hi.2.1]
  have e : (create w h p).cells = List.replicate h (List.replicate w p) := rfl
  rw [e, List.getElem?_replicate, if_pos (by omega), Option.bind_some, if_pos hi.1.1,
    List.getElem?_replicate, if_pos (by omega)]

/-- In-range reads are defined. -/
theorem cellInternal_some (m : PMap C) (h : WF m) (ic : Coord) (hi : m.hasInternal ic = true) :
    ∃ v, m.cellInternal ic = some v := by
  rw [hasInternal_iff] at hi
  unfold PMap.cellInternal idx
  rw [if_pos hi.2.1]
  have hy : ic.y.toNat < m.cells.length := by rw [h.rows]; omega
  rw [List.getElem?_eq_getElem hy]
  simp only [Option.bind_some, if_pos hi.1.1]
  have hx : ic.x.toNat < (m.cells[ic.y.toNat]).length := by
    rw [h.cols _ (List.getElem_mem hy)]; omega
  exact ⟨_, List.getElem?_eq_getElem hx⟩

/-- Writing in range: defined, keeps the shape, changes exactly one storage cell. -/
theorem setInternal_spec (m : PMap C) (h : WF m) (ic : Coord) (v : C) (hi : m.hasInternal ic = true) :
    ∃ m', m.setInternal ic v = some m' ∧ WF m' ∧ m'.width = m.width ∧ m'.height = m.height ∧
      m'.origin = m.origin ∧ m'.proto = m.proto ∧
      ∀ jc, m'.hasInternal jc = true →
        m'.cellInternal jc = if jc = ic then some v else m.cellInternal jc := by
  have hi' := (hasInternal_iff m ic).1 hi
  have hy : ic.y.toNat < m.cells.length := by rw [h.rows]; omega
  have hx : ic.x.toNat < (m.cells[ic.y.toNat]).length := by
    rw [h.cols _ (List.getElem_mem hy)]; omega
  have e1 : idx m.cells ic.y = some m.cells[ic.y.toNat] := by
    unfold idx; rw [if_pos hi'.2.1, List.getElem?_eq_getElem hy]
  have e2 : idx m.cells[ic.y.toNat] ic.x = some (m.cells[ic.y.toNat])[ic.x.toNat] := by
    unfold idx; rw [if_pos hi'.1.1, List.getElem?_eq_getElem hx]
  refine ⟨{ m with cells := m.cells.set ic.y.toNat ((m.cells[ic.y.toNat]).set ic.x.toNat v) },
    by unfold PMap.setInternal; rw [e1, Option.bind_some, e2, Option.map_some], ?_, rfl, rfl, rfl, rfl, ?_⟩
  · constructor
    · simp [h.rows]
    · intro row hrow
      have := List.mem_or_eq_of_mem_set hrow
      rcases this with h1 | h1
      · exact h.cols row h1
      · subst h1; simp [h.cols _ (List.getElem_mem hy)]
  · intro jc hj
    have hj' := (hasInternal_iff _ jc).1 hj
    simp only at hj'
    unfold PMap.cellInternal idx
    simp only [if_pos hj'.2.1, if_pos hj'.1.1]
    by_cases hyy : jc.y = ic.y
    · have hy2 : jc.y.toNat = ic.y.toNat := by rw [hyy]
      rw [hy2, List.getElem?_set_self hy, List.getElem?_eq_getElem hy]
      simp only [Option.bind_some]
      by_cases hxx : jc.x = ic.x
      · have : jc = ic := by cases jc; cases ic; simp_all
        rw [if_pos this, hxx, List.getElem?_set_self hx]
      · have : jc ≠ ic := by rintro rfl; exact hxx rfl
        rw [if_neg this, List.getElem?_set_ne]
        omega
    · have : jc ≠ ic := by rintro rfl; exact hyy rfl
      rw [if_neg this, List.getElem?_set_ne]
      omega

theorem allSome_map {α β : Type} (l : List α) (f : α → Option β) (g : α → β)
    (h : ∀ a ∈ l, f a = some (g a)) : allSome (l.map f) = some (l.map g) := by
  induction l with
  | nil => rfl
  | cons a l ih =>
    simp only [List.map_cons]
    rw [h a (by simp), allSome, ih (fun b hb => h b (by simp [hb]))]
    rfl

theorem determine_cases (val : Int) (max : Nat) :
    (val < 0 ∧ determineCellsNm val max = ((-val).toNat, 0)) ∨
    (0 ≤ val ∧ (max : Int) ≤ val ∧ determineCellsNm val max = (0, (val - max + 1).toNat)) ∨
    (0 ≤ val ∧ val < max ∧ determineCellsNm val max = (0, 0)) := by
  unfold determineCellsNm
  by_cases h1 : val < 0
  · left; simp [h1]
  · by_cases h2 : (max : Int) ≤ val
    · right; left; simp [h1, h2]; omega
    · right; right; simp [h1, h2]; omega

/-- What growth in one dimension achieves, for any rounding of the growth factor: the old range fits after
the prepended part and the requested coordinate is inside. -/
theorem updateDim_spec (rate : Nat → ℚ) (dim : Nat) (val : Int) :
    let p := determineCellsNm val dim
    let n := updateDim rate dim p.1 p.2
    n.1 + dim ≤ n.2 ∧ 0 ≤ val + n.1 ∧ val + n.1 < n.2 := by
  intro p n
  have hn : n = updateDim rate dim p.1 p.2 := rfl
  unfold updateDim at hn
  simp only at hn
  have hp : p = determineCellsNm val dim := rfl
  split at hn
  · rename_i hc
    obtain ⟨hlt, hr⟩ := hc
    have hfl : ((p.1 + dim + p.2 : Nat) : Int) ≤ ⌊rate dim⌋ := by
      rw [Int.le_floor]; push_cast at hr ⊢; exact hr.le
    rcases determine_cases val dim with ⟨h1, h2⟩ | ⟨h1, h2, h3⟩ | ⟨h1, h2, h3⟩
    · rw [← hp] at h2
      have e1 : p.1 = (-val).toNat := by rw [h2]
      have e2 : p.2 = 0 := by rw [h2]
      have hs : p.1 / (p.1 + dim + p.2 - dim) = 1 := by
        rw [e2, show p.1 + dim + 0 - dim = p.1 by omega]; exact Nat.div_self (by omega)
      rw [hs] at hn
      have e3 : (p.1 : ℚ) + (rate dim - ((p.1 + dim + p.2 : Nat) : ℚ)) * ((1 : Nat) : ℚ)
          = rate dim - ((dim : Int) : ℚ) := by
        rw [e2]; push_cast; ring
      rw [e3, Int.floor_sub_intCast] at hn
      rw [hn]
      push_cast at hfl
      refine ⟨?_, ?_, ?_⟩ <;> (try simp only) <;> omega
    · rw [← hp] at h3
      have e1 : p.1 = 0 := by rw [h3]
      have e2 : p.2 = (val - dim + 1).toNat := by rw [h3]
      rw [e1] at hn
      simp only [Nat.zero_div, Nat.cast_zero, mul_zero, add_zero, Int.floor_zero,
        Int.toNat_zero] at hn
      rw [hn]
      push_cast at hfl
      refine ⟨?_, ?_, ?_⟩ <;> (try simp only) <;> omega
    · rw [← hp] at h3
      have e1 : p.1 = 0 := by rw [h3]
      have e2 : p.2 = 0 := by rw [h3]
      omega
  · rw [hn]
    rcases determine_cases val dim with ⟨h1, h2⟩ | ⟨h1, h2, h3⟩ | ⟨h1, h2, h3⟩
    · rw [← hp] at h2
      have e1 : p.1 = (-val).toNat := by rw [h2]
      have e2 : p.2 = 0 := by rw [h2]
      refine ⟨?_, ?_, ?_⟩ <;> (try simp only) <;> omega
    · rw [← hp] at h3
      have e1 : p.1 = 0 := by rw [h3]
      have e2 : p.2 = (val - dim + 1).toNat := by rw [h3]
      refine ⟨?_, ?_, ?_⟩ <;> (try simp only) <;> omega
    · rw [← hp] at h3
      have e1 : p.1 = 0 := by rw [h3]
      have e2 : p.2 = 0 := by rw [h3]
      refine ⟨?_, ?_, ?_⟩ <;> (try simp only) <;> omega

theorem blit_getElem? {α : Type} (dst src : List α) (off : Nat) (h : off + src.length ≤ dst.length)
    (i : Nat) :
    (dst.take off ++ src ++ dst.drop (off + src.length))[i]? =
      if off ≤ i ∧ i < off + src.length then src[i - off]? else dst[i]? := by
  have hto : (dst.take off).length = off := by simp; omega
  by_cases h1 : i < off
  · rw [if_neg (by omega), List.append_assoc, List.getElem?_append_left (by omega),
      List.getElem?_take_of_lt h1]
  · by_cases h2 : i < off + src.length
    · rw [if_pos (by omega), List.append_assoc, List.getElem?_append_right (by omega),
        List.getElem?_append_left (by omega), hto]
    · rw [if_neg (by omega), List.getElem?_append_right (by simp; omega), List.getElem?_drop]
      congr 1
      simp; omega

/-- Growth: defined, keeps every reading, makes the coordinate valid, never shrinks. -/
theorem ensureInside_spec (rate : Nat → ℚ) (m : PMap C) (h : WF m) (c : Coord) :
    ∃ m', m.ensureInside rate c = some m' ∧ WF m' ∧ m'.proto = m.proto ∧
      m'.hasInternal (external2internal m'.origin c) = true ∧
      (∀ d, m.hasInternal (external2internal m.origin d) = true →
        m'.hasInternal (external2internal m'.origin d) = true) ∧
      ∀ d, m'.readUnbounded d = m.readUnbounded d := by
  unfold PMap.ensureInside
  simp only
  by_cases hin : m.hasInternal (external2internal m.origin c) = true
  · rw [if_pos hin]
    exact ⟨m, rfl, h, rfl, hin, fun _ hd => hd, fun _ => rfl⟩
  · rw [if_neg hin]
    set coord := external2internal m.origin c with hcoord
    have sx := updateDim_spec rate m.width coord.x
    have sy := updateDim_spec rate m.height coord.y
    simp only at sx sy
    set nx := updateDim rate m.width (determineCellsNm coord.x m.width).1 (determineCellsNm coord.x m.width).2
    set ny := updateDim rate m.height (determineCellsNm coord.y m.height).1 (determineCellsNm coord.y m.height).2
    set newRow := List.replicate nx.2 m.proto with hnewRow
    let g : Nat → List C := fun y =>
      if y < ny.1 ∨ ny.1 + m.height ≤ y then newRow
      else newRow.take nx.1 ++ (m.cells[y - ny.1]?.getD []) ++
        newRow.drop (nx.1 + (m.cells[y - ny.1]?.getD []).length)
    have hrowlen : ∀ y, ¬ (y < ny.1 ∨ ny.1 + m.height ≤ y) →
        ∃ row, m.cells[y - ny.1]? = some row ∧ row.length = m.width := by
      intro y hy
      have hlt : y - ny.1 < m.cells.length := by rw [h.rows]; omega
      exact ⟨_, List.getElem?_eq_getElem hlt, h.cols _ (List.getElem_mem hlt)⟩
    have hall : allSome ((List.range ny.2).map fun y =>
        if y < ny.1 ∨ ny.1 + m.height ≤ y then some newRow
        else (m.cells[y - ny.1]?).bind fun row => blit newRow row nx.1) =
        some ((List.range ny.2).map g) := by
      apply allSome_map
      intro y _
      by_cases hy : y < ny.1 ∨ ny.1 + m.height ≤ y
      · simp only [g, if_pos hy]
      · obtain ⟨row, hr, hl⟩ := hrowlen y hy
        simp only [g, if_neg hy, hr, Option.bind_some, Option.getD_some, blit]
        rw [if_pos (by rw [hl, hnewRow, List.length_replicate]; omega)]
    rw [hall, Option.bind_some]
    have hglen : ∀ y, (g y).length = nx.2 := by
      intro y
      by_cases hy : y < ny.1 ∨ ny.1 + m.height ≤ y
      · simp only [g, if_pos hy, hnewRow, List.length_replicate]
      · obtain ⟨row, hr, hl⟩ := hrowlen y hy
        simp only [g, if_neg hy, hr, Option.getD_some, List.length_append, List.length_take,
          List.length_drop, hnewRow, List.length_replicate, hl]
        omega
    set m' : PMap C := { m with width := nx.2, height := ny.2, cells := (List.range ny.2).map g,
                                origin := m.origin.add ⟨nx.1, ny.1⟩ } with hm'
    have hsh : ∀ d, external2internal m'.origin d =
        ⟨(external2internal m.origin d).x + nx.1, (external2internal m.origin d).y + ny.1⟩ := by
      intro d
      simp only [hm', external2internal, Coord.add, Coord.mk.injEq]
      omega
    have hc' : m'.hasInternal (external2internal m'.origin c) = true := by
      rw [hsh, hasInternal_iff]
      simp only [← hcoord, hm']
      omega
    rw [if_pos hc']
    have hold : ∀ d, m.hasInternal (external2internal m.origin d) = true →
        m'.hasInternal (external2internal m'.origin d) = true := by
      intro d hd
      rw [hsh, hasInternal_iff]
      rw [hasInternal_iff] at hd
      simp only [hm']
      omega
    refine ⟨m', rfl, ⟨by simp [hm'], ?_⟩, rfl, hc', hold, ?_⟩
    · intro row hrow
      simp only [hm', List.mem_map, List.mem_range] at hrow
      obtain ⟨y, _, rfl⟩ := hrow
      exact hglen y
    · intro d
      unfold PMap.readUnbounded
      simp only
      by_cases hn : m'.hasInternal (external2internal m'.origin d) = true
      · rw [if_pos hn]
        rw [hsh] at hn ⊢
        rw [hasInternal_iff] at hn
        simp only [hm'] at hn
        set e := external2internal m.origin d
        have hgy : idx m'.cells (e.y + ny.1) = some (g (e.y + ny.1).toNat) := by
          unfold idx
          rw [if_pos hn.2.1]
          simp only [hm', List.getElem?_map]
          rw [List.getElem?_range (by omega)]
          rfl
        unfold PMap.cellInternal
        simp only [hgy, Option.bind_some]
        by_cases ho : m.hasInternal e = true
        · rw [if_pos ho]
          rw [hasInternal_iff] at ho
          have hy : ¬ ((e.y + ny.1).toNat < ny.1 ∨ ny.1 + m.height ≤ (e.y + ny.1).toNat) := by omega
          obtain ⟨row, hr, hl⟩ := hrowlen _ hy
          have hi2 : idx m.cells e.y = some row := by
            unfold idx
            rw [if_pos ho.2.1, ← hr]
            congr 1; omega
          simp only [hi2, Option.bind_some, g, if_neg hy, hr, Option.getD_some]
          unfold idx
          rw [if_pos hn.1.1, if_pos ho.1.1, blit_getElem? _ _ _ (by rw [hl, hnewRow, List.length_replicate]; omega),
            if_pos (by omega)]
          congr 1; omega
        · rw [if_neg ho]
          have ho' : ¬ ((0 ≤ e.x ∧ e.x < m.width) ∧ (0 ≤ e.y ∧ e.y < m.height)) := by
            intro hh; exact ho ((hasInternal_iff m e).2 hh)
          unfold idx
          rw [if_pos hn.1.1]
          by_cases hy : ((e.y + ny.1).toNat < ny.1 ∨ ny.1 + m.height ≤ (e.y + ny.1).toNat)
          · simp only [g, if_pos hy, hnewRow]
            rw [List.getElem?_replicate, if_pos (by omega)]
          · obtain ⟨row, hr, hl⟩ := hrowlen _ hy
            simp only [g, if_neg hy, hr, Option.getD_some]
            rw [blit_getElem? _ _ _ (by rw [hl, hnewRow, List.length_replicate]; omega),
              if_neg (by omega), hnewRow, List.getElem?_replicate, if_pos (by omega)]
      · rw [if_neg hn]
        have ho : ¬ m.hasInternal (external2internal m.origin d) = true := fun hd => hn (hold d hd)
        rw [if_neg ho]

theorem e2i_inj (o c d : Coord) : external2internal o c = external2internal o d ↔ c = d := by
  cases c; cases d
  simp only [external2internal, Coord.add, Coord.mk.injEq]
  omega

/-- Writing after growth, in terms of readings. -/
theorem write_read (m : PMap C) (h : WF m) (c : Coord) (v : C)
    (hi : m.hasInternal (external2internal m.origin c) = true) :
    ∃ m', m.setInternal (external2internal m.origin c) v = some m' ∧ WF m' ∧ m'.proto = m.proto ∧
      (∀ d, m'.hasInternal (external2internal m'.origin d) = m.hasInternal (external2internal m.origin d)) ∧
      (∀ d, m'.readUnbounded d = if d = c then some v else m.readUnbounded d) ∧
      (∀ d, m'.readBounded d = if d = c then some v else m.readBounded d) := by
  obtain ⟨m', h1, h2, hw, hh, ho, hp, hr⟩ := setInternal_spec m h _ v hi
  have hsame : ∀ ic, m'.hasInternal ic = m.hasInternal ic := by
    intro ic; simp only [PMap.hasInternal, hw, hh]
  refine ⟨m', h1, h2, hp, fun d => by rw [hsame, ho], ?_, ?_⟩
  · intro d
    unfold PMap.readUnbounded
    simp only [ho, hsame, hp]
    by_cases hd : m.hasInternal (external2internal m.origin d) = true
    · rw [if_pos hd, if_pos hd, hr _ (by rw [hsame]; exact hd)]
      simp only [e2i_inj]
    · rw [if_neg hd, if_neg hd, if_neg]
      rintro rfl; exact hd hi
  · intro d
    unfold PMap.readBounded
    simp only [ho, hsame]
    by_cases hd : m.hasInternal (external2internal m.origin d) = true
    · rw [if_pos hd, if_pos hd, hr _ (by rw [hsame]; exact hd)]
      simp only [e2i_inj]
    · rw [if_neg hd, if_neg hd, if_neg]
      rintro rfl; exact hd hi

end Slam.PlainMap
