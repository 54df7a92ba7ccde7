import Verif.PlainMap.Lemmas

/-! # C08, C09: plain maps are functions from coordinates to cells -/

namespace Slam.PlainMap
open Slam.Grid
variable {C O : Type}

/-- The invariant relating a concrete unbounded map to the abstract function. -/
private theorem runUnbounded_refines (rate : Nat → ℚ) (upd : C → O → C) (ops : List (Op C O)) :
    ∀ (m : PMap C) (f : Coord → C), WF m → (∀ d, m.readUnbounded d = some (f d)) →
      ∃ m', runUnbounded rate upd m ops = some m' ∧ WF m' ∧ m'.proto = m.proto ∧
        (∀ d, m'.readUnbounded d = some (specRun upd f ops d)) ∧
        (∀ d, m.hasInternal (external2internal m.origin d) = true →
          m'.hasInternal (external2internal m'.origin d) = true) ∧
        (∀ op ∈ ops, m'.hasInternal (external2internal m'.origin op.coord) = true) := by
  induction ops with
  | nil => intro m f h hf; exact ⟨m, rfl, h, rfl, hf, fun _ hd => hd, by simp⟩
  | cons op ops ih =>
    intro m f h hf
    obtain ⟨m1, g1, g2, g3, g4, g5, g6⟩ := ensureInside_spec rate m h op.coord
    have key : ∀ v, ∃ m2, m1.setInternal (external2internal m1.origin op.coord) v = some m2 ∧ WF m2 ∧
        m2.proto = m.proto ∧ (∀ d, m2.readUnbounded d = if d = op.coord then some v else some (f d)) ∧
        (∀ d, m.hasInternal (external2internal m.origin d) = true →
          m2.hasInternal (external2internal m2.origin d) = true) ∧
        m2.hasInternal (external2internal m2.origin op.coord) = true := by
      intro v
      obtain ⟨m2, k1, k2, k3, k4, k5, _⟩ := write_read m1 g2 op.coord v g4
      refine ⟨m2, k1, k2, k3.trans g3, ?_, ?_, ?_⟩
      · intro d; rw [k5, g6, hf]
      · intro d hd; rw [k4]; exact g5 d hd
      · rw [k4]; exact g4
    have hstep : ∃ m2, stepUnbounded rate upd m op = some m2 ∧ WF m2 ∧ m2.proto = m.proto ∧
        (∀ d, m2.readUnbounded d = some (specStep upd f op d)) ∧
        (∀ d, m.hasInternal (external2internal m.origin d) = true →
          m2.hasInternal (external2internal m2.origin d) = true) ∧
        m2.hasInternal (external2internal m2.origin op.coord) = true := by
      cases op with
      | update c o =>
        obtain ⟨m2, k1, k2, k3, k4, k5, k6⟩ := key (upd (f c) o)
        refine ⟨m2, ?_, k2, k3, ?_, k5, k6⟩
        · simp only [stepUnbounded]
          simp only [Op.coord] at g1 k1
          rw [g1, Option.bind_some, g6, hf, Option.bind_some, k1]
        · intro d; rw [k4]
          by_cases hd : d = c
          · rw [if_pos (show d = (Op.update c o).coord from hd)]; simp [specStep, hd]
          · rw [if_neg (show ¬ d = (Op.update c o).coord from hd)]; simp [specStep, hd]
      | reset c v =>
        obtain ⟨m2, k1, k2, k3, k4, k5, k6⟩ := key v
        refine ⟨m2, ?_, k2, k3, ?_, k5, k6⟩
        · simp only [stepUnbounded]
          simp only [Op.coord] at g1 k1
          rw [g1, Option.bind_some, k1]
        · intro d; rw [k4]
          by_cases hd : d = c
          · rw [if_pos (show d = (Op.reset c v).coord from hd)]; simp [specStep, hd]
          · rw [if_neg (show ¬ d = (Op.reset c v).coord from hd)]; simp [specStep, hd]
    obtain ⟨m2, s1, s2, s3, s4, s5, s6⟩ := hstep
    obtain ⟨m3, t1, t2, t3, t4, t5, t6⟩ := ih m2 (specStep upd f op) s2 s4
    refine ⟨m3, ?_, t2, t3.trans s3, ?_, fun d hd => t5 d (s5 d hd), ?_⟩
    · simp only [runUnbounded]; rw [s1, Option.bind_some, t1]
    · intro d; rw [t4]; rfl
    · intro op' hop'
      rcases List.mem_cons.1 hop' with rfl | hmem
      · exact t5 _ s6
      · exact t6 _ hmem

/-- C08: for every initial size, every rounding of the growth factor and every history of updates and resets
at arbitrary coordinates, the auto-growing plain map never hits undefined behaviour or a failed assertion,
and reading *any* coordinate afterwards gives exactly what the history did to that coordinate, starting from
the prototype. -/
theorem unbounded_plain_map_refines (rate : Nat → ℚ) (upd : C → O → C) (w h : Nat) (proto : C)
    (ops : List (Op C O)) :
    ∃ m, runUnbounded rate upd (create w h proto) ops = some m ∧
      ∀ d, m.readUnbounded d = some (specRun upd (fun _ => proto) ops d) := by
  have h0 : ∀ d, (create w h proto).readUnbounded d = some proto := by
    intro d
    unfold PMap.readUnbounded
    simp only
    split
    · rename_i hi
      exact create_cellInternal w h proto _ hi
    · rfl
  obtain ⟨m, h1, _, _, h2, _, _⟩ := runUnbounded_refines rate upd ops _ _ (create_wf w h proto) h0
  exact ⟨m, h1, h2⟩

/-- C08: after any history every written coordinate and every initially present coordinate is inside the
reported storage: growth never drops a cell. -/
theorem unbounded_plain_map_extent (rate : Nat → ℚ) (upd : C → O → C) (w h : Nat) (proto : C)
    (ops : List (Op C O)) (m : PMap C)
    (hm : runUnbounded rate upd (create w h proto) ops = some m) :
    (∀ op ∈ ops, (Dims.mk m.width m.height).hasCell m.origin op.coord = true) ∧
    (∀ d, (Dims.mk w h).hasCell (create w h proto).origin d = true →
      (Dims.mk m.width m.height).hasCell m.origin d = true) ∧
    m.cells.length = m.height ∧ (∀ row ∈ m.cells, row.length = m.width) := by
  have h0 : ∃ f : Coord → C, ∀ d, (create w h proto).readUnbounded d = some (f d) := by
    obtain ⟨m0, e, h0⟩ := unbounded_plain_map_refines rate upd w h proto []
    simp only [runUnbounded, Option.some.injEq] at e
    subst e; exact ⟨_, h0⟩
  obtain ⟨f, h0⟩ := h0
  obtain ⟨m', h1, h2, _, _, h4, h5⟩ := runUnbounded_refines rate upd ops _ f (create_wf w h proto) h0
  rw [hm, Option.some.injEq] at h1
  subst h1
  exact ⟨h5, h4, h2.rows, h2.cols⟩

/-- C08: a coordinate no operation was applied to still reads as the prototype. -/
theorem unbounded_plain_map_untouched (rate : Nat → ℚ) (upd : C → O → C) (w h : Nat) (proto : C)
    (ops : List (Op C O)) (d : Coord) (hd : ∀ op ∈ ops, op.coord ≠ d) (m : PMap C)
    (hm : runUnbounded rate upd (create w h proto) ops = some m) :
    m.readUnbounded d = some proto := by
  obtain ⟨m', h1, h2⟩ := unbounded_plain_map_refines rate upd w h proto ops
  rw [hm, Option.some.injEq] at h1
  subst h1
  rw [h2]
  have : ∀ (f : Coord → C), specRun upd f ops d = f d := by
    clear h2 hm
    induction ops with
    | nil => intro f; rfl
    | cons op ops ih =>
      intro f
      have h1 : specRun upd f (op :: ops) d = specRun upd (specStep upd f op) ops d := rfl
      rw [h1, ih (fun o ho => hd o (by simp [ho]))]
      have hne := hd op (by simp)
      cases op <;> simp only [specStep] <;> rw [if_neg (fun e => hne (by rw [e]; rfl))]
  rw [this]

/-- C09: the bounded plain map, for any history of operations at existing cells. -/
theorem bounded_plain_map_refines (upd : C → O → C) (w h : Nat) (proto : C) (ops : List (Op C O))
    (hops : ∀ op ∈ ops, (Dims.mk w h).hasCell (create w h proto).origin op.coord = true) :
    ∃ m, runBounded upd (create w h proto) ops = some m ∧
      ∀ d, m.readBounded d =
        if (Dims.mk w h).hasCell (create w h proto).origin d = true
        then some (specRun upd (fun _ => proto) ops d) else none := by
  have gen : ∀ (ops : List (Op C O)) (m : PMap C) (f : Coord → C), WF m →
      (∀ op ∈ ops, m.hasInternal (external2internal m.origin op.coord) = true) →
      (∀ d, m.readBounded d = if m.hasInternal (external2internal m.origin d) = true then some (f d) else none) →
      ∃ m', runBounded upd m ops = some m' ∧
        ∀ d, m'.readBounded d = if m.hasInternal (external2internal m.origin d) = true
          then some (specRun upd f ops d) else none := by
    intro ops
    induction ops with
    | nil => intro m f _ _ hf; exact ⟨m, rfl, hf⟩
    | cons op ops ih =>
      intro m f hwf hin hf
      have hi := hin op (by simp)
      have hstep : ∃ m2, stepBounded upd m op = some m2 ∧ WF m2 ∧
          (∀ d, m2.hasInternal (external2internal m2.origin d) = m.hasInternal (external2internal m.origin d)) ∧
          (∀ d, m2.readBounded d = if m.hasInternal (external2internal m.origin d) = true
            then some (specStep upd f op d) else none) := by
        cases op with
        | update c o =>
          obtain ⟨m2, k1, k2, _, k4, _, k5⟩ := write_read m hwf c (upd (f c) o) hi
          refine ⟨m2, ?_, k2, k4, ?_⟩
          · simp only [stepBounded]
            simp only [Op.coord] at hi
            rw [hf, if_pos hi, Option.bind_some, k1]
          · intro d; rw [k5, hf]; simp only [specStep]
            split
            · rename_i hd; subst hd; simp only [Op.coord] at hi; rw [if_pos hi]
            · rfl
        | reset c v =>
          obtain ⟨m2, k1, k2, _, k4, _, k5⟩ := write_read m hwf c v hi
          refine ⟨m2, k1, k2, k4, ?_⟩
          intro d; rw [k5, hf]; simp only [specStep]
          split
          · rename_i hd; subst hd; simp only [Op.coord] at hi; rw [if_pos hi]
          · rfl
      obtain ⟨m2, s1, s2, s3, s4⟩ := hstep
      obtain ⟨m3, t1, t2⟩ := ih m2 (specStep upd f op) s2
        (fun o ho => by rw [s3]; exact hin o (by simp [ho])) (fun d => by rw [s4, s3])
      refine ⟨m3, ?_, ?_⟩
      · simp only [runBounded]; rw [s1, Option.bind_some, t1]
      · intro d; rw [t2, s3]; rfl
  refine gen ops (create w h proto) _ (create_wf w h proto) hops ?_
  intro d
  unfold PMap.readBounded
  simp only
  split
  · rename_i hi
    exact create_cellInternal w h proto _ hi
  · rfl

/-- C09: an update outside of the extent is rejected (the assertion fails), whatever the map holds. -/
theorem bounded_plain_map_rejects_update (upd : C → O → C) (m : PMap C) (c : Coord) (o : O)
    (h : (Dims.mk m.width m.height).hasCell m.origin c = false) :
    stepBounded upd m (.update c o) = none := by
  have h' : m.hasInternal (external2internal m.origin c) = false := h
  simp [stepBounded, PMap.readBounded, h']

/-- Non-vacuity / test: a history that prepends and appends in both dimensions. -/
example :
    ((runUnbounded (fun d => 6 / 5 * d) (fun v (o : Nat) => v + o) (create 10 10 0)
      [.update ⟨0, 0⟩ 5, .update ⟨-6, 4⟩ 7, .reset ⟨20, -20⟩ 9, .update ⟨0, 0⟩ 1]).bind
        fun m => m.readUnbounded ⟨0, 0⟩) = some 6 := by decide +kernel

example : (Dims.mk 10 10).hasCell (create 10 10 0).origin ⟨4, -5⟩ = true := by decide

end Slam.PlainMap
