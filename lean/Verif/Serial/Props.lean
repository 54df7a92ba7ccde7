import Verif.Serial.Spec
import Verif.PlainMap.Props

/-! # C24–C26: serialisation -/

set_option autoImplicit false

namespace Slam.Serial
open Slam.Grid Slam.PlainMap Slam.Cells Slam.Tbm

theorem bytesLE_length (n v : Nat) : (bytesLE n v).length = n := by
  induction n generalizing v with
  | zero => rfl
  | succ n ih => simp [bytesLE, ih]

theorem natLE_bytesLE (n v : Nat) (h : v < 256 ^ n) : natLE (bytesLE n v) = v := by
  induction n generalizing v with
  | zero => simp at h; simp [bytesLE, natLE, h]
  | succ n ih =>
    have : v / 256 < 256 ^ n := by
      rw [Nat.div_lt_iff_lt_mul (by norm_num)]; rw [pow_succ] at h; exact h
    simp only [bytesLE, natLE, ih _ this, BitVec.toNat_ofNat]
    omega

theorem repr_length (v : Val) : v.repr.length = v.ty.size := by
  cases v <;> simp [Val.repr, Val.ty, Ty.size, bytesLE_length]

theorem readValue_repr (v : Val) (pre post : Bytes) :
    readValue v.ty (pre ++ v.repr ++ post) pre.length = some (v, (pre ++ v.repr).length) := by
  have hl := repr_length v
  have e : ((pre ++ v.repr ++ post).drop pre.length).take v.ty.size = v.repr := by
    rw [List.append_assoc, List.drop_left, ← hl, List.take_left]
  have hle : pre.length + v.ty.size ≤ (pre ++ v.repr ++ post).length := by
    simp only [List.length_append]; omega
  unfold readValue
  rw [if_pos hle, e]
  simp only [List.length_append, hl]
  cases v with
  | bool b => cases b <;> simp [Val.ty, Val.repr, bytesLE, natLE, Ty.size]
  | i32 v =>
    have : natLE (Val.i32 v).repr = v.toNat := natLE_bytesLE 4 _ (by have := v.isLt; omega)
    simp [Val.ty, Ty.size, this]
  | w64 v =>
    have : natLE (Val.w64 v).repr = v.toNat := natLE_bytesLE 8 _ (by have := v.isLt; omega)
    simp [Val.ty, Ty.size, this]

theorem addAll_eq (s : Bytes) (vs : List Val) : addAll s vs = s ++ (vs.map Val.repr).flatten := by
  induction vs generalizing s with
  | nil => simp [addAll]
  | cons v vs ih =>
    have : addAll s (v :: vs) = addAll (addValue s v) vs := rfl
    rw [this, ih]; simp [addValue]

/-- C24: whatever was already in the buffer and whatever is appended later, reading back with the same
sequence of types, from the position where writing started, returns the same values bit for bit and stops
exactly where writing stopped. -/
theorem serialization_roundtrip (pre post : Bytes) (vs : List Val) :
    readAll (vs.map Val.ty) (addAll pre vs ++ post) pre.length = some (vs, (addAll pre vs).length) := by
  rw [addAll_eq]
  induction vs generalizing pre with
  | nil => simp [readAll]
  | cons v vs ih =>
    simp only [List.map_cons, List.flatten_cons, readAll]
    have h1 := readValue_repr v pre ((vs.map Val.repr).flatten ++ post)
    have e : pre ++ (v.repr ++ (vs.map Val.repr).flatten) ++ post
        = pre ++ v.repr ++ ((vs.map Val.repr).flatten ++ post) := by simp
    rw [e, h1, Option.bind_some]
    have h2 := ih (pre ++ v.repr)
    have e2 : pre ++ v.repr ++ (vs.map Val.repr).flatten ++ post
        = pre ++ v.repr ++ ((vs.map Val.repr).flatten ++ post) := by simp
    rw [e2] at h2
    rw [h2]
    simp

/-- C24: writing occupies exactly the sum of the sizes of the values and leaves earlier bytes alone. -/
theorem serialization_size (pre : Bytes) (vs : List Val) :
    (addAll pre vs).length = pre.length + (vs.map fun v => v.ty.size).sum ∧
    (addAll pre vs).take pre.length = pre := by
  rw [addAll_eq]
  refine ⟨?_, by simp⟩
  simp [List.length_flatten, Function.comp_def, repr_length]

/-- Non-vacuity / test. -/
example : readAll [.i32, .bool, .w64] ([0xAA#8] ++ (Val.i32 0xFFFFFFFE#32).repr ++ (Val.bool true).repr
    ++ (Val.w64 0x3FF0000000000000#64).repr ++ [0xBB#8]) 1
    = some ([.i32 0xFFFFFFFE#32, .bool true, .w64 0x3FF0000000000000#64], 14) := by decide +kernel

example : (Val.i32 0x01020304#32).repr = [4#8, 3#8, 2#8, 1#8] := by decide +kernel

/-! ## Cells -/

theorem baseDes_baseSer (o : Occ (BitVec 64)) (u : Bool) (pre post : Bytes) :
    baseDes (pre ++ baseSer o u ++ post) pre.length = some ((o, u), (pre ++ baseSer o u).length) := by
  have h := serialization_roundtrip pre post [.w64 o.prob, .w64 o.qual, .bool u]
  have e : addAll pre [.w64 o.prob, .w64 o.qual, .bool u] = pre ++ baseSer o u := by
    simp [baseSer, addAll_eq]
  rw [e] at h
  unfold baseDes
  simp only [List.map_cons, List.map_nil, Val.ty] at h
  rw [h]

/-- C25: plain and affine cells are restored entirely. -/
theorem affine_cell_roundtrip : Restores affineCodec reloadAffine := by
  intro proto c pre post
  simp only [affineCodec, baseDes_baseSer, Option.map_some, reloadAffine]

/-- C25: mean cells are restored except for the number of observations. -/
theorem mean_cell_roundtrip : Restores meanCodec reloadMean := by
  intro proto c pre post
  simp only [meanCodec, baseDes_baseSer, Option.map_some, reloadMean]

/-- C25: GMapping cells are restored except for counters and obstacle. -/
theorem gmapping_cell_roundtrip : Restores gmCodec reloadGm := by
  intro proto c pre post
  simp only [gmCodec, baseDes_baseSer, Option.map_some, reloadGm]

/-- C25: belief cells are restored entirely. -/
theorem tbm_cell_roundtrip : Restores tbmCodec reloadTbm := by
  intro proto c pre post
  have e : tbmCodec.ser c = baseSer c.occ c.unknown ++ addAll []
    [.w64 c.belief.unknown, .w64 c.belief.empty, .w64 c.belief.occupied, .w64 c.belief.conflict] := by
    simp [tbmCodec, addAll_eq]
  have h1 := baseDes_baseSer c.occ c.unknown pre
    (addAll [] [.w64 c.belief.unknown, .w64 c.belief.empty, .w64 c.belief.occupied, .w64 c.belief.conflict] ++ post)
  have h2 := serialization_roundtrip (pre ++ baseSer c.occ c.unknown) post
    [.w64 c.belief.unknown, .w64 c.belief.empty, .w64 c.belief.occupied, .w64 c.belief.conflict]
  have e2 : addAll (pre ++ baseSer c.occ c.unknown)
      [.w64 c.belief.unknown, .w64 c.belief.empty, .w64 c.belief.occupied, .w64 c.belief.conflict]
      = pre ++ tbmCodec.ser c := by rw [e]; simp [addAll_eq]
  rw [e2] at h2
  have e3 : pre ++ baseSer c.occ c.unknown ++ (addAll []
      [.w64 c.belief.unknown, .w64 c.belief.empty, .w64 c.belief.occupied, .w64 c.belief.conflict] ++ post)
      = pre ++ tbmCodec.ser c ++ post := by rw [e]; simp
  rw [e3] at h1
  simp only [List.map_cons, List.map_nil, Val.ty] at h2
  simp only [tbmCodec] at h1 h2 ⊢
  rw [h1, Option.bind_some]
  simp only [h2, reloadTbm]

/-! ## Maps -/

variable {C : Type}

theorem loadRow_spec (k : Codec C) (f : C → C → C) (hk : Restores k f) (proto : C) (cs : List C) :
    ∀ pre post : Bytes, loadRow k proto (pre ++ (cs.map k.ser).flatten ++ post) cs.length pre.length
      = some (cs.map (f proto), (pre ++ (cs.map k.ser).flatten).length) := by
  induction cs with
  | nil => intro pre post; simp [loadRow]
  | cons c cs ih =>
    intro pre post
    simp only [List.length_cons, loadRow, List.map_cons, List.flatten_cons]
    have h1 := hk proto c pre ((cs.map k.ser).flatten ++ post)
    have e : pre ++ (k.ser c ++ (cs.map k.ser).flatten) ++ post
        = pre ++ k.ser c ++ ((cs.map k.ser).flatten ++ post) := by simp
    rw [e, h1, Option.bind_some]
    have h2 := ih (pre ++ k.ser c) post
    rw [List.append_assoc (pre ++ k.ser c)] at h2
    simp only
    rw [h2]; simp

theorem loadRows_spec (k : Codec C) (f : C → C → C) (hk : Restores k f) (proto : C) (w : Nat)
    (rows : List (List C)) (hw : ∀ r ∈ rows, r.length = w) :
    ∀ pre post : Bytes,
      loadRows k proto (pre ++ (rows.map fun r => (r.map k.ser).flatten).flatten ++ post) w rows.length pre.length
      = some (rows.map (List.map (f proto)),
          (pre ++ (rows.map fun r => (r.map k.ser).flatten).flatten).length) := by
  induction rows with
  | nil => intro pre post; simp [loadRows]
  | cons r rows ih =>
    intro pre post
    simp only [List.length_cons, loadRows, List.map_cons, List.flatten_cons]
    have h1 := loadRow_spec k f hk proto r pre ((rows.map fun r => (r.map k.ser).flatten).flatten ++ post)
    rw [hw r (by simp)] at h1
    have e : pre ++ ((r.map k.ser).flatten ++ (rows.map fun r => (r.map k.ser).flatten).flatten) ++ post
        = pre ++ (r.map k.ser).flatten ++ ((rows.map fun r => (r.map k.ser).flatten).flatten ++ post) := by simp
    rw [e, h1, Option.bind_some]
    have h2 := ih (fun r hr => hw r (by simp [hr])) (pre ++ (r.map k.ser).flatten) post
    rw [List.append_assoc (pre ++ (r.map k.ser).flatten)] at h2
    simp only
    rw [h2]; simp

theorem save_eq (k : Codec C) (m : SMap C) :
    save k m = addAll []
      [.i32 (BitVec.ofInt 32 m.map.height), .i32 (BitVec.ofInt 32 m.map.width), .w64 m.scale,
       .i32 (BitVec.ofInt 32 m.map.origin.x), .i32 (BitVec.ofInt 32 m.map.origin.y)] ++
      (m.map.cells.map fun r => (r.map k.ser).flatten).flatten := by
  unfold save
  simp only [append]
  congr 1
  have h1 : ∀ (row : List C) (s : Bytes), row.foldl (fun ms c => ms ++ k.ser c) s = s ++ (row.map k.ser).flatten := by
    intro row
    induction row with
    | nil => simp
    | cons c row ih => intro s; simp [ih]
  have h2 : ∀ (rows : List (List C)) (s : Bytes),
      rows.foldl (fun ms row => row.foldl (fun ms c => ms ++ k.ser c) ms) s
        = s ++ (rows.map fun r => (r.map k.ser).flatten).flatten := by
    intro rows
    induction rows with
    | nil => simp
    | cons r rows ih =>
      intro s
      rw [List.foldl_cons, ih, h1]; simp
  exact (h2 m.map.cells []).trans (List.nil_append _)

/-- C25: loading a saved state, possibly followed by other bytes, into *any* map object of the same cell type
replaces its size, origin, scale and all its cells by those saved (each cell as its type restores it), keeps
only the receiver's prototype, and stops exactly at the end of the saved bytes. -/
theorem map_state_roundtrip (k : Codec C) (f : C → C → C) (hk : Restores k f) (m recv : SMap C)
    (hs : Shaped m.map) (hf : FitsInt m.map) (post : Bytes) :
    load k recv (save k m ++ post)
      = some (⟨reloadMap f recv.map.proto m.map, m.scale⟩, (save k m).length) := by
  obtain ⟨hw, hh, hx1, hx2, hy1, hy2⟩ := hf
  obtain ⟨hr, hc⟩ := hs
  have i32 : ∀ z : Int, -2 ^ 31 ≤ z → z < 2 ^ 31 → (BitVec.ofInt 32 z).toInt = z := by
    intro z h1 h2
    rw [BitVec.toInt_ofInt]
    apply Int.bmod_eq_of_le <;> omega
  set hd : List Val := [.i32 (BitVec.ofInt 32 m.map.height), .i32 (BitVec.ofInt 32 m.map.width), .w64 m.scale,
       .i32 (BitVec.ofInt 32 m.map.origin.x), .i32 (BitVec.ofInt 32 m.map.origin.y)] with hhd
  have h1 := serialization_roundtrip [] ((m.map.cells.map fun r => (r.map k.ser).flatten).flatten ++ post) hd
  have h2 := loadRows_spec k f hk recv.map.proto m.map.width m.map.cells hc (addAll [] hd) post
  have eh : ((m.map.height : Int)).toNat = m.map.height := by simp
  have ew : ((m.map.width : Int)).toNat = m.map.width := by simp
  unfold load
  rw [save_eq, ← hhd]
  rw [← List.append_assoc] at h1
  simp only [hhd, List.map_cons, List.map_nil, Val.ty, List.length_nil] at h1 h2 ⊢
  rw [h1]
  simp only [i32 m.map.height (by omega) (by omega), i32 m.map.width (by omega) (by omega),
    i32 _ hx1 hx2, i32 _ hy1 hy2, eh, ew]
  rw [hr] at h2
  rw [if_neg (by omega), h2]
  simp [reloadMap]

/-- C25 for histories: every map produced by any history of operations whose size still fits the program's
`int`s is restored by any receiver: same size, same origin, same scale, and reading any coordinate gives the
restored cell (the receiver's prototype outside the stored extent). -/
theorem map_state_roundtrip_reads {O : Type} (rate : Nat → ℚ) (upd : C → O → C) (w h : Nat) (proto : C)
    (ops : List (Op C O)) (m : PMap C) (hm : runUnbounded rate upd (create w h proto) ops = some m)
    (hf : FitsInt m) (scale : BitVec 64)
    (k : Codec C) (f : C → C → C) (hk : Restores k f) (recv : SMap C) :
    ∃ r, load k recv (save k ⟨m, scale⟩) = some (r, (save k ⟨m, scale⟩).length) ∧
      r.scale = scale ∧ r.map.width = m.width ∧ r.map.height = m.height ∧ r.map.origin = m.origin ∧
      ∀ d, r.map.readUnbounded d =
        if (Dims.mk m.width m.height).hasCell m.origin d = true
        then (m.readUnbounded d).map (f recv.map.proto) else some recv.map.proto := by
  obtain ⟨_, _, hs1, hs2⟩ := unbounded_plain_map_extent rate upd w h proto ops m hm
  have h0 := map_state_roundtrip k f hk ⟨m, scale⟩ recv ⟨hs1, hs2⟩ hf []
  rw [List.append_nil] at h0
  refine ⟨_, h0, rfl, rfl, rfl, rfl, ?_⟩
  intro d
  have hh : (reloadMap f recv.map.proto m).hasInternal (external2internal m.origin d)
      = (Dims.mk m.width m.height).hasCell m.origin d := rfl
  have hh2 : m.hasInternal (external2internal m.origin d)
      = (Dims.mk m.width m.height).hasCell m.origin d := rfl
  unfold PMap.readUnbounded
  simp only
  have ho : (reloadMap f recv.map.proto m).origin = m.origin := rfl
  rw [ho, hh, hh2]
  by_cases hd : (Dims.mk m.width m.height).hasCell m.origin d = true
  · rw [if_pos hd, if_pos hd, if_pos hd]
    unfold PMap.cellInternal reloadMap idx
    simp only [List.getElem?_map]
    split
    · cases m.cells[(external2internal m.origin d).y.toNat]? with
      | none => rfl
      | some row =>
        simp only [Option.map_some, Option.bind_some]
        split
        · simp
        · rfl
    · rfl
  · rw [if_neg hd, if_neg hd]; rfl

/-- C26 for cells that are restored entirely (plain, affine and belief cells): after loading into a map with
the same prototype, every further history of operations has exactly the same outcome as on the saved map. -/
theorem save_load_transparent {O : Type} (k : Codec C) (f : C → C → C) (hk : Restores k f)
    (hid : ∀ p c, f p c = c) (m recv : SMap C) (hs : Shaped m.map) (hf : FitsInt m.map)
    (hp : recv.map.proto = m.map.proto) (rate : Nat → ℚ) (upd : C → O → C) (ops : List (Op C O)) :
    ((load k recv (save k m)).bind fun r => runUnbounded rate upd r.1.map ops) = runUnbounded rate upd m.map ops := by
  have h0 := map_state_roundtrip k f hk m recv hs hf []
  rw [List.append_nil] at h0
  rw [h0, Option.bind_some]
  have e : reloadMap f recv.map.proto m.map = m.map := by
    have hf : f recv.map.proto = id := funext fun c => hid _ c
    have : List.map (f recv.map.proto) = (id : List C → List C) := by rw [hf]; exact List.map_id_fun
    rw [hp] at this
    simp [reloadMap, this, hp]
  rw [e]

/-- C26 for every cell: after loading, every further history of operations has exactly the outcome it has on the saved
map with each cell replaced by what loading restores of it (`f` of the receiving map's prototype; `reloadMean` and
`reloadGm` for mean and GMapping cells, which lose their counters). -/
theorem save_load_any_cell {O : Type} (k : Codec C) (f : C → C → C) (hk : Restores k f) (m recv : SMap C)
    (hs : Shaped m.map) (hf : FitsInt m.map) (rate : Nat → ℚ) (upd : C → O → C) (ops : List (Op C O)) :
    ((load k recv (save k m)).bind fun r => runUnbounded rate upd r.1.map ops) =
      runUnbounded rate upd (reloadMap f recv.map.proto m.map) ops := by
  have h0 := map_state_roundtrip k f hk m recv hs hf []
  rw [List.append_nil] at h0
  rw [h0, Option.bind_some]

/-- C26 instances. -/
theorem save_load_transparent_affine {O : Type} (m recv : SMap (AffineCell (BitVec 64))) (hs : Shaped m.map)
    (hf : FitsInt m.map) (hp : recv.map.proto = m.map.proto) (rate : Nat → ℚ)
    (upd : AffineCell (BitVec 64) → O → AffineCell (BitVec 64)) (ops : List (Op _ O)) :
    ((load affineCodec recv (save affineCodec m)).bind fun r => runUnbounded rate upd r.1.map ops)
      = runUnbounded rate upd m.map ops :=
  save_load_transparent _ _ affine_cell_roundtrip (fun _ _ => rfl) m recv hs hf hp rate upd ops

/-- C26 instances. -/
theorem save_load_transparent_tbm {O : Type} (m recv : SMap (RawT (BitVec 64))) (hs : Shaped m.map)
    (hf : FitsInt m.map) (hp : recv.map.proto = m.map.proto) (rate : Nat → ℚ)
    (upd : RawT (BitVec 64) → O → RawT (BitVec 64)) (ops : List (Op _ O)) :
    ((load tbmCodec recv (save tbmCodec m)).bind fun r => runUnbounded rate upd r.1.map ops)
      = runUnbounded rate upd m.map ops :=
  save_load_transparent _ _ tbm_cell_roundtrip (fun _ _ => rfl) m recv hs hf hp rate upd ops

/-- A certain hit at full quality. -/
private def hit : Aoo ℚ := ⟨true, some ⟨1, 1⟩, ⟨0, 0⟩, 1⟩

/-- A certain miss at full quality. -/
private def miss : Aoo ℚ := ⟨false, some ⟨0, 1⟩, ⟨0, 0⟩, 1⟩

/-- C26 fails for mean cells: reloading a map after one hit and then observing one miss reads 0, the map that
was not reloaded reads 1/2. -/
theorem mean_reload_counterexample :
    ∃ (ops later : List (Op (MeanCell ℚ) (Aoo ℚ))) (m : PMap (MeanCell ℚ)),
      runUnbounded (fun d => 6 / 5 * d) MeanCell.observe (create 3 3 MeanCell.create) ops = some m ∧
      (((runUnbounded (fun d => 6 / 5 * d) MeanCell.observe m later).bind
          fun m => m.readUnbounded ⟨0, 0⟩).map fun c => c.occ.prob) = some (1 / 2) ∧
      (((runUnbounded (fun d => 6 / 5 * d) MeanCell.observe (reloadMap reloadMean m.proto m) later).bind
          fun m => m.readUnbounded ⟨0, 0⟩).map fun c => c.occ.prob) = some 0 := by
  refine ⟨[.update ⟨0, 0⟩ hit], [.update ⟨0, 0⟩ miss], _, rfl, ?_, ?_⟩ <;> decide +kernel

/-- C26 fails for GMapping cells in the same way. -/
theorem gmapping_reload_counterexample :
    ∃ (ops later : List (Op (GmCell ℚ) (Aoo ℚ))) (m : PMap (GmCell ℚ)),
      runUnbounded (fun d => 6 / 5 * d) GmCell.observe (create 3 3 GmCell.create) ops = some m ∧
      (((runUnbounded (fun d => 6 / 5 * d) GmCell.observe m later).bind
          fun m => m.readUnbounded ⟨0, 0⟩).map fun c => c.occ.prob) = some (1 / 2) ∧
      (((runUnbounded (fun d => 6 / 5 * d) GmCell.observe (reloadMap reloadGm m.proto m) later).bind
          fun m => m.readUnbounded ⟨0, 0⟩).map fun c => c.occ.prob) = some 0 := by
  refine ⟨[.update ⟨0, 0⟩ hit], [.update ⟨0, 0⟩ miss], _, rfl, ?_, ?_⟩ <;> decide +kernel

/-- C26 fails for every map type that inherits the default save/load (bounded plain and both lazily tiled
maps): what is read back does not depend on the saved map at all. -/
theorem default_save_load_counterexample {M : Type} (m recv : M) :
    loadDefault recv (saveDefault m) = recv := rfl

/-! ## Rescalable maps -/

theorem saveLevels_eq (k : Codec C) (ls : List (SMap C)) :
    saveLevels k ls
      = (ls.map fun m => (Val.w64 (BitVec.ofNat 64 (save k m).length)).repr ++ save k m).flatten := by
  have h : ∀ (ls : List (SMap C)) (s : Bytes), ls.foldl (fun s m =>
      let d := save k m
      append (addValue s (.w64 (BitVec.ofNat 64 d.length))) d) s
      = s ++ (ls.map fun m => (Val.w64 (BitVec.ofNat 64 (save k m).length)).repr ++ save k m).flatten := by
    intro ls
    induction ls with
    | nil => simp
    | cons m ls ih => intro s; rw [List.foldl_cons, ih]; simp [append, addValue]
  simpa [saveLevels] using h ls []

/-- C25 for rescalable maps: all resolution levels are restored, in order, with their sizes, origins, scales
and cells, and the whole buffer is consumed. -/
theorem rescalable_state_roundtrip (k : Codec C) (f : C → C → C) (hk : Restores k f) (proto : C)
    (ls : List (SMap C)) (hs : ∀ m ∈ ls, Shaped m.map ∧ FitsInt m.map ∧ (save k m).length < 2 ^ 64) :
    loadLevels k proto (saveLevels k ls)
      = some (ls.map fun m => ⟨reloadMap f proto m.map, m.scale⟩) := by
  rw [saveLevels_eq]
  have gen : ∀ (ls : List (SMap C)) (pre : Bytes),
      (∀ m ∈ ls, Shaped m.map ∧ FitsInt m.map ∧ (save k m).length < 2 ^ 64) →
      loadLevelsFrom k proto (pre ++ (ls.map fun m =>
        (Val.w64 (BitVec.ofNat 64 (save k m).length)).repr ++ save k m).flatten) pre.length
      = some (ls.map fun m => ⟨reloadMap f proto m.map, m.scale⟩) := by
    intro ls
    induction ls with
    | nil => intro pre _; rw [loadLevelsFrom]; simp
    | cons m ls ih =>
      intro pre hs
      obtain ⟨h1, h2, h3⟩ := hs m (by simp)
      set v := Val.w64 (BitVec.ofNat 64 (save k m).length) with hv
      set rest := (ls.map fun m =>
        (Val.w64 (BitVec.ofNat 64 (save k m).length)).repr ++ save k m).flatten with hrest
      have hvl : v.repr.length = 8 := repr_length v
      have e : pre ++ (List.map (fun m =>
          (Val.w64 (BitVec.ofNat 64 (save k m).length)).repr ++ save k m) (m :: ls)).flatten
          = pre ++ v.repr ++ (save k m ++ rest) := by simp [hv, hrest]
      have hrd := readValue_repr v pre (save k m ++ rest)
      rw [e, loadLevelsFrom]
      have hne : pre.length ≠ (pre ++ v.repr ++ (save k m ++ rest)).length := by
        simp only [List.length_append, hvl]; omega
      rw [if_neg hne]
      have hty : v.ty = .w64 := rfl
      rw [hty] at hrd
      have hn : (BitVec.ofNat 64 (save k m).length).toNat = (save k m).length := by
        rw [BitVec.toNat_ofNat, Nat.mod_eq_of_lt h3]
      split
      · rename_i n p hr
        rw [hrd] at hr
        simp only [Option.some.injEq, Prod.mk.injEq, hv, Val.w64.injEq] at hr
        obtain ⟨rfl, rfl⟩ := hr
        rw [hn]
        have hle : (pre ++ v.repr).length + (save k m).length
            ≤ (pre ++ v.repr ++ (save k m ++ rest)).length := by
          simp only [List.length_append]; omega
        have hload := map_state_roundtrip k f hk m ⟨create 0 0 proto, 0⟩ h1 h2 []
        rw [List.append_nil] at hload
        have hih := ih (pre ++ v.repr ++ save k m) (fun x hx => hs x (by simp [hx]))
        rw [if_pos (by rw [← hv]; exact hle)]
        rw [← hv, List.drop_left, List.take_left, hload, Option.bind_some]
        rw [← List.append_assoc, ← List.length_append, hih]
        simp [create]
      · rename_i hr
        exact absurd hrd (hr _ _)
  simpa [loadLevels] using gen ls [] hs

/-! ## Non-vacuity -/

private def demoProto : AffineCell (BitVec 64) := ⟨⟨0x3FE0000000000000#64, 0x3FF0000000000000#64⟩, true⟩

private def demoMap : SMap (AffineCell (BitVec 64)) :=
  ⟨{ create 2 1 demoProto with cells := [[⟨⟨1, 2⟩, false⟩, demoProto]], origin := ⟨-3, 5⟩ }, 7⟩

example : Shaped demoMap.map ∧ FitsInt demoMap.map := by
  refine ⟨⟨rfl, ?_⟩, ?_⟩
  · decide +kernel
  · unfold FitsInt; decide +kernel

example : (save affineCodec demoMap).length = 24 + 2 * 17 := by decide +kernel

example : ((load affineCodec ⟨create 5 5 demoProto, 0⟩ (save affineCodec demoMap)).bind
    fun r => (r.1.map.readUnbounded ⟨3, -5⟩).map fun c => (c.occ.prob, c.unknown)) = some (1, false) := by
  decide +kernel

end Slam.Serial
