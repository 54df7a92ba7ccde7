import Verif.LazyMap.Refine

/-! # C10, C11, C12: lazily tiled maps -/

namespace Slam.LazyMap
open Slam.Grid Slam.PlainMap
variable {C O : Type}

theorem getD_some {α : Type} {A : List (Option α)} {i : Nat} {a : α}
    (h : (A[i]?).getD none = some a) : A[i]? = some (some a) := by
  cases hx : A[i]? with
  | none => rw [hx] at h; simp at h
  | some b => rw [hx] at h; simp only [Option.getD_some] at h; rw [h]

theorem live_getD {st : St C} {i : Nat} {m : LMap} (h : Live st i m) :
    (st.maps[i]?).getD none = some m := by
  unfold Live at h; rw [h]; rfl

/-- One operation: the concrete state stays in the relation. -/
theorem step_refines {S : Nat} (hS : 0 < S) (upd : C → O → C) {st : St C}
    {A A' : List (Option (AMap C))} (h : Rel S st A) (op : LOp C O) (hop : specStepL upd A op = some A') :
    ∃ st', stepL S upd st op = some st' ∧ Rel S st' A' := by
  cases op with
  | create unb w h' p =>
    simp only [specStepL, Option.some.injEq] at hop
    subst hop
    refine ⟨_, rfl, ?_⟩
    set n : LMap :=
      { unbounded := unb, width := w, height := h'
        tx := (w + S - 1) / S, ty := (h' + S - 1) / S
        origin := ⟨(w / 2 : Nat), (h' / 2 : Nat)⟩
        tiles := List.replicate ((w + S - 1) / S * ((h' + S - 1) / S)) st.tiles.length
        unkCell := st.cells.length, unkTile := st.tiles.length } with hn
    set st' := createMap S unb w h' p st with hst'
    have hc' : st'.cells = st.cells ++ [p] := rfl
    have ht' : st'.tiles = st.tiles ++ [List.replicate (S * S) st.cells.length] := rfl
    have hm' : st'.maps = st.maps ++ [some n] := rfl
    have hlive : ∀ j m, Live st' j m ↔ (j = st.maps.length ∧ m = n) ∨ Live st j m := by
      intro j m
      unfold Live
      rw [hm', List.getElem?_append]
      split
      · rename_i hlt
        constructor
        · intro h; exact Or.inr h
        · rintro (⟨h, _⟩ | h)
          · omega
          · exact h
      · rename_i hge
        constructor
        · intro hh
          left
          have h0 : j - st.maps.length = 0 := by
            by_contra hne
            rw [List.getElem?_eq_none (by simp; omega)] at hh; simp at hh
          rw [h0] at hh
          simp only [List.getElem?_cons_zero, Option.some.injEq] at hh
          exact ⟨by omega, hh.symm⟩
        · rintro (⟨rfl, rfl⟩ | hh)
          · simp
          · rw [List.getElem?_eq_none (by omega)] at hh; simp at hh
    have htiles : ∀ (t : Nat) (es : List Nat), st'.tiles[t]? = some es →
        st.tiles[t]? = some es ∨ (t = st.tiles.length ∧ es = List.replicate (S * S) st.cells.length) := by
      intro t es hh
      rw [ht', List.getElem?_append] at hh
      split at hh
      · left; exact hh
      · right
        have h0 : t - st.tiles.length = 0 := by
          by_contra hne
          rw [List.getElem?_eq_none (by simp; omega)] at hh; simp at hh
        rw [h0] at hh
        simp only [List.getElem?_cons_zero, Option.some.injEq] at hh
        exact ⟨by omega, hh.symm⟩
    have hnew : st'.tiles[st.tiles.length]? = some (List.replicate (S * S) st.cells.length) := by
      rw [ht', List.getElem?_append_right (Nat.le_refl _)]; simp
    have hnewc : st'.cells[st.cells.length]? = some p := by
      rw [hc', List.getElem?_append_right (Nat.le_refl _)]; simp
    refine ⟨?_, by rw [hm']; simp [h.len], ?_, ?_⟩
    · constructor
      · intro t es hh
        rcases htiles t es hh with hh | ⟨_, rfl⟩
        · exact h.inv.tileLen t es hh
        · simp
      · intro t es hh c hc
        rw [hc', List.length_append, List.length_singleton]
        rcases htiles t es hh with hh | ⟨_, rfl⟩
        · have := h.inv.cellLt t es hh c hc; omega
        · have := List.eq_of_mem_replicate hc; omega
      · intro j m hl t ht
        rw [ht', List.length_append, List.length_singleton]
        rcases (hlive j m).1 hl with ⟨_, rfl⟩ | hl
        · have := List.eq_of_mem_replicate ht; omega
        · have := h.inv.mapTiles j m hl t ht; omega
      · intro j m hl
        rcases (hlive j m).1 hl with ⟨_, rfl⟩ | hl
        · exact hnew
        · rw [ht']; exact getElem?_append_of_some (h.inv.unkT j m hl)
      · intro j m hl
        rw [hc', List.length_append, List.length_singleton]
        rcases (hlive j m).1 hl with ⟨_, rfl⟩ | hl
        · simp only [hn]; omega
        · have := h.inv.unkC j m hl; omega
      · intro j m hl
        rcases (hlive j m).1 hl with ⟨_, rfl⟩ | hl
        · have key : ∀ a : Nat, a ≤ (a + S - 1) / S * S := by
            intro a
            have := Nat.div_add_mod (a + S - 1) S
            have h2 := Nat.mod_lt (a + S - 1) hS
            rw [Nat.mul_comm] at this
            omega
          exact ⟨by simp [hn], key w, key h'⟩
        · exact h.inv.size j m hl
    · intro j hj
      rw [hm', List.getElem?_append] at hj
      split at hj
      · rw [List.getElem?_append_left (by rw [h.len]; assumption)]
        exact h.dead j hj
      · exfalso
        have h0 : j - st.maps.length = 0 := by
          by_contra hne
          rw [List.getElem?_eq_none (by simp; omega)] at hj; simp at hj
        rw [h0] at hj
        simp at hj
    · intro j m hl
      rcases (hlive j m).1 hl with ⟨rfl, rfl⟩ | hl
      · refine ⟨_, by rw [List.getElem?_append_right (by rw [h.len])]; simp [h.len]; rfl, ?_⟩
        constructor
        · exact ⟨p, hnewc, fun _ _ _ => rfl⟩
        · intro x y ha
          have hs : slot S n.tx x y < n.tiles.length := by
            have : n.tiles.length = n.tx * n.ty := by simp [hn]
            rw [this]; exact slot_lt _ _ _ _ _ ha.1 ha.2
          have e : n.tiles[slot S n.tx x y]? = some st.tiles.length := by
            have h2 : n.tiles = List.replicate (n.tx * n.ty) st.tiles.length := rfl
            rw [h2, List.getElem?_replicate, if_pos (slot_lt _ _ _ _ _ ha.1 ha.2)]
          rw [cellInternal_nat, e, Option.bind_some, hnew, Option.bind_some, List.getElem?_replicate,
            if_pos (kpos_lt _ _ _ hS), Option.bind_some, hnewc]
        · simp only [hn]
        · intro _; exact ⟨rfl, rfl, rfl⟩
      · obtain ⟨a, k1, k2⟩ := h.live j m hl
        refine ⟨a, getElem?_append_of_some k1, relMap_congr k2 ?_ ?_⟩
        · have hlt := h.inv.unkC j m hl
          rw [List.getElem?_eq_getElem hlt, hc']
          exact getElem?_append_of_some (List.getElem?_eq_getElem hlt)
        · intro x y ha
          obtain ⟨t, es, c, v, k1, k2, k3, k4⟩ := loc_exists hS h.inv hl ha
          rw [cellInternal_nat, cellInternal_nat, k1]
          simp only [Option.bind_some, k2, k3, k4]
          rw [ht', getElem?_append_of_some k2]
          simp only [Option.bind_some, k3]
          rw [hc', getElem?_append_of_some k4]
  | copy i =>
    simp only [specStepL, Option.map_eq_some_iff] at hop
    obtain ⟨a, ha, rfl⟩ := hop
    have ha := getD_some ha
    obtain ⟨m, hl, hr⟩ := rel_lookup h ha
    refine ⟨copyMap st m, by simp only [stepL]; rw [live_getD hl]; rfl, ?_⟩
    have hm' : (copyMap st m).maps = st.maps ++ [some m] := rfl
    have hlive : ∀ j n, Live (copyMap st m) j n ↔ (j = st.maps.length ∧ n = m) ∨ Live st j n := by
      intro j n
      unfold Live
      rw [hm', List.getElem?_append]
      split
      · rename_i hlt
        constructor
        · intro h; exact Or.inr h
        · rintro (⟨h, _⟩ | h)
          · omega
          · exact h
      · rename_i hge
        constructor
        · intro hh
          left
          have h0 : j - st.maps.length = 0 := by
            by_contra hne
            rw [List.getElem?_eq_none (by simp; omega)] at hh; simp at hh
          rw [h0] at hh
          simp only [List.getElem?_cons_zero, Option.some.injEq] at hh
          exact ⟨by omega, hh.symm⟩
        · rintro (⟨rfl, rfl⟩ | hh)
          · simp
          · rw [List.getElem?_eq_none (by omega)] at hh; simp at hh
    have hex : ∀ j n, Live (copyMap st m) j n → ∃ k, Live st k n := by
      intro j n hh
      rcases (hlive j n).1 hh with ⟨_, rfl⟩ | hh
      · exact ⟨i, hl⟩
      · exact ⟨j, hh⟩
    refine ⟨?_, by rw [hm']; simp [h.len], ?_, ?_⟩
    · constructor
      · exact h.inv.tileLen
      · exact h.inv.cellLt
      · intro j n hh; obtain ⟨k, hk⟩ := hex j n hh; exact h.inv.mapTiles k n hk
      · intro j n hh; obtain ⟨k, hk⟩ := hex j n hh; exact h.inv.unkT k n hk
      · intro j n hh; obtain ⟨k, hk⟩ := hex j n hh; exact h.inv.unkC k n hk
      · intro j n hh; obtain ⟨k, hk⟩ := hex j n hh; exact h.inv.size k n hk
    · intro j hj
      rw [hm', List.getElem?_append] at hj
      split at hj
      · rw [List.getElem?_append_left (by rw [h.len]; assumption)]
        exact h.dead j hj
      · exfalso
        have h0 : j - st.maps.length = 0 := by
          by_contra hne
          rw [List.getElem?_eq_none (by simp; omega)] at hj; simp at hj
        rw [h0] at hj
        simp at hj
    · intro j n hh
      rcases (hlive j n).1 hh with ⟨rfl, rfl⟩ | hh
      · refine ⟨a, by rw [List.getElem?_append_right (by rw [h.len])]; simp [h.len], ?_⟩
        exact relMap_congr hr rfl (fun _ _ _ => rfl)
      · obtain ⟨a', k1, k2⟩ := h.live j n hh
        exact ⟨a', getElem?_append_of_some k1, relMap_congr k2 rfl (fun _ _ _ => rfl)⟩
  | destroy i =>
    simp only [specStepL, Option.map_eq_some_iff] at hop
    obtain ⟨a, ha, rfl⟩ := hop
    have ha := getD_some ha
    obtain ⟨m, hl, hr⟩ := rel_lookup h ha
    refine ⟨destroyMap st i, by simp only [stepL]; rw [live_getD hl]; rfl, ?_⟩
    have hilt : i < st.maps.length := by
      by_contra hh; unfold Live at hl; rw [List.getElem?_eq_none (by omega)] at hl; simp at hl
    have hm' : (destroyMap st i).maps = st.maps.set i none := rfl
    have hlive : ∀ j n, Live (destroyMap st i) j n → j ≠ i ∧ Live st j n := by
      intro j n hh
      unfold Live at hh
      rw [hm'] at hh
      by_cases hj : j = i
      · subst hj; rw [List.getElem?_set_self hilt] at hh; simp at hh
      · rw [List.getElem?_set_ne (by omega)] at hh; exact ⟨hj, hh⟩
    refine ⟨?_, by rw [hm']; simp [h.len], ?_, ?_⟩
    · constructor
      · exact h.inv.tileLen
      · exact h.inv.cellLt
      · intro j n hh; exact h.inv.mapTiles j n (hlive j n hh).2
      · intro j n hh; exact h.inv.unkT j n (hlive j n hh).2
      · intro j n hh; exact h.inv.unkC j n (hlive j n hh).2
      · intro j n hh; exact h.inv.size j n (hlive j n hh).2
    · intro j hj
      by_cases hji : j = i
      · subst hji; rw [List.getElem?_set_self (by rw [h.len]; exact hilt)]
      · rw [hm', List.getElem?_set_ne (by omega)] at hj
        rw [List.getElem?_set_ne (by omega)]
        exact h.dead j hj
    · intro j n hh
      obtain ⟨hne, hh⟩ := hlive j n hh
      obtain ⟨a', k1, k2⟩ := h.live j n hh
      exact ⟨a', by rw [List.getElem?_set_ne (by omega)]; exact k1,
        relMap_congr k2 rfl (fun _ _ _ => rfl)⟩
  | update i c o =>
    simp only [specStepL, Option.bind_eq_some_iff] at hop
    obtain ⟨a, ha, hop⟩ := hop
    have ha := getD_some ha
    split at hop
    · rename_i hcov
      simp only [Option.some.injEq] at hop
      subst hop
      obtain ⟨m, hl, hr⟩ := rel_lookup h ha
      obtain ⟨st1, m1, g1, g2, g3, g4, g5⟩ := rel_grow hS h hl ha hr c hcov
      obtain ⟨x, y, e, hA, hc⟩ := area_of_hasInternal (g2.inv.size i m1 g3) g5
      obtain ⟨st3, m2, v, k1, k2, k3, k4⟩ := update_effect hS g2.inv g3 hA (fun v => upd v o)
      have hv : v = a.f c := by
        have := g4.val x y hA
        rw [k2, ← hc] at this
        exact Option.some.inj this
      subst hv
      refine ⟨st3, ?_, rel_write g2 g3 ha g4 g5 e k4⟩
      simp only [stepL]
      rw [live_getD hl, Option.bind_some, g1, Option.bind_some, ← k1]
      simp only [e]
      obtain ⟨st2, n2, t', es', c', v', e1, _, _, _, hm2, _⟩ := ensureSole_spec hS g2.inv g3 hA
      rw [e1, Option.bind_some, Option.bind_some]
      have : n2.origin = m1.origin := by rw [hm2]
      simp only [this, e]
    · simp at hop
  | reset i c w =>
    simp only [specStepL, Option.bind_eq_some_iff] at hop
    obtain ⟨a, ha, hop⟩ := hop
    have ha := getD_some ha
    split at hop
    · rename_i hcov
      simp only [Option.some.injEq] at hop
      subst hop
      obtain ⟨m, hl, hr⟩ := rel_lookup h ha
      obtain ⟨st1, m1, g1, g2, g3, g4, g5⟩ := rel_grow hS h hl ha hr c hcov
      obtain ⟨x, y, e, hA, hc⟩ := area_of_hasInternal (g2.inv.size i m1 g3) g5
      obtain ⟨st3, m2, k1, k3, k4⟩ := reset_effect hS g2.inv g3 hA w
      refine ⟨st3, ?_, rel_write g2 g3 ha g4 g5 e k4⟩
      simp only [stepL]
      rw [live_getD hl, Option.bind_some, g1, Option.bind_some, ← k1]
      simp only [e]
      obtain ⟨st2, n2, t', es', c', v', e1, _, _, _, hm2, _⟩ := ensureSole_spec hS g2.inv g3 hA
      rw [e1, Option.bind_some, Option.bind_some]
      have : n2.origin = m1.origin := by rw [hm2]
      simp only [this, e]
    · simp at hop

private theorem run_refines {S : Nat} (hS : 0 < S) (upd : C → O → C) (ops : List (LOp C O)) :
    ∀ {st : St C} {A A' : List (Option (AMap C))}, Rel S st A → specRunL upd A ops = some A' →
      ∃ st', runL S upd st ops = some st' ∧ Rel S st' A' := by
  induction ops with
  | nil =>
    intro st A A' h hr
    simp only [specRunL, Option.some.injEq] at hr
    subst hr
    exact ⟨st, rfl, h⟩
  | cons op ops ih =>
    intro st A A' h hr
    simp only [specRunL, Option.bind_eq_some_iff] at hr
    obtain ⟨A1, h1, h2⟩ := hr
    obtain ⟨st1, g1, g2⟩ := step_refines hS upd h op h1
    obtain ⟨st2, g3, g4⟩ := ih g2 h2
    exact ⟨st2, by simp only [runL]; rw [g1, Option.bind_some, g3], g4⟩

/-- C10, C11: for every history of creations, copies, destructions, updates and resets of lazily tiled maps,
bounded and unbounded, at any coordinates the map covers, nothing undefined happens and every live map reads,
at every coordinate it covers, exactly as an independent function that only its own operations changed. In
particular an operation on one copy is never visible through another. -/
theorem lazy_maps_refine (S : Nat) (hS : 0 < S) (upd : C → O → C) (ops : List (LOp C O))
    (A : List (Option (AMap C))) (hA : specRunL upd [] ops = some A) :
    ∃ st, runL S upd emptySt ops = some st ∧
      ∀ i a, A[i]? = some (some a) → ∀ d, a.Covers d → readL S st i d = some (a.f d) := by
  have h0 : Rel S (emptySt : St C) [] := by
    refine ⟨⟨?_, ?_, ?_, ?_, ?_, ?_⟩, rfl, ?_, ?_⟩ <;> intros <;> simp_all [emptySt, Live]
  obtain ⟨st, h1, h2⟩ := run_refines hS upd ops h0 hA
  refine ⟨st, h1, ?_⟩
  intro i a ha d hd
  obtain ⟨m, hl, hr⟩ := rel_lookup h2 ha
  unfold readL
  rw [live_getD hl, Option.bind_some]
  exact readMap_rel (h2.inv.size i m hl) hr d hd

/-- C11, spelled out: after copying map `i` (the copy gets the next free index), no operation on one of the two
is visible through the other. -/
theorem copy_isolated (S : Nat) (hS : 0 < S) (upd : C → O → C) (ops : List (LOp C O))
    (A : List (Option (AMap C))) (hA : specRunL upd [] ops = some A) (i : Nat) (a : AMap C)
    (hi : A[i]? = some (some a)) (later : List (LOp C O))
    (hlater : ∀ op ∈ later, (∃ c o, op = .update i c o) ∨ (∃ c v, op = .reset i c v))
    (hvalid : ∀ op ∈ later, ∀ c o, op = .update i c o → a.Covers c)
    (hvalid' : ∀ op ∈ later, ∀ c v, op = .reset i c v → a.Covers c) :
    ∃ st, runL S upd emptySt (ops ++ [.copy i] ++ later) = some st ∧
      ∀ d, a.Covers d → readL S st A.length d = some (a.f d) := by
  -- the abstract run: the copy at index `A.length` keeps `a`
  have habs : ∀ (later : List (LOp C O)) (B : List (Option (AMap C))) (b : AMap C),
      (∀ op ∈ later, (∃ c o, op = .update i c o) ∨ (∃ c v, op = .reset i c v)) →
      (∀ op ∈ later, ∀ c o, op = .update i c o → a.Covers c) →
      (∀ op ∈ later, ∀ c v, op = .reset i c v → a.Covers c) →
      b.extent = a.extent → B[i]? = some (some b) → i ≠ A.length → B[A.length]? = some (some a) →
      ∃ B', specRunL upd B later = some B' ∧ B'[A.length]? = some (some a) := by
    intro later
    induction later with
    | nil => intro B b _ _ _ _ _ _ h; exact ⟨B, rfl, h⟩
    | cons op later ih =>
      intro B b h1 h2 h3 hb hB hne hAl
      have hcov : ∀ c, a.Covers c → b.Covers c := by
        intro c hc; unfold AMap.Covers at *; rw [hb]; exact hc
      have hilt : i < B.length := by
        by_contra hh; rw [List.getElem?_eq_none (by omega)] at hB; simp at hB
      have nxt : ∀ f', ∃ B', specRunL upd (B.set i (some { b with f := f' })) later = some B' ∧
          B'[A.length]? = some (some a) := by
        intro f'
        apply ih _ { b with f := f' } (fun o ho => h1 o (by simp [ho])) (fun o ho => h2 o (by simp [ho]))
          (fun o ho => h3 o (by simp [ho])) hb (List.getElem?_set_self hilt) hne
        rw [List.getElem?_set_ne hne]; exact hAl
      rcases h1 op (by simp) with ⟨c, o, rfl⟩ | ⟨c, v, rfl⟩
      · have := hcov c (h2 _ (by simp) c o rfl)
        simp only [specRunL, specStepL, hB, Option.getD_some, Option.bind_some, if_pos this]
        exact nxt _
      · have := hcov c (h3 _ (by simp) c v rfl)
        simp only [specRunL, specStepL, hB, Option.getD_some, Option.bind_some, if_pos this]
        exact nxt _
  have happ : ∀ (xs ys : List (LOp C O)) (B : List (Option (AMap C))),
      specRunL upd B (xs ++ ys) = (specRunL upd B xs).bind fun B => specRunL upd B ys := by
    intro xs
    induction xs with
    | nil => intro ys B; rfl
    | cons x xs ih =>
      intro ys B
      simp only [List.cons_append, specRunL]
      cases specStepL upd B x with
      | none => rfl
      | some B1 => simp only [Option.bind_some]; exact ih ys B1
  have hilt : i < A.length := by
    by_contra hh; rw [List.getElem?_eq_none (by omega)] at hi; simp at hi
  obtain ⟨B', hB', hBa⟩ := habs later (A ++ [some a]) a hlater hvalid hvalid' rfl
    (getElem?_append_of_some hi) (by omega) (by simp)
  have hrun : specRunL upd [] (ops ++ [.copy i] ++ later) = some B' := by
    rw [happ, happ, hA]
    simp only [Option.bind_some, specRunL, specStepL, hi, Option.getD_some, Option.map_some]
    exact hB'
  obtain ⟨st, h1, h2⟩ := lazy_maps_refine S hS upd _ B' hrun
  exact ⟨st, h1, fun d hd => h2 _ a hBa d hd⟩

/-- Non-vacuity / test (tile size 2): a map, its copy, updates of both, growth, destruction. -/
def demoOps : List (LOp Nat Nat) :=
  [.create true 3 3 0, .update 0 ⟨0, 0⟩ 5, .copy 0, .update 1 ⟨0, 0⟩ 1, .update 0 ⟨-9, 4⟩ 7,
   .reset 1 ⟨1, 1⟩ 9, .destroy 0, .copy 1, .update 2 ⟨0, 0⟩ 100]

example : (specRunL (fun v o => v + o) [] demoOps).isSome = true := by decide
example : ((runL 2 (fun v o => v + o) emptySt demoOps).bind fun st => readL 2 st 1 ⟨0, 0⟩) = some 6 := by
  decide
example : ((runL 2 (fun v o => v + o) emptySt demoOps).bind fun st => readL 2 st 2 ⟨0, 0⟩) = some 106 := by
  decide

/-- C12 is false of the code: a bounded lazily tiled map does not check coordinates, and an update outside of
the extent silently changes another, in-range cell. For *every* tile size `S ≥ 1`, on the map with one tile
column and two tile rows, writing internal column `S` of row 0 changes internal cell `(0, S)`, which exists. -/
theorem bounded_lazy_map_aliases_counterexample (S : Nat) (hS : 0 < S) (m : LMap) (htx : m.tx = 1)
    (st : St C) :
    cellInternal S st m ⟨(S : Nat), 0⟩ = cellInternal S st m ⟨0, (S : Nat)⟩ := by
  have h1 : slot S m.tx S 0 = slot S m.tx 0 S := by
    simp [slot, htx, Nat.div_self hS]
  have h2 : kpos S S 0 = kpos S 0 S := by simp [kpos]
  have e1 := cellInternal_nat S st m S 0
  have e2 := cellInternal_nat S st m 0 S
  rw [h1, h2] at e1
  exact e1.trans e2.symm

/-- C12, end to end with the real tile size 128: on a 100 × 300 map updating the non-existing external cell
`(78, -150)` changes the existing cell `(-50, -22)`. -/
theorem bounded_lazy_map_out_of_range_write_counterexample :
    ∃ (st : St Nat),
      runL 128 (fun v (o : Nat) => v + o) emptySt [.create false 100 300 0, .update 0 ⟨78, -150⟩ 1] = some st ∧
      (Dims.mk 100 300).hasCell ⟨50, 150⟩ ⟨78, -150⟩ = false ∧
      (Dims.mk 100 300).hasCell ⟨50, 150⟩ ⟨-50, -22⟩ = true ∧
      readL 128 st 0 ⟨-50, -22⟩ = some 1 := by
  have hS : 0 < 128 := by decide
  have h0 : Rel 128 (emptySt : St Nat) [] := by
    refine ⟨⟨?_, ?_, ?_, ?_, ?_, ?_⟩, rfl, ?_, ?_⟩ <;> intros <;> simp_all [emptySt, Live]
  obtain ⟨st1, e1, R1⟩ := step_refines (O := Nat) hS (fun v o => v + o) h0 (.create false 100 300 0) rfl
  simp only [stepL, Option.some.injEq] at e1
  obtain ⟨m, hl, hr⟩ := rel_lookup R1 (i := 0) (a := ⟨some (100, 300), fun _ => 0⟩) rfl
  have hm : m = { unbounded := false, width := 100, height := 300, tx := 1, ty := 3, origin := ⟨50, 150⟩
                  tiles := List.replicate 3 0, unkCell := 0, unkTile := 0 } := by
    unfold Live at hl
    rw [← e1] at hl
    exact (Option.some.inj (Option.some.inj (show some (some _) = some (some m) from hl))).symm
  have ic1 : external2internal m.origin ⟨78, -150⟩ = ⟨(128 : Nat), (0 : Nat)⟩ := by rw [hm]; rfl
  have ic2 : external2internal m.origin ⟨-50, -22⟩ = ⟨(0 : Nat), (128 : Nat)⟩ := by rw [hm]; rfl
  have hun : m.unbounded = false := by rw [hm]
  have htx : m.tx = 1 := by rw [hm]
  -- the same storage location
  have htile : tileIdx 128 m ⟨(128 : Nat), (0 : Nat)⟩ = tileIdx 128 m ⟨(0 : Nat), (128 : Nat)⟩ := by
    rw [hm]; decide
  have hcell : cellIdx 128 ⟨(128 : Nat), (0 : Nat)⟩ = cellIdx 128 ⟨(0 : Nat), (128 : Nat)⟩ := by decide
  have hA : Area 128 m 0 128 := by rw [hm]; unfold Area; decide
  obtain ⟨st3, m2, v, k1, k2, k3, k4⟩ := update_effect hS R1.inv hl hA (fun v : Nat => v + 1)
  have hv : v = 0 := by
    have := hr.val 0 128 hA
    rw [k2] at this
    exact Option.some.inj this
  subst hv
  refine ⟨st3, ?_, by decide, by decide, ?_⟩
  · simp only [runL]
    simp only [stepL, Option.bind_some]
    rw [e1, live_getD hl, Option.bind_some]
    unfold ensureInside
    rw [hun]
    simp only [Bool.false_eq_true, if_false, Option.bind_some, ic1]
    have same : ensureSole 128 st1 0 m ⟨(128 : Nat), (0 : Nat)⟩ = ensureSole 128 st1 0 m ⟨(0 : Nat), (128 : Nat)⟩ := by
      obtain ⟨stt, mt, _, et, _, _, _, _, hmt, _⟩ := soleTile_spec hS R1.inv hl hA
      unfold ensureSole
      have : soleTile 128 st1 0 m ⟨(128 : Nat), (0 : Nat)⟩ = soleTile 128 st1 0 m ⟨(0 : Nat), (128 : Nat)⟩ := by
        unfold soleTile; rw [htile]
      rw [this, et, Option.bind_some, Option.bind_some]
      have ht2 : tileIdx 128 mt ⟨(128 : Nat), (0 : Nat)⟩ = tileIdx 128 mt ⟨(0 : Nat), (128 : Nat)⟩ := by
        have : mt.tx = 1 := by rw [hmt, htx]
        unfold tileIdx; rw [this]; decide
      unfold soleCell
      simp only [ht2, hcell]
    rw [same]
    obtain ⟨st2, n2, t', es', c', v', e2, _, _, _, hm2, _⟩ := ensureSole_spec hS R1.inv hl hA
    rw [e2, Option.bind_some] at k1
    rw [e2, Option.bind_some]
    have ho : n2.origin = m.origin := by rw [hm2]
    have ht2 : tileIdx 128 n2 ⟨(128 : Nat), (0 : Nat)⟩ = tileIdx 128 n2 ⟨(0 : Nat), (128 : Nat)⟩ := by
      have : n2.tx = 1 := by rw [hm2, htx]
      unfold tileIdx; rw [this]; decide
    simp only [ho, ic1]
    have : modifyCell 128 st2 n2 ⟨(128 : Nat), (0 : Nat)⟩ (fun v => v + 1)
        = modifyCell 128 st2 n2 ⟨(0 : Nat), (128 : Nat)⟩ (fun v => v + 1) := by
      unfold modifyCell
      simp only [ht2, hcell]
    rw [this, k1, Option.bind_some]
  · have hl3 : Live st3 0 m2 := (live_of_set hl k4.maps 0 m2).2 (Or.inl ⟨rfl, rfl⟩)
    unfold readL
    rw [live_getD hl3, Option.bind_some]
    have ho : m2.origin = m.origin := by rw [k3]
    have hu2 : m2.unbounded = false := by rw [k3, hun]
    unfold readMap
    simp only [hu2, Bool.false_eq_true, if_false, ho, ic2]
    rw [k4.self 0 128 hA, if_pos ⟨rfl, rfl⟩]

end Slam.LazyMap
