import Verif.Particle.Spec
import Mathlib.Data.List.Nodup
import Mathlib.Tactic.Linarith
import Mathlib.Tactic.Ring
import Mathlib.Tactic.FieldSimp

/-! # Lemmas about the particle filter model -/

set_option autoImplicit false
set_option linter.unusedSectionVars false

namespace Slam.Particle
open Slam.Poses

variable {K : Type*} [Field K] [LinearOrder K] [IsStrictOrderedRing K]

theorem forEach_apply (g : World K → World K) (ids : List Nat) (hd : ids.Nodup) (h : Nat → World K) (j : Nat) :
    forEach g h ids j = if j ∈ ids then g (h j) else h j := by
  induction ids generalizing h with
  | nil => simp [forEach]
  | cons i ids ih =>
    rw [List.nodup_cons] at hd
    have e : forEach g h (i :: ids) = forEach g (setObj h i (g (h i))) ids := rfl
    rw [e, ih hd.2]
    by_cases hji : j = i
    · subst hji
      simp [hd.1, setObj]
    · simp [hji, setObj]

theorem forEach_map (g : World K → World K) (ids : List Nat) (hd : ids.Nodup) (h : Nat → World K) :
    ids.map (forEach g h ids) = ids.map fun i => g (h i) := by
  apply List.map_congr_left
  intro i hi
  rw [forEach_apply g ids hd, if_pos hi]

theorem sumN_some (ws : List K) : sumN (ws.map some) = some ws.sum := by
  induction ws with
  | nil => rfl
  | cons w ws ih => simp [sumN, ih]

theorem sumN_none (ws : List (Option K)) (h : none ∈ ws) : sumN ws = none := by
  induction ws with
  | nil => cases h
  | cons w ws ih =>
    rcases List.mem_cons.1 h with rfl | h
    · simp [sumN]
    · simp only [sumN, ih h]

theorem options_cases (ws : List (Option K)) : none ∈ ws ∨ ∃ vs : List K, ws = vs.map some := by
  induction ws with
  | nil => exact .inr ⟨[], rfl⟩
  | cons w ws ih =>
    cases w with
    | none => exact .inl (by simp)
    | some w =>
      rcases ih with h | ⟨vs, h⟩
      · exact .inl (by simp [h])
      · exact .inr ⟨w :: vs, by simp [h]⟩

/-- The index found is the one whose interval of cumulative weights holds the sample. -/
theorem pick_spec (s : K) (ws : List K) (j : Nat) (t : K) (h0 : t ≤ s) (h1 : s < t + ws.sum) :
    ∃ k, pick s j (some t) (ws.map some) = j + k ∧ k < ws.length ∧
      t + (ws.take k).sum ≤ s ∧ s < t + (ws.take (k + 1)).sum := by
  induction ws generalizing j t with
  | nil => simp at h1; exact absurd h0 (not_le.2 h1)
  | cons w ws ih =>
    simp only [List.map_cons, pick]
    by_cases h : s < t + w
    · rw [if_pos h]
      exact ⟨0, rfl, by simp, by simpa using h0, by simpa using h⟩
    · rw [if_neg h]
      obtain ⟨k, e, hk, ha, hb⟩ := ih (j + 1) (t + w) (not_lt.1 h) (by simpa [add_assoc] using h1)
      refine ⟨k + 1, by rw [e]; omega, by simp [hk], ?_, ?_⟩
      · simpa [add_assoc] using ha
      · simpa [add_assoc] using hb

theorem take_succ_sum (ws : List K) (k : Nat) (hk : k < ws.length) :
    (ws.take (k + 1)).sum = (ws.take k).sum + ws[k] := by
  rw [List.take_add_one]
  simp [hk]

theorem sum_sq_le (ws : List K) (h : ∀ w ∈ ws, 0 ≤ w) :
    (ws.map fun w => w * w).sum ≤ ws.sum * ws.sum ∧ 0 ≤ ws.sum := by
  induction ws with
  | nil => simp
  | cons w ws ih =>
    obtain ⟨i1, i2⟩ := ih fun x hx => h x (by simp [hx])
    have hw := h w (by simp)
    simp only [List.map_cons, List.sum_cons]
    exact ⟨by nlinarith [mul_nonneg hw i2], add_nonneg hw i2⟩

theorem sum_sq_ge (ws : List K) : ws.sum * ws.sum ≤ (ws.length : K) * (ws.map fun w => w * w).sum := by
  -- Cauchy–Schwarz by induction, using the variance-like inequality
  have key : ∀ (ws : List K) (a : K), 2 * a * ws.sum ≤ (ws.length : K) * (a * a) + (ws.map fun w => w * w).sum := by
    intro ws a
    induction ws with
    | nil => simp
    | cons w ws ih =>
      simp only [List.map_cons, List.sum_cons, List.length_cons, Nat.cast_add, Nat.cast_one]
      nlinarith [sq_nonneg (a - w)]
  induction ws with
  | nil => simp
  | cons w ws ih =>
    have := key ws w
    simp only [List.map_cons, List.sum_cons, List.length_cons, Nat.cast_add, Nat.cast_one]
    nlinarith

theorem heaviest_mem (h : Nat → World K) (ids : List Nat) (b : Option Nat) :
    (∀ i, heaviest h ids b = some i → i ∈ ids ∨ b = some i) ∧
      (heaviest h ids b = none → ids = [] ∧ b = none) := by
  induction ids generalizing b with
  | nil => simp [heaviest]
  | cons a ids ih =>
    cases b with
    | none =>
      simp only [heaviest]
      obtain ⟨h1, h2⟩ := ih (some a)
      refine ⟨fun i hi => ?_, fun hi => absurd (h2 hi).2 (by simp)⟩
      rcases h1 i hi with h | h
      · left; simp [h]
      · left; injection h with h; simp [h]
    | some b =>
      simp only [heaviest]
      by_cases hw : ltN (h a).weight (h b).weight = true
      · rw [if_pos hw]
        obtain ⟨h1, h2⟩ := ih (some b)
        refine ⟨fun i hi => ?_, fun hi => absurd (h2 hi).2 (by simp)⟩
        rcases h1 i hi with h | h
        · left; simp [h]
        · right; exact h
      · rw [if_neg hw]
        obtain ⟨h1, h2⟩ := ih (some a)
        refine ⟨fun i hi => ?_, fun hi => absurd (h2 hi).2 (by simp)⟩
        rcases h1 i hi with h | h
        · left; simp [h]
        · left; injection h with h; simp [h]

/-- What `rebuild` guarantees. `n0` is the first fresh object number. -/
theorem rebuild_spec (ids : List Nat) (hd : ids.Nodup) (h0 : Nat → World K) (n0 : Nat) (hlt : ∀ x ∈ ids, x < n0)
    (is seen out : List Nat) (h : Nat → World K) (next : Nat)
    (his : ∀ i ∈ is, i < ids.length)
    (hh : ∀ x < n0, h x = h0 x) (hn : n0 ≤ next) (hout : ∀ x ∈ out, x < next) (hod : out.Nodup)
    (hseen : ∀ x ∈ out, x < n0 → ∃ i ∈ seen, ids[i]? = some x)
    (pre : List Nat)
    (hrel : List.Forall₂ (fun i x => ∃ y, ids[i]? = some y ∧
      (x = y ∨ n0 ≤ x ∧ h x = (h0 y).sample)) pre out) :
    ∃ out' h' next', rebuild ids is seen out h next = some (out', h', next') ∧
      (∀ x < n0, h' x = h0 x) ∧ n0 ≤ next' ∧ (∀ x ∈ out', x < next') ∧ out'.Nodup ∧
      List.Forall₂ (fun i x => ∃ y, ids[i]? = some y ∧ (x = y ∨ n0 ≤ x ∧ h' x = (h0 y).sample)) (pre ++ is) out' := by
  induction is generalizing seen out h next pre with
  | nil => exact ⟨out, h, next, rfl, hh, hn, hout, hod, by simpa using hrel⟩
  | cons i is ih =>
    have hi := his i (by simp)
    have hget : ids[i]? = some ids[i] := List.getElem?_eq_getElem hi
    have hmem : ids[i] ∈ ids := List.getElem_mem hi
    simp only [rebuild, hget]
    by_cases hs : seen.contains i = true
    · rw [if_pos hs]
      have := ih seen (out ++ [next]) (setObj h next (h ids[i]).sample) (next + 1)
        (fun j hj => his j (by simp [hj]))
        (fun x hx => by rw [setObj, if_neg (by omega)]; exact hh x hx) (by omega)
        (by
          intro x hx
          rcases List.mem_append.1 hx with hx | hx
          · have := hout x hx; omega
          · rw [List.mem_singleton.1 hx]; omega)
        (by
          rw [List.nodup_append]
          refine ⟨hod, by simp, ?_⟩
          intro a ha b hb
          have := hout a ha
          rw [List.mem_singleton.1 hb]; omega)
        (by
          intro x hx hx0
          rcases List.mem_append.1 hx with hx | hx
          · exact hseen x hx hx0
          · rw [List.mem_singleton.1 hx] at hx0; omega)
        (pre ++ [i])
        (by
          refine List.rel_append ?_ ?_
          · refine List.Forall₂.imp (R := fun i x => x ∈ out ∧ ∃ y, ids[i]? = some y ∧
              (x = y ∨ n0 ≤ x ∧ h x = (h0 y).sample)) ?_ ?_
            · rintro a x ⟨hx, y, e, hy⟩
              refine ⟨y, e, ?_⟩
              rcases hy with hy | ⟨hy, hy'⟩
              · exact .inl hy
              · right
                have := hout x hx
                exact ⟨hy, by rw [setObj, if_neg (by omega)]; exact hy'⟩
            · clear ih hod hseen
              induction hrel with
              | nil => exact .nil
              | cons h1 _ ih =>
                exact .cons ⟨by simp, h1⟩
                  ((ih fun x hx => hout x (by simp [hx])).imp fun a x hx => ⟨by simp [hx.1], hx.2⟩)
          · refine .cons ⟨ids[i], hget, .inr ⟨hn, ?_⟩⟩ .nil
            rw [setObj, if_pos rfl, hh _ (hlt _ hmem)])
      simpa using this
    · rw [if_neg hs]
      have hnot : ids[i] ∉ out := by
        intro hx
        obtain ⟨j, hj, e⟩ := hseen _ hx (hlt _ hmem)
        have : j < ids.length := by
          by_contra hc
          rw [List.getElem?_eq_none (by omega)] at e
          cases e
        rw [List.getElem?_eq_getElem this] at e
        injection e with e
        have := (hd.getElem_inj_iff).1 e
        subst this
        exact hs (by simpa using hj)
      have := ih (i :: seen) (out ++ [ids[i]]) h next
        (fun j hj => his j (by simp [hj])) hh hn
        (by
          intro x hx
          rcases List.mem_append.1 hx with hx | hx
          · exact hout x hx
          · rw [List.mem_singleton.1 hx]; have := hlt _ hmem; omega)
        (by
          rw [List.nodup_append]
          refine ⟨hod, by simp, ?_⟩
          intro a ha b hb e
          rw [List.mem_singleton.1 hb] at e
          exact hnot (e ▸ ha))
        (by
          intro x hx hx0
          rcases List.mem_append.1 hx with hx | hx
          · obtain ⟨j, hj, e⟩ := hseen x hx hx0
            exact ⟨j, by simp [hj], e⟩
          · rw [List.mem_singleton.1 hx]
            exact ⟨i, by simp, hget⟩)
        (pre ++ [i])
        (by
          refine List.rel_append hrel ?_
          exact .cons ⟨ids[i], hget, .inl rfl⟩ .nil)
      simpa using this

end Slam.Particle
