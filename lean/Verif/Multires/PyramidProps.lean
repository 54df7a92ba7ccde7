import Verif.Multires.Pyramid
import Mathlib.Tactic.Linarith
import Mathlib.Tactic.Ring
import Mathlib.Tactic.Positivity
import Mathlib.Tactic.NormNum
import Mathlib.Data.Nat.Log

/-!
# C13: the levels of a rescalable map
-/

set_option autoImplicit false
set_option linter.unusedSectionVars false

namespace Slam.Multires
open Slam.Grid

variable {K : Type*} [Field K] [LinearOrder K] [IsStrictOrderedRing K]

/-! ## Specification -/

/-- The scales of a pyramid with `n` finite levels: `base, 2·base, 4·base, …` and the infinite one. -/
def pyramidScales (base : K) (n : Nat) : List (Option K) :=
  (List.range n).map (fun (i : Nat) => some (base * 2 ^ i)) ++ [none]

/-- The levels form a doubling pyramid over the original scale, the last one being of infinite scale. -/
def IsPyramid (base : K) (m : RMap K) : Prop :=
  ∃ n, 1 ≤ n ∧ m.levels.map (·.scale) = pyramidScales base n

/-- The level that ought to be active for a requested scale: the first one that is not finer. -/
def FinestNotFiner (m : RMap K) (target : Option K) (id : Nat) : Prop :=
  (∃ l, m.levels[id]? = some l ∧ leScale target l.scale = true) ∧
  ∀ j, j < id → ∀ l, m.levels[j]? = some l → leScale target l.scale = false

/-! ## `ge_pow` -/

theorem gePowLoop_spec : ∀ (fuel p i k : Nat), p = 2 ^ k → i ≤ p + fuel → (k = 0 ∨ 2 ^ k < 2 * i) →
    ∃ j, gePowLoop fuel p i = 2 ^ j ∧ i ≤ 2 ^ j ∧ (j = 0 ∨ 2 ^ j < 2 * i) := by
  intro fuel
  induction fuel with
  | zero =>
    intro p i k hp hi hk
    exact ⟨k, by simp [gePowLoop, hp], by omega, hk⟩
  | succ fuel ih =>
    intro p i k hp hi hk
    unfold gePowLoop
    by_cases h : p < i
    · rw [if_pos h]
      have hpos : 0 < p := by rw [hp]; positivity
      exact ih (p * 2) i (k + 1) (by rw [hp, pow_succ]) (by omega) (.inr (by rw [pow_succ, ← hp]; omega))
    · rw [if_neg h]
      exact ⟨k, hp, by omega, hk⟩

/-- `ge_pow` is the least power of two that is not below its argument. -/
theorem gePow_eq (i : Nat) : gePow i = 2 ^ Nat.clog 2 i := by
  obtain ⟨j, h1, h2, h3⟩ := gePowLoop_spec i 1 i 0 rfl (by omega) (.inl rfl)
  unfold gePow
  rw [h1]
  congr 1
  symm
  have hle : Nat.clog 2 i ≤ j := (Nat.clog_le_iff_le_pow (by norm_num)).2 h2
  refine le_antisymm hle ?_
  by_contra hlt
  push Not at hlt
  rcases h3 with h3 | h3
  · omega
  · obtain ⟨d, hd⟩ : ∃ d, j = Nat.clog 2 i + 1 + d := ⟨j - (Nat.clog 2 i + 1), by omega⟩
    have hpow : i ≤ 2 ^ Nat.clog 2 i := Nat.le_pow_clog (by norm_num) i
    have h4 : 2 ^ j = 2 ^ Nat.clog 2 i * 2 * 2 ^ d := by rw [hd, pow_add, pow_add, pow_one]
    have h5 : 1 ≤ 2 ^ d := Nat.one_le_two_pow
    rw [h4] at h3
    have : 2 ^ Nat.clog 2 i * 2 * 1 ≤ 2 ^ Nat.clog 2 i * 2 * 2 ^ d := Nat.mul_le_mul_left _ h5
    omega

/-! ## New levels -/

theorem newLevels_scales (w h : Nat) (s : K) :
    (newLevels w h s).map (·.scale) =
      (List.range (newLevels w h s).length).map (fun (i : Nat) => some (s * 2 ^ (i + 1))) := by
  induction w, h, s using newLevels.induct with
  | case1 w h s hc ih =>
    unfold newLevels
    rw [if_pos hc]
    simp only [List.map_cons, List.length_cons, List.range_succ_eq_map, List.map_map]
    rw [ih]
    simp only [zero_add, pow_one, List.cons.injEq, true_and]
    apply List.map_congr_left
    intro i _
    simp only [Function.comp, Nat.succ_eq_add_one, Option.some.injEq]
    ring
  | case2 w h s hc =>
    unfold newLevels
    rw [if_neg hc]
    simp

theorem newLevels_last (w h : Nat) (s : K) (hc : 2 < w ∨ 2 < h) :
    ∃ l, (newLevels w h s).getLast? = some l ∧ l.w = 2 ∧ l.h = 2 := by
  induction w, h, s using newLevels.induct with
  | case1 w h s hc ih =>
    unfold newLevels
    rw [if_pos hc]
    by_cases hd : 2 < max 2 (w / 2) ∨ 2 < max 2 (h / 2)
    · obtain ⟨l, e, h1, h2⟩ := ih hd
      refine ⟨l, ?_, h1, h2⟩
      rw [List.getLast?_cons, e]
      rfl
    · refine ⟨⟨max 2 (w / 2), max 2 (h / 2), some (s * 2)⟩, ?_, ?_, ?_⟩
      · have : newLevels (max 2 (w / 2)) (max 2 (h / 2)) (s * 2) = [] := by
          unfold newLevels; rw [if_neg hd]
        rw [this]; rfl
      · show max 2 (w / 2) = 2; omega
      · show max 2 (h / 2) = 2; omega
  | case2 w h s hc' => exact absurd hc hc'

/-! ## Scale selection -/

theorem probe_spec (t : Option K) (ls : List (Level K)) : ∀ i,
    (∀ id, probe t i ls = some id → ∃ j, id = i + j ∧ (∃ l, ls[j]? = some l ∧ leScale t l.scale = true) ∧
      ∀ k, k < j → ∀ l, ls[k]? = some l → leScale t l.scale = false) ∧
    ((∃ l ∈ ls, leScale t l.scale = true) → ∃ id, probe t i ls = some id) := by
  induction ls with
  | nil => intro i; simp [probe]
  | cons l ls ih =>
    intro i
    obtain ⟨h1, h2⟩ := ih (i + 1)
    by_cases hl : leScale t l.scale = true
    · constructor
      · intro id hid
        simp only [probe, hl, if_true, Option.some.injEq] at hid
        exact ⟨0, by omega, ⟨l, rfl, hl⟩, by omega⟩
      · intro _
        exact ⟨i, by simp [probe, hl]⟩
    · constructor
      · intro id hid
        simp only [probe, hl] at hid
        obtain ⟨j, hj, hx, hy⟩ := h1 id (by simpa using hid)
        refine ⟨j + 1, by omega, by simpa using hx, ?_⟩
        intro k hk l' hl'
        cases k with
        | zero =>
          simp at hl'
          rw [← hl']
          simpa using hl
        | succ k => exact hy k (by omega) l' (by simpa using hl')
      · rintro ⟨l', hm, hl'⟩
        rcases List.mem_cons.1 hm with rfl | hm
        · exact absurd hl' hl
        · obtain ⟨id, hid⟩ := h2 ⟨l', hm, hl'⟩
          exact ⟨id, by simp [probe, hl, hid]⟩

theorem pyramid_last (base : K) (m : RMap K) (h : IsPyramid base m) : ∃ l ∈ m.levels, l.scale = none := by
  obtain ⟨n, -, h⟩ := h
  have : (none : Option K) ∈ m.levels.map (·.scale) := by rw [h]; simp [pyramidScales]
  simpa using this

theorem pyramid_length (base : K) (m : RMap K) (n : Nat) (h : m.levels.map (·.scale) = pyramidScales base n) :
    m.levels.length = n + 1 := by
  have := congrArg List.length h
  simpa [pyramidScales] using this

theorem pyramid_level (base : K) (m : RMap K) (n : Nat) (h : m.levels.map (·.scale) = pyramidScales base n) (i : Nat)
    (l : Level K) (hl : m.levels[i]? = some l) :
    (i < n ∧ l.scale = some (base * 2 ^ i)) ∨ (i = n ∧ l.scale = none) := by
  have hi : (m.levels.map (·.scale))[i]? = some l.scale := by simp [hl]
  rw [h] at hi
  have hlen : i < n + 1 := by
    have := pyramid_length base m n h
    by_contra hc
    rw [List.getElem?_eq_none (by omega)] at hl
    simp at hl
  by_cases hin : i < n
  · left
    refine ⟨hin, ?_⟩
    simp [pyramidScales, List.getElem?_append_left, hin] at hi
    exact hi.symm
  · right
    have hin' : i = n := by omega
    refine ⟨hin', ?_⟩
    subst hin'
    simp [pyramidScales] at hi
    exact hi.symm

theorem pre_coarsest (base : K) (m : RMap K) (n : Nat) (hn : 1 ≤ n)
    (h : m.levels.map (·.scale) = pyramidScales base n) :
    ∃ w hh c, m.levels[m.levels.length - 2]? = some ⟨w, hh, some (base * 2 ^ (n - 1))⟩ ∧
      m.levels = m.levels.dropLast ++ [c] ∧ c.scale = none := by
  have hlen := pyramid_length base m n h
  have h2 : m.levels.length - 2 < m.levels.length := by omega
  have h3 : m.levels.length - 1 < m.levels.length := by omega
  have e2 := pyramid_level base m n h _ _ (List.getElem?_eq_getElem h2)
  have e3 := pyramid_level base m n h _ _ (List.getElem?_eq_getElem h3)
  have hne : m.levels ≠ [] := by intro hc; rw [hc] at hlen; simp at hlen
  refine ⟨m.levels[m.levels.length - 2].w, m.levels[m.levels.length - 2].h, m.levels.getLast hne, ?_, ?_, ?_⟩
  · rw [List.getElem?_eq_getElem h2]
    rcases e2 with ⟨_, e2⟩ | ⟨e, _⟩
    · have : n - 1 = m.levels.length - 2 := by omega
      rw [this, ← e2]
    · omega
  · exact (List.dropLast_append_getLast hne).symm
  · rcases e3 with ⟨e, _⟩ | ⟨_, e3⟩
    · omega
    · rw [List.getLast_eq_getElem]; exact e3

/-- Making the cache continuous keeps the pyramid and the active level, and leaves at most 2×2 cells in the level
below the coarsest. -/
theorem ensure_spec (base : K) (m : RMap K) (h : IsPyramid base m) (ha : m.active < m.levels.length) :
    IsPyramid base m.ensure ∧ m.ensure.active < m.ensure.levels.length ∧ m.ensure.scale = m.scale ∧
    m.ensure.scaleId = m.scaleId ∧ m.levels.length ≤ m.ensure.levels.length ∧
    (∀ i, i + 1 < m.levels.length → m.ensure.levels[i]? = m.levels[i]?) ∧
    (∃ l, m.ensure.levels[m.ensure.levels.length - 2]? = some l ∧ l.w ≤ 2 ∧ l.h ≤ 2) := by
  obtain ⟨n, hn, hs⟩ := h
  obtain ⟨w, hh, c, e1, e2, e3⟩ := pre_coarsest base m n hn hs
  have hlen := pyramid_length base m n hs
  unfold RMap.ensure
  rw [if_neg (by omega)]
  simp only [e1]
  by_cases hsmall : w ≤ 2 ∧ hh ≤ 2
  · rw [if_pos hsmall]
    exact ⟨⟨n, hn, hs⟩, ha, rfl, rfl, le_rfl, fun _ _ => rfl, ⟨_, e1, hsmall.1, hsmall.2⟩⟩
  · rw [if_neg hsmall]
    have hdrop : m.levels.drop (m.levels.length - 1) = [c] := by
      conv_lhs => rw [e2]
      rw [List.drop_append]
      simp
    have hins : insertBeforeLast m.levels (newLevels (gePow w) (gePow hh) (base * 2 ^ (n - 1))) =
        m.levels.dropLast ++ newLevels (gePow w) (gePow hh) (base * 2 ^ (n - 1)) ++ [c] := by
      unfold insertBeforeLast; rw [hdrop]
    have hbig : 2 < gePow w ∨ 2 < gePow hh := by
      have g1 : w ≤ gePow w := by rw [gePow_eq]; exact Nat.le_pow_clog (by norm_num) w
      have g2 : hh ≤ gePow hh := by rw [gePow_eq]; exact Nat.le_pow_clog (by norm_num) hh
      omega
    set new := newLevels (gePow w) (gePow hh) (base * 2 ^ (n - 1)) with hnew
    have hdl : m.levels.dropLast.map (·.scale) = (List.range n).map (fun (i : Nat) => some (base * 2 ^ i)) := by
      rw [List.map_dropLast, hs, pyramidScales, List.dropLast_concat]
    have hdll : m.levels.dropLast.length = n := by rw [List.length_dropLast]; omega
    rw [hins]
    refine ⟨⟨n + new.length, by omega, ?_⟩, ?_, ?_, rfl, ?_, ?_, ?_⟩
    · simp only [List.map_append, hdl, List.map_cons, List.map_nil, e3]
      rw [hnew, newLevels_scales, ← hnew]
      unfold pyramidScales
      rw [List.range_add, List.map_append, List.map_map]
      congr 2
      apply List.map_congr_left
      intro i _
      simp only [Function.comp, Option.some.injEq]
      rw [mul_assoc, ← pow_add]
      congr 2
      omega
    · simp only [List.length_append, hdll, List.length_cons, List.length_nil]
      split <;> omega
    · simp only [RMap.scale]
      by_cases hac : m.active + 1 = m.levels.length
      · rw [if_pos hac]
        have h1 : m.active = n := by omega
        have h4 : m.levels[m.active]? = some c := by
          rw [e2, h1, List.getElem?_append_right (by omega), hdll]
          simp
        rw [h4, h1, List.getElem?_append_right (by simp [hdll]), List.length_append, hdll]
        simp
      · rw [if_neg hac]
        have h1 : m.active < m.levels.dropLast.length := by omega
        rw [List.append_assoc, List.getElem?_append_left h1]
        conv_rhs => rw [e2]
        rw [List.getElem?_append_left h1]
    · simp only [List.length_append, hdll, List.length_cons, List.length_nil]; omega
    · intro i hi
      have h1 : i < m.levels.dropLast.length := by omega
      simp only
      rw [List.append_assoc, List.getElem?_append_left h1]
      conv_rhs => rw [e2]
      rw [List.getElem?_append_left h1]
    · obtain ⟨l, l1, l2, l3⟩ := newLevels_last (gePow w) (gePow hh) (base * 2 ^ (n - 1)) hbig
      refine ⟨l, ?_, by omega, by omega⟩
      have hne : new ≠ [] := by
        intro hc
        rw [← hnew, hc] at l1
        simp at l1
      have hpos : 0 < new.length := List.length_pos_of_ne_nil hne
      simp only
      rw [List.append_assoc, List.getElem?_append_right (by simp [hdll]; omega)]
      rw [List.getElem?_append_left (by simp [hdll]; omega)]
      rw [← hnew, List.getLast?_eq_getElem?] at l1
      rw [← l1]
      congr 1
      simp only [List.length_append, hdll, List.length_cons, List.length_nil]
      omega

theorem setScaleId_spec (base : K) (m : RMap K) (h : IsPyramid base m) (ha : m.active < m.levels.length) (id : Nat)
    (m' : RMap K) (hm : m.setScaleId id = some m') :
    IsPyramid base m' ∧ m'.levels = m.ensure.levels ∧ m'.scaleId = id ∧ m'.active = id ∧ id < m'.levels.length := by
  obtain ⟨h1, h2, -⟩ := ensure_spec base m h ha
  unfold RMap.setScaleId at hm
  simp only at hm
  by_cases hid : id < m.ensure.levels.length
  · rw [if_pos hid] at hm
    injection hm with hm
    subst hm
    exact ⟨h1, rfl, rfl, rfl, hid⟩
  · rw [if_neg hid] at hm; cases hm

/-- Making the cache continuous twice is making it continuous once. -/
theorem ensure_idem (base : K) (m : RMap K) (h : IsPyramid base m) (ha : m.active < m.levels.length) :
    m.ensure.ensure = m.ensure := by
  obtain ⟨h1, -, -, -, h5, -, l, h7, h8, h9⟩ := ensure_spec base m h ha
  obtain ⟨n, hn, hs⟩ := h1
  have hlen := pyramid_length base _ n hs
  obtain ⟨w, hh, c, e1, -, -⟩ := pre_coarsest base _ n hn hs
  rw [h7] at e1
  injection e1 with e1
  rw [e1] at h7 h8 h9
  have key : ∀ q : RMap K, q.levels.length = n + 1 →
      q.levels[q.levels.length - 2]? = some ⟨w, hh, some (base * 2 ^ (n - 1))⟩ → q.ensure = q := by
    intro q hq1 hq2
    unfold RMap.ensure
    rw [if_neg (by omega)]
    simp only [hq2]
    rw [if_pos ⟨h8, h9⟩]
  exact key _ hlen h7

theorem rescale_spec (base : K) (m : RMap K) (h : IsPyramid base m) (ha : m.active < m.levels.length)
    (target : Option K) :
    ∃ m', m.rescale target = some m' ∧ IsPyramid base m' ∧ m'.active = m'.scaleId ∧
      m'.active < m'.levels.length ∧ m'.levels = m.ensure.levels ∧ FinestNotFiner m' target m'.active := by
  obtain ⟨h1, h2, -⟩ := ensure_spec base m h ha
  obtain ⟨l, hl, hls⟩ := pyramid_last base _ h1
  obtain ⟨id, hid⟩ := (probe_spec target m.ensure.levels 0).2 ⟨l, hl, by rw [hls]; cases target <;> rfl⟩
  obtain ⟨j, hj, hx, hy⟩ := (probe_spec target m.ensure.levels 0).1 id hid
  have hj' : id = j := by omega
  subst hj'
  have hlt : id < m.ensure.levels.length := by
    obtain ⟨l', hl', -⟩ := hx
    by_contra hc
    rw [List.getElem?_eq_none (by omega)] at hl'
    simp at hl'
  refine ⟨⟨m.ensure.levels, id, id⟩, ?_, h1, rfl, hlt, rfl, hx, hy⟩
  unfold RMap.rescale
  simp only [hid, Option.bind_some, RMap.setScaleId]
  rw [ensure_idem base m h ha, if_pos hlt]

theorem step_pyramid (base : K) (m : RMap K) (h : IsPyramid base m) (ha : m.active < m.levels.length) (op : ROp K)
    (m' : RMap K) (hm : m.step op = some m') : IsPyramid base m' ∧ m'.active < m'.levels.length := by
  cases op with
  | setScaleId id =>
    obtain ⟨h1, h2, h3, h4, h5⟩ := setScaleId_spec base m h ha id m' hm
    exact ⟨h1, by rw [h4]; exact h5⟩
  | rescale t =>
    obtain ⟨m2, e, h1, -, h2, -⟩ := rescale_spec base m h ha t
    simp only [RMap.step] at hm
    rw [e] at hm
    injection hm with hm
    subst hm
    exact ⟨h1, h2⟩
  | touch =>
    injection hm with hm
    subst hm
    obtain ⟨h1, h2, -⟩ := ensure_spec base m h ha
    exact ⟨h1, h2⟩
  | grow i w hh =>
    injection hm with hm
    subst hm
    obtain ⟨n, hn, hs⟩ := h
    refine ⟨⟨n, hn, ?_⟩, by simpa using ha⟩
    rw [← hs]
    apply List.ext_getElem?
    intro k
    simp only [List.getElem?_map, List.getElem?_modify]
    cases m.levels[k]? with
    | none => rfl
    | some l =>
      by_cases hk : i = k <;> simp [hk]

theorem run_pyramid (base : K) (ops : List (ROp K)) : ∀ (m m' : RMap K), IsPyramid base m →
    m.active < m.levels.length → m.run ops = some m' → IsPyramid base m' ∧ m'.active < m'.levels.length := by
  induction ops with
  | nil =>
    intro m m' h ha hm
    injection hm with hm
    subst hm
    exact ⟨h, ha⟩
  | cons op ops ih =>
    intro m m' h ha hm
    simp only [RMap.run] at hm
    cases hst : m.step op with
    | none => rw [hst] at hm; simp at hm
    | some m2 =>
      rw [hst] at hm
      obtain ⟨h1, h2⟩ := step_pyramid base m h ha op m2 hst
      exact ih m2 m' h1 h2 hm

theorem create_spec (w h : Nat) (s : K) : ∃ m, RMap.create w h s = some m ∧ IsPyramid s m ∧
    m.active = 0 ∧ m.scaleId = 0 ∧ m.levels = (RMap.ensure ⟨[⟨w, h, some s⟩, ⟨1, 1, none⟩], 0, 0⟩).levels := by
  have hp : IsPyramid s (⟨[⟨w, h, some s⟩, ⟨1, 1, none⟩], 0, 0⟩ : RMap K) := ⟨1, le_rfl, by simp [pyramidScales]⟩
  obtain ⟨h1, h2, -, -, h5, -⟩ := ensure_spec s _ hp (by simp)
  have hlt : 0 < (RMap.ensure ⟨[⟨w, h, some s⟩, ⟨1, 1, none⟩], 0, 0⟩ : RMap K).levels.length := by omega
  refine ⟨⟨(RMap.ensure ⟨[⟨w, h, some s⟩, ⟨1, 1, none⟩], 0, 0⟩).levels, 0, 0⟩, ?_, h1, rfl, rfl, rfl⟩
  unfold RMap.create RMap.setScaleId
  simp only [ensure_idem s _ hp (by simp), if_pos hlt]

/-! ## The property -/

/-- C13: whatever the initial size and scale and whatever is done to the map afterwards, the levels are a doubling
pyramid over the original scale with an infinite last level; the level below the last has at most 2×2 cells whenever
the number of levels is asked for or a level is chosen. -/
theorem levels_form_pyramid (w h : Nat) (s : K) (ops : List (ROp K)) (m0 m : RMap K)
    (h0 : RMap.create w h s = some m0) (hr : m0.run ops = some m) :
    IsPyramid s m ∧ m.active < m.levels.length ∧ IsPyramid s m.ensure ∧
    (∃ l, m.ensure.levels[m.ensure.levels.length - 2]? = some l ∧ l.w ≤ 2 ∧ l.h ≤ 2) := by
  obtain ⟨m1, e, h1, h2, -⟩ := create_spec w h s
  rw [e] at h0
  injection h0 with h0
  subst h0
  have hne : m1.active < m1.levels.length := by
    rw [h2]
    obtain ⟨n, hn, hs⟩ := h1
    rw [pyramid_length s m1 n hs]; omega
  obtain ⟨g1, g2⟩ := run_pyramid s ops m1 m h1 hne hr
  obtain ⟨e1, -, -, -, -, -, e7⟩ := ensure_spec s m g1 g2
  exact ⟨g1, g2, e1, e7⟩

/-- What an operation makes of the size of the map at its original scale: it is enlarged by growth only, and never
reduced. -/
def grownTo (d : Nat × Nat) : ROp K → Nat × Nat
  | .grow 0 w h => (max d.1 w, max d.2 h)
  | _ => d

/-- C13: the level of the original scale keeps its scale, and its size is the initial one enlarged by the growth it was
asked for; nothing else changes it. -/
theorem finest_level_size (w h : Nat) (s : K) (ops : List (ROp K)) (m0 m : RMap K)
    (h0 : RMap.create w h s = some m0) (hr : m0.run ops = some m) :
    m.levels[0]? = some ⟨(ops.foldl grownTo (w, h)).1, (ops.foldl grownTo (w, h)).2, some s⟩ := by
  have two : ∀ m : RMap K, IsPyramid s m → 0 + 1 < m.levels.length := by
    rintro m ⟨n, hn, hs⟩
    rw [pyramid_length s m n hs]; omega
  have ens : ∀ m : RMap K, IsPyramid s m → m.active < m.levels.length → m.ensure.levels[0]? = m.levels[0]? := by
    intro m hp ha
    obtain ⟨-, -, -, -, -, h6, -⟩ := ensure_spec s m hp ha
    exact h6 0 (two m hp)
  have key : ∀ (ops : List (ROp K)) (m m' : RMap K) (d : Nat × Nat), IsPyramid s m → m.active < m.levels.length →
      m.levels[0]? = some ⟨d.1, d.2, some s⟩ → m.run ops = some m' →
      m'.levels[0]? = some ⟨(ops.foldl grownTo d).1, (ops.foldl grownTo d).2, some s⟩ := by
    intro ops
    induction ops with
    | nil =>
      intro m m' d _ _ hl hr
      injection hr with hr
      subst hr
      exact hl
    | cons op ops ih =>
      intro m m' d hp ha hl hr
      simp only [RMap.run, Option.bind_eq_some_iff] at hr
      obtain ⟨m2, h1, h2⟩ := hr
      obtain ⟨p2, a2⟩ := step_pyramid s m hp ha op m2 h1
      rw [List.foldl_cons]
      refine ih m2 m' _ p2 a2 ?_ h2
      cases op with
      | setScaleId id =>
        obtain ⟨-, e, -⟩ := setScaleId_spec s m hp ha id m2 h1
        rw [e, ens m hp ha]; exact hl
      | rescale t =>
        obtain ⟨m3, e, -, -, -, e', -⟩ := rescale_spec s m hp ha t
        simp only [RMap.step] at h1
        rw [e, Option.some.injEq] at h1
        subst h1
        rw [e', ens m hp ha]; exact hl
      | touch =>
        simp only [RMap.step, Option.some.injEq] at h1
        subst h1
        rw [ens m hp ha]; exact hl
      | grow i w' h' =>
        simp only [RMap.step, Option.some.injEq] at h1
        subst h1
        cases i with
        | zero => simp [hl, grownTo]
        | succ i => simp [hl, grownTo]
  obtain ⟨m1, e, h1, h2, -, h4⟩ := create_spec w h s
  rw [e] at h0
  injection h0 with h0
  subst h0
  have hp : IsPyramid s (⟨[⟨w, h, some s⟩, ⟨1, 1, none⟩], 0, 0⟩ : RMap K) := ⟨1, le_rfl, by simp [pyramidScales]⟩
  refine key ops m1 m (w, h) h1 (by rw [h2]; have := two m1 h1; omega) ?_ hr
  rw [h4, ens _ hp (by simp)]
  rfl

/-- C13: a map can always be built, and it starts at its original scale. -/
theorem starts_finest (w h : Nat) (s : K) :
    ∃ m, RMap.create w h s = some m ∧ m.scale = some (some s) ∧ m.scaleId = 0 := by
  obtain ⟨m, e, h1, h2, h3, -⟩ := create_spec w h s
  refine ⟨m, e, ?_, h3⟩
  obtain ⟨n, hn, hs⟩ := h1
  have hlen := pyramid_length s m n hs
  have h4 : 0 < m.levels.length := by omega
  unfold RMap.scale
  rw [h2, List.getElem?_eq_getElem h4]
  rcases pyramid_level s m n hs 0 _ (List.getElem?_eq_getElem h4) with ⟨_, e⟩ | ⟨e, _⟩
  · simp [e]
  · omega

/-- C13: after any history, requesting any scale (also the infinite one) succeeds and activates the finest level that
is not finer than requested. -/
theorem rescale_exact (w h : Nat) (s : K) (ops : List (ROp K)) (m0 m : RMap K)
    (h0 : RMap.create w h s = some m0) (hr : m0.run ops = some m) (target : Option K) :
    ∃ m', m.rescale target = some m' ∧ m'.active = m'.scaleId ∧ FinestNotFiner m' target m'.active := by
  obtain ⟨h1, h2, -⟩ := levels_form_pyramid w h s ops m0 m h0 hr
  obtain ⟨m', e, -, e2, -, -, e3⟩ := rescale_spec s m h1 h2 target
  exact ⟨m', e, e2, e3⟩

/-- The level chosen for a target is determined: if two levels qualify they are the same. -/
theorem finestNotFiner_unique (m : RMap K) (t : Option K) (i j : Nat) (hi : FinestNotFiner m t i)
    (hj : FinestNotFiner m t j) : i = j := by
  obtain ⟨⟨l, l1, l2⟩, l3⟩ := hi
  obtain ⟨⟨k, k1, k2⟩, k3⟩ := hj
  rcases lt_trichotomy i j with h | h | h
  · have := k3 i h l l1; rw [l2] at this; cases this
  · exact h
  · have := l3 j h k k1; rw [k2] at this; cases this

/-- C13: rescaling to the scale of a level activates that level. -/
theorem rescale_to_level (base : K) (hb : 0 < base) (m : RMap K) (h : IsPyramid base m)
    (ha : m.active < m.levels.length) (sc : Option K) (hsc : ∃ l ∈ m.levels, l.scale = sc) :
    ∃ m', m.rescale sc = some m' ∧ m'.scale = some sc := by
  obtain ⟨m', e, ⟨n, hn, hs⟩, e2, e3, e4, ⟨l, l1, l2⟩, l3⟩ := rescale_spec base m h ha sc
  refine ⟨m', e, ?_⟩
  have hin : ∃ (i : Nat) (k : Level K), m'.levels[i]? = some k ∧ k.scale = sc := by
    obtain ⟨e1, -, -, -, -, e6, -⟩ := ensure_spec base m h ha
    obtain ⟨k, hk, hks⟩ := hsc
    obtain ⟨i, hi, rfl⟩ := List.getElem_of_mem hk
    obtain ⟨n0, hn0, hs0⟩ := h
    rcases pyramid_level base m n0 hs0 i _ (List.getElem?_eq_getElem hi) with ⟨q1, q2⟩ | ⟨q1, q2⟩
    · refine ⟨i, m.levels[i], ?_, hks⟩
      rw [e4, e6 i (by rw [pyramid_length base m n0 hs0]; omega), List.getElem?_eq_getElem hi]
    · obtain ⟨k2, hk2, hk2s⟩ := pyramid_last base _ e1
      rw [← e4] at hk2
      obtain ⟨i2, hi2, rfl⟩ := List.getElem_of_mem hk2
      exact ⟨i2, m'.levels[i2], List.getElem?_eq_getElem hi2, by rw [← hks, q2, hk2s]⟩
  obtain ⟨i, k, k1, k2⟩ := hin
  have hle : leScale sc k.scale = true := by
    rw [k2]
    cases sc <;> simp [leScale]
  have hge : m'.active ≤ i := by
    by_contra hc
    have := l3 i (by omega) k k1
    rw [hle] at this
    cases this
  unfold RMap.scale
  rw [l1, Option.map_some]
  congr 1
  rcases pyramid_level base m' n hs m'.active l l1 with ⟨q1, q2⟩ | ⟨q1, q2⟩
  · rcases pyramid_level base m' n hs i k k1 with ⟨r1, r2⟩ | ⟨r1, r2⟩
    · rw [q2] at l2 ⊢
      rw [r2] at k2
      subst k2
      simp only [leScale, decide_eq_true_eq] at l2
      congr 1
      apply le_antisymm _ l2
      exact mul_le_mul_of_nonneg_left (pow_le_pow_right₀ (by norm_num) hge) hb.le
    · rw [r2] at k2
      subst k2
      rw [q2] at l2
      simp [leScale] at l2
  · rcases pyramid_level base m' n hs i k k1 with ⟨r1, r2⟩ | ⟨r1, r2⟩
    · omega
    · rw [q2, ← k2, r2]

/-- C13: temporarily rescaling (`SafeRescalableMap`, rescalable_caching_grid_map.h:203-217): whatever is done in
between — rescaling, growing, adding levels — the destructor's `rescale` to the remembered scale succeeds and the
scale of the active level is the remembered one again. -/
theorem safe_rescale_restores (w h : Nat) (s : K) (hs : 0 < s) (before inside : List (ROp K)) (m0 m1 m2 : RMap K)
    (h0 : RMap.create w h s = some m0) (h1 : m0.run before = some m1) (h2 : m1.run inside = some m2)
    (sc : Option K) (hsc : m1.scale = some sc) :
    ∃ m3, m2.rescale sc = some m3 ∧ m3.scale = some sc := by
  obtain ⟨p1, a1, -⟩ := levels_form_pyramid w h s before m0 m1 h0 h1
  obtain ⟨p2, a2⟩ := run_pyramid s inside m1 m2 p1 a1 h2
  apply rescale_to_level s hs m2 p2 a2
  -- the remembered scale still belongs to some level: levels are never removed
  have mono : ∀ (ops : List (ROp K)) (m m' : RMap K), IsPyramid s m → m.active < m.levels.length →
      m.run ops = some m' → m.levels.length ≤ m'.levels.length := by
    intro ops
    induction ops with
    | nil => intro m m' _ _ hm; injection hm with hm; rw [hm]
    | cons op ops ih =>
      intro m m' hp ha hm
      simp only [RMap.run] at hm
      cases hst : m.step op with
      | none => rw [hst] at hm; simp at hm
      | some mm =>
        rw [hst] at hm
        obtain ⟨q1, q2⟩ := step_pyramid s m hp ha op mm hst
        refine le_trans ?_ (ih mm m' q1 q2 hm)
        have hens := (ensure_spec s m hp ha).2.2.2.2.1
        cases op with
        | setScaleId id =>
          obtain ⟨-, e2, -⟩ := setScaleId_spec s m hp ha id mm hst
          rw [e2]; exact hens
        | rescale t =>
          obtain ⟨m3, e, -, -, -, e4, -⟩ := rescale_spec s m hp ha t
          simp only [RMap.step] at hst
          rw [e] at hst
          injection hst with hst
          subst hst
          rw [e4]; exact hens
        | touch => injection hst with hst; subst hst; exact hens
        | grow i w hh => injection hst with hst; subst hst; simp
  have hle := mono inside m1 m2 p1 a1 h2
  obtain ⟨n1, hn1, hs1⟩ := p1
  obtain ⟨n2, hn2, hs2⟩ := p2
  have l1 := pyramid_length s m1 n1 hs1
  have l2 := pyramid_length s m2 n2 hs2
  unfold RMap.scale at hsc
  rw [List.getElem?_eq_getElem a1, Option.map_some] at hsc
  injection hsc with hsc
  rcases pyramid_level s m1 n1 hs1 m1.active _ (List.getElem?_eq_getElem a1) with ⟨q1, q2⟩ | ⟨q1, q2⟩
  · have h3 : m1.active < m2.levels.length := by omega
    refine ⟨m2.levels[m1.active], List.getElem_mem h3, ?_⟩
    rcases pyramid_level s m2 n2 hs2 m1.active _ (List.getElem?_eq_getElem h3) with ⟨r1, r2⟩ | ⟨r1, r2⟩
    · rw [r2, ← hsc, q2]
    · omega
  · obtain ⟨l, hl, hls⟩ := pyramid_last s m2 ⟨n2, hn2, hs2⟩
    exact ⟨l, hl, by rw [hls, ← hsc, q2]⟩

/-! ## How many levels, and what they cover -/

/-- The extent of a level in cells, with the default origin (regular_squares_grid.h:120-126). -/
def Level.covers (l : Level K) (c : Coord) : Prop :=
  (Dims.mk l.w l.h).hasCell ⟨(l.w / 2 : Nat), (l.h / 2 : Nat)⟩ c = true

theorem newLevels_get (a b : Nat) (s : K) (i : Nat) (l : Level K) : ∀ (w h : Nat), w = 2 ^ a → h = 2 ^ b →
    (newLevels w h s)[i]? = some l → l.w = max 2 (2 ^ (a - (i + 1))) ∧ l.h = max 2 (2 ^ (b - (i + 1))) := by
  induction i generalizing a b s with
  | zero =>
    intro w h hw hh hl
    unfold newLevels at hl
    by_cases hc : 2 < w ∨ 2 < h
    · rw [if_pos hc] at hl
      simp at hl
      subst hl
      simp only [zero_add]
      constructor
      · rw [hw]
        cases a with
        | zero => simp
        | succ a => rw [pow_succ]; simp
      · rw [hh]
        cases b with
        | zero => simp
        | succ b => rw [pow_succ]; simp
    · rw [if_neg hc] at hl; simp at hl
  | succ i ih =>
    intro w h hw hh hl
    unfold newLevels at hl
    by_cases hc : 2 < w ∨ 2 < h
    · rw [if_pos hc] at hl
      simp only [List.getElem?_cons_succ] at hl
      have pow_half : ∀ a : Nat, max 2 (2 ^ a / 2) = 2 ^ (max 1 (a - 1)) := by
        intro a
        cases a with
        | zero => simp
        | succ a =>
          rw [pow_succ]
          simp only [Nat.add_sub_cancel, Nat.ofNat_pos, Nat.mul_div_cancel]
          cases a with
          | zero => simp
          | succ a =>
            rw [max_eq_right (show 1 ≤ a + 1 by omega), max_eq_right]
            rw [pow_succ]
            have := Nat.one_le_two_pow (n := a)
            omega
      obtain ⟨g1, g2⟩ := ih (max 1 (a - 1)) (max 1 (b - 1)) (s * 2) _ _
        (by rw [hw, pow_half]) (by rw [hh, pow_half]) hl
      have fin : ∀ a : Nat, max 2 (2 ^ (max 1 (a - 1) - (i + 1))) = max 2 (2 ^ (a - (i + 1 + 1))) := by
        intro a
        by_cases ha : 1 ≤ a - 1
        · rw [max_eq_right ha]
          congr 2
          omega
        · have e1 : max 1 (a - 1) - (i + 1) = 0 := by omega
          have e2 : a - (i + 1 + 1) = 0 := by omega
          rw [e1, e2]
      rw [fin] at g1 g2
      exact ⟨g1, g2⟩
    · rw [if_neg hc] at hl; simp at hl

/-- The levels of a new map: the fine one, the added ones, the coarsest one. -/
theorem create_levels (w h : Nat) (s : K) (m : RMap K) (hm : RMap.create w h s = some m) :
    m.levels = ⟨w, h, some s⟩ :: (if w ≤ 2 ∧ h ≤ 2 then [] else newLevels (gePow w) (gePow h) s) ++ [⟨1, 1, none⟩] := by
  obtain ⟨m', e, -, -, -, e2⟩ := create_spec w h s
  rw [e] at hm
  injection hm with hm
  subst hm
  rw [e2]
  unfold RMap.ensure
  simp only [List.length_cons, List.length_nil]
  by_cases hc : w ≤ 2 ∧ h ≤ 2
  · simp [hc]
  · simp [hc, insertBeforeLast]

/-- C13: in a new map every level covers the whole area of the map: for each cell of the fine level, the cell of level
`i` that contains it (coordinates divided by `2^i`, rounding down) is inside level `i`. -/
theorem levels_cover (w h : Nat) (s : K) (m : RMap K) (hm : RMap.create w h s = some m) (i : Nat) (l : Level K)
    (hl : m.levels[i]? = some l) (hfin : l.scale ≠ none) (c : Coord)
    (hc : (⟨w, h, some s⟩ : Level K).covers c) : l.covers ⟨c.x / 2 ^ i, c.y / 2 ^ i⟩ := by
  have hdim : (i = 0 ∧ l.w = w ∧ l.h = h) ∨
      (l.w = max 2 (2 ^ (Nat.clog 2 w - i)) ∧ l.h = max 2 (2 ^ (Nat.clog 2 h - i)) ∧ 1 ≤ i) := by
    rw [create_levels w h s m hm] at hl
    cases i with
    | zero =>
      simp at hl
      subst hl
      exact .inl ⟨rfl, rfl, rfl⟩
    | succ i =>
      right
      rw [List.cons_append, List.getElem?_cons_succ] at hl
      by_cases hsm : w ≤ 2 ∧ h ≤ 2
      · rw [if_pos hsm] at hl
        cases i with
        | zero => simp at hl; subst hl; simp at hfin
        | succ i => simp at hl
      · rw [if_neg hsm] at hl
        by_cases hi : i < (newLevels (gePow w) (gePow h) s).length
        · rw [List.getElem?_append_left hi] at hl
          obtain ⟨g1, g2⟩ := newLevels_get (Nat.clog 2 w) (Nat.clog 2 h) s i l _ _ (gePow_eq w) (gePow_eq h) hl
          exact ⟨g1, g2, by omega⟩
        · rw [List.getElem?_append_right (by omega)] at hl
          by_cases h0 : i - (newLevels (gePow w) (gePow h) s).length = 0
          · rw [h0] at hl; simp at hl; subst hl; simp at hfin
          · rw [List.getElem?_eq_none (by simp; omega)] at hl; simp at hl
  have hcov : ∀ (k : Level K) (d : Coord), k.covers d ↔
      (0 ≤ d.x + ((k.w / 2 : Nat) : Int) ∧ d.x + ((k.w / 2 : Nat) : Int) < k.w) ∧
      (0 ≤ d.y + ((k.h / 2 : Nat) : Int) ∧ d.y + ((k.h / 2 : Nat) : Int) < k.h) := by
    intro k d
    unfold Level.covers Dims.hasCell Dims.hasInternalCell external2internal Coord.add
    rw [Bool.and_eq_true, Bool.and_eq_true, Bool.and_eq_true, decide_eq_true_eq, decide_eq_true_eq,
      decide_eq_true_eq, decide_eq_true_eq]
  rw [hcov] at hc ⊢
  have axis : ∀ (w lw : Nat) (x : Int), (lw = max 2 (2 ^ (Nat.clog 2 w - i))) →
      0 ≤ x + ((w / 2 : Nat) : Int) → x + ((w / 2 : Nat) : Int) < w →
      0 ≤ x / 2 ^ i + ((lw / 2 : Nat) : Int) ∧ x / 2 ^ i + ((lw / 2 : Nat) : Int) < lw := by
    intro w lw x hlw h1 h2
    have hP : w ≤ 2 ^ Nat.clog 2 w := Nat.le_pow_clog (by norm_num) w
    obtain ⟨d, e, hd⟩ : ∃ d e : Nat, lw = 2 * d ∧ 1 ≤ d ∧ 2 ^ Nat.clog 2 w ≤ 2 * d * 2 ^ i ∧ e = 0 := by
      by_cases hle : 1 ≤ Nat.clog 2 w - i
      · refine ⟨2 ^ (Nat.clog 2 w - i - 1), 0, ?_, Nat.one_le_two_pow, ?_, rfl⟩
        · have : 2 ^ (Nat.clog 2 w - i) = 2 * 2 ^ (Nat.clog 2 w - i - 1) := by
            rw [← pow_succ']
            congr 1
            omega
          rw [hlw, this]
          have := Nat.one_le_two_pow (n := Nat.clog 2 w - i - 1)
          omega
        · rw [← pow_succ', ← pow_add]
          exact Nat.pow_le_pow_right (by norm_num) (by omega)
      · refine ⟨1, 0, ?_, le_rfl, ?_, rfl⟩
        · have : Nat.clog 2 w - i = 0 := by omega
          rw [hlw, this]; rfl
        · have : 2 ^ Nat.clog 2 w ≤ 2 ^ i := Nat.pow_le_pow_right (by norm_num) (by omega)
          omega
    obtain ⟨hl1, hl2, hl3, -⟩ := hd
    have hpow : (0 : Int) < 2 ^ i := by positivity
    have hle : (w : Int) ≤ 2 * d * 2 ^ i := by
      have : w ≤ 2 * d * 2 ^ i := le_trans hP hl3
      exact_mod_cast this
    have e1 : (lw / 2 : Nat) = d := by omega
    rw [e1, hl1]
    have hlo : -(d : Int) ≤ x / 2 ^ i := by
      rw [Int.le_ediv_iff_mul_le hpow]
      have : (2 : Int) * (-(d : Int) * 2 ^ i) ≤ -(w : Int) := by linarith
      omega
    have hhi : x / 2 ^ i < (d : Int) := by
      rw [Int.ediv_lt_iff_lt_mul hpow]
      have : (w : Int) ≤ 2 * ((d : Int) * 2 ^ i) := by linarith
      omega
    push_cast
    omega
  rcases hdim with ⟨h0, hw, hh⟩ | ⟨hw, hh, -⟩
  · subst h0
    rw [hw, hh]
    simpa using hc
  · obtain ⟨⟨c1, c2⟩, c3, c4⟩ := hc
    exact ⟨axis w l.w c.x hw c1 c2, axis h l.h c.y hh c3 c4⟩

/-! ## Non-vacuity -/

/-- A map of 5×3 cells: the levels 5×3, 4×2, 2×2 and the coarsest one. -/
example : ∃ m, RMap.create 5 3 (1 / 10 : ℚ) = some m ∧
    m.levels = [⟨5, 3, some (1 / 10)⟩, ⟨4, 2, some (2 / 10)⟩, ⟨2, 2, some (4 / 10)⟩, ⟨1, 1, none⟩] := by
  obtain ⟨m, e, -⟩ := create_spec 5 3 (1 / 10 : ℚ)
  refine ⟨m, e, ?_⟩
  rw [create_levels 5 3 _ m e]
  have g5 : gePow 5 = 8 := by decide
  have g3 : gePow 3 = 4 := by decide
  simp only [g5, g3]
  unfold newLevels
  unfold newLevels
  unfold newLevels
  norm_num

/-- A history with growth that adds a level, and a temporary rescaling. -/
example : ∃ m0 m1 : RMap ℚ, RMap.create 5 3 (1 / 10 : ℚ) = some m0 ∧
    m0.run [.grow 2 3 3, .touch, .rescale (some (3 / 10))] = some m1 := by
  obtain ⟨m0, e, h1, h2, -⟩ := create_spec 5 3 (1 / 10 : ℚ)
  have ha : m0.active < m0.levels.length := by
    rw [h2, create_levels 5 3 _ m0 e]; simp
  obtain ⟨p1, a1⟩ := step_pyramid (1 / 10 : ℚ) m0 h1 ha (.grow 2 3 3) _ rfl
  obtain ⟨p2, a2⟩ := step_pyramid (1 / 10 : ℚ) _ p1 a1 .touch _ rfl
  obtain ⟨m1, e1, -⟩ := rescale_spec (1 / 10 : ℚ) _ p2 a2 (some (3 / 10))
  exact ⟨m0, m1, e, by simp only [RMap.run, RMap.step, Option.bind_some, e1]⟩

end Slam.Multires
