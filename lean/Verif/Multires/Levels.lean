import Verif.Multires.PyramidProps

/-!
# How many levels a new map has
-/

set_option autoImplicit false
set_option linter.unusedSectionVars false

namespace Slam.Multires

variable {K : Type*} [Field K] [LinearOrder K] [IsStrictOrderedRing K]

theorem newLevels_length (n : Nat) : ∀ (a b : Nat) (s : K), max a b = n → (newLevels (2 ^ a) (2 ^ b) s).length = n - 1 := by
  induction n with
  | zero =>
    intro a b s h
    obtain ⟨rfl, rfl⟩ : a = 0 ∧ b = 0 := by omega
    unfold newLevels
    rw [if_neg (by norm_num)]
    rfl
  | succ n ih =>
    intro a b s h
    by_cases hn : n = 0
    · subst hn
      unfold newLevels
      rw [if_neg]
      · rfl
      · have h1 : 2 ^ a ≤ 2 ^ 1 := Nat.pow_le_pow_right (by norm_num) (by omega)
        have h2 : 2 ^ b ≤ 2 ^ 1 := Nat.pow_le_pow_right (by norm_num) (by omega)
        omega
    · have half : ∀ c : Nat, max 2 (2 ^ c / 2) = 2 ^ (max 1 (c - 1)) := by
        intro c
        match c with
        | 0 => rfl
        | 1 => rfl
        | c + 2 =>
          have h1 : 2 ^ (c + 2) / 2 = 2 ^ (c + 1) := by rw [Nat.pow_succ]; omega
          have h2 : 2 ≤ 2 ^ (c + 1) := by rw [Nat.pow_succ]; have := Nat.one_le_two_pow (n := c); omega
          rw [h1, max_eq_right h2, max_eq_right (by omega)]
          rfl
      unfold newLevels
      rw [if_pos]
      · rw [List.length_cons, half, half, ih _ _ _ (by omega)]
        omega
      · have hbig : ∀ c : Nat, 2 ≤ c → 2 < 2 ^ c := by
          intro c hc
          have : 2 ^ 2 ≤ 2 ^ c := Nat.pow_le_pow_right (by norm_num) hc
          omega
        by_cases ha : a = n + 1
        · exact .inl (hbig a (by omega))
        · exact .inr (hbig b (by omega))

/-- The number of finite levels of a new map is the least (but at least 1) with `max w h ≤ 2 ^ n`. -/
theorem level_count (w h : Nat) (s : K) : ∃ m n, RMap.create w h s = some m ∧ m.levels.length = n + 1 ∧ 1 ≤ n ∧
    w ≤ 2 ^ n ∧ h ≤ 2 ^ n ∧ ∀ k, 1 ≤ k → w ≤ 2 ^ k → h ≤ 2 ^ k → n ≤ k := by
  obtain ⟨m, e, -, -, -, hl⟩ := create_spec w h s
  refine ⟨m, ?_⟩
  have hlev : m.levels.length = max 1 (max (Nat.clog 2 w) (Nat.clog 2 h)) + 1 := by
    rw [hl]
    unfold RMap.ensure
    rw [if_neg (by simp)]
    simp only [List.length_cons, List.length_nil, List.getElem?_cons_zero, zero_add, Nat.reduceAdd, Nat.sub_self]
    by_cases hsm : w ≤ 2 ∧ h ≤ 2
    · rw [if_pos hsm]
      have h1 : Nat.clog 2 w ≤ 1 := Nat.clog_le_of_le_pow (by omega)
      have h2 : Nat.clog 2 h ≤ 1 := Nat.clog_le_of_le_pow (by omega)
      simp only [List.length_cons, List.length_nil]
      omega
    · rw [if_neg hsm]
      simp only [insertBeforeLast, List.length_append, List.length_dropLast, List.length_drop, List.length_cons, List.length_nil,
        gePow_eq]
      rw [newLevels_length _ _ _ _ rfl]
      have g1 : w ≤ 2 ^ Nat.clog 2 w := Nat.le_pow_clog (by norm_num) w
      have g2 : h ≤ 2 ^ Nat.clog 2 h := Nat.le_pow_clog (by norm_num) h
      have : 1 ≤ max (Nat.clog 2 w) (Nat.clog 2 h) := by
        by_contra hc
        obtain ⟨c1, c2⟩ : Nat.clog 2 w = 0 ∧ Nat.clog 2 h = 0 := by omega
        rw [c1] at g1; rw [c2] at g2
        omega
      omega
  refine ⟨max 1 (max (Nat.clog 2 w) (Nat.clog 2 h)), e, hlev, by omega, ?_, ?_, ?_⟩
  · exact (Nat.le_pow_clog (by norm_num) w).trans (Nat.pow_le_pow_right (by norm_num) (by omega))
  · exact (Nat.le_pow_clog (by norm_num) h).trans (Nat.pow_le_pow_right (by norm_num) (by omega))
  · intro k hk h1 h2
    have c1 : Nat.clog 2 w ≤ k := Nat.clog_le_of_le_pow h1
    have c2 : Nat.clog 2 h ≤ k := Nat.clog_le_of_le_pow h2
    omega

/-- The default size, 100 by 100 cells: seven finite levels. -/
example (s : K) : ∃ m, RMap.create 100 100 s = some m ∧ m.levels.length = 8 := by
  obtain ⟨m, n, h1, h2, h3, h4, h5, h6⟩ := level_count 100 100 s
  have := h6 7 (by norm_num) (by norm_num) (by norm_num)
  have : ¬ n ≤ 6 := by
    intro hc
    have : 2 ^ n ≤ 2 ^ 6 := Nat.pow_le_pow_right (by norm_num) hc
    omega
  exact ⟨m, h1, by omega⟩

end Slam.Multires
