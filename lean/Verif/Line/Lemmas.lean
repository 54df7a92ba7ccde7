import Verif.Line.Model
import Verif.Line.Spec
import Mathlib.Tactic.Linarith
import Mathlib.Tactic.Ring
import Mathlib.Data.List.Range
import Mathlib.Data.List.Chain
import Mathlib.Data.List.Nodup

/-! Helper lemmas for rasterised segments. -/

namespace Slam.Line
open Slam.Grid (Coord)

/-- Closed form of the number of secondary steps after `k` primary steps. -/
def secSteps (a b : Int) (k : Nat) : Int := (2 * (k : Int) * b + a) / (2 * a)

/-- Closed form of the Bresenham point list starting at step `k`, `n + 1` points. -/
def closedPts (a b p0 s0 incP incS : Int) (k n : Nat) : List (Int × Int) :=
  (List.range (n + 1)).map fun j =>
    (p0 + incP * ((k + j : Nat) : Int), s0 + incS * secSteps a b (k + j))

theorem closedPts_succ (a b p0 s0 incP incS : Int) (k n : Nat) :
    closedPts a b p0 s0 incP incS k (n + 1) =
      (p0 + incP * (k : Int), s0 + incS * secSteps a b k) ::
        closedPts a b p0 s0 incP incS (k + 1) n := by
  unfold closedPts
  rw [List.range_succ_eq_map]
  simp only [List.map_cons, List.map_map, Nat.add_zero]
  congr 1
  apply List.map_congr_left
  intro j _
  simp only [Function.comp, Nat.succ_eq_add_one]
  rw [show k + (j + 1) = k + 1 + j by omega]

theorem secSteps_bounds (a b : Int) (ha : 0 < a) (k : Nat) :
    -a ≤ 2 * ((k : Int) * b - secSteps a b k * a) ∧ 2 * ((k : Int) * b - secSteps a b k * a) < a := by
  unfold secSteps
  have h1 := Int.emod_nonneg (2 * (k : Int) * b + a) (b := 2 * a) (by omega)
  have h2 := Int.emod_lt_of_pos (2 * (k : Int) * b + a) (b := 2 * a) (by omega)
  have h3 := Int.emod_add_mul_ediv (2 * (k : Int) * b + a) (2 * a)
  constructor <;> nlinarith

theorem secSteps_unique (a b m : Int) (ha : 0 < a) (k : Nat)
    (h1 : -a ≤ 2 * ((k : Int) * b - m * a)) (h2 : 2 * ((k : Int) * b - m * a) < a) :
    secSteps a b k = m := by
  obtain ⟨g1, g2⟩ := secSteps_bounds a b ha k
  generalize secSteps a b k = t at *
  have h3 : (t - m) * a < 1 * a := by nlinarith
  have h4 : -1 * a < (t - m) * a := by nlinarith
  have h5 := lt_of_mul_lt_mul_right h3 ha.le
  have h6 := lt_of_mul_lt_mul_right h4 ha.le
  omega

theorem secSteps_zero (a b : Int) (ha : 0 < a) : secSteps a b 0 = 0 :=
  secSteps_unique a b 0 ha 0 (by simp; omega) (by simpa using ha)

theorem secSteps_range (a b : Int) (ha : 0 < a) (hb : 0 ≤ b) (k : Nat) (hk : (k : Int) ≤ a) :
    0 ≤ secSteps a b k ∧ secSteps a b k ≤ b := by
  obtain ⟨g1, g2⟩ := secSteps_bounds a b ha k
  have hkb : (k : Int) * b ≤ a * b := mul_le_mul_of_nonneg_right hk hb
  have hkb0 : 0 ≤ (k : Int) * b := by positivity
  generalize secSteps a b k = m at *
  constructor
  · by_contra h
    have : m * a ≤ -1 * a := mul_le_mul_of_nonneg_right (by omega) ha.le
    omega
  · by_contra h
    have : (b + 1) * a ≤ m * a := mul_le_mul_of_nonneg_right (by omega) ha.le
    have e : (b + 1) * a = a * b + a := by ring
    omega

theorem bresenhamLoop_closed (ok : Int → Bool) (B : Int) (hok : ∀ v, |v| ≤ B → ok v = true) (a b p0 s0 incP incS : Int) (hP : incP = 1 ∨ incP = -1)
    (hS : incS = 1 ∨ incS = -1) (ha : 0 < a) (hb : 0 ≤ b) (hba : b ≤ a)
    (hB : |p0| + |s0| + 2 * a ≤ B) :
    ∀ (n k fuel : Nat), ((k : Int) + n = a) → n < fuel →
      bresenhamLoop ok (p0 + incP * a) (incP * a) (incS * b) incP incS fuel
        (p0 + incP * (k : Int)) (s0 + incS * secSteps a b k)
        (incP * incS * ((k : Int) * b - secSteps a b k * a))
      = some (closedPts a b p0 s0 incP incS k n) := by
  intro n
  induction n with
  | zero =>
    intro k fuel hk hf
    obtain ⟨f, rfl⟩ : ∃ f, fuel = f + 1 := ⟨fuel - 1, by omega⟩
    have : (k : Int) = a := by simpa using hk
    simp [bresenhamLoop, closedPts, this]
  | succ n ih =>
    intro k fuel hk hf
    obtain ⟨f, rfl⟩ : ∃ f, fuel = f + 1 := ⟨fuel - 1, by omega⟩
    have hne : p0 + incP * (k : Int) ≠ p0 + incP * a := by
      rcases hP with rfl | rfl <;> omega
    rw [bresenhamLoop, if_neg hne, closedPts_succ]
    have ih' := ih (k + 1) f (by push_cast at hk ⊢; omega) (by omega)
    obtain ⟨g1, g2⟩ := secSteps_bounds a b ha k
    have hprim : p0 + incP * (k : Int) + incP = p0 + incP * ((k + 1 : Nat) : Int) := by
      push_cast; ring
    have e1 : incP * incS * ((k : Int) * b - secSteps a b k * a) + incP * (incS * b)
        = incP * incS * (((k + 1 : Nat) : Int) * b - secSteps a b k * a) := by push_cast; ring
    have e2 : incP * incS * (((k + 1 : Nat) : Int) * b - secSteps a b k * a) - incS * (incP * a)
        = incP * incS * (((k + 1 : Nat) : Int) * b - (secSteps a b k + 1) * a) := by ring
    have habs : ∀ t : Int, |incP * incS * t| = |t| := by
      intro t
      rcases hP with rfl | rfl <;> rcases hS with rfl | rfl <;> simp
    have hmul : ∀ t u : Int, (t = 1 ∨ t = -1) → |t * u| = |u| := by
      rintro t u (rfl | rfl) <;> simp
    have hka : ((k + 1 : Nat) : Int) ≤ a := by push_cast at hk ⊢; omega
    have hin : |((k + 1 : Nat) : Int) * b - secSteps a b k * a| ≤ 2 * a := by
      push_cast
      have hx : ((k : Int) + 1) * b - secSteps a b k * a
        = ((k : Int) * b - secSteps a b k * a) + b := by ring
      rw [hx, abs_le]; constructor <;> omega
    have hin2 : |((k + 1 : Nat) : Int) * b - (secSteps a b k + 1) * a| ≤ 2 * a := by
      push_cast
      have hx : ((k : Int) + 1) * b - (secSteps a b k + 1) * a
        = ((k : Int) * b - secSteps a b k * a) + b - a := by ring
      rw [hx, abs_le]; constructor <;> omega
    have hp0 := abs_nonneg p0
    have hs0 := abs_nonneg s0
    have ok1 : ok (incP * (incS * b)) = true := hok _ (by
      rw [hmul _ _ hP, hmul _ _ hS, abs_of_nonneg hb]; omega)
    have ok2 : ok (incS * (incP * a)) = true := hok _ (by
      rw [hmul _ _ hS, hmul _ _ hP, abs_of_nonneg ha.le]; omega)
    have ok3 : ok (incP * incS * (((k + 1 : Nat) : Int) * b - secSteps a b k * a)) = true :=
      hok _ (by rw [habs]; omega)
    have ok4 : ok (incP * incS * (((k + 1 : Nat) : Int) * b - (secSteps a b k + 1) * a)) = true :=
      hok _ (by rw [habs]; omega)
    have ok5 : ok |((k + 1 : Nat) : Int) * b - secSteps a b k * a| = true :=
      hok _ (by rw [abs_abs]; omega)
    have ok6 : ok |((k + 1 : Nat) : Int) * b - (secSteps a b k + 1) * a| = true :=
      hok _ (by rw [abs_abs]; omega)
    have ok7 : ok (p0 + incP * ((k + 1 : Nat) : Int)) = true := hok _ (by
      refine (abs_add_le _ _).trans ?_
      rw [hmul _ _ hP, abs_of_nonneg (Int.natCast_nonneg (k + 1))]; omega)
    simp only [e1, e2, habs, hprim, ok1, ok2, ok3, ok4, ok5, ok6, ok7, Bool.and_self, if_true]
    split
    · rename_i hlt
      have hs : secSteps a b (k + 1) = secSteps a b k := by
        apply secSteps_unique _ _ _ ha
        · push_cast at *; nlinarith
        · push_cast at *
          generalize secSteps a b k = m at *
          have hx : ((k : Int) + 1) * b - (m + 1) * a = (((k : Int) + 1) * b - m * a) - a := by ring
          rw [hx] at hlt
          generalize ((k : Int) + 1) * b - m * a = t at *
          by_contra hcon
          rcases abs_cases t with ⟨q, _⟩ | ⟨q, _⟩ <;> rcases abs_cases (t - a) with ⟨r, _⟩ | ⟨r, _⟩ <;> omega
      rw [← hs, ih']
      simp [hs]
    · rename_i hlt
      have hs : secSteps a b (k + 1) = secSteps a b k + 1 := by
        apply secSteps_unique _ _ _ ha
        · push_cast at *
          generalize secSteps a b k = m at *
          have hx : ((k : Int) + 1) * b - (m + 1) * a = (((k : Int) + 1) * b - m * a) - a := by ring
          rw [hx] at hlt ⊢
          generalize ((k : Int) + 1) * b - m * a = t at *
          by_contra hcon
          rcases abs_cases t with ⟨q, _⟩ | ⟨q, _⟩ <;> rcases abs_cases (t - a) with ⟨r, _⟩ | ⟨r, _⟩ <;> omega
        · push_cast at *; nlinarith
      have hsec : s0 + incS * secSteps a b k + incS = s0 + incS * secSteps a b (k + 1) := by
        rw [hs]; ring
      have ok8 : ok (s0 + incS * secSteps a b (k + 1)) = true := hok _ (by
        obtain ⟨r1, r2⟩ := secSteps_range a b ha hb (k + 1) hka
        refine (abs_add_le _ _).trans ?_
        rw [hmul _ _ hS, abs_of_nonneg r1]; omega)
      rw [hsec, ← hs, ih', ok8]
      simp

theorem incOf_cases (d : Int) : incOf d = 1 ∨ incOf d = -1 := by
  unfold incOf; split <;> simp

theorem incOf_mul_abs (d : Int) : incOf d * |d| = d := by
  unfold incOf
  split
  · rw [abs_of_pos (by assumption)]; ring
  · rw [abs_of_nonpos (by omega)]; ring

theorem secSteps_last (a b : Int) (ha : 0 < a) (k : Nat) (hk : (k : Int) = a) : secSteps a b k = b := by
  apply secSteps_unique _ _ _ ha
  · rw [hk]; have : a * b - b * a = 0 := by ring
    omega
  · rw [hk]; have : a * b - b * a = 0 := by ring
    omega

theorem secSteps_step (a b : Int) (ha : 0 < a) (hb : 0 ≤ b) (hba : b ≤ a) (k : Nat) :
    secSteps a b (k + 1) = secSteps a b k ∨ secSteps a b (k + 1) = secSteps a b k + 1 := by
  obtain ⟨g1, g2⟩ := secSteps_bounds a b ha k
  by_cases h : 2 * (((k + 1 : Nat) : Int) * b - secSteps a b k * a) < a
  · left
    apply secSteps_unique _ _ _ ha _ _ h
    push_cast; nlinarith
  · right
    apply secSteps_unique _ _ _ ha
    · push_cast at *; nlinarith
    · push_cast at *; nlinarith

/-- What the loop yields in `(primary, secondary)` coordinates. -/
structure PSLine (p0 s0 dP dS : Int) (l : List (Int × Int)) : Prop where
  first : l.head? = some (p0, s0)
  last : l.getLast? = some (p0 + dP, s0 + dS)
  length : (l.length : Int) = |dP| + 1
  steps : l.IsChain fun u v => |v.1 - u.1| = 1 ∧ |v.2 - u.2| ≤ 1
  nodup : l.Nodup
  close : ∀ u ∈ l, 2 * |(u.1 - p0) * dS - (u.2 - s0) * dP| ≤ |dP|

theorem bresenhamLoop_line (ok : Int → Bool) (B : Int) (hok : ∀ v, |v| ≤ B → ok v = true)
    (p0 s0 dP dS : Int) (h : |dS| ≤ |dP|) (hB : |p0| + |s0| + 2 * |dP| ≤ B) (fuel : Nat)
    (hf : dP.natAbs < fuel) :
    ∃ l, bresenhamLoop ok (p0 + dP) dP dS (incOf dP) (incOf dS) fuel p0 s0 0 = some l ∧
      PSLine p0 s0 dP dS l := by
  rcases eq_or_ne dP 0 with rfl | hne
  · have : dS = 0 := by simpa using h
    subst this
    obtain ⟨f, rfl⟩ : ∃ f, fuel = f + 1 := ⟨fuel - 1, by omega⟩
    refine ⟨[(p0, s0)], by simp [bresenhamLoop], ?_⟩
    constructor <;> simp
  · have ha : 0 < |dP| := abs_pos.2 hne
    have hb : 0 ≤ |dS| := abs_nonneg _
    have key := bresenhamLoop_closed ok B hok |dP| |dS| p0 s0 (incOf dP) (incOf dS) (incOf_cases _)
      (incOf_cases _) ha hb h hB dP.natAbs 0 fuel (by simp) hf
    rw [incOf_mul_abs, incOf_mul_abs, secSteps_zero _ _ ha] at key
    simp only [Nat.cast_zero, mul_zero, add_zero, zero_mul, sub_zero] at key
    refine ⟨_, key, ?_⟩
    set a := |dP| with hadef
    set b := |dS| with hbdef
    have hdP := incOf_mul_abs dP
    have hdS := incOf_mul_abs dS
    rw [← hadef] at hdP
    rw [← hbdef] at hdS
    constructor
    · simp [closedPts, List.range_succ_eq_map, secSteps_zero _ _ ha]
    · have hk : ((dP.natAbs : Nat) : Int) = a := by simp [hadef]
      simp only [closedPts, Nat.zero_add]
      rw [List.range_succ, List.map_append, List.map_singleton, List.getLast?_append]
      simp [secSteps_last _ _ ha _ hk, hk, hdP, hdS]
    · simp [closedPts, hadef]
    · rw [closedPts, List.isChain_map, List.isChain_range]
      intro m hm
      have := secSteps_step a b ha hb h (0 + m)
      have h2 : 0 + (m + 1) = 0 + m + 1 := by omega
      simp only [h2]
      constructor
      · have : p0 + incOf dP * (((0 + m + 1 : Nat)) : Int) - (p0 + incOf dP * ((0 + m : Nat) : Int)) = incOf dP := by
          push_cast; ring
        rw [this]
        rcases incOf_cases dP with e | e <;> rw [e] <;> simp
      · rcases this with e | e
        · rw [e]; simp
        · rw [e]
          have : s0 + incOf dS * (secSteps a b (0 + m) + 1) - (s0 + incOf dS * secSteps a b (0 + m)) = incOf dS := by
            ring
          rw [this]
          rcases incOf_cases dS with e | e <;> rw [e] <;> simp
    · rw [closedPts]
      apply List.Nodup.map _ (List.nodup_range)
      intro i j hij
      simp only [Prod.mk.injEq] at hij
      have h1 := hij.1
      rcases incOf_cases dP with e | e <;> rw [e] at h1 <;> push_cast at h1 <;> omega
    · intro u hu
      simp only [closedPts, List.mem_map, List.mem_range] at hu
      obtain ⟨j, hj, rfl⟩ := hu
      obtain ⟨g1, g2⟩ := secSteps_bounds a b ha (0 + j)
      have : (p0 + incOf dP * ((0 + j : Nat) : Int) - p0) * dS - (s0 + incOf dS * secSteps a b (0 + j) - s0) * dP
          = incOf dP * (incOf dS * (((0 + j : Nat) : Int) * b - secSteps a b (0 + j) * a)) := by
        rw [← hdP, ← hdS]
        have i1 : incOf (incOf dP * a) = incOf dP := by rw [hdP]
        have i2 : incOf (incOf dS * b) = incOf dS := by rw [hdS]
        rw [i1, i2]; ring
      rw [this, abs_mul, abs_mul]
      have a1 : |incOf dP| = 1 := by rcases incOf_cases dP with e | e <;> rw [e] <;> simp
      have a2 : |incOf dS| = 1 := by rcases incOf_cases dS with e | e <;> rw [e] <;> simp
      rw [a1, a2, one_mul, one_mul]
      have : 2 * |((0 + j : Nat) : Int) * b - secSteps a b (0 + j) * a| ≤ a := by
        rcases abs_cases (((0 + j : Nat) : Int) * b - secSteps a b (0 + j) * a) with ⟨q, _⟩ | ⟨q, _⟩ <;>
          rw [q] <;> omega
      exact this

/-! ### the walking loop -/

/-- Invariant-based description of the walking loop. -/
theorem walk_spec {D : Type} (fp : FP D) (cellsNm : Nat) (b endc : Coord) (incX incY : Int)
    (hX : incX = 1 ∨ incX = -1) (hY : incY = 1 ∨ incY = -1) (exInc eyInc : D) :
    ∀ (fuel : Nat) (pnt : Coord) (e : D) (acc : List Coord),
      (acc ++ [pnt]).head? = some b →
      (acc ++ [pnt]).IsChain (fun u v => (|v.x - u.x| ≤ 1 ∧ |v.y - u.y| ≤ 1) ∧
        incX * u.x + incY * u.y + 1 ≤ incX * v.x + incY * v.y) →
      acc.length ≤ cellsNm → cellsNm + 1 ≤ fuel + acc.length →
      (walk fp cellsNm endc incX incY exInc eyInc fuel pnt e acc = .failover) ∨
      ∃ cells, walk fp cellsNm endc incX incY exInc eyInc fuel pnt e acc = .done cells ∧
        cells.head? = some b ∧ cells.getLast? = some endc ∧
        cells.IsChain (fun u v => (|v.x - u.x| ≤ 1 ∧ |v.y - u.y| ≤ 1) ∧
          incX * u.x + incY * u.y + 1 ≤ incX * v.x + incY * v.y) := by
  intro fuel
  induction fuel with
  | zero => intro pnt e acc h1 h2 h3 h4; omega
  | succ fuel ih =>
    intro pnt e acc h1 h2 h3 h4
    rw [walk]
    simp only
    have step : ∀ (q : Coord) (e' : D),
        (|q.x - pnt.x| ≤ 1 ∧ |q.y - pnt.y| ≤ 1) → 
        incX * pnt.x + incY * pnt.y + 1 ≤ incX * q.x + incY * q.y →
        ¬ cellsNm < (acc ++ [pnt]).length →
        (walk fp cellsNm endc incX incY exInc eyInc fuel q e' (acc ++ [pnt]) = .failover) ∨
        ∃ cells, walk fp cellsNm endc incX incY exInc eyInc fuel q e' (acc ++ [pnt]) = .done cells ∧
          cells.head? = some b ∧ cells.getLast? = some endc ∧
          cells.IsChain (fun u v => (|v.x - u.x| ≤ 1 ∧ |v.y - u.y| ≤ 1) ∧
            incX * u.x + incY * u.y + 1 ≤ incX * v.x + incY * v.y) := by
      intro q e' hq hpot hlen
      apply ih
      · rw [List.head?_append, h1]; rfl
      · rw [List.isChain_append]
        refine ⟨h2, List.isChain_singleton _, ?_⟩
        intro u hu v hv
        simp only [List.getLast?_append, List.getLast?_singleton, Option.some_or, Option.mem_def,
          Option.some.injEq, List.head?_cons] at hu hv
        subst hu; subst hv
        exact ⟨hq, hpot⟩
      · omega
      · simp only [List.length_append, List.length_singleton] at *; omega
    split
    · rename_i hp
      right
      exact ⟨_, rfl, h1, by simp [hp], h2⟩
    · split
      · left; rfl
      · rename_i hp hlen
        have ax : |incX| ≤ 1 := by rcases hX with rfl | rfl <;> simp
        have ay : |incY| ≤ 1 := by rcases hY with rfl | rfl <;> simp
        have px : incX * (pnt.x + incX) = incX * pnt.x + 1 := by rcases hX with rfl | rfl <;> ring
        have py : incY * (pnt.y + incY) = incY * pnt.y + 1 := by rcases hY with rfl | rfl <;> ring
        split
        · split
          · exact step _ _ (by simpa using ay) (by simp only [py]; omega) hlen
          · split
            · exact step _ _ (by simpa using ax) (by simp only [px]; omega) hlen
            · exact step _ _ (by simpa using ⟨ax, ay⟩) (by simp only [px, py]; omega) hlen
        · split
          · exact step _ _ (by simpa using ax) (by simp only [px]; omega) hlen
          · exact step _ _ (by simpa using ay) (by simp only [py]; omega) hlen

/-- A chain of strictly increasing potentials. -/
theorem chain_pot (f : Coord → Int) :
    ∀ (l : List Coord) (b e : Coord), l.head? = some b → l.getLast? = some e →
      l.IsChain (fun u v => f u + 1 ≤ f v) → (l.length : Int) ≤ f e - f b + 1 := by
  intro l
  induction l with
  | nil => intro b e h; simp at h
  | cons a l ih =>
    intro b e h1 h2 h3
    cases l with
    | nil =>
      simp only [List.head?_cons, Option.some.injEq, List.getLast?_singleton] at h1 h2
      subst h1; subst h2; simp
    | cons c l =>
      simp only [List.head?_cons, Option.some.injEq] at h1
      subst h1
      rw [List.isChain_cons_cons] at h3
      have := ih c e rfl (by simpa [List.getLast?_cons_cons] using h2) h3.2
      simp only [List.length_cons] at *
      push_cast at *
      omega

theorem chain_nodup (f : Coord → Int) (l : List Coord)
    (h : l.IsChain (fun u v => f u + 1 ≤ f v)) : l.Nodup := by
  have ht : l.IsChain (fun u v => f u < f v) := h.imp (fun u v (h : f u + 1 ≤ f v) => by omega)
  have hp : l.Pairwise (fun u v => f u < f v) := by
    have : IsTrans Coord (fun u v => f u < f v) := ⟨fun a b c => lt_trans⟩
    exact List.isChain_iff_pairwise.1 ht
  exact hp.imp (fun h heq => by rw [heq] at h; exact lt_irrefl _ h)

end Slam.Line
