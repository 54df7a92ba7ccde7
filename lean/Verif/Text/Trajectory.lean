import Verif.Text.Props
import Mathlib.Analysis.SpecialFunctions.Trigonometric.Basic

/-!
# C84: trajectory files

`RobotPoseTumTrajectoryDumper`, src/ros/robot_pose_observers.h:65-92. Doubles are reals here.
-/

set_option autoImplicit false
set_option linter.unusedSectionVars false

namespace Slam.Text
open Slam.Float

/-! ## Model -/

/-- A logged pose: `ros::Time` (seconds, nanoseconds) and `RobotPose`. -/
structure Logged where
  sec : Nat
  nsec : Nat
  x : ℝ
  y : ℝ
  θ : ℝ

/-- `tf::createQuaternionFromRPY(roll, pitch, yaw)` (tf's `setRPY`; library, trusted): x, y, z, w. -/
noncomputable def quaternionRPY (roll pitch yaw : ℝ) : ℝ × ℝ × ℝ × ℝ :=
  let cy := Real.cos (yaw / 2); let sy := Real.sin (yaw / 2)
  let cp := Real.cos (pitch / 2); let sp := Real.sin (pitch / 2)
  let cr := Real.cos (roll / 2); let sr := Real.sin (roll / 2)
  (sr * cp * cy - cr * sp * sy, cr * sp * cy + sr * cp * sy, cr * cp * sy - sr * sp * cy, cr * cp * cy + sr * sp * sy)

/-- `log_robot_pose`, robot_pose_observers.h:76-85: the characters written. -/
noncomputable def tumLine (l : Logged) : Str :=
  let q := quaternionRPY 0 0 l.θ
  printNat l.sec ++ '.' :: (printNat l.nsec ++ ' ' :: (printDouble l.x ++ ' ' :: (printDouble l.y ++ ' ' :: '0' :: ' ' ::
    (printDouble q.1 ++ ' ' :: (printDouble q.2.1 ++ ' ' :: (printDouble q.2.2.1 ++ ' ' :: (printDouble q.2.2.2 ++ ['\n'])))))))

/-- The file after a sequence of calls, robot_pose_observers.h:67-70,76-89 (the stream is only appended to; when it is
flushed makes no difference to the contents once it is closed). -/
noncomputable def tumFile (ls : List Logged) : Str := ls.flatMap tumLine

/-! ## Specification -/

/-- The numbers of a text, as a stream yields them one after another; `none` if one of the first `n` is missing. -/
noncomputable def numbers (r : ℝ → ℝ) : Nat → Stream → Option (List ℝ × Stream)
  | 0, s => some ([], s)
  | n + 1, s =>
    let a := getDouble r s 0
    if a.2 = none then none else (numbers r n a.2).map fun p => (a.1 :: p.1, p.2)

/-- The number of decimal digits. -/
def digitCount (n : Nat) : Nat := Nat.log 10 n + 1

/-- What one entry reads as: time, position, and the unit quaternion of a rotation about the vertical axis by the
heading. The time is the one that C58 is about. -/
structure EntryReads (r : ℝ → ℝ) (l : Logged) (v : List ℝ) : Prop where
  eight : v.length = 8
  time : v[0]? = some (r ((l.sec : ℝ) + (l.nsec : ℝ) / 10 ^ digitCount l.nsec))
  x : ∃ a, v[1]? = some a ∧ ReadBack r l.x a
  y : ∃ a, v[2]? = some a ∧ ReadBack r l.y a
  z : v[3]? = some (r 0)
  qx : v[4]? = some (r 0)
  qy : v[5]? = some (r 0)
  qz : ∃ a, v[6]? = some a ∧ ReadBack r (Real.sin (l.θ / 2)) a
  qw : ∃ a, v[7]? = some a ∧ ReadBack r (Real.cos (l.θ / 2)) a

/-! ## Proofs -/

theorem printNat_ne (n : Nat) : printNat n ≠ [] := by
  intro e
  have := congrArg List.length e
  simp [printNat, fixed_length] at this

theorem natOf_printNat (n : Nat) : natOf (printNat n) = n := by
  unfold printNat
  rw [natOf_fixed, Nat.mod_eq_of_lt (Nat.lt_pow_succ_log_self (b := 10) (by norm_num) _)]

/-- Two numbers with a point between them. -/
theorem parse_point (r : ℝ → ℝ) (a b : Nat) (rest : Str) (hr : Ends rest) :
    parseDouble r (printNat a ++ '.' :: (printNat b ++ rest)) =
      some (r ((a : ℝ) + (b : ℝ) / 10 ^ digitCount b), rest) := by
  obtain ⟨t1, t2⟩ := takeWhile_digits (printNat a) ('.' :: (printNat b ++ rest)) (isDig_fixed _ _) (by
      intro c h
      simp only [List.head?_cons, Option.some.injEq] at h
      subst h; decide)
  obtain ⟨t3, t4⟩ := takeWhile_digits (printNat b) rest (isDig_fixed _ _) (fun c h => (hr c h).1)
  have hs : takeSign (printNat a ++ '.' :: (printNat b ++ rest)) = (false, printNat a ++ '.' :: (printNat b ++ rest)) := by
    apply takeSign_digit
    intro c hc
    have hd := isDig_fixed (Nat.log 10 a + 1) a
    have hne := printNat_ne a
    cases hp : printNat a with
    | nil => exact absurd hp hne
    | cons d t =>
      rw [hp] at hc
      simp only [List.cons_append, List.head?_cons, Option.some.injEq] at hc
      subst hc
      exact .inl (hd d (by rw [show fixed _ _ = printNat a from rfl, hp]; simp))
  have hne : printNat a ++ printNat b ≠ [] := by simp [printNat_ne]
  unfold parseDouble
  rw [hs]
  have tf : takeFrac ('.' :: (printNat b ++ rest)) = (printNat b, rest) := by simp only [takeFrac, t3, t4]
  simp only [t1, t2, tf, hne, if_false, takeExp_rest rest hr, Option.map_some]
  rw [natOf_append, natOf_printNat, natOf_printNat]
  have hl : (printNat b).length = digitCount b := fixed_length _ _
  rw [hl]
  simp only [Bool.false_eq_true, if_false, zero_sub, zpow_neg, zpow_natCast]
  congr 2
  push_cast
  field_simp

theorem getDouble_of_parse {r : ℝ → ℝ} {t rest : Str} {v : ℝ} (b : Str) (hb : ∀ c ∈ b, isBlank c = true)
    (hh : ∃ c u, t = c :: u ∧ isBlank c = false) (h : parseDouble r t = some (v, rest)) (old : ℝ) :
    getDouble r (some (b ++ t)) old = (v, some rest) := by
  obtain ⟨c, u, rfl, hc⟩ := hh
  have : (b ++ c :: u).dropWhile isBlank = c :: u := by
    induction b with
    | nil => simp [hc]
    | cons d b ih =>
      rw [List.cons_append, List.dropWhile_cons, if_pos (hb d (by simp))]
      exact ih (fun c hc => hb c (by simp [hc]))
  simp [getDouble, sentry, this, h]

theorem printNat_head (n : Nat) (u : Str) : ∃ c t, printNat n ++ u = c :: t ∧ isBlank c = false := by
  cases hp : printNat n with
  | nil => exact absurd hp (printNat_ne n)
  | cons c t =>
    have hd : isDig c = true := isDig_fixed _ _ c (by rw [show fixed _ _ = printNat n from rfl, hp]; simp)
    refine ⟨c, t ++ u, rfl, ?_⟩
    simp only [isDig, Bool.and_eq_true, decide_eq_true_eq] at hd
    have hne : ∀ d : Char, d.toNat < 48 → c ≠ d := by rintro d hd rfl; omega
    simp only [isBlank, Bool.or_eq_false_iff, decide_eq_false_iff_not]
    refine ⟨⟨⟨⟨⟨hne _ (by decide), hne _ (by decide)⟩, hne _ (by decide)⟩, hne _ (by decide)⟩, by omega⟩, by omega⟩

theorem numbers_step {r : ℝ → ℝ} {s : Stream} {v : ℝ} {rest : Str} (n : Nat) (h : getDouble r s 0 = (v, some rest)) :
    numbers r (n + 1) s = (numbers r n (some rest)).map fun p => (v :: p.1, p.2) := by
  simp [numbers, h]

theorem printDouble_zero : printDouble (0 : ℝ) = ['0'] := by simp [printDouble]

/-- One entry. `pre` is the newline of the entry before. -/
theorem tum_entry (r : ℝ → ℝ) (l : Logged) (pre tail : Str) (hpre : ∀ c ∈ pre, isBlank c = true) :
    ∃ v, EntryReads r l v ∧ ∀ n, numbers r (n + 8) (some (pre ++ (tumLine l ++ tail))) =
      (numbers r n (some ('\n' :: tail))).map fun p => (v ++ p.1, p.2) := by
  have sp : ∀ t : Str, Ends (' ' :: t) := fun t => ends_blank _ (.inl rfl) t
  have blank : ∀ c ∈ [' '], isBlank c = true := by decide
  have hq : quaternionRPY 0 0 l.θ = (0, 0, Real.sin (l.θ / 2), Real.cos (l.θ / 2)) := by
    simp [quaternionRPY]
  set qz := Real.sin (l.θ / 2)
  set qw := Real.cos (l.θ / 2)
  let t8 : Str := '\n' :: tail
  let t7 : Str := ' ' :: (printDouble qw ++ t8)
  let t6 : Str := ' ' :: (printDouble qz ++ t7)
  let t5 : Str := ' ' :: (printDouble (0 : ℝ) ++ t6)
  let t4 : Str := ' ' :: (printDouble (0 : ℝ) ++ t5)
  let t3 : Str := ' ' :: (printDouble (0 : ℝ) ++ t4)
  let t2 : Str := ' ' :: (printDouble l.y ++ t3)
  let t1 : Str := ' ' :: (printDouble l.x ++ t2)
  have hline : pre ++ (tumLine l ++ tail) = pre ++ (printNat l.sec ++ '.' :: (printNat l.nsec ++ t1)) := by
    simp only [tumLine, hq, t1, t2, t3, t4, t5, t6, t7, t8, printDouble_zero]
    simp
  have g0 := getDouble_of_parse pre hpre (printNat_head l.sec _) (parse_point r l.sec l.nsec t1 (sp _)) 0
  have g1 : getDouble r (some t1) 0 = (r (sixValue l.x), some t2) := getDouble_print r [' '] blank l.x 0 t2 (sp _)
  have g2 : getDouble r (some t2) 0 = (r (sixValue l.y), some t3) := getDouble_print r [' '] blank l.y 0 t3 (sp _)
  have g3 : getDouble r (some t3) 0 = (r (sixValue 0), some t4) := getDouble_print r [' '] blank 0 0 t4 (sp _)
  have g4 : getDouble r (some t4) 0 = (r (sixValue 0), some t5) := getDouble_print r [' '] blank 0 0 t5 (sp _)
  have g5 : getDouble r (some t5) 0 = (r (sixValue 0), some t6) := getDouble_print r [' '] blank 0 0 t6 (sp _)
  have g6 : getDouble r (some t6) 0 = (r (sixValue qz), some t7) := getDouble_print r [' '] blank qz 0 t7 (sp _)
  have g7 : getDouble r (some t7) 0 = (r (sixValue qw), some t8) := getDouble_print r [' '] blank qw 0 t8 (ends_blank _ (.inr rfl) _)
  have hz : sixValue (0 : ℝ) = 0 := by simp [sixValue]
  refine ⟨[r ((l.sec : ℝ) + (l.nsec : ℝ) / 10 ^ digitCount l.nsec), r (sixValue l.x), r (sixValue l.y), r 0, r 0, r 0,
    r (sixValue qz), r (sixValue qw)], ⟨rfl, rfl, ⟨_, rfl, _, sixValue_spec _, rfl⟩, ⟨_, rfl, _, sixValue_spec _, rfl⟩, rfl,
    rfl, rfl, ⟨_, rfl, _, sixValue_spec _, rfl⟩, ⟨_, rfl, _, sixValue_spec _, rfl⟩⟩, ?_⟩
  intro n
  rw [hline]
  rw [hz] at g3 g4 g5
  have s0 := numbers_step (n + 7) g0
  have s1 : numbers r (n + 7) (some t1) = _ := numbers_step (n + 6) g1
  have s2 : numbers r (n + 6) (some t2) = _ := numbers_step (n + 5) g2
  have s3 : numbers r (n + 5) (some t3) = _ := numbers_step (n + 4) g3
  have s4 : numbers r (n + 4) (some t4) = _ := numbers_step (n + 3) g4
  have s5 : numbers r (n + 3) (some t5) = _ := numbers_step (n + 2) g5
  have s6 : numbers r (n + 2) (some t6) = _ := numbers_step (n + 1) g6
  have s7 : numbers r (n + 1) (some t7) = _ := numbers_step n g7
  refine s0.trans ?_
  rw [s1, s2, s3, s4, s5, s6, s7]
  simp only [Option.map_map, Function.comp_def, t8]
  rfl

/-- **The trajectory file shows the logged poses (C84)**: it consists of exactly eight numbers for each logged pose, in
the order of the calls: time stamp, position, height zero, and the unit quaternion of the heading, each with six
significant digits. -/
theorem trajectory_file_reads (r : ℝ → ℝ) (ls : List Logged) :
    ∃ vs s, numbers r (8 * ls.length) (some (tumFile ls)) = some (vs.flatten, s) ∧
      List.Forall₂ (EntryReads r) ls vs ∧ (getDouble r s 0).2 = none := by
  have gen : ∀ (ls : List Logged) (pre : Str), (∀ c ∈ pre, isBlank c = true) →
      ∃ vs s, numbers r (8 * ls.length) (some (pre ++ tumFile ls)) = some (vs.flatten, s) ∧
        List.Forall₂ (EntryReads r) ls vs ∧ (getDouble r s 0).2 = none := by
    intro ls
    induction ls with
    | nil =>
      intro pre hpre
      refine ⟨[], some (pre ++ []), rfl, .nil, ?_⟩
      rw [List.append_nil, getDouble_end r 0 pre hpre]
    | cons l ls ih =>
      intro pre hpre
      obtain ⟨v, hv, hn⟩ := tum_entry r l pre (tumFile ls) hpre
      obtain ⟨vs, s, h, hf, he⟩ := ih ['\n'] (by decide)
      refine ⟨v :: vs, s, ?_, .cons hv hf, he⟩
      have := hn (8 * ls.length)
      rw [List.cons_append, List.nil_append] at h
      rw [h] at this
      rw [List.length_cons, show 8 * (ls.length + 1) = 8 * ls.length + 8 by ring]
      simpa [tumFile] using this
  simpa using gen ls [] (by simp)

/-- The quaternion written is the rotation by the heading: of unit length, and rotating the direction of the x axis by
it gives the heading. -/
theorem heading_quaternion (θ : ℝ) :
    let q := quaternionRPY 0 0 θ
    q.1 ^ 2 + q.2.1 ^ 2 + q.2.2.1 ^ 2 + q.2.2.2 ^ 2 = 1 ∧
    q.2.2.2 ^ 2 + q.1 ^ 2 - q.2.1 ^ 2 - q.2.2.1 ^ 2 = Real.cos θ ∧
    2 * (q.1 * q.2.1 + q.2.2.2 * q.2.2.1) = Real.sin θ := by
  have h : θ = 2 * (θ / 2) := by ring
  refine ⟨?_, ?_, ?_⟩
  · simp [quaternionRPY]
  · conv_rhs => rw [h, Real.cos_two_mul']
    simp [quaternionRPY]
  · conv_rhs => rw [h, Real.sin_two_mul]
    simp [quaternionRPY]; ring

/-- A concrete entry. -/
example : tumLine ⟨5, 100000000, 0, 0, 0⟩ = "5.100000000 0 0 0 0 0 0 1\n".toList := by
  have h1 : sixDigits (1 : ℝ) = (100000, 0) := by
    have hl : Int.log 10 |(1 : ℝ)| = 0 := by rw [abs_one, Int.log_one_right]
    have hq : halfEven (|(1 : ℝ)| / 10 ^ ((0 : ℤ) - 5)) = 100000 := by
      apply halfEven_eq; rw [abs_one]; norm_num [zpow_neg]
    simp only [sixDigits, hl, hq]
    rfl
  have hp : printDouble (1 : ℝ) = ['1'] := by
    unfold printDouble
    rw [if_neg one_ne_zero, h1, if_neg (by norm_num : ¬ (1 : ℝ) < 0)]
    decide +kernel
  have hq : quaternionRPY 0 0 0 = (0, 0, 0, 1) := by simp [quaternionRPY]
  have hn : printNat 5 = ['5'] ∧ printNat 100000000 = "100000000".toList := by decide +kernel
  simp only [tumLine, hq, hp, printDouble_zero, hn.1, hn.2]
  rfl

end Slam.Text
