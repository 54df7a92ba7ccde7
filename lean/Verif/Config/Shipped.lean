import Verif.Config.ShippedFiles
import Verif.Config.Assemble
import Verif.Config.Double
import Verif.Float.Round
import Mathlib.Algebra.Order.Archimedean.Real.Basic

/-!
# What the shipped configuration files say (C88)

The files are read by the model of `append_file_content` (`Config.append`) and assembled by that of `init_1h_slam`
(`Config.init1h`), the numbers by that of `std::stod` (`stodDec`) with any fair rounding.
-/

set_option autoImplicit false
set_option linter.unusedSectionVars false
namespace Slam.Config
open Slam.Float

/-- Specification: a rounding to doubles, as far as the numbers of the shipped files are concerned. -/
structure Fair (r : ℝ → ℝ) : Prop where
  mono : Monotone r
  zero : r 0 = 0
  one : r 1 = 1
  rel : ∀ v, 1 / 1024 ≤ |v| → |v| ≤ 1024 → |r v - v| ≤ |v| / 2 ^ 50

theorem fair_id : Fair id := ⟨monotone_id, rfl, rfl, fun v _ _ => by simp; positivity⟩

theorem fair_nearest {r : ℝ → ℝ} (R : Nearest r) : Fair r where
  mono _ _ h := R.mono h
  zero := R.fix isDouble_zero
  one := R.fix isDouble_one
  rel v h _ := by
    have h1 : (2 : ℝ) ^ (-1022 : ℤ) ≤ |v| := by
      refine le_trans ?_ h
      have : (2 : ℝ) ^ (-1022 : ℤ) ≤ 2 ^ (-10 : ℤ) := zpow_le_zpow_right₀ (by norm_num) (by norm_num)
      refine this.trans (by norm_num)
    refine (R.rel h1).trans ?_
    rw [mul_comm, div_eq_mul_inv]
    refine mul_le_mul_of_nonneg_left ?_ (abs_nonneg _)
    have : (2 : ℝ) ^ (-53 : ℤ) ≤ 2 ^ (-50 : ℤ) := zpow_le_zpow_right₀ (by norm_num) (by norm_num)
    refine this.trans (le_of_eq ?_)
    rw [zpow_neg]; norm_cast

/-- A text read exactly over the rationals is read as the rounded number. -/
theorem stod_of_exact {r : ℝ → ℝ} {s : Str} {q : ℚ} (h : stodDec (id : ℚ → ℚ) s = some q) (hr : ¬ outOfRange r (q : ℝ)) :
    stodDec r s = some (r q) := by
  unfold stodDec at h ⊢
  simp only at h ⊢
  generalize Text.takeSign (s.dropWhile isSpace) = a at h ⊢
  generalize a.2.takeWhile Text.isDig = i at h ⊢
  generalize Text.takeFrac (a.2.dropWhile Text.isDig) = f at h ⊢
  by_cases h1 : i ++ f.1 = []
  · rw [if_pos h1] at h; cases h
  rw [if_neg h1] at h ⊢
  by_cases h2 : outOfRange (id : ℚ → ℚ) (if a.1 = true then -((Text.natOf (i ++ f.1) : ℚ) * 10 ^ (((Text.takeExp f.2).map Prod.fst).getD 0 - (f.1.length : ℤ))) else (Text.natOf (i ++ f.1) : ℚ) * 10 ^ (((Text.takeExp f.2).map Prod.fst).getD 0 - (f.1.length : ℤ)))
  · rw [if_pos h2] at h; cases h
  rw [if_neg h2, Option.some.injEq] at h
  have e : (if a.1 = true then -((Text.natOf (i ++ f.1) : ℝ) * 10 ^ (((Text.takeExp f.2).map Prod.fst).getD 0 - (f.1.length : ℤ))) else (Text.natOf (i ++ f.1) : ℝ) * 10 ^ (((Text.takeExp f.2).map Prod.fst).getD 0 - (f.1.length : ℤ))) = (q : ℝ) := by
    rw [← h]
    by_cases h3 : a.1 = true
    · simp only [h3, if_true, id]; push_cast; rfl
    · simp only [h3, id]; push_cast; rfl
  rw [e, if_neg hr]

theorem Fair.in_range {r : ℝ → ℝ} (F : Fair r) {v : ℝ} (h : v = 0 ∨ (1 / 1024 ≤ |v| ∧ |v| ≤ 1024)) : ¬ outOfRange r v := by
  rcases h with rfl | ⟨h1, h2⟩
  · intro h
    unfold outOfRange at h
    rw [F.zero, abs_zero] at h
    rcases h with h | h
    · exact absurd h (not_le.2 (two_zpow_pos _))
    · exact h.2 rfl
  · have hr := F.rel v h1 h2
    have p : (2 : ℝ) ^ 50 ≥ 2 := by norm_num
    have hv := abs_nonneg v
    have h3 : |v| / 2 ^ 50 ≤ |v| / 2 := by
      apply div_le_div_of_nonneg_left hv (by norm_num) p
    have h4 := abs_sub_abs_le_abs_sub v (r v)
    have h5 := abs_sub_abs_le_abs_sub (r v) v
    rw [abs_sub_comm] at h4
    intro h
    unfold outOfRange at h
    have b1 : (2048 : ℝ) ≤ 2 ^ (1024 : ℤ) := by
      have : (2 : ℝ) ^ (11 : ℤ) ≤ 2 ^ (1024 : ℤ) := zpow_le_zpow_right₀ (by norm_num) (by norm_num)
      refine le_trans (by norm_num) this
    have b2 : (2 : ℝ) ^ (-1022 : ℤ) ≤ 1 / 2048 := by
      have : (2 : ℝ) ^ (-1022 : ℤ) ≤ 2 ^ (-11 : ℤ) := zpow_le_zpow_right₀ (by norm_num) (by norm_num)
      refine le_trans this (by norm_num)
    generalize (2 : ℝ) ^ (1024 : ℤ) = x at *
    generalize (2 : ℝ) ^ (-1022 : ℤ) = y at *
    generalize |v| / 2 ^ 50 = z at *
    rcases h with h | h
    · linarith
    · linarith [h.1]

/-- A number of a configuration file. -/
theorem Fair.reads {r : ℝ → ℝ} (F : Fair r) {s : Str} (q : ℚ) (h : stodDec (id : ℚ → ℚ) s = some q)
    (hq : (q : ℝ) = 0 ∨ (1 / 1024 ≤ |(q : ℝ)| ∧ |(q : ℝ)| ≤ 1024)) : stodDec r s = some (r q) :=
  stod_of_exact h (F.in_range hq)

/-- The properties a single-hypothesis SLAM has, and the one of its input that is read, as lists of characters. -/
def knownChars : List Str :=
  [chars% "slam/mapping/corrected_pose_quality",
    chars% "slam/mapping/raw_pose_quality",
    chars% "slam/map/height_in_meters",
    chars% "slam/map/width_in_meters",
    chars% "slam/map/meters_per_cell",
    chars% "slam/mapping/grid/type",
    chars% "slam/mapping/grid/area/type",
    chars% "slam/mapping/blur",
    chars% "slam/mapping/max_range",
    chars% "slam/mapping/observation_quality_estimator/typetype",
    chars% "slam/occupancy_estimator/type",
    chars% "slam/occupancy_estimator/base_occupied/prob",
    chars% "slam/occupancy_estimator/base_occupied/qual",
    chars% "slam/occupancy_estimator/base_empty/prob",
    chars% "slam/occupancy_estimator/base_empty/qual",
    chars% "slam/scmtch/type",
    chars% "slam/scmtch/use_amb_drift_detector",
    chars% "slam/scmtch/oie/type",
    chars% "slam/scmtch/oope/type",
    chars% "slam/scmtch/spe/type",
    chars% "slam/scmtch/spe/wmpp/weighting/type",
    chars% "slam/scmtch/spe/wmpp/sp_skip_rate",
    chars% "slam/scmtch/spe/wmpp/sp_max_usable_range",
    chars% "slam/scmtch/MC/dispersion/translation",
    chars% "slam/scmtch/MC/dispersion/rotation",
    chars% "slam/scmtch/MC/dispersion/failed_attempts_limit",
    chars% "slam/scmtch/MC/attempts_limit",
    chars% "slam/scmtch/MC/seed",
    chars% "slam/scmtch/HC/distortion/translation",
    chars% "slam/scmtch/HC/distortion/rotation",
    chars% "slam/scmtch/HC/distortion/failed_attempts_limit",
    chars% "slam/scmtch/HC/use_frame_alignement",
    chars% "slam/scmtch/BF/x/from",
    chars% "slam/scmtch/BF/x/to",
    chars% "slam/scmtch/BF/x/step",
    chars% "slam/scmtch/BF/y/from",
    chars% "slam/scmtch/BF/y/to",
    chars% "slam/scmtch/BF/y/step",
    chars% "slam/scmtch/BF/t/from",
    chars% "slam/scmtch/BF/t/to",
    chars% "slam/scmtch/BF/t/step",
    chars% "slam/scmtch/BF_M3RSM/accuracy/rotation",
    chars% "slam/scmtch/BF_M3RSM/accuracy/translation",
    chars% "slam/scmtch/BF_M3RSM/limits/x_translation",
    chars% "slam/scmtch/BF_M3RSM/limits/y_translation",
    chars% "slam/scmtch/BF_M3RSM/limits/rotation",
    chars% "in/lscan2D/skip_exceeding_vals"]

theorem known_chars : (knownProperties ++ ["in/lscan2D/skip_exceeding_vals"]).map String.toList = knownChars := by
  decide +kernel

/-- Specification: what config/bag_runner/tiny_mit.properties says, with all the files it includes (the properties that are read). -/
def tinyProps : List (Str × Str) :=
  [(chars% "slam/mapping/corrected_pose_quality", chars% "0.9"),
    (chars% "slam/mapping/raw_pose_quality", chars% "0.6"),
    (chars% "slam/map/height_in_meters", chars% "100"),
    (chars% "slam/map/width_in_meters", chars% "100"),
    (chars% "slam/map/meters_per_cell", chars% "0.1"),
    (chars% "slam/mapping/grid/type", chars% "unbounded_plain"),
    (chars% "slam/mapping/grid/area/type", chars% "mean_probability"),
    (chars% "slam/mapping/blur", chars% "0.5"),
    (chars% "slam/occupancy_estimator/type", chars% "const"),
    (chars% "slam/occupancy_estimator/base_occupied/prob", chars% "0.95"),
    (chars% "slam/occupancy_estimator/base_empty/prob", chars% "0.01"),
    (chars% "slam/scmtch/type", chars% "MC"),
    (chars% "slam/scmtch/spe/type", chars% "wmpp"),
    (chars% "slam/scmtch/spe/wmpp/weighting/type", chars% "even"),
    (chars% "slam/scmtch/MC/dispersion/translation", chars% "0.2"),
    (chars% "slam/scmtch/MC/dispersion/rotation", chars% "0.1"),
    (chars% "slam/scmtch/MC/dispersion/failed_attempts_limit", chars% "20"),
    (chars% "slam/scmtch/MC/attempts_limit", chars% "100")]

/-- Specification: what config/bag_runner/viny_mit.properties and config/bag_runner/viny_pr2.properties say. -/
def vinyProps : List (Str × Str) :=
  [(chars% "slam/mapping/corrected_pose_quality", chars% "0.9"),
    (chars% "slam/mapping/raw_pose_quality", chars% "0.6"),
    (chars% "slam/map/height_in_meters", chars% "10"),
    (chars% "slam/map/width_in_meters", chars% "10"),
    (chars% "slam/map/meters_per_cell", chars% "0.1"),
    (chars% "slam/mapping/grid/type", chars% "unbounded_plain"),
    (chars% "slam/mapping/grid/area/type", chars% "tbm_consistent"),
    (chars% "slam/mapping/blur", chars% "0.3"),
    (chars% "slam/occupancy_estimator/type", chars% "const"),
    (chars% "slam/occupancy_estimator/base_occupied/prob", chars% "0.95"),
    (chars% "slam/occupancy_estimator/base_occupied/qual", chars% "0.04"),
    (chars% "slam/occupancy_estimator/base_empty/prob", chars% "0.01"),
    (chars% "slam/occupancy_estimator/base_empty/qual", chars% "0.003"),
    (chars% "slam/scmtch/type", chars% "MC"),
    (chars% "slam/scmtch/spe/type", chars% "wmpp"),
    (chars% "slam/scmtch/spe/wmpp/weighting/type", chars% "viny"),
    (chars% "slam/scmtch/MC/dispersion/translation", chars% "0.2"),
    (chars% "slam/scmtch/MC/dispersion/rotation", chars% "0.1"),
    (chars% "slam/scmtch/MC/dispersion/failed_attempts_limit", chars% "20"),
    (chars% "slam/scmtch/MC/attempts_limit", chars% "100")]


theorem read_as {F : Files} {n : Nat} {p : Str} {l : List (Str × Str)}
    (h : ((append F n p Table.empty).map fun t => knownChars.map t) = some (knownChars.map fun k => l.lookup k)) :
    ∃ t, append F n p Table.empty = some t ∧
      ∀ k ∈ knownProperties ++ ["in/lscan2D/skip_exceeding_vals"], t k.toList = l.lookup k.toList := by
  rw [Option.map_eq_some_iff] at h
  obtain ⟨t, h1, h2⟩ := h
  refine ⟨t, h1, fun k hk => ?_⟩
  rw [List.map_inj_left] at h2
  apply h2
  rw [← known_chars]
  exact List.mem_map_of_mem hk

/-- **The shipped configuration of TinySLAM says what it seems to say (C88).** -/
theorem tiny_mit_read : ∃ t, append shipped 9 (chars% "config/bag_runner/tiny_mit.properties") Table.empty = some t ∧
    ∀ k ∈ knownProperties ++ ["in/lscan2D/skip_exceeding_vals"], t k.toList = tinyProps.lookup k.toList :=
  read_as (by decide +kernel)

/-- ... and so does that of vinySLAM (C88), for either dataset. -/
theorem viny_mit_read : ∃ t, append shipped 9 (chars% "config/bag_runner/viny_mit.properties") Table.empty = some t ∧
    ∀ k ∈ knownProperties ++ ["in/lscan2D/skip_exceeding_vals"], t k.toList = vinyProps.lookup k.toList :=
  read_as (by decide +kernel)

theorem viny_pr2_read : ∃ t, append shipped 9 (chars% "config/bag_runner/viny_pr2.properties") Table.empty = some t ∧
    ∀ k ∈ knownProperties ++ ["in/lscan2D/skip_exceeding_vals"], t k.toList = vinyProps.lookup k.toList :=
  read_as (by decide +kernel)

theorem Fair.ceil {r : ℝ → ℝ} (F : Fair r) {m : ℝ} (hm : m = 10 ∨ m = 100) :
    0 < r (1 / 10) ∧ 10 * m ≤ ⌈r m / r (1 / 10)⌉ ∧ ⌈r m / r (1 / 10)⌉ ≤ 10 * m + 1 := by
  have h1 := abs_le.1 (F.rel (1 / 10) (by norm_num [abs_of_pos]) (by norm_num [abs_of_pos]))
  have hm1 : 10 ≤ m ∧ m ≤ 100 := by rcases hm with rfl | rfl <;> norm_num
  have h2 := abs_le.1 (F.rel m (by rw [abs_of_pos (by linarith)]; linarith) (by rw [abs_of_pos (by linarith)]; linarith))
  rw [abs_of_pos (by norm_num : (0 : ℝ) < 1 / 10)] at h1
  rw [abs_of_pos (by linarith : 0 < m)] at h2
  have hp : 0 < r (1 / 10) := by norm_num at h1 ⊢; linarith
  have e : (m : ℝ) / 2 ^ 50 ≤ 1 / 2 ^ 30 := by
    rw [div_le_div_iff₀ (by positivity) (by positivity)]; nlinarith [hm1.2]
  have hq1 : 10 * m - 1 < r m / r (1 / 10) := by
    rw [lt_div_iff₀ hp]; norm_num at h1 h2 e ⊢; nlinarith
  have hq2 : r m / r (1 / 10) ≤ 10 * m + 1 := by
    rw [div_le_iff₀ hp]; norm_num at h1 h2 e ⊢; nlinarith
  refine ⟨hp, ?_, ?_⟩
  · rcases hm with rfl | rfl
    · have : (99 : ℤ) < ⌈r 10 / r (1 / 10)⌉ := by rw [Int.lt_ceil]; push_cast; linarith
      have : (100 : ℤ) ≤ ⌈r 10 / r (1 / 10)⌉ := by omega
      have := (Int.cast_le (R := ℝ)).2 this
      push_cast at this; linarith
    · have : (999 : ℤ) < ⌈r 100 / r (1 / 10)⌉ := by rw [Int.lt_ceil]; push_cast; linarith
      have : (1000 : ℤ) ≤ ⌈r 100 / r (1 / 10)⌉ := by omega
      have := (Int.cast_le (R := ℝ)).2 this
      push_cast at this; linarith
  · rcases hm with rfl | rfl
    · have : ⌈r 10 / r (1 / 10)⌉ ≤ (101 : ℤ) := by rw [Int.ceil_le]; push_cast; linarith
      have := (Int.cast_le (R := ℝ)).2 this
      push_cast at this; linarith
    · have : ⌈r 100 / r (1 / 10)⌉ ≤ (1001 : ℤ) := by rw [Int.ceil_le]; push_cast; linarith
      have := (Int.cast_le (R := ℝ)).2 this
      push_cast at this; linarith

theorem Fair.number {r : ℝ → ℝ} (F : Fair r) {s : Str} (q : ℚ) (v : ℝ) (h : stodDec (id : ℚ → ℚ) s = some q) (hv : (q : ℝ) = v)
    (hq : 1 / 1024 ≤ |v| ∧ |v| ≤ 1024) : stodDec r s = some (r v) := by
  subst hv
  exact F.reads q h (.inr hq)

/-- The numbers of the shipped files. -/
theorem Fair.numbers {r : ℝ → ℝ} (F : Fair r) :
    stodDec r (chars% "0.003") = some (r (3 / 1000)) ∧
    stodDec r (chars% "0.01") = some (r (1 / 100)) ∧
    stodDec r (chars% "0.04") = some (r (1 / 25)) ∧
    stodDec r (chars% "0.1") = some (r (1 / 10)) ∧
    stodDec r (chars% "0.2") = some (r (1 / 5)) ∧
    stodDec r (chars% "0.3") = some (r (3 / 10)) ∧
    stodDec r (chars% "0.5") = some (r (1 / 2)) ∧
    stodDec r (chars% "0.6") = some (r (3 / 5)) ∧
    stodDec r (chars% "0.9") = some (r (9 / 10)) ∧
    stodDec r (chars% "0.95") = some (r (19 / 20)) ∧
    stodDec r (chars% "10") = some (r (10)) ∧
    stodDec r (chars% "100") = some (r (100)) := by
  refine ⟨F.number (3 / 1000) _ (by decide +kernel) (by norm_num) ?_,
    F.number (1 / 100) _ (by decide +kernel) (by norm_num) ?_,
    F.number (1 / 25) _ (by decide +kernel) (by norm_num) ?_,
    F.number (1 / 10) _ (by decide +kernel) (by norm_num) ?_,
    F.number (1 / 5) _ (by decide +kernel) (by norm_num) ?_,
    F.number (3 / 10) _ (by decide +kernel) (by norm_num) ?_,
    F.number (1 / 2) _ (by decide +kernel) (by norm_num) ?_,
    F.number (3 / 5) _ (by decide +kernel) (by norm_num) ?_,
    F.number (9 / 10) _ (by decide +kernel) (by norm_num) ?_,
    F.number (19 / 20) _ (by decide +kernel) (by norm_num) ?_,
    F.number (10) _ (by decide +kernel) (by norm_num) ?_,
    F.number (100) _ (by decide +kernel) (by norm_num) ?_⟩
  all_goals norm_num [abs_of_pos]

/-- The properties of a list. -/
def listed (l : List (Str × Str)) : Table := fun k => l.lookup k

theorem params_of {r : ℝ → ℝ} (F : Fair r) {t : Table} {s : Str} {m : ℝ} (hm : m = 10 ∨ m = 100)
    (hs : stodDec r s = some (r m)) (h1 : t "slam/map/height_in_meters".toList = some s)
    (h2 : t "slam/map/width_in_meters".toList = some s) (h3 : t "slam/map/meters_per_cell".toList = some (chars% "0.1")) :
    ∃ n : Int, 10 * m ≤ n ∧ n ≤ 10 * m + 1 ∧ gridParams (stodDec r) t = some ⟨n, n, r (1 / 10)⟩ := by
  obtain ⟨hp, c1, c2⟩ := F.ceil hm
  obtain ⟨n, hn⟩ : ∃ n, n = ⌈r m / r (1 / 10)⌉ := ⟨_, rfl⟩
  rw [← hn] at c1 c2
  have b1 : (0 : ℤ) ≤ n := by
    have : (0 : ℝ) ≤ n := by rcases hm with rfl | rfl <;> linarith
    exact_mod_cast this
  have b2 : n ≤ 2000 := by
    have : (n : ℝ) ≤ 2000 := by rcases hm with rfl | rfl <;> linarith
    exact_mod_cast this
  have hi : toInt32 n = some n := by unfold toInt32; rw [if_pos]; constructor <;> linarith
  have h01 := F.reads (s := chars% "0.1") (1 / 10) (by decide +kernel) (Or.inr (by norm_num [abs_of_pos]))
  rw [show ((1 / 10 : ℚ) : ℝ) = 1 / 10 by norm_num] at h01
  refine ⟨n, c1, c2, ?_⟩
  unfold gridParams
  rw [getDbl, h1, getDbl, h2, getDbl, h3]
  simp only [hs, h01, Option.bind_some]
  rw [if_neg hp.ne', ← hn, hi]
  rfl

/-- Specification: the SLAM that config/slams/tiny_slam_base.properties describes; `n` is the size of the map in cells. -/
noncomputable def tinyWorld (r : ℝ → ℝ) (rnd : Nat) (n : Int) : World ℝ where
  localizedQuality := r (9 / 10)
  rawQuality := r (3 / 5)
  margin := 0
  map := ⟨.unboundedPlain, none, .mean, ⟨n, n, r (1 / 10)⟩⟩
  matcher := ⟨.monteCarlo (unsignedToInt rnd) (r (1 / 5)) (r (1 / 10)) 20 100, ⟨.std .obstacle .discrepancy, .even, 0, -1⟩, false⟩
  adder := ⟨false, r (19 / 20), 1, r (1 / 100), 1, false, r (1 / 2), none⟩

theorem tiny_world {r : ℝ → ℝ} (F : Fair r) (rad : ℝ) (rnd : Nat) :
    ∃ n : Int, 1000 ≤ n ∧ n ≤ 1001 ∧ init1h (stodDec r) rad rnd (listed tinyProps) = some (tinyWorld r rnd n) := by
  obtain ⟨m0, m1, m2, m3, m4, m5, m6, m7, m8, m9, m10, m11⟩ := F.numbers
  obtain ⟨n, c1, c2, hp⟩ := params_of F (t := listed tinyProps) (m := 100) (.inr rfl) m11 (by decide +kernel) (by decide +kernel)
    (by decide +kernel)
  have c1 : (1000 : ℤ) ≤ n := by exact_mod_cast (by linarith : (1000 : ℝ) ≤ n)
  have c2 : n ≤ (1001 : ℤ) := by exact_mod_cast (by linarith : (n : ℝ) ≤ 1001)
  refine ⟨n, c1, c2, (assembled_as_configured _ _ _ _ _).2 ?_⟩
  refine ⟨Or.inr ⟨chars% "0.9", by decide +kernel, m8⟩, Or.inr ⟨chars% "0.6", by decide +kernel, m7⟩, rfl, ⟨("mean_probability", .mean), by simp, Or.inr (by decide +kernel), rfl⟩,
    ⟨⟨("unbounded_plain", .unboundedPlain), by simp, Or.inr (by decide +kernel), rfl⟩, Or.inr ⟨?_, rfl⟩, hp⟩,
    ⟨⟨.obstacle, .discrepancy, rfl, ⟨("discrepancy", .discrepancy), by simp, Or.inl ⟨by decide +kernel, rfl⟩, rfl⟩,
        ("obstacle", .obstacle), by simp, Or.inl ⟨by decide +kernel, rfl⟩, rfl⟩,
      ⟨Or.inr (by decide +kernel), ⟨("even", .even), by simp, Or.inr (by decide +kernel), rfl⟩, Or.inl ⟨by decide +kernel, rfl⟩,
        Or.inl ⟨by decide +kernel, rfl⟩⟩,
      .monteCarlo _ _ _ _ _ (Or.inr (by decide +kernel)) (Or.inr ⟨chars% "0.2", by decide +kernel, m4⟩) (Or.inr ⟨chars% "0.1", by decide +kernel, m3⟩)
        (Or.inr ⟨chars% "20", 20, by decide +kernel, by decide +kernel, rfl⟩)
        (Or.inr ⟨chars% "100", 100, by decide +kernel, by decide +kernel, rfl⟩) (Or.inl ⟨by decide +kernel, rfl⟩),
      Or.inl ⟨by decide +kernel, rfl⟩⟩,
    ⟨⟨("const", false), by simp, Or.inr (by decide +kernel), rfl⟩, Or.inr ⟨chars% "0.95", by decide +kernel, m9⟩, Or.inl ⟨by decide +kernel, rfl⟩,
      Or.inr ⟨chars% "0.01", by decide +kernel, m1⟩, Or.inl ⟨by decide +kernel, rfl⟩, ⟨("idle", false), by simp, Or.inl ⟨by decide +kernel, rfl⟩, rfl⟩,
      Or.inr ⟨chars% "0.5", by decide +kernel, m6⟩, Or.inl ⟨by decide +kernel, rfl⟩⟩⟩
  rintro (⟨h, -⟩ | h) <;> revert h <;> decide +kernel

/-- Specification: the SLAM that config/slams/viny_slam_base.properties describes; `n` is the size of the map in cells. -/
noncomputable def vinyWorld (r : ℝ → ℝ) (rnd : Nat) (n : Int) : World ℝ where
  localizedQuality := r (9 / 10)
  rawQuality := r (3 / 5)
  margin := 0
  map := ⟨.unboundedPlain, none, .tbmConsistent, ⟨n, n, r (1 / 10)⟩⟩
  matcher := ⟨.monteCarlo (unsignedToInt rnd) (r (1 / 5)) (r (1 / 10)) 20 100, ⟨.std .obstacle .discrepancy, .viny, 0, -1⟩, false⟩
  adder := ⟨false, r (19 / 20), r (1 / 25), r (1 / 100), r (3 / 1000), false, r (3 / 10), none⟩

theorem viny_world {r : ℝ → ℝ} (F : Fair r) (rad : ℝ) (rnd : Nat) :
    ∃ n : Int, 100 ≤ n ∧ n ≤ 101 ∧ init1h (stodDec r) rad rnd (listed vinyProps) = some (vinyWorld r rnd n) := by
  obtain ⟨m0, m1, m2, m3, m4, m5, m6, m7, m8, m9, m10, m11⟩ := F.numbers
  obtain ⟨n, c1, c2, hp⟩ := params_of F (t := listed vinyProps) (m := 10) (.inl rfl) m10 (by decide +kernel) (by decide +kernel)
    (by decide +kernel)
  have c1 : (100 : ℤ) ≤ n := by exact_mod_cast (by linarith : (100 : ℝ) ≤ n)
  have c2 : n ≤ (101 : ℤ) := by exact_mod_cast (by linarith : (n : ℝ) ≤ 101)
  refine ⟨n, c1, c2, (assembled_as_configured _ _ _ _ _).2 ?_⟩
  refine ⟨Or.inr ⟨chars% "0.9", by decide +kernel, m8⟩, Or.inr ⟨chars% "0.6", by decide +kernel, m7⟩, rfl, ⟨("tbm_consistent", .tbmConsistent), by simp, Or.inr (by decide +kernel), rfl⟩,
    ⟨⟨("unbounded_plain", .unboundedPlain), by simp, Or.inr (by decide +kernel), rfl⟩, Or.inr ⟨?_, rfl⟩, hp⟩,
    ⟨⟨.obstacle, .discrepancy, rfl, ⟨("discrepancy", .discrepancy), by simp, Or.inl ⟨by decide +kernel, rfl⟩, rfl⟩,
        ("obstacle", .obstacle), by simp, Or.inl ⟨by decide +kernel, rfl⟩, rfl⟩,
      ⟨Or.inr (by decide +kernel), ⟨("viny", .viny), by simp, Or.inr (by decide +kernel), rfl⟩, Or.inl ⟨by decide +kernel, rfl⟩,
        Or.inl ⟨by decide +kernel, rfl⟩⟩,
      .monteCarlo _ _ _ _ _ (Or.inr (by decide +kernel)) (Or.inr ⟨chars% "0.2", by decide +kernel, m4⟩) (Or.inr ⟨chars% "0.1", by decide +kernel, m3⟩)
        (Or.inr ⟨chars% "20", 20, by decide +kernel, by decide +kernel, rfl⟩)
        (Or.inr ⟨chars% "100", 100, by decide +kernel, by decide +kernel, rfl⟩) (Or.inl ⟨by decide +kernel, rfl⟩),
      Or.inl ⟨by decide +kernel, rfl⟩⟩,
    ⟨⟨("const", false), by simp, Or.inr (by decide +kernel), rfl⟩, Or.inr ⟨chars% "0.95", by decide +kernel, m9⟩, Or.inr ⟨chars% "0.04", by decide +kernel, m2⟩,
      Or.inr ⟨chars% "0.01", by decide +kernel, m1⟩, Or.inr ⟨chars% "0.003", by decide +kernel, m0⟩, ⟨("idle", false), by simp, Or.inl ⟨by decide +kernel, rfl⟩, rfl⟩,
      Or.inr ⟨chars% "0.3", by decide +kernel, m5⟩, Or.inl ⟨by decide +kernel, rfl⟩⟩⟩
  rintro (⟨h, -⟩ | h) <;> revert h <;> decide +kernel

/-! ## Other matchers on the configuration of TinySLAM -/

/-- TinySLAM's configuration with the type of the matcher replaced. -/
def withMatcher (type : Str) : List (Str × Str) := (chars% "slam/scmtch/type", type) :: tinyProps

/-- Hill climbing, with its default parameters. -/
theorem tiny_hc_world {r : ℝ → ℝ} (F : Fair r) (rad : ℝ) (rnd : Nat) :
    ∃ n : Int, 1000 ≤ n ∧ n ≤ 1001 ∧ init1h (stodDec r) rad rnd (listed (withMatcher (chars% "HC"))) = some ({ tinyWorld r rnd n with matcher := ⟨.hillClimbing 6 (1 / 10) (1 / 10) false, ⟨.std .obstacle .discrepancy, .even, 0, -1⟩, false⟩ }) := by
  obtain ⟨m0, m1, m2, m3, m4, m5, m6, m7, m8, m9, m10, m11⟩ := F.numbers
  obtain ⟨n, c1, c2, hp⟩ := params_of F (t := listed (withMatcher (chars% "HC"))) (m := 100) (.inr rfl) m11 (by decide +kernel) (by decide +kernel)
    (by decide +kernel)
  have c1 : (1000 : ℤ) ≤ n := by exact_mod_cast (by linarith : (1000 : ℝ) ≤ n)
  have c2 : n ≤ (1001 : ℤ) := by exact_mod_cast (by linarith : (n : ℝ) ≤ 1001)
  refine ⟨n, c1, c2, (assembled_as_configured _ _ _ _ _).2 ?_⟩
  refine ⟨Or.inr ⟨chars% "0.9", by decide +kernel, m8⟩, Or.inr ⟨chars% "0.6", by decide +kernel, m7⟩, rfl, ⟨("mean_probability", .mean), by simp, Or.inr (by decide +kernel), rfl⟩,
    ⟨⟨("unbounded_plain", .unboundedPlain), by simp, Or.inr (by decide +kernel), rfl⟩, Or.inr ⟨?_, rfl⟩, hp⟩,
    ⟨⟨.obstacle, .discrepancy, rfl, ⟨("discrepancy", .discrepancy), by simp, Or.inl ⟨by decide +kernel, rfl⟩, rfl⟩,
        ("obstacle", .obstacle), by simp, Or.inl ⟨by decide +kernel, rfl⟩, rfl⟩,
      ⟨Or.inr (by decide +kernel), ⟨("even", .even), by simp, Or.inr (by decide +kernel), rfl⟩, Or.inl ⟨by decide +kernel, rfl⟩,
        Or.inl ⟨by decide +kernel, rfl⟩⟩,
      .hillClimbing _ _ _ _ (Or.inr (by decide +kernel)) (Or.inl ⟨by decide +kernel, rfl⟩) (Or.inl ⟨by decide +kernel, rfl⟩) (Or.inl ⟨by decide +kernel, rfl⟩) (Or.inl ⟨by decide +kernel, rfl⟩),
      Or.inl ⟨by decide +kernel, rfl⟩⟩,
    ⟨⟨("const", false), by simp, Or.inr (by decide +kernel), rfl⟩, Or.inr ⟨chars% "0.95", by decide +kernel, m9⟩, Or.inl ⟨by decide +kernel, rfl⟩,
      Or.inr ⟨chars% "0.01", by decide +kernel, m1⟩, Or.inl ⟨by decide +kernel, rfl⟩, ⟨("idle", false), by simp, Or.inl ⟨by decide +kernel, rfl⟩, rfl⟩,
      Or.inr ⟨chars% "0.5", by decide +kernel, m6⟩, Or.inl ⟨by decide +kernel, rfl⟩⟩⟩
  rintro (⟨h, -⟩ | h) <;> revert h <;> decide +kernel

/-- Brute force, with its default parameters. -/
theorem tiny_bf_world {r : ℝ → ℝ} (F : Fair r) (rad : ℝ) (rnd : Nat) :
    ∃ n : Int, 1000 ≤ n ∧ n ≤ 1001 ∧ init1h (stodDec r) rad rnd (listed (withMatcher (chars% "BF"))) = some ({ tinyWorld r rnd n with matcher := ⟨.bruteForce ⟨-(1 / 2), 1 / 2, 1 / 10⟩ ⟨-(1 / 2), 1 / 2, 1 / 10⟩ ⟨-(5 * rad), 5 * rad, rad⟩, ⟨.std .obstacle .discrepancy, .even, 0, -1⟩, false⟩ }) := by
  obtain ⟨m0, m1, m2, m3, m4, m5, m6, m7, m8, m9, m10, m11⟩ := F.numbers
  obtain ⟨n, c1, c2, hp⟩ := params_of F (t := listed (withMatcher (chars% "BF"))) (m := 100) (.inr rfl) m11 (by decide +kernel) (by decide +kernel)
    (by decide +kernel)
  have c1 : (1000 : ℤ) ≤ n := by exact_mod_cast (by linarith : (1000 : ℝ) ≤ n)
  have c2 : n ≤ (1001 : ℤ) := by exact_mod_cast (by linarith : (n : ℝ) ≤ 1001)
  refine ⟨n, c1, c2, (assembled_as_configured _ _ _ _ _).2 ?_⟩
  refine ⟨Or.inr ⟨chars% "0.9", by decide +kernel, m8⟩, Or.inr ⟨chars% "0.6", by decide +kernel, m7⟩, rfl, ⟨("mean_probability", .mean), by simp, Or.inr (by decide +kernel), rfl⟩,
    ⟨⟨("unbounded_plain", .unboundedPlain), by simp, Or.inr (by decide +kernel), rfl⟩, Or.inr ⟨?_, rfl⟩, hp⟩,
    ⟨⟨.obstacle, .discrepancy, rfl, ⟨("discrepancy", .discrepancy), by simp, Or.inl ⟨by decide +kernel, rfl⟩, rfl⟩,
        ("obstacle", .obstacle), by simp, Or.inl ⟨by decide +kernel, rfl⟩, rfl⟩,
      ⟨Or.inr (by decide +kernel), ⟨("even", .even), by simp, Or.inr (by decide +kernel), rfl⟩, Or.inl ⟨by decide +kernel, rfl⟩,
        Or.inl ⟨by decide +kernel, rfl⟩⟩,
      .bruteForce _ _ _ (Or.inr (by decide +kernel)) ⟨Or.inl ⟨by decide +kernel, rfl⟩, Or.inl ⟨by decide +kernel, rfl⟩, Or.inl ⟨by decide +kernel, rfl⟩⟩ ⟨Or.inl ⟨by decide +kernel, rfl⟩, Or.inl ⟨by decide +kernel, rfl⟩, Or.inl ⟨by decide +kernel, rfl⟩⟩ ⟨Or.inl ⟨by decide +kernel, rfl⟩, Or.inl ⟨by decide +kernel, rfl⟩, Or.inl ⟨by decide +kernel, rfl⟩⟩,
      Or.inl ⟨by decide +kernel, rfl⟩⟩,
    ⟨⟨("const", false), by simp, Or.inr (by decide +kernel), rfl⟩, Or.inr ⟨chars% "0.95", by decide +kernel, m9⟩, Or.inl ⟨by decide +kernel, rfl⟩,
      Or.inr ⟨chars% "0.01", by decide +kernel, m1⟩, Or.inl ⟨by decide +kernel, rfl⟩, ⟨("idle", false), by simp, Or.inl ⟨by decide +kernel, rfl⟩, rfl⟩,
      Or.inr ⟨chars% "0.5", by decide +kernel, m6⟩, Or.inl ⟨by decide +kernel, rfl⟩⟩⟩
  rintro (⟨h, -⟩ | h) <;> revert h <;> decide +kernel

/-! ## C88: findings -/

theorem no_cell_type {K : Type*} [Field K] [LinearOrder K] [IsStrictOrderedRing K] [FloorRing K] (stod : Str → Option K) (rad : K)
    (rnd : Nat) {t : Table} (h : t "slam/mapping/grid/area/type".toList = none) : init1h stod rad rnd t = none := by
  cases e : init1h stod rad rnd t with
  | none => rfl
  | some w =>
    obtain ⟨p, hp, h1, -⟩ := ((assembled_as_configured stod rad rnd t w).1 e).cell
    rcases h1 with ⟨-, h1⟩ | h1
    · simp only [List.mem_cons, List.not_mem_nil, or_false] at hp
      rcases hp with rfl | rfl | rfl | rfl <;> exact absurd h1 (by decide)
    · rw [h] at h1; cases h1

/-- The experimental configuration of vinySLAM names no type of cells, and no shipped file adds it: the program does not
start with it. -/
theorem viny_experimental_counterexample {K : Type*} [Field K] [LinearOrder K] [IsStrictOrderedRing K] [FloorRing K]
    (stod : Str → Option K) (rad : K) (rnd : Nat) :
    ∃ t, append shipped 9 (chars% "config/slams/viny_slam_experimental.properties") Table.empty = some t ∧
      init1h stod rad rnd t = none := by
  have h : ((append shipped 9 (chars% "config/slams/viny_slam_experimental.properties") Table.empty).map fun t =>
      t (chars% "slam/mapping/grid/area/type")) = some none := by decide +kernel
  rw [Option.map_eq_some_iff] at h
  obtain ⟨t, h1, h2⟩ := h
  refine ⟨t, h1, no_cell_type stod rad rnd ?_⟩
  have e : "slam/mapping/grid/area/type".toList = chars% "slam/mapping/grid/area/type" := by decide +kernel
  rw [e]; exact h2

/-- The shipped configuration of GMapping does not say how a scan is scored: the program does not start with it. -/
theorem gmapping_mit_counterexample {K : Type*} [Field K] [LinearOrder K] [IsStrictOrderedRing K] [FloorRing K]
    (stod : Str → Option K) :
    ∃ t, append shipped 9 (chars% "config/bag_runner/gmapping_mit.properties") Table.empty = some t ∧
      initGmapping stod t = none := by
  have h : ((append shipped 9 (chars% "config/bag_runner/gmapping_mit.properties") Table.empty).map fun t =>
      t (chars% "slam/scmtch/spe/type")) = some none := by decide +kernel
  rw [Option.map_eq_some_iff] at h
  obtain ⟨t, h1, h2⟩ := h
  refine ⟨t, h1, ?_⟩
  have e : "slam/scmtch/spe/type".toList = chars% "slam/scmtch/spe/type" := by decide +kernel
  have h3 : t "slam/scmtch/spe/type".toList = none := by rw [e]; exact h2
  have h4 : ∀ o : OopeCfg K, initSpeWith stod t o = none := by
    intro o
    unfold initSpeWith getStr
    rw [h3]
    simp only [Option.getD_none]
    rw [if_neg (by decide)]
  have h5 : initGmappingSpe stod t = none := by
    unfold initGmappingSpe
    simp only [h4]
    split
    · cases getDbl stod t "slam/scmtch/oope/custom/fullness_threshold".toList (1 / 10) with
      | none => rfl
      | some a =>
        cases getUint t "slam/scmtch/oope/cutrom/window_size".toList 1 with
        | none => rfl
        | some b => rfl
    · rfl
  unfold initGmapping
  rw [h5]
  cases gridParams stod t <;> rfl

/-- The paths: an include is resolved relative to the file that contains it. -/
example : canon (chars% "config/bag_runner/../slams/./tiny") = canon (chars% "config/slams/tiny") ∧
    shipped.resolve (chars% "config/bag_runner/tiny_mit.properties") (chars% "../slams/x") =
      chars% "config/bag_runner/../slams/x" := by decide +kernel

end Slam.Config
