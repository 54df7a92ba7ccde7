import Verif.Config.ProviderProps
import Verif.Config.Shipped
import Verif.Config.Launch

/-!
# C98 for the shipped launch files

launch/1h_config_common.launch, launch/gmapping_mit_run.launch, launch/credibilist_mit_run.launch and
launch/gmapping_wg_pr2_run.launch. `roslaunch` gives a parameter the type its value looks like: integer, number, truth value, else text.
-/

set_option autoImplicit false
set_option linter.unusedSectionVars false

namespace Slam.Config
open Slam.Float

/-- The parameters of a launch file: name, value with its type, value as written. -/
abbrev Rows := List (String × Param ℝ × Str)

def Rows.server (rows : Rows) : Server ℝ := fun k => (rows.find? fun r => decide (r.1.toList = k)).map fun r => r.2.1

def Rows.table (rows : Rows) : Table := fun k => (rows.find? fun r => decide (r.1.toList = k)).map fun r => r.2.2

theorem Rows.server_at (rows : Rows) (k : String) : rows.server k.toList = (rows.find? fun r => decide (r.1 = k)).map fun r => r.2.1 := by
  simp only [Rows.server, String.toList_inj]

theorem Rows.table_at (rows : Rows) (k : String) : rows.table k.toList = (rows.find? fun r => decide (r.1 = k)).map fun r => r.2.2 := by
  simp only [Rows.table, String.toList_inj]

/-- The texts alone count for the table. -/
theorem Rows.table_listed (rows : Rows) : rows.table = listed (rows.map fun x => (x.1.toList, x.2.2)) := by
  funext k
  induction rows with
  | nil => rfl
  | cons x l ih =>
    simp only [Rows.table, listed, List.find?_cons, List.map_cons, List.lookup_cons] at ih ⊢
    by_cases h : x.1.toList = k
    · subst h; simp
    · have h' : (k == x.1.toList) = false := by simpa using fun e => h e.symm
      simp only [h, decide_false, h']
      exact ih

/-- launch/1h_config_common.launch:11-15 (also launch/1h_config_wg.launch), with the default of its argument. -/
def commonRows : Rows :=
  [("slam/config", .str (chars% "config/slams/viny_slam_base.properties"), chars% "config/slams/viny_slam_base.properties"),
    ("in/lscan2D/ros/topic/name", .str (chars% "/base_scan"), chars% "/base_scan"),
    ("in/odometry/ros/tf/odom_frame_id", .str (chars% "odom_combined"), chars% "odom_combined")]

/-- launch/gmapping_mit_run.launch:11-51; a `double` is the rounded value of the text. -/
noncomputable def mitRows (r : ℝ → ℝ) : Rows :=
  [("slam/map/height_in_meters", .int 128, chars% "128"),
    ("slam/map/width_in_meters", .int 128, chars% "128"),
    ("slam/map/meters_per_cell", .dbl (r (1 / 20)), chars% "0.05"),
    ("ros/tf/buffer_duration", .dbl (r 5), chars% "5.0"),
    ("ros/filter_queue_size", .int 10, chars% "10"),
    ("ros/subscribers_queue_size", .int 10, chars% "10"),
    ("slam/particles/number", .int 20, chars% "20"),
    ("slam/particles/sample/xy/mean", .dbl (r 0), chars% "0.0"),
    ("slam/particles/sample/xy/sigma", .dbl (r (1 / 10)), chars% "0.1"),
    ("slam/particles/sample/theta/mean", .dbl (r 0), chars% "0.0"),
    ("slam/particles/sample/theta/sigma", .dbl (r (3 / 100)), chars% "0.03"),
    ("slam/particles/sm_delta_lim/xy/min", .dbl (r (3 / 5)), chars% "0.6"),
    ("slam/particles/sm_delta_lim/xy/max", .dbl (r (4 / 5)), chars% "0.8"),
    ("slam/particles/sm_delta_lim/theta/min", .dbl (r (3 / 10)), chars% "0.3"),
    ("slam/particles/sm_delta_lim/theta/max", .dbl (r (2 / 5)), chars% "0.4"),
    ("slam/scmtch/spe/type", .str (chars% "wmpp"), chars% "wmpp"),
    ("slam/scmtch/spe/wmpp/weighting/type", .str (chars% "even"), chars% "even"),
    ("slam/scmtch/spe/wmpp/sp_skip_rate", .int 3, chars% "3"),
    ("slam/scmtch/oope/type", .str (chars% "custom"), chars% "custom"),
    ("slam/scmtch/oope/custom/fullness_threshold", .dbl (r (1 / 10)), chars% "0.1"),
    ("slam/scmtch/oope/custom/window_size", .int 1, chars% "1"),
    ("in/lscan2D/ros/topic/name", .str (chars% "/base_scan"), chars% "/base_scan"),
    ("in/lscan2D/skip_exceeding_vals", .bool true, chars% "true"),
    ("in/odometry/ros/tf/odom_frame_id", .str (chars% "odom_combined"), chars% "odom_combined"),
    ("ros/tf/async_correction", .bool true, chars% "true"),
    ("ros/rviz/map_publishing_rate", .dbl (r 5), chars% "5.0"),
    ("slam/mapping/blur", .dbl (r 0), chars% "0.0"),
    ("slam/mapping/max_range", .dbl (r 60), chars% "60.0")]

/-- launch/credibilist_mit_run.launch:10-29. -/
noncomputable def credibilistRows (r : ℝ → ℝ) : Rows :=
  [("slam/mapping/blur", .dbl (r (1 / 10)), chars% "0.1"),
    ("slam/occupancy_estimator/type", .str (chars% "const"), chars% "const"),
    ("slam/occupancy_estimator/base_occupied/prob", .dbl (r (19 / 20)), chars% "0.95"),
    ("slam/occupancy_estimator/base_empty/prob", .dbl (r (1 / 100)), chars% "0.01"),
    ("slam/mapping/grid/type", .str (chars% "unbounded_plain"), chars% "unbounded_plain"),
    ("slam/map/height_in_meters", .int 100, chars% "100"),
    ("slam/map/width_in_meters", .int 100, chars% "100"),
    ("slam/map/meters_per_cell", .dbl (r (1 / 20)), chars% "0.05"),
    ("slam/scmtch/type", .str (chars% "HC"), chars% "HC"),
    ("slam/scmtch/spe/type", .str (chars% "wmpp"), chars% "wmpp"),
    ("slam/scmtch/spe/wmpp/weighting/type", .str (chars% "even"), chars% "even"),
    ("in/lscan2D/ros/topic/name", .str (chars% "/base_scan"), chars% "/base_scan"),
    ("in/odometry/ros/tf/odom_frame_id", .str (chars% "odom_combined"), chars% "odom_combined")]

/-- launch/gmapping_wg_pr2_run.launch:9-17. -/
def wgRows : Rows :=
  [("slam/particles/number", .int 30, chars% "30"),
    ("in/lscan2D/ros/topic/name", .str (chars% "/base_scan"), chars% "/base_scan"),
    ("in/odometry/ros/tf/odom_frame_id", .str (chars% "odom_combined"), chars% "odom_combined"),
    ("ros/tf/async_correction", .bool true, chars% "true"),
    ("ros/tf/map_frame_id", .str (chars% "map"), chars% "map")]

theorem Fair.more {r : ℝ → ℝ} (F : Fair r) :
    stodDec r (chars% "0.0") = some (r 0) ∧ stodDec r (chars% "0.03") = some (r (3 / 100)) ∧
    stodDec r (chars% "0.05") = some (r (1 / 20)) ∧ stodDec r (chars% "0.4") = some (r (2 / 5)) ∧
    stodDec r (chars% "0.8") = some (r (4 / 5)) ∧ stodDec r (chars% "60.0") = some (r 60) ∧
    stodDec r (chars% "128") = some (r 128) := by
  refine ⟨?_, F.number (3 / 100) _ (by decide +kernel) (by norm_num) ?_, F.number (1 / 20) _ (by decide +kernel) (by norm_num) ?_,
    F.number (2 / 5) _ (by decide +kernel) (by norm_num) ?_, F.number (4 / 5) _ (by decide +kernel) (by norm_num) ?_,
    F.number 60 _ (by decide +kernel) (by norm_num) ?_, F.number 128 _ (by decide +kernel) (by norm_num) ?_⟩
  · have := F.reads (s := chars% "0.0") 0 (by decide +kernel) (.inl (by norm_num))
    simpa using this
  all_goals norm_num [abs_of_pos]

/-- The size in cells of a square map of whole metres with cells of 5 centimetres. -/
theorem Fair.ceil20 {r : ℝ → ℝ} (F : Fair r) {m : ℕ} (hm : 1 ≤ m ∧ m ≤ 1024) :
    0 < r (1 / 20) ∧ 20 * (m : ℤ) ≤ ⌈(m : ℝ) / r (1 / 20)⌉ ∧ ⌈(m : ℝ) / r (1 / 20)⌉ ≤ 20 * (m : ℤ) + 1 := by
  have h1 := abs_le.1 (F.rel (1 / 20) (by norm_num [abs_of_pos]) (by norm_num [abs_of_pos]))
  have hm1 : (1 : ℝ) ≤ m ∧ (m : ℝ) ≤ 1024 := by exact_mod_cast hm
  rw [abs_of_pos (by norm_num : (0 : ℝ) < 1 / 20)] at h1
  have hp : 0 < r (1 / 20) := by norm_num at h1 ⊢; linarith
  have hq1 : 20 * (m : ℝ) - 1 < m / r (1 / 20) := by
    rw [lt_div_iff₀ hp]; norm_num at h1 ⊢; nlinarith
  have hq2 : (m : ℝ) / r (1 / 20) ≤ 20 * m + 1 := by
    rw [div_le_iff₀ hp]; norm_num at h1 ⊢; nlinarith
  refine ⟨hp, ?_, ?_⟩
  · have : 20 * (m : ℤ) - 1 < ⌈(m : ℝ) / r (1 / 20)⌉ := by rw [Int.lt_ceil]; push_cast; exact hq1
    omega
  · rw [Int.ceil_le]; push_cast; exact hq2

theorem params_of20 {r : ℝ → ℝ} (R : Nearest r) {t : Table} {s : Str} {m : ℕ} (hm : 1 ≤ m ∧ m ≤ 1024) (hs : stodDec r s = some (r m))
    (h1 : t "slam/map/height_in_meters".toList = some s)
    (h2 : t "slam/map/width_in_meters".toList = some s) (h3 : t "slam/map/meters_per_cell".toList = some (chars% "0.05")) :
    ∃ n : Int, 20 * (m : ℤ) ≤ n ∧ n ≤ 20 * (m : ℤ) + 1 ∧ gridParams (stodDec r) t = some ⟨n, n, r (1 / 20)⟩ := by
  have F := fair_nearest R
  obtain ⟨hp, c1, c2⟩ := F.ceil20 hm
  have e : r (m : ℝ) = m := R.fix (isDouble_nat (by have := hm.2; omega))
  rw [e] at hs
  have hi : toInt32 ⌈(m : ℝ) / r (1 / 20)⌉ = some ⌈(m : ℝ) / r (1 / 20)⌉ := by unfold toInt32; rw [if_pos]; constructor <;> omega
  refine ⟨_, c1, c2, ?_⟩
  unfold gridParams
  rw [getDbl, h1, getDbl, h2, getDbl, h3]
  simp only [hs, F.more.2.2.1, Option.bind_some]
  rw [if_neg hp.ne', hi]
  rfl

/-! ## The single-hypothesis node -/

def allKeys : List String := textKeys ++ numberKeys ++ countKeys ++ integerKeys ++ truthKeys

theorem common_silent : ∀ k ∈ allKeys, commonRows.server k.toList = none := by
  intro k hk
  rw [Rows.server_at, Option.map_eq_none_iff, List.find?_eq_none]
  have : ∀ k ∈ allKeys, ∀ x ∈ commonRows.map fun x => x.1, x ≠ k := by decide +kernel
  intro x hx
  simpa using this k hk _ (List.mem_map_of_mem hx)

/-- The node of launch/1h_config_common.launch: its properties, and that it makes the SLAM of `vinyProps`. -/
theorem common_node {r : ℝ → ℝ} (round : ℝ → Int) (rad : ℝ) (rnd : Nat) (names : Table → List Str)
    (hn : ∀ p t, append shipped 9 p Table.empty = some t → ∀ k, k ∈ names t ↔ t k ≠ none) :
    ∃ srv t, nodeInit shipped 9 names commonRows.server = some srv ∧
      append shipped 9 (chars% "config/slams/viny_slam_base.properties") Table.empty = some t ∧
      (∀ k, srv k = match t k with
        | some v => some (.str v)
        | none => commonRows.server k) ∧
      Provider.init1h rad rnd (.ofServer round (stodDec r) srv) = init1h (stodDec r) rad rnd (listed vinyProps) := by
  obtain ⟨t, h1, h2⟩ := read_as (F := shipped) (n := 9) (p := chars% "config/slams/viny_slam_base.properties") (l := vinyProps) (by decide +kernel)
  have h3 : ((append shipped 9 (chars% "config/slams/viny_slam_base.properties") Table.empty).map fun t => allKeys.map fun k => t k.toList) =
      some (allKeys.map fun k => vinyProps.lookup k.toList) := by decide +kernel
  rw [h1, Option.map_some, Option.some.injEq, List.map_inj_left] at h3
  have e : launchStr commonRows.server "slam/config".toList [] = chars% "config/slams/viny_slam_base.properties" := by
    rw [launchStr, paramStr, Rows.server_at]
    simp only [commonRows, List.find?_cons]
    rfl
  refine ⟨nodeServer commonRows.server t (names t), t, ?_, h1, fun k => node_properties _ t _ (hn _ t h1) k, ?_⟩
  · unfold nodeInit
    simp only [e]
    rw [if_neg (by simp), h1]
    rfl
  rw [node_assembles (l := Table.empty) round rad rnd ?_ (hn _ t h1) ?_ ?_]
  · apply init1h_congr
    intro k hk
    show (t k.toList).or none = _
    rw [Option.or_none, h2 k (by simp [hk])]
    rfl
  · refine ⟨fun k hk => .inl ⟨common_silent k (by simp [allKeys, hk]), rfl⟩, fun k hk => .inl (.inl ⟨common_silent k (by simp [allKeys, hk]), rfl⟩),
      fun k hk => .inl ⟨common_silent k (by simp [allKeys, hk]), rfl⟩, fun k hk => .inl (.inl ⟨common_silent k (by simp [allKeys, hk]), rfl⟩),
      fun k hk => .inl (.inl ⟨common_silent k (by simp [allKeys, hk]), rfl⟩)⟩
  · intro k hk v hv
    rw [h3 k hk] at hv
    have : ∀ k ∈ allKeys, vinyProps.lookup k.toList ≠ some "<unset>".toList := by decide +kernel
    rintro rfl
    exact this k hk hv
  · intro k hk v hv
    rw [h3 k (by simp [allKeys, hk])] at hv
    have : ∀ k ∈ countKeys, vinyProps.lookup k.toList = none ∨ vinyProps.lookup k.toList = some (chars% "20") ∨
        vinyProps.lookup k.toList = some (chars% "100") := by decide +kernel
    rcases this k hk with e | e | e <;> rw [e] at hv
    · cases hv
    · cases hv; exact ⟨20, by norm_num, by decide +kernel, by decide +kernel⟩
    · cases hv; exact ⟨100, by norm_num, by decide +kernel, by decide +kernel⟩

/-- **launch/1h_config_common.launch runs vinySLAM (C98)**: the node that it starts makes the SLAM that
config/slams/viny_slam_base.properties describes. -/
theorem common_launch {r : ℝ → ℝ} (F : Fair r) (round : ℝ → Int) (rad : ℝ) (rnd : Nat) :
    ∀ names : Table → List Str, (∀ p t, append shipped 9 p Table.empty = some t → ∀ k, k ∈ names t ↔ t k ≠ none) → ∃ srv, nodeInit shipped 9 names commonRows.server = some srv ∧
      ∃ n : Int, 100 ≤ n ∧ n ≤ 101 ∧ Provider.init1h rad rnd (.ofServer round (stodDec r) srv) = some (vinyWorld r rnd n) := by
  intro names hn
  obtain ⟨srv, t, h1, -, -, h4⟩ := common_node (r := r) round rad rnd names hn
  obtain ⟨n, c1, c2, hw⟩ := viny_world F rad rnd
  exact ⟨srv, h1, n, c1, c2, h4.trans hw⟩

/-! ## GMapping -/

/-- A launch file in which every property asked for has a fitting type. -/
theorem same_of_rows {stod : Str → Option ℝ} {rows : Rows}
    (ht : ∀ x ∈ rows, x.1 ∈ textKeys → x.2.1 = .str x.2.2 ∧ x.2.2 ≠ "<unset>".toList)
    (hn : ∀ x ∈ rows, x.1 ∈ numberKeys → ∃ v, (x.2.1 = .dbl v ∨ ∃ i : Int, x.2.1 = .int i ∧ (i : ℝ) = v) ∧ stod x.2.2 = some v)
    (hc : ∀ x ∈ rows, x.1 ∈ countKeys → ∃ n : Nat, n < 2 ^ 31 ∧ x.2.1 = .int n ∧ x.2.2 ≠ "<unset>".toList ∧
      stoi x.2.2 = some (n : Int) ∧ stoul x.2.2 = some n)
    (hi : ∀ x ∈ rows, x.1 ∉ integerKeys ∧ x.1 ∉ truthKeys) : SameMeaning stod rows.server rows.table := by
  have key : ∀ k : String, (rows.server k.toList = none ∧ rows.table k.toList = none) ∨
      ∃ x ∈ rows, x.1 = k ∧ rows.server k.toList = some x.2.1 ∧ rows.table k.toList = some x.2.2 := by
    intro k
    rw [Rows.server_at, Rows.table_at]
    cases e : rows.find? fun x => decide (x.1 = k) with
    | none => exact .inl ⟨rfl, rfl⟩
    | some x =>
      have h1 := List.find?_some e
      exact .inr ⟨x, List.mem_of_find?_eq_some e, by simpa using h1, rfl, rfl⟩
  refine ⟨fun k hk => ?_, fun k hk => ?_, fun k hk => ?_, fun k hk => ?_, fun k hk => ?_⟩
  · rcases key k with h | ⟨x, hx, rfl, h1, h2⟩
    · exact .inl h
    · obtain ⟨a, b⟩ := ht x hx hk
      exact .inr ⟨x.2.2, by rw [h1, a], h2, b⟩
  · rcases key k with h | ⟨x, hx, rfl, h1, h2⟩
    · exact .inl (.inl h)
    · obtain ⟨v, a, b⟩ := hn x hx hk
      refine .inr ⟨v, x.2.2, ?_, h2, b⟩
      rw [h1]
      rcases a with a | ⟨i, a, c⟩
      · exact .inl (by rw [a])
      · exact .inr ⟨i, by rw [a], c⟩
  · rcases key k with h | ⟨x, hx, rfl, h1, h2⟩
    · exact .inl h
    · obtain ⟨n, a, b, c, d⟩ := hc x hx hk
      exact .inr ⟨n, x.2.2, a, c, .inl (by rw [h1, b]), h2, d⟩
  · rcases key k with h | ⟨x, hx, rfl, h1, h2⟩
    · exact .inl (.inl h)
    · exact absurd hk (hi x hx).1
  · rcases key k with h | ⟨x, hx, rfl, h1, h2⟩
    · exact .inl (.inl h)
    · exact absurd hk (hi x hx).2

/-- The texts of that file. -/
def mitTexts : List (Str × Str) :=
  [(chars% "slam/map/height_in_meters", chars% "128"),
    (chars% "slam/map/width_in_meters", chars% "128"),
    (chars% "slam/map/meters_per_cell", chars% "0.05"),
    (chars% "ros/tf/buffer_duration", chars% "5.0"),
    (chars% "ros/filter_queue_size", chars% "10"),
    (chars% "ros/subscribers_queue_size", chars% "10"),
    (chars% "slam/particles/number", chars% "20"),
    (chars% "slam/particles/sample/xy/mean", chars% "0.0"),
    (chars% "slam/particles/sample/xy/sigma", chars% "0.1"),
    (chars% "slam/particles/sample/theta/mean", chars% "0.0"),
    (chars% "slam/particles/sample/theta/sigma", chars% "0.03"),
    (chars% "slam/particles/sm_delta_lim/xy/min", chars% "0.6"),
    (chars% "slam/particles/sm_delta_lim/xy/max", chars% "0.8"),
    (chars% "slam/particles/sm_delta_lim/theta/min", chars% "0.3"),
    (chars% "slam/particles/sm_delta_lim/theta/max", chars% "0.4"),
    (chars% "slam/scmtch/spe/type", chars% "wmpp"),
    (chars% "slam/scmtch/spe/wmpp/weighting/type", chars% "even"),
    (chars% "slam/scmtch/spe/wmpp/sp_skip_rate", chars% "3"),
    (chars% "slam/scmtch/oope/type", chars% "custom"),
    (chars% "slam/scmtch/oope/custom/fullness_threshold", chars% "0.1"),
    (chars% "slam/scmtch/oope/custom/window_size", chars% "1"),
    (chars% "in/lscan2D/ros/topic/name", chars% "/base_scan"),
    (chars% "in/lscan2D/skip_exceeding_vals", chars% "true"),
    (chars% "in/odometry/ros/tf/odom_frame_id", chars% "odom_combined"),
    (chars% "ros/tf/async_correction", chars% "true"),
    (chars% "ros/rviz/map_publishing_rate", chars% "5.0"),
    (chars% "slam/mapping/blur", chars% "0.0"),
    (chars% "slam/mapping/max_range", chars% "60.0")]

theorem mit_texts (r : ℝ → ℝ) : (mitRows r).table = listed mitTexts := by
  rw [Rows.table_listed]
  simp only [mitRows, List.map_cons, List.map_nil]
  rw [show mitTexts = _ from rfl]
  congr 1

theorem mit_same {r : ℝ → ℝ} (R : Nearest r) : SameMeaning (stodDec r) (mitRows r).server (mitRows r).table := by
  have F := fair_nearest R
  obtain ⟨m0, m1, m2, m3, m4, m5, m6, m7, m8, m9, m10, m11⟩ := F.numbers
  obtain ⟨k0, k1, k2, k3, k4, k5, k6⟩ := F.more
  have e : r 128 = 128 := R.fix (x := (128 : ℝ)) (by simpa using isDouble_nat (K := ℝ) (n := 128) (by norm_num))
  rw [e] at k6
  apply same_of_rows
  · simp only [mitRows, List.forall_mem_cons]
    repeat' apply And.intro
    all_goals first
      | exact fun h => absurd h (by decide)
      | exact fun _ => ⟨rfl, by decide⟩
      | simp
  · simp only [mitRows, List.forall_mem_cons]
    repeat' apply And.intro
    all_goals first
      | exact fun h => absurd h (by decide)
      | exact fun _ => ⟨_, .inl rfl, by assumption⟩
      | exact fun _ => ⟨128, .inr ⟨128, rfl, by norm_num⟩, k6⟩
      | simp
  · simp only [mitRows, List.forall_mem_cons]
    repeat' apply And.intro
    all_goals first
      | exact fun h => absurd h (by decide)
      | exact fun _ => ⟨20, by norm_num, rfl, by decide, by decide +kernel, by decide +kernel⟩
      | exact fun _ => ⟨3, by norm_num, rfl, by decide, by decide +kernel, by decide +kernel⟩
      | simp
  · simp only [mitRows, List.forall_mem_cons]
    repeat' apply And.intro
    all_goals first
      | decide
      | simp

/-- Specification: GMapping as launch/gmapping_mit_run.launch describes it; `n` is the size of the map in cells. The window of one
cell around an obstacle is the default: the launch file gives it under a name that is not asked for. -/
noncomputable def mitGmapping (r : ℝ → ℝ) (n : Int) : World ℝ × GmappingParams ℝ × Nat :=
  (⟨1, 1, 0, ⟨.unboundedLazyTiled, none, .gmapping, ⟨n, n, r (1 / 20)⟩⟩,
      ⟨.hillClimbing 6 (1 / 10) (1 / 10) false, ⟨.gmapping (r (1 / 10)) 1, .even, 3, -1⟩, false⟩,
      ⟨false, 19 / 20, 1, 1 / 100, 1, false, r 0, some (r 60)⟩⟩,
    ⟨r 0, r (1 / 10), r 0, r (3 / 100), r (3 / 5), r (4 / 5), r (3 / 10), r (2 / 5)⟩, 20)

/-- **launch/gmapping_mit_run.launch (C98)**: the node that it starts makes GMapping with 20 particles and a map of 128 by 128 metres,
as the file says; the parameters have their own types. -/
theorem gmapping_mit_launch {r : ℝ → ℝ} (R : Nearest r) (round : ℝ → Int) :
    ∃ n : Int, 2560 ≤ n ∧ n ≤ 2561 ∧ Provider.initGmapping (.ofServer round (stodDec r) (mitRows r).server) = some (mitGmapping r n) := by
  have F := fair_nearest R
  obtain ⟨m0, m1, m2, m3, m4, m5, m6, m7, m8, m9, m10, m11⟩ := F.numbers
  obtain ⟨k0, k1, k2, k3, k4, k5, k6⟩ := F.more
  obtain ⟨n, c1, c2, hp⟩ := params_of20 R (t := listed mitTexts) (m := 128) (by norm_num) k6 (by decide +kernel) (by decide +kernel)
    (by decide +kernel)
  refine ⟨n, by omega, by omega, ?_⟩
  rw [(launch_assembles round 0 0 (mit_same R)).2.2, mit_texts]
  refine (gmapping_as_configured _ _ _ _ _).2 ?_
  refine ⟨Or.inr ⟨chars% "20", 20, by decide +kernel, by decide +kernel, rfl⟩, Or.inr ⟨chars% "0.0", by decide +kernel, k0⟩,
    Or.inr ⟨chars% "0.1", by decide +kernel, m3⟩, Or.inr ⟨chars% "0.0", by decide +kernel, k0⟩, Or.inr ⟨chars% "0.03", by decide +kernel, k1⟩,
    Or.inr ⟨chars% "0.6", by decide +kernel, m7⟩, Or.inr ⟨chars% "0.8", by decide +kernel, k4⟩, Or.inr ⟨chars% "0.3", by decide +kernel, m5⟩,
    Or.inr ⟨chars% "0.4", by decide +kernel, k3⟩, ⟨rfl, rfl, rfl⟩, ⟨rfl, rfl, rfl, hp⟩, Or.inr (by decide +kernel),
    ⟨_, _, rfl, Or.inr ⟨chars% "0.1", by decide +kernel, m3⟩, Or.inl ⟨by decide +kernel, rfl⟩⟩,
    ⟨Or.inr (by decide +kernel), ⟨("even", .even), by simp, Or.inr (by decide +kernel), rfl⟩,
      Or.inr ⟨chars% "3", 3, by decide +kernel, by decide +kernel, rfl⟩, Or.inl ⟨by decide +kernel, rfl⟩⟩, ⟨rfl, rfl⟩,
    ⟨⟨("const", false), by simp, Or.inl ⟨by decide +kernel, rfl⟩, rfl⟩, Or.inl ⟨by decide +kernel, rfl⟩, Or.inl ⟨by decide +kernel, rfl⟩,
      Or.inl ⟨by decide +kernel, rfl⟩, Or.inl ⟨by decide +kernel, rfl⟩, ⟨("idle", false), by simp, Or.inl ⟨by decide +kernel, rfl⟩, rfl⟩,
      Or.inr ⟨chars% "0.0", by decide +kernel, k0⟩, Or.inr ⟨chars% "60.0", _, by decide +kernel, k5, rfl⟩⟩⟩

/-- launch/gmapping_wg_pr2_run.launch does not say how a scan is scored, and the nodes of GMapping read no other file: the node does
not start. -/
theorem gmapping_wg_counterexample (round : ℝ → Int) (stod : Str → Option ℝ) :
    Provider.initGmapping (.ofServer round stod wgRows.server) = none := by
  have e : launchStr wgRows.server "slam/scmtch/spe/type".toList "<undefined>".toList ≠ "wmpp".toList := by
    rw [launchStr, paramStr, Rows.server_at]
    simp only [wgRows, List.find?_cons]
    decide
  have h4 : ∀ o : OopeCfg ℝ, Provider.initSpeWith (.ofServer round stod wgRows.server) o = none := by
    intro o
    unfold Provider.initSpeWith
    exact if_neg e
  have h5 : Provider.initGmappingSpe (.ofServer round stod wgRows.server) = none := by
    unfold Provider.initGmappingSpe
    simp only [h4]
    cases (Provider.ofServer round stod wgRows.server).dbl "slam/scmtch/oope/custom/fullness_threshold".toList (1 / 10) <;>
    cases (Provider.ofServer round stod wgRows.server).uint "slam/scmtch/oope/cutrom/window_size".toList 1 <;>
    exact ite_self none
  unfold Provider.initGmapping
  rw [h5]
  cases (Provider.ofServer round stod wgRows.server).gridParams <;> rfl

/-! ## Credibilist SLAM -/

/-- The texts of that file. -/
def credibilistTexts : List (Str × Str) :=
  [(chars% "slam/mapping/blur", chars% "0.1"),
    (chars% "slam/occupancy_estimator/type", chars% "const"),
    (chars% "slam/occupancy_estimator/base_occupied/prob", chars% "0.95"),
    (chars% "slam/occupancy_estimator/base_empty/prob", chars% "0.01"),
    (chars% "slam/mapping/grid/type", chars% "unbounded_plain"),
    (chars% "slam/map/height_in_meters", chars% "100"),
    (chars% "slam/map/width_in_meters", chars% "100"),
    (chars% "slam/map/meters_per_cell", chars% "0.05"),
    (chars% "slam/scmtch/type", chars% "HC"),
    (chars% "slam/scmtch/spe/type", chars% "wmpp"),
    (chars% "slam/scmtch/spe/wmpp/weighting/type", chars% "even"),
    (chars% "in/lscan2D/ros/topic/name", chars% "/base_scan"),
    (chars% "in/odometry/ros/tf/odom_frame_id", chars% "odom_combined")]

theorem credibilist_texts (r : ℝ → ℝ) : (credibilistRows r).table = listed credibilistTexts := by
  rw [Rows.table_listed]
  simp only [credibilistRows, List.map_cons, List.map_nil]
  rw [show credibilistTexts = _ from rfl]
  congr 1

theorem credibilist_same {r : ℝ → ℝ} (R : Nearest r) : SameMeaning (stodDec r) (credibilistRows r).server (credibilistRows r).table := by
  have F := fair_nearest R
  obtain ⟨m0, m1, m2, m3, m4, m5, m6, m7, m8, m9, m10, m11⟩ := F.numbers
  obtain ⟨k0, k1, k2, k3, k4, k5, k6⟩ := F.more
  have e : r 100 = 100 := R.fix (x := (100 : ℝ)) (by simpa using isDouble_nat (K := ℝ) (n := 100) (by norm_num))
  rw [e] at m11
  apply same_of_rows
  · simp only [credibilistRows, List.forall_mem_cons]
    repeat' apply And.intro
    all_goals first
      | exact fun h => absurd h (by decide)
      | exact fun _ => ⟨rfl, by decide⟩
      | simp
  · simp only [credibilistRows, List.forall_mem_cons]
    repeat' apply And.intro
    all_goals first
      | exact fun h => absurd h (by decide)
      | exact fun _ => ⟨_, .inl rfl, by assumption⟩
      | exact fun _ => ⟨100, .inr ⟨100, rfl, by norm_num⟩, m11⟩
      | simp
  · simp only [credibilistRows, List.forall_mem_cons]
    repeat' apply And.intro
    all_goals first
      | exact fun h => absurd h (by decide)
      | simp
  · simp only [credibilistRows, List.forall_mem_cons]
    repeat' apply And.intro
    all_goals first
      | decide
      | simp

/-- Specification: the SLAM that launch/credibilist_mit_run.launch describes; `n` is the size of the map in cells. -/
noncomputable def credibilistWorld (r : ℝ → ℝ) (n : Int) : World ℝ where
  localizedQuality := 9 / 10
  rawQuality := 3 / 5
  margin := 0
  map := ⟨.unboundedPlain, none, .credibilist, ⟨n, n, r (1 / 20)⟩⟩
  matcher := ⟨.hillClimbing 6 (1 / 10) (1 / 10) false, ⟨.std .obstacle .discrepancy, .even, 0, -1⟩, false⟩
  adder := ⟨false, r (19 / 20), 1, r (1 / 100), 1, false, r (1 / 10), none⟩

/-- **launch/credibilist_mit_run.launch (C98).** -/
theorem credibilist_mit_launch {r : ℝ → ℝ} (R : Nearest r) (round : ℝ → Int) (rad : ℝ) (rnd : Nat) :
    ∃ n : Int, 2000 ≤ n ∧ n ≤ 2001 ∧
      Provider.initCredibilist rad rnd (.ofServer round (stodDec r) (credibilistRows r).server) = some (credibilistWorld r n) := by
  have F := fair_nearest R
  obtain ⟨m0, m1, m2, m3, m4, m5, m6, m7, m8, m9, m10, m11⟩ := F.numbers
  obtain ⟨n, c1, c2, hp⟩ := params_of20 R (t := listed credibilistTexts) (m := 100) (by norm_num) m11 (by decide +kernel) (by decide +kernel)
    (by decide +kernel)
  refine ⟨n, by omega, by omega, ?_⟩
  rw [(launch_assembles round rad rnd (credibilist_same R)).2.1, credibilist_texts]
  refine (credibilist_as_configured _ _ _ _ _).2 ?_
  refine ⟨rfl, rfl, rfl, rfl,
    ⟨⟨("unbounded_plain", .unboundedPlain), by simp, Or.inr (by decide +kernel), rfl⟩, Or.inr ⟨?_, rfl⟩, hp⟩,
    ⟨⟨.obstacle, .discrepancy, rfl, ⟨("discrepancy", .discrepancy), by simp, Or.inl ⟨by decide +kernel, rfl⟩, rfl⟩,
        ("obstacle", .obstacle), by simp, Or.inl ⟨by decide +kernel, rfl⟩, rfl⟩,
      ⟨Or.inr (by decide +kernel), ⟨("even", .even), by simp, Or.inr (by decide +kernel), rfl⟩, Or.inl ⟨by decide +kernel, rfl⟩,
        Or.inl ⟨by decide +kernel, rfl⟩⟩,
      .hillClimbing _ _ _ _ (Or.inr (by decide +kernel)) (Or.inl ⟨by decide +kernel, rfl⟩) (Or.inl ⟨by decide +kernel, rfl⟩) (Or.inl ⟨by decide +kernel, rfl⟩) (Or.inl ⟨by decide +kernel, rfl⟩),
      Or.inl ⟨by decide +kernel, rfl⟩⟩,
    ⟨⟨("const", false), by simp, Or.inr (by decide +kernel), rfl⟩, Or.inr ⟨chars% "0.95", by decide +kernel, m9⟩, Or.inl ⟨by decide +kernel, rfl⟩,
      Or.inr ⟨chars% "0.01", by decide +kernel, m1⟩, Or.inl ⟨by decide +kernel, rfl⟩, ⟨("idle", false), by simp, Or.inl ⟨by decide +kernel, rfl⟩, rfl⟩,
      Or.inr ⟨chars% "0.1", by decide +kernel, m3⟩, Or.inl ⟨by decide +kernel, rfl⟩⟩⟩
  rintro (⟨h, -⟩ | h) <;> revert h <;> decide +kernel

end Slam.Config
