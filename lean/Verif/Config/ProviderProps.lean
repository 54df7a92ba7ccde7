import Verif.Config.Provider
import Verif.Config.Double
import Verif.Config.Props
import Mathlib.Data.Set.Finite.Basic
import Mathlib.Data.Set.Finite.Lattice

/-!
# C98: the SLAM a launch file configures
-/

set_option autoImplicit false
set_option linter.unusedSectionVars false

namespace Slam.Config

variable {K : Type*} [Field K] [LinearOrder K] [IsStrictOrderedRing K] [FloorRing K]

/-! ## Specification -/

/-- Properties that are asked for as texts when a SLAM is made. -/
def textKeys : List String :=
  ["slam/mapping/grid/area/type", "slam/mapping/grid/type", "slam/mapping/observation_quality_estimator/typetype",
    "slam/occupancy_estimator/type", "slam/scmtch/oie/type", "slam/scmtch/oope/type", "slam/scmtch/spe/type",
    "slam/scmtch/spe/wmpp/weighting/type", "slam/scmtch/type"]

/-- Those asked for as numbers. -/
def numberKeys : List String :=
  ["slam/map/height_in_meters", "slam/map/meters_per_cell", "slam/map/width_in_meters", "slam/mapping/blur", "slam/mapping/max_range",
    "slam/mapping/corrected_pose_quality", "slam/mapping/raw_pose_quality", "slam/occupancy_estimator/base_empty/prob",
    "slam/occupancy_estimator/base_empty/qual", "slam/occupancy_estimator/base_occupied/prob",
    "slam/occupancy_estimator/base_occupied/qual", "slam/particles/sample/theta/mean", "slam/particles/sample/theta/sigma",
    "slam/particles/sample/xy/mean", "slam/particles/sample/xy/sigma", "slam/particles/sm_delta_lim/theta/max",
    "slam/particles/sm_delta_lim/theta/min", "slam/particles/sm_delta_lim/xy/max", "slam/particles/sm_delta_lim/xy/min",
    "slam/scmtch/BF/x/from", "slam/scmtch/BF/x/to", "slam/scmtch/BF/x/step", "slam/scmtch/BF/y/from", "slam/scmtch/BF/y/to",
    "slam/scmtch/BF/y/step", "slam/scmtch/BF/t/from", "slam/scmtch/BF/t/to", "slam/scmtch/BF/t/step",
    "slam/scmtch/BF_M3RSM/accuracy/rotation", "slam/scmtch/BF_M3RSM/accuracy/translation", "slam/scmtch/BF_M3RSM/limits/rotation",
    "slam/scmtch/BF_M3RSM/limits/x_translation", "slam/scmtch/BF_M3RSM/limits/y_translation", "slam/scmtch/HC/distortion/rotation",
    "slam/scmtch/HC/distortion/translation", "slam/scmtch/MC/dispersion/rotation", "slam/scmtch/MC/dispersion/translation",
    "slam/scmtch/oope/custom/fullness_threshold", "slam/scmtch/spe/wmpp/sp_max_usable_range"]

/-- Those asked for as unsigned integers. -/
def countKeys : List String :=
  ["slam/particles/number", "slam/scmtch/HC/distortion/failed_attempts_limit", "slam/scmtch/MC/attempts_limit",
    "slam/scmtch/MC/dispersion/failed_attempts_limit", "slam/scmtch/oope/cutrom/window_size", "slam/scmtch/spe/wmpp/sp_skip_rate"]

/-- The one asked for as an integer. -/
def integerKeys : List String := ["slam/scmtch/MC/seed"]

/-- Those asked for as truth values. -/
def truthKeys : List String := ["slam/scmtch/HC/use_frame_alignement", "slam/scmtch/use_amb_drift_detector"]

/-- A launch file gives a property the meaning the file does, as it is asked for: in both it is missing, in both it is the same
text, or the launch file has a number or a truth value (`roslaunch` gives parameters that look like one such a type) and the file
a text that denotes it. An unsigned integer is below 2^31. -/
structure SameMeaning (stod : Str → Option K) (srv : Server K) (t : Table) : Prop where
  text : ∀ k ∈ textKeys, SameText srv t k.toList
  number : ∀ k ∈ numberKeys, SameText srv t k.toList ∨
    ∃ x v, (srv k.toList = some (.dbl x) ∨ ∃ i : Int, srv k.toList = some (.int i) ∧ (i : K) = x) ∧ t k.toList = some v ∧ stod v = some x
  count : ∀ k ∈ countKeys, (srv k.toList = none ∧ t k.toList = none) ∨
    ∃ (n : Nat) (v : Str), n < 2 ^ 31 ∧ v ≠ "<unset>".toList ∧ (srv k.toList = some (.int n) ∨ srv k.toList = some (.str v)) ∧
      t k.toList = some v ∧ stoi v = some (n : Int) ∧ stoul v = some n
  integer : ∀ k ∈ integerKeys, SameText srv t k.toList ∨
    ∃ i v, srv k.toList = some (.int i) ∧ t k.toList = some v ∧ stoi v = some i
  truth : ∀ k ∈ truthKeys, SameText srv t k.toList ∨
    ∃ b v, srv k.toList = some (.bool b) ∧ t k.toList = some v ∧ (b = false ↔ v = "false".toList ∨ v = "0".toList)

/-! ## Proofs -/

theorem of_table (stod : Str → Option K) (rad : K) (rnd : Nat) (t : Table) :
    Provider.init1h rad rnd (.ofTable stod t) = init1h stod rad rnd t ∧
    Provider.initCredibilist rad rnd (.ofTable stod t) = initCredibilist stod rad rnd t ∧
    Provider.initGmapping (.ofTable stod t) = initGmapping stod t := ⟨rfl, rfl, rfl⟩

/-- Two providers give the same answers to the questions asked when a SLAM is made. -/
structure Alike (p q : Provider K) : Prop where
  str : ∀ k ∈ textKeys, ∀ d, p.str k.toList d = q.str k.toList d
  dbl : ∀ k ∈ numberKeys, ∀ d, p.dbl k.toList d = q.dbl k.toList d
  range : ∀ k ∈ numberKeys, p.range k.toList = q.range k.toList
  uint : ∀ k ∈ countKeys, ∀ d, d < 2 ^ 31 → p.uint k.toList d = q.uint k.toList d
  int : ∀ k ∈ integerKeys, ∀ d, p.int k.toList d = q.int k.toList d
  bool : ∀ k ∈ truthKeys, ∀ d, p.bool k.toList d = q.bool k.toList d

theorem alike_of_same {stod : Str → Option K} (round : K → Int) {srv : Server K} {t : Table} (h : SameMeaning stod srv t) :
    Alike (.ofServer round stod srv) (.ofTable stod t) where
  str k hk d := (launch_agrees_with_file round stod srv t _ (h.text k hk)).1 d
  dbl k hk d := by
    rcases h.number k hk with e | ⟨x, v, e, e1, e2⟩
    · exact (launch_agrees_with_file round stod srv t _ e).2.2.1 d
    · show launchDbl stod srv _ d = getDbl stod t _ d
      rw [getDbl, e1]
      simp only [e2]
      rcases e with e | ⟨i, e, rfl⟩
      · exact ((launch_typed round stod srv k.toList).2.1 x d e).1
      · exact ((launch_typed round stod srv k.toList).1 i 0 e).2 d
  range k hk := by
    show launchRange stod srv _ = getDbl _ t _ none
    rcases h.number k hk with (⟨e1, e2⟩ | ⟨v, e1, e2, e3⟩) | ⟨x, v, e, e1, e2⟩
    · simp [launchRange, launchStr, paramStr, e1, getDbl, e2]
    · have : v ≠ unset := e3
      simp [launchRange, launchStr, paramStr, e1, getDbl, e2, this]
    · rcases e with e | ⟨i, e, rfl⟩ <;> simp [launchRange, launchStr, paramStr, e, getDbl, e1, e2]
  uint k hk d hd := by
    show launchUint round srv _ d = getUint t _ d
    rcases h.count k hk with ⟨e1, e2⟩ | ⟨n, v, hn, hv, e, e1, e2, e3⟩
    · rw [((launch_typed round stod srv k.toList).2.2.2 (.inl e1)).2.2.2 d hd, getUint, e2]
    · have h1 : launchInt round srv k.toList (unsignedToInt d) = some (n : Int) := by
        rcases e with e | e
        · exact ((launch_typed round stod srv k.toList).1 n _ e).1
        · have hv' : v ≠ unset := hv
          simp [launchInt, launchStr, paramStr, e, hv', e2]
      rw [launchUint, h1, getUint, e1]
      simp only [Option.bind_some, e3, Option.map_some]
      rw [if_pos (by omega), Nat.mod_eq_of_lt (by omega)]
      simp
  int k hk d := by
    rcases h.integer k hk with e | ⟨i, v, e, e1, e2⟩
    · exact (launch_agrees_with_file round stod srv t _ e).2.1 d
    · show launchInt round srv _ d = getInt t _ d
      rw [((launch_typed round stod srv k.toList).1 i d e).1, getInt, e1]
      exact e2.symm
  bool k hk d := by
    rcases h.truth k hk with e | ⟨b, v, e, e1, e2⟩
    · exact (launch_agrees_with_file round stod srv t _ e).2.2.2 d
    · show launchBool srv _ d = getBool t _ d
      rw [(launch_typed round stod srv k.toList).2.2.1 b d e, getBool, e1]
      simp only
      cases b with
      | false =>
        rcases e2.1 rfl with rfl | rfl <;> rfl
      | true =>
        have : ¬ (v = "false".toList ∨ v = "0".toList) := fun h => by simpa using e2.2 h
        push Not at this
        rw [decide_eq_false this.1, decide_eq_false this.2]
        rfl

section
variable {p q : Provider K} (h : Alike p q)
include h

theorem grid_params_alike : p.gridParams = q.gridParams := by
  simp only [Provider.gridParams]
  rw [h.dbl _ (by decide), h.dbl _ (by decide), h.dbl _ (by decide)]

theorem oie_alike : p.initOie = q.initOie := by
  simp only [Provider.initOie]
  rw [h.str _ (by decide)]

theorem oope_alike : p.initOope = q.initOope := by
  simp only [Provider.initOope]
  rw [h.str _ (by decide), oie_alike h]

theorem swp_alike : p.initSwp = q.initSwp := by
  simp only [Provider.initSwp]
  rw [h.str _ (by decide)]

theorem spe_with_alike (o : OopeCfg K) : p.initSpeWith o = q.initSpeWith o := by
  simp only [Provider.initSpeWith]
  rw [h.str _ (by decide), h.uint _ (by decide) _ (by decide), h.dbl _ (by decide), swp_alike h]

theorem spe_alike : p.initSpe = q.initSpe := by
  simp only [Provider.initSpe]
  rw [oope_alike h]
  simp only [spe_with_alike h]

theorem monte_carlo_alike (rnd : Nat) : Provider.initMonteCarlo rnd p = Provider.initMonteCarlo rnd q := by
  simp only [Provider.initMonteCarlo]
  rw [h.dbl "slam/scmtch/MC/dispersion/translation" (by decide), h.dbl "slam/scmtch/MC/dispersion/rotation" (by decide),
    h.uint "slam/scmtch/MC/dispersion/failed_attempts_limit" (by decide) _ (by decide), h.uint "slam/scmtch/MC/attempts_limit" (by decide) _ (by decide),
    h.int _ (by decide)]

theorem hill_climbing_alike : p.initHillClimbing = q.initHillClimbing := by
  simp only [Provider.initHillClimbing]
  rw [h.dbl "slam/scmtch/HC/distortion/translation" (by decide), h.dbl "slam/scmtch/HC/distortion/rotation" (by decide),
    h.uint _ (by decide) _ (by decide), h.bool _ (by decide)]

theorem sweep_alike (dim : String) (hd : dim = "x" ∨ dim = "y" ∨ dim = "t") (a b : K) : p.initSweep dim a b = q.initSweep dim a b := by
  have h1 : "slam/scmtch/BF/" ++ dim ++ "/from" ∈ numberKeys := by rcases hd with rfl | rfl | rfl <;> decide
  have h2 : "slam/scmtch/BF/" ++ dim ++ "/to" ∈ numberKeys := by rcases hd with rfl | rfl | rfl <;> decide
  have h3 : "slam/scmtch/BF/" ++ dim ++ "/step" ∈ numberKeys := by rcases hd with rfl | rfl | rfl <;> decide
  simp only [Provider.initSweep]
  rw [h.dbl _ h1, h.dbl _ h2, h.dbl _ h3]

theorem m3rsm_alike (rad : K) : Provider.initM3rsm rad p = Provider.initM3rsm rad q := by
  simp only [Provider.initM3rsm]
  rw [h.dbl "slam/scmtch/BF_M3RSM/accuracy/rotation" (by decide), h.dbl "slam/scmtch/BF_M3RSM/accuracy/translation" (by decide),
    h.dbl "slam/scmtch/BF_M3RSM/limits/x_translation" (by decide), h.dbl "slam/scmtch/BF_M3RSM/limits/y_translation" (by decide),
    h.dbl "slam/scmtch/BF_M3RSM/limits/rotation" (by decide)]

theorem type_alike : p.matcherType = q.matcherType := by
  simp only [Provider.matcherType]
  rw [h.str _ (by decide)]

theorem algo_alike (rad : K) (rnd : Nat) : Provider.initAlgo rad rnd p = Provider.initAlgo rad rnd q := by
  simp only [Provider.initAlgo, Provider.initBruteForce]
  rw [type_alike h, monte_carlo_alike h, hill_climbing_alike h, m3rsm_alike h, sweep_alike h "x" (by decide), sweep_alike h "y" (by decide),
    sweep_alike h "t" (by decide)]

theorem matcher_alike (rad : K) (rnd : Nat) : Provider.initMatcher rad rnd p = Provider.initMatcher rad rnd q := by
  simp only [Provider.initMatcher]
  rw [spe_alike h, algo_alike h, h.bool _ (by decide)]

theorem adder_alike : p.initAdder = q.initAdder := by
  simp only [Provider.initAdder]
  rw [h.dbl "slam/occupancy_estimator/base_occupied/prob" (by decide), h.dbl "slam/occupancy_estimator/base_occupied/qual" (by decide),
    h.dbl "slam/occupancy_estimator/base_empty/prob" (by decide), h.dbl "slam/occupancy_estimator/base_empty/qual" (by decide),
    h.str "slam/occupancy_estimator/type" (by decide), h.str "slam/mapping/observation_quality_estimator/typetype" (by decide),
    h.dbl "slam/mapping/blur" (by decide), h.range _ (by decide)]

theorem map_with_alike (c : CellModel) : p.initMapWith c = q.initMapWith c := by
  simp only [Provider.initMapWith, Provider.createMap]
  rw [h.str _ (by decide), type_alike h, oie_alike h, grid_params_alike h]

theorem map_alike : p.initMap = q.initMap := by
  simp only [Provider.initMap, Provider.initCell]
  rw [h.str _ (by decide)]
  simp only [map_with_alike h]

theorem gmapping_alike : p.initGmapping = q.initGmapping := by
  simp only [Provider.initGmapping, Provider.initGmappingSpe, Provider.initGmappingParams]
  rw [grid_params_alike h, adder_alike h, h.str _ (by decide), h.dbl "slam/scmtch/oope/custom/fullness_threshold" (by decide),
    h.uint "slam/scmtch/oope/cutrom/window_size" (by decide) _ (by decide), h.uint "slam/particles/number" (by decide) _ (by decide),
    h.dbl "slam/particles/sample/xy/mean" (by decide), h.dbl "slam/particles/sample/xy/sigma" (by decide),
    h.dbl "slam/particles/sample/theta/mean" (by decide), h.dbl "slam/particles/sample/theta/sigma" (by decide),
    h.dbl "slam/particles/sm_delta_lim/xy/min" (by decide), h.dbl "slam/particles/sm_delta_lim/xy/max" (by decide),
    h.dbl "slam/particles/sm_delta_lim/theta/min" (by decide), h.dbl "slam/particles/sm_delta_lim/theta/max" (by decide)]
  simp only [spe_with_alike h]

end

/-- **A launch file configures the SLAM that a properties file with the same meaning does (C98)**: the single-hypothesis SLAM, the
credibilist one and GMapping; it also fails alike. Parameters may be given with their own type. -/
theorem launch_assembles {stod : Str → Option K} (round : K → Int) (rad : K) (rnd : Nat) {srv : Server K} {t : Table}
    (h : SameMeaning stod srv t) :
    Provider.init1h rad rnd (.ofServer round stod srv) = init1h stod rad rnd t ∧
    Provider.initCredibilist rad rnd (.ofServer round stod srv) = initCredibilist stod rad rnd t ∧
    Provider.initGmapping (.ofServer round stod srv) = initGmapping stod t := by
  have ha := alike_of_same round h
  obtain ⟨e1, e2, e3⟩ := of_table stod rad rnd t
  rw [← e1, ← e2, ← e3]
  refine ⟨?_, ?_, gmapping_alike ha⟩
  · simp only [Provider.init1h]
    rw [ha.dbl _ (by decide), ha.dbl _ (by decide), map_alike ha, matcher_alike ha, adder_alike ha]
  · simp only [Provider.initCredibilist]
    rw [map_with_alike ha, matcher_alike ha, adder_alike ha]

/-- **The file named by `slam/config` takes precedence (C98)** over the launch file, property by property, in whatever order its
properties are enumerated. -/
theorem node_properties (srv : Server K) (t : Table) (names : List Str) (h : ∀ k, k ∈ names ↔ t k ≠ none) (k : Str) :
    nodeServer srv t names k = match t k with
      | some v => some (.str v)
      | none => srv k := by
  have key : ∀ (l : List Str) (s : Server K), (∀ n ∈ l, t n ≠ none) → nodeServer s t l k = if k ∈ l then (t k).map .str else s k := by
    intro l
    induction l with
    | nil => intro s _; simp [nodeServer]
    | cons n l ih =>
      intro s hl
      have e : nodeServer s t (n :: l) = nodeServer (s.setProperty n (getStr t n [])) t l := rfl
      rw [e, ih _ fun m hm => hl m (by simp [hm])]
      by_cases hk : k ∈ l
      · simp [hk]
      · rw [if_neg hk]
        by_cases hn : k = n
        · subst hn
          obtain ⟨v, hv⟩ := Option.ne_none_iff_exists'.1 (hl k (by simp))
          simp [Server.setProperty, getStr, hv]
        · rw [if_neg (by simp [hn, hk])]
          simp [Server.setProperty, hn]
  rw [key names srv fun n hn => (h n).1 hn]
  by_cases hk : k ∈ names
  · rw [if_pos hk]
    obtain ⟨v, hv⟩ := Option.ne_none_iff_exists'.1 ((h k).1 hk)
    rw [hv]
    rfl
  · rw [if_neg hk]
    have : t k = none := by
      by_contra hc
      exact hk ((h k).2 hc)
    rw [this]

/-- A file has finitely many properties. -/
theorem append_finite (F : Files) : ∀ (fuel : Nat) (p : Str) (store t : Table), {k | store k ≠ none}.Finite →
    append F fuel p store = some t → {k | t k ≠ none}.Finite := by
  intro fuel
  induction fuel with
  | zero => intro p store t _ h; cases h
  | succ fuel ih =>
    intro p store t hs h
    have loop : ∀ (ls : List Str) (store props : Table) (q : Table × Table), {k | store k ≠ none}.Finite → {k | props k ≠ none}.Finite →
        parseLines F (append F fuel) p ls store props = some q → {k | q.1 k ≠ none}.Finite ∧ {k | q.2 k ≠ none}.Finite := by
      intro ls
      induction ls with
      | nil => intro store props q h1 h2 h; cases h; exact ⟨h1, h2⟩
      | cons l ls ihl =>
        intro store props q h1 h2 h
        simp only [parseLines] at h
        cases e : readLine l with
        | skip => rw [e] at h; exact ihl _ _ _ h1 h2 h
        | incl name =>
          rw [e] at h
          simp only [Option.bind_eq_some_iff] at h
          obtain ⟨s', h3, h4⟩ := h
          exact ihl _ _ _ (ih _ _ _ h1 h3) h2 h4
        | entry id val =>
          rw [e] at h
          refine ihl _ _ _ h1 ((h2.insert id).subset ?_) h
          intro k hk
          by_cases hki : k = id
          · exact .inl hki
          · refine .inr ?_
            simpa [Table.set, hki] using hk
    simp only [append] at h
    cases e : F.content p with
    | none => rw [e] at h; cases h; exact hs
    | some c =>
      rw [e] at h
      simp only [Option.map_eq_some_iff] at h
      obtain ⟨q, h1, rfl⟩ := h
      obtain ⟨a, b⟩ := loop _ _ _ _ hs (by simp [Table.empty]) h1
      refine (a.union b).subset fun k hk => ?_
      by_cases hq : q.1 k = none
      · refine .inr ?_
        simpa [Table.merge, hq] using hk
      · exact .inl hq

/-- The properties of files can be enumerated. -/
theorem names_exist (F : Files) (fuel : Nat) : ∃ names : Table → List Str,
    ∀ p t, append F fuel p Table.empty = some t → ∀ k, k ∈ names t ↔ t k ≠ none := by
  classical
  refine ⟨fun t => if h : {k | t k ≠ none}.Finite then h.toFinset.toList else [], fun p t ht k => ?_⟩
  have h := append_finite F fuel p Table.empty t (by simp [Table.empty]) ht
  simp only [dif_pos h, Finset.mem_toList, Set.Finite.mem_toFinset, Set.mem_setOf_eq]

/-- **The properties of the single-hypothesis node (C98)**: those of the launch file if it names no configuration file; else those of
that file and, for names that it does not have, those of the launch file. -/
theorem node_init {F : Files} {fuel : Nat} {names : Table → List Str}
    (hn : ∀ p t, append F fuel p Table.empty = some t → ∀ k, k ∈ names t ↔ t k ≠ none) (srv : Server K) :
    (srv "slam/config".toList = none → nodeInit F fuel names srv = some srv) ∧
    (∀ p, p ≠ [] → srv "slam/config".toList = some (.str p) → ∀ t, append F fuel p Table.empty = some t →
      nodeInit F fuel names srv = some fun k => match t k with
        | some v => some (.str v)
        | none => srv k) := by
  refine ⟨fun h => ?_, fun p hp h t ht => ?_⟩
  · have e : launchStr srv "slam/config".toList [] = [] := by simp only [launchStr, paramStr, h]
    unfold nodeInit
    exact if_pos e
  · have e : launchStr srv "slam/config".toList [] = p := by simp only [launchStr, paramStr, h]
    unfold nodeInit
    simp only [e]
    rw [if_neg hp, ht, Option.map_some]
    congr 1
    funext k
    exact node_properties srv t _ (hn p t ht) k

/-- **The single-hypothesis node (C98)**: if the launch file means what the table `l` says, and the properties file `t` has no reserved
text and only unsigned integers below 2^31 where such are asked for, then the node makes the SLAM that the bag runner makes from the
properties of both, those of the file first. -/
theorem node_assembles {stod : Str → Option K} (round : K → Int) (rad : K) (rnd : Nat) {srv : Server K} {l t : Table} {names : List Str}
    (h : SameMeaning stod srv l) (hn : ∀ k, k ∈ names ↔ t k ≠ none) 
    (ht : ∀ k ∈ textKeys ++ numberKeys ++ countKeys ++ integerKeys ++ truthKeys, ∀ v, t k.toList = some v → v ≠ "<unset>".toList)
    (hc : ∀ k ∈ countKeys, ∀ v, t k.toList = some v → ∃ n : Nat, n < 2 ^ 31 ∧ stoi v = some (n : Int) ∧ stoul v = some n) :
    Provider.init1h rad rnd (.ofServer round stod (nodeServer srv t names)) = init1h stod rad rnd fun k => (t k).or (l k) := by
  refine (launch_assembles round rad rnd ?_).1
  have e : ∀ k, (nodeServer srv t names k = srv k ∧ ((t k).or (l k)) = l k) ∨ ∃ v, t k = some v ∧ nodeServer srv t names k = some (.str v) ∧
      ((t k).or (l k)) = some v := by
    intro k
    rw [node_properties srv t names hn k]
    cases t k with
    | none => exact .inl ⟨rfl, rfl⟩
    | some v => exact .inr ⟨v, rfl, rfl, rfl⟩
  have other : ∀ k ∈ textKeys ++ numberKeys ++ countKeys ++ integerKeys ++ truthKeys,
      (nodeServer srv t names k.toList = srv k.toList ∧ (t k.toList).or (l k.toList) = l k.toList) ∨
      SameText (nodeServer srv t names) (fun k => (t k).or (l k)) k.toList := by
    intro k hk
    rcases e k.toList with e1 | ⟨v, e1, e2, e3⟩
    · exact .inl e1
    · exact .inr (.inr ⟨v, e2, e3, ht k hk v e1⟩)
  refine ⟨fun k hk => ?_, fun k hk => ?_, fun k hk => ?_, fun k hk => ?_, fun k hk => ?_⟩
  · rcases other k (by simp [hk]) with ⟨e1, e2⟩ | e
    · simp only [SameText, e1, e2]
      exact h.text k hk
    · exact e
  · rcases other k (by simp [hk]) with ⟨e1, e2⟩ | e
    · simp only [SameText, e1, e2]
      exact h.number k hk
    · exact .inl e
  · rcases e k.toList with ⟨e1, e2⟩ | ⟨v, e1, e2, e3⟩
    · simp only [e1, e2]
      exact h.count k hk
    · obtain ⟨n, h1, h2, h3⟩ := hc k hk v e1
      exact .inr ⟨n, v, h1, ht k (by simp [hk]) v e1, .inr e2, e3, h2, h3⟩
  · rcases other k (by simp [hk]) with ⟨e1, e2⟩ | e
    · simp only [SameText, e1, e2]
      exact h.integer k hk
    · exact .inl e
  · rcases other k (by simp [hk]) with ⟨e1, e2⟩ | e
    · simp only [SameText, e1, e2]
      exact h.truth k hk
    · exact .inl e

end Slam.Config
