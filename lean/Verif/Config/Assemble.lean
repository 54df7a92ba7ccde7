import Verif.Config.AssembleModel
import Mathlib.Tactic.Tauto

/-!
# A SLAM is assembled as configured (C72)
-/

set_option autoImplicit false
set_option linter.unusedSectionVars false

namespace Slam.Config

/-! ## Specification -/

section Spec
variable {K : Type*} [Field K] [LinearOrder K] [IsStrictOrderedRing K] [FloorRing K]

/-- The text of property `k`, or the default if there is no such property. -/
def TextIs (t : Table) (k dflt s : String) : Prop :=
  (t k.toList = none ∧ s = dflt) ∨ t k.toList = some s.toList

/-- The property names one of the options, and `v` is what it stands for. -/
def OneOf {α : Type*} (t : Table) (k dflt : String) (options : List (String × α)) (v : α) : Prop :=
  ∃ o ∈ options, TextIs t k dflt o.1 ∧ v = o.2

/-- The number of property `k`, or the default. -/
def NumIs (stod : Str → Option K) (t : Table) (k : String) (dflt v : K) : Prop :=
  (t k.toList = none ∧ v = dflt) ∨ ∃ s, t k.toList = some s ∧ stod s = some v

/-- The count of property `k`, or the default; a count is kept modulo `2^32`. -/
def CountIs (t : Table) (k : String) (dflt n : Nat) : Prop :=
  (t k.toList = none ∧ n = dflt) ∨ ∃ s m, t k.toList = some s ∧ stoul s = some m ∧ n = m % 2 ^ 32

/-- The switch of property `k`, or the default: off is `false` or `0`. -/
def SwitchIs (t : Table) (k : String) (dflt b : Bool) : Prop :=
  (t k.toList = none ∧ b = dflt) ∨
    ∃ s, t k.toList = some s ∧ (b = false ↔ s = "false".toList ∨ s = "0".toList)

/-- How a scan is scored. -/
structure SpeSpec (stod : Str → Option K) (t : Table) (s : Spe K) : Prop where
  type : TextIs t "slam/scmtch/spe/type" "<undefined>" "wmpp"
  weighting : OneOf t "slam/scmtch/spe/wmpp/weighting/type" "<undefined>"
    [("even", Spw.even), ("viny", .viny), ("ahr", .ahr)] s.spw
  skip : CountIs t "slam/scmtch/spe/wmpp/sp_skip_rate" 0 s.skipRate
  range : NumIs stod t "slam/scmtch/spe/wmpp/sp_max_usable_range" (-1) s.maxRange

/-- The impact estimator. -/
def OieSpec (t : Table) (o : Oie) : Prop :=
  OneOf t "slam/scmtch/oie/type" "discrepancy" [("discrepancy", Oie.discrepancy), ("occupancy", .occupancy)] o

/-- The standard estimator of occupancy observations. -/
def OopeSpec (t : Table) (c : OopeCfg K) : Prop :=
  ∃ o i, c = .std o i ∧ OieSpec t i ∧ OneOf t "slam/scmtch/oope/type" "obstacle"
    [("obstacle", Oope.obstacle), ("max", .max), ("mean", .mean), ("overlap", .overlap)] o

/-- The window of one coordinate of the brute force matcher. -/
structure SweepSpec (stod : Str → Option K) (t : Table) (dim : String) (limit step : K) (s : Sweep K) : Prop where
  from_ : NumIs stod t ("slam/scmtch/BF/" ++ dim ++ "/from") (-limit) s.from_
  to_ : NumIs stod t ("slam/scmtch/BF/" ++ dim ++ "/to") limit s.to_
  step : NumIs stod t ("slam/scmtch/BF/" ++ dim ++ "/step") step s.step

/-- The scan matching algorithm; angles have their defaults in degrees, `rad` is a degree, `rnd` a random number. -/
inductive AlgoSpec (stod : Str → Option K) (rad : K) (rnd : Nat) (t : Table) : Algo K → Prop
  | monteCarlo (seed : Int) (transl rot : K) (failed total : Nat)
      (type : TextIs t "slam/scmtch/type" "<undefined>" "MC")
      (h1 : NumIs stod t "slam/scmtch/MC/dispersion/translation" (1 / 5) transl)
      (h2 : NumIs stod t "slam/scmtch/MC/dispersion/rotation" (1 / 10) rot)
      (h3 : CountIs t "slam/scmtch/MC/dispersion/failed_attempts_limit" 20 failed)
      (h4 : CountIs t "slam/scmtch/MC/attempts_limit" 100 total)
      (h5 : (t "slam/scmtch/MC/seed".toList = none ∧ seed = unsignedToInt rnd) ∨
        ∃ s, t "slam/scmtch/MC/seed".toList = some s ∧ stoi s = some seed) :
      AlgoSpec stod rad rnd t (.monteCarlo seed transl rot failed total)
  | hillClimbing (failed : Nat) (transl rot : K) (align : Bool)
      (type : TextIs t "slam/scmtch/type" "<undefined>" "HC")
      (h1 : NumIs stod t "slam/scmtch/HC/distortion/translation" (1 / 10) transl)
      (h2 : NumIs stod t "slam/scmtch/HC/distortion/rotation" (1 / 10) rot)
      (h3 : CountIs t "slam/scmtch/HC/distortion/failed_attempts_limit" 6 failed)
      (h4 : SwitchIs t "slam/scmtch/HC/use_frame_alignement" false align) :
      AlgoSpec stod rad rnd t (.hillClimbing failed transl rot align)
  | bruteForce (x y th : Sweep K) (type : TextIs t "slam/scmtch/type" "<undefined>" "BF")
      (h1 : SweepSpec stod t "x" (1 / 2) (1 / 10) x) (h2 : SweepSpec stod t "y" (1 / 2) (1 / 10) y)
      (h3 : SweepSpec stod t "t" (5 * rad) rad th) : AlgoSpec stod rad rnd t (.bruteForce x y th)
  | m3rsm (x y rot ang trl : K) (type : TextIs t "slam/scmtch/type" "<undefined>" "BF_M3RSM")
      (h1 : NumIs stod t "slam/scmtch/BF_M3RSM/limits/x_translation" 1 x)
      (h2 : NumIs stod t "slam/scmtch/BF_M3RSM/limits/y_translation" 1 y)
      (h3 : NumIs stod t "slam/scmtch/BF_M3RSM/limits/rotation" (5 * rad) rot)
      (h4 : NumIs stod t "slam/scmtch/BF_M3RSM/accuracy/rotation" (1 / 10 * rad) ang)
      (h5 : NumIs stod t "slam/scmtch/BF_M3RSM/accuracy/translation" (1 / 20) trl) :
      AlgoSpec stod rad rnd t (.m3rsm x y rot ang trl)
  | idle (type : TextIs t "slam/scmtch/type" "<undefined>" "idle") : AlgoSpec stod rad rnd t .idle
  | hcFixed (type : TextIs t "slam/scmtch/type" "<undefined>" "HC_FIXED") : AlgoSpec stod rad rnd t .hcFixed

/-- The scan matcher. -/
structure MatcherSpec (stod : Str → Option K) (rad : K) (rnd : Nat) (t : Table) (m : Matcher K) : Prop where
  oope : OopeSpec t m.spe.oope
  spe : SpeSpec stod t m.spe
  algo : AlgoSpec stod rad rnd t m.algo
  drift : SwitchIs t "slam/scmtch/use_amb_drift_detector" false m.drift

/-- What is written into the map. -/
structure AdderSpec (stod : Str → Option K) (t : Table) (a : Adder K) : Prop where
  estimator : OneOf t "slam/occupancy_estimator/type" "const" [("const", false), ("area", true)] a.area
  occProb : NumIs stod t "slam/occupancy_estimator/base_occupied/prob" (19 / 20) a.occProb
  occQual : NumIs stod t "slam/occupancy_estimator/base_occupied/qual" 1 a.occQual
  emptyProb : NumIs stod t "slam/occupancy_estimator/base_empty/prob" (1 / 100) a.emptyProb
  emptyQual : NumIs stod t "slam/occupancy_estimator/base_empty/qual" 1 a.emptyQual
  quality : OneOf t "slam/mapping/observation_quality_estimator/typetype" "idle" [("idle", false), ("ahr", true)] a.ahr
  blur : NumIs stod t "slam/mapping/blur" 0 a.blur
  range : (t "slam/mapping/max_range".toList = none ∧ a.maxRange = none) ∨
    ∃ s r, t "slam/mapping/max_range".toList = some s ∧ stod s = some r ∧ a.maxRange = some r

/-- The map. It has coarser levels exactly for the multi-resolution matcher. -/
structure MapSpec (stod : Str → Option K) (t : Table) (m : MapCfg K) : Prop where
  kind : OneOf t "slam/mapping/grid/type" "<undefined>"
    [("plain", MapKind.plain), ("unbounded_plain", .unboundedPlain), ("lazy_tiled", .lazyTiled),
      ("unbounded_lazy_tiled", .unboundedLazyTiled)] m.kind
  coarse : (TextIs t "slam/scmtch/type" "<undefined>" "BF_M3RSM" ∧ ∃ o, m.coarse = some o ∧ OieSpec t o) ∨
    (¬ TextIs t "slam/scmtch/type" "<undefined>" "BF_M3RSM" ∧ m.coarse = none)
  params : gridParams stod t = some m.params

/-- The cell model. -/
def CellSpec (t : Table) (c : CellModel) : Prop :=
  OneOf t "slam/mapping/grid/area/type" "<undefined>"
    [("tbm_consistent", CellModel.tbmConsistent), ("tbm_unknown_even_occ", .tbmUnknownEven),
      ("affine_quality_merge", .affine), ("mean_probability", .mean)] c

/-- The SLAM with one hypothesis. -/
structure WorldSpec (stod : Str → Option K) (rad : K) (rnd : Nat) (t : Table) (w : World K) : Prop where
  loc : NumIs stod t "slam/mapping/corrected_pose_quality" 1 w.localizedQuality
  raw : NumIs stod t "slam/mapping/raw_pose_quality" (1 / 2) w.rawQuality
  margin : w.margin = 0
  cell : CellSpec t w.map.cell
  map : MapSpec stod t w.map
  matcher : MatcherSpec stod rad rnd t w.matcher
  adder : AdderSpec stod t w.adder

end Spec

/-! ## Proofs -/

section
variable {K : Type*} [Field K] [LinearOrder K] [IsStrictOrderedRing K] [FloorRing K]
variable (stod : Str → Option K) (rad : K) (rnd : Nat)

theorem toList_inj {a b : String} : a.toList = b.toList ↔ a = b := by
  constructor
  · intro h; exact String.ext h
  · intro h; rw [h]

theorem getStr_iff (t : Table) (k d s : String) : getStr t k.toList d.toList = s.toList ↔ TextIs t k d s := by
  unfold getStr TextIs
  cases h : t k.toList with
  | none => simp only [Option.getD_none, toList_inj]; simp [eq_comm]
  | some v => simp

theorem getDbl_iff (t : Table) (k : String) (d v : K) : getDbl stod t k.toList d = some v ↔ NumIs stod t k d v := by
  unfold getDbl NumIs
  cases h : t k.toList with
  | none => simp [eq_comm]
  | some s => simp

theorem getUint_iff (t : Table) (k : String) (d n : Nat) : getUint t k.toList d = some n ↔ CountIs t k d n := by
  unfold getUint CountIs
  cases h : t k.toList with
  | none => simp [eq_comm]
  | some s => simp [Option.map_eq_some_iff, eq_comm]

theorem getBool_iff (t : Table) (k : String) (d b : Bool) : getBool t k.toList d = b ↔ SwitchIs t k d b := by
  unfold getBool SwitchIs
  cases h : t k.toList with
  | none => simp [eq_comm]
  | some s =>
    by_cases h1 : s = "false".toList
    · cases b <;> simp [h1]
    · by_cases h2 : s = "0".toList
      · cases b <;> simp [h2]
      · have e : (!(decide (s = "false".toList) || decide (s = "0".toList))) = true := by
          rw [decide_eq_false h1, decide_eq_false h2]; rfl
        simp only [e]
        constructor
        · intro hb
          right
          refine ⟨s, rfl, ?_⟩
          subst hb
          simp only [Bool.true_eq_false, false_iff, not_or]
          exact ⟨h1, h2⟩
        · rintro (⟨e, _⟩ | ⟨s', e, hb⟩)
          · cases e
          · cases e
            cases b with
            | true => rfl
            | false => rcases hb.1 rfl with h | h <;> contradiction

/-- A property has one text only. -/
theorem textIs_unique {t : Table} {k d a b : String} (ha : TextIs t k d a) (hb : TextIs t k d b) : a = b := by
  rw [← getStr_iff] at ha hb
  exact toList_inj.1 (ha.symm.trans hb)

/-- The first of the options whose name the text is. -/
def firstOption {α : Type*} (type : Str) : List (String × α) → Option α
  | [] => none
  | o :: os => if type = o.1.toList then some o.2 else firstOption type os

theorem firstOption_iff {α : Type*} (t : Table) (k d : String) (os : List (String × α))
    (hnd : (os.map Prod.fst).Nodup) (v : α) :
    firstOption (getStr t k.toList d.toList) os = some v ↔ OneOf t k d os v := by
  induction os with
  | nil => simp [firstOption, OneOf]
  | cons o os ih =>
    rw [List.map_cons, List.nodup_cons] at hnd
    unfold firstOption
    by_cases h : getStr t k.toList d.toList = o.1.toList
    · rw [if_pos h]
      have ht := (getStr_iff t k d o.1).1 h
      constructor
      · intro e
        exact ⟨o, List.mem_cons_self .., ht, by simpa [eq_comm] using e⟩
      · rintro ⟨o', ho', ht', rfl⟩
        rcases List.mem_cons.1 ho' with rfl | ho'
        · rfl
        · exact absurd (textIs_unique ht ht' ▸ List.mem_map_of_mem ho') hnd.1
    · rw [if_neg h, ih hnd.2]
      constructor
      · rintro ⟨o', ho', r⟩; exact ⟨o', List.mem_cons_of_mem _ ho', r⟩
      · rintro ⟨o', ho', ht', r⟩
        rcases List.mem_cons.1 ho' with rfl | ho'
        · exact absurd ((getStr_iff t k d _).2 ht') h
        · exact ⟨o', ho', ht', r⟩

theorem initOie_iff (t : Table) (o : Oie) : initOie t = some o ↔ OieSpec t o :=
  firstOption_iff t _ _ [("discrepancy", Oie.discrepancy), ("occupancy", .occupancy)] (by decide) o

theorem initOope_iff (t : Table) (c : OopeCfg K) : initOope t = some c ↔ OopeSpec t c := by
  have hc : ∀ oie : Oie, (let type := getStr t "slam/scmtch/oope/type".toList "obstacle".toList
      (if type = "obstacle".toList then some (OopeCfg.std .obstacle oie)
        else if type = "max".toList then some (.std .max oie)
        else if type = "mean".toList then some (.std .mean oie)
        else if type = "overlap".toList then some (.std .overlap oie)
        else none) = some c) ↔ ∃ o, c = OopeCfg.std o oie ∧ OneOf t "slam/scmtch/oope/type" "obstacle"
          [("obstacle", Oope.obstacle), ("max", .max), ("mean", .mean), ("overlap", .overlap)] o := by
    intro oie
    have h := fun c' => firstOption_iff t "slam/scmtch/oope/type" "obstacle"
      [("obstacle", (OopeCfg.std .obstacle oie : OopeCfg K)), ("max", .std .max oie), ("mean", .std .mean oie),
        ("overlap", .std .overlap oie)] (by simp) c'
    refine (h c).trans ?_
    unfold OneOf
    simp only [List.mem_cons, List.not_mem_nil, or_false, exists_eq_or_imp, exists_eq_left]
    constructor
    · rintro (⟨a, b⟩ | ⟨a, b⟩ | ⟨a, b⟩ | ⟨a, b⟩)
      · exact ⟨_, b, by simp [a]⟩
      · exact ⟨_, b, by simp [a]⟩
      · exact ⟨_, b, by simp [a]⟩
      · exact ⟨_, b, by simp [a]⟩
    · rintro ⟨o, e, h'⟩
      rcases h' with ⟨a, b⟩ | ⟨a, b⟩ | ⟨a, b⟩ | ⟨a, b⟩ <;> subst b <;> simp [a, e]
  unfold initOope OopeSpec
  simp only [Option.bind_eq_some_iff, initOie_iff]
  constructor
  · rintro ⟨i, hi, h⟩
    obtain ⟨o, e, ho⟩ := (hc i).1 h
    exact ⟨o, i, e, hi, ho⟩
  · rintro ⟨o, i, e, hi, ho⟩
    exact ⟨i, hi, (hc i).2 ⟨o, e, ho⟩⟩

theorem initSpeWith_iff (t : Table) (oope : OopeCfg K) (s : Spe K) :
    initSpeWith stod t oope = some s ↔ s.oope = oope ∧ SpeSpec stod t s := by
  have hw : ∀ v, initSwp t = some v ↔ OneOf t "slam/scmtch/spe/wmpp/weighting/type" "<undefined>"
      [("even", Spw.even), ("viny", .viny), ("ahr", .ahr)] v := fun v =>
    firstOption_iff t _ _ [("even", Spw.even), ("viny", .viny), ("ahr", .ahr)] (by decide) v
  unfold initSpeWith
  by_cases h : getStr t "slam/scmtch/spe/type".toList "<undefined>".toList = "wmpp".toList
  · simp only [h, if_true, Option.bind_eq_some_iff, Option.map_eq_some_iff, getUint_iff, getDbl_iff, hw]
    have ht := (getStr_iff t _ _ _).1 h
    constructor
    · rintro ⟨a, ha, b, hb, c, hc, rfl⟩
      exact ⟨rfl, ht, hc, ha, hb⟩
    · rintro ⟨rfl, h1, h2, h3, h4⟩
      exact ⟨_, h3, _, h4, _, h2, rfl⟩
  · simp only [h, if_false]
    constructor
    · intro h'; cases h'
    · rintro ⟨_, h1, _⟩
      exact absurd ((getStr_iff t _ _ _).2 h1) h

theorem initSweep_iff (t : Table) (dim : String) (limit step : K) (s : Sweep K) :
    initSweep stod t dim limit step = some s ↔ SweepSpec stod t dim limit step s := by
  unfold initSweep
  simp only [Option.bind_eq_some_iff, Option.map_eq_some_iff, getDbl_iff]
  constructor
  · rintro ⟨a, ha, b, hb, c, hc, rfl⟩; exact ⟨ha, hb, hc⟩
  · rintro ⟨h1, h2, h3⟩; exact ⟨_, h1, _, h2, _, h3, rfl⟩

theorem initAlgo_iff (t : Table) (a : Algo K) : initAlgo stod rad rnd t = some a ↔ AlgoSpec stod rad rnd t a := by
  have key : ∀ s : String, matcherType t = s.toList ↔ TextIs t "slam/scmtch/type" "<undefined>" s :=
    fun s => getStr_iff t _ _ s
  unfold initAlgo
  simp only [isM3rsm, decide_eq_true_eq]
  by_cases h1 : matcherType t = "MC".toList
  · rw [if_pos h1]
    have ht := (key _).1 h1
    simp only [initMonteCarlo, Option.bind_eq_some_iff, Option.map_eq_some_iff, getUint_iff, getDbl_iff]
    constructor
    · rintro ⟨a1, b1, a2, b2, a3, b3, a4, b4, a5, b5, rfl⟩
      refine .monteCarlo _ _ _ _ _ ht b1 b2 b3 b4 ?_
      unfold getInt at b5
      cases hs : t "slam/scmtch/MC/seed".toList with
      | none => rw [hs] at b5; left; exact ⟨rfl, by simpa [eq_comm] using b5⟩
      | some s => rw [hs] at b5; right; exact ⟨s, rfl, b5⟩
    · rintro (⟨_, _, _, _, _, _, b1, b2, b3, b4, b5⟩ | ⟨_, _, _, _, ht', _⟩ | ⟨_, _, _, ht', _⟩ |
        ⟨_, _, _, _, _, ht', _⟩ | ⟨ht'⟩ | ⟨ht'⟩)
      · refine ⟨_, b1, _, b2, _, b3, _, b4, _, ?_, rfl⟩
        unfold getInt
        rcases b5 with ⟨e, rfl⟩ | ⟨s, e, h⟩
        · rw [e]
        · rw [e]; exact h
      all_goals exact absurd (textIs_unique ht ht') (by decide)
  rw [if_neg h1]
  by_cases h2 : matcherType t = "HC".toList
  · rw [if_pos h2]
    have ht := (key _).1 h2
    simp only [initHillClimbing, Option.bind_eq_some_iff, Option.map_eq_some_iff, getUint_iff, getDbl_iff]
    constructor
    · rintro ⟨a1, b1, a2, b2, a3, b3, rfl⟩
      exact .hillClimbing _ _ _ _ ht b1 b2 b3 ((getBool_iff t _ _ _).1 rfl)
    · rintro (⟨_, _, _, _, _, ht', _⟩ | ⟨_, _, _, _, _, b1, b2, b3, b4⟩ | ⟨_, _, _, ht', _⟩ |
        ⟨_, _, _, _, _, ht', _⟩ | ⟨ht'⟩ | ⟨ht'⟩)
      · exact absurd (textIs_unique ht ht') (by decide)
      · refine ⟨_, b1, _, b2, _, b3, ?_⟩
        rw [(getBool_iff t _ _ _).2 b4]
      all_goals exact absurd (textIs_unique ht ht') (by decide)
  rw [if_neg h2]
  by_cases h3 : matcherType t = "BF".toList
  · rw [if_pos h3]
    have ht := (key _).1 h3
    simp only [initBruteForce, Option.bind_eq_some_iff, Option.map_eq_some_iff, initSweep_iff, one_mul]
    constructor
    · rintro ⟨a1, b1, a2, b2, a3, b3, rfl⟩
      exact .bruteForce _ _ _ ht b1 b2 b3
    · rintro (⟨_, _, _, _, _, ht', _⟩ | ⟨_, _, _, _, ht', _⟩ | ⟨_, _, _, _, b1, b2, b3⟩ |
        ⟨_, _, _, _, _, ht', _⟩ | ⟨ht'⟩ | ⟨ht'⟩)
      · exact absurd (textIs_unique ht ht') (by decide)
      · exact absurd (textIs_unique ht ht') (by decide)
      · exact ⟨_, b1, _, b2, _, b3, rfl⟩
      all_goals exact absurd (textIs_unique ht ht') (by decide)
  rw [if_neg h3]
  by_cases h4 : matcherType t = "BF_M3RSM".toList
  · rw [if_pos h4]
    have ht := (key _).1 h4
    simp only [initM3rsm, Option.bind_eq_some_iff, Option.map_eq_some_iff, getDbl_iff]
    constructor
    · rintro ⟨a1, b1, a2, b2, a3, b3, a4, b4, a5, b5, rfl⟩
      exact .m3rsm _ _ _ _ _ ht b3 b4 b5 b1 b2
    · rintro (⟨_, _, _, _, _, ht', _⟩ | ⟨_, _, _, _, ht', _⟩ | ⟨_, _, _, ht', _⟩ |
        ⟨_, _, _, _, _, _, b1, b2, b3, b4, b5⟩ | ⟨ht'⟩ | ⟨ht'⟩)
      · exact absurd (textIs_unique ht ht') (by decide)
      · exact absurd (textIs_unique ht ht') (by decide)
      · exact absurd (textIs_unique ht ht') (by decide)
      · exact ⟨_, b4, _, b5, _, b1, _, b2, _, b3, rfl⟩
      all_goals exact absurd (textIs_unique ht ht') (by decide)
  rw [if_neg h4]
  by_cases h5 : matcherType t = "idle".toList
  · rw [if_pos h5]
    have ht := (key _).1 h5
    constructor
    · intro h; cases h; exact .idle ht
    · rintro (⟨_, _, _, _, _, ht', _⟩ | ⟨_, _, _, _, ht', _⟩ | ⟨_, _, _, ht', _⟩ |
        ⟨_, _, _, _, _, ht', _⟩ | ⟨ht'⟩ | ⟨ht'⟩)
      on_goal 5 => rfl
      all_goals exact absurd (textIs_unique ht ht') (by decide)
  rw [if_neg h5]
  by_cases h6 : matcherType t = "HC_FIXED".toList
  · rw [if_pos h6]
    have ht := (key _).1 h6
    constructor
    · intro h; cases h; exact .hcFixed ht
    · rintro (⟨_, _, _, _, _, ht', _⟩ | ⟨_, _, _, _, ht', _⟩ | ⟨_, _, _, ht', _⟩ |
        ⟨_, _, _, _, _, ht', _⟩ | ⟨ht'⟩ | ⟨ht'⟩)
      on_goal 6 => rfl
      all_goals exact absurd (textIs_unique ht ht') (by decide)
  rw [if_neg h6]
  constructor
  · intro h; cases h
  · rintro (⟨_, _, _, _, _, ht', _⟩ | ⟨_, _, _, _, ht', _⟩ | ⟨_, _, _, ht', _⟩ |
      ⟨_, _, _, _, _, ht', _⟩ | ⟨ht'⟩ | ⟨ht'⟩)
    · exact absurd ((key _).2 ht') h1
    · exact absurd ((key _).2 ht') h2
    · exact absurd ((key _).2 ht') h3
    · exact absurd ((key _).2 ht') h4
    · exact absurd ((key _).2 ht') h5
    · exact absurd ((key _).2 ht') h6

theorem initMatcher_iff (t : Table) (m : Matcher K) :
    initMatcher stod rad rnd t = some m ↔ MatcherSpec stod rad rnd t m := by
  unfold initMatcher initSpe
  simp only [Option.bind_eq_some_iff, Option.map_eq_some_iff, initAlgo_iff, initSpeWith_iff, initOope_iff]
  constructor
  · rintro ⟨s, ⟨o, ho, e, hs⟩, a, ha, rfl⟩
    exact ⟨by rw [e]; exact ho, hs, ha, (getBool_iff t _ _ _).1 rfl⟩
  · rintro ⟨h1, h2, h3, h4⟩
    refine ⟨m.spe, ⟨_, h1, rfl, h2⟩, m.algo, h3, ?_⟩
    rw [(getBool_iff t _ _ _).2 h4]

theorem initAdder_iff (t : Table) (a : Adder K) : initAdder stod t = some a ↔ AdderSpec stod t a := by
  have hk : ∀ v, (let type := getStr t "slam/occupancy_estimator/type".toList "const".toList
      (if type = "const".toList then some false else if type = "area".toList then some true else none) = some v) ↔
      OneOf t "slam/occupancy_estimator/type" "const" [("const", false), ("area", true)] v := fun v =>
    firstOption_iff t _ _ [("const", false), ("area", true)] (by decide) v
  have hq : ∀ v, (let omqe := getStr t "slam/mapping/observation_quality_estimator/typetype".toList "idle".toList
      (if omqe = "idle".toList then some false else if omqe = "ahr".toList then some true else none) = some v) ↔
      OneOf t "slam/mapping/observation_quality_estimator/typetype" "idle" [("idle", false), ("ahr", true)] v := fun v =>
    firstOption_iff t _ _ [("idle", false), ("ahr", true)] (by decide) v
  have hr : ∀ v, getDbl (fun s => (stod s).map some) t "slam/mapping/max_range".toList none = some v ↔
      ((t "slam/mapping/max_range".toList = none ∧ v = none) ∨
        ∃ s r, t "slam/mapping/max_range".toList = some s ∧ stod s = some r ∧ v = some r) := by
    intro v
    unfold getDbl
    cases t "slam/mapping/max_range".toList with
    | none => simp [eq_comm]
    | some s => simp [Option.map_eq_some_iff, eq_comm]
  simp only at hk hq
  unfold initAdder
  simp only [Option.bind_eq_some_iff, Option.map_eq_some_iff, getDbl_iff, hk, hq, hr]
  constructor
  · rintro ⟨a1, b1, a2, b2, a3, b3, a4, b4, a5, b5, a6, b6, a7, b7, a8, b8, rfl⟩
    exact ⟨b5, b1, b2, b3, b4, b6, b7, b8⟩
  · rintro ⟨b5, b1, b2, b3, b4, b6, b7, b8⟩
    exact ⟨_, b1, _, b2, _, b3, _, b4, _, b5, _, b6, _, b7, _, b8, rfl⟩

theorem initMapWith_iff (t : Table) (c : CellModel) (m : MapCfg K) :
    initMapWith stod t c = some m ↔ m.cell = c ∧ MapSpec stod t m := by
  have hc : ∀ kind, createMap stod t c kind = some m ↔ m.kind = kind ∧ m.cell = c ∧
      gridParams stod t = some m.params ∧
      ((TextIs t "slam/scmtch/type" "<undefined>" "BF_M3RSM" ∧ ∃ o, m.coarse = some o ∧ OieSpec t o) ∨
        (¬ TextIs t "slam/scmtch/type" "<undefined>" "BF_M3RSM" ∧ m.coarse = none)) := by
    intro kind
    have key : matcherType t = "BF_M3RSM".toList ↔ TextIs t "slam/scmtch/type" "<undefined>" "BF_M3RSM" :=
      getStr_iff t _ _ _
    unfold createMap
    simp only [Option.bind_eq_some_iff]
    by_cases h : TextIs t "slam/scmtch/type" "<undefined>" "BF_M3RSM"
    · have hm : isM3rsm (matcherType t) = true := by rw [isM3rsm, decide_eq_true_eq]; exact key.2 h
      simp only [h, hm, if_true, Option.map_eq_some_iff, initOie_iff, not_true_eq_false, false_and, or_false, true_and]
      constructor
      · rintro ⟨p, hp, o, ho, rfl⟩; exact ⟨rfl, rfl, hp, o, rfl, ho⟩
      · rintro ⟨rfl, rfl, hp, o, e, ho⟩
        exact ⟨_, hp, o, ho, by rw [← e]⟩
    · have hm : isM3rsm (matcherType t) = false := by rw [isM3rsm, decide_eq_false_iff_not]; exact fun e => h (key.1 e)
      simp only [h, hm, Bool.false_eq_true, if_false, not_false_eq_true, false_and, false_or, true_and,
        Option.some.injEq]
      constructor
      · rintro ⟨p, hp, rfl⟩; exact ⟨rfl, rfl, hp, rfl⟩
      · rintro ⟨rfl, rfl, hp, e⟩
        exact ⟨_, hp, by rw [← e]⟩
  have ho := fun v => firstOption_iff t "slam/mapping/grid/type" "<undefined>"
    [("plain", createMap stod t c .plain), ("unbounded_plain", createMap stod t c .unboundedPlain),
      ("lazy_tiled", createMap stod t c .lazyTiled),
      ("unbounded_lazy_tiled", createMap stod t c .unboundedLazyTiled)] (by simp) v
  have hu : initMapWith stod t c = (firstOption (getStr t "slam/mapping/grid/type".toList "<undefined>".toList)
    [("plain", createMap stod t c .plain), ("unbounded_plain", createMap stod t c .unboundedPlain),
      ("lazy_tiled", createMap stod t c .lazyTiled),
      ("unbounded_lazy_tiled", createMap stod t c .unboundedLazyTiled)]).bind id := by
    unfold initMapWith
    simp only [firstOption]
    by_cases h1 : getStr t "slam/mapping/grid/type".toList "<undefined>".toList = "plain".toList
    · rw [if_pos h1, if_pos h1]; rfl
    rw [if_neg h1, if_neg h1]
    by_cases h1 : getStr t "slam/mapping/grid/type".toList "<undefined>".toList = "unbounded_plain".toList
    · rw [if_pos h1, if_pos h1]; rfl
    rw [if_neg h1, if_neg h1]
    by_cases h1 : getStr t "slam/mapping/grid/type".toList "<undefined>".toList = "lazy_tiled".toList
    · rw [if_pos h1, if_pos h1]; rfl
    rw [if_neg h1, if_neg h1]
    by_cases h1 : getStr t "slam/mapping/grid/type".toList "<undefined>".toList = "unbounded_lazy_tiled".toList
    · rw [if_pos h1, if_pos h1]; rfl
    rw [if_neg h1, if_neg h1]; rfl
  rw [hu, Option.bind_eq_some_iff]
  simp only [ho, id]
  unfold OneOf
  simp only [List.mem_cons, List.not_mem_nil, or_false, exists_eq_or_imp, exists_eq_left]
  constructor
  · rintro ⟨x, hx, rfl⟩
    rcases hx with ⟨a, b⟩ | ⟨a, b⟩ | ⟨a, b⟩ | ⟨a, b⟩
    all_goals
      obtain ⟨h1, h2, h3, h4⟩ := (hc _).1 b.symm
      refine ⟨h2, ?_, h4, h3⟩
      unfold OneOf
      simp [a, h1]
  · rintro ⟨h1, ⟨o, ho, a, b⟩, h3, h4⟩
    simp only [List.mem_cons, List.not_mem_nil, or_false] at ho
    rcases ho with rfl | rfl | rfl | rfl
    · exact ⟨_, Or.inl ⟨a, rfl⟩, (hc _).2 ⟨b, h1, h4, h3⟩⟩
    · exact ⟨_, Or.inr (Or.inl ⟨a, rfl⟩), (hc _).2 ⟨b, h1, h4, h3⟩⟩
    · exact ⟨_, Or.inr (Or.inr (Or.inl ⟨a, rfl⟩)), (hc _).2 ⟨b, h1, h4, h3⟩⟩
    · exact ⟨_, Or.inr (Or.inr (Or.inr ⟨a, rfl⟩)), (hc _).2 ⟨b, h1, h4, h3⟩⟩

/-- **The SLAM is assembled as configured (C72)**: the program starts, with the components and parameters `w`, exactly
if each property that it needs names a known component or reads as a number, and `w` is made of these. -/
theorem assembled_as_configured (t : Table) (w : World K) :
    init1h stod rad rnd t = some w ↔ WorldSpec stod rad rnd t w := by
  have hcell : ∀ c, initCell t = some c ↔ CellSpec t c := fun c =>
    firstOption_iff t _ _ [("tbm_consistent", CellModel.tbmConsistent), ("tbm_unknown_even_occ", .tbmUnknownEven),
      ("affine_quality_merge", .affine), ("mean_probability", .mean)] (by decide) c
  unfold init1h initMap
  simp only [Option.bind_eq_some_iff, Option.map_eq_some_iff, getDbl_iff, initMatcher_iff, initAdder_iff, hcell,
    initMapWith_iff]
  constructor
  · rintro ⟨a1, b1, a2, b2, a3, ⟨c, hc, e, b3⟩, a4, b4, a5, b5, rfl⟩
    exact ⟨b1, b2, rfl, by rw [e]; exact hc, b3, b4, b5⟩
  · rintro ⟨b1, b2, bm, hc, b3, b4, b5⟩
    refine ⟨_, b1, _, b2, _, ⟨_, hc, rfl, b3⟩, _, b4, _, b5, ?_⟩
    rw [← bm]

/-- **The credibilist SLAM is assembled as configured (C72)**: its cell model and its qualities are fixed. -/
theorem credibilist_as_configured (t : Table) (w : World K) :
    initCredibilist stod rad rnd t = some w ↔
      w.localizedQuality = 9 / 10 ∧ w.rawQuality = 3 / 5 ∧ w.margin = 0 ∧ w.map.cell = .credibilist ∧
      MapSpec stod t w.map ∧ MatcherSpec stod rad rnd t w.matcher ∧ AdderSpec stod t w.adder := by
  unfold initCredibilist
  simp only [Option.bind_eq_some_iff, Option.map_eq_some_iff, initMatcher_iff, initAdder_iff, initMapWith_iff]
  constructor
  · rintro ⟨m, ⟨e, hm⟩, a, ha, b, hb, rfl⟩
    exact ⟨rfl, rfl, rfl, e, hm, ha, hb⟩
  · rintro ⟨h1, h2, h3, h4, h5, h6, h7⟩
    refine ⟨_, ⟨h4, h5⟩, _, h6, _, h7, ?_⟩
    rw [← h1, ← h2, ← h3]

/-- Specification of GMapping's configuration: the number of particles, the sampling of poses, and the one world of
which the particles are copies. -/
structure GmappingSpec (stod : Str → Option K) (t : Table) (w : World K) (p : GmappingParams K) (n : Nat) : Prop where
  particles : CountIs t "slam/particles/number" 30 n
  meanXY : NumIs stod t "slam/particles/sample/xy/mean" 0 p.meanXY
  sigmaXY : NumIs stod t "slam/particles/sample/xy/sigma" (1 / 10) p.sigmaXY
  meanTh : NumIs stod t "slam/particles/sample/theta/mean" 0 p.meanTh
  sigmaTh : NumIs stod t "slam/particles/sample/theta/sigma" (3 / 100) p.sigmaTh
  minXY : NumIs stod t "slam/particles/sm_delta_lim/xy/min" (3 / 5) p.minXY
  maxXY : NumIs stod t "slam/particles/sm_delta_lim/xy/max" (4 / 5) p.maxXY
  minTh : NumIs stod t "slam/particles/sm_delta_lim/theta/min" (3 / 10) p.minTh
  maxTh : NumIs stod t "slam/particles/sm_delta_lim/theta/max" (2 / 5) p.maxTh
  qualities : w.localizedQuality = 1 ∧ w.rawQuality = 1 ∧ w.margin = 0
  map : w.map.kind = .unboundedLazyTiled ∧ w.map.coarse = none ∧ w.map.cell = .gmapping ∧
    gridParams stod t = some w.map.params
  oopeType : TextIs t "slam/scmtch/oope/type" "custom" "custom"
  oope : ∃ f n, w.matcher.spe.oope = .gmapping f n ∧
    NumIs stod t "slam/scmtch/oope/custom/fullness_threshold" (1 / 10) f ∧
    CountIs t "slam/scmtch/oope/cutrom/window_size" 1 n
  spe : SpeSpec stod t w.matcher.spe
  matcher : w.matcher.algo = .hillClimbing 6 (1 / 10) (1 / 10) false ∧ w.matcher.drift = false
  adder : AdderSpec stod t w.adder

/-- **GMapping is assembled as configured (C72)**. -/
theorem gmapping_as_configured (t : Table) (w : World K) (p : GmappingParams K) (n : Nat) :
    initGmapping stod t = some (w, p, n) ↔ GmappingSpec stod t w p n := by
  have hspe : ∀ s, initGmappingSpe stod t = some s ↔ TextIs t "slam/scmtch/oope/type" "custom" "custom" ∧
      (∃ f n, s.oope = .gmapping f n ∧ NumIs stod t "slam/scmtch/oope/custom/fullness_threshold" (1 / 10) f ∧
        CountIs t "slam/scmtch/oope/cutrom/window_size" 1 n) ∧ SpeSpec stod t s := by
    intro s
    unfold initGmappingSpe
    have hs := getStr_iff t "slam/scmtch/oope/type" "custom" "custom"
    by_cases h : getStr t "slam/scmtch/oope/type".toList "custom".toList = "custom".toList
    · rw [if_pos h]
      simp only [Option.bind_eq_some_iff, getDbl_iff, getUint_iff, initSpeWith_iff]
      constructor
      · rintro ⟨f, hf, n, hn, e, hsp⟩; exact ⟨hs.1 h, ⟨f, n, e, hf, hn⟩, hsp⟩
      · rintro ⟨_, ⟨f, n, e, hf, hn⟩, hsp⟩; exact ⟨f, hf, n, hn, e, hsp⟩
    · rw [if_neg h]
      constructor
      · intro h'; cases h'
      · rintro ⟨h', _⟩; exact absurd (hs.2 h') h
  unfold initGmapping initGmappingParams
  simp only [Option.bind_eq_some_iff, Option.map_eq_some_iff, getDbl_iff, getUint_iff, initAdder_iff, hspe,
    Prod.mk.injEq]
  constructor
  · rintro ⟨g, hg, s, ⟨hs1, hs2, hs3⟩, a, ha, q, ⟨a1, b1, a2, b2, a3, b3, a4, b4, a5, b5, a6, b6, a7, b7, a8, b8, rfl⟩,
      m, hm, rfl, rfl, rfl⟩
    exact ⟨hm, b1, b2, b3, b4, b5, b6, b7, b8, ⟨rfl, rfl, rfl⟩, ⟨rfl, rfl, rfl, hg⟩, hs1, hs2, hs3, ⟨rfl, rfl⟩, ha⟩
  · rintro ⟨hm, b1, b2, b3, b4, b5, b6, b7, b8, ⟨q1, q2, q3⟩, ⟨m1, m2, m3, m4⟩, hs1, hs2, hs3, ⟨k1, k2⟩, ha⟩
    refine ⟨_, m4, _, ⟨hs1, hs2, hs3⟩, _, ha, p,
      ⟨_, b1, _, b2, _, b3, _, b4, _, b5, _, b6, _, b7, _, b8, rfl⟩, n, hm, ?_, rfl, rfl⟩
    obtain ⟨wl, wr, wm, ⟨mk, mc, mce, mp⟩, ⟨al, sp, dr⟩, ad⟩ := w
    simp only at q1 q2 q3 m1 m2 m3 k1 k2
    subst q1 q2 q3 m1 m2 m3 k1 k2
    rfl

/-- **The map fits the matcher (C72)**: the map has coarser levels exactly if the matcher is the multi-resolution
one. -/
theorem m3rsm_iff_coarse_map (t : Table) (w : World K)
    (h : init1h stod rad rnd t = some w ∨ initCredibilist stod rad rnd t = some w) :
    (∃ x y r a l, w.matcher.algo = .m3rsm x y r a l) ↔ ∃ o, w.map.coarse = some o := by
  have hms : MapSpec stod t w.map ∧ MatcherSpec stod rad rnd t w.matcher := by
    rcases h with h | h
    · have := (assembled_as_configured stod rad rnd t w).1 h
      exact ⟨this.map, this.matcher⟩
    · have := (credibilist_as_configured stod rad rnd t w).1 h
      exact ⟨this.2.2.2.2.1, this.2.2.2.2.2.1⟩
  obtain ⟨hm, hs⟩ := hms
  have ha := hs.algo
  constructor
  · rintro ⟨x, y, r, a, l, e⟩
    rw [e] at ha
    cases ha with
    | m3rsm _ _ _ _ _ type =>
      rcases hm.coarse with ⟨_, o, ho, _⟩ | ⟨hn, _⟩
      · exact ⟨o, ho⟩
      · exact absurd type hn
  · rintro ⟨o, ho⟩
    rcases hm.coarse with ⟨ht, _⟩ | ⟨_, hn⟩
    · revert ha
      generalize w.matcher.algo = al
      intro ha
      cases ha with
      | m3rsm x y r a l => exact ⟨x, y, r, a, l, rfl⟩
      | monteCarlo _ _ _ _ _ type => exact absurd (textIs_unique ht type) (by decide)
      | hillClimbing _ _ _ _ type => exact absurd (textIs_unique ht type) (by decide)
      | bruteForce _ _ _ type => exact absurd (textIs_unique ht type) (by decide)
      | idle type => exact absurd (textIs_unique ht type) (by decide)
      | hcFixed type => exact absurd (textIs_unique ht type) (by decide)
    · rw [hn] at ho; cases ho

/-- Specification: the properties that the SLAM with one hypothesis has. -/
def knownProperties : List String :=
  ["slam/mapping/corrected_pose_quality", "slam/mapping/raw_pose_quality", "slam/map/height_in_meters",
    "slam/map/width_in_meters", "slam/map/meters_per_cell", "slam/mapping/grid/type", "slam/mapping/grid/area/type",
    "slam/mapping/blur", "slam/mapping/max_range", "slam/mapping/observation_quality_estimator/typetype",
    "slam/occupancy_estimator/type", "slam/occupancy_estimator/base_occupied/prob",
    "slam/occupancy_estimator/base_occupied/qual", "slam/occupancy_estimator/base_empty/prob",
    "slam/occupancy_estimator/base_empty/qual", "slam/scmtch/type", "slam/scmtch/use_amb_drift_detector",
    "slam/scmtch/oie/type", "slam/scmtch/oope/type", "slam/scmtch/spe/type", "slam/scmtch/spe/wmpp/weighting/type",
    "slam/scmtch/spe/wmpp/sp_skip_rate", "slam/scmtch/spe/wmpp/sp_max_usable_range",
    "slam/scmtch/MC/dispersion/translation", "slam/scmtch/MC/dispersion/rotation",
    "slam/scmtch/MC/dispersion/failed_attempts_limit", "slam/scmtch/MC/attempts_limit", "slam/scmtch/MC/seed",
    "slam/scmtch/HC/distortion/translation", "slam/scmtch/HC/distortion/rotation",
    "slam/scmtch/HC/distortion/failed_attempts_limit", "slam/scmtch/HC/use_frame_alignement",
    "slam/scmtch/BF/x/from", "slam/scmtch/BF/x/to", "slam/scmtch/BF/x/step",
    "slam/scmtch/BF/y/from", "slam/scmtch/BF/y/to", "slam/scmtch/BF/y/step",
    "slam/scmtch/BF/t/from", "slam/scmtch/BF/t/to", "slam/scmtch/BF/t/step",
    "slam/scmtch/BF_M3RSM/accuracy/rotation", "slam/scmtch/BF_M3RSM/accuracy/translation",
    "slam/scmtch/BF_M3RSM/limits/x_translation", "slam/scmtch/BF_M3RSM/limits/y_translation",
    "slam/scmtch/BF_M3RSM/limits/rotation"]

theorem init1h_congr (t t' : Table) (h : ∀ k ∈ knownProperties, t k.toList = t' k.toList) :
    init1h stod rad rnd t = init1h stod rad rnd t' := by
  simp only [knownProperties, List.forall_mem_cons, List.not_mem_nil, false_imp_iff, implies_true, and_true] at h
  obtain ⟨e1, e2, e3, e4, e5, e6, e7, e8, e9, e10, e11, e12, e13, e14, e15, e16, e17, e18, e19, e20, e21, e22, e23, e24,
    e25, e26, e27, e28, e29, e30, e31, e32, e33, e34, e35, e36, e37, e38, e39, e40, e41, e42, e43, e44, e45, e46⟩ := h
  have hx : ∀ dim : String, dim = "x" ∨ dim = "y" ∨ dim = "t" → ∀ l s : K,
      initSweep stod t dim l s = initSweep stod t' dim l s := by
    intro dim hd l s
    rcases hd with rfl | rfl | rfl
    · have f1 : t ("slam/scmtch/BF/" ++ "x" ++ "/from").toList = t' ("slam/scmtch/BF/" ++ "x" ++ "/from").toList := e33
      have f2 : t ("slam/scmtch/BF/" ++ "x" ++ "/to").toList = t' ("slam/scmtch/BF/" ++ "x" ++ "/to").toList := e34
      have f3 : t ("slam/scmtch/BF/" ++ "x" ++ "/step").toList = t' ("slam/scmtch/BF/" ++ "x" ++ "/step").toList := e35
      simp only [initSweep, getDbl, f1, f2, f3]
    · have f1 : t ("slam/scmtch/BF/" ++ "y" ++ "/from").toList = t' ("slam/scmtch/BF/" ++ "y" ++ "/from").toList := e36
      have f2 : t ("slam/scmtch/BF/" ++ "y" ++ "/to").toList = t' ("slam/scmtch/BF/" ++ "y" ++ "/to").toList := e37
      have f3 : t ("slam/scmtch/BF/" ++ "y" ++ "/step").toList = t' ("slam/scmtch/BF/" ++ "y" ++ "/step").toList := e38
      simp only [initSweep, getDbl, f1, f2, f3]
    · have f1 : t ("slam/scmtch/BF/" ++ "t" ++ "/from").toList = t' ("slam/scmtch/BF/" ++ "t" ++ "/from").toList := e39
      have f2 : t ("slam/scmtch/BF/" ++ "t" ++ "/to").toList = t' ("slam/scmtch/BF/" ++ "t" ++ "/to").toList := e40
      have f3 : t ("slam/scmtch/BF/" ++ "t" ++ "/step").toList = t' ("slam/scmtch/BF/" ++ "t" ++ "/step").toList := e41
      simp only [initSweep, getDbl, f1, f2, f3]
  have gs : ∀ {k : Str}, t k = t' k → ∀ d, getStr t k d = getStr t' k d := by
    intro k h d; unfold getStr; rw [h]
  have gd : ∀ {L : Type _} (f : Str → Option L) {k : Str}, t k = t' k → ∀ d, getDbl f t k d = getDbl f t' k d := by
    intro L f k h d; unfold getDbl; rw [h]
  have gu : ∀ {k : Str}, t k = t' k → ∀ d, getUint t k d = getUint t' k d := by
    intro k h d; unfold getUint; rw [h]
  have gb : ∀ {k : Str}, t k = t' k → ∀ d, getBool t k d = getBool t' k d := by
    intro k h d; unfold getBool; rw [h]
  have gi : ∀ {k : Str}, t k = t' k → ∀ d, getInt t k d = getInt t' k d := by
    intro k h d; unfold getInt; rw [h]
  have p1 : (initOie t) = initOie t' := by unfold initOie; rw [gs e18]
  have p2 : (initOope t : Option (OopeCfg K)) = initOope t' := by unfold initOope; rw [gs e19, p1]
  have p3 : initSwp t = initSwp t' := by unfold initSwp; rw [gs e21]
  have p4 : initSpe stod t = initSpe stod t' := by
    unfold initSpe initSpeWith; rw [gs e20, p2, p3, gu e22, gd stod e23]
  have p5 : matcherType t = matcherType t' := gs e16 _
  have p6 : initAlgo stod rad rnd t = initAlgo stod rad rnd t' := by
    have q1 : initMonteCarlo stod rnd t = initMonteCarlo stod rnd t' := by
      unfold initMonteCarlo; rw [gd stod e24, gd stod e25, gu e26, gu e27, gi e28]
    have q2 : initHillClimbing stod t = initHillClimbing stod t' := by
      unfold initHillClimbing; rw [gd stod e29, gd stod e30, gu e31, gb e32]
    have q3 : initBruteForce stod rad t = initBruteForce stod rad t' := by
      unfold initBruteForce; rw [hx "x" (by simp), hx "y" (by simp), hx "t" (by simp)]
    have q4 : initM3rsm stod rad t = initM3rsm stod rad t' := by
      unfold initM3rsm; rw [gd stod e42, gd stod e43, gd stod e44, gd stod e45, gd stod e46]
    unfold initAlgo; rw [p5, q1, q2, q3, q4]
  have p7 : initMatcher stod rad rnd t = initMatcher stod rad rnd t' := by
    unfold initMatcher; rw [p4, p6, gb e17]
  have p8 : initAdder stod t = initAdder stod t' := by
    unfold initAdder
    rw [gd stod e12, gd stod e13, gd stod e14, gd stod e15, gs e11, gs e10, gd stod e8, gd _ e9]
  have p9 : gridParams stod t = gridParams stod t' := by
    unfold gridParams; rw [gd stod e3, gd stod e4, gd stod e5]
  have p10 : initMap stod t = initMap stod t' := by
    have q : ∀ c k, createMap stod t c k = createMap stod t' c k := by
      intro c k; unfold createMap; rw [p9, p5, p1]
    have q' : initCell t = initCell t' := by unfold initCell; rw [gs e7]
    unfold initMap
    rw [q']
    congr 1
    funext c
    unfold initMapWith
    rw [gs e6, q, q, q, q]
  unfold init1h
  rw [gd stod e1, gd stod e2, p10, p7, p8]

/-- **No other property matters (C72)**: two configurations with the same known properties give the same SLAM. -/
theorem other_properties_ignored (t : Table) (k v : Str) (hk : ∀ p ∈ knownProperties, k ≠ p.toList) :
    init1h stod rad rnd (t.set k v) = init1h stod rad rnd t := by
  apply init1h_congr
  intro p hp
  exact if_neg (fun e => hk p hp e.symm)

/-- In particular the name under which the quality estimator is documented, and the names of the limits in the
configuration file that the repository ships for the multi-resolution matcher, have no effect (C72). -/
theorem shipped_properties_ignored_counterexample (t : Table) (v : Str) :
    init1h stod rad rnd (t.set "slam/mapping/observation_quality_estimator/type".toList v) = init1h stod rad rnd t ∧
    init1h stod rad rnd (t.set "slam/scmtch/BF_M3RSM/limit/rotation".toList v) = init1h stod rad rnd t ∧
    init1h stod rad rnd (t.set "slam/scmtch/BF_M3RSM/limit/x_translation".toList v) = init1h stod rad rnd t := by
  refine ⟨?_, ?_, ?_⟩
  all_goals
    apply other_properties_ignored
    intro p hp e
    have := toList_inj.1 e
    revert hp
    rw [← this]
    decide

end

/-! ## Non-vacuity -/

/-- A configuration with the multi-resolution matcher. -/
def exampleConfig : Table :=
  ((((((Table.empty.set "slam/scmtch/type".toList "BF_M3RSM".toList).set "slam/scmtch/spe/type".toList "wmpp".toList).set
    "slam/scmtch/spe/wmpp/weighting/type".toList "even".toList).set "slam/mapping/grid/type".toList
    "unbounded_plain".toList).set "slam/mapping/grid/area/type".toList "mean_probability".toList).set
    "slam/scmtch/BF_M3RSM/limits/rotation".toList "1".toList)

/-- Reads `1` only. -/
def exampleNumber (s : Str) : Option ℚ := if s = "1".toList then some 1 else none

example : WorldSpec exampleNumber (1 / 60) 7 exampleConfig
    { localizedQuality := 1, rawQuality := 1 / 2, margin := 0
      map := ⟨.unboundedPlain, some .discrepancy, .mean, ⟨100, 100, 1 / 10⟩⟩
      matcher := ⟨.m3rsm 1 1 1 (1 / 600) (1 / 20), ⟨.std .obstacle .discrepancy, .even, 0, -1⟩, false⟩
      adder := ⟨false, 19 / 20, 1, 1 / 100, 1, false, 0, none⟩ } := by
  have hp : gridParams exampleNumber exampleConfig = some ⟨100, 100, 1 / 10⟩ := by
    have h1 : ⌈(10 : ℚ) / (1 / 10)⌉ = 100 := by norm_num
    have n1 : exampleConfig "slam/map/height_in_meters".toList = none := by decide
    have n2 : exampleConfig "slam/map/width_in_meters".toList = none := by decide
    have n3 : exampleConfig "slam/map/meters_per_cell".toList = none := by decide
    simp only [gridParams, getDbl, n1, n2, n3, Option.bind_some, h1]
    rw [if_neg (by norm_num)]
    rfl
  refine ⟨Or.inl ⟨by decide, rfl⟩, Or.inl ⟨by decide, rfl⟩, rfl, ⟨("mean_probability", .mean), by simp, Or.inr (by decide), rfl⟩,
    ⟨⟨("unbounded_plain", .unboundedPlain), by simp, Or.inr (by decide), rfl⟩,
      Or.inl ⟨Or.inr (by decide), .discrepancy, rfl, ("discrepancy", .discrepancy), by simp, Or.inl ⟨by decide, rfl⟩, rfl⟩, hp⟩,
    ⟨⟨.obstacle, .discrepancy, rfl, ⟨("discrepancy", .discrepancy), by simp, Or.inl ⟨by decide, rfl⟩, rfl⟩,
        ("obstacle", .obstacle), by simp, Or.inl ⟨by decide, rfl⟩, rfl⟩,
      ⟨Or.inr (by decide), ⟨("even", .even), by simp, Or.inr (by decide), rfl⟩, Or.inl ⟨by decide, rfl⟩,
        Or.inl ⟨by decide, rfl⟩⟩,
      .m3rsm _ _ _ _ _ (Or.inr (by decide)) (Or.inl ⟨by decide, rfl⟩) (Or.inl ⟨by decide, rfl⟩)
        (Or.inr ⟨"1".toList, by decide, rfl⟩) (Or.inl ⟨by decide, by norm_num⟩) (Or.inl ⟨by decide, rfl⟩),
      Or.inl ⟨by decide, rfl⟩⟩,
    ⟨⟨("const", false), by simp, Or.inl ⟨by decide, rfl⟩, rfl⟩, Or.inl ⟨by decide, rfl⟩, Or.inl ⟨by decide, rfl⟩,
      Or.inl ⟨by decide, rfl⟩, Or.inl ⟨by decide, rfl⟩, ⟨("idle", false), by simp, Or.inl ⟨by decide, rfl⟩, rfl⟩,
      Or.inl ⟨by decide, rfl⟩, Or.inl ⟨by decide, rfl⟩⟩⟩

/-- Without the type of the scan matcher the program does not start. -/
example : init1h exampleNumber (1 / 60) 7 (Table.empty) = none := by
  cases h : init1h exampleNumber (1 / 60) 7 (Table.empty) with
  | none => rfl
  | some w =>
    have := ((assembled_as_configured exampleNumber (1 / 60) 7 _ w).1 h).matcher.spe.type
    rcases this with ⟨_, e⟩ | e
    · exact absurd e (by decide)
    · cases e

end Slam.Config
