import Verif.Config.Assemble

/-!
# Properties that matter to GMapping and to the credibilist SLAM (C72)
-/

set_option autoImplicit false
set_option linter.unusedSectionVars false

namespace Slam.Config

variable {K : Type*} [Field K] [LinearOrder K] [IsStrictOrderedRing K] [FloorRing K] {stod : Str → Option K} {rad : K} {rnd : Nat}

/-- Specification: the properties that GMapping has. -/
def knownGmappingProperties : List String :=
  ["slam/map/height_in_meters", "slam/map/width_in_meters", "slam/map/meters_per_cell",
    "slam/scmtch/oope/type", "slam/scmtch/oope/custom/fullness_threshold", "slam/scmtch/oope/cutrom/window_size",
    "slam/scmtch/spe/type", "slam/scmtch/spe/wmpp/weighting/type", "slam/scmtch/spe/wmpp/sp_skip_rate",
    "slam/scmtch/spe/wmpp/sp_max_usable_range",
    "slam/mapping/blur", "slam/mapping/max_range", "slam/mapping/observation_quality_estimator/typetype",
    "slam/occupancy_estimator/type", "slam/occupancy_estimator/base_occupied/prob",
    "slam/occupancy_estimator/base_occupied/qual", "slam/occupancy_estimator/base_empty/prob",
    "slam/occupancy_estimator/base_empty/qual",
    "slam/particles/number", "slam/particles/sample/xy/mean", "slam/particles/sample/xy/sigma",
    "slam/particles/sample/theta/mean", "slam/particles/sample/theta/sigma",
    "slam/particles/sm_delta_lim/xy/min", "slam/particles/sm_delta_lim/xy/max",
    "slam/particles/sm_delta_lim/theta/min", "slam/particles/sm_delta_lim/theta/max"]

/-- Configurations that agree on the properties of GMapping give the same GMapping. -/
theorem initGmapping_congr (t t' : Table) (h : ∀ k ∈ knownGmappingProperties, t k.toList = t' k.toList) :
    initGmapping stod t = initGmapping stod t' := by
  simp only [knownGmappingProperties, List.forall_mem_cons, List.not_mem_nil, false_imp_iff, implies_true, and_true] at h
  obtain ⟨e1, e2, e3, e4, e5, e6, e7, e8, e9, e10, e11, e12, e13, e14, e15, e16, e17, e18, e19, e20, e21, e22, e23, e24, e25, e26, e27⟩ := h
  have gs : ∀ {k : Str}, t k = t' k → ∀ d, getStr t k d = getStr t' k d := by
    intro k h d; unfold getStr; rw [h]
  have gd : ∀ {L : Type _} (f : Str → Option L) {k : Str}, t k = t' k → ∀ d, getDbl f t k d = getDbl f t' k d := by
    intro L f k h d; unfold getDbl; rw [h]
  have gu : ∀ {k : Str}, t k = t' k → ∀ d, getUint t k d = getUint t' k d := by
    intro k h d; unfold getUint; rw [h]
  have p1 : gridParams stod t = gridParams stod t' := by unfold gridParams; rw [gd stod e1, gd stod e2, gd stod e3]
  have p2 : initSwp t = initSwp t' := by unfold initSwp; rw [gs e8]
  have p3 : initGmappingSpe stod t = initGmappingSpe stod t' := by
    unfold initGmappingSpe initSpeWith
    rw [gs e4, gd stod e5, gu e6, gs e7, p2, gu e9, gd stod e10]
  have p4 : initAdder stod t = initAdder stod t' := by
    unfold initAdder
    rw [gd stod e15, gd stod e16, gd stod e17, gd stod e18, gs e14, gs e13, gd stod e11, gd _ e12]
  have p5 : initGmappingParams stod t = initGmappingParams stod t' := by
    unfold initGmappingParams
    rw [gd stod e20, gd stod e21, gd stod e22, gd stod e23, gd stod e24, gd stod e25, gd stod e26, gd stod e27]
  unfold initGmapping
  rw [p1, p3, p4, p5, gu e19]

/-- **No other property matters to GMapping (C72)**: in particular none of those that select a scan matcher or a map. -/
theorem gmapping_other_properties_ignored (t : Table) (k v : Str) (hk : ∀ p ∈ knownGmappingProperties, k ≠ p.toList) :
    initGmapping stod (t.set k v) = initGmapping stod t := by
  apply initGmapping_congr
  intro p hp
  exact if_neg (fun e => hk p hp e.symm)

/-- The documented name of the window of the estimator is among the properties without effect: the code asks for a misspelt one (C72). -/
theorem gmapping_window_ignored_counterexample (t : Table) (v : Str) :
    initGmapping stod (t.set "slam/scmtch/oope/custom/window_size".toList v) = initGmapping stod t ∧
    initGmapping stod (t.set "slam/scmtch/type".toList v) = initGmapping stod t :=
  ⟨gmapping_other_properties_ignored t _ v (by decide), gmapping_other_properties_ignored t _ v (by decide)⟩

/-- Specification: the properties that the credibilist SLAM has; the qualities and the kind of cell are not among them. -/
def knownCredibilistProperties : List String :=
  ["slam/map/height_in_meters",
    "slam/map/width_in_meters", "slam/map/meters_per_cell", "slam/mapping/grid/type",
    "slam/mapping/blur", "slam/mapping/max_range", "slam/mapping/observation_quality_estimator/typetype",
    "slam/occupancy_estimator/type", "slam/occupancy_estimator/base_occupied/prob",
    "slam/occupancy_estimator/base_occupied/qual", "slam/occupancy_estimator/base_empty/prob",
    "slam/occupancy_estimator/base_empty/qual", "slam/scmtch/type", "slam/scmtch/use_amb_drift_detector",
    "slam/scmtch/oie/type", "slam/scmtch/oope/type", "slam/scmtch/spe/type", "slam/scmtch/spe/wmpp/weighting/type",
    "slam/scmtch/spe/wmpp/sp_skip_rate", "slam/scmtch/spe/wmpp/sp_max_usable_range",
    "slam/scmtch/MC/dispersion/translation", "slam/scmtch/MC/dispersion/rotation",
    "slam/scmtch/MC/dispersion/failed_attempts_limit", "slam/scmtch/MC/attempts_limit", "slam/scmtch/MC/seed",
    "slam/scmtch/HC/distortion/translation", "slam/scmtch/HC/distortion/rotation",
    "slam/scmtch/HC/distortion/failed_attempts_limit", "slam/scmtch/HC/use_frame_alignement",
    "slam/scmtch/BF/x/from", "slam/scmtch/BF/x/to", "slam/scmtch/BF/x/step",
    "slam/scmtch/BF/y/from", "slam/scmtch/BF/y/to", "slam/scmtch/BF/y/step",
    "slam/scmtch/BF/t/from", "slam/scmtch/BF/t/to", "slam/scmtch/BF/t/step",
    "slam/scmtch/BF_M3RSM/accuracy/rotation", "slam/scmtch/BF_M3RSM/accuracy/translation",
    "slam/scmtch/BF_M3RSM/limits/x_translation", "slam/scmtch/BF_M3RSM/limits/y_translation",
    "slam/scmtch/BF_M3RSM/limits/rotation"]

/-- Configurations that agree on the properties of the credibilist SLAM give the same SLAM. -/
theorem initCredibilist_congr (t t' : Table) (h : ∀ k ∈ knownCredibilistProperties, t k.toList = t' k.toList) :
    initCredibilist stod rad rnd t = initCredibilist stod rad rnd t' := by
  simp only [knownCredibilistProperties, List.forall_mem_cons, List.not_mem_nil, false_imp_iff, implies_true, and_true] at h
  obtain ⟨e3, e4, e5, e6, e8, e9, e10, e11, e12, e13, e14, e15, e16, e17, e18, e19, e20, e21, e22, e23, e24,
    e25, e26, e27, e28, e29, e30, e31, e32, e33, e34, e35, e36, e37, e38, e39, e40, e41, e42, e43, e44, e45, e46⟩ := h
  have hx : ∀ dim : String, dim = "x" ∨ dim = "y" ∨ dim = "t" → ∀ l s : K,
      initSweep stod t dim l s = initSweep stod t' dim l s := by
    intro dim hd l s
    rcases hd with rfl | rfl | rfl
    · have f1 : t ("slam/scmtch/BF/" ++ "x" ++ "/from").toList = t' ("slam/scmtch/BF/" ++ "x" ++ "/from").toList := e33
      have f2 : t ("slam/scmtch/BF/" ++ "x" ++ "/to").toList = t' ("slam/scmtch/BF/" ++ "x" ++ "/to").toList := e34
      have f3 : t ("slam/scmtch/BF/" ++ "x" ++ "/step").toList = t' ("slam/scmtch/BF/" ++ "x" ++ "/step").toList := e35
      simp only [initSweep, getDbl, f1, f2, f3]
    · have f1 : t ("slam/scmtch/BF/" ++ "y" ++ "/from").toList = t' ("slam/scmtch/BF/" ++ "y" ++ "/from").toList := e36
      have f2 : t ("slam/scmtch/BF/" ++ "y" ++ "/to").toList = t' ("slam/scmtch/BF/" ++ "y" ++ "/to").toList := e37
      have f3 : t ("slam/scmtch/BF/" ++ "y" ++ "/step").toList = t' ("slam/scmtch/BF/" ++ "y" ++ "/step").toList := e38
      simp only [initSweep, getDbl, f1, f2, f3]
    · have f1 : t ("slam/scmtch/BF/" ++ "t" ++ "/from").toList = t' ("slam/scmtch/BF/" ++ "t" ++ "/from").toList := e39
      have f2 : t ("slam/scmtch/BF/" ++ "t" ++ "/to").toList = t' ("slam/scmtch/BF/" ++ "t" ++ "/to").toList := e40
      have f3 : t ("slam/scmtch/BF/" ++ "t" ++ "/step").toList = t' ("slam/scmtch/BF/" ++ "t" ++ "/step").toList := e41
      simp only [initSweep, getDbl, f1, f2, f3]
  have gs : ∀ {k : Str}, t k = t' k → ∀ d, getStr t k d = getStr t' k d := by
    intro k h d; unfold getStr; rw [h]
  have gd : ∀ {L : Type _} (f : Str → Option L) {k : Str}, t k = t' k → ∀ d, getDbl f t k d = getDbl f t' k d := by
    intro L f k h d; unfold getDbl; rw [h]
  have gu : ∀ {k : Str}, t k = t' k → ∀ d, getUint t k d = getUint t' k d := by
    intro k h d; unfold getUint; rw [h]
  have gb : ∀ {k : Str}, t k = t' k → ∀ d, getBool t k d = getBool t' k d := by
    intro k h d; unfold getBool; rw [h]
  have gi : ∀ {k : Str}, t k = t' k → ∀ d, getInt t k d = getInt t' k d := by
    intro k h d; unfold getInt; rw [h]
  have p1 : (initOie t) = initOie t' := by unfold initOie; rw [gs e18]
  have p2 : (initOope t : Option (OopeCfg K)) = initOope t' := by unfold initOope; rw [gs e19, p1]
  have p3 : initSwp t = initSwp t' := by unfold initSwp; rw [gs e21]
  have p4 : initSpe stod t = initSpe stod t' := by
    unfold initSpe initSpeWith; rw [gs e20, p2, p3, gu e22, gd stod e23]
  have p5 : matcherType t = matcherType t' := gs e16 _
  have p6 : initAlgo stod rad rnd t = initAlgo stod rad rnd t' := by
    have q1 : initMonteCarlo stod rnd t = initMonteCarlo stod rnd t' := by
      unfold initMonteCarlo; rw [gd stod e24, gd stod e25, gu e26, gu e27, gi e28]
    have q2 : initHillClimbing stod t = initHillClimbing stod t' := by
      unfold initHillClimbing; rw [gd stod e29, gd stod e30, gu e31, gb e32]
    have q3 : initBruteForce stod rad t = initBruteForce stod rad t' := by
      unfold initBruteForce; rw [hx "x" (by simp), hx "y" (by simp), hx "t" (by simp)]
    have q4 : initM3rsm stod rad t = initM3rsm stod rad t' := by
      unfold initM3rsm; rw [gd stod e42, gd stod e43, gd stod e44, gd stod e45, gd stod e46]
    unfold initAlgo; rw [p5, q1, q2, q3, q4]
  have p7 : initMatcher stod rad rnd t = initMatcher stod rad rnd t' := by
    unfold initMatcher; rw [p4, p6, gb e17]
  have p8 : initAdder stod t = initAdder stod t' := by
    unfold initAdder
    rw [gd stod e12, gd stod e13, gd stod e14, gd stod e15, gs e11, gs e10, gd stod e8, gd _ e9]
  have p9 : gridParams stod t = gridParams stod t' := by
    unfold gridParams; rw [gd stod e3, gd stod e4, gd stod e5]
  have p10 : ∀ c, initMapWith stod t c = initMapWith stod t' c := by
    intro c
    have q : ∀ c k, createMap stod t c k = createMap stod t' c k := by
      intro c k; unfold createMap; rw [p9, p5, p1]
    unfold initMapWith
    rw [gs e6, q, q, q, q]
  unfold initCredibilist
  rw [p10, p7, p8]

/-- **No other property matters to the credibilist SLAM (C72)**. -/
theorem credibilist_other_properties_ignored (t : Table) (k v : Str) (hk : ∀ p ∈ knownCredibilistProperties, k ≠ p.toList) :
    initCredibilist stod rad rnd (t.set k v) = initCredibilist stod rad rnd t := by
  apply initCredibilist_congr
  intro p hp
  exact if_neg (fun e => hk p hp e.symm)

/-- In particular the kind of cell and the qualities of poses cannot be configured (C72). -/
theorem credibilist_fixed_choices (t : Table) (v : Str) :
    initCredibilist stod rad rnd (t.set "slam/mapping/grid/area/type".toList v) = initCredibilist stod rad rnd t ∧
    initCredibilist stod rad rnd (t.set "slam/mapping/corrected_pose_quality".toList v) = initCredibilist stod rad rnd t ∧
    initCredibilist stod rad rnd (t.set "slam/mapping/raw_pose_quality".toList v) = initCredibilist stod rad rnd t :=
  ⟨credibilist_other_properties_ignored t _ v (by decide), credibilist_other_properties_ignored t _ v (by decide),
    credibilist_other_properties_ignored t _ v (by decide)⟩

end Slam.Config
