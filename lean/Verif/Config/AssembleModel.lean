import Verif.Config.Launch

/-!
# Model of the assembly of a SLAM from its configuration

`init_1h_slam` (src/utils/init_slam.h) with all it calls in src/utils/init_scan_matching.h and
src/utils/init_occupancy_mapping.h, `init_gmapping` (src/slams/gmapping/init_gmapping.h) and `init_credibilist_slam`
(src/slams/credibilist/init_slam.h). The components are described by their class and constructor arguments; `none`: the
program exits with an error, or an exception ends it. The console output is not modelled. `deg2rad(d)` is `d` times a
parameter `rad`.
-/

set_option autoImplicit false
set_option linter.unusedSectionVars false

namespace Slam.Config

/-- Observation impact estimators, init_scan_matching.h:36-39. -/
inductive Oie where
  | discrepancy
  | occupancy
  deriving DecidableEq

/-- Occupancy observation probability estimators, init_scan_matching.h:56-63. -/
inductive Oope where
  | obstacle
  | max
  | mean
  | overlap
  deriving DecidableEq

/-- Scan point weightings, init_scan_matching.h:80-85. -/
inductive Spw where
  | even
  | viny
  | ahr
  deriving DecidableEq

/-- The OOPE of an estimator: a standard one, or that of GMapping (init_gmapping.h:36-44). -/
inductive OopeCfg (K : Type*) where
  | std (oope : Oope) (oie : Oie)
  | gmapping (fullness : K) (window : Nat)

/-- `WeightedMeanPointProbabilitySPE` (constructor's arguments), weighted_mean_point_probability_spe.h:69-73. -/
structure Spe (K : Type*) where
  oope : OopeCfg K
  spw : Spw
  skipRate : Nat
  maxRange : K

/-- Range of a coordinate of the brute force matcher. -/
structure Sweep (K : Type*) where
  from_ : K
  to_ : K
  step : K

/-- The scan matchers (constructors' arguments), init_scan_matching.h:118-213. -/
inductive Algo (K : Type*) where
  | monteCarlo (seed : Int) (transl rot : K) (failed total : Nat)
  | hillClimbing (failed : Nat) (transl rot : K) (align : Bool)
  | bruteForce (x y t : Sweep K)
  | m3rsm (x y rot angStep translStep : K)
  | idle
  | hcFixed

/-- A matcher: algorithm, score, and whether the drift detector wraps it. -/
structure Matcher (K : Type*) where
  algo : Algo K
  spe : Spe K
  drift : Bool

/-- Cell models, init_occupancy_mapping.h:98-105; credibilist/init_slam.h:19, init_gmapping.h:53. -/
inductive CellModel where
  | tbmConsistent
  | tbmUnknownEven
  | affine
  | mean
  | credibilist
  | gmapping
  deriving DecidableEq

/-- Map types, init_occupancy_mapping.h:132-139; `GmappingWorld::MapType`. -/
inductive MapKind where
  | plain
  | unboundedPlain
  | lazyTiled
  | unboundedLazyTiled
  deriving DecidableEq

/-- A map: `coarse` is the impact estimator of its coarser levels if the map has such (`M3RSMRescalableGridMap`). -/
structure MapCfg (K : Type*) where
  kind : MapKind
  coarse : Option Oie
  cell : CellModel
  params : GridParams K

/-- Scan adder, init_occupancy_mapping.h:82-92: `area` tells the area based estimator from the constant one, `ahr` the
quality by angle histogram from the constant one; no maximum range is infinity. -/
structure Adder (K : Type*) where
  area : Bool
  occProb : K
  occQual : K
  emptyProb : K
  emptyQual : K
  ahr : Bool
  blur : K
  maxRange : Option K

/-- `SingleStateHypothesisLSGWProperties`, single_state_hypothesis_laser_scan_grid_world.h:13-21. -/
structure World (K : Type*) where
  localizedQuality : K
  rawQuality : K
  margin : Nat
  map : MapCfg K
  matcher : Matcher K
  adder : Adder K

section
variable {K : Type*} [Field K] [LinearOrder K] [IsStrictOrderedRing K] [FloorRing K]
variable (stod : Str → Option K) (rad : K) (rnd : Nat)

/-- `init_oie`, init_scan_matching.h:27-44. -/
def initOie (t : Table) : Option Oie :=
  let type := getStr t "slam/scmtch/oie/type".toList "discrepancy".toList
  if type = "discrepancy".toList then some .discrepancy
  else if type = "occupancy".toList then some .occupancy
  else none

/-- `init_oope`, init_scan_matching.h:49-69. -/
def initOope (t : Table) : Option (OopeCfg K) :=
  let type := getStr t "slam/scmtch/oope/type".toList "obstacle".toList
  (initOie t).bind fun oie =>
    if type = "obstacle".toList then some (.std .obstacle oie)
    else if type = "max".toList then some (.std .max oie)
    else if type = "mean".toList then some (.std .mean oie)
    else if type = "overlap".toList then some (.std .overlap oie)
    else none

/-- `init_swp`, init_scan_matching.h:74-92. -/
def initSwp (t : Table) : Option Spw :=
  let type := getStr t "slam/scmtch/spe/wmpp/weighting/type".toList "<undefined>".toList
  if type = "even".toList then some .even
  else if type = "viny".toList then some .viny
  else if type = "ahr".toList then some .ahr
  else none

/-- `init_spe` with a given OOPE, init_scan_matching.h:94-109. -/
def initSpeWith (t : Table) (oope : OopeCfg K) : Option (Spe K) :=
  let type := getStr t "slam/scmtch/spe/type".toList "<undefined>".toList
  if type = "wmpp".toList then
    (getUint t "slam/scmtch/spe/wmpp/sp_skip_rate".toList 0).bind fun skip =>
      (getDbl stod t "slam/scmtch/spe/wmpp/sp_max_usable_range".toList (-1)).bind fun range =>
        (initSwp t).map fun swp => ⟨oope, swp, skip, range⟩
  else none

/-- `init_spe`, init_scan_matching.h:111-113. -/
def initSpe (t : Table) : Option (Spe K) := (initOope t).bind fun oope => initSpeWith stod t oope

/-- `init_monte_carlo_sm`, init_scan_matching.h:118-135; `rnd` is the value of `std::random_device`. -/
def initMonteCarlo (t : Table) : Option (Algo K) :=
  (getDbl stod t "slam/scmtch/MC/dispersion/translation".toList (1 / 5)).bind fun transl =>
    (getDbl stod t "slam/scmtch/MC/dispersion/rotation".toList (1 / 10)).bind fun rot =>
      (getUint t "slam/scmtch/MC/dispersion/failed_attempts_limit".toList 20).bind fun failed =>
        (getUint t "slam/scmtch/MC/attempts_limit".toList 100).bind fun total =>
          (getInt t "slam/scmtch/MC/seed".toList (unsignedToInt rnd)).map fun seed =>
            .monteCarlo seed transl rot failed total

/-- `init_hill_climbing_sm`, init_scan_matching.h:137-150. -/
def initHillClimbing (t : Table) : Option (Algo K) :=
  (getDbl stod t "slam/scmtch/HC/distortion/translation".toList (1 / 10)).bind fun transl =>
    (getDbl stod t "slam/scmtch/HC/distortion/rotation".toList (1 / 10)).bind fun rot =>
      (getUint t "slam/scmtch/HC/distortion/failed_attempts_limit".toList 6).map fun failed =>
        .hillClimbing failed transl rot (getBool t "slam/scmtch/HC/use_frame_alignement".toList false)

/-- `INIT_BFSM_RANGE`, init_scan_matching.h:156-159. -/
def initSweep (t : Table) (dim : String) (limit step : K) : Option (Sweep K) :=
  (getDbl stod t ("slam/scmtch/BF/" ++ dim ++ "/from").toList (-limit)).bind fun from_ =>
    (getDbl stod t ("slam/scmtch/BF/" ++ dim ++ "/to").toList limit).bind fun to_ =>
      (getDbl stod t ("slam/scmtch/BF/" ++ dim ++ "/step").toList step).map fun step => ⟨from_, to_, step⟩

/-- `init_brute_force_sm`, init_scan_matching.h:152-169. -/
def initBruteForce (t : Table) : Option (Algo K) :=
  (initSweep stod t "x" (1 / 2) (1 / 10)).bind fun x =>
    (initSweep stod t "y" (1 / 2) (1 / 10)).bind fun y =>
      (initSweep stod t "t" (5 * rad) (1 * rad)).map fun th => .bruteForce x y th

/-- `init_bf_m3rsm`, init_scan_matching.h:171-183. -/
def initM3rsm (t : Table) : Option (Algo K) :=
  (getDbl stod t "slam/scmtch/BF_M3RSM/accuracy/rotation".toList (1 / 10 * rad)).bind fun ang =>
    (getDbl stod t "slam/scmtch/BF_M3RSM/accuracy/translation".toList (1 / 20)).bind fun trl =>
      (getDbl stod t "slam/scmtch/BF_M3RSM/limits/x_translation".toList 1).bind fun x =>
        (getDbl stod t "slam/scmtch/BF_M3RSM/limits/y_translation".toList 1).bind fun y =>
          (getDbl stod t "slam/scmtch/BF_M3RSM/limits/rotation".toList (5 * rad)).map fun rot =>
            .m3rsm x y rot ang trl

/-- `scan_matcher_type`, init_scan_matching.h:185-187. -/
def matcherType (t : Table) : Str := getStr t "slam/scmtch/type".toList "<undefined>".toList

/-- `is_m3rsm`, init_scan_matching.h:189-191. -/
def isM3rsm (type : Str) : Bool := decide (type = "BF_M3RSM".toList)

/-- The choice of the algorithm in `init_scan_matcher`, init_scan_matching.h:193-218. -/
def initAlgo (t : Table) : Option (Algo K) :=
  let type := matcherType t
  if type = "MC".toList then initMonteCarlo stod rnd t
  else if type = "HC".toList then initHillClimbing stod t
  else if type = "BF".toList then initBruteForce stod rad t
  else if isM3rsm type then initM3rsm stod rad t
  else if type = "idle".toList then some .idle
  else if type = "HC_FIXED".toList then some .hcFixed
  else none

/-- `init_scan_matcher`, init_scan_matching.h:193-218. -/
def initMatcher (t : Table) : Option (Matcher K) :=
  (initSpe stod t).bind fun spe =>
    (initAlgo stod rad rnd t).map fun algo =>
      ⟨algo, spe, getBool t "slam/scmtch/use_amb_drift_detector".toList false⟩

/-- `init_occ_estimator`, init_occupancy_mapping.h:42-62, and the rest of `init_scan_adder`, 82-92, with `init_omqe`,
64-80. -/
def initAdder (t : Table) : Option (Adder K) :=
  (getDbl stod t "slam/occupancy_estimator/base_occupied/prob".toList (19 / 20)).bind fun op =>
    (getDbl stod t "slam/occupancy_estimator/base_occupied/qual".toList 1).bind fun oq =>
      (getDbl stod t "slam/occupancy_estimator/base_empty/prob".toList (1 / 100)).bind fun ep =>
        (getDbl stod t "slam/occupancy_estimator/base_empty/qual".toList 1).bind fun eq =>
          let type := getStr t "slam/occupancy_estimator/type".toList "const".toList
          let area : Option Bool :=
            if type = "const".toList then some false else if type = "area".toList then some true else none
          area.bind fun area =>
            let omqe := getStr t "slam/mapping/observation_quality_estimator/typetype".toList "idle".toList
            let ahr : Option Bool :=
              if omqe = "idle".toList then some false else if omqe = "ahr".toList then some true else none
            ahr.bind fun ahr =>
              (getDbl stod t "slam/mapping/blur".toList 0).bind fun blur =>
                (getDbl (fun s => (stod s).map some) t "slam/mapping/max_range".toList none).map fun range =>
                  ⟨area, op, oq, ep, eq, ahr, blur, range⟩

/-- `init_occupied_area_model`, init_occupancy_mapping.h:94-111. -/
def initCell (t : Table) : Option CellModel :=
  let type := getStr t "slam/mapping/grid/area/type".toList "<undefined>".toList
  if type = "tbm_consistent".toList then some .tbmConsistent
  else if type = "tbm_unknown_even_occ".toList then some .tbmUnknownEven
  else if type = "affine_quality_merge".toList then some .affine
  else if type = "mean_probability".toList then some .mean
  else none

/-- `create_grid_map`, init_occupancy_mapping.h:113-124. -/
def createMap (t : Table) (cell : CellModel) (kind : MapKind) : Option (MapCfg K) :=
  (gridParams stod t).bind fun params =>
    if isM3rsm (matcherType t) then (initOie t).map fun oie => ⟨kind, some oie, cell, params⟩
    else some ⟨kind, none, cell, params⟩

/-- `init_grid_map` with a given cell model, init_occupancy_mapping.h:126-146. -/
def initMapWith (t : Table) (cell : CellModel) : Option (MapCfg K) :=
  let type := getStr t "slam/mapping/grid/type".toList "<undefined>".toList
  if type = "plain".toList then createMap stod t cell .plain
  else if type = "unbounded_plain".toList then createMap stod t cell .unboundedPlain
  else if type = "lazy_tiled".toList then createMap stod t cell .lazyTiled
  else if type = "unbounded_lazy_tiled".toList then createMap stod t cell .unboundedLazyTiled
  else none

/-- `init_grid_map`, init_occupancy_mapping.h:148-150. -/
def initMap (t : Table) : Option (MapCfg K) := (initCell t).bind fun cell => initMapWith stod t cell

/-- `init_1h_slam`, init_slam.h:12-24, with `init_pose_quality_estimators`, init_occupancy_mapping.h:22-30. -/
def init1h (t : Table) : Option (World K) :=
  (getDbl stod t "slam/mapping/corrected_pose_quality".toList 1).bind fun loc =>
    (getDbl stod t "slam/mapping/raw_pose_quality".toList (1 / 2)).bind fun raw =>
      (initMap stod t).bind fun map =>
        (initMatcher stod rad rnd t).bind fun matcher =>
          (initAdder stod t).map fun adder => ⟨loc, raw, 0, map, matcher, adder⟩

/-- `init_credibilist_slam`, credibilist/init_slam.h:13-24. -/
def initCredibilist (t : Table) : Option (World K) :=
  (initMapWith stod t .credibilist).bind fun map =>
    (initMatcher stod rad rnd t).bind fun matcher =>
      (initAdder stod t).map fun adder => ⟨9 / 10, 3 / 5, 0, map, matcher, adder⟩

/-- `GMappingParams` (constructor's arguments), gmapping_world.h:24-33. -/
structure GmappingParams (K : Type*) where
  meanXY : K
  sigmaXY : K
  meanTh : K
  sigmaTh : K
  minXY : K
  maxXY : K
  minTh : K
  maxTh : K

/-- `init_gmapping_params`, init_gmapping.h:15-34. -/
def initGmappingParams (t : Table) : Option (GmappingParams K) :=
  (getDbl stod t "slam/particles/sample/xy/mean".toList 0).bind fun a =>
    (getDbl stod t "slam/particles/sample/xy/sigma".toList (1 / 10)).bind fun b =>
      (getDbl stod t "slam/particles/sample/theta/mean".toList 0).bind fun c =>
        (getDbl stod t "slam/particles/sample/theta/sigma".toList (3 / 100)).bind fun d =>
          (getDbl stod t "slam/particles/sm_delta_lim/xy/min".toList (3 / 5)).bind fun e =>
            (getDbl stod t "slam/particles/sm_delta_lim/xy/max".toList (4 / 5)).bind fun f =>
              (getDbl stod t "slam/particles/sm_delta_lim/theta/min".toList (3 / 10)).bind fun g =>
                (getDbl stod t "slam/particles/sm_delta_lim/theta/max".toList (2 / 5)).map fun h =>
                  ⟨a, b, c, d, e, f, g, h⟩

/-- `init_gmapping_prob_estimator`, init_gmapping.h:36-45; `none` also if the assertion fails. -/
def initGmappingSpe (t : Table) : Option (Spe K) :=
  if getStr t "slam/scmtch/oope/type".toList "custom".toList = "custom".toList then
    (getDbl stod t "slam/scmtch/oope/custom/fullness_threshold".toList (1 / 10)).bind fun fullness =>
      (getUint t "slam/scmtch/oope/cutrom/window_size".toList 1).bind fun window =>
        initSpeWith stod t (.gmapping fullness window)
  else none

/-- `init_gmapping`, init_gmapping.h:49-65 (`GmappingWorld::MapType` is `UnboundedLazyTiledGridMap`,
gmapping_world.h:42): properties of the particles' worlds, sampling parameters, number of particles. -/
def initGmapping (t : Table) : Option (World K × GmappingParams K × Nat) :=
  (gridParams stod t).bind fun params =>
    (initGmappingSpe stod t).bind fun spe =>
      (initAdder stod t).bind fun adder =>
        (initGmappingParams stod t).bind fun gp =>
          (getUint t "slam/particles/number".toList 30).map fun n =>
            (⟨1, 1, 0, ⟨.unboundedLazyTiled, none, .gmapping, params⟩,
              ⟨.hillClimbing 6 (1 / 10) (1 / 10) false, spe, false⟩, adder⟩, gp, n)

end

end Slam.Config
