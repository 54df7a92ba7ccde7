import Verif.Config.AssembleModel

/-!
# Model of the assembly of a SLAM from any provider of properties

The functions of `Config.AssembleModel`, which read a table as a properties file gives it, once more for the interface
`PropertiesProvider` (src/utils/properties_providers.h:17-28), so that they also apply to the parameters of a launch file
(`LaunchPropertiesProvider`); with `init_properties_provider` of src/ros/single_hypoth_slam_node.cpp.
-/

set_option autoImplicit false
set_option linter.unusedSectionVars false

namespace Slam.Config

/-- `PropertiesProvider`, properties_providers.h:17-28; `none`: an exception, or an assertion fails. `range` is `get_dbl` with the
default infinity (`none` inside). -/
structure Provider (K : Type*) where
  str : Str → Str → Str
  int : Str → Int → Option Int
  uint : Str → Nat → Option Nat
  dbl : Str → K → Option K
  range : Str → Option (Option K)
  bool : Str → Bool → Bool

/-- `MapPropertiesProvider`, properties_providers.h:30-80. -/
def Provider.ofTable {K : Type*} (stod : Str → Option K) (t : Table) : Provider K where
  str := getStr t
  int := getInt t
  uint := getUint t
  dbl := getDbl stod t
  range := fun k => getDbl (fun s => (stod s).map some) t k none
  bool := getBool t

/-- `get_dbl` of `LaunchPropertiesProvider` with the default infinity, launch_properties_provider.h:23-27. -/
def launchRange {K : Type*} [Field K] (stod : Str → Option K) (srv : Server K) (id : Str) : Option (Option K) :=
  let val := launchStr srv id unset
  if val = unset then
    some (match srv id with
      | some (.int i) => some (i : K)
      | some (.dbl d) => some d
      | _ => none)
  else (stod val).map some

/-- `LaunchPropertiesProvider`, launch_properties_provider.h:10-54. -/
def Provider.ofServer {K : Type*} [Field K] (round : K → Int) (stod : Str → Option K) (srv : Server K) : Provider K where
  str := launchStr srv
  int := launchInt round srv
  uint := launchUint round srv
  dbl := launchDbl stod srv
  range := launchRange stod srv
  bool := launchBool srv

/-- The loop of `init_properties_provider`, single_hypoth_slam_node.cpp:27-29: the properties of a file are set one by one, in the
order `names` in which the table enumerates them. -/
def nodeServer {K : Type*} (srv : Server K) (t : Table) (names : List Str) : Server K :=
  names.foldl (fun s n => s.setProperty n (getStr t n [])) srv

/-- `init_properties_provider`, single_hypoth_slam_node.cpp:21-32; `fuel` as in `append`, `names` enumerates the properties of a
table. -/
def nodeInit {K : Type*} [Field K] (F : Files) (fuel : Nat) (names : Table → List Str) (srv : Server K) : Option (Server K) :=
  let cfgPath := launchStr srv "slam/config".toList []
  if cfgPath = [] then some srv
  else (append F fuel cfgPath Table.empty).map fun t => nodeServer srv t (names t)

namespace Provider
section
variable {K : Type*} [Field K] [LinearOrder K] [IsStrictOrderedRing K] [FloorRing K]
variable (rad : K) (rnd : Nat)

/-- `init_grid_map_params`, init_occupancy_mapping.h:32-40. `none`: an exception or an undefined conversion (also for a
zero scale). -/
def gridParams (p : Provider K) : Option (GridParams K) :=
  (p.dbl "slam/map/height_in_meters".toList 10).bind fun w =>
    (p.dbl "slam/map/width_in_meters".toList 10).bind fun h =>
      (p.dbl "slam/map/meters_per_cell".toList (1 / 10)).bind fun scale =>
        if scale = 0 then none
        else (toInt32 ⌈w / scale⌉).bind fun wc => (toInt32 ⌈h / scale⌉).map fun hc => ⟨wc, hc, scale⟩

/-- `init_oie`, init_scan_matching.h:27-44. -/
def initOie (p : Provider K) : Option Oie :=
  let type := p.str "slam/scmtch/oie/type".toList "discrepancy".toList
  if type = "discrepancy".toList then some .discrepancy
  else if type = "occupancy".toList then some .occupancy
  else none

/-- `init_oope`, init_scan_matching.h:49-69. -/
def initOope (p : Provider K) : Option (OopeCfg K) :=
  let type := p.str "slam/scmtch/oope/type".toList "obstacle".toList
  (initOie p).bind fun oie =>
    if type = "obstacle".toList then some (.std .obstacle oie)
    else if type = "max".toList then some (.std .max oie)
    else if type = "mean".toList then some (.std .mean oie)
    else if type = "overlap".toList then some (.std .overlap oie)
    else none

/-- `init_swp`, init_scan_matching.h:74-92. -/
def initSwp (p : Provider K) : Option Spw :=
  let type := p.str "slam/scmtch/spe/wmpp/weighting/type".toList "<undefined>".toList
  if type = "even".toList then some .even
  else if type = "viny".toList then some .viny
  else if type = "ahr".toList then some .ahr
  else none

/-- `init_spe` with a given OOPE, init_scan_matching.h:94-109. -/
def initSpeWith (p : Provider K) (oope : OopeCfg K) : Option (Spe K) :=
  let type := p.str "slam/scmtch/spe/type".toList "<undefined>".toList
  if type = "wmpp".toList then
    (p.uint "slam/scmtch/spe/wmpp/sp_skip_rate".toList 0).bind fun skip =>
      (p.dbl "slam/scmtch/spe/wmpp/sp_max_usable_range".toList (-1)).bind fun range =>
        (initSwp p).map fun swp => ⟨oope, swp, skip, range⟩
  else none

/-- `init_spe`, init_scan_matching.h:111-113. -/
def initSpe (p : Provider K) : Option (Spe K) := (initOope p).bind fun oope => initSpeWith p oope

/-- `init_monte_carlo_sm`, init_scan_matching.h:118-135; `rnd` is the value of `std::random_device`. -/
def initMonteCarlo (p : Provider K) : Option (Algo K) :=
  (p.dbl "slam/scmtch/MC/dispersion/translation".toList (1 / 5)).bind fun transl =>
    (p.dbl "slam/scmtch/MC/dispersion/rotation".toList (1 / 10)).bind fun rot =>
      (p.uint "slam/scmtch/MC/dispersion/failed_attempts_limit".toList 20).bind fun failed =>
        (p.uint "slam/scmtch/MC/attempts_limit".toList 100).bind fun total =>
          (p.int "slam/scmtch/MC/seed".toList (unsignedToInt rnd)).map fun seed =>
            .monteCarlo seed transl rot failed total

/-- `init_hill_climbing_sm`, init_scan_matching.h:137-150. -/
def initHillClimbing (p : Provider K) : Option (Algo K) :=
  (p.dbl "slam/scmtch/HC/distortion/translation".toList (1 / 10)).bind fun transl =>
    (p.dbl "slam/scmtch/HC/distortion/rotation".toList (1 / 10)).bind fun rot =>
      (p.uint "slam/scmtch/HC/distortion/failed_attempts_limit".toList 6).map fun failed =>
        .hillClimbing failed transl rot (p.bool "slam/scmtch/HC/use_frame_alignement".toList false)

/-- `INIT_BFSM_RANGE`, init_scan_matching.h:156-159. -/
def initSweep (p : Provider K) (dim : String) (limit step : K) : Option (Sweep K) :=
  (p.dbl ("slam/scmtch/BF/" ++ dim ++ "/from").toList (-limit)).bind fun from_ =>
    (p.dbl ("slam/scmtch/BF/" ++ dim ++ "/to").toList limit).bind fun to_ =>
      (p.dbl ("slam/scmtch/BF/" ++ dim ++ "/step").toList step).map fun step => ⟨from_, to_, step⟩

/-- `init_brute_force_sm`, init_scan_matching.h:152-169. -/
def initBruteForce (p : Provider K) : Option (Algo K) :=
  (initSweep p "x" (1 / 2) (1 / 10)).bind fun x =>
    (initSweep p "y" (1 / 2) (1 / 10)).bind fun y =>
      (initSweep p "t" (5 * rad) (1 * rad)).map fun th => .bruteForce x y th

/-- `init_bf_m3rsm`, init_scan_matching.h:171-183. -/
def initM3rsm (p : Provider K) : Option (Algo K) :=
  (p.dbl "slam/scmtch/BF_M3RSM/accuracy/rotation".toList (1 / 10 * rad)).bind fun ang =>
    (p.dbl "slam/scmtch/BF_M3RSM/accuracy/translation".toList (1 / 20)).bind fun trl =>
      (p.dbl "slam/scmtch/BF_M3RSM/limits/x_translation".toList 1).bind fun x =>
        (p.dbl "slam/scmtch/BF_M3RSM/limits/y_translation".toList 1).bind fun y =>
          (p.dbl "slam/scmtch/BF_M3RSM/limits/rotation".toList (5 * rad)).map fun rot =>
            .m3rsm x y rot ang trl

/-- `scan_matcher_type`, init_scan_matching.h:185-187. -/
def matcherType (p : Provider K) : Str := p.str "slam/scmtch/type".toList "<undefined>".toList

/-- The choice of the algorithm in `init_scan_matcher`, init_scan_matching.h:193-218. -/
def initAlgo (p : Provider K) : Option (Algo K) :=
  let type := matcherType p
  if type = "MC".toList then initMonteCarlo rnd p
  else if type = "HC".toList then initHillClimbing p
  else if type = "BF".toList then initBruteForce rad p
  else if isM3rsm type then initM3rsm rad p
  else if type = "idle".toList then some .idle
  else if type = "HC_FIXED".toList then some .hcFixed
  else none

/-- `init_scan_matcher`, init_scan_matching.h:193-218. -/
def initMatcher (p : Provider K) : Option (Matcher K) :=
  (initSpe p).bind fun spe =>
    (initAlgo rad rnd p).map fun algo =>
      ⟨algo, spe, p.bool "slam/scmtch/use_amb_drift_detector".toList false⟩

/-- `init_occ_estimator`, init_occupancy_mapping.h:42-62, and the rest of `init_scan_adder`, 82-92, with `init_omqe`,
64-80. -/
def initAdder (p : Provider K) : Option (Adder K) :=
  (p.dbl "slam/occupancy_estimator/base_occupied/prob".toList (19 / 20)).bind fun op =>
    (p.dbl "slam/occupancy_estimator/base_occupied/qual".toList 1).bind fun oq =>
      (p.dbl "slam/occupancy_estimator/base_empty/prob".toList (1 / 100)).bind fun ep =>
        (p.dbl "slam/occupancy_estimator/base_empty/qual".toList 1).bind fun eq =>
          let type := p.str "slam/occupancy_estimator/type".toList "const".toList
          let area : Option Bool :=
            if type = "const".toList then some false else if type = "area".toList then some true else none
          area.bind fun area =>
            let omqe := p.str "slam/mapping/observation_quality_estimator/typetype".toList "idle".toList
            let ahr : Option Bool :=
              if omqe = "idle".toList then some false else if omqe = "ahr".toList then some true else none
            ahr.bind fun ahr =>
              (p.dbl "slam/mapping/blur".toList 0).bind fun blur =>
                (p.range "slam/mapping/max_range".toList).map fun range =>
                  ⟨area, op, oq, ep, eq, ahr, blur, range⟩

/-- `init_occupied_area_model`, init_occupancy_mapping.h:94-111. -/
def initCell (p : Provider K) : Option CellModel :=
  let type := p.str "slam/mapping/grid/area/type".toList "<undefined>".toList
  if type = "tbm_consistent".toList then some .tbmConsistent
  else if type = "tbm_unknown_even_occ".toList then some .tbmUnknownEven
  else if type = "affine_quality_merge".toList then some .affine
  else if type = "mean_probability".toList then some .mean
  else none

/-- `create_grid_map`, init_occupancy_mapping.h:113-124. -/
def createMap (p : Provider K) (cell : CellModel) (kind : MapKind) : Option (MapCfg K) :=
  (gridParams p).bind fun params =>
    if isM3rsm (matcherType p) then (initOie p).map fun oie => ⟨kind, some oie, cell, params⟩
    else some ⟨kind, none, cell, params⟩

/-- `init_grid_map` with a given cell model, init_occupancy_mapping.h:126-146. -/
def initMapWith (p : Provider K) (cell : CellModel) : Option (MapCfg K) :=
  let type := p.str "slam/mapping/grid/type".toList "<undefined>".toList
  if type = "plain".toList then createMap p cell .plain
  else if type = "unbounded_plain".toList then createMap p cell .unboundedPlain
  else if type = "lazy_tiled".toList then createMap p cell .lazyTiled
  else if type = "unbounded_lazy_tiled".toList then createMap p cell .unboundedLazyTiled
  else none

/-- `init_grid_map`, init_occupancy_mapping.h:148-150. -/
def initMap (p : Provider K) : Option (MapCfg K) := (initCell p).bind fun cell => initMapWith p cell

/-- `init_1h_slam`, init_slam.h:12-24, with `init_pose_quality_estimators`, init_occupancy_mapping.h:22-30. -/
def init1h (p : Provider K) : Option (World K) :=
  (p.dbl "slam/mapping/corrected_pose_quality".toList 1).bind fun loc =>
    (p.dbl "slam/mapping/raw_pose_quality".toList (1 / 2)).bind fun raw =>
      (initMap p).bind fun map =>
        (initMatcher rad rnd p).bind fun matcher =>
          (initAdder p).map fun adder => ⟨loc, raw, 0, map, matcher, adder⟩

/-- `init_credibilist_slam`, credibilist/init_slam.h:13-24. -/
def initCredibilist (p : Provider K) : Option (World K) :=
  (initMapWith p .credibilist).bind fun map =>
    (initMatcher rad rnd p).bind fun matcher =>
      (initAdder p).map fun adder => ⟨9 / 10, 3 / 5, 0, map, matcher, adder⟩

/-- `init_gmapping_params`, init_gmapping.h:15-34. -/
def initGmappingParams (p : Provider K) : Option (GmappingParams K) :=
  (p.dbl "slam/particles/sample/xy/mean".toList 0).bind fun a =>
    (p.dbl "slam/particles/sample/xy/sigma".toList (1 / 10)).bind fun b =>
      (p.dbl "slam/particles/sample/theta/mean".toList 0).bind fun c =>
        (p.dbl "slam/particles/sample/theta/sigma".toList (3 / 100)).bind fun d =>
          (p.dbl "slam/particles/sm_delta_lim/xy/min".toList (3 / 5)).bind fun e =>
            (p.dbl "slam/particles/sm_delta_lim/xy/max".toList (4 / 5)).bind fun f =>
              (p.dbl "slam/particles/sm_delta_lim/theta/min".toList (3 / 10)).bind fun g =>
                (p.dbl "slam/particles/sm_delta_lim/theta/max".toList (2 / 5)).map fun h =>
                  ⟨a, b, c, d, e, f, g, h⟩

/-- `init_gmapping_prob_estimator`, init_gmapping.h:36-45; `none` also if the assertion fails. -/
def initGmappingSpe (p : Provider K) : Option (Spe K) :=
  if p.str "slam/scmtch/oope/type".toList "custom".toList = "custom".toList then
    (p.dbl "slam/scmtch/oope/custom/fullness_threshold".toList (1 / 10)).bind fun fullness =>
      (p.uint "slam/scmtch/oope/cutrom/window_size".toList 1).bind fun window =>
        initSpeWith p (.gmapping fullness window)
  else none

/-- `init_gmapping`, init_gmapping.h:49-65 (`GmappingWorld::MapType` is `UnboundedLazyTiledGridMap`,
gmapping_world.h:42): properties of the particles' worlds, sampling parameters, number of particles. -/
def initGmapping (p : Provider K) : Option (World K × GmappingParams K × Nat) :=
  (gridParams p).bind fun params =>
    (initGmappingSpe p).bind fun spe =>
      (initAdder p).bind fun adder =>
        (initGmappingParams p).bind fun gp =>
          (p.uint "slam/particles/number".toList 30).map fun n =>
            (⟨1, 1, 0, ⟨.unboundedLazyTiled, none, .gmapping, params⟩,
              ⟨.hillClimbing 6 (1 / 10) (1 / 10) false, spe, false⟩, adder⟩, gp, n)

end
end Provider

end Slam.Config
