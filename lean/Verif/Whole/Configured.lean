import Verif.Whole.OwnProps
import Verif.Whole.Instances
import Verif.Config.AssembleModel

/-!
# The program assembled from a configuration

`init_1h_slam` (src/utils/init_slam.h, topic Config) says which components are constructed with which arguments. Here the
components are the models of the other topics, so that the assembled SLAM is a program that handles messages
(`Whole.Own`). Covered: the two growing maps, the cell models of `init_1h_slam` and of the credibilist SLAM, the scan
adders, the estimators of the score and the matchers that enumerate poses. The other matchers are in `Whole.MachineLaunch`,
the multi-resolution one in `Whole.MultiresLaunch`, GMapping in `Whole.GmappingLaunch`, maps of fixed size in `Whole.FixedLaunch`.
-/

set_option autoImplicit false
set_option linter.unusedSectionVars false

namespace Slam.Whole
open Slam.Grid Slam.Cells Slam.Poses Slam.Sensor Slam.Score Slam.ScanAdder Slam.Worlds Slam.Tbm
open Slam.Estimator (Est Cmp)

/-- A map of either growing class, src/utils/init_occupancy_mapping.h:134-139. -/
inductive AnyMap (C : Type) where
  | plain (m : PlainMap.PMap C)
  | lazy (st : LazyMap.St C)

/-- `operator[]` and `update` of either class; `Tile_Size` is 128, src/core/maps/lazy_tiled_grid_map.h:20-21. -/
def anyApi {C : Type} (rate : Nat → ℚ) (upd : C → Aoo ℝ → C) : MapApi C (AnyMap C) where
  read
    | .plain m => (plainApi rate upd).read m
    | .lazy st => (lazyApi 128 upd).read st
  update
    | .plain m => fun c o => ((plainApi rate upd).update m c o).map .plain
    | .lazy st => fun c o => ((lazyApi 128 upd).update st c o).map .lazy

/-- `width()` and `height()`, src/core/maps/regular_squares_grid.h:29-30. -/
def AnyMap.dims {C : Type} : AnyMap C → Dims
  | .plain m => ⟨m.width, m.height⟩
  | .lazy st => match st.maps with
    | some m :: _ => ⟨m.width, m.height⟩
    | _ => ⟨0, 0⟩

/-- `origin()`, src/core/maps/plain_grid_map.h:75, lazy_tiled_grid_map.h:149. -/
def AnyMap.origin {C : Type} : AnyMap C → Coord
  | .plain m => m.origin
  | .lazy st => match st.maps with
    | some m :: _ => m.origin
    | _ => ⟨0, 0⟩

/-- The class of the cells, init_occupancy_mapping.h:98-105, src/slams/credibilist/init_slam.h:19,
src/slams/gmapping/init_gmapping.h:53. -/
def cellKind : Config.CellModel → CellKind
  | .tbmConsistent => .tbm .consistent
  | .tbmUnknownEven => .tbm .unknownEven
  | .affine => .affine
  | .mean => .mean
  | .credibilist => .tbm .credibilist
  | .gmapping => .gmapping

/-- init_scan_matching.h:36-39. -/
def impactOf : Config.Oie → Impact
  | .discrepancy => .discrepancy
  | .occupancy => .occupancy

/-- init_scan_matching.h:56-63. -/
def oopeOf : Config.Oope → Matcher.Oope
  | .obstacle => .obstacle
  | .max => .max
  | .mean => .mean
  | .overlap => .overlap

/-- init_scan_matching.h:80-85, with the weightings' initial states, weighted_mean_point_probability_spe.h:29, 44. -/
noncomputable def spwOf : Config.Spw → Spw
  | .even => .even 0
  | .viny => .viny
  | .ahr => .ahr (Hist.create 20)

/-- The map `create_grid_map` makes, init_occupancy_mapping.h:113-124, 132-139. `none`: a map of fixed size, or one with
coarser levels, which are not covered; or a negative size (no memory). -/
noncomputable def mapOf (rate : Nat → ℚ) (m : Config.MapCfg ℝ) : Option (AnyMap (cellKind m.cell).Cell) :=
  if m.coarse.isSome then none
  else if m.params.width < 0 ∨ m.params.height < 0 then none
  else
    match m.kind with
    | .unboundedPlain => some (.plain (PlainMap.create m.params.width.toNat m.params.height.toNat (cellKind m.cell).proto))
    | .unboundedLazyTiled =>
      (LazyMap.stepL 128 (cellKind m.cell).upd LazyMap.emptySt
        (.create true m.params.width.toNat m.params.height.toNat (cellKind m.cell).proto)).map .lazy
    | _ => none

/-- `init_scan_adder`, init_occupancy_mapping.h:42-92; `lowQual` and `unknownQual` of the area estimator are 0.01 and 0.5,
src/core/maps/area_occupancy_estimator.h:21. `shift` is as in `areaEstimate`. -/
noncomputable def adderOf (shift : ℝ) (a : Config.Adder ℝ) : Adder ℝ where
  estimate :=
    if a.area then areaEstimate ⟨⟨a.occProb, a.occQual⟩, ⟨a.emptyProb, a.emptyQual⟩, 1 / 100, 1 / 2⟩ Estimator.codeCmp shift
    else constEstimate ⟨a.occProb, a.occQual⟩ ⟨a.emptyProb, a.emptyQual⟩
  blur := a.blur
  maxRange := a.maxRange

/-- The state of the quality estimator, init_occupancy_mapping.h:64-80, grid_map_scan_adders.h:42. -/
noncomputable def histOf (a : Config.Adder ℝ) : Option Hist := if a.ahr then some (Hist.create 20) else none

/-- What the properties do not determine: the growth of the plain map (`PlainMap.updateDim`), the area estimator's shift,
the integers the traversal of a beam copes with and bounds on the lengths of loops (`Line.worldToCells`,
`Matcher.Cfg.cellFuel`, `OwnCfg.fuel`), and the observer's tolerance (laser_scan_observer.h:69). -/
structure Env where
  rate : Nat → ℚ
  shift : ℝ
  ok : Int → Bool
  lineFuel : Nat
  cellFuel : Nat
  fuel : Nat
  tol : ℝ

/-- The assembled program (`init_1h_slam`, init_slam.h:12-24) behind an observer with the switch `skipMax`
(src/ros/lslam2D_bag_runner.cpp:121-122); `E` is the pose enumerator of the matcher. -/
noncomputable def configured {S : Type} (env : Env) (skipMax : Bool) (E : ScanMatch.Enumerator ℝ S) (w : Config.World ℝ)
    (oope : Config.Oope) (oie : Config.Oie) : OwnCfg (cellKind w.map.cell).Cell (AnyMap (cellKind w.map.cell).Cell) S where
  slam :=
    { api := anyApi env.rate (cellKind w.map.cell).upd
      scale := w.map.params.scale
      adder := adderOf env.shift w.adder
      ok := env.ok
      fuel := env.lineFuel
      props := ⟨w.localizedQuality, w.rawQuality, w.margin⟩
      skipMax := skipMax
      tol := env.tol }
  matcher := ⟨⟨w.matcher.spe.skipRate, w.matcher.spe.maxRange⟩, oopeOf oope, (cellKind w.map.cell).impact (impactOf oie),
    env.cellFuel⟩
  enumerator := E
  dims := AnyMap.dims
  origin := AnyMap.origin
  fuel := env.fuel

/-- Its state before the first message: everything at the origin (src/core/states/world.h:97, robot_pose.h:101,
laser_scan_observer.h:92), an empty map, `e` the state of the enumerator. -/
noncomputable def configuredStart {S : Type} (env : Env) (e : S) (w : Config.World ℝ) :
    Option (Own (AnyMap (cellKind w.map.cell).Cell) S) :=
  (mapOf env.rate w.map).map fun m => ⟨⟨⟨0, 0, 0⟩, ⟨0, 0, 0⟩, m, histOf w.adder⟩, spwOf w.matcher.spe.spw, e⟩

/-- `get_skip_exceeding_lsr`, src/ros/init_utils.h:49-52. -/
def skipExceeding (t : Config.Table) : Bool := Config.getBool t "in/lscan2D/skip_exceeding_vals".toList false

/-- A program with its start; `S` are the states of its pose enumerator. -/
structure Program where
  kind : CellKind
  impact : Impact
  S : Type
  cfg : OwnCfg kind.Cell (AnyMap kind.Cell) S
  start : Own (AnyMap kind.Cell) S

/-- The parameters of the brute force enumerator, init_scan_matching.h:156-168. -/
def bfParams (x y th : Config.Sweep ℝ) : ScanMatch.BFParams ℝ :=
  ⟨x.from_, x.to_, x.step, y.from_, y.to_, y.step, th.from_, th.to_, th.step⟩

/-- A program with the given enumerator in the given state. -/
noncomputable def programOf {S : Type} (env : Env) (skipMax : Bool) (w : Config.World ℝ) (oope : Config.Oope) (oie : Config.Oie)
    (E : ScanMatch.Enumerator ℝ S) (e : S) : Option Program :=
  (configuredStart env e w).map fun s =>
    ⟨cellKind w.map.cell, impactOf oie, S, configured env skipMax E w oope oie, s⟩

/-- The start of a single-hypothesis SLAM from the properties `t`: `init_1h_slam`, init_slam.h:12-24, and the observer,
src/ros/lslam2D_bag_runner.cpp:119-122. `sample seed` are the shifts drawn by the random generator of that seed
(monte_carlo_scan_matcher.h:44-46). The states of the enumerators are those after construction
(monte_carlo_scan_matcher.h:12-28, hill_climbing_scan_matcher.h:73-82, brute_force_scan_matcher.h:10-21). Hill climbing with
frame alignment is hill climbing without (C89). -/
noncomputable def launch (stod : Config.Str → Option ℝ) (rad : ℝ) (rnd : Nat) (env : Env)
    (sample : Int → Nat → ℝ → ℝ → Delta ℝ) (t : Config.Table) : Option Program :=
  (Config.init1h stod rad rnd t).bind fun w =>
    match w.matcher.drift, w.matcher.spe.oope with
    | false, .std oope oie =>
      match w.matcher.algo with
      | .monteCarlo seed transl rot failed total =>
        programOf env (skipExceeding t) w oope oie (ScanMatch.monteCarlo failed total transl rot (sample seed))
          ⟨0, 0, transl, rot, 0⟩
      | .hillClimbing failed transl rot _ =>
        programOf env (skipExceeding t) w oope oie (ScanMatch.hillClimbing failed transl rot)
          ⟨0, transl, rot, ⟨0, transl, rot, none⟩, true⟩
      | .bruteForce x y th =>
        programOf env (skipExceeding t) w oope oie (ScanMatch.bruteForce (bfParams x y th)) (ScanMatch.BFState.init (bfParams x y th))
      | _ => none
    | _, _ => none

end Slam.Whole
