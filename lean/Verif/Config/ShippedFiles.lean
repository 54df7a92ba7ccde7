import Verif.Config.AssembleModel

/-!
# The configuration files of the repository

The texts of config/*/*.properties, character for character, as the files of the model (`Config.Files`).
-/

set_option autoImplicit false
set_option maxRecDepth 10000

namespace Slam.Config

open Lean in
/-- The characters of a string literal, one by one (a notation: the kernel computes faster with it than with `toList`). -/
macro "chars% " s:str : term => do
  let cs ← s.getString.toList.mapM fun c => `($(Syntax.mkCharLit c))
  let cs := cs.toArray
  `([$cs,*])

/-- config/slams/tiny_slam_base.properties:1-34. -/
def tinySlamBaseText : Str := chars% "# +----------+
# | Mapping |
# +----------+

slam/mapping/blur=0.5

# == Occupancy Estimator setup ==

slam/occupancy_estimator/type=const
slam/occupancy_estimator/base_occupied/prob=0.95
slam/occupancy_estimator/base_empty/prob=0.01

<./tiny_mean_cell.properties>
#<./tiny_original_cell.properties>

# == Occupancy Map setup

slam/mapping/grid/type=unbounded_plain
slam/map/height_in_meters=100
slam/map/width_in_meters=100
slam/map/meters_per_cell=0.1

# +--------------+
# | Localization |
# +--------------+

<../common/monte_carlo_scan_matching.properties>
# slam/scmtch/MC/seed=666666

slam/scmtch/spe/type=wmpp
slam/scmtch/spe/wmpp/weighting/type=even

# TODO: fix naming
ros/skip_exceeding_lsr_vals=false"

/-- config/slams/tiny_mean_cell.properties:1-3. -/
def tinyMeanCellText : Str := chars% "slam/mapping/grid/area/type=mean_probability
slam/mapping/corrected_pose_quality=0.9
slam/mapping/raw_pose_quality=0.6
"

/-- config/slams/tiny_original_cell.properties:1-3. -/
def tinyOriginalCellText : Str := chars% "slam/mapping/grid/area/type=affine_quality_merge
slam/mapping/corrected_pose_quality=0.2
slam/mapping/raw_pose_quality=0.1
"

/-- config/slams/viny_slam_base.properties:1-36. -/
def vinySlamBaseText : Str := chars% "# +----------+
# | Mapping |
# +----------+

slam/mapping/blur=0.3

# == Occupancy Estimator setup ==

slam/occupancy_estimator/type=const
slam/occupancy_estimator/base_occupied/prob=0.95
slam/occupancy_estimator/base_occupied/qual=0.04
slam/occupancy_estimator/base_empty/prob=0.01
slam/occupancy_estimator/base_empty/qual=0.003

slam/mapping/grid/area/type=tbm_consistent
#slam/mapping/grid/area/type=tbm_unknown_even_occ
slam/mapping/corrected_pose_quality=0.9
slam/mapping/raw_pose_quality=0.6


# == Occupancy Map setup

slam/mapping/grid/type=unbounded_plain
slam/map/height_in_meters=10
slam/map/width_in_meters=10
slam/map/meters_per_cell=0.1

# +--------------+
# | Localization |
# +--------------+

<../common/monte_carlo_scan_matching.properties>
# slam/scmtch/MC/seed=666666

slam/scmtch/spe/type=wmpp
slam/scmtch/spe/wmpp/weighting/type=viny
"

/-- config/slams/viny_slam_experimental.properties:1-31. -/
def vinySlamExperimentalText : Str := chars% "# +----------+
# | Mapping |
# +----------+

slam/mapping/blur=0.0

# == Occupancy Estimator setup ==

slam/occupancy_estimator/type=const
slam/occupancy_estimator/base_occupied/prob=0.95
slam/occupancy_estimator/base_occupied/qual=0.04
slam/occupancy_estimator/base_empty/prob=0.01
slam/occupancy_estimator/base_empty/qual=0.003

# == Occupancy Map setup

slam/mapping/grid/type=unbounded_plain
slam/map/height_in_meters=100
slam/map/width_in_meters=100
slam/map/meters_per_cell=0.05

# +--------------+
# | Localization |
# +--------------+

slam/scmtch/type=HC_FIXED

slam/scmtch/spe/type=wmpp
slam/scmtch/spe/wmpp/weighting/type=ahr

#slam/scmtch/use_amb_drift_detector=true"

/-- config/slams/gmapping_base.properties:1-15. -/
def gmappingBaseText : Str := chars% "# +-----------------+
# | Particle Filter |
# +-----------------+
slam/particles/number=30

# * Sampling
slam/particles/sample/xy/mean=0.0
slam/particles/sample/xy/sigma=0.1
slam/particles/sample/theta/mean=0.0
slam/particles/sample/theta/sigma=0.03

slam/particles/sm_delta_lim/xy/min=0.6
slam/particles/sm_delta_lim/xy/max=0.8
slam/particles/sm_delta_lim/theta/min=0.3
slam/particles/sm_delta_lim/theta/max=0.4
"

/-- config/common/monte_carlo_scan_matching.properties:1-5. -/
def monteCarloScanMatchingText : Str := chars% "slam/scmtch/type=MC
slam/scmtch/MC/dispersion/translation=0.2
slam/scmtch/MC/dispersion/rotation=0.1
slam/scmtch/MC/dispersion/failed_attempts_limit=20
slam/scmtch/MC/attempts_limit=100
"

/-- config/common/hill_climbing_scan_matching.properties:1-4. -/
def hillClimbingScanMatchingText : Str := chars% "slam/scmtch/type=HC
slam/scmtch/HC/distortion/translation=0.1
slam/scmtch/HC/distortion/rotation=0.1
slam/scmtch/HC/distortion/failed_attempts_limit=6
"

/-- config/common/bf_m3rsm.properties:1-11. -/
def bfM3rsmText : Str := chars% "slam/scmtch/type=BF_M3RSM

slam/scmtch/oope/type=max

# 0.1 degrees
slam/scmtch/BF_M3RSM/accuracy/rotation=0.0017
slam/scmtch/BF_M3RSM/accuracy/translation=0.05
# 5 degrees
slam/scmtch/BF_M3RSM/limit/rotation=0.087
slam/scmtch/BF_M3RSM/limit/x_translation=1
slam/scmtch/BF_M3RSM/limit/y_translation=1"

/-- config/datasets/in_mit_stata.properties:1-6. -/
def inMitStataText : Str := chars% "in/lscan2D/ros/topic/enabled=true
in/lscan2D/ros/topic/name=/base_scan

in/odometry/ros/tf/enabled=true
in/odometry/ros/tf/name=/tf
in/odometry/ros/tf/odom_frame_id=odom_combined
"

/-- config/datasets/in_pr2.properties:1-7. -/
def inPr2Text : Str := chars% "in/lscan2D/ros/topic/enabled=true
in/lscan2D/ros/topic/name=base_scan

in/odometry/ros/tf/enabled=true
in/odometry/ros/tf/name=tf
in/odometry/ros/tf/odom_frame_id=odom_combined
in/odometry/ros/tf/ignore=map-odom_combined
"

/-- config/bag_runner/tiny_mit.properties:1-5. -/
def tinyMitText : Str := chars% "# = SLAM =
<../slams/tiny_slam_base.properties>

# = Input =
<../datasets/in_mit_stata.properties>
"

/-- config/bag_runner/viny_mit.properties:1-5. -/
def vinyMitText : Str := chars% "# = SLAM =
<../slams/viny_slam_base.properties>

# = Input =
<../datasets/in_mit_stata.properties>
"

/-- config/bag_runner/viny_pr2.properties:1-5. -/
def vinyPr2Text : Str := chars% "# = SLAM =
<../slams/viny_slam_base.properties>

# = Input =
<../datasets/in_pr2.properties>"

/-- config/bag_runner/gmapping_mit.properties:1-5. -/
def gmappingMitText : Str := chars% "# = SLAM =
<../slams/gmapping_base.properties>

# = Input =
<../datasets/in_mit_stata.properties>
"

/-- The files of the repository, by path. -/
def shippedFiles : List (Str × Str) :=
  [(chars% "config/slams/tiny_slam_base.properties", tinySlamBaseText),
    (chars% "config/slams/tiny_mean_cell.properties", tinyMeanCellText),
    (chars% "config/slams/tiny_original_cell.properties", tinyOriginalCellText),
    (chars% "config/slams/viny_slam_base.properties", vinySlamBaseText),
    (chars% "config/slams/viny_slam_experimental.properties", vinySlamExperimentalText),
    (chars% "config/slams/gmapping_base.properties", gmappingBaseText),
    (chars% "config/common/monte_carlo_scan_matching.properties", monteCarloScanMatchingText),
    (chars% "config/common/hill_climbing_scan_matching.properties", hillClimbingScanMatchingText),
    (chars% "config/common/bf_m3rsm.properties", bfM3rsmText),
    (chars% "config/datasets/in_mit_stata.properties", inMitStataText),
    (chars% "config/datasets/in_pr2.properties", inPr2Text),
    (chars% "config/bag_runner/tiny_mit.properties", tinyMitText),
    (chars% "config/bag_runner/viny_mit.properties", vinyMitText),
    (chars% "config/bag_runner/viny_pr2.properties", vinyPr2Text),
    (chars% "config/bag_runner/gmapping_mit.properties", gmappingMitText)]

/-- The components of a path. -/
def splitPath : Str → List Str
  | [] => [[]]
  | c :: cs =>
    match splitPath cs with
    | [] => [[c]]
    | p :: ps => if c = '/' then [] :: p :: ps else (c :: p) :: ps

/-- What the file system makes of `.` and `..`; `acc` are the components so far, in reverse. -/
def canonFrom (acc : List Str) : List Str → List Str
  | [] => acc.reverse
  | p :: ps =>
    if p = ['.'] then canonFrom acc ps
    else if p = ['.', '.'] then canonFrom acc.tail ps
    else canonFrom (p :: acc) ps

/-- The file a path leads to. -/
def canon (p : Str) : List Str := canonFrom [] (splitPath p)

/-- `dirname` (libgen.h) of a path with at least two components. -/
def dirName (p : Str) : Str := ['/'].intercalate (splitPath p).dropLast

/-- The repository as a file system, seen from its root; the rule for includes is src/utils/properties_providers.h:149-163. -/
def shipped : Files where
  content p := (shippedFiles.find? fun f => canon f.1 = canon p).map Prod.snd
  resolve p name := dirName p ++ '/' :: name

end Slam.Config
