import Verif.Bag.Model
import Verif.Config.Model
import Verif.Dump.Model
import Verif.Text.Trajectory
import Verif.World.Model

/-!
# Model of the bag runner

`main`, `ProgramArgs::init` with its effects, `run_slam` and `dump_map_image` of src/ros/lslam2D_bag_runner.cpp: the program as
a function of the files there are and the command line. The SLAM it runs is a parameter here (`Runner.Engine`); `Runner.Slams`
puts in the programs of the topic Whole.

Of the console the usage text, the message about an unknown type and the progress messages are modelled.
-/

set_option autoImplicit false
set_option linter.unusedSectionVars false

namespace Slam.Runner
open Slam.Config (Str Table Args ArgState)

/-- The contents of files; `none`: there is no such file. -/
abbrev Fs := Str → Option (List Nat)

/-- A text file's characters (one byte each). -/
def chars (b : List Nat) : Str := b.map Char.ofNat

/-- The bytes of a text. -/
def bytes (s : Str) : List Nat := s.map Char.toNat

/-- `sensor_msgs::LaserScan`: its time stamp, its frame and the rest. -/
structure LaserMsg where
  sec : Nat
  nsec : Nat
  frame : Str
  body : Worlds.Msg ℝ

/-- `geometry_msgs::TransformStamped`: the frames and the rest. -/
structure TransformMsg (D : Type) where
  frame : Str
  child : Str
  data : D

/-- The contents of a message in a bag. -/
inductive Payload (D : Type) where
  | laser (m : LaserMsg)
  | transforms (ts : List (TransformMsg D))
  | other

/-- A message in a bag, with its topic. -/
structure BagMsg (D : Type) where
  topic : Str
  payload : Payload D

/-- `tf::Transformer` (library): `lookup cache target source sec nsec`. The planar pose is what
src/ros/laser_scan_observer.h:30-31 takes from a transform. -/
structure Transformer (D C : Type) where
  empty : C
  set : C → TransformMsg D → C
  lookup : C → Str → Str → Nat → Nat → Bag.Outcome (Poses.Pose ℝ)

/-- A SLAM with its `LaserScanObserver` (src/ros/lslam2D_bag_runner.cpp:121-122): `handle_transformed_msg` for an odometry pose and a
message, `pose()`, and what a dumper reads from `map()`. `none`: an assertion fails or the behaviour is undefined. -/
structure Engine where
  S : Type
  start : S
  handle : S → Poses.Pose ℝ × Worlds.Msg ℝ → Option S
  pose : S → Option (Poses.Pose ℝ)
  view : S → Option (Dump.MapView ℝ)

/-- The surroundings of the program: which files can be written; the path of an included file; how deep properties files may be
nested before the stack is exhausted; the contents of a bag (`rosbag`, library), `none` if it throws; the transformer; `init_1h_slam`
and `init_gmapping`, `none` if they throw. -/
structure Env (D C : Type) where
  writable : Str → Bool
  resolve : Str → Str → Str
  depth : Nat
  openBag : List Nat → Option (List (BagMsg D))
  tf : Transformer D C
  oneHypothesis : Table → Option Engine
  gmapping : Table → Option Engine

variable {D C : Type}

/-- An `ofstream` that is opened, given the bytes and closed. -/
def Env.put (env : Env D C) (fs : Fs) (name : Str) (b : List Nat) : Fs :=
  if env.writable name then fun f => if f = name then some b else fs f else fs

/-- The files as the reader of properties sees them, src/utils/properties_providers.h:125-134. -/
def Env.files (env : Env D C) (fs : Fs) : Config.Files := ⟨fun p => (fs p).map chars, env.resolve⟩

/-! ## Arguments -/

/-- Local variables and fields of `init`: those of `Config.ArgState`, the files, the properties; `dead`: the stack is exhausted
by properties files that include each other. -/
structure Init where
  st : ArgState
  fs : Fs
  props : Table
  dead : Bool

/-- Body of the loop of `init`, lslam2D_bag_runner.cpp:35-66, with the effects of lines 56 (reads a file) and 58 (creates or
empties a file: robot_pose_observers.h:67-70). -/
def initStep (env : Env D C) (s : Init) (arg : Str) : Init :=
  if s.dead then s
  else if arg.head? = some '-' ∨ s.st.flag = [] then { s with st := Config.argStep s.st arg }
  else if s.st.flag = "-p".toList then
    match Config.append (env.files s.fs) env.depth arg s.props with
    | some t => { s with st := Config.argStep s.st arg, props := t }
    | none => { s with dead := true }
  else if s.st.flag = "-t".toList then { s with st := Config.argStep s.st arg, fs := env.put s.fs arg [] }
  else { s with st := Config.argStep s.st arg }

/-- `init`, lslam2D_bag_runner.cpp:28-69. -/
def initAll (env : Env D C) (fs : Fs) (argv : List Str) : Init :=
  argv.foldl (initStep env) ⟨⟨⟨true, [], [], none, [], false, [], []⟩, 0, []⟩, fs, Table.empty, false⟩

/-- The arguments, with line 67. -/
def Init.args (s : Init) : Args := { s.st.args with isValid := s.st.args.isValid && decide (s.st.mandatory = 2) }

/-! ## The bag -/

/-- The messages of the two topics, bag_topic_with_transform.h:32,50-64. `none`: a message is not of the type its topic promises
(`instantiate` gives a null pointer, which is used later). -/
def records (topic tfTopic : Str) : List (BagMsg D) → Option (List (Bag.Rec LaserMsg (TransformMsg D)))
  | [] => some []
  | b :: bs =>
    if b.topic = topic then
      match b.payload with
      | .laser m => (records topic tfTopic bs).map (.msg m :: ·)
      | _ => none
    else if b.topic = tfTopic then
      match b.payload with
      | .transforms ts => (records topic tfTopic bs).map (.tf ts :: ·)
      | _ => none
    else records topic tfTopic bs

/-- The reader of the bag as set up in `run_slam`, lslam2D_bag_runner.cpp:127-132: the frames are looked up with
`tf_odom_frame_id` (init_utils.h:29-31) as the target, and transforms named in the properties are skipped. -/
def reader (env : Env D C) (props : Table) : Bag.Tf LaserMsg (TransformMsg D) C (Poses.Pose ℝ) where
  empty := env.tf.empty
  set := env.tf.set
  lookup := fun c m => env.tf.lookup c (Config.getStr props "in/odometry/ros/tf/odom_frame_id".toList "odom_combined".toList)
    m.frame m.sec m.nsec
  skip := fun t => Config.shouldSkip (Config.tfIgnores props) t.frame t.child

/-- `laser_scan_2D_ros_topic_name`, init_utils.h:25-27. -/
def laserTopic (props : Table) : Str := Config.getStr props "in/lscan2D/ros/topic/name".toList "/base_scan".toList

/-- The topic of transforms, lslam2D_bag_runner.cpp:129. -/
def tfTopic (props : Table) : Str := Config.getStr props "in/odometry/ros/tf/name".toList "/tf".toList

/-! ## The run -/

/-- How the loop of `run_slam` stopped. -/
inductive Stop (S : Type) where
  | done (s : S)
  | aborted
  | running

/-- What the loop did: the messages handled, the entries written to the trajectory, how it stopped. -/
structure Trace (S : Type) where
  handled : List (LaserMsg × Poses.Pose ℝ)
  log : List Text.Logged
  stop : Stop S

/-- Lines 142-144: the entry written for a message, none without a trajectory file. -/
def entryOf (P : Engine) (logging : Bool) (m : LaserMsg) (s : P.S) : Option (List Text.Logged) :=
  if logging then (P.pose s).map fun p => [⟨m.sec, m.nsec, p.x, p.y, p.theta⟩] else some []

/-- The loop of `run_slam`, lslam2D_bag_runner.cpp:134-150, at most `fuel` rounds. -/
def loop (tf : Bag.Tf LaserMsg (TransformMsg D) C (Poses.Pose ℝ)) (P : Engine) (logging : Bool) :
    Nat → List (Bag.Rec LaserMsg (TransformMsg D)) → Bag.St LaserMsg C (Poses.Pose ℝ) → P.S → Trace P.S
  | 0, _, _, _ => ⟨[], [], .running⟩
  | fuel + 1, unread, st, s =>
    match Bag.extract tf unread st with
    | none => ⟨[], [], .aborted⟩
    | some (_, _, false) => ⟨[], [], .done s⟩
    | some (unread', st', true) =>
      match st'.cur with
      | none => ⟨[], [], .aborted⟩
      | some (m, x) =>
        match P.handle s (x, m.body) with
        | none => ⟨[], [], .aborted⟩
        | some s' =>
          match entryOf P logging m s' with
          | none => ⟨[(m, x)], [], .aborted⟩
          | some e =>
            let r := loop tf P logging fuel unread' st' s'
            ⟨(m, x) :: r.handled, e ++ r.log, r.stop⟩

/-- The result of the program: the files afterwards, the messages on the console, the exit status (`none`: it was aborted by an
exception, an assertion or undefined behaviour). -/
structure Result where
  fs : Fs
  out : List Str
  exit : Option Int

/-- Lines 147-149. -/
def progress (n : Nat) : List Str := (List.range n).map fun i => "Handled scan #".toList ++ Nat.toDigits 10 (i + 1)

/-- `run_slam`, lslam2D_bag_runner.cpp:119-153, with `dump_map_image`, 88-94, and the closing of the trajectory file when `main`
returns. The trajectory is written when its file is closed; how much of it is there after an abort is not modelled, nor a
trajectory file that is at the same time the map file. -/
noncomputable def runSlam (env : Env D C) (P : Engine) (args : Args) (props : Table) (fs : Fs) : Result :=
  if Config.getBool props "in/lscan2D/ros/topic/enabled".toList false = false ∨
      Config.getBool props "in/odometry/ros/tf/enabled".toList false = false then ⟨fs, [], none⟩
  else
    match ((fs args.bag).bind env.openBag).bind (records (laserTopic props) (tfTopic props)) with
    | none => ⟨fs, [], none⟩
    | some rs =>
      let r := loop (reader env props) P args.traj.isSome (rs.length + 1) rs (Bag.St.start (reader env props)) P.start
      let out := if args.verbose then progress r.handled.length else []
      match r.stop with
      | .done s =>
        let fs' := if args.map = [] then some fs else (P.view s).map fun v => env.put fs args.map (Dump.dumpMap v)
        match fs' with
        | none => ⟨fs, out, none⟩
        | some fs' =>
          match args.traj with
          | none => ⟨fs', out, some 0⟩
          | some f => ⟨env.put fs' f (bytes (Text.tumFile r.log)), out, some 0⟩
      | _ => ⟨fs, out, none⟩

/-- `print_usage`, lslam2D_bag_runner.cpp:71-75. -/
def usage : List Str :=
  ["Args: <slam type> <bag file>".toList, "      [-v] [-t <traj file>] [-m <map file>] ".toList,
    "      [-p <properties file>]".toList]

/-- Lines 164 and 166: the SLAM is made, then run. -/
noncomputable def runMade (env : Env D C) (P : Option Engine) (args : Args) (props : Table) (fs : Fs) : Result :=
  match P with
  | none => ⟨fs, [], none⟩
  | some P => runSlam env P args props fs

/-- `main`, lslam2D_bag_runner.cpp:155-171. -/
noncomputable def main (env : Env D C) (fs : Fs) (argv : List Str) : Result :=
  let s := initAll env fs argv
  if s.dead then ⟨s.fs, [], none⟩
  else if s.args.isValid = false then ⟨s.fs, usage, some (-1)⟩
  else if s.args.slamType = "viny".toList ∨ s.args.slamType = "tiny".toList then
    runMade env (env.oneHypothesis s.props) s.args s.props s.fs
  else if s.args.slamType = "gmapping".toList then runMade env (env.gmapping s.props) s.args s.props s.fs
  else ⟨s.fs, ["Unkonw slam type: ".toList ++ s.args.slamType], some 0⟩

end Slam.Runner
