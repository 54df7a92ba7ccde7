import Mathlib.Algebra.Order.Floor.Ring
import Mathlib.Data.Rat.Floor

/-!
# Model of the configuration

`MapPropertiesProvider`, `FilePropertiesProvider` (src/utils/properties_providers.h), `init_grid_map_params`
(src/utils/init_occupancy_mapping.h), `tf_ignored_transforms` (src/ros/init_utils.h), `ProgramArgs`
(src/ros/lslam2D_bag_runner.cpp). Strings are lists of characters. Of the diagnostics on the console only the warning
about unknown flags of the command line is modelled.
-/

set_option autoImplicit false
set_option linter.unusedSectionVars false

namespace Slam.Config

/-- `std::string`. -/
abbrev Str := List Char

/-- `MapPropertiesProvider::_props`, properties_providers.h:79. -/
abbrev Table := Str → Option Str

/-- A provider without properties. -/
def Table.empty : Table := fun _ => none

/-- `set_property`, properties_providers.h:42-44. -/
def Table.set (t : Table) (id val : Str) : Table := fun k => if k = id then some val else t k

/-- `operator+=`: `unordered_map::insert` of a range keeps the entries that exist, properties_providers.h:70-73. -/
def Table.merge (t that : Table) : Table := fun k =>
  match t k with
  | some v => some v
  | none => that k

/-- What `parse_file` sees in one line, properties_providers.h:142-183. -/
inductive Line where
  | skip
  | incl (name : Str)
  | entry (id val : Str)
  deriving DecidableEq

/-- The branches of `parse_file` for one line, properties_providers.h:142-183. -/
def readLine (buf : Str) : Line :=
  match buf with
  | [] => .skip
  | c :: rest =>
    if c = '#' then .skip
    else if c = '<' then
      if buf.getLast? = some '>' then .incl rest.dropLast else .skip
    else if '=' ∈ buf then .entry (buf.takeWhile (· ≠ '=')) ((buf.dropWhile (· ≠ '=')).drop 1)
    else .skip

/-- `getline` until failure, properties_providers.h:136-139: `cur` is the line read so far, in reverse. The part after
the last newline is a line only if it is not empty. -/
def linesFrom (cur : Str) : Str → List Str
  | [] => if cur = [] then [] else [cur.reverse]
  | c :: cs => if c = '\n' then cur.reverse :: linesFrom [] cs else linesFrom (c :: cur) cs

/-- Lines of a file. -/
def linesOf (content : Str) : List Str := linesFrom [] content

/-- The files and the directory rule: `content path` is `none` if the file can not be opened; `resolve path name` is
the path of a file included as `name` by the file `path` (`dirname(path) + "/" + name`,
properties_providers.h:149-163). -/
structure Files where
  content : Str → Option Str
  resolve : Str → Str → Str

/-- The loop of `parse_file`, properties_providers.h:135-190: `store` is `_props` of the provider, `props` the table
of this file, `append` the recursive call. -/
def parseLines (F : Files) (append : Str → Table → Option Table) (path : Str) :
    List Str → Table → Table → Option (Table × Table)
  | [], store, props => some (store, props)
  | l :: ls, store, props =>
    match readLine l with
    | .skip => parseLines F append path ls store props
    | .incl name => (append (F.resolve path name) store).bind fun store => parseLines F append path ls store props
    | .entry id val => parseLines F append path ls store (props.set id val)

/-- `append_file_content`, properties_providers.h:96-99, with `parse_file`, 125-191. `fuel` bounds the depth of
includes; `none`: the recursion is deeper. -/
def append (F : Files) : Nat → Str → Table → Option Table
  | 0, _, _ => none
  | fuel + 1, path, store =>
    match F.content path with
    | none => some store
    | some c => (parseLines F (append F fuel) path (linesOf c) store Table.empty).map fun r => r.1.merge r.2

/-- Successive `append_file_content`. -/
def appendAll (F : Files) (fuel : Nat) : List Str → Table → Option Table
  | [], store => some store
  | p :: ps, store => (append F fuel p store).bind fun store => appendAll F fuel ps store

/-- `get_str`, properties_providers.h:58-60. -/
def getStr (t : Table) (id dflt : Str) : Str := (t id).getD dflt

/-- `get_bool`, properties_providers.h:66-70. -/
def getBool (t : Table) (id : Str) (dflt : Bool) : Bool :=
  match t id with
  | none => dflt
  | some v => !(decide (v = "false".toList) || decide (v = "0".toList))

/-- White space of the C locale. -/
def isSpace (c : Char) : Bool := c = ' ' || c = '\t' || c = '\n' || c = '\r' || c.toNat = 11 || c.toNat = 12

/-- A decimal digit's value. -/
def digit (c : Char) : Option Nat := if 48 ≤ c.toNat ∧ c.toNat ≤ 57 then some (c.toNat - 48) else none

/-- Longest sequence of digits: its value, and how many there are. -/
def digitsFrom (v n : Nat) : Str → Nat × Nat
  | [] => (v, n)
  | c :: cs =>
    match digit c with
    | some d => digitsFrom (10 * v + d) (n + 1) cs
    | none => (v, n)

/-- What `strtol`/`strtoul` read: sign and magnitude; `none` if there are no digits. -/
def scanNumber (s : Str) : Option (Bool × Nat) :=
  let s := s.dropWhile isSpace
  let r : Bool × Str :=
    match s with
    | '-' :: t => (true, t)
    | '+' :: t => (false, t)
    | t => (false, t)
  let d := digitsFrom 0 0 r.2
  if d.2 = 0 then none else some (r.1, d.1)

/-- `std::stoi` (32-bit `int`); `none`: an exception. -/
def stoi (s : Str) : Option Int :=
  (scanNumber s).bind fun r =>
    let v : Int := if r.1 then -(r.2 : Int) else r.2
    if -2 ^ 31 ≤ v ∧ v < 2 ^ 31 then some v else none

/-- `std::stoul` (64-bit `unsigned long`): a minus sign negates modulo `2^64`; `none`: an exception. -/
def stoul (s : Str) : Option Nat :=
  (scanNumber s).bind fun r =>
    if r.2 < 2 ^ 64 then some (if r.1 then (2 ^ 64 - r.2) % 2 ^ 64 else r.2) else none

/-- `get_int`, properties_providers.h:50-52. -/
def getInt (t : Table) (id : Str) (dflt : Int) : Option Int :=
  match t id with
  | none => some dflt
  | some v => stoi v

/-- `get_uint`, properties_providers.h:62-64: the conversion to `unsigned` keeps the low 32 bits. -/
def getUint (t : Table) (id : Str) (dflt : Nat) : Option Nat :=
  match t id with
  | none => some dflt
  | some v => (stoul v).map (· % 2 ^ 32)

/-- `get_dbl`, properties_providers.h:54-56; `stod` is a parameter (`none`: an exception). -/
def getDbl {K : Type*} (stod : Str → Option K) (t : Table) (id : Str) (dflt : K) : Option K :=
  match t id with
  | none => some dflt
  | some v => stod v

section
variable {K : Type*} [Field K] [LinearOrder K] [IsStrictOrderedRing K] [FloorRing K]

/-- `GridMapParams`, src/core/maps/grid_map.h:10-13. -/
structure GridParams (K : Type*) where
  width : Int
  height : Int
  scale : K

/-- `static_cast<int>` of an integral `double`; undefined outside `int`. -/
def toInt32 (v : Int) : Option Int := if -2 ^ 31 ≤ v ∧ v < 2 ^ 31 then some v else none

/-- `init_grid_map_params`, init_occupancy_mapping.h:32-40. `none`: an exception or an undefined conversion (also for a
zero scale). -/
def gridParams (stod : Str → Option K) (t : Table) : Option (GridParams K) :=
  (getDbl stod t "slam/map/height_in_meters".toList 10).bind fun w =>
    (getDbl stod t "slam/map/width_in_meters".toList 10).bind fun h =>
      (getDbl stod t "slam/map/meters_per_cell".toList (1 / 10)).bind fun scale =>
        if scale = 0 then none
        else (toInt32 ⌈w / scale⌉).bind fun wc => (toInt32 ⌈h / scale⌉).map fun hc => ⟨wc, hc, scale⟩
end

/-! ## Ignored transforms -/

/-- `std::string::find` and `substr` up to it: the text before the separator and the text after it, if there is one. -/
def splitAt1 (sep : Char) (s : Str) : Option (Str × Str) :=
  if sep ∈ s then some (s.takeWhile (· ≠ sep), (s.dropWhile (· ≠ sep)).drop 1) else none

/-- Body of the loop, init_utils.h:74-84. -/
def addIgnore (ignores : Str → List Str) (entry : Str) : Str → List Str :=
  match splitAt1 '-' entry with
  | none => ignores
  | some (a, b) => fun k => if k = '/' :: a then ignores k ++ ['/' :: b] else ignores k

/-- The loop, init_utils.h:66-85; `fuel` is the length of the rest of the text. An absent key of the map and an empty
list are not distinguished. -/
def ignoresFrom (ignores : Str → List Str) : Nat → Str → Str → List Str
  | 0, _ => ignores
  | fuel + 1, data =>
    if data = [] then ignores
    else
      match splitAt1 ':' data with
      | none => addIgnore ignores data
      | some (e, rest) => ignoresFrom (addIgnore ignores e) fuel rest

/-- `tf_ignored_transforms`, init_utils.h:62-88. -/
def tfIgnores (t : Table) : Str → List Str :=
  let data := getStr t "in/odometry/ros/tf/ignore".toList []
  ignoresFrom (fun _ => []) (data.length + 1) data

/-- `should_skip_tf_transform`, bag_topic_with_transform.h:79-86. -/
def shouldSkip (ignores : Str → List Str) (fromFrame toFrame : Str) : Bool := decide (toFrame ∈ ignores fromFrame)

/-! ## Command line -/

/-- `ProgramArgs`, lslam2D_bag_runner.cpp:80-89; of the properties, the files appended, in
order; `warned` are the flags printed as unknown. -/
structure Args where
  isValid : Bool
  slamType : Str
  bag : Str
  traj : Option Str
  map : Str
  verbose : Bool
  props : List Str
  warned : List Str
  deriving DecidableEq

/-- Local variables of `init`: the arguments so far, `mandatory_id`, `flag`. -/
structure ArgState where
  args : Args
  mandatory : Nat
  flag : Str

/-- Body of the loop of `init`, lslam2D_bag_runner.cpp:35-66. -/
def argStep (s : ArgState) (arg : Str) : ArgState :=
  if arg.head? = some '-' then
    if arg = "-v".toList then { s with args := { s.args with verbose := true }, flag := [] }
    else { s with flag := arg }
  else if s.flag = [] then
    { s with
      args := if s.mandatory = 0 then { s.args with slamType := arg }
        else if s.mandatory = 1 then { s.args with bag := arg } else { s.args with isValid := false }
      mandatory := s.mandatory + 1 }
  else if s.flag = "-p".toList then { s with args := { s.args with props := s.args.props ++ [arg] }, flag := [] }
  else if s.flag = "-t".toList then { s with args := { s.args with traj := some arg }, flag := [] }
  else if s.flag = "-m".toList then { s with args := { s.args with map := arg }, flag := [] }
  else { s with args := { s.args with warned := s.args.warned ++ [s.flag] }, flag := [] }

/-- `ProgramArgs::init`, lslam2D_bag_runner.cpp:28-69, of the arguments after the program's name. -/
def parseArgs (argv : List Str) : Args :=
  let s := argv.foldl argStep ⟨⟨true, [], [], none, [], false, [], []⟩, 0, []⟩
  { s.args with isValid := s.args.isValid && decide (s.mandatory = 2) }

end Slam.Config
