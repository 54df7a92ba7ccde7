import Init.Data.List.SplitOn
import Mathlib.Logic.Relation
import Verif.Config.Model

/-!
# What the configuration means

Independent of the reader: lines of a text, entries and includes as shapes of a line, the order in which files are
visited.
-/

set_option autoImplicit false

namespace Slam.Config

/-- A line `k=v`; keys have no `=`, and a line that begins with `#` or `<` is not an entry. -/
def IsEntry (line k v : Str) : Prop :=
  line = k ++ '=' :: v ∧ '=' ∉ k ∧ line.head? ≠ some '#' ∧ line.head? ≠ some '<'

/-- A line `<name>`. -/
def IsInclude (line name : Str) : Prop := line = '<' :: (name ++ ['>'])

/-- The lines of a text: the text split at newlines, without the empty piece after a final newline. -/
def textLines (c : Str) : List Str :=
  if (c.splitOn '\n').getLast? = some [] then (c.splitOn '\n').dropLast else c.splitOn '\n'

/-- The text gives `k` the value `v`: the last entry of `k` says so. -/
def TextGives (c k v : Str) : Prop :=
  ∃ pre line post, textLines c = pre ++ line :: post ∧ IsEntry line k v ∧ ∀ l ∈ post, ∀ w, ¬ IsEntry l k w

/-- The text has no entry of `k`. -/
def TextSilent (c k : Str) : Prop := ∀ l ∈ textLines c, ∀ w, ¬ IsEntry l k w

/-- `names` are the names included by the lines, in order. -/
inductive IncludesOf : List Str → List Str → Prop
  | nil : IncludesOf [] []
  | incl {l : Str} {ls : List Str} {n : Str} {ns : List Str} :
      IsInclude l n → IncludesOf ls ns → IncludesOf (l :: ls) (n :: ns)
  | other {l : Str} {ls ns : List Str} : (∀ n, ¬ IsInclude l n) → IncludesOf ls ns → IncludesOf (l :: ls) ns

/-- Reading the files `paths` one after the other finds the texts `cs`, in the order in which they take effect: the
included files first, then the text of the file itself, then the next path; a file that can not be opened is passed
over. -/
inductive Visits (F : Files) : List Str → List Str → Prop
  | nil : Visits F [] []
  | missing {p : Str} {ps cs : List Str} : F.content p = none → Visits F ps cs → Visits F (p :: ps) cs
  | file {p c : Str} {names ps is cs : List Str} : F.content p = some c → IncludesOf (textLines c) names →
      Visits F (names.map (F.resolve p)) is → Visits F ps cs → Visits F (p :: ps) (is ++ c :: cs)

/-- The first text that has an entry of `k` gives the value. -/
def FirstGives (cs : List Str) (k v : Str) : Prop :=
  ∃ pre c post, cs = pre ++ c :: post ∧ TextGives c k v ∧ ∀ c' ∈ pre, TextSilent c' k

/-- The file `q` is named by an include of the file `p`. -/
def IncludedBy (F : Files) (q p : Str) : Prop :=
  ∃ c line name, F.content p = some c ∧ line ∈ textLines c ∧ IsInclude line name ∧ q = F.resolve p name

/-! ## Numbers -/

/-- The character of a digit. -/
def digitChar (d : Fin 10) : Char := Char.ofNat (48 + d.val)

/-- The number written with the digits, most significant first. -/
def decimal (ds : List (Fin 10)) : Nat := ds.foldl (fun v d => 10 * v + d.val) 0

/-! ## Command line -/

/-- Parts of a command line. -/
inductive Item where
  | positional (a : Str)
  | verbose
  | props (a : Str)
  | traj (a : Str)
  | map (a : Str)
  /-- a flag that is not documented, with a value -/
  | unknown (f a : Str)
  /-- a flag without a value -/
  | dangling (f : Str)

/-- The arguments of a part. -/
def Item.args : Item → List Str
  | .positional a => [a]
  | .verbose => ["-v".toList]
  | .props a => ["-p".toList, a]
  | .traj a => ["-t".toList, a]
  | .map a => ["-m".toList, a]
  | .unknown f a => [f, a]
  | .dangling f => [f]

/-- An argument that looks like a flag. -/
def IsFlag (a : Str) : Prop := ∃ t, a = '-' :: t

/-- A command line made of parts: values do not look like flags, other flags are not documented ones, a dangling flag
is followed by a flag or by nothing. -/
def WellFormed : List Item → Prop
  | [] => True
  | .positional a :: r => ¬ IsFlag a ∧ WellFormed r
  | .verbose :: r => WellFormed r
  | .props a :: r => ¬ IsFlag a ∧ WellFormed r
  | .traj a :: r => ¬ IsFlag a ∧ WellFormed r
  | .map a :: r => ¬ IsFlag a ∧ WellFormed r
  | .unknown f a :: r =>
    IsFlag f ∧ f ∉ ["-v".toList, "-p".toList, "-t".toList, "-m".toList] ∧ ¬ IsFlag a ∧ WellFormed r
  | .dangling f :: r =>
    IsFlag f ∧ f ≠ "-v".toList ∧ (∀ a, (r.flatMap Item.args).head? = some a → IsFlag a) ∧ WellFormed r

/-- The positional arguments. -/
def positionals (is : List Item) : List Str := is.filterMap fun | .positional a => some a | _ => none

/-- The files of properties. -/
def propFiles (is : List Item) : List Str := is.filterMap fun | .props a => some a | _ => none

/-- The trajectory files. -/
def trajFiles (is : List Item) : List Str := is.filterMap fun | .traj a => some a | _ => none

/-- The map files. -/
def mapFiles (is : List Item) : List Str := is.filterMap fun | .map a => some a | _ => none

/-- The undocumented flags that come with a value. -/
def unknownFlags (is : List Item) : List Str := is.filterMap fun | .unknown f _ => some f | _ => none

/-- Whether the output is verbose. -/
def isVerbose (is : List Item) : Bool := is.any fun | .verbose => true | _ => false

/-! ## Ignored transforms -/

/-- The text of a list of transforms to ignore: `from-to` separated by `:`. -/
def ignoreText : List (Str × Str) → Str
  | [] => []
  | [p] => p.1 ++ '-' :: p.2
  | p :: q :: r => p.1 ++ '-' :: p.2 ++ ':' :: ignoreText (q :: r)

/-- `e` is an entry of the text: a part without colons that starts at the beginning or after a colon and ends at the end
or before a colon. -/
def Entry (text e : Str) : Prop :=
  ∃ pre post, text = pre ++ e ++ post ∧ ':' ∉ e ∧ (pre = [] ∨ ∃ p, pre = p ++ [':']) ∧
    (post = [] ∨ ∃ q, post = ':' :: q)

/-- The text lists the transform: some entry is its frames, without their leading slashes, around the first hyphen. -/
def Listed (text fromFrame toFrame : Str) : Prop :=
  ∃ e, Entry text e ∧ ∃ a b, e = a ++ '-' :: b ∧ '-' ∉ a ∧ fromFrame = '/' :: a ∧ toFrame = '/' :: b

end Slam.Config
