import Verif.Float.Round

/-!
# Model of poses and scans written to and read from text files

`operator<<`/`operator>>` of `LaserScan2D` (src/core/states/sensor_data.h), `dump_state`
(src/ros/lslam2D_bag_runner.cpp) and `setup_pose2D`, `setup_laser_scan2D` (src/utils/sm_runner.cpp), at the level of
characters. Of the C++ library this models: formatted output of `double` with default flags (`%g` with six digits,
correctly rounded, ties to even), of `size_t` and `bool`; formatted input of `double`, `size_t` and `bool` as in
libstdc++ (blanks skipped; the longest prefix that has the shape of a number; a failed stream stays failed; see the
definitions). A double is a number of the field `K`; negative zero and non-finite numbers are not modelled (except that
the text `inf`/`nan` fails to be read as a number). `r` is the rounding of `strtod`.
-/

set_option autoImplicit false
set_option linter.unusedSectionVars false

namespace Slam.Text
open Slam.Float

abbrev Str := List Char

variable {K : Type} [Field K] [LinearOrder K] [IsStrictOrderedRing K] [FloorRing K]

/-! ## Output -/

/-- The character of a decimal digit. -/
def digitChar (d : Nat) : Char := Char.ofNat (48 + d % 10)

/-- The last `w` decimal digits of a number, most significant first. -/
def fixed : Nat → Nat → Str
  | 0, _ => []
  | w + 1, m => fixed w (m / 10) ++ [digitChar m]

/-- `osm << n` for an unsigned number, sensor_data.h:179. -/
def printNat (n : Nat) : Str := fixed (Nat.log 10 n + 1) n

/-- The exponent of `%e`: at least two digits. -/
def printExp (n : Nat) : Str := fixed (max 2 (Nat.log 10 n + 1)) n

/-- Six significant digits and the decimal exponent of the first one (`%e` with precision 5), ties to even. -/
def sixDigits (x : K) : Nat × ℤ :=
  let e := Int.log 10 |x|
  let m := (halfEven (|x| / 10 ^ (e - 5))).toNat
  if m = 1000000 then (100000, e + 1) else (m, e)

/-- Without trailing zeros. -/
def stripZeros (s : Str) : Str := (s.reverse.dropWhile (· == '0')).reverse

/-- Integral and fractional digits; no point if there is no fraction. -/
def withPoint (i f : Str) : Str := if f = [] then i else i ++ '.' :: f

/-- `osm << x` for a `double`, sensor_data.h:181-182, lslam2D_bag_runner.cpp:102: conversion `%g`, precision 6. -/
def printDouble (x : K) : Str :=
  if x = 0 then ['0']
  else
    let d := sixDigits x
    let ds := fixed 6 d.1
    (if x < 0 then ['-'] else []) ++
      (if d.2 < -4 ∨ 6 ≤ d.2 then
        withPoint (ds.take 1) (stripZeros (ds.drop 1)) ++
          ('e' :: (if d.2 < 0 then '-' else '+') :: printExp d.2.natAbs)
      else if 0 ≤ d.2 then
        withPoint (ds.take (d.2.toNat + 1)) (stripZeros (ds.drop (d.2.toNat + 1)))
      else withPoint ['0'] (stripZeros (List.replicate (-d.2 - 1).toNat '0' ++ ds)))

/-- `osm << b` for a `bool`, sensor_data.h:182. -/
def printBool (b : Bool) : Str := if b then ['1'] else ['0']

/-- A scan point as its accessors `range()`, `angle()`, `is_occupied()` show it, sensor_data.h:47-74. -/
structure Pt (K : Type) where
  range : K
  angle : K
  occ : Bool
  deriving DecidableEq

/-- One line of a scan, sensor_data.h:181-182. -/
def printPt (p : Pt K) : Str :=
  printDouble p.range ++ ' ' :: (printDouble p.angle ++ ' ' :: (printBool p.occ ++ ['\n']))

/-- `operator<<(std::ostream&, const LaserScan2D&)`, sensor_data.h:178-185. -/
def printScan (ps : List (Pt K)) : Str := printNat ps.length ++ '\n' :: ps.flatMap printPt

/-- The pose file of `dump_state`, lslam2D_bag_runner.cpp:99-103. -/
def printPose (p : K × K × K) : Str :=
  printDouble p.1 ++ ' ' :: (printDouble p.2.1 ++ ' ' :: printDouble p.2.2)

/-! ## Input -/

/-- White space of the C locale. -/
def isBlank (c : Char) : Bool := c = ' ' || c = '\t' || c = '\n' || c = '\r' || c.toNat = 11 || c.toNat = 12

/-- Decimal digits. -/
def isDig (c : Char) : Bool := 48 ≤ c.toNat && c.toNat ≤ 57

/-- The number a sequence of digits denotes. -/
def natOf (s : Str) : Nat := s.foldl (fun v c => 10 * v + (c.toNat - 48)) 0

/-- An optional sign. -/
def takeSign : Str → Bool × Str
  | '-' :: t => (true, t)
  | '+' :: t => (false, t)
  | t => (false, t)

/-- The fractional part, if a point comes next. -/
def takeFrac : Str → Str × Str
  | '.' :: t => (t.takeWhile isDig, t.dropWhile isDig)
  | t => ([], t)

/-- The exponent, if an `e` comes next; `none`: no digits after it. -/
def takeExp : Str → Option (ℤ × Str)
  | c :: t =>
    if c = 'e' ∨ c = 'E' then
      let s := takeSign t
      let ds := s.2.takeWhile isDig
      if ds = [] then none
      else some (if s.1 then -(natOf ds : ℤ) else natOf ds, s.2.dropWhile isDig)
    else some (0, c :: t)
  | [] => some (0, [])

/-- A decimal floating point number at the beginning of the text: its value and the rest; `none`: there is none. -/
def parseDouble (r : K → K) (s : Str) : Option (K × Str) :=
  let s := takeSign s
  let i := s.2.takeWhile isDig
  let f := takeFrac (s.2.dropWhile isDig)
  if i ++ f.1 = [] then none
  else (takeExp f.2).map fun e =>
    let v : K := (natOf (i ++ f.1) : K) * 10 ^ (e.1 - (f.1.length : ℤ))
    (r (if s.1 then -v else v), e.2)

/-- An integer at the beginning of the text: sign, magnitude, rest. -/
def parseInt (s : Str) : Option (Bool × Nat × Str) :=
  let s := takeSign s
  let i := s.2.takeWhile isDig
  if i = [] then none else some (s.1, natOf i, s.2.dropWhile isDig)

/-- An input stream: the characters not read yet; `none`: it has failed, so that further input does nothing. -/
abbrev Stream := Option Str

/-- Skipping blanks before formatted input; the end of the text is a failure. -/
def sentry (s : Stream) : Stream :=
  s.bind fun t =>
    let t := t.dropWhile isBlank
    if t = [] then none else some t

/-- `ism >> x` for a `double x`: the variable keeps its value if the stream has failed before or is at its end, and is
zeroed if there is no number. -/
def getDouble (r : K → K) (s : Stream) (old : K) : K × Stream :=
  match sentry s with
  | none => (old, none)
  | some t =>
    match parseDouble r t with
    | none => (0, none)
    | some (v, rest) => (v, some rest)

/-- `ism >> n` for a `size_t n` (64 bits): a minus sign negates modulo `2^64`, too large numbers fail with the largest. -/
def getSize (s : Stream) (old : Nat) : Nat × Stream :=
  match sentry s with
  | none => (old, none)
  | some t =>
    match parseInt t with
    | none => (0, none)
    | some (neg, n, rest) =>
      if n < 2 ^ 64 then (if neg then (2 ^ 64 - n) % 2 ^ 64 else n, some rest) else (2 ^ 64 - 1, none)

/-- `ism >> b` for a `bool b`: reads a number; anything but 0 and 1 fails with `true`, no number fails with `false`.
The variable may be uninitialised (`none`). -/
def getBool (s : Stream) (old : Option Bool) : Option Bool × Stream :=
  match sentry s with
  | none => (old, none)
  | some t =>
    match parseInt t with
    | none => (some false, none)
    | some (neg, n, rest) =>
      if n = 0 then (some false, some rest)
      else if n = 1 ∧ ¬ neg then (some true, some rest)
      else (some true, none)

/-- The loop of `operator>>`, sensor_data.h:193-198, `n` more points; `none`: an uninitialised `bool` is read, which is
undefined behaviour. -/
def readPts (r : K → K) : Nat → Stream → Option (List (Pt K) × Stream)
  | 0, s => some ([], s)
  | n + 1, s =>
    let a := getDouble r s 0
    let b := getDouble r a.2 0
    let c := getBool b.2 none
    c.1.bind fun occ =>
      (readPts r n c.2).map fun p => (⟨a.1, b.1, occ⟩ :: p.1, p.2)

/-- `operator>>(std::istream&, LaserScan2D&)`, sensor_data.h:187-201. -/
def readScan (r : K → K) (s : Stream) : Option (List (Pt K) × Stream) :=
  let n := getSize s 0
  readPts r n.1 n.2

/-- `setup_pose2D`, sm_runner.cpp:23-34, of a readable file. -/
def readPose (r : K → K) (file : Str) : K × K × K :=
  let x := getDouble r (some file) 0
  let y := getDouble r x.2 0
  let t := getDouble r y.2 0
  (x.1, y.1, t.1)

/-- `setup_laser_scan2D`, sm_runner.cpp:52-62, of a readable file. -/
def setupScan (r : K → K) (file : Str) : Option (List (Pt K)) := (readScan r (some file)).map Prod.fst

end Slam.Text
