import Verif.PlainMap.Model

/-! # Specification: a map is a total function from coordinates to cells -/

namespace Slam.PlainMap
open Slam.Grid
variable {C O : Type}

/-- The abstract effect of one operation on "the value at `c`". -/
def specStep (upd : C → O → C) (f : Coord → C) : Op C O → Coord → C
  | .update c o => fun d => if d = c then upd (f c) o else f d
  | .reset c v => fun d => if d = c then v else f d

/-- The abstract effect of a history. -/
def specRun (upd : C → O → C) (f : Coord → C) (ops : List (Op C O)) : Coord → C :=
  ops.foldl (specStep upd) f

end Slam.PlainMap
