import Mathlib.Analysis.SpecialFunctions.Complex.Arg
import Mathlib.Analysis.SpecialFunctions.Trigonometric.Basic

/-!
# Model of trigonometry providers and scan points

`src/core/trigonometry_utils.h`, `src/core/states/sensor_data.h`. Doubles are reals here; the C library's `sin`, `cos`,
`sqrt` and `atan2` are the exact functions.
-/

set_option autoImplicit false

namespace Slam.Sensor

/-! ## Trigonometry providers -/

/-- `RawTrigonometryProvider`, trigonometry_utils.h:17-35: the base angle. -/
structure Raw where
  base : ℝ

/-- trigonometry_utils.h:21-23. -/
noncomputable def Raw.sin (p : Raw) (a : ℝ) : ℝ := Real.sin (p.base + a)
/-- trigonometry_utils.h:25-27. -/
noncomputable def Raw.cos (p : Raw) (a : ℝ) : ℝ := Real.cos (p.base + a)

/-- `CachedTrigonometryProvider`, trigonometry_utils.h:80-84. -/
structure Cached where
  sinT : List ℝ
  cosT : List ℝ
  sinBase : ℝ
  cosBase : ℝ
  angleMin : ℝ
  angleMax : ℝ
  delta : ℝ

/-- The constructor, trigonometry_utils.h:39-43. -/
noncomputable def Cached.init : Cached := ⟨[], [], Real.sin 0, Real.cos 0, 0, 0, 0⟩

/-- `std::round`: to the nearest integer, halves away from zero. -/
noncomputable def roundC (x : ℝ) : ℤ := if 0 ≤ x then ⌊x + 1 / 2⌋ else ⌈x - 1 / 2⌉

/-- Vector access with an `int` index; `none` is out of bounds. -/
def at? (l : List ℝ) (i : ℤ) : Option ℝ := if 0 ≤ i then l[i.toNat]? else none

/-- `CachedTrigonometryProvider::sin`, trigonometry_utils.h:45-49. -/
noncomputable def Cached.sin (c : Cached) (a : ℝ) : Option ℝ :=
  let i := roundC ((a - c.angleMin) / c.delta)
  (at? c.cosT i).bind fun co => (at? c.sinT i).map fun si => c.sinBase * co + c.cosBase * si

/-- `CachedTrigonometryProvider::cos`, trigonometry_utils.h:51-55. -/
noncomputable def Cached.cos (c : Cached) (a : ℝ) : Option ℝ :=
  let i := roundC ((a - c.angleMin) / c.delta)
  (at? c.cosT i).bind fun co => (at? c.sinT i).map fun si => c.cosBase * co - c.sinBase * si

/-- `set_base_angle`, trigonometry_utils.h:57-60. -/
noncomputable def Cached.setBase (c : Cached) (a : ℝ) : Cached :=
  { c with sinBase := Real.sin a, cosBase := Real.cos a }

open Classical in
/-- The angles visited by the loop of `update`, trigonometry_utils.h:74; `none` if it runs longer than `fuel`. -/
noncomputable def sweep (max inc : ℝ) : Nat → ℝ → Option (List ℝ)
  | 0, _ => none
  | fuel + 1, a => if a < max then (sweep max inc fuel (a + inc)).map (a :: ·) else some []

open Classical in
/-- `update`, trigonometry_utils.h:62-78. -/
noncomputable def Cached.update (c : Cached) (fuel : Nat) (aMin aMax aInc : ℝ) : Option Cached :=
  if aMin = c.angleMin ∧ aMax = c.angleMax ∧ aInc = c.delta then some c
  else (sweep aMax aInc fuel aMin).map fun as =>
    { c with sinT := as.map Real.sin, cosT := as.map Real.cos, angleMin := aMin, angleMax := aMax, delta := aInc }

/-- Calls on a provider. -/
inductive TrigOp where
  | update (aMin aMax aInc : ℝ)
  | setBase (a : ℝ)

/-- One call. -/
noncomputable def Cached.step (fuel : Nat) (c : Cached) : TrigOp → Option Cached
  | .update a b d => c.update fuel a b d
  | .setBase a => some (c.setBase a)

/-- A history of calls. -/
noncomputable def Cached.run (fuel : Nat) (c : Cached) : List TrigOp → Option Cached
  | [] => some c
  | op :: ops => (c.step fuel op).bind fun c => Cached.run fuel c ops

/-! ## Scan points -/

/-- `ScanPoint2D`, sensor_data.h:14-137. -/
inductive ScanPoint where
  | polar (range angle : ℝ) (occupied : Bool) (factor : ℝ)
  | cartesian (x y : ℝ) (occupied : Bool) (factor : ℝ)

/-- `std::atan2(y, x)`. -/
noncomputable def atan2 (y x : ℝ) : ℝ := Complex.arg ⟨x, y⟩

/-- sensor_data.h:47-53. -/
noncomputable def ScanPoint.range : ScanPoint → ℝ
  | .polar r _ _ _ => r
  | .cartesian x y _ _ => Real.sqrt (x ^ 2 + y ^ 2)

/-- sensor_data.h:54-59. -/
noncomputable def ScanPoint.angle : ScanPoint → ℝ
  | .polar _ a _ _ => a
  | .cartesian x y _ _ => atan2 y x

/-- sensor_data.h:60-65. -/
noncomputable def ScanPoint.x : ScanPoint → ℝ
  | .cartesian x _ _ _ => x
  | .polar r a _ _ => r * Real.cos a

/-- sensor_data.h:66-71. -/
noncomputable def ScanPoint.y : ScanPoint → ℝ
  | .cartesian _ y _ _ => y
  | .polar r a _ _ => r * Real.sin a

/-- sensor_data.h:72. -/
def ScanPoint.occupied : ScanPoint → Bool
  | .cartesian _ _ o _ => o
  | .polar _ _ o _ => o

/-- sensor_data.h:75. -/
def ScanPoint.factor : ScanPoint → ℝ
  | .cartesian _ _ _ f => f
  | .polar _ _ _ f => f

/-- `move_origin` with a provider, sensor_data.h:83-88: the provider is given by its sine and cosine. -/
noncomputable def ScanPoint.moveBy (p : ScanPoint) (dx dy : ℝ) (sn cs : ℝ → ℝ) : ℝ × ℝ :=
  (dx + p.range * cs p.angle, dy + p.range * sn p.angle)

/-- `move_origin` with an angle, sensor_data.h:96-101. -/
noncomputable def ScanPoint.moveRot (p : ScanPoint) (dx dy da : ℝ) : ℝ × ℝ :=
  let q := ScanPoint.polar p.range (p.angle + da) p.occupied 1
  (q.x + dx, q.y + dy)

/-- `move_origin` without rotation, sensor_data.h:103-105. -/
noncomputable def ScanPoint.move (p : ScanPoint) (dx dy : ℝ) : ℝ × ℝ := (p.x + dx, p.y + dy)

/-- `to_cartesian` with a provider, sensor_data.h:77-80 (the factor is reset to one by the constructor). -/
noncomputable def ScanPoint.toCartesianBy (p : ScanPoint) (sn cs : ℝ → ℝ) : ScanPoint :=
  let q := p.moveBy 0 0 sn cs
  .cartesian q.1 q.2 p.occupied 1

/-- `to_cartesian`, sensor_data.h:107-113. -/
noncomputable def ScanPoint.toCartesian (p : ScanPoint) (da dr : ℝ) : ScanPoint :=
  let q := ScanPoint.polar (p.range + dr) (p.angle + da) p.occupied 1
  .cartesian q.x q.y q.occupied 1

/-- `to_polar`, sensor_data.h:115-121. -/
noncomputable def ScanPoint.toPolar (p : ScanPoint) (dx dy : ℝ) : ScanPoint :=
  let q := ScanPoint.cartesian (p.x + dx) (p.y + dy) p.occupied 1
  .polar q.range q.angle q.occupied 1

/-- `LaserScan2D::to_cartesian`, sensor_data.h:156-167, with a raw provider. -/
noncomputable def scanToCartesian (ps : List ScanPoint) (angle : ℝ) : List ScanPoint :=
  ps.map fun p => p.toCartesianBy (Raw.sin ⟨angle⟩) (Raw.cos ⟨angle⟩)

end Slam.Sensor
