import Mathlib.Analysis.SpecialFunctions.Trigonometric.Basic
import Mathlib.Algebra.Order.Floor.Ring

/-!
# Angles modulo a full turn

Models `MathTools.cpp` 2068-2112 and `math/Helpers.cpp` 50-62, 77-87, 103-112.

Simplifications: real numbers instead of floats, `M_PIf` is π. With floats the upper bound of a range can
be reached by rounding.
-/

namespace Simox.Mth

/-- `std::fmod(x, y)` for `y ≠ 0`: `x` minus `y` times the quotient rounded towards zero. -/
noncomputable def stdFmod (x y : ℝ) : ℝ :=
  if 0 ≤ x / y then x - ⌊x / y⌋ * y else x - ⌈x / y⌉ * y

/-- MathTools.cpp 2068-2076 `fmod(value, boundLow, boundHigh)`. -/
noncomputable def fmod (value boundLow boundHigh : ℝ) : ℝ :=
  let value := stdFmod (value - boundLow) (boundHigh - boundLow) + boundLow
  if value < boundLow then value + (boundHigh - boundLow) else value

/-- MathTools.cpp 2078-2081 `angleMod2PI(value)`. -/
noncomputable def angleMod2PI (value : ℝ) : ℝ := fmod value 0 (2 * Real.pi)

/-- MathTools.cpp 2083-2086 `angleModPI(value)`. -/
noncomputable def angleModPI (value : ℝ) : ℝ := angleMod2PI (value + Real.pi) - Real.pi

/-- MathTools.cpp 2088-2091 `angleModX(value, center)`. -/
noncomputable def angleModX (value center : ℝ) : ℝ :=
  angleMod2PI (value + Real.pi - center) - Real.pi + center

/-- MathTools.cpp 2093-2096 and Helpers.cpp 81-84 `Lerp(a, b, f)`. -/
def lerp (a b f : ℝ) : ℝ := a * (1 - f) + b * f

/-- MathTools.cpp 2098-2101 and Helpers.cpp 103-106 `ILerp(a, b, f)`. -/
noncomputable def iLerp (a b f : ℝ) : ℝ := (f - a) / (b - a)

/-- MathTools.cpp 2103-2107 `AngleLerp(a, b, f)`. -/
noncomputable def angleLerp (a b f : ℝ) : ℝ :=
  let b := fmod b (a - Real.pi) (a + Real.pi)
  lerp a b f

/-- MathTools.cpp 2109-2112 `AngleDelta(angle1, angle2)`. -/
noncomputable def angleDelta (angle1 angle2 : ℝ) : ℝ := angleModPI (angle2 - angle1)

/-- Helpers.cpp 52: the loop that adds full turns. `fuel` bounds the number of turns of the loop; `none`
if it is still running. -/
noncomputable def addTurns : Nat → ℝ → Option ℝ
  | 0, _ => none
  | fuel + 1, a => if a < 0 then addTurns fuel (a + 2 * Real.pi) else some a

/-- Helpers.cpp 53-54: the loop that takes full turns away. -/
noncomputable def subTurns : Nat → ℝ → Option ℝ
  | 0, _ => none
  | fuel + 1, a => if a > 2 * Real.pi then subTurns fuel (a - 2 * Real.pi) else some a

/-- Helpers.cpp 49-55 `ShiftAngle0_2PI(a)`. -/
noncomputable def shiftAngle (fuel : Nat) (a : ℝ) : Option ℝ :=
  (addTurns fuel a).bind (subTurns fuel)

/-- Helpers.cpp 57-60 `AngleModPI(value)`. -/
noncomputable def helpersAngleModPI (fuel : Nat) (value : ℝ) : Option ℝ :=
  (shiftAngle fuel (value + Real.pi)).map (· - Real.pi)

end Simox.Mth
