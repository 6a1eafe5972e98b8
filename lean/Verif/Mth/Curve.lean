import Verif.Mth.Geo

/-!
# Curves

Models `math/Bezier.cpp`, `math/LinearContinuedBezier.cpp`, `math/LineStrip.cpp` (and `LineStripR1RM.h`),
`math/AbstractFunctionR1R3.cpp`, `math/CompositeFunctionR1R6.cpp`, `math/TransformedFunctionR1R3.cpp`,
`math/LinearInterpolatedOrientation.cpp` and the functions of `math/Helpers.cpp` they use.

Simplification: real numbers instead of floats. A number of segments or steps of type `int` is a natural
number; below zero the loops do nothing, as for zero.
-/

namespace Simox.Mth

open Matrix Jac Rot

/-! ## Bezier curves -/

/-- Bezier.h: the four control points; LinearContinuedBezier.h has the same. -/
structure Bezier where
  p0 : V3
  p1 : V3
  p2 : V3
  p3 : V3

/-- Bezier.cpp 40-43 `Pow3(x)`. -/
def pow3 (x : ℝ) : ℝ := x * x * x

/-- Bezier.cpp 45-48 `Pow2(x)`. -/
def pow2 (x : ℝ) : ℝ := x * x

/-- Bezier.cpp 50-53 `CubicBezierPoint(p0, p1, p2, p3, t)`, and 30-33 `Get(t)`. -/
def Bezier.get (b : Bezier) (t : ℝ) : V3 :=
  pow3 (1 - t) • b.p0 + (3 * t * pow2 (1 - t)) • b.p1 + (3 * pow2 t * (1 - t)) • b.p2 + pow3 t • b.p3

/-- Bezier.cpp 65-68 `CubicBezierDerivative(p0, p1, p2, p3, t)`, and 35-38 `GetDerivative(t)`. -/
def Bezier.getDerivative (b : Bezier) (t : ℝ) : V3 :=
  (-3 * pow2 (1 - t)) • b.p0 + (3 * pow2 (1 - t)) • b.p1 - (6 * (1 - t) * t) • b.p1 + (6 * (1 - t) * t) • b.p2 -
    (3 * pow2 t) • b.p2 + (3 * pow2 t) • b.p3

/-- Bezier.cpp 55-63 `CubicBezier(p0, p1, p2, p3, steps)`. -/
noncomputable def Bezier.points (b : Bezier) (steps : Nat) : List V3 :=
  (List.range (steps + 1)).map fun (i : Nat) => b.get (1 / steps * i)

/-- LinearContinuedBezier.cpp 31-36 `Get(t)`. -/
noncomputable def Bezier.lcGet (b : Bezier) (t : ℝ) : V3 :=
  if 0 ≤ t ∧ t ≤ 1 then b.get t
  else if t < 0 then b.p0 + (3 * -t) • (b.p0 - b.p1)
  else b.p3 + (3 * (t - 1)) • (b.p3 - b.p2)

/-- LinearContinuedBezier.cpp 38-43 `GetDerivative(t)`. -/
noncomputable def Bezier.lcGetDerivative (b : Bezier) (t : ℝ) : V3 :=
  if 0 ≤ t ∧ t ≤ 1 then b.getDerivative t
  else if t < 0 then (-3 : ℝ) • (b.p0 - b.p1)
  else (3 : ℝ) • (b.p3 - b.p2)

/-! ## Line strips -/

/-- `static_cast<int>` of a number: towards zero. -/
noncomputable def truncInt (x : ℝ) : ℤ := if x < 0 then ⌈x⌉ else ⌊x⌋

/-- Helpers.cpp 62-72 `GetIndex(t, minT, maxT, count, i, f)`: index and fraction. -/
noncomputable def getIndex (t minT maxT : ℝ) (count : ℤ) : ℤ × ℝ :=
  if minT = maxT then (0, 0)
  else
    let f := ((t - minT) / (maxT - minT)) * (count - 1)
    let i := max 0 (min (count - 2) (truncInt f))
    (i, f - i)

/-- LineStrip.cpp 39-44 `Get(t)`, the same for any dimension in LineStripR1RM.h 47-52; `none` is the exception
of `at`. The index is never negative. -/
noncomputable def lineStripGet {d : Nat} (points : List (Fin d → ℝ)) (minT maxT t : ℝ) : Option (Fin d → ℝ) :=
  let r := getIndex t minT maxT points.length
  match points[r.1.toNat]?, points[r.1.toNat + 1]? with
  | some a, some b => some ((1 - r.2) • a + r.2 • b)
  | _, _ => none

/-! ## Functions of one parameter -/

/-- One turn of the loop of `FindClosestPoint`, AbstractFunctionR1R3.cpp 35-44. -/
noncomputable def closestStep (get : ℝ → V3) (p : V3) (t1 t2 : ℝ) (segments : Nat) (s : ℝ × ℝ) (i : Nat) : ℝ × ℝ :=
  let t := t1 + (t2 - t1) * i / segments
  let d := (get t - p) ⬝ᵥ (get t - p)
  if d < s.2 then (t, d) else s

/-- AbstractFunctionR1R3.cpp 31-47 `FindClosestPoint(p, t1, t2, segments)`. -/
noncomputable def findClosestPoint (get : ℝ → V3) (p : V3) (t1 t2 : ℝ) (segments : Nat) : ℝ :=
  ((List.range' 1 segments).foldl (closestStep get p t1 t2 segments) (t1, (get t1 - p) ⬝ᵥ (get t1 - p))).1

/-- AbstractFunctionR1R3.cpp 50-59 `MoveLengthOnCurve(x, l, steps)`: the loop, with `n` turns to go. -/
noncomputable def moveLoop (deriv : ℝ → V3) (dl : ℝ) : Nat → ℝ → ℝ
  | 0, x => x
  | n + 1, x =>
    let d := nrm (deriv x)
    moveLoop deriv dl n (x + dl / Real.sqrt (1 + d * d))

/-- AbstractFunctionR1R3.cpp 50-59 `MoveLengthOnCurve(x, l, steps)`. -/
noncomputable def moveLengthOnCurve (deriv : ℝ → V3) (x l : ℝ) (steps : Nat) : ℝ :=
  moveLoop deriv (l / steps) steps x

/-- One turn of the loop of `GetLength`, AbstractFunctionR1R3.cpp 66-72: the last point and the length. -/
noncomputable def lengthStep (get : ℝ → V3) (t1 t2 : ℝ) (steps : Nat) (s : V3 × ℝ) (i : Nat) : V3 × ℝ :=
  let t := t1 + (t2 - t1) / steps * i
  let p1 := get t
  (p1, s.2 + nrm (p1 - s.1))

/-- AbstractFunctionR1R3.cpp 62-74 `GetLength(t1, t2, steps)`. -/
noncomputable def getLength (get : ℝ → V3) (t1 t2 : ℝ) (steps : Nat) : ℝ :=
  ((List.range' 1 steps).foldl (lengthStep get t1 t2 steps) (get t1, 0)).2

/-- AbstractFunctionR1R3.cpp 87-96 `Segments(t1, t2, segments)`. -/
noncomputable def segmentsOf (t1 t2 : ℝ) (segments : Nat) : List ℝ :=
  (List.range (segments + 1)).map fun (i : Nat) => t1 + (t2 - t1) * i / segments

/-- AbstractFunctionR1R3.cpp 77-84 `Sample(t1, t2, segments)`. -/
noncomputable def sample (get : ℝ → V3) (t1 t2 : ℝ) (segments : Nat) : List V3 :=
  (segmentsOf t1 t2 segments).map get

/-- Helpers.cpp 130-137 `FloatRange(start, end, steps)`. -/
noncomputable def floatRange (start stop : ℝ) (steps : Nat) : List ℝ :=
  (List.range (steps + 1)).map fun (i : Nat) => lerp start stop (i / steps)

/-- Helpers.cpp 145-159 `VectorRange(xvals, yvals, zvals)`. -/
def vectorRange (xs ys zs : List ℝ) : List V3 :=
  xs.flatMap fun x => ys.flatMap fun y => zs.map fun z => ![x, y, z]

/-- Helpers.cpp 181-191 `Average(vectors)`. -/
noncomputable def average (vectors : List V3) : V3 :=
  if vectors.length = 0 then 0
  else (1 / (vectors.length : ℝ)) • vectors.foldl (· + ·) 0

/-- CompositeFunctionR1R6.cpp 34-37 `GetPosition(t)`. -/
noncomputable def compositePosition (get : ℝ → V3) (startT endT t : ℝ) : V3 := get (iLerp startT endT t)

/-- CompositeFunctionR1R6.cpp 45-48 `GetPositionDerivative(t)`. -/
noncomputable def compositePositionDerivative (deriv : ℝ → V3) (startT endT t : ℝ) : V3 :=
  (1 / (endT - startT)) • deriv (iLerp startT endT t)

/-! ## Interpolated orientations -/

/-- LinearInterpolatedOrientation.h: the members. -/
structure LinOri where
  startOri : Quat
  endOri : Quat
  startT : ℝ
  endT : ℝ
  clamp : Bool
  angle : ℝ
  axis : V3
  derivative : V3

/-- LinearInterpolatedOrientation.cpp 29-38, the constructor. The angle is in [0,π], so that the loops of
`AngleModPI` do not turn. -/
noncomputable def LinOri.make (startOri endOri : Quat) (startT endT : ℝ) (clamp : Bool) : LinOri :=
  let aa := angleAxisOfQuat (multiplyQuaternions endOri (getInverse startOri))
  let angle := (helpersAngleModPI 1 aa.2).getD 0
  let axis := aa.1
  let oriDelta : V3 := if |angle| < 0.01 then 0 else angle • aa.1
  ⟨startOri, endOri, startT, endT, clamp, angle, axis, (1 / (endT - startT)) • oriDelta⟩

/-- Helpers.cpp 74-79 `Clamp(min, max, value)`. -/
noncomputable def clampTo (lo hi value : ℝ) : ℝ := if value < lo then lo else if value > hi then hi else value

/-- Eigen: the quaternion of an `AngleAxis`. -/
noncomputable def quatOfAngleAxis (angle : ℝ) (axis : V3) : Quat :=
  ⟨axis 0 * Real.sin (angle / 2), axis 1 * Real.sin (angle / 2), axis 2 * Real.sin (angle / 2), Real.cos (angle / 2)⟩

/-- LinearInterpolatedOrientation.cpp 46-62 `Get(t)`. -/
noncomputable def LinOri.get (o : LinOri) (t : ℝ) : Quat :=
  if o.derivative ⬝ᵥ o.derivative < 0.001 then o.startOri
  else
    let f := iLerp o.startT o.endT t
    let f := if o.clamp then clampTo 0 1 f else f
    multiplyQuaternions (quatOfAngleAxis (f * o.angle) o.axis) o.startOri

/-- LinearInterpolatedOrientation.cpp 64-72 `GetDerivative(t)`. -/
noncomputable def LinOri.getDerivative (o : LinOri) (t : ℝ) : V3 :=
  if o.clamp = true ∧ (t < o.startT ∨ t > o.endT) then 0 else o.derivative

end Simox.Mth
