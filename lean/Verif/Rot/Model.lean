import Verif.Jac.Model
import Mathlib.Analysis.SpecialFunctions.Complex.Arg

/-!
# Rotations, quaternions and planes

Models the conversions between representations of rotations in `VirtualRobot/MathTools.cpp`, the
quaternion functions and the functions on planes built on them.

Simplifications: reals instead of floats (and `M_PIf` is π); `std::atan2` is the argument of a complex
number, which has the same range and the same value 0 at (0,0); division by zero gives 0 and is only
reached where a comment says so. Eigen's own functions (not part of the repository) are modelled after
Eigen 3.3.
-/

namespace Simox.Rot

open Matrix Jac

/-- `Eigen::Matrix3f`. -/
abbrev M3 := Matrix (Fin 3) (Fin 3) ℝ
/-- `Eigen::Matrix4f`. -/
abbrev M4 := Matrix (Fin 4) (Fin 4) ℝ

/-- `std::atan2(y, x)`. -/
noncomputable def atan2 (y x : ℝ) : ℝ := Complex.arg ⟨x, y⟩

/-! ## Roll, pitch, yaw -/

/-- The six numbers of `float x[6]`: position, then roll, pitch, yaw (MathTools.h 147-151). -/
@[ext] structure PosRpy where
  x : ℝ
  y : ℝ
  z : ℝ
  roll : ℝ
  pitch : ℝ
  yaw : ℝ

/-- `beta`: MathTools.cpp 202. -/
noncomputable def rpyBeta (m : M4) : ℝ :=
  atan2 (-m 2 0) (Real.sqrt (m 0 0 * m 0 0 + m 1 0 * m 1 0))

/-- MathTools.cpp 198-227 `eigen4f2rpy(m, x)`. -/
noncomputable def eigen4f2rpy (m : M4) : PosRpy :=
  let beta := rpyBeta m
  if |beta - Real.pi * 0.5| < 1e-10 then
    ⟨m 0 3, m 1 3, m 2 3, atan2 (m 0 1) (m 1 1), beta, 0⟩
  else if |beta + Real.pi * 0.5| < 1e-10 then
    ⟨m 0 3, m 1 3, m 2 3, - atan2 (m 0 1) (m 1 1), beta, 0⟩
  else
    let cb := 1 / Real.cos beta
    ⟨m 0 3, m 1 3, m 2 3, atan2 (m 2 1 * cb) (m 2 2 * cb), beta, atan2 (m 1 0 * cb) (m 0 0 * cb)⟩

/-- MathTools.cpp 259-289 `rpy2eigen4f(r, p, y, m)`. -/
noncomputable def rpy2eigen4f (r p y : ℝ) : M4 :=
  let sgamma := Real.sin r
  let cgamma := Real.cos r
  let sbeta := Real.sin p
  let cbeta := Real.cos p
  let salpha := Real.sin y
  let calpha := Real.cos y
  !![calpha * cbeta, calpha * sbeta * sgamma - salpha * cgamma, calpha * sbeta * cgamma + salpha * sgamma, 0;
     salpha * cbeta, salpha * sbeta * sgamma + calpha * cgamma, salpha * sbeta * cgamma - calpha * sgamma, 0;
     - sbeta, cbeta * sgamma, cbeta * cgamma, 0;
     0, 0, 0, 1]

/-- MathTools.cpp 298-323 `rpy2eigen3f(r, p, y)`. -/
noncomputable def rpy2eigen3f (r p y : ℝ) : M3 :=
  let sgamma := Real.sin r
  let cgamma := Real.cos r
  let sbeta := Real.sin p
  let cbeta := Real.cos p
  let salpha := Real.sin y
  let calpha := Real.cos y
  !![calpha * cbeta, calpha * sbeta * sgamma - salpha * cgamma, calpha * sbeta * cgamma + salpha * sgamma;
     salpha * cbeta, salpha * sbeta * sgamma + calpha * cgamma, salpha * sbeta * cgamma - calpha * sgamma;
     - sbeta, cbeta * sgamma, cbeta * cgamma]

/-- Overwriting the first three entries of the last column. -/
def setPos (m : M4) (x y z : ℝ) : M4 :=
  !![m 0 0, m 0 1, m 0 2, x;
     m 1 0, m 1 1, m 1 2, y;
     m 2 0, m 2 1, m 2 2, z;
     m 3 0, m 3 1, m 3 2, m 3 3]

/-- MathTools.cpp 325-331 `posrpy2eigen4f(x, m)`; the overloads 334-357 pass their arguments on. -/
noncomputable def posrpy2eigen4f (v : PosRpy) : M4 :=
  setPos (rpy2eigen4f v.roll v.pitch v.yaw) v.x v.y v.z

/-- The identity with its upper left 3x3 block overwritten: MathTools.cpp 252-253, 734-738, 1335-1336. -/
def block4 (m : M3) : M4 :=
  !![m 0 0, m 0 1, m 0 2, 0;
     m 1 0, m 1 1, m 1 2, 0;
     m 2 0, m 2 1, m 2 2, 0;
     0, 0, 0, 1]

/-- `m.block(0, 0, 3, 3)`. -/
def rot3 (m : M4) : M3 :=
  !![m 0 0, m 0 1, m 0 2;
     m 1 0, m 1 1, m 1 2;
     m 2 0, m 2 1, m 2 2]

/-- MathTools.cpp 244-249 `eigen3f2rpy(m)`. -/
noncomputable def eigen3f2rpy (m : M3) : V3 :=
  let x := eigen4f2rpy (block4 m)
  ![x.roll, x.pitch, x.yaw]

/-! ## Quaternions -/

/-- MathTools.h 46-54 `struct Quaternion`. -/
@[ext] structure Quat where
  x : ℝ
  y : ℝ
  z : ℝ
  w : ℝ

/-- MathTools.h 48-52: the default quaternion. -/
def Quat.one : Quat := ⟨0, 0, 0, 1⟩

/-- MathTools.cpp 1442-1450 `getConjugated(q)`. -/
def getConjugated (q : Quat) : Quat := ⟨q.x * (-1), q.y * (-1), q.z * (-1), q.w⟩

/-- `FLT_MIN`. -/
noncomputable def fltMin : ℝ := 1 / 2 ^ 126

/-- MathTools.cpp 1424-1440 `getInverse(q)`. -/
noncomputable def getInverse (q : Quat) : Quat :=
  let tmpQ := q.x * q.x + q.y * q.y + q.z * q.z + q.w * q.w
  let tmpQ := if tmpQ = 0 then fltMin else tmpQ
  let nq := 1 / tmpQ
  let res := getConjugated q
  ⟨res.x * nq, res.y * nq, res.z * nq, res.w * nq⟩

/-- MathTools.cpp 1452-1460 `multiplyQuaternions(q1, q2)`. -/
def multiplyQuaternions (q1 q2 : Quat) : Quat :=
  ⟨q1.w * q2.x + q2.w * q1.x + q1.y * q2.z - q1.z * q2.y,
   q1.w * q2.y + q2.w * q1.y - q1.x * q2.z + q1.z * q2.x,
   q1.w * q2.z + q2.w * q1.z + q1.x * q2.y - q1.y * q2.x,
   q1.w * q2.w - q1.x * q2.x - q1.y * q2.y - q1.z * q2.z⟩

/-- MathTools.cpp 1408-1412 `getDelta(q1, q2)`. -/
noncomputable def getDelta (q1 q2 : Quat) : Quat :=
  multiplyQuaternions q2 (getInverse q1)

/-- MathTools.cpp 1485-1488 `getDot(q1, q2)`. -/
def getDot (q1 q2 : Quat) : ℝ :=
  q1.x * q2.x + q1.y * q2.y + q1.z * q2.z + q1.w * q2.w

/-- One turn of the loop in `getMean`: MathTools.cpp 1503-1517. -/
noncomputable def meanStep (res q : Quat) : Quat :=
  if getDot res q > 0 then ⟨res.x + q.x, res.y + q.y, res.z + q.z, res.w + q.w⟩
  else ⟨res.x + -q.x, res.y + -q.y, res.z + -q.z, res.w + -q.w⟩

/-- MathTools.cpp 1490-1534 `getMean(quaternions)`. -/
noncomputable def getMean : List Quat → Quat
  | [] => Quat.one
  | q0 :: qs =>
    let res := (q0 :: qs).foldl meanStep ⟨0, 0, 0, 0⟩
    let mag := Real.sqrt (res.x * res.x + res.y * res.y + res.z * res.z + res.w * res.w)
    if mag > 0.0001 then ⟨res.x / mag, res.y / mag, res.z / mag, res.w / mag⟩
    else q0

/-- Eigen `QuaternionBase::slerp(t, other)`; `eps` is the float epsilon in its test for nearly parallel
quaternions. -/
noncomputable def eigenSlerp (eps : ℝ) (a b : Quat) (t : ℝ) : Quat :=
  let d := getDot a b
  let absD := |d|
  let s : ℝ × ℝ :=
    if absD ≥ 1 - eps then (1 - t, t)
    else
      let theta := Real.arccos absD
      let sinTheta := Real.sin theta
      (Real.sin ((1 - t) * theta) / sinTheta, Real.sin (t * theta) / sinTheta)
  let scale1 := if d < 0 then -s.2 else s.2
  ⟨s.1 * a.x + scale1 * b.x, s.1 * a.y + scale1 * b.y, s.1 * a.z + scale1 * b.z,
   s.1 * a.w + scale1 * b.w⟩

/-- MathTools.cpp 1536-1548 `slerp(q1, q2, alpha)`; `none` is the exception. The second component of the
result is the third of Eigen's, and the third is the first: this is what lines 1545-1546 do. -/
noncomputable def slerp (eps : ℝ) (q1 q2 : Quat) (alpha : ℝ) : Option Quat :=
  if alpha < 0 ∨ alpha > 1 then none
  else
    let eq := eigenSlerp eps q1 q2 alpha
    some ⟨eq.x, eq.z, eq.x, eq.w⟩

/-- Eigen `QuaternionBase::toRotationMatrix()`. -/
def toRotationMatrix (q : Quat) : M3 :=
  let tx := 2 * q.x
  let ty := 2 * q.y
  let tz := 2 * q.z
  let twx := tx * q.w
  let twy := ty * q.w
  let twz := tz * q.w
  let txx := tx * q.x
  let txy := ty * q.x
  let txz := tz * q.x
  let tyy := ty * q.y
  let tyz := tz * q.y
  let tzz := tz * q.z
  !![1 - (tyy + tzz), txy - twz, txz + twy;
     txy + twz, 1 - (txx + tzz), tyz - twx;
     txz - twy, tyz + twx, 1 - (txx + tyy)]

/-- MathTools.cpp 727-738 `quat2eigen4f(x, y, z, w)`; the overloads 716-724 pass their arguments on. -/
def quat2eigen4f (q : Quat) : M4 := block4 (toRotationMatrix q)

/-- MathTools.cpp 2058-2065 `posquat2eigen4f`. -/
def posquat2eigen4f (x y z : ℝ) (q : Quat) : M4 := setPos (quat2eigen4f q) x y z

/-- Eigen's conversion of a rotation matrix to a quaternion (`quaternionbase_assign_impl`). -/
noncomputable def quatOfMatrix (m : M3) : Quat :=
  let t := m 0 0 + m 1 1 + m 2 2
  if t > 0 then
    let s := Real.sqrt (t + 1)
    let k := 0.5 / s
    ⟨(m 2 1 - m 1 2) * k, (m 0 2 - m 2 0) * k, (m 1 0 - m 0 1) * k, 0.5 * s⟩
  else
    let i : Nat := if m 1 1 > m 0 0 then 1 else 0
    let i : Nat := if m 2 2 > (if i = 1 then m 1 1 else m 0 0) then 2 else i
    if i = 0 then
      let s := Real.sqrt (m 0 0 - m 1 1 - m 2 2 + 1)
      let k := 0.5 / s
      ⟨0.5 * s, (m 1 0 + m 0 1) * k, (m 2 0 + m 0 2) * k, (m 2 1 - m 1 2) * k⟩
    else if i = 1 then
      let s := Real.sqrt (m 1 1 - m 2 2 - m 0 0 + 1)
      let k := 0.5 / s
      ⟨(m 0 1 + m 1 0) * k, 0.5 * s, (m 2 1 + m 1 2) * k, (m 0 2 - m 2 0) * k⟩
    else
      let s := Real.sqrt (m 2 2 - m 0 0 - m 1 1 + 1)
      let k := 0.5 / s
      ⟨(m 0 2 + m 2 0) * k, (m 1 2 + m 2 1) * k, 0.5 * s, (m 1 0 - m 0 1) * k⟩

/-- MathTools.cpp 1462-1472 `eigen4f2quat(m)`. -/
noncomputable def eigen4f2quat (m : M4) : Quat := quatOfMatrix (rot3 m)

/-- MathTools.cpp 1336-1341 `axisangle2eigen4f(axis, angle)`, with 1330-1334 `axisangle2eigen3f`. -/
noncomputable def axisangle2eigen4f (axis : V3) (angle : ℝ) : M4 := block4 (axisAngle axis angle)

/-- MathTools.cpp 1344-1367 `axisangle2eigen4f(axis, angle, storeResult)`: the upper left block is
overwritten, the rest of `storeResult` is left as it is. -/
noncomputable def axisangle2eigen4fStore (axis : V3) (angle : ℝ) (store : M4) : M4 :=
  let c := Real.cos angle
  let s := Real.sin angle
  let t := 1 - c
  !![c + axis 0 * axis 0 * t, axis 0 * axis 1 * t - axis 2 * s, axis 0 * axis 2 * t + axis 1 * s, store 0 3;
     axis 0 * axis 1 * t + axis 2 * s, c + axis 1 * axis 1 * t, axis 1 * axis 2 * t - axis 0 * s, store 1 3;
     axis 0 * axis 2 * t - axis 1 * s, axis 1 * axis 2 * t + axis 0 * s, c + axis 2 * axis 2 * t, store 2 3;
     store 3 0, store 3 1, store 3 2, store 3 3]

/-- MathTools.cpp 1479-1483 `axisangle2quat(axis, angle)`. -/
noncomputable def axisangle2quat (axis : V3) (angle : ℝ) : Quat := eigen4f2quat (axisangle2eigen4f axis angle)

/-- The axis and the angle of an Eigen `AngleAxis`, from a quaternion. -/
noncomputable def angleAxisOfQuat (q : Quat) : V3 × ℝ :=
  let n := Real.sqrt (q.x * q.x + q.y * q.y + q.z * q.z)
  if n ≠ 0 then
    let angle := 2 * atan2 n |q.w|
    let n := if q.w < 0 then -n else n
    (![q.x / n, q.y / n, q.z / n], angle)
  else (![1, 0, 0], 0)

/-- MathTools.cpp 1323-1328 `eigen4f2axisangle(m, storeAxis, storeAngle)`. -/
noncomputable def eigen4f2axisangle (m : M4) : V3 × ℝ := angleAxisOfQuat (eigen4f2quat m)

/-- MathTools.cpp 1369-1389 `getAngle(q)`. -/
noncomputable def getAngle (q : Quat) : ℝ :=
  let angle := (angleAxisOfQuat q).2
  if angle > Real.pi then 2 * Real.pi - angle else angle

/-! ## Hopf coordinates -/

/-- MathTools.cpp 1971-2018 `quat2hopf(q)`. -/
noncomputable def quat2hopf (q : Quat) : V3 :=
  let a43 := atan2 q.z q.w
  let a12 := atan2 q.y q.x
  let r0 := a12 - a43
  let r1 := a43 + a12
  let p := Real.sqrt (q.y * q.y + q.x * q.x)
  let r2 := if |p - 1| < 1e-6 then Real.pi * 0.5
            else if |p + 1| < 1e-6 then - Real.pi * 0.5
            else Real.arcsin p
  let r0 := if r0 < 0 then 2 * Real.pi + r0 else r0
  let r1 := if r1 < 0 then 2 * Real.pi + r1 else r1
  ![r0, r1, r2]

/-- MathTools.cpp 2020-2057 `hopf2quat(hopf)`. -/
noncomputable def hopf2quat (h : V3) : Quat :=
  ⟨Real.cos ((h 0 + h 1) * 0.5) * Real.sin (h 2),
   Real.sin ((h 0 + h 1) * 0.5) * Real.sin (h 2),
   Real.sin ((h 1 - h 0) * 0.5) * Real.cos (h 2),
   Real.cos ((h 1 - h 0) * 0.5) * Real.cos (h 2)⟩

/-! ## Rotation between two directions, planes -/

/-- `v.norm()`. -/
noncomputable def nrm (v : V3) : ℝ := Real.sqrt (v ⬝ᵥ v)

/-- Eigen `v.normalize()`: nothing happens to the zero vector. -/
noncomputable def normalize (v : V3) : V3 := if v ⬝ᵥ v > 0 then (1 / nrm v) • v else v

/-- MathTools.cpp 617-669 `getRotation(from, to)`. -/
noncomputable def getRotation (frm dst : V3) : Quat :=
  let fromN := normalize frm
  let toN := normalize dst
  let d := fromN ⬝ᵥ toN
  let crossvec := crossProduct fromN toN
  let crosslen := nrm crossvec
  if crosslen = 0 then
    if d > 0 then Quat.one
    else
      let t := crossProduct fromN ![1, 0, 0]
      let t := if nrm t = 0 then crossProduct fromN ![0, 1, 0] else t
      let t := normalize t
      ⟨t 0, t 1, t 2, 0⟩
  else
    let c := Real.sqrt (0.5 * |1 - d|) • normalize crossvec
    ⟨c 0, c 1, c 2, Real.sqrt (0.5 * |1 + d|)⟩

/-- MathTools.h 187-209 `struct Plane`. -/
structure Plane where
  p : V3
  n : V3

/-- MathTools.h 195-200: the constructor normalises the normal. -/
noncomputable def Plane.mk' (point normal : V3) : Plane := ⟨point, normalize normal⟩

/-- MathTools.cpp 371-374 `getDistancePointPlane(point, plane)`. -/
def getDistancePointPlane (point : V3) (plane : Plane) : ℝ := plane.n ⬝ᵥ (point - plane.p)

/-- MathTools.cpp 376-380 `projectPointToPlane(point, plane)`. -/
def projectPointToPlane (point : V3) (plane : Plane) : V3 :=
  point - getDistancePointPlane point plane • plane.n

/-- MathTools.cpp 671-690 `planePoint3D(pointLocal, plane)`. -/
noncomputable def planePoint3D (l : Fin 2 → ℝ) (plane : Plane) : V3 :=
  let quat := getRotation ![0, 0, 1] plane.n
  let m := setPos (quat2eigen4f quat) (plane.p 0) (plane.p 1) (plane.p 2)
  let pt := m *ᵥ ![l 0, l 1, 0, 1]
  ![pt 0, pt 1, pt 2]

/-- MathTools.cpp 692-714 `projectPointToPlane2D(point, plane)`. -/
noncomputable def projectPointToPlane2D (point : V3) (plane : Plane) : Fin 2 → ℝ :=
  let pp := projectPointToPlane point plane
  let quat := getRotation plane.n ![0, 0, 1]
  let m := setPos (quat2eigen4f quat) (-plane.p 0) (-plane.p 1) (-plane.p 2)
  let pt := m *ᵥ ![pp 0, pp 1, pp 2, 1]
  ![pt 0, pt 1]

end Simox.Rot
