import Verif.Mth.Angle
import Verif.Rot.Model

/-!
# Poses, lines, triangles and planes

Models `math/Helpers.cpp`, `math/Line.cpp`, `math/Triangle.cpp`, `math/Plane.cpp`, `math/ImplicitPlane.cpp`
and the geometric functions of `MathTools`.

Simplifications: real numbers instead of floats; a division by zero gives 0 here and an infinity or NaN in
the code, so theorems exclude it or say so.
-/

namespace Simox.Mth

open Matrix Jac Rot

/-! ## Poses -/

/-- Helpers.h 190-201 `Position(pose)`; Helpers.cpp 208-211 `GetPosition`. -/
def position (m : M4) : V3 := ![m 0 3, m 1 3, m 2 3]

/-- Helpers.h 205-216 `Orientation(pose)`; Helpers.cpp 213-216 `GetOrientation`. -/
def orientation (m : M4) : M3 := rot3 m

/-- Assignment to the orientation block of a pose. -/
def setOrientation (m : M4) (r : M3) : M4 :=
  !![r 0 0, r 0 1, r 0 2, m 0 3;
     r 1 0, r 1 1, r 1 2, m 1 3;
     r 2 0, r 2 1, r 2 2, m 2 3;
     m 3 0, m 3 1, m 3 2, m 3 3]

/-- Assignment to the position block of a pose. -/
def setPosition (m : M4) (p : V3) : M4 := setPos m (p 0) (p 1) (p 2)

/-- Helpers.h 220-229 `Pose(pos, ori)`. -/
def mkPose (pos : V3) (ori : M3) : M4 := setOrientation (setPosition 1 pos) ori

/-- Helpers.cpp 219-224 `TranslatePose(pose, offset)`. -/
def translatePose (pose : M4) (offset : V3) : M4 := setPosition pose (position pose + offset)

/-- Helpers.cpp 226-230 `InvertPose(pose)`, Helpers.h 246-251 `InvertedPose(pose)`. -/
def invertedPose (pose : M4) : M4 :=
  let pose := setOrientation pose (orientation pose)ᵀ
  setPosition pose (-(orientation pose) *ᵥ position pose)

/-- Helpers.cpp 266-269 `TransformPosition(transform, pos)`; MathTools.cpp 837-842 `transformPosition`. -/
def transformPosition (t : M4) (pos : V3) : V3 :=
  let h := t *ᵥ ![pos 0, pos 1, pos 2, 1]
  ![h 0, h 1, h 2]

/-- Helpers.cpp 271-274 `TransformDirection(transform, dir)`. -/
def transformDirection (t : M4) (dir : V3) : V3 := orientation t *ᵥ dir

/-- Helpers.cpp 276-279 `TransformOrientation(transform, ori)`. -/
def transformOrientation (t : M4) (ori : M3) : M3 := orientation t * ori

/-! ## Vectors -/

/-- Helpers.cpp 35-47 `GetOrthonormalVectors(vec, dir1, dir2)`: the result and the two directions. -/
noncomputable def getOrthonormalVectors (vec : V3) : V3 × V3 × V3 :=
  let vec := normalize vec
  let dir1 := crossProduct vec ![0, 0, 1]
  let dir1 := if nrm dir1 < 0.1 then crossProduct vec ![0, 1, 0] else dir1
  let dir1 := -normalize dir1
  let dir2 := normalize (crossProduct vec dir1)
  (vec, dir1, dir2)

/-- Helpers.cpp 161-164 `SmallestAngle(a, b)`. -/
noncomputable def smallestAngle (a b : V3) : ℝ := atan2 (nrm (crossProduct a b)) (a ⬝ᵥ b)

/-- MathTools.cpp 1391-1406 `getAngle(v1, v2)`. -/
noncomputable def getAngleVec (v1 v2 : V3) : ℝ :=
  let res := v1 ⬝ᵥ v2
  let res := res / (nrm v1 * nrm v2)
  let res := if res < -1 then -1 else res
  let res := if res > 1 then 1 else res
  Real.arccos res

/-- Helpers.cpp 249-255 `CartesianFromSphere(radius, elevation, azimuth)`, the same as
MathTools.cpp 1768-1776 `toPosition`. -/
noncomputable def cartesianFromSphere (radius elevation azimuth : ℝ) : V3 :=
  ![radius * Real.sin elevation * Real.cos azimuth, radius * Real.sin elevation * Real.sin azimuth,
    radius * Real.cos elevation]

/-- Helpers.cpp 244-247 `CartesianFromCylinder(radius, angle, height)`. -/
noncomputable def cartesianFromCylinder (radius angle height : ℝ) : V3 :=
  ![radius * Real.cos angle, radius * Real.sin angle, height]

/-- MathTools.cpp 1778-1793 `toSphericalCoords(pos)`: r, theta, phi. -/
noncomputable def toSphericalCoords (pos : V3) : ℝ × ℝ × ℝ :=
  let r := nrm pos
  if r < 1e-8 then (r, 0, 0)
  else (r, Real.arccos (pos 2 / r), atan2 (pos 1) (pos 0))

/-- MathTools.cpp 2114-2135 `getTriangleArea(a, b, c)`. -/
noncomputable def getTriangleArea (a b c : V3) : ℝ :=
  let ab := b - a
  let ac := c - a
  let abNorm := nrm ab
  let acNorm := nrm ac
  if abNorm ≤ 0 ∨ acNorm ≤ 0 then 0
  else
    let cosAlpha := ((1 / abNorm) • ab) ⬝ᵥ ((1 / acNorm) • ac)
    let sinAlpha := Real.sqrt (1 - cosAlpha * cosAlpha)
    0.5 * sinAlpha * abNorm * acNorm

/-- Helpers.cpp 349-352 `GetAngleAxisFromTo(start, target)`; the inverse of a rotation matrix is its
transpose (simplification). -/
noncomputable def getAngleAxisFromTo (start target : M3) : V3 × ℝ :=
  angleAxisOfQuat (quatOfMatrix (target * startᵀ))

/-- Helpers.cpp 354-358 `GetRotationVector(start, target)`. -/
noncomputable def getRotationVector (start target : M3) : V3 :=
  let aa := getAngleAxisFromTo start target
  aa.2 • aa.1

/-- Helpers.cpp 360-368 `RotationVectorToOrientation(rotation)`. -/
noncomputable def rotationVectorToOrientation (rotation : V3) : M3 :=
  if rotation ⬝ᵥ rotation = 0 then 1
  else axisAngle (normalize rotation) (nrm rotation)

/-- MathTools.cpp 1664-1674 `getPoseDiff(p1, p2)`: distance and angle. The inverse of a pose is that of
`InvertedPose` (simplification). -/
noncomputable def getPoseDiff (p1 p2 : M4) : ℝ × ℝ :=
  let tmp := invertedPose p1 * p2
  (nrm (position tmp), (eigen4f2axisangle tmp).2)

/-- Helpers.cpp 331-347 `LimitVectorLength(vec, maxLen)`, `none` is the exception: the factor. -/
noncomputable def limitScale : List (ℝ × ℝ) → ℝ → ℝ
  | [], scale => scale
  | (v, m) :: rest, scale =>
    limitScale rest (if |v| > m ∧ m ≥ 0 then min scale (m / |v|) else scale)

/-- Helpers.cpp 331-347 `LimitVectorLength(vec, maxLen)`; `none` is the exception. -/
noncomputable def limitVectorLength (vec maxLen : List ℝ) : Option (List ℝ) :=
  if maxLen.length ≠ 1 ∧ maxLen.length ≠ vec.length then none
  else
    let pairs := vec.zip (if maxLen.length = 1 then List.replicate vec.length (maxLen.headD 0) else maxLen)
    let scale := limitScale pairs 1
    some (vec.map (· / scale))

/-! ## Lines and triangles -/

/-- Line.h 31-58: `pos` and `dir`. -/
structure Line where
  pos : V3
  dir : V3

/-- Line.cpp 42-45 `Get(t)`. -/
def Line.get (l : Line) (t : ℝ) : V3 := l.pos + t • l.dir

/-- Line.cpp 52-55 `GetClosestPoint(p)`. -/
noncomputable def Line.getClosestPoint (l : Line) (p : V3) : V3 :=
  l.pos - (((l.pos - p) ⬝ᵥ l.dir) / (l.dir ⬝ᵥ l.dir)) • l.dir

/-- Line.cpp 57-63 `GetDistanceToPoint(p)`. -/
noncomputable def Line.getDistanceToPoint (l : Line) (p : V3) : V3 :=
  let n := normalize l.dir
  let pInLine := p - l.pos
  let len := n ⬝ᵥ pInLine
  pInLine - len • n

/-- Line.cpp 65-69 `GetT(p)`. -/
noncomputable def Line.getT (l : Line) (p : V3) : ℝ := ((p - l.pos) ⬝ᵥ l.dir) / (l.dir ⬝ᵥ l.dir)

/-- Line.cpp 143-146 `FromPoints(p1, p2)`. -/
def Line.fromPoints (p1 p2 : V3) : Line := ⟨p1, p2 - p1⟩

/-- Line.cpp 153-156 `Transform(pose)`. -/
def Line.transform (l : Line) (pose : M4) : Line :=
  ⟨transformPosition pose l.pos, transformDirection pose l.dir⟩

/-- Triangle.h 33-57. -/
structure Triangle where
  p1 : V3
  p2 : V3
  p3 : V3

/-- Line.cpp 80-128 `IntersectsTriangle(tri, out)`: the parameter if there is a hit. `EPS` is 0, so the
test for a determinant near zero (line 100) never holds; with determinant 0 the code goes on with
infinities, which this model does not follow. -/
noncomputable def Line.intersectsTriangle (l : Line) (tri : Triangle) : Option ℝ :=
  let e1 := tri.p2 - tri.p1
  let e2 := tri.p3 - tri.p1
  let p := crossProduct l.dir e2
  let det := e1 ⬝ᵥ p
  let invDet := 1 / det
  let t := l.pos - tri.p1
  let u := (t ⬝ᵥ p) * invDet
  if u < 0 ∨ u > 1 then none
  else
    let q := crossProduct t e1
    let v := (l.dir ⬝ᵥ q) * invDet
    if v < 0 ∨ u + v > 1 then none
    else
      let t := (e2 ⬝ᵥ q) * invDet
      if t > 0 then some t else none

/-- Line.cpp 130-141 `IntersectsPrimitive(p, out)`: the loop over the triangles, with the smallest parameter
so far (`none` stands for `FLT_MAX`). -/
noncomputable def Line.intersectsPrimitive (l : Line) : List Triangle → Option ℝ → Option ℝ
  | [], best => best
  | tri :: rest, best =>
    l.intersectsPrimitive rest
      (match l.intersectsTriangle tri with
       | none => best
       | some t =>
         match best with
         | none => some t
         | some b => if t < b then some t else some b)

/-- Triangle.cpp 44-47 `Normal()`. -/
def Triangle.normal (t : Triangle) : V3 := crossProduct (t.p2 - t.p1) (t.p3 - t.p1)

/-- Triangle.cpp 49-52 `Flipped()`. -/
def Triangle.flipped (t : Triangle) : Triangle := ⟨t.p2, t.p1, t.p3⟩

/-- Triangle.cpp 54-57 `Centroid()`. -/
noncomputable def Triangle.centroid (t : Triangle) : V3 := (1 / 3 : ℝ) • (t.p1 + t.p2 + t.p3)

/-- Triangle.cpp 59-77 `Subdivide(depth)` (a depth below zero is the same as zero). -/
noncomputable def Triangle.subdivide : Nat → Triangle → List Triangle
  | 0, t => [t]
  | depth + 1, t =>
    let c := (1 / 3 : ℝ) • (t.p1 + t.p2 + t.p3)
    subdivide depth ⟨t.p1, t.p2, c⟩ ++ subdivide depth ⟨t.p2, t.p3, c⟩ ++ subdivide depth ⟨t.p3, t.p1, c⟩

/-- Triangle.cpp 79-85 `Transform(center, unitLength)`. -/
def Triangle.transform (t : Triangle) (center : V3) (unitLength : ℝ) : Triangle :=
  ⟨unitLength • t.p1 + center, unitLength • t.p2 + center, unitLength • t.p3 + center⟩

/-- MathTools.cpp 959-966 `randomPointInTriangle(v1, v2, v3)`; the arguments `r1`, `r2` are the two random
numbers. -/
def randomPointInTriangle (r1 r2 : ℝ) (v1 v2 v3 : V3) : V3 :=
  let b0 := r1
  let b1 := (1 - b0) * r2
  let b2 := 1 - b0 - b1
  b0 • v1 + b1 • v2 + b2 • v3

/-- MathTools.h 524-547 `nearestPointOnSegment(a, b, p)` for different end points (the direction is
normalised once more in the constructor 217-227 of the line, which changes nothing). -/
noncomputable def nearestPointOnSegment (a b p : V3) : V3 :=
  let direction := (1 / nrm (b - a)) • (b - a)
  let lambda := direction ⬝ᵥ (p - a)
  let onLine := a + lambda • direction
  let alpha := (onLine - a) ⬝ᵥ direction
  if alpha < 0 then a
  else if alpha > nrm (b - a) then b
  else onLine

/-! ## Planes -/

/-- Plane.h 35-68 (namespace math): a point and two directions. -/
structure Plane2 where
  pos : V3
  dir1 : V3
  dir2 : V3

/-- Plane.cpp 32-35 `GetPoint(u, v)`. -/
def Plane2.getPoint (pl : Plane2) (u v : ℝ) : V3 := pl.pos + u • pl.dir1 + v • pl.dir2

/-- Plane.cpp 53-56 `GetNormal()`. -/
def Plane2.getNormal (pl : Plane2) : V3 := crossProduct pl.dir1 pl.dir2

/-- Helpers.cpp 124-128 `AssertNormalized(vec)` with the default 0.05: whether no exception is thrown. -/
def assertNormalized (v : V3) : Prop := ¬ (v ⬝ᵥ v < 1 - 0.05 ∨ v ⬝ᵥ v > 1 + 0.05)

/-- Plane.cpp 89-96 `GetUVW(pos)`, with 73-80 `GetRotationMatrix`; `none` is the exception. -/
noncomputable def Plane2.getUVW (pl : Plane2) (pos : V3) : Option V3 :=
  open Classical in
  if assertNormalized pl.dir1 ∧ assertNormalized pl.dir2 then
    let r := pos - pl.pos
    some ![pl.dir1 ⬝ᵥ r, pl.dir2 ⬝ᵥ r, pl.getNormal ⬝ᵥ r]
  else none

/-- Plane.cpp 98-103 `FromNormal(pos, normal)`. -/
noncomputable def Plane2.fromNormal (pos normal : V3) : Plane2 :=
  let r := getOrthonormalVectors normal
  ⟨pos, r.2.1, r.2.2⟩

/-- ImplicitPlane.h: the coefficients; `n` is (a,b,c). -/
structure ImplicitPlane where
  n : V3
  d : ℝ

/-- ImplicitPlane.cpp 33-37 `Normalize()`. -/
noncomputable def ImplicitPlane.normalize (pl : ImplicitPlane) : ImplicitPlane :=
  let len := nrm pl.n
  ⟨![pl.n 0 / len, pl.n 1 / len, pl.n 2 / len], pl.d / len⟩

/-- ImplicitPlane.cpp 39-42 `Flipped()`. -/
def ImplicitPlane.flipped (pl : ImplicitPlane) : ImplicitPlane := ⟨-pl.n, -pl.d⟩

/-- ImplicitPlane.cpp 49-56 `GetClosestPoint(v)`. -/
noncomputable def ImplicitPlane.getClosestPoint (pl : ImplicitPlane) (v : V3) : V3 :=
  let d := pl.d - v ⬝ᵥ pl.n
  (d / (pl.n ⬝ᵥ pl.n)) • pl.n + v

/-- ImplicitPlane.cpp 58-62 `FromPositionNormal(pos, normal)`. -/
def ImplicitPlane.fromPositionNormal (pos normal : V3) : ImplicitPlane := ⟨normal, normal ⬝ᵥ pos⟩

/-- ImplicitPlane.cpp 69-72 `GetSignedDistance(p)`. -/
def ImplicitPlane.getSignedDistance (pl : ImplicitPlane) (p : V3) : ℝ := pl.n ⬝ᵥ p + pl.d

/-- ImplicitPlane.cpp 74-92 `Intersect(plane)`. -/
noncomputable def ImplicitPlane.intersect (pl : ImplicitPlane) (plane : Plane2) : Line :=
  let n := pl.n
  let p := plane.pos
  let uv := if |n ⬝ᵥ plane.dir1| < |n ⬝ᵥ plane.dir2| then (plane.dir2, plane.dir1) else (plane.dir1, plane.dir2)
  let u := uv.1
  let v := uv.2
  ⟨p + ((pl.d - n ⬝ᵥ p) / (n ⬝ᵥ u)) • u, v - ((n ⬝ᵥ v) / (n ⬝ᵥ u)) • u⟩

/-- ImplicitPlane.cpp 95-98 `Get(pos)`. -/
noncomputable def ImplicitPlane.get (pl : ImplicitPlane) (pos : V3) : ℝ :=
  pl.n ⬝ᵥ (pos - pl.getClosestPoint pos)

/-- Plane.cpp 68-71 `ToImplicit()`. -/
def Plane2.toImplicit (pl : Plane2) : ImplicitPlane := ImplicitPlane.fromPositionNormal pl.pos pl.getNormal

/-- MathTools.cpp 851-854 `onNormalPointingSide(point, p)`. -/
def onNormalPointingSide (point : V3) (p : Rot.Plane) : Prop := (point - p.p) ⬝ᵥ p.n ≥ 0

/-- MathTools.cpp 1676-1709 `intersectSegmentPlane(segment, plane)`: the point if there is one. -/
noncomputable def intersectSegmentPlane (p0 p1 : V3) (plane : Rot.Plane) : Option V3 :=
  open Classical in
  if onNormalPointingSide p0 plane ↔ onNormalPointingSide p1 plane then none
  else
    let u := p1 - p0
    let w := p0 - plane.p
    let D := plane.n ⬝ᵥ u
    let N := -(plane.n ⬝ᵥ w)
    if |D| < 1e-6 then none
    else
      let sI := N / D
      if sI < 0 ∨ sI > 1 then none else some (p0 + sI • u)

/-- MathTools.h 213-243: the line made by the constructor 217-227. -/
noncomputable def baseLine (point dir : V3) : Line :=
  ⟨point, if nrm dir > 1e-9 then normalize dir else dir⟩

/-- MathTools.h 507-520 `nearestPointOnLine(l, p)`. -/
noncomputable def nearestPointOnLine (l : Line) (p : V3) : V3 :=
  if nrm l.dir > 1e-9 then l.pos + (l.dir ⬝ᵥ (p - l.pos)) • l.dir else 0

/-- MathTools.cpp 1586-1620 `intersectPlanes(p1, p2)`. -/
noncomputable def intersectPlanes (p1 p2 : Rot.Plane) : Line :=
  let dotpr := p1.n ⬝ᵥ p2.n
  if |dotpr - 1| < 1e-6 then ⟨0, 0⟩
  else
    let dir := crossProduct p1.n p2.n
    let d1 := p1.n ⬝ᵥ p1.p
    let d2 := p2.n ⬝ᵥ p2.p
    let det := (p1.n ⬝ᵥ p1.n) * (p2.n ⬝ᵥ p2.n) - (p1.n ⬝ᵥ p2.n) * (p1.n ⬝ᵥ p2.n)
    if |det| < 1e-9 then ⟨0, 0⟩
    else
      let c1 := (d1 * (p2.n ⬝ᵥ p2.n) - d2 * (p1.n ⬝ᵥ p2.n)) / det
      let c2 := (d2 * (p1.n ⬝ᵥ p1.n) - d1 * (p1.n ⬝ᵥ p2.n)) / det
      let pos := c1 • p1.n + c2 • p2.n
      let l := baseLine pos dir
      let pos := nearestPointOnLine l p1.p
      baseLine pos dir

end Simox.Mth
