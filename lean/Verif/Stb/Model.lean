import Verif.Hull.Model
import Verif.Rot.Model

/-!
# Standing: the support polygon, its stability index, and the step loops of the IK solvers

Models `VirtualRobot/IK/SupportPolygon.cpp`, the loops `CoMIK::computeSteps` and
`HierarchicalIKSolver::computeSteps`, and `JointLimitAvoidanceJacobi`. Numbers are real (no rounding).
-/

namespace Simox.Stb

open Classical Simox.Hull

/-- `MathTools::getFloorPlane`, MathTools.cpp 1581-1584. -/
noncomputable def floorPlane : Rot.Plane := Rot.Plane.mk' 0 ![0, 0, 1]

/-- The contact points on the floor, SupportPolygon.cpp 39-46. -/
noncomputable def toFloor (p : Jac.V3) : Pt :=
  (Rot.projectPointToPlane2D p floorPlane 0, Rot.projectPointToPlane2D p floorPlane 1)

/-- `SupportPolygon::updateSupportPolygon`, SupportPolygon.cpp 27-59. `contacts` are the points that
`getContacts` has found for each collision model (33-37). The collision checker is not modelled. -/
noncomputable def updateSupportPolygon (contacts : List (List Jac.V3)) : Res (Option ConvexHull2D) :=
  let points := contacts.flatten.map toFloor
  let current := sortPoints points
  if current.length < 3 then .ok none
  else
    match createConvexHull2D current with
    | .ok H => .ok (some H)
    | .throw => .throw
    | .ub => .ub

/-- `dir.normalize()` (Eigen: the zero vector stays). -/
noncomputable def normalize2 (v : Pt) : Pt :=
  let n := Real.sqrt (v.1 * v.1 + v.2 * v.2)
  if n > 0 then (v.1 / n, v.2 / n) else v

/-- `SupportPolygon::getSquaredDistLine`, SupportPolygon.cpp 72-83. -/
noncomputable def getSquaredDistLine (p pt1 pt2 : Pt) : ℝ :=
  let lp : Pt := (p.1 - pt1.1, p.2 - pt1.2)
  let dir := normalize2 (pt2.1 - pt1.1, pt2.2 - pt1.2)
  let lambda := dir.1 * lp.1 + dir.2 * lp.2
  let on : Pt := (pt1.1 + lambda * dir.1, pt1.2 + lambda * dir.2)
  (on.1 - p.1) * (on.1 - p.1) + (on.2 - p.2) * (on.2 - p.2)

/-- `FLT_MAX`. -/
def fltMax : ℝ := 340282346638528859811704183484516925440

/-- `pt1` and `pt2` of iteration `i`, SupportPolygon.cpp 123-132. -/
def edgeAt (vs : List Pt) (i : Nat) : Pt × Pt :=
  if i > 0 then (at' vs (i - 1), at' vs i) else (at' vs (vs.length - 1), at' vs 0)

/-- The body of the loop, 134-153: `m` holds `minDistCenter` and `minDistCoM`. -/
noncomputable def distStep (vs : List Pt) (center com : Pt) (m : ℝ × ℝ) (i : Nat) : ℝ × ℝ :=
  let e := edgeAt vs i
  let d := getSquaredDistLine center e.1 e.2
  let mc := if d < m.1 then d else m.1
  let d' := getSquaredDistLine com e.1 e.2
  (mc, if d' < m.2 then d' else m.2)

/-- `SupportPolygon::getStabilityIndex`, SupportPolygon.cpp 86-175, after the update of the polygon: `ch` is the
polygon and `com` the centre of mass of the node set (`none`: no node set was given). -/
noncomputable def getStabilityIndex (ch : Option ConvexHull2D) (com : Option Jac.V3) : ℝ :=
  match com, ch with
  | some c, some H =>
    if H.vertices.length < 2 then 0
    else
      let com2D : Pt := (c 0, c 1)
      if isInside com2D (some H) = false then 0
      else
        let center := getConvexHullCenter (some H)
        let m := (List.range H.vertices.length).foldl (distStep H.vertices center com2D) (fltMax, fltMax)
        let minDistCenter := Real.sqrt m.1
        let minDistCoM := Real.sqrt m.2
        let res := if |minDistCenter| > 1 / 10 ^ 8 then minDistCoM / minDistCenter else 0
        if res > 1 then 1 else res
  | _, _ => 0

/-- What a step loop uses: the step that is computed in a state of the robot, whether its entries are numbers
(`MathTools::isValid`), its norm, the robot after the step, and `checkTolerances`. -/
structure Solver (S D : Type) where
  step : S → D
  valid : D → Bool
  norm : D → ℝ
  move : S → D → S
  ok : S → Bool

variable {S D : Type}

/-- The loop of `CoMIK::computeSteps`, CoMIK.cpp 195-243, with `n` iterations left: the robot afterwards and the
result. -/
noncomputable def Solver.comLoop (v : Solver S D) (improve : Bool) (minChange : ℝ) : Nat → ℝ → S → S × Bool
  | 0, _, s => (s, false)
  | n + 1, lastDist, s =>
    let d := v.step s
    if v.valid d = false then (s, false)
    else
      let s' := v.move s d
      if v.ok s' then (s', true)
      else if v.norm d < minChange then (s', false)
      else if improve = true ∧ v.norm d > lastDist then (s', false)
      else Solver.comLoop v improve minChange n (v.norm d) s'

/-- `CoMIK::computeSteps`, CoMIK.cpp 186-244 (the tolerances checked at 192 are not used). A negative
`maxNStep` is like zero. -/
noncomputable def Solver.comSteps (v : Solver S D) (improve : Bool) (minChange : ℝ) (maxNStep : Int) (s : S) :
    S × Bool := v.comLoop improve minChange maxNStep.toNat fltMax s

/-- The loop of `HierarchicalIKSolver::computeSteps`, HierarchicalIKSolver.cpp 23-59. -/
noncomputable def Solver.hierLoop (v : Solver S D) (minChange : ℝ) : Nat → S → S × Bool
  | 0, s => (s, false)
  | n + 1, s =>
    let d := v.step s
    if v.valid d = false then (s, false)
    else
      let s' := v.move s d
      if v.ok s' then (s', true)
      else if v.norm d < minChange then (s', false)
      else Solver.hierLoop v minChange n s'

/-- `HierarchicalIKSolver::computeSteps`, HierarchicalIKSolver.cpp 14-60. -/
noncomputable def Solver.hierSteps (v : Solver S D) (minChange : ℝ) (maxSteps : Int) (s : S) : S × Bool :=
  v.hierLoop minChange maxSteps.toNat s

/-- `HierarchicalIKSolver::checkTolerances`, HierarchicalIKSolver.cpp 62-73, over the tests of the added
Jacobians. -/
def checkAll : List (S → Bool) → S → Bool
  | [], _ => true
  | f :: l, s => if f s = false then false else checkAll l s

/-- A node of the set: its kind, limits and value. -/
structure Joint where
  rotational : Bool
  lo : ℝ
  hi : ℝ
  value : ℝ

/-- One entry of `JointLimitAvoidanceJacobi::getError`, JointLimitAvoidanceJacobi.cpp 38-47. -/
noncomputable def Joint.error (j : Joint) (stepSize : ℝ) : ℝ :=
  if j.rotational = true then
    let l := j.hi - j.lo
    let target := j.lo + l * (1 / 2)
    (target - j.value) * stepSize
  else 0

/-- `JointLimitAvoidanceJacobi::getError`, JointLimitAvoidanceJacobi.cpp 31-51. -/
noncomputable def avoidError (js : List Joint) (stepSize : ℝ) : List ℝ := js.map fun j => j.error stepSize

/-- `JointLimitAvoidanceJacobi::checkTolerances`, JointLimitAvoidanceJacobi.cpp 53-56. -/
def avoidOk (_ : S) : Bool := false

/-- A node after `setJointValue` (the value is brought into the limits, RobotNode.cpp 178-207; not for limitless joints). -/
noncomputable def Joint.set (j : Joint) (v : ℝ) : Joint :=
  { j with value := if v < j.lo then j.lo else if v > j.hi then j.hi else v }

/-- One step with this Jacobian alone, HierarchicalIKSolver.cpp 35-38: the Jacobian is the identity
(JointLimitAvoidanceJacobi.cpp 23-29), and so is its inverse; the step is the error. -/
noncomputable def avoidStep (stepSize : ℝ) (js : List Joint) : List Joint :=
  List.zipWith (fun j d => j.set (j.value + d)) js (avoidError js stepSize)

end Simox.Stb
