import Verif.Rio.Model
import Verif.Rot.Model

/-!
# Reading transformations

Models lines 115-400 and 1814-1834 of `VirtualRobot/XML/BaseIO.cpp` and `VirtualRobot/Transformation/DHParameter.h`.
-/

namespace Simox.Rio

open Rot Matrix

section
variable (F : String → Option ℝ)

/-- XML/BaseIO.cpp 132-137 and the like: the entries of a row of three, `none` is the exception. -/
def row3 (n : Xml) : Option (Fin 3 → ℝ) :=
  match getFloat F n "c1", getFloat F n "c2", getFloat F n "c3" with
  | some a, some b, some c => some ![a, b, c]
  | _, _, _ => none

/-- XML/BaseIO.cpp 204-210 and the like: the entries of a row of four. -/
def row4 (n : Xml) : Option (Fin 4 → ℝ) :=
  match getFloat F n "c1", getFloat F n "c2", getFloat F n "c3", getFloat F n "c4" with
  | some a, some b, some c, some d => some ![a, b, c, d]
  | _, _, _, _ => none

/-- A row that need not be there: the row of the identity otherwise. -/
def optRow {α : Type} (read : Xml → Option α) (n : Xml) (name : String) (standard : α) : Option α :=
  match n.firstNode name with
  | none => some standard
  | some r => read r

/-- XML/BaseIO.cpp 115-152 `process3x3Matrix` (with a node). -/
def process3x3 (n : Xml) : Option M3 :=
  match optRow (row3 F) n "row1" ![1, 0, 0], optRow (row3 F) n "row2" ![0, 1, 0], optRow (row3 F) n "row3" ![0, 0, 1] with
  | some a, some b, some c => some (Matrix.of ![a, b, c])
  | _, _, _ => none

/-- XML/BaseIO.cpp 230-240, 317-327: the position in the last column is given in meters or millimeters. -/
def scaleLength (n : Xml) (m : M4) : Option M4 :=
  if hasUnits n then
    match getUnits n .length with
    | none => none
    | some u => if u.isMeter then some (setPos m (m 0 3 * 1000) (m 1 3 * 1000) (m 2 3 * 1000)) else some m
  else some m

/-- XML/BaseIO.cpp 195-243: `<Matrix4x4>`. -/
def processMatrix4 (n : Xml) : Option M4 :=
  match optRow (row4 F) n "row1" ![1, 0, 0, 0], optRow (row4 F) n "row2" ![0, 1, 0, 0], optRow (row4 F) n "row3" ![0, 0, 1, 0], optRow (row4 F) n "row4" ![0, 0, 0, 1] with
  | some a, some b, some c, some d => scaleLength n (Matrix.of ![a, b, c, d])
  | _, _, _, _ => none

/-- XML/BaseIO.cpp 262-287: `<RollPitchYaw>`. -/
noncomputable def processRpy (n : Xml) : Option M4 :=
  match getFloat F n "roll", getFloat F n "pitch", getFloat F n "yaw" with
  | some r, some p, some y =>
    match getUnits n .angle with
    | none => none
    | some u =>
      if u.isDegree then some (rpy2eigen4f (r / 180 * Real.pi) (p / 180 * Real.pi) (y / 180 * Real.pi)) else some (rpy2eigen4f r p y)
  | _, _, _ => none

/-- XML/BaseIO.cpp 294-301: `<Quaternion>`. -/
def processQuat (n : Xml) : Option M4 :=
  match getFloat F n "x", getFloat F n "y", getFloat F n "z", getFloat F n "w" with
  | some x, some y, some z, some w => some (quat2eigen4f ⟨x, y, z, w⟩)
  | _, _, _, _ => none

/-- XML/BaseIO.cpp 308-330: `<Translation>`. -/
def processTranslation (n : Xml) : Option M4 :=
  match getFloat F n "x", getFloat F n "y", getFloat F n "z" with
  | some x, some y, some z => scaleLength n (setPos 1 x y z)
  | _, _, _ => none

/-- Transformation/DHParameter.h `DHParameter`. -/
structure DH where
  theta : ℝ := 0
  d : ℝ := 0
  a : ℝ := 0
  alpha : ℝ := 0

/-- Transformation/DHParameter.h 125-128 `transformation()` with 142-173. -/
noncomputable def DH.transformation (h : DH) : M4 :=
  !![Real.cos h.theta, -Real.sin h.theta, 0, 0; Real.sin h.theta, Real.cos h.theta, 0, 0; 0, 0, 1, 0; 0, 0, 0, 1] *
  !![1, 0, 0, 0; 0, 1, 0, 0; 0, 0, 1, h.d; 0, 0, 0, 1] *
  !![1, 0, 0, h.a; 0, 1, 0, 0; 0, 0, 1, 0; 0, 0, 0, 1] *
  !![1, 0, 0, 0; 0, Real.cos h.alpha, -Real.sin h.alpha, 0; 0, Real.sin h.alpha, Real.cos h.alpha, 0; 0, 0, 0, 1]

/-- The last unit of a list for which `p` holds, `standard` without one: the loop of XML/BaseIO.cpp 357-368. -/
def lastUnit (p : Units → Bool) (standard : Units) (l : List Units) : Units := l.foldl (fun u i => if p i then i else u) standard

/-- Transformation/DHParameter.h 52-62, 73-83: the angle in radian. -/
noncomputable def angleRadian (x : ℝ) (isRadian : Bool) : ℝ := if isRadian then x else x * (Real.pi / 180)

/-- XML/BaseIO.cpp 350-400 `processDHNode`. -/
noncomputable def processDH (n : Xml) : Option DH :=
  let units := getAllUnits n
  let uAngle := lastUnit Units.isAngle "rad" units
  let uLength := lastUnit Units.isLength "mm" units
  match getOptFloat (fun t => (F t).map uLength.toMillimeter) n "a" 0, getOptFloat (fun t => (F t).map uLength.toMillimeter) n "d" 0,
      getOptFloat (fun t => (F t).map fun x => angleRadian x uAngle.isRadian) n "alpha" 0,
      getOptFloat (fun t => (F t).map fun x => angleRadian x uAngle.isRadian) n "theta" 0 with
  | some a, some d, some alpha, some theta => some ⟨theta, d, a, alpha⟩
  | _, _, _, _ => none

/-- XML/BaseIO.cpp 186-344: the matrix of one child of `<Transform>`; unknown elements have no effect. -/
noncomputable def processPart (n : Xml) : Option M4 :=
  if lower n.name == "matrix4x4" then processMatrix4 F n
  else if lower n.name == "matrix3x3" then (process3x3 F n).map block4
  else if lower n.name == "rollpitchyaw" || lower n.name == "rpy" then processRpy F n
  else if lower n.name == "quaternion" || lower n.name == "quat" then processQuat F n
  else if lower n.name == "translation" || lower n.name == "trans" then processTranslation F n
  else if lower n.name == "dh" then (processDH F n).map DH.transformation
  else some 1

/-- XML/BaseIO.cpp 181-347: the loop over the children. -/
noncomputable def processParts : List Xml → M4 → Option M4
  | [], t => some t
  | n :: rest, t =>
    match processPart F n with
    | none => none
    | some m => processParts rest (t * m)

/-- XML/BaseIO.cpp 160-349 `processTransformNode`. -/
noncomputable def processTransform (n : Option Xml) : Option M4 :=
  match n with
  | none => some 1
  | some n =>
    if lower n.name == "transform" then processParts F n.children 1
    else
      match n.firstNode "transform" with
      | none => none
      | some t => processParts F t.children 1

/-- XML/RobotIO.cpp 605-745 `processRobotNode`, one child of the node `n` for its transformation: for a child `<Transform>` the function is called with the
node itself. -/
noncomputable def nodeStep (n : Xml) (t : Option M4) (c : Xml) : Option M4 :=
  if lower c.name == "transform" then t.bind fun _ => processTransform F (some n) else t

/-- XML/RobotIO.cpp 605-745 `processRobotNode`, the part that reads the transformation of a node. -/
noncomputable def nodeTransform (n : Xml) : Option M4 :=
  n.children.foldl (nodeStep F n) (some 1)

end

/-- XML/BaseIO.cpp 1814-1833 `toXML(m)`, as the element that a parser reads; `S` prints a number (six digits). -/
def matrixToXml (S : ℝ → String) (m : M4) : Xml :=
  { name := "Matrix4x4", attrs := [("units", "mm")],
    children := [{ name := "row1", attrs := [("c1", S (m 0 0)), ("c2", S (m 0 1)), ("c3", S (m 0 2)), ("c4", S (m 0 3))] },
      { name := "row2", attrs := [("c1", S (m 1 0)), ("c2", S (m 1 1)), ("c3", S (m 1 2)), ("c4", S (m 1 3))] },
      { name := "row3", attrs := [("c1", S (m 2 0)), ("c2", S (m 2 1)), ("c3", S (m 2 2)), ("c4", S (m 2 3))] },
      { name := "row4", attrs := [("c1", S (m 3 0)), ("c2", S (m 3 1)), ("c3", S (m 3 2)), ("c4", S (m 3 3))] }] }

end Simox.Rio
