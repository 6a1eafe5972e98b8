import Verif.Rio.Transform

/-!
# Reading joints, physical properties and configurations

Models `VirtualRobot/XML/RobotIO.cpp` (limits and joints) and `VirtualRobot/XML/BaseIO.cpp` (physics, configurations, lists of numbers). Numbers are real numbers
and the parsing of a number is an arbitrary partial function; `none` is an exception.
-/

namespace Simox.Rio

open Rot Matrix

section
variable (F : String → Option ℝ)

/-- The limits of a joint while they are read: XML/RobotIO.cpp 219-221, with the values π and -π before. -/
structure Limits where
  lo : ℝ
  hi : ℝ
  limitless : Bool

/-- XML/RobotIO.cpp 219-221: the limits of a joint without `<Limits>`. -/
noncomputable def Limits.standard : Limits := ⟨-Real.pi, Real.pi, false⟩

/-- XML/RobotIO.cpp 98-116: the lower limit and the unit after it. -/
noncomputable def readLo (n : Xml) (u : Units) : ℝ × Units :=
  match getFloat F n "lo" with
  | some x => (x, u)
  | none => if u.isLength then (-1000, "mm") else (-Real.pi, "rad")

/-- XML/RobotIO.cpp 118-136: the limits and the unit after the upper limit is read; without one, a length replaces the lower limit. -/
noncomputable def readHi (n : Xml) (u : Units) (l : Limits) : Limits × Units :=
  match getFloat F n "hi" with
  | some x => ({ l with hi := x }, u)
  | none => if u.isLength then ({ l with lo := 1000 }, "mm") else ({ l with hi := Real.pi }, "rad")

/-- XML/RobotIO.cpp 138-151: the limits in radian or millimeters and the unit. -/
noncomputable def convertLimits (u : Units) (l : Limits) : Limits × Units :=
  let a : Limits × Units := if u.isAngle then ({ l with lo := u.toRadian l.lo, hi := u.toRadian l.hi }, "rad") else (l, u)
  if a.2.isLength then ({ a.1 with lo := a.2.toMillimeter a.1.lo, hi := a.2.toMillimeter a.1.hi }, "mm") else a

open Classical in
/-- XML/RobotIO.cpp 153-165: the attribute `limitless`, whose name must be in lower case. -/
noncomputable def setLimitless (n : Xml) (u : Units) (l : Limits) : Limits :=
  match (n.attrs.find? fun p => p.1 == "limitless").map Prod.snd with
  | none => l
  | some v =>
    if isTrue v && u.isAngle && decide (u.toDegree l.hi - u.toDegree l.lo ≠ 360) then ⟨-Real.pi, Real.pi, true⟩ else { l with limitless := isTrue v }

/-- XML/RobotIO.cpp 92-167 `processLimitsNode`. -/
noncomputable def processLimits (n : Xml) (l : Limits) : Option Limits :=
  match getUnits n .ignore with
  | none => none
  | some u =>
    let a := readLo F n u
    let b := readHi F n a.2 { l with lo := a.1 }
    let c := convertLimits b.2 b.1
    some (setLimitless n c.2 c.1)

/-- XML/RobotIO.cpp 326-378: the maximal velocity of a joint, in m/s or rad/s. -/
noncomputable def maxVelocity (n : Xml) : Option ℝ :=
  match getFloat F n "value" with
  | none => none
  | some v =>
    let uTime := lastUnit Units.isTime "sec" (getAllUnits n)
    let uLength := lastUnit Units.isLength "m" (getAllUnits n)
    let uAngle := lastUnit Units.isAngle "rad" (getAllUnits n)
    let f : ℝ := 1
    let f := if uTime.isMinute then f / 60 else f
    let f := if uTime.isHour then f / 3600 else f
    let f := if uLength.isMillimeter then f * 0.001 else f
    let f := if uAngle.isDegree then f * (Real.pi / 180) else f
    some (v * f)

/-- XML/RobotIO.cpp 379-431: the maximal acceleration of a joint, in m/s² or rad/s². -/
noncomputable def maxAcceleration (n : Xml) : Option ℝ :=
  match getFloat F n "value" with
  | none => none
  | some v =>
    let uTime := lastUnit Units.isTime "sec" (getAllUnits n)
    let uLength := lastUnit Units.isLength "m" (getAllUnits n)
    let uAngle := lastUnit Units.isAngle "rad" (getAllUnits n)
    let f : ℝ := 1
    let f := if uTime.isMinute then f / 3600 else f
    let f := if uTime.isHour then f / 12960000 else f
    let f := if uLength.isMillimeter then f * 0.001 else f
    let f := if uAngle.isDegree then f * (Real.pi / 180) else f
    some (v * f)

/-- XML/RobotIO.cpp 432-455: the maximal torque of a joint, in Nm. -/
noncomputable def maxTorque (n : Xml) : Option ℝ :=
  match getFloat F n "value" with
  | none => none
  | some v =>
    let uLength := lastUnit Units.isLength "m" (getAllUnits n)
    let f : ℝ := 1
    let f := if uLength.isMillimeter then f * 1000 else f
    some (v * f)

/-- Three numbers x, y, z: XML/RobotIO.cpp 477-479, 512-514, 528-530. -/
def vec3 (n : Xml) : Option (Fin 3 → ℝ) :=
  match getFloat F n "x", getFloat F n "y", getFloat F n "z" with
  | some x, some y, some z => some ![x, y, z]
  | _, _, _ => none

/-- What the children of a `<Joint>` give: XML/RobotIO.cpp 219-233, 275-285. -/
structure JointDef where
  limits : Limits := Limits.standard
  limitsSeen : Bool := false
  axis : Option Xml := none
  translation : Option Xml := none
  maxVelocity : ℝ := -1
  maxAcceleration : ℝ := -1
  maxTorque : ℝ := -1
  propagate : List (String × ℝ) := []
  scale : Option (Fin 3 → ℝ) := none

/-- XML/RobotIO.cpp 456-473: the joints that follow this one. -/
def readPropagate (n : Xml) : Option (String × ℝ) :=
  match n.firstAttr "name" with
  | none => none
  | some s => (getOptFloat F n "factor" 1).map fun f => (s, f)

/-- XML/RobotIO.cpp 289-485: one child of a `<Joint>`. -/
noncomputable def jointStep (d : JointDef) (n : Xml) : Option JointDef :=
  if lower n.name == "limits" then
    if d.limitsSeen then none else (processLimits F n d.limits).map fun l => { d with limits := l, limitsSeen := true }
  else if lower n.name == "axis" then
    if d.axis.isSome then none else some { d with axis := some n }
  else if lower n.name == "translationdirection" then
    if d.translation.isSome then none else some { d with translation := some n }
  else if lower n.name == "maxvelocity" then (maxVelocity F n).map fun v => { d with maxVelocity := v }
  else if lower n.name == "maxacceleration" then (maxAcceleration F n).map fun v => { d with maxAcceleration := v }
  else if lower n.name == "maxtorque" then (maxTorque F n).map fun v => { d with maxTorque := v }
  else if lower n.name == "propagatejointvalue" then (readPropagate F n).map fun p => { d with propagate := d.propagate ++ [p] }
  else if lower n.name == "scalevisualization" then (vec3 F n).map fun v => { d with scale := some v }
  else none

/-- XML/RobotIO.cpp 287-488: the children of a `<Joint>`, one after the other. -/
noncomputable def jointLoop : List Xml → JointDef → Option JointDef
  | [], d => some d
  | n :: l, d =>
    match jointStep F d n with
    | none => none
    | some d => jointLoop l d

/-- The joint of a node, as far as the file determines it: Nodes/RobotNode.cpp 22-60, Nodes/RobotNodeRevoluteFactory.cpp and
Nodes/RobotNodePrismaticFactory.cpp `createRobotNode`. -/
structure Joint where
  type : String
  lo : ℝ
  hi : ℝ
  offset : ℝ
  axis : Fin 3 → ℝ
  translation : Fin 3 → ℝ
  maxVelocity : ℝ
  maxAcceleration : ℝ
  maxTorque : ℝ
  limitless : Bool
  value : ℝ
  propagate : List (String × ℝ)
  scale : Option (Fin 3 → ℝ)

open Classical in
/-- XML/RobotIO.cpp 569-581: the value a joint starts with. -/
noncomputable def startValue (moving : Bool) (lo hi x : ℝ) : ℝ :=
  if moving then (if x < lo then lo else if x > hi then hi else x) else x

/-- XML/RobotIO.cpp 546-581: the joint of a type with the data read. -/
noncomputable def makeJoint (type : String) (offset initial : ℝ) (d : JointDef) (axis translation : Fin 3 → ℝ) (scale : Option (Fin 3 → ℝ)) : Joint :=
  ⟨type, d.limits.lo, d.limits.hi, offset, axis, translation, d.maxVelocity, d.maxAcceleration, d.maxTorque, d.limits.limitless,
    startValue (type != "fixed") d.limits.lo d.limits.hi initial, d.propagate, scale⟩

/-- XML/RobotIO.cpp 510-522: the axis of a revolute joint, the z axis if none is given. -/
def jointAxis (d : JointDef) : Option (Fin 3 → ℝ) :=
  match d.axis with
  | some a => vec3 F a
  | none => some ![0, 0, 1]

/-- XML/RobotIO.cpp 526-536: the direction of a prismatic joint, which must be given. -/
def jointTranslation (d : JointDef) : Option (Fin 3 → ℝ) :=
  match d.translation with
  | some a => vec3 F a
  | none => none

open Classical in
/-- XML/RobotIO.cpp 502-562: the joint from its type and the data of its children; other types than fixed, revolute and prismatic have no factory. -/
noncomputable def finishJoint (type : String) (offset initial : ℝ) (d : JointDef) : Option Joint :=
  if type == "revolute" then (jointAxis F d).map fun a => makeJoint type offset initial d a 0 none
  else if type == "prismatic" then
    if d.scale = some 0 then none else (jointTranslation F d).map fun v => makeJoint type offset initial d 0 v d.scale
  else if type == "fixed" then some (makeJoint type offset initial d 0 0 none)
  else none

/-- XML/RobotIO.cpp 250-260: the type of a joint. -/
def jointType (n : Xml) : String :=
  match n.firstAttr "type" with
  | some t => lower t
  | none => "fixed"

/-- XML/RobotIO.cpp 210-601 `processJointNode` with a `<Joint>`. -/
noncomputable def processJoint (n : Xml) : Option Joint :=
  match getOptFloat F n "offset" 0, getOptFloat F n "initialvalue" 0 with
  | some offset, some initial => (jointLoop F n.children {}).bind fun d => finishJoint F (jointType n) offset initial d
  | _, _ => none

/-! ## Physical properties -/

/-- The kinds of simulation: SceneObject.h 62-68. -/
inductive SimType where
  | static
  | kinematic
  | dynamic
  | unknown
deriving DecidableEq

/-- SceneObject.h 55-90 `Physics`, the fields that are read from a file; `visuCenter` is the location `eVisuBBoxCenter` of the centre of mass. -/
structure Physics where
  mass : ℝ
  visuCenter : Bool
  com : Fin 3 → ℝ
  inertia : M3
  ignore : List String
  sim : SimType
  friction : ℝ

/-- XML/BaseIO.cpp 1256-1284: the mass in kilogram. -/
noncomputable def readMass (n : Xml) : Option ℝ :=
  match n.firstNode "mass" with
  | none => some 0
  | some m =>
    match getFloat F m "value", getUnits m .weight with
    | some v, some u =>
      let v := if u.isGram then v * 0.001 else v
      some (if u.isTon then v * 1000 else v)
    | _, _ => none

/-- XML/BaseIO.cpp 1317-1330: the centre of mass in millimeters. -/
noncomputable def readComAt (c : Xml) : Option (Fin 3 → ℝ) :=
  match getOptFloat F c "x" 0, getOptFloat F c "y" 0, getOptFloat F c "z" 0 with
  | some x, some y, some z =>
    if hasUnits c then
      match getUnits c .length with
      | none => none
      | some u => some (if u.isMeter then fun i => ![x, y, z] i * 1000 else ![x, y, z])
    else some ![x, y, z]
  | _, _, _ => none

/-- XML/BaseIO.cpp 1286-1333: the location and the centre of mass. -/
noncomputable def readCom (n : Xml) (p : Physics) : Option Physics :=
  match n.firstNode "com" with
  | none => some p
  | some c =>
    let loc := match c.firstAttr "location" with | none => "custom" | some l => lower l
    if loc == "visualizationbboxcenter" then some { p with visuCenter := true }
    else if loc == "joint" || loc == "custom" then (readComAt F c).map fun v => { p with visuCenter := false, com := v }
    else none

/-- XML/BaseIO.cpp 1335-1380: the inertia matrix in kg m². -/
noncomputable def readInertia (n : Xml) : Option M3 :=
  match n.firstNode "inertiamatrix" with
  | none => some 0
  | some i =>
    match process3x3 F i with
    | none => none
    | some m =>
      let uWeight := lastUnit Units.isWeight "kg" (getAllUnits i)
      let uLength := lastUnit Units.isLength "m" (getAllUnits i)
      let f : ℝ := 1
      let f := if uWeight.isGram then f * 0.001 else f
      let f := if uWeight.isTon then f * 1000 else f
      let f := if uLength.isMillimeter then f * 0.000001 else f
      some (f • m)

/-- XML/BaseIO.cpp 1382-1391: the names of objects with which collisions are ignored. -/
def readIgnore (n : Xml) : Option (List String) :=
  (n.children.filter fun c => same c.name "ignorecollision").mapM fun c => c.firstAttr "name"

/-- XML/BaseIO.cpp 1393-1416: the kind of simulation, `sim` if it is not given or not known. -/
def readSim (n : Xml) (sim : SimType) : Option SimType :=
  match n.firstNode "simulationtype" with
  | none => some sim
  | some c =>
    match c.firstAttr "value" with
    | none => none
    | some s =>
      some (if lower s == "dynamic" || lower s == "dynamics" then .dynamic else if lower s == "static" then .static else if lower s == "kinematic" then .kinematic else sim)

/-- XML/BaseIO.cpp 1417-1426: the friction, -1 if it is not given. -/
def readFriction (n : Xml) : Option ℝ :=
  match n.firstNode "friction" with
  | none => some (-1)
  | some c => getFloat F c "value"

/-- XML/BaseIO.cpp 1252-1429 `processPhysicsTag`. -/
noncomputable def processPhysics (n : Xml) (p : Physics) : Option Physics :=
  match readMass F n, readCom F n p, readInertia F n, readIgnore n, readSim n p.sim, readFriction F n with
  | some m, some p, some i, some l, some s, some f => some { p with mass := m, inertia := i, ignore := p.ignore ++ l, sim := s, friction := f }
  | _, _, _, _, _, _ => none

/-! ## Configurations and lists -/

/-- XML/BaseIO.cpp 1516-1545: the value of one joint of a configuration. -/
noncomputable def processConfigEntry (n : Xml) : Option (String × ℝ) :=
  if lower n.name == "node" then
    match processName n true with
    | none => none
    | some name =>
      if name = "" then none
      else
        match getFloat F n "value", getUnits n .ignore with
        | some v, some u => some (name, if u.isDegree then v / 180 * Real.pi else if u.isMeter then v / 1000 else v)
        | _, _ => none
  else none

/-- XML/BaseIO.cpp 1504-1555 `processConfigurationNode`. -/
noncomputable def processConfig (n : Xml) : Option (String × List (String × ℝ)) :=
  match processName n true with
  | none => none
  | some name => if name = "" then none else (n.children.mapM (processConfigEntry F)).map fun l => (name, l)

/-- XML/BaseIO.cpp 1664-1681: the loop of `processFloatValueTags`. -/
def floatLoop (dim : ℕ) : List Xml → List ℝ → Option (List ℝ)
  | [], l => if l.length < dim then none else some l
  | n :: rest, l =>
    if lower n.name == "c" then
      if l.length ≥ dim then none
      else
        match getFloat F n "value" with
        | none => none
        | some v => floatLoop dim rest (l ++ [v])
    else none

/-- XML/BaseIO.cpp 1654-1685 `processFloatValueTags`: `none` is an exception, `some none` the answer false. -/
def processFloats (n : Xml) (dim : ℤ) : Option (Option (List ℝ)) :=
  if dim ≤ 0 then some none else (floatLoop F dim.toNat n.children []).map some

end

/-- XML/BaseIO.cpp 604-629: one element of a list of nodes; `known` says whether the robot has a node with a name. -/
def listEntry (known : String → Bool) (n : Xml) : Option String :=
  if lower n.name == "node" then
    match processName n false with
    | none => none
    | some name => if name = "" then none else if known name then some name else none
  else none

/-- XML/BaseIO.cpp 595-630 `processNodeList` with an empty list. -/
def processNodeList (known : String → Bool) (n : Xml) : Option (List String) :=
  match processName n true with
  | none => none
  | some _ => n.children.mapM (listEntry known)

end Simox.Rio
