import Verif.Kin.Model

/-!
# Robots as MuJoCo files

Models `VirtualRobot/XML/mjcf/MujocoIO.cpp`, `MjcfDocument.cpp` and `MasslessBodySanitizer.cpp`: the bodies of a robot, the removal of bodies without mass, the pairs of
bodies without contacts, the actuators and the scaling of lengths.

Simplifications: numbers in attributes are exact, and attributes that are left out because they have their default value are there; within a body the elements and the
bodies are two lists, each in its order; the elements of a body that are no joints, inertials, geoms, sites, cameras or lights are one kind; classes, meshes as files, the
mocap body and the sections of the document that are not named above are left out.
-/

set_option linter.unusedSectionVars false

namespace Simox.Mjc

open Kin

/-- The tags of elements within bodies that the code distinguishes, MasslessBodySanitizer.cpp 111-130. -/
inductive Kind
  | joint
  | inertial
  | geom
  | site
  | camera
  | light
  | other
deriving DecidableEq

/-- An element of a body: `pos`, `quat`, `axis` (or `dir` of a light), whether the type of a joint is `slide`, `range`, and `name` for all other attributes. -/
structure Item (R V Q : Type) where
  kind : Kind
  name : String
  slide : Bool
  pos : V
  rot : R
  axis : V
  range : Option (Q × Q)
deriving DecidableEq

/-- An element `body`: its name, `pos` and `quat`, the elements in it that are no bodies, and the bodies in it. -/
inductive Body (R V Q : Type)
  | mk (name : String) (pose : Pose R V) (items : List (Item R V Q)) (bodies : List (Body R V Q))

section
variable {R V Q : Type}

/-- The attribute `name`. -/
def Body.name : Body R V Q → String
  | ⟨n, _, _, _⟩ => n

/-- The attributes `pos` and `quat`. -/
def Body.pose : Body R V Q → Pose R V
  | ⟨_, p, _, _⟩ => p

/-- The elements that are no bodies. -/
def Body.items : Body R V Q → List (Item R V Q)
  | ⟨_, _, i, _⟩ => i

/-- The bodies. -/
def Body.bodies : Body R V Q → List (Body R V Q)
  | ⟨_, _, _, b⟩ => b

mutual
/-- Every element of the tree with its body: used by the visitors, MujocoIO.cpp 466-495. Here: the bodies of the tree, each before those within it. -/
def Body.all : Body R V Q → List (Body R V Q)
  | ⟨n, p, i, bs⟩ => ⟨n, p, i, bs⟩ :: allAll bs
/-- The same for a list of bodies. -/
def allAll : List (Body R V Q) → List (Body R V Q)
  | [] => []
  | b :: bs => b.all ++ allAll bs
end

mutual
/-- A body is put at the end of the body with the name `p`: the pointer of `nodeBodies`, MujocoIO.cpp 296-303. -/
def Body.insert (p : String) (c : Body R V Q) : Body R V Q → Body R V Q
  | ⟨n, q, i, bs⟩ => if n = p then ⟨n, q, i, insertAll p c bs ++ [c]⟩ else ⟨n, q, i, insertAll p c bs⟩
/-- The same for a list of bodies. -/
def insertAll (p : String) (c : Body R V Q) : List (Body R V Q) → List (Body R V Q)
  | [] => []
  | b :: bs => Body.insert p c b :: insertAll p c bs
end

mutual
/-- An element is put at the beginning of the body with the name `p`, MujocoIO.cpp 280-281 with MjcfDocument.cpp 108 and 347-350. -/
def Body.first (p : String) (e : Item R V Q) : Body R V Q → Body R V Q
  | ⟨n, q, i, bs⟩ => ⟨n, q, if n = p then e :: i else i, firstAll p e bs⟩
/-- The same for a list of bodies. -/
def firstAll (p : String) (e : Item R V Q) : List (Body R V Q) → List (Body R V Q)
  | [] => []
  | b :: bs => b.first p e :: firstAll p e bs
end

/-- A node of a robot as the export sees it: its parent, the transformation from its parent for the present joint values, the joint with its axis and limits, the centre of
mass, whether its mass and inertia are those of a node without mass, and whether a mesh is written for it. -/
structure Node (R V Q : Type) where
  name : String
  parent : Option String
  tf : Pose R V
  isJoint : Bool
  slide : Bool
  axis : V
  limits : Option (Q × Q)
  com : V
  massless : Bool
  mesh : Bool

/-- The nodes of a robot in the order of `getRobotNodes`, and its root. -/
structure Robot (R V Q : Type) where
  nodes : List (Node R V Q)
  root : Node R V Q

/-- Robot.cpp 95-104 `getRobotNode`. -/
def Robot.get (r : Robot R V Q) (n : String) : Option (Node R V Q) := r.nodes.find? fun m => m.name = n

variable [Group R] [AddCommGroup V] [DistribMulAction R V]

/-- MjcfDocument.cpp 167-201 `addJointElement`: the joint is at the origin of the body. -/
def jointItem (n : Node R V Q) : Item R V Q := ⟨.joint, n.name, n.slide, 0, 1, n.axis, n.limits⟩

/-- MjcfDocument.cpp 116-151 `addInertialElement`. -/
def inertialItem (n : Node R V Q) : Item R V Q := ⟨.inertial, n.name, false, n.com, 1, 0, none⟩

/-- MjcfDocument.cpp 104-114 `addGeomElement`. -/
def geomItem (n : Node R V Q) : Item R V Q := ⟨.geom, n.name, false, 0, 1, 0, none⟩

/-- MjcfDocument.cpp 153-164 `addDummyInertial`. -/
def dummyItem : Item R V Q := ⟨.inertial, "dummy", false, 0, 1, 0, none⟩

/-- MjcfDocument.cpp 82-101 `addBodyElement`. -/
def nodeBody (n : Node R V Q) : Body R V Q :=
  ⟨n.name, if n.parent.isSome then n.tf else 1, (if n.isJoint then [jointItem n] else []) ++ (if n.massless then [] else [inertialItem n]), []⟩

/-- MujocoIO.cpp 287-306 `addNodeBody`. The second component are the names in `nodeBodies`; nothing if the code dereferences a null pointer. -/
def addNodeBody (r : Robot R V Q) : ℕ → Node R V Q → Body R V Q × List String → Option (Body R V Q × List String)
  | 0, _, _ => none
  | k + 1, n, st =>
    if n.name ∈ st.2 then some st else
    match n.parent with
    | none => none
    | some p =>
      match (if p ∈ st.2 then some st else (r.get p).bind fun m => addNodeBody r k m st) with
      | none => none
      | some st' => some (Body.insert p (nodeBody n) st'.1, st'.2 ++ [n.name])

/-- The loop MujocoIO.cpp 197-200. -/
def addNodes (r : Robot R V Q) (k : ℕ) : List (Node R V Q) → Body R V Q × List String → Option (Body R V Q × List String)
  | [], st => some st
  | n :: ns, st =>
    match addNodeBody r k n st with
    | none => none
    | some st' => addNodes r k ns st'

/-- MujocoIO.cpp 176-201 `makeNodeBodies`: the body of the root, within the body of the robot. -/
def makeNodeBodies (r : Robot R V Q) (k : ℕ) : Option (Body R V Q × List String) := addNodes r k r.nodes (nodeBody r.root, [r.root.name])

/-- MujocoIO.cpp 203-283 `addNodeBodyMeshes`. -/
def addMeshes : List (Node R V Q) → Body R V Q → Body R V Q
  | [], b => b
  | n :: ns, b => addMeshes ns (if n.mesh then b.first n.name (geomItem n) else b)

/-! ## Bodies without mass -/

/-- utils.cpp 51-55 `hasMass`. -/
def hasMass (i : List (Item R V Q)) : Bool := i.any fun e => e.kind = .geom || e.kind = .inertial

/-- MasslessBodySanitizer.cpp 148-160 `updateChildPos`. -/
def movePos (acc : Pose R V) (p : V) : V := acc.pos + acc.rot • p

/-- MasslessBodySanitizer.cpp 111-131: the element in the frame of the body it is moved to, with `updateChildQuat` and `updateChildAxis`, 162-187. -/
def Item.move (acc : Pose R V) (e : Item R V Q) : Item R V Q :=
  match e.kind with
  | .joint => { e with pos := movePos acc e.pos, axis := acc.rot • e.axis }
  | .light => { e with pos := movePos acc e.pos, axis := acc.rot • e.axis }
  | .other => e
  | _ => { e with pos := movePos acc e.pos, rot := acc.rot * e.rot }

/-- MasslessBodySanitizer.cpp 117-125 for a body. -/
def Body.move (acc : Pose R V) (b : Body R V Q) : Body R V Q := ⟨b.name, ⟨acc.rot * b.pose.rot, movePos acc b.pose.pos⟩, b.items, b.bodies⟩

/-- `mergedBodySets`, MasslessBodySanitizer.h 69. -/
abbrev Sets := List (List String)

/-- MasslessBodySanitizer.cpp 255-263 `getMergedBodyName` of a set. -/
def joined (s : List String) : String := "~".intercalate s

/-- MasslessBodySanitizer.cpp 218-232 `getMergedBodySetWith`, followed by an update of the set. -/
def Sets.with (f : List String → List String) (n : String) : Sets → Sets
  | [] => [f [n]]
  | s :: ss => if n ∈ s then f s :: ss else s :: Sets.with f n ss

/-- The name of the set that is returned, MasslessBodySanitizer.cpp 218-232. -/
def Sets.find (n : String) : Sets → List String
  | [] => [n]
  | s :: ss => if n ∈ s then s else Sets.find n ss

/-- MasslessBodySanitizer.cpp 213-216 `getMergedBodyName`: the name, and the sets after it. -/
def mergedName (n : String) (s : Sets) : String × Sets := (joined (s.find n), s.with id n)

/-- MasslessBodySanitizer.cpp 80-146 `mergeBodies`: the body, the accumulated pose and the sets after the merge. `loc` is the transformation from the parent of a node. -/
def merge (loc : String → Pose R V) (acc : Pose R V) (b c : Body R V Q) (s : Sets) : Body R V Q × Pose R V × Sets :=
  let acc' := loc c.name * acc
  let s' := s.with (fun l => l ++ [c.name]) b.name
  (⟨joined (s'.find b.name), b.pose, b.items ++ c.items.map (Item.move acc'), c.bodies.map (Body.move acc')⟩, acc', s')

/-- What a body has become. -/
inductive Out (R V Q : Type)
  | body (b : Body R V Q)
  | site (e : Item R V Q)

/-- The bodies of a list of results. -/
def Out.bodies : List (Out R V Q) → List (Body R V Q)
  | [] => []
  | .body b :: l => b :: Out.bodies l
  | .site _ :: l => Out.bodies l

/-- The elements of a list of results that have become sites. -/
def Out.sites : List (Out R V Q) → List (Item R V Q)
  | [] => []
  | .body _ :: l => Out.sites l
  | .site e :: l => e :: Out.sites l

/-- MasslessBodySanitizer.cpp 189-206 `sanitizeLeafBody`. -/
def leaf (b : Body R V Q) : Out R V Q :=
  if b.items = [] then .site ⟨.site, b.name, false, b.pose.pos, b.pose.rot, 0, none⟩ else .body ⟨b.name, b.pose, b.items ++ [dummyItem], []⟩

/-- A loop over the bodies of a list, MasslessBodySanitizer.cpp 71-76. -/
def each (f : Body R V Q → Sets → Out R V Q × Sets) : List (Body R V Q) → Sets → List (Out R V Q) × Sets
  | [], s => ([], s)
  | b :: bs, s => ((f b s).1 :: (each f bs (f b s).2).1, (each f bs (f b s).2).2)

/-- MasslessBodySanitizer.cpp 33-78 `sanitizeRecursion`: a step of the loop, or the recursive descent. The sites stand behind the elements of the body here. The first
argument bounds the steps. -/
def sanitize (loc : String → Pose R V) : ℕ → Pose R V → Body R V Q → Sets → Out R V Q × Sets
  | 0, _, b, s => (.body b, s)
  | k + 1, acc, b, s =>
    if hasMass b.items then
      let r := each (sanitize loc k 1) b.bodies s
      (.body ⟨b.name, b.pose, b.items ++ Out.sites r.1, Out.bodies r.1⟩, r.2)
    else match b.bodies with
      | [] => (leaf b, s)
      | [c] => sanitize loc k (merge loc acc b c s).2.1 (merge loc acc b c s).1 (merge loc acc b c s).2.2
      | c :: d :: bs =>
        let r := each (sanitize loc k 1) (c :: d :: bs) s
        (.body ⟨b.name, b.pose, dummyItem :: b.items ++ Out.sites r.1, Out.bodies r.1⟩, r.2)

/-! ## Contacts, actuators and lengths -/

/-- MujocoIO.cpp 342-367 `addContactExcludes`, the pairs that the nodes ask for: the pairs of names and the sets after it. -/
def excludes : List (String × String) → Sets → List (String × String) × Sets
  | [], s => ([], s)
  | (a, b) :: l, s =>
    let x := mergedName a s
    let y := mergedName b x.2
    ((x.1, y.1) :: (excludes l y.2).1, (excludes l y.2).2)

mutual
/-- MujocoIO.cpp 320-339, 369-370: every body with the body it is in, except for the outermost one. -/
def Body.pairs : Body R V Q → List (String × String)
  | ⟨n, _, _, bs⟩ => pairsAll n bs
/-- The bodies in the body with the name `n`. -/
def pairsAll (n : String) : List (Body R V Q) → List (String × String)
  | [] => []
  | b :: bs => (n, b.name) :: b.pairs ++ pairsAll n bs
end

mutual
/-- MujocoIO.cpp 466-495 `getAllElements("joint")`. -/
def Body.joints : Body R V Q → List (Item R V Q)
  | ⟨_, _, i, bs⟩ => i.filter (fun e => e.kind = .joint) ++ jointsAll bs
/-- The same for a list of bodies. -/
def jointsAll : List (Body R V Q) → List (Item R V Q)
  | [] => []
  | b :: bs => b.joints ++ jointsAll bs
end

/-- An actuator: its name, its joint, and the attribute `ctrlrange`. -/
structure Actuator (Q : Type) where
  name : String
  joint : String
  range : Option (Q × Q)

/-- MujocoIO.cpp 373-409 `addActuators`; `position` if the actuators control positions. -/
def addActuators (position : Bool) (b : Body R V Q) : List (Actuator Q) := b.joints.map fun e => ⟨e.name, e.name, if position then e.range else none⟩

/-- MujocoIO.cpp 415-454 `scaleLengths` for an element of a body. -/
def Item.scale (sv : V → V) (sq : Q → Q) (e : Item R V Q) : Item R V Q :=
  if e.kind = .joint then (if e.slide then { e with range := e.range.map fun x => (sq x.1, sq x.2) } else e) else { e with pos := sv e.pos }

mutual
/-- MujocoIO.cpp 411-463 `scaleLengths`, called for the body of the robot: the actuators are not in it. -/
def Body.scale (sv : V → V) (sq : Q → Q) : Body R V Q → Body R V Q
  | ⟨n, p, i, bs⟩ => ⟨n, ⟨p.rot, sv p.pos⟩, i.map (Item.scale sv sq), scaleAll sv sq bs⟩
/-- The same for a list of bodies. -/
def scaleAll (sv : V → V) (sq : Q → Q) : List (Body R V Q) → List (Body R V Q)
  | [] => []
  | b :: bs => b.scale sv sq :: scaleAll sv sq bs
end

/-- The document: the body of the root and the actuators. -/
structure Doc (R V Q : Type) where
  top : Out R V Q
  sets : Sets
  actuators : List (Actuator Q)

/-- The top body of the document if it is one. -/
def Out.scale (sv : V → V) (sq : Q → Q) : Out R V Q → Out R V Q
  | .body b => .body (b.scale sv sq)
  | .site e => .site (e.scale sv sq)

/-- The joints of what the top body has become. -/
def Out.actuators (position : Bool) : Out R V Q → List (Actuator Q)
  | .body b => addActuators position b
  | .site _ => []

/-- MujocoIO.cpp 22-88 `saveMJCF`: bodies, meshes, bodies without mass, actuators, lengths. The sets are those of the exporter from before. -/
def saveMJCF (r : Robot R V Q) (k : ℕ) (loc : String → Pose R V) (position : Bool) (sv : V → V) (sq : Q → Q) (s : Sets) : Option (Doc R V Q) :=
  (makeNodeBodies r k).map fun st =>
    let b := addMeshes r.nodes st.1
    let o := sanitize loc b.all.length 1 b s
    ⟨o.1.scale sv sq, o.2, o.1.actuators position⟩

end

end Simox.Mjc
