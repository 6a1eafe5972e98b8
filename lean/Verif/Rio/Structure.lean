import Mathlib.Data.List.Nodup
import Mathlib.Data.List.Perm.Basic

/-!
# The structure and the name of a robot read from a file

Models `VirtualRobot/XML/RobotIO.cpp` `processRobotChildNodes`, `processRobot`, `processRobotAttributes`, `VirtualRobot/RobotFactory.cpp` `initializeRobot` and
`VirtualRobot/SceneObject.cpp` `attachChild`. A node is its name; the map from nodes to the names of their children is ordered by the addresses of the nodes, so its
order is an arbitrary permutation of the document. Not modelled: children from other files, and the recursive initialization from the root.
-/

namespace Simox.Rio

/-- A node of the document: its name and the names in its `<Child>` elements. -/
structure NodeDef where
  name : String
  children : List String

/-- The parents and the children of nodes: SceneObject.h 416-417. -/
structure Tree where
  parent : String → Option String
  children : String → List String

/-- Nodes that are not connected. -/
def Tree.empty : Tree := ⟨fun _ => none, fun _ => []⟩

/-- SceneObject.cpp 1133-1164 `attachChild`: the child is not attached if it is the node itself, if it is attached already or if it has a parent. -/
def Tree.attach (t : Tree) (p c : String) : Tree :=
  if p = c then t
  else if c ∈ t.children p then t
  else if (t.parent c).isSome then t
  else ⟨fun x => if x = c then some p else t.parent x, fun x => if x = p then t.children p ++ [c] else t.children x⟩

/-- RobotFactory.cpp 71-81: the children of one node; an exception if a child does not exist. -/
def attachAll (known : List String) (p : String) : List String → Tree → Option Tree
  | [], t => some t
  | c :: cs, t => if c ∈ known then attachAll known p cs (t.attach p c) else none

/-- RobotFactory.cpp 64-84: all nodes, in the order of the map. -/
def attachNodes (known : List String) : List NodeDef → Tree → Option Tree
  | [], t => some t
  | n :: ns, t =>
    match attachAll known n.name n.children t with
    | none => none
    | some t => attachNodes known ns t

/-- XML/RobotIO.cpp 983-1079 `processRobotChildNodes` with RobotFactory.cpp 36-97 `initializeRobot`, and the last check of XML/RobotIO.cpp 889-902 `processRobot`:
`doc` are the nodes of the document, `order` the same nodes in the order of their addresses. -/
def buildRobot (doc order : List NodeDef) (root : String) : Option Tree :=
  if ¬ (doc.map NodeDef.name).Nodup then none
  else if root ∉ doc.map NodeDef.name then none
  else
    match attachNodes (doc.map NodeDef.name) order Tree.empty with
    | none => none
    | some t => if doc.all (fun n => n.name == root || (t.parent n.name).isSome) then some t else none

/-! ## Names of robots -/

/-- XML/RobotIO.cpp 927-939: the counter of a type goes up. -/
def count (counter : String → ℕ) (type : String) : String → ℕ := fun t => if t = type then counter type + 1 else counter t

/-- XML/RobotIO.cpp 944-960: the name of a robot without a standard name, from the counter. -/
def nameOf (counter : String → ℕ) (type : String) : String :=
  if counter type = 1 then type else type ++ ("_" ++ toString (counter type - 1))

/-- XML/RobotIO.cpp 908-980 `processRobotAttributes`, the name: the counter afterwards and the name. -/
def robotName (counter : String → ℕ) (type : String) (standard : Option String) : (String → ℕ) × String :=
  (count counter type, match standard with | some s => s | none => nameOf (count counter type) type)

/-- Robots loaded one after the other: their names. -/
def loadNames : (String → ℕ) → List (String × Option String) → List String
  | _, [] => []
  | counter, l :: ls => (robotName counter l.1 l.2).2 :: loadNames (robotName counter l.1 l.2).1 ls

/-- What a thread that loads a robot does next: it counts the type, then it reads the counter; the two are locked separately. -/
inductive Phase where
  | start
  | counted
  | named (name : String)

/-- The state of threads that load robots of some types without standard names: XML/RobotIO.cpp 927-960. -/
structure Loading where
  counter : String → ℕ
  phase : ℕ → Phase

/-- One step of thread `i`, whose robot has the type `type`. -/
def Loading.step (s : Loading) (i : ℕ) (type : String) : Loading :=
  match s.phase i with
  | .start => ⟨count s.counter type, fun j => if j = i then .counted else s.phase j⟩
  | .counted => ⟨s.counter, fun j => if j = i then .named (nameOf s.counter type) else s.phase j⟩
  | .named _ => s

end Simox.Rio
