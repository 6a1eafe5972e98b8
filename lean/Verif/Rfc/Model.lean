import Mathlib.Algebra.Group.Basic
import Mathlib.Algebra.Group.Action.Defs
import Mathlib.Data.Real.Basic
import Mathlib.Data.List.Dedup

/-!
# Copies of robots with another structure

Models `VirtualRobot/RobotFactory.cpp` `cloneInversed` and `cloneChangeStructure`, `VirtualRobot/Nodes/RobotNode.cpp` `clone` and the
functions `_clone` of the nodes.

`G` are the rigid motions (homogeneous matrices), `V` the directions of joints, `P` the points, `B` the shapes. Nodes are numbers, in place of their names.
Sensors, node sets, end effectors and inertia matrices are left out.
-/

namespace Simox.Rfc

/-- The kinds of robot nodes: Nodes/RobotNodeFixed.h, Nodes/RobotNodeRevolute.h, Nodes/RobotNodePrismatic.h. -/
inductive Kind where
  | fixed
  | revolute
  | prismatic
deriving DecidableEq

/-- SceneObject.h 55-90 `Physics`: mass and centre of mass in the frame of the node. -/
@[ext]
structure Phys (P : Type) where
  mass : ℝ
  com : P

/-- What a node of a robot holds: Nodes/RobotNode.h `localTransformation`, `optionalDHParameter` (the transformation of the parameters, if they are set),
`jointValueOffset`; the axis of a revolute or the direction of a prismatic joint; the shape shown with its placement in the frame of the node; `Physics`. -/
@[ext]
structure Node (G V P B : Type) where
  kind : Kind
  loc : G
  dh : Option G
  axis : V
  offset : ℝ
  model : Option (B × G)
  phys : Phys P

/-- A robot: its nodes, the root, and SceneObject.h 416-417 for parents and children. -/
structure Robot (G V P B : Type) where
  ids : List ℕ
  root : ℕ
  parent : ℕ → Option ℕ
  children : ℕ → List ℕ
  node : ℕ → Node G V P B

/-- How far a copy is scaled: the poses, the points and the shapes. -/
structure Scale (G P B : Type) where
  pose : G → G
  point : P → P
  shape : B → B

/-- The scaling 1. -/
def Scale.one (G P B : Type) : Scale G P B := ⟨id, id, id⟩

/-- Nodes/RobotNodeRevolute.cpp 123-142, Nodes/RobotNodePrismatic.cpp 169-192, Nodes/RobotNodeFixed.cpp 102-122 `_clone` with Nodes/RobotNode.cpp 489-584 `clone`
and SceneObject.cpp 1426-1432: a node with Denavit-Hartenberg parameters is made again from its parameters, with the axis `z`. Directions and offsets are not
scaled. The joint value of the copy is 0. -/
def cloneNode {G V P B : Type} (s : Scale G P B) (z : V) (n : Node G V P B) : Node G V P B where
  kind := n.kind
  loc := s.pose (n.dh.getD n.loc)
  dh := n.dh.map s.pose
  axis := if n.dh.isSome then z else n.axis
  offset := n.offset
  model := n.model.map fun m => (s.shape m.1, s.pose m.2)
  phys := ⟨n.phys.mass, s.point n.phys.com⟩

/-- `std::map::operator[]` as an assignment. -/
def upd {α : Type} (f : ℕ → α) (n : ℕ) (a : α) : ℕ → α := fun m => if m = n then a else f m

/-- RobotFactory.h 59-65 `robotNodeDef`: a node, its new children and whether their transformation is inverted. -/
structure Def where
  name : ℕ
  children : List (ℕ × Bool)

section
variable {G V P B : Type}

/-- RobotFactory.cpp 139-180: the new children of a node that is reached from the node `e.1`. -/
def next (r : Robot G V P B) (e : Option ℕ × ℕ) : List (ℕ × Bool) :=
  (match r.parent e.2 with
    | some p => if some p = e.1 then [] else [(p, true)]
    | none => []) ++
  ((r.children e.2).filter fun c => decide (some c ≠ e.1)).map fun c => (c, false)

/-- RobotFactory.cpp 134-186: the loop over the queue of edges, at most `fuel` times. `none`: the loop has not ended yet. -/
def search (r : Robot G V P B) : ℕ → List (Option ℕ × ℕ) → Option (List Def)
  | _, [] => some []
  | 0, _ :: _ => none
  | k + 1, e :: es => (search r k (es ++ (next r e).map fun c => (some e.2, c.1))).map fun l => ⟨e.2, next r e⟩ :: l

/-- The new robot while it is built: RobotFactory.cpp 340-361; the maps from nodes as partial functions. -/
structure Build (G P B : Type) where
  parent : ℕ → Option ℕ
  children : ℕ → List ℕ
  loc : ℕ → Option G
  inv : ℕ → Bool
  model : ℕ → Option (B × G)
  phys : ℕ → Option (Phys P)

/-- Nothing is built. -/
def Build.empty : Build G P B := ⟨fun _ => none, fun _ => [], fun _ => none, fun _ => false, fun _ => none, fun _ => none⟩

/-- SceneObject.cpp 1133-1164 `attachChild`. -/
def Build.attach (s : Build G P B) (p c : ℕ) : Build G P B :=
  if p = c then s
  else if c ∈ s.children p then s
  else if (s.parent c).isSome then s
  else { s with parent := upd s.parent c (some p), children := upd s.children p (s.children p ++ [c]) }

variable [Group G] [MulAction G P] [Zero P]

/-- RobotFactory.cpp 441-445: physical properties in another frame. -/
def Phys.move (t : G) (p : Phys P) : Phys P := ⟨p.mass, t • p.com⟩

/-- `SceneObject::Physics()`. -/
def Phys.empty : Phys P := ⟨0, 0⟩

/-- RobotFactory.cpp 401-452: the child `c` of `p` whose transformation is inverted; its shape and its physical properties go to `p`. -/
def Build.inverted (node : ℕ → Node G V P B) (p : ℕ) (s : Build G P B) (c : ℕ) : Build G P B :=
  let tr := (node p).loc⁻¹
  let phys := upd s.phys p (some ((node c).phys.move tr))
  { s with
    loc := upd s.loc c (some tr)
    inv := upd s.inv c true
    model := (match (node c).model with
      | some m => upd s.model p (some (m.1, tr * m.2))
      | none => s.model)
    phys := if (phys c).isNone then upd phys c (some Phys.empty) else phys }

/-- RobotFactory.cpp 473-488: the child `c` that stays below its parent. -/
def Build.kept (node : ℕ → Node G V P B) (s : Build G P B) (c : ℕ) : Build G P B :=
  { s with
    loc := upd s.loc c (some (node c).loc)
    inv := upd s.inv c false
    model := (match (node c).model with
      | some m => upd s.model c (some m)
      | none => s.model) }

/-- RobotFactory.cpp 380-505: one child of the node `p`. -/
def Build.edge (node : ℕ → Node G V P B) (p : ℕ) (s : Build G P B) (c : ℕ × Bool) : Build G P B :=
  if c.2 then (s.attach p c.1).inverted node p c.1 else (s.attach p c.1).kept node c.1

/-- RobotFactory.cpp 507-512: a node that was no child so far has the identity. -/
def Build.close (s : Build G P B) (p : ℕ) : Build G P B :=
  if (s.loc p).isNone then { s with loc := upd s.loc p (some 1), inv := upd s.inv p false } else s

/-- RobotFactory.cpp 363-513: one entry of the structure. -/
def Build.entry (node : ℕ → Node G V P B) (s : Build G P B) (d : Def) : Build G P B :=
  (d.children.foldl (Build.edge node d.name) s).close d.name

/-- RobotFactory.cpp 515-574: a node after all changes. -/
def Build.finish [Neg V] (s : Build G P B) (n : ℕ) (a : Node G V P B) : Node G V P B where
  kind := a.kind
  loc := (s.loc n).getD a.loc
  dh := a.dh
  axis := if s.inv n then -a.axis else a.axis
  offset := a.offset
  model := s.model n
  phys := (s.phys n).getD a.phys

variable [Neg V]

/-- RobotFactory.cpp 330-583 `cloneChangeStructure` with a structure; `none` is the null pointer. -/
def restructure (z : V) (r : Robot G V P B) (root : ℕ) (defs : List Def) : Option (Robot G V P B) :=
  let names := defs.flatMap fun d => d.name :: d.children.map Prod.fst
  if root ∈ r.ids ∧ ∀ n ∈ names, n ∈ r.ids then
    let node := fun n => cloneNode (Scale.one G P B) z (r.node n)
    let s := defs.foldl (Build.entry node) Build.empty
    some ⟨(root :: names).dedup, root, s.parent, s.children, fun n => s.finish n (node n)⟩
  else none

/-- RobotFactory.cpp 116-210 `cloneInversed`, where the loop runs at most `fuel` times; `none` if it has not ended or if there is no such node (then the
function follows a null pointer). -/
def cloneInversed (z : V) (r : Robot G V P B) (fuel newRoot : ℕ) : Option (Robot G V P B) :=
  if newRoot ∈ r.ids then (search r fuel [(none, newRoot)]).bind (restructure z r newRoot) else none

/-- RobotFactory.cpp 235-250: the nodes from `n` up to `start`; `none` if `start` is not reached. -/
def climb (r : Robot G V P B) (start : ℕ) : ℕ → ℕ → Option (List ℕ)
  | 0, _ => none
  | k + 1, n =>
    if n = start then some [start]
    else
      match r.parent n with
      | none => none
      | some p => (climb r start k p).map fun l => n :: l

/-- RobotFactory.cpp 255-270: every node of a list is the only child of the one before. -/
def chainDefs : List ℕ → List Def
  | [] => []
  | [n] => [⟨n, []⟩]
  | n :: m :: l => ⟨n, [(m, true)]⟩ :: chainDefs (m :: l)

/-- RobotFactory.cpp 213-274 `cloneChangeStructure` with two nodes, of which the second is below the first; `fuel` bounds the way up. -/
def cloneChain (z : V) (r : Robot G V P B) (fuel start stop : ℕ) : Option (Robot G V P B) :=
  if start ∈ r.ids ∧ stop ∈ r.ids ∧ start ≠ stop then (climb r start fuel stop).bind fun l => restructure z r stop (chainDefs l) else none

end

end Simox.Rfc
