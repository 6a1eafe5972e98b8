import Verif.Rfc.Model

/-!
# Copies of robots, of parts of robots and of chains

Models `VirtualRobot/Robot.cpp` `extractSubPart`, `VirtualRobot/RobotFactory.cpp` `clone` and `cloneSubSet`, `VirtualRobot/RobotNodeSet.cpp` `nodesSufficient`.
-/

namespace Simox.Rfc

/-- The nodes of a new robot in the order of Robot.h 445 `registerRobotNode`, with their parents and children. -/
structure Links where
  ids : List ℕ
  parent : ℕ → Option ℕ
  children : ℕ → List ℕ

/-- No nodes. -/
def Links.empty : Links := ⟨[], fun _ => none, fun _ => []⟩

/-- SceneObject.cpp 1133-1164 `attachChild`. -/
def Links.attach (s : Links) (p c : ℕ) : Links :=
  if p = c then s
  else if c ∈ s.children p then s
  else if (s.parent c).isSome then s
  else { s with parent := upd s.parent c (some p), children := upd s.children p (s.children p ++ [c]) }

/-- The sets of nodes of a robot: RobotNodeSet.h 307-309. -/
structure NodeSet where
  nodes : List ℕ
  kinematicRoot : Option ℕ
  tcp : Option ℕ

/-- RobotNodeSet.cpp 612-668 `nodesSufficient`. -/
def NodeSet.sufficient (s : NodeSet) (nodes : List ℕ) : Bool :=
  (match s.kinematicRoot with
    | none => true
    | some n => nodes.contains n) &&
  (match s.tcp with
    | none => true
    | some n => nodes.contains n) &&
  s.nodes.all fun n => nodes.contains n

section
variable {G V P B : Type}

/-- Nodes/RobotNode.cpp 489-584 `clone` with all children, as far as nodes are concerned; `fuel` bounds the depth. -/
def copyNode (r : Robot G V P B) : ℕ → Links → ℕ → Option Links
  | 0, _, _ => none
  | k + 1, s, n => ((r.children n).foldlM (fun s c => (copyNode r k s c).map fun s => s.attach n c) s).map fun s => { s with ids := s.ids ++ [n] }

/-- Robot.cpp 751-827 `extractSubPart`, for a scaling above 0; the joint values of the new nodes are those of the old ones. `none` is the exception for a node that
is not part of the robot, or a depth above `fuel`. -/
def extractSubPart (s : Scale G P B) (z : V) (r : Robot G V P B) (fuel start : ℕ) : Option (Robot G V P B) :=
  if start ∈ r.ids then (copyNode r fuel Links.empty start).map fun l => ⟨l.ids, start, l.parent, l.children, fun n => cloneNode s z (r.node n)⟩ else none

/-- Robot.cpp 771-789: the sets of nodes of the part. -/
def partSets (r' : Robot G V P B) (sets : List NodeSet) : List NodeSet := sets.filter fun s => s.sufficient r'.ids

/-- RobotFactory.cpp 585-597 `clone`. -/
def clone (s : Scale G P B) (z : V) (r : Robot G V P B) (fuel : ℕ) : Option (Robot G V P B) := extractSubPart s z r fuel r.root

variable [Group G]

/-- RobotFactory.cpp 641-679 `accumulateTransformations`: whether there is a united node below `a`, in front of the next node of the chain. Its transformation is
the identity. -/
def unites (r : Robot G V P B) (a : ℕ) (b : Option ℕ) : Bool := (r.children a).any fun c => decide (some c ≠ b)

/-- RobotFactory.cpp 660-674: the transformation in front of the next node `b`, for the poses `g` of the robot. -/
def between (r : Robot G V P B) (g : ℕ → G) (a b : ℕ) : G :=
  if unites r a (some b) then
    match r.parent b with
    | some p => g p * (g a)⁻¹
    | none => 1
  else 1

/-- RobotFactory.cpp 856-882: the nodes of the copy of a chain with their new fixed transformations from the node in front. -/
def chainLocs (z : V) (r : Robot G V P B) (g : ℕ → G) : G → List ℕ → List (ℕ × G)
  | _, [] => []
  | t, [n] => [(n, t * (cloneNode (Scale.one G P B) z (r.node n)).loc)]
  | t, n :: m :: l => (n, t * (cloneNode (Scale.one G P B) z (r.node n)).loc) :: chainLocs z r g (between r g n m) (m :: l)

/-- RobotFactory.cpp 775-886 `cloneSubSet` for a set whose kinematic root is its first node, where every node is below the one in front; `g` are the poses of
the robot. Shapes and sensors are left out. -/
def cloneSubSet (z : V) (r : Robot G V P B) (g : ℕ → G) (nodes : List ℕ) : List (ℕ × G) :=
  match nodes with
  | [] => []
  | n :: _ => chainLocs z r g (match r.parent n with | some p => g p | none => 1) nodes

end

end Simox.Rfc
