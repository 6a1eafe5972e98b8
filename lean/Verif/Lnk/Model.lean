import Mathlib.LinearAlgebra.Matrix.NonsingularInverse
import Mathlib.Analysis.InnerProductSpace.PiL2
import Mathlib.Analysis.Normed.Affine.Isometry
import Mathlib.Data.Real.Basic

/-!
# Linked coordinates, chains of nodes and centres of mass

`/repo/VirtualRobot/LinkedCoordinate.cpp`, parts of `/repo/VirtualRobot/RobotNodeSet.cpp`, `/repo/VirtualRobot/Robot.cpp`
and `/repo/VirtualRobot/SceneObject.cpp`. Real numbers instead of floats.
-/

namespace Simox.Lnk

/-! ## Linked coordinates -/

/-- `Matrix4f`. -/
abbrev Mat := Matrix (Fin 4) (Fin 4) ℝ

/-- What a coordinate sees of the robot: the nodes registered by name (`robotNodeMap`, Robot.cpp 95-154), the names
of the nodes and their global poses. -/
structure Robot (N : Type) where
  registered : String → Option N
  name : N → String
  pose : N → Mat

/-- Robot.cpp 151-154 `hasRobotNode(name)`. -/
def Robot.hasName {N : Type} (r : Robot N) (n : String) : Bool := (r.registered n).isSome

/-- Robot.cpp 134-149 `hasRobotNode(node)`; `none` is the null pointer. -/
def Robot.hasNode {N : Type} [DecidableEq N] (r : Robot N) : Option N → Bool
  | none => false
  | some n => if r.hasName (r.name n) then r.registered (r.name n) == some n else false

/-- LinkedCoordinate.h 169-171; the robot is passed to the calls. -/
structure Coord (N : Type) where
  frame : Option N
  pose : Mat

/-- LinkedCoordinate.h 56, the constructor. -/
def Coord.new (N : Type) : Coord N := ⟨none, 1⟩

/-- LinkedCoordinate.cpp 134-165 `getCoordinateTransformation`; `none`: an exception. The robot is not null. -/
noncomputable def transformation {N : Type} [DecidableEq N] (r : Robot N) (origin destination : Option N) : Option Mat :=
  match destination, origin with
  | some d, some o =>
    if r.hasNode (some o) then
      if r.hasNode (some d) then some ((r.pose d)⁻¹ * r.pose o) else none
    else none
  | _, _ => none

/-- LinkedCoordinate.cpp 27-41 `set(node, pose)`: whether it returns, and the coordinate afterwards. -/
def Coord.set {N : Type} [DecidableEq N] (r : Robot N) (c : Coord N) (frame : Option N) (pose : Mat) : Bool × Coord N :=
  match frame with
  | none => (false, c)
  | some f => if r.hasNode (some f) then (true, ⟨some f, pose⟩) else (false, c)

/-- LinkedCoordinate.cpp 44-52 `set(name, pose)`. -/
def Coord.setName {N : Type} [DecidableEq N] (r : Robot N) (c : Coord N) (frame : String) (pose : Mat) : Bool × Coord N :=
  if r.hasName frame then c.set r (r.registered frame) pose else (false, c)

/-- LinkedCoordinate.cpp 55-68 `set(…, position)`: the pose. -/
def atPosition (p : Fin 3 → ℝ) : Mat := fun i j =>
  if h : j = 3 ∧ i.val < 3 then p ⟨i.val, h.2⟩ else if i = j then 1 else 0

/-- LinkedCoordinate.cpp 71-93 `changeFrame(node)`. -/
noncomputable def Coord.changeFrame {N : Type} [DecidableEq N] (r : Robot N) (c : Coord N) (destination : Option N) :
    Bool × Coord N :=
  match destination with
  | none => (false, c)
  | some d =>
    if r.hasNode (some d) then
      match c.frame with
      | none => (true, ⟨some d, 1⟩)
      | some f => match transformation r (some f) (some d) with
        | none => (false, c)
        | some t => (true, ⟨some d, t * c.pose⟩)
    else (false, c)

/-- LinkedCoordinate.cpp 95-103 `changeFrame(name)`. -/
noncomputable def Coord.changeFrameName {N : Type} [DecidableEq N] (r : Robot N) (c : Coord N) (destination : String) :
    Bool × Coord N :=
  if r.hasName destination then c.changeFrame r (r.registered destination) else (false, c)

/-- LinkedCoordinate.cpp 105-118 `getInFrame(node)`; `none`: an exception. -/
noncomputable def Coord.getInFrame {N : Type} [DecidableEq N] (r : Robot N) (c : Coord N) (destination : Option N) :
    Option Mat :=
  match destination with
  | none => none
  | some d => if r.hasNode (some d) then (transformation r c.frame (some d)).map (· * c.pose) else none

/-- LinkedCoordinate.cpp 121-129 `getInFrame(name)`. -/
noncomputable def Coord.getInFrameName {N : Type} [DecidableEq N] (r : Robot N) (c : Coord N) (destination : String) :
    Option Mat :=
  if r.hasName destination then (transformation r c.frame (r.registered destination)).map (· * c.pose) else none

/-- LinkedCoordinate.h 157-160 `getPosition`. -/
def Coord.position {N : Type} (c : Coord N) : Fin 3 → ℝ := fun i => c.pose i.castSucc 3

/-- What happens to a coordinate and its robot: calls, and the robot moving. -/
inductive Event (N : Type) where
  | set (frame : Option N) (pose : Mat)
  | setName (frame : String) (pose : Mat)
  | change (frame : Option N)
  | changeName (frame : String)
  | move (pose : N → Mat)

/-- One event. -/
noncomputable def step {N : Type} [DecidableEq N] (s : Robot N × Coord N) : Event N → Robot N × Coord N
  | .set f p => (s.1, (s.2.set s.1 f p).2)
  | .setName f p => (s.1, (s.2.setName s.1 f p).2)
  | .change f => (s.1, (s.2.changeFrame s.1 f).2)
  | .changeName f => (s.1, (s.2.changeFrameName s.1 f).2)
  | .move g => ({ s.1 with pose := g }, s.2)

/-! ## Chains of nodes -/

/-- A node with its children. -/
inductive Tree (N : Type) where
  | node (n : N) (children : List (Tree N))

/-- The node itself. -/
def Tree.top {N : Type} : Tree N → N
  | .node n _ => n

mutual
/-- SceneObject.cpp 1081-1099 `hasChild(child, true)`. -/
def Tree.hasChild {N : Type} [DecidableEq N] (c : N) : Tree N → Bool
  | .node _ ts => Tree.anyChild c ts
/-- The loop over the children. -/
def Tree.anyChild {N : Type} [DecidableEq N] (c : N) : List (Tree N) → Bool
  | [] => false
  | t :: ts => t.top == c || t.hasChild c || Tree.anyChild c ts
end

/-- What a call gives: a value, or an access outside of the vector. -/
inductive Result (A : Type) where
  | ok (a : A)
  | outside
  deriving DecidableEq

/-- The loop of RobotNodeSet.cpp 504-510. -/
def chainLoop {N : Type} [DecidableEq N] : Tree N → List (Tree N) → Bool
  | _, [] => true
  | t, u :: r => if !t.hasChild u.top then false else chainLoop u r

/-- RobotNodeSet.cpp 502-513 `isKinematicChain`. Without nodes `size() - 1` is the largest number and the first
access is outside of the vector. -/
def isKinematicChain {N : Type} [DecidableEq N] : List (Tree N) → Result Bool
  | [] => .outside
  | t :: r => .ok (chainLoop t r)

/-- RobotNodeSet.cpp 743-758 `isKinematicRoot`. -/
def isKinematicRoot {N : Type} [DecidableEq N] (root : Tree N) (nodes : List (Tree N)) : Bool :=
  nodes.all fun n => !(n.top ≠ root.top && !root.hasChild n.top)

/-! ## The extension of a chain -/

/-- Points. -/
abbrev E := EuclideanSpace ℝ (Fin 3)

/-- Poses: rigid motions. -/
abbrev Pose := E ≃ᵃⁱ[ℝ] E

/-- `MathTools::getTranslation` and the norm, of SceneObject.cpp 574-577 `getTransformationTo`. -/
noncomputable def length (x y : Pose) : ℝ := ‖(x⁻¹ * y) 0‖

/-- The loop of RobotNodeSet.cpp 563-568. -/
noncomputable def lengths : Pose → List Pose → ℝ → ℝ
  | _, [], acc => acc
  | x, y :: r, acc => lengths y r (acc + length x y)

/-- RobotNodeSet.cpp 550-578 `getMaximumExtension`, for the current global poses of the kinematic root, of the nodes
and of the TCP. -/
noncomputable def getMaximumExtension (root : Option Pose) (nodes : List Pose) (tcp : Option Pose) : Result ℝ :=
  match nodes with
  | [] => .outside
  | x :: r =>
    let result := match root with
      | some k => 0 + length k x
      | none => 0
    let result := lengths x r result
    .ok (match tcp with
      | some t => result + length t ((x :: r).getLast (List.cons_ne_nil _ _))
      | none => result)

/-- A joint of the set: the constant transformation from the node before it, and the motion of the joint,
RobotNodeRevolute.cpp 89-95 and RobotNodePrismatic.cpp 90-93. -/
structure Link where
  fixed : Pose
  motion : ℝ → Pose

/-- Global poses of the nodes of a chain, for the pose of the node before and joint values. -/
noncomputable def poses : Pose → List (Link × ℝ) → List Pose
  | _, [] => []
  | x, (l, q) :: r => (x * l.fixed * l.motion q) :: poses (x * l.fixed * l.motion q) r

/-! ## Centres of mass -/

/-- A body: mass and global centre of mass. -/
structure Body where
  mass : ℝ
  com : E

/-- RobotNodeSet.cpp 601-611, Robot.cpp 717-730 `getMass`. -/
noncomputable def getMass (bs : List Body) : ℝ := bs.foldl (fun acc b => acc + b.mass) 0

/-- RobotNodeSet.cpp 580-598, Robot.cpp 692-715 `getCoM`. -/
noncomputable def getCoM (bs : List Body) : E :=
  open Classical in
  if getMass bs ≤ 0 then 0
  else bs.foldl (fun acc b => acc + (1 / getMass bs) • b.mass • b.com) 0

/-- Robot.cpp 686-690 `getCoMLocal`: in the frame of the robot. -/
noncomputable def getCoMLocal (robot : Pose) (bs : List Body) : E := robot⁻¹ (getCoM bs)

end Simox.Lnk
