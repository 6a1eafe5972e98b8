import Mathlib.Analysis.SpecialFunctions.Trigonometric.Basic

/-!
# Joints, kinematic trees and robot configurations

Models `VirtualRobot/Nodes/RobotNode.cpp` (joint values, limits, pose updates, joint value propagation),
the pose update of `VirtualRobot/SceneObject.cpp`, `VirtualRobot/Robot.cpp` (joint value setters, global
pose), `VirtualRobot/RobotNodeSet.cpp` (kinematic root, joint value setters) and
`VirtualRobot/RobotConfig.cpp`.

Simplifications: floats are reals (so `while (q > hi) q -= 2π` always terminates; with floats of large
magnitude it may not); node pointers and node names are one identifier (names are unique within a robot,
`Robot.cpp` 106-132); locks, visualisation and collision models are left out; a pose is an element of an
arbitrary group, so the matrix products of the code become group products.
-/

set_option linter.unusedSectionVars false

namespace Simox.Kin

/-! ## Joint limits -/

/-- Limits of one joint. RobotNode.h members `jointLimitLo`, `jointLimitHi`, `limitless`,
`enforceJointLimits`. -/
structure Lim where
  lo : ℝ
  hi : ℝ
  limitless : Bool
  enforce : Bool

/-- One turn, `2.0f * M_PI`. -/
noncomputable def turn : ℝ := 2 * Real.pi

theorem turn_pos : 0 < turn := by unfold turn; exact mul_pos (by norm_num) Real.pi_pos

theorem down_dec {hi q : ℝ} (h : hi < q) : ⌈(q - turn - hi) / turn⌉₊ < ⌈(q - hi) / turn⌉₊ := by
  have e : (q - turn - hi) / turn = (q - hi) / turn - 1 := by
    have := turn_pos.ne'
    field_simp
    ring
  have hp : 0 < (q - hi) / turn := div_pos (sub_pos.2 h) turn_pos
  have h1 : 0 < ⌈(q - hi) / turn⌉₊ := Nat.ceil_pos.2 hp
  rw [e, Nat.ceil_sub_one]
  omega

theorem up_dec {lo q : ℝ} (h : q < lo) : ⌈(lo - (q + turn)) / turn⌉₊ < ⌈(lo - q) / turn⌉₊ := by
  have e : (lo - (q + turn)) / turn = (lo - q) / turn - 1 := by
    have := turn_pos.ne'
    field_simp
    ring
  have hp : 0 < (lo - q) / turn := div_pos (sub_pos.2 h) turn_pos
  have h1 : 0 < ⌈(lo - q) / turn⌉₊ := Nat.ceil_pos.2 hp
  rw [e, Nat.ceil_sub_one]
  omega

open Classical in
/-- RobotNode.cpp 160, 188: `while (q > jointLimitHi) q -= 2.0f * M_PI;` -/
noncomputable def wrapDown (hi q : ℝ) : ℝ :=
  if _h : hi < q then wrapDown hi (q - turn) else q
termination_by ⌈(q - hi) / turn⌉₊
decreasing_by exact down_dec _h

open Classical in
/-- RobotNode.cpp 161, 191: `while (q < jointLimitLo) q += 2.0f * M_PI;` -/
noncomputable def wrapUp (lo q : ℝ) : ℝ :=
  if _h : q < lo then wrapUp lo (q + turn) else q
termination_by ⌈(lo - q) / turn⌉₊
decreasing_by exact up_dec _h

open Classical in
/-- C `fmod(x, y)`: the remainder of the division rounded towards zero. -/
noncomputable def fmod (x y : ℝ) : ℝ := if 0 ≤ x / y then x - y * ⌊x / y⌋ else x - y * ⌈x / y⌉

open Classical in
/-- RobotNode.cpp 165-173, 197-205, 340-348: clamp to the lower, then to the upper limit. -/
noncomputable def clamp (lo hi q : ℝ) : ℝ :=
  let q1 := if q < lo then lo else q
  if hi < q1 then hi else q1

open Classical in
/-- RobotNode.cpp 178-210 `setJointValueNoUpdate`: the value that is stored for a request `q`. -/
noncomputable def stored (l : Lim) (q : ℝ) : ℝ :=
  if l.limitless then
    let q1 := if l.hi < q then fmod q turn else q
    let q2 := wrapDown l.hi q1
    let q3 := if q2 < l.lo then -fmod |q2| turn else q2
    wrapUp l.lo q3
  else if l.enforce then clamp l.lo l.hi q
  else q

/-- RobotNode.cpp 154-177 `setJointValueNotInitialized`: the value that is stored for a request `q`. -/
noncomputable def storedNotInitialized (l : Lim) (q : ℝ) : ℝ :=
  if l.limitless then wrapUp l.lo (wrapDown l.hi q) else clamp l.lo l.hi q

/-- RobotNode.cpp 338-349 `respectJointLimits`. -/
noncomputable def respectJointLimits (l : Lim) (q : ℝ) : ℝ := clamp l.lo l.hi q

open Classical in
/-- RobotNode.cpp 351-372 `checkJointLimits`. -/
noncomputable def checkJointLimits (l : Lim) (q : ℝ) : Bool :=
  let res := true
  let res := if q < l.lo then false else res
  if l.hi < q then false else res

open Classical in
/-- RobotNode.cpp 619-646 `getDelta`; `value` is the current joint value. `(delta > 0) - (delta < 0)` is
the sign. -/
noncomputable def getDelta (l : Lim) (value target : ℝ) : ℝ :=
  if !l.limitless ∧ (target < l.lo ∨ l.hi < target) then 0
  else
    let delta := target - value
    if l.limitless ∧ Real.pi < |delta| then
      (-1) * ((if 0 < delta then 1 else 0) - (if delta < 0 then 1 else 0)) * (2 * Real.pi - |delta|)
    else delta

/-! ## Kinematic trees -/

/-- The nodes below the robot with their children in order (SceneObject.h member `children`). Scene
objects and sensors attached to a node are leaves too; `SceneObject::updatePose` (SceneObject.cpp
157-161) then makes their transformation the identity. -/
inductive Tree where
  | node (id : Nat) (kids : List Tree)

mutual
/-- RobotNode.cpp 315-330 `collectAllRobotNodes`: all identifiers of a subtree in preorder. -/
def Tree.ids : Tree → List Nat
  | .node i ks => i :: idsL ks
/-- The loop over the children, RobotNode.cpp 321-329. -/
def idsL : List Tree → List Nat
  | [] => []
  | k :: ks => k.ids ++ idsL ks
end

/-- Assigning one field of the heap. -/
def upd {β : Type} (f : Nat → β) (i : Nat) (b : β) : Nat → β := fun j => if j = i then b else f j

/-- What is fixed about a robot: its tree, for each node the transformation from the parent's pose as a
function of the joint value (RobotNode.cpp 240-243 fixed, RobotNodeRevolute.cpp 89-95,
RobotNodePrismatic.cpp 90-94), the joint limits, and the propagated joints with their factors in map
order (RobotNode.h member `propagatedJointValues`). -/
structure Robot (G : Type) where
  tree : Tree
  loc : Nat → ℝ → G
  lim : Nat → Lim
  prop : Nat → List (Nat × ℝ)

/-- Mutable state: the robot's global pose, joint values and the global poses stored in the nodes. -/
structure St (G : Type) where
  base : G
  value : Nat → ℝ
  pose : Nat → G

section
variable {G : Type} [Group G]

mutual
/-- `RobotNode::updatePose(pose, true)`: RobotNode.cpp 305-313 with `updateTransformationMatrices(pose)`
and the loop over the children in SceneObject.cpp 134-138. `P` is the parent's pose. -/
def updTree (loc : Nat → ℝ → G) (value : Nat → ℝ) : Tree → G → (Nat → G) → (Nat → G)
  | .node i ks, P, f => updList loc value ks (P * loc i (value i)) (upd f i (P * loc i (value i)))
/-- The loop over the children, SceneObject.cpp 135-138. -/
def updList (loc : Nat → ℝ → G) (value : Nat → ℝ) : List Tree → G → (Nat → G) → (Nat → G)
  | [], _, f => f
  | k :: ks, P, f => updList loc value ks P (updTree loc value k P f)
end

mutual
/-- The pose part of `RobotNode::updatePose(true)` on node `k`, RobotNode.cpp 246-253 with 212-232: the
pose of the parent is read from where it is stored (`f`), for the root it is the robot's pose `P`; then
the subtree is updated. The descent only finds the node and its parent, which the code has as pointers. -/
def updAt (loc : Nat → ℝ → G) (value : Nat → ℝ) (k : Nat) : Tree → G → (Nat → G) → (Nat → G)
  | .node i ks, P, f =>
    if i = k then updTree loc value (.node i ks) P f else updAtL loc value k ks (f i) f
/-- Search among the children. -/
def updAtL (loc : Nat → ℝ → G) (value : Nat → ℝ) (k : Nat) : List Tree → G → (Nat → G) → (Nat → G)
  | [], _, f => f
  | t :: ts, P, f => updAtL loc value k ts P (updAt loc value k t P f)
end

mutual
/-- SceneObject.cpp 1081-1117 `hasChild(node, true)` (and the node itself): the identifiers in the
subtree of `k`. -/
def sub (k : Nat) : Tree → List Nat
  | .node i ks => if i = k then (Tree.node i ks).ids else subL k ks
/-- Search among the children. -/
def subL (k : Nat) : List Tree → List Nat
  | [] => []
  | t :: ts => sub k t ++ subL k ts
end

/-- Robot.cpp 95-104 / 134-160 `hasRobotNode`. -/
def Robot.has (r : Robot G) (n : Nat) : Prop := n ∈ r.tree.ids

/-- Robot.cpp 419-432 `applyJointValues`: `rootNode->updatePose(globalPose)`. -/
def applyJointValues (r : Robot G) (s : St G) : St G :=
  { s with pose := updTree r.loc s.value r.tree s.base s.pose }

/-- RobotNode.cpp 178-210 `setJointValueNoUpdate`. -/
noncomputable def setNoUpdate (r : Robot G) (n : Nat) (q : ℝ) (s : St G) : St G :=
  { s with value := upd s.value n (stored (r.lim n) q) }

/-- Robot.cpp 663-677 `setGlobalPose(pose, applyValues)`. -/
def setGlobalPose (r : Robot G) (pose : G) (app : Bool) (s : St G) : St G :=
  let s1 : St G := { s with base := pose }
  if app then applyJointValues r s1 else s1

open Classical in
/-- RobotNode.cpp 246-277 `updatePose()` on node `n`: pose update of the subtree, then every propagated
joint is set with `setJointValue` (145-152), which calls `updatePose()` on it. `none`: the recursion is
deeper than `fuel` (a stack overflow when it happens for every fuel). -/
noncomputable def updatePose (r : Robot G) : Nat → Nat → St G → Option (St G)
  | 0, _, _ => none
  | fuel + 1, n, s =>
    (r.prop n).foldlM (fun (s : St G) (e : Nat × ℝ) =>
        if e.1 ∈ r.tree.ids then
          updatePose r fuel e.1 (setNoUpdate r e.1 (s.value n * e.2) s)
        else some s)
      { s with pose := updAt r.loc s.value n r.tree s.base s.pose }

/-- RobotNode.cpp 145-152 `setJointValue`, Robot.cpp 981-991. -/
noncomputable def setJointValue (r : Robot G) (fuel n : Nat) (q : ℝ) (s : St G) : Option (St G) :=
  updatePose r fuel n (setNoUpdate r n q s)

open Classical in
/-- Robot.cpp 993-1013 `setJointValues(map)`: unknown names are skipped with a warning. Also the node
map (1015-1029) and vector (1064-1075) variants, whose nodes are all known. -/
noncomputable def setJointValues (r : Robot G) (m : List (Nat × ℝ)) (s : St G) : St G :=
  applyJointValues r
    (m.foldl (fun s e => if e.1 ∈ r.tree.ids then setNoUpdate r e.1 e.2 s else s) s)

/-! ## Node sets -/

/-- RobotNodeSet.h: members `robotNodes` and `kinematicRoot` (`none` = null). -/
structure NodeSet where
  nodes : List Nat
  root : Option Nat

open Classical in
/-- RobotNodeSet.cpp 743-758 `isKinematicRoot`. -/
noncomputable def isKinematicRoot (r : Robot G) (nodes : List Nat) (k : Nat) : Bool :=
  decide (∀ n ∈ nodes, n ∈ sub k r.tree)

/-- The root of the tree, Robot.cpp `getRootNode`. -/
def rootId : Tree → Nat
  | .node i _ => i

/-- RobotNodeSet.cpp 14-54 constructor, with a robot that has a root node: a missing or invalid kinematic
root is replaced by the robot's root. The case of a null root with no nodes (assertion in
`isKinematicRoot`) is left out: it is replaced by the root as well. -/
noncomputable def mkNodeSet (r : Robot G) (nodes : List Nat) (kinRoot : Option Nat) : NodeSet :=
  let k := kinRoot.getD (rootId r.tree)
  if isKinematicRoot r nodes k then ⟨nodes, some k⟩ else ⟨nodes, some (rootId r.tree)⟩

/-- RobotNodeSet.cpp 293-296 `setKinematicRoot`: no check. -/
def NodeSet.setKinematicRoot (ns : NodeSet) (k : Option Nat) : NodeSet := { ns with root := k }

/-- RobotNodeSet.cpp 426-433: update from the kinematic root, or of the whole robot if there is none. -/
noncomputable def NodeSet.update (r : Robot G) (fuel : Nat) (ns : NodeSet) (s : St G) : Option (St G) :=
  match ns.root with
  | some k => updatePose r fuel k s
  | none => some (applyJointValues r s)

/-- Outcome of a call that may throw. -/
inductive Res (α : Type) where
  | ok (a : α)
  | throw
  | diverge

/-- RobotNodeSet.cpp 413-457 `setJointValues(vector)`. -/
noncomputable def NodeSet.setJointValues (r : Robot G) (fuel : Nat) (ns : NodeSet) (v : List ℝ)
    (s : St G) : Res (St G) :=
  if v.length ≠ ns.nodes.length then .throw
  else match ns.update r fuel ((ns.nodes.zip v).foldl (fun s e => setNoUpdate r e.1 e.2 s) s) with
    | some s' => .ok s'
    | none => .diverge

/-! ## Robot configurations -/

/-- RobotConfig.h member `configs` (a map from nodes to values), as an association list. -/
abbrev Cfg := List (Nat × ℝ)

/-- RobotConfig.cpp 189-200 `hasConfig`. -/
def Cfg.has (c : Cfg) (n : Nat) : Bool := c.any (fun e => e.1 == n)

/-- `std::map::find`. -/
def Cfg.find : Cfg → Nat → Option ℝ
  | [], _ => none
  | (m, v) :: c, n => if m = n then some v else Cfg.find c n

/-- `configs[n] = value` on a `std::map`. -/
def Cfg.put : Cfg → Nat → ℝ → Cfg
  | [], n, v => [(n, v)]
  | (m, w) :: c, n, v => if m = n then (m, v) :: c else (m, w) :: Cfg.put c n v

open Classical in
/-- RobotConfig.cpp 83-103 `setConfig(name, value)` for a configuration of the robot `r`;
`alive`: the robot still exists. -/
noncomputable def Cfg.setConfig (r : Robot G) (alive : Bool) (c : Cfg) (n : Nat) (v : ℝ) : Cfg × Bool :=
  if !alive then (c, false)
  else if n ∈ r.tree.ids then (c.put n v, true)
  else (c, false)

/-- RobotConfig.cpp 17-27 (and 41-52) constructors: `setConfig` for every entry, results ignored. -/
noncomputable def Cfg.make (r : Robot G) (l : List (Nat × ℝ)) : Cfg :=
  l.foldl (fun c e => (c.setConfig r true e.1 e.2).1) []

/-- RobotConfig.cpp 202-228 `getConfig(name)`; the node is looked up in the robot, where it was found when
it was entered. -/
def Cfg.getConfig (alive : Bool) (c : Cfg) (n : Nat) : ℝ :=
  if !c.has n then 0
  else if !alive then 0
  else (c.find n).getD 0

/-- RobotConfig.cpp 168-187 `setJointValues()` on the configuration's own robot. -/
noncomputable def Cfg.applyOwn (r : Robot G) (alive : Bool) (c : Cfg) (s : St G) : St G × Bool :=
  if !alive then (s, false)
  else (applyJointValues r (c.foldl (fun s e => setNoUpdate r e.1 e.2 s) s), true)

open Classical in
/-- RobotConfig.cpp 258-299 `setJointValues(robot)` on any robot: first every name is checked, then the
values are set. -/
noncomputable def Cfg.applyTo (r : Robot G) (c : Cfg) (s : St G) : St G × Bool :=
  if ∀ e ∈ c, e.1 ∈ r.tree.ids then
    (applyJointValues r (c.foldl (fun s e => setNoUpdate r e.1 e.2 s) s), true)
  else (s, false)

/-- Robot.cpp 936-945 `Robot::setConfig` with 1043-1047: the result of the application is dropped. -/
noncomputable def robotSetConfig (r : Robot G) (c : Cfg) (s : St G) : St G × Bool :=
  ((c.applyTo r s).1, true)

/-- Robot.cpp 914-934 `Robot::getConfig`: the values of all translational and rotational joints
(`isJoint`), in the order of the node map. -/
noncomputable def robotGetConfig (r : Robot G) (isJoint : Nat → Bool) (s : St G) : Cfg :=
  (r.tree.ids.filter isJoint).foldl (fun c n => c.put n (s.value n)) []

open Classical in
/-- RobotConfig.cpp 133-165 `clone(newRobot)`: entries whose node the new robot lacks are dropped. -/
noncomputable def Cfg.clone (r' : Robot G) (c : Cfg) : Cfg :=
  c.foldl (fun d e => if e.1 ∈ r'.tree.ids then d.put e.1 e.2 else d) []

/-- RobotNodeSet.cpp 459-483 `setJointValues(config)`: the entries of the configuration for nodes of the
set. -/
noncomputable def NodeSet.setConfig (r : Robot G) (fuel : Nat) (ns : NodeSet) (c : Cfg) (s : St G) :
    Option (St G) :=
  ns.update r fuel (ns.nodes.foldl
    (fun s n => if c.has n then setNoUpdate r n (c.getConfig true n) s else s) s)

end

/-! ## Frames -/

/-- A rigid pose: orientation and position (math/Helpers.h `Orientation`, `Position`, `Pose`). -/
@[ext]
structure Pose (R V : Type) where
  rot : R
  pos : V

section
variable {R V : Type} [Group R] [AddCommGroup V] [DistribMulAction R V]

/-- Product of homogeneous matrices. -/
instance : Mul (Pose R V) := ⟨fun a b => ⟨a.rot * b.rot, a.pos + a.rot • b.pos⟩⟩
/-- Identity matrix. -/
instance : One (Pose R V) := ⟨⟨1, 0⟩⟩
/-- math/Helpers.cpp `InvertedPose`: `[Rᵀ, -Rᵀ p]`. -/
instance : Inv (Pose R V) := ⟨fun a => ⟨a.rot⁻¹, -(a.rot⁻¹ • a.pos)⟩⟩

theorem mul_def (a b : Pose R V) : a * b = ⟨a.rot * b.rot, a.pos + a.rot • b.pos⟩ := rfl
theorem one_def : (1 : Pose R V) = ⟨1, 0⟩ := rfl
theorem inv_def (a : Pose R V) : a⁻¹ = ⟨a.rot⁻¹, -(a.rot⁻¹ • a.pos)⟩ := rfl

instance : Group (Pose R V) where
  mul_assoc a b c := by
    simp only [mul_def, mul_assoc, smul_add, mul_smul, add_assoc]
  one_mul a := by simp [mul_def, one_def]
  mul_one a := by simp [mul_def, one_def]
  inv_mul_cancel a := by simp [mul_def, one_def, inv_def]

/-- SceneObject.cpp 546-549 `toLocalCoordinateSystem`. -/
def toLocal (own g : Pose R V) : Pose R V := own⁻¹ * g

/-- SceneObject.cpp 552-555 `toGlobalCoordinateSystem`. -/
def toGlobal (own l : Pose R V) : Pose R V := own * l

/-- SceneObject.cpp 557-563 `toLocalCoordinateSystemVec`. -/
def toLocalVec (own : Pose R V) (p : V) : V := (toLocal own ⟨1, p⟩).pos

/-- SceneObject.cpp 566-572 `toGlobalCoordinateSystemVec`. -/
def toGlobalVec (own : Pose R V) (p : V) : V := (toGlobal own ⟨1, p⟩).pos

/-- SceneObject.cpp 574-577 `getTransformationTo`. -/
def transformationTo (own other : Pose R V) : Pose R V := own⁻¹ * other

/-- SceneObject.cpp 579-582 `getTransformationFrom`. -/
def transformationFrom (own other : Pose R V) : Pose R V := other⁻¹ * own

/-- SceneObject.cpp 584-589 `transformTo(other, pose)`. -/
def transformTo (own other p : Pose R V) : Pose R V := transformationTo own other * p

/-- SceneObject.cpp 591-597 `transformTo(other, position)`. -/
def transformToVec (own other : Pose R V) (p : V) : V :=
  (transformationTo own other).pos + (transformationTo own other).rot • p

/-- Robot.cpp 861-871 `getGlobalPositionForRobotNode`. -/
def getGlobalPositionForRobotNode (base node : Pose R V) (p : V) : Pose R V :=
  ⟨1, base.pos + (p - node.pos)⟩

open Classical in
/-- Robot.cpp 829-851 `getGlobalPoseForRobotNode`; `Orthogonalize` is the identity on rigid poses and is
left out. -/
noncomputable def getGlobalPoseForRobotNode (base node T : Pose R V) : Pose R V :=
  if T.rot = 1 then getGlobalPositionForRobotNode base node T.pos
  else T * node⁻¹ * base

/-- Robot.cpp 853-859 `setGlobalPoseForRobotNode`. -/
noncomputable def setGlobalPoseForRobotNode (r : Robot (Pose R V)) (n : Nat) (T : Pose R V)
    (s : St (Pose R V)) : St (Pose R V) :=
  setGlobalPose r (getGlobalPoseForRobotNode s.base (s.pose n) T) true s

/-- Robot.cpp 873-877 `setGlobalPositionForRobotNode`. -/
noncomputable def setGlobalPositionForRobotNode (r : Robot (Pose R V)) (n : Nat) (p : V)
    (s : St (Pose R V)) : St (Pose R V) :=
  setGlobalPose r (getGlobalPositionForRobotNode s.base (s.pose n) p) true s

end

end Simox.Kin
