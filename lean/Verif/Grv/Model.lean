import Verif.Jac.Com

/-!
# Torques against gravity

Models `VirtualRobot/Tools/Gravity.cpp` on the kinematic trees of `Verif.Jac.Model`. The tree of `GravityData` has the shape of the tree of scene
objects; its fields are computed from it here instead of being stored. Sensors are leaves of the tree, as in `Verif.Kin.Model`. Simplifications:
reals instead of floats; the masses, the tree and the node sets do not change after the construction.
-/

namespace Simox.Grv

open Matrix Kin Jac

/-- What `Gravity` is constructed from (Gravity.cpp 10-13), and the names of the scene objects. -/
structure Setup where
  robot : JRobot
  masses : Masses
  name : Nat → Nat
  joints : List Nat
  bodies : List Nat

/-- RobotNodeRevolute.cpp 144-147 `isRotationalJoint`. -/
def isRevolute : Kind → Bool
  | .revolute _ _ _ => true
  | _ => false

open Classical in
/-- Gravity.cpp 15-38: the constructor does not throw. -/
noncomputable def constructs (g : Setup) : Bool :=
  !g.joints.isEmpty && g.joints.all (fun d => isRevolute (g.robot.kind d)) && g.bodies.all (fun b => !decide (g.masses.mass b ≤ 0))

mutual
/-- Gravity.cpp 130-149: `massSum`. -/
noncomputable def massSum (g : Setup) : Tree → ℝ
  | .node i ks => (if i ∈ g.bodies then g.masses.mass i else 0) + massSumL g ks
/-- Gravity.cpp 141-149: the loop over the children. -/
noncomputable def massSumL (g : Setup) : List Tree → ℝ
  | [] => 0
  | k :: ks => massSum g k + massSumL g ks
end

/-- Gravity.cpp 145: `children` is a map from names: a child is replaced by a later one with the same name. -/
def replaced (g : Setup) (k : Tree) (later : List Tree) : Bool := later.any (fun k' => g.name (rootId k') == g.name (rootId k))

open Classical in
mutual
/-- Gravity.cpp 156-175: the centre of mass `computeCoMAndTorque` returns. -/
noncomputable def com (g : Setup) (s : St Pose3) : Tree → V3
  | .node i ks =>
    let total := massSum g (.node i ks)
    (if i ∈ g.bodies ∧ 0 < total ∧ 0 < g.masses.mass i then (g.masses.mass i / total) • comGlobal g.masses s i else 0) + comL g s total ks
/-- Gravity.cpp 164-175: the loop over the children; the order of the map only changes that of the summands. -/
noncomputable def comL (g : Setup) (s : St Pose3) (total : ℝ) : List Tree → V3
  | [] => 0
  | k :: ks =>
    (if replaced g k ks = false ∧ 0 < total ∧ 0 < massSum g k then (massSum g k / total) • com g s k else 0) + comL g s total ks
end

mutual
/-- Gravity.cpp 164-166: the part of the tree that `computeCoMAndTorque` gets to, at the joint `d`. -/
def visit (g : Setup) (d : Nat) : Tree → Option Tree
  | .node i ks => if i = d then some (.node i ks) else visitL g d ks
/-- The loop over the children. -/
def visitL (g : Setup) (d : Nat) : List Tree → Option Tree
  | [] => none
  | k :: ks => ((if replaced g k ks then none else visit g d k)).or (visitL g d ks)
end

/-- MathTools.h 507-520 `nearestPointOnLine` for a direction of length one (`BaseLine`, MathTools.h 226-235, normalises it). -/
noncomputable def nearestOnLine (p d x : V3) : V3 := p + (d ⬝ᵥ (x - p)) • d

/-- Gravity.cpp 181-190: the torque of a revolute joint with the axis `u`. -/
noncomputable def torque (s : St Pose3) (d : Nat) (u : V3) (c : V3) (total : ℝ) : ℝ :=
  let axis := (s.pose d).rot • u
  let r := (1 / 1000 : ℝ) • (c - nearestOnLine (s.pose d).pos axis c)
  let F : V3 := ![0, 0, -(981 / 100) * total]
  (crossProduct r F ⬝ᵥ axis) * (-1)

/-- Gravity.cpp 123-128, 179-191, 53-56: the torque of one joint of the set. `dataVec` has no object for a joint that is not
in the tree: the access is undefined. A joint whose object is not visited keeps the value zero. -/
noncomputable def jointTorque (g : Setup) (s : St Pose3) (d : Nat) : Option ℝ :=
  if d ∈ g.robot.tree.ids then
    some (match visit g d g.robot.tree, g.robot.kind d with
      | some t, .revolute u _ _ => torque s d u (com g s t) (massSum g t)
      | _, _ => 0)
  else none

/-- Gravity.cpp 48-57 `computeGravityTorque(storeValues)`. -/
noncomputable def compute (g : Setup) (s : St Pose3) : Option (List ℝ) := g.joints.mapM (jointTorque g s)

/-- Assigning to an element of a map. -/
def put (f : Nat → Option ℝ) (k : Nat) (v : ℝ) : Nat → Option ℝ := fun j => if j = k then some v else f j

/-- Gravity.cpp 65-70: the loop that fills the map. -/
def fill (name : Nat → Nat) : List (Nat × ℝ) → (Nat → Option ℝ) → (Nat → Option ℝ)
  | [], f => f
  | (d, v) :: l, f => fill name l (put f (name d) v)

/-- Gravity.cpp 59-70, 106 `computeGravityTorque()`. -/
noncomputable def computeMap (g : Setup) (s : St Pose3) : Option (Nat → Option ℝ) :=
  (compute g s).map fun vs => fill g.name (g.joints.zip vs) (fun _ => none)

end Simox.Grv
