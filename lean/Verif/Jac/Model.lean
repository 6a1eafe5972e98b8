import Verif.Kin.Model
import Mathlib.LinearAlgebra.UnitaryGroup
import Mathlib.LinearAlgebra.CrossProduct
import Mathlib.LinearAlgebra.Matrix.Notation

/-!
# Jacobians of kinematic chains

Models `VirtualRobot/IK/DifferentialIK.cpp` (`updateJacobianMatrix` and the functions around it),
`RobotNodeRevolute` / `RobotNodePrismatic` (`updateTransformationMatrices`, `getJointRotationAxis`,
`getJointTranslationDirection`) and `RobotNode::getAllParents`, on top of the kinematic trees of
`Verif.Kin.Model`.

Simplifications: reals instead of floats; poses are pairs of a rotation in SO(3) and a position instead
of 4x4 matrices; the rotation axis is a unit vector (the constructor normalises it,
RobotNodeRevolute.cpp 31-32).
-/

namespace Simox.Jac

open Matrix Kin

/-- Positions, `Eigen::Vector3f`. -/
abbrev V3 := Fin 3 → ℝ
/-- Rotation matrices. -/
abbrev SO3 := Matrix.specialOrthogonalGroup (Fin 3) ℝ

/-- Product of a rotation matrix with a vector. -/
instance : DistribMulAction SO3 V3 where
  smul R v := R.1 *ᵥ v
  one_smul v := Matrix.one_mulVec v
  mul_smul A B v := (Matrix.mulVec_mulVec v A.1 B.1).symm
  smul_zero A := Matrix.mulVec_zero A.1
  smul_add A v w := Matrix.mulVec_add A.1 v w

theorem smul_def (R : SO3) (v : V3) : R • v = R.1 *ᵥ v := rfl

/-- Eigen/Geometry/AngleAxis.h `AngleAxis::toRotationMatrix`. -/
noncomputable def axisAngle (u : V3) (a : ℝ) : Matrix (Fin 3) (Fin 3) ℝ :=
  let s := Real.sin a
  let c := Real.cos a
  let t := 1 - c
  !![t * u 0 * u 0 + c, t * u 0 * u 1 - s * u 2, t * u 0 * u 2 + s * u 1;
     t * u 0 * u 1 + s * u 2, t * u 1 * u 1 + c, t * u 1 * u 2 - s * u 0;
     t * u 0 * u 2 - s * u 1, t * u 1 * u 2 + s * u 0, t * u 2 * u 2 + c]

theorem axisAngle_mem (u : V3) (a : ℝ) (hu : u 0 * u 0 + u 1 * u 1 + u 2 * u 2 = 1) :
    axisAngle u a ∈ Matrix.specialOrthogonalGroup (Fin 3) ℝ := by
  have h1 := Real.sin_sq_add_cos_sq a
  rw [Matrix.mem_specialOrthogonalGroup_iff, Matrix.mem_orthogonalGroup_iff]
  generalize hs : Real.sin a = s at h1
  generalize hc : Real.cos a = c at h1
  constructor
  · ext i j
    fin_cases i <;> fin_cases j <;>
      simp [axisAngle, Matrix.mul_apply, Fin.sum_univ_three, hs, hc]
    · linear_combination (h1 + s^2 * hu) + ((1 - c)^2 * hu - h1) * u 0 * u 0
    · linear_combination ((1 - c)^2 * hu - h1) * u 0 * u 1
    · linear_combination ((1 - c)^2 * hu - h1) * u 0 * u 2
    · linear_combination ((1 - c)^2 * hu - h1) * u 1 * u 0
    · linear_combination (h1 + s^2 * hu) + ((1 - c)^2 * hu - h1) * u 1 * u 1
    · linear_combination ((1 - c)^2 * hu - h1) * u 1 * u 2
    · linear_combination ((1 - c)^2 * hu - h1) * u 2 * u 0
    · linear_combination ((1 - c)^2 * hu - h1) * u 2 * u 1
    · linear_combination (h1 + s^2 * hu) + ((1 - c)^2 * hu - h1) * u 2 * u 2
  · rw [Matrix.det_fin_three]
    simp [axisAngle, hs, hc]
    linear_combination (h1 + s^2 * hu) * (c + (1 - c) * (u 0 * u 0 + u 1 * u 1 + u 2 * u 2)) +
      (1 - c) * hu

/-- The joint types: RobotNodeRevolute.h, RobotNodePrismatic.h, RobotNodeFixed.h, each with its axis or
direction and `jointValueOffset`. -/
inductive Kind where
  | revolute (axis : V3) (unit : axis 0 * axis 0 + axis 1 * axis 1 + axis 2 * axis 2 = 1) (offset : ℝ)
  | prismatic (dir : V3) (offset : ℝ)
  | fixed

/-- A rigid pose. -/
abbrev Pose3 := Pose SO3 V3

/-- The transformation of the joint itself: `tmpRotMat` (RobotNodeRevolute.cpp 93) and `tmpT`
(RobotNodePrismatic.cpp 92); nothing for a fixed node (RobotNode.cpp 240-243). -/
noncomputable def Kind.trafo : Kind → ℝ → Pose3
  | .revolute u hu off, q => ⟨⟨axisAngle u (q + off), axisAngle_mem u (q + off) hu⟩, 0⟩
  | .prismatic d off, q => ⟨1, (q + off) • d⟩
  | .fixed, _ => 1

/-- A robot with the members of its nodes: `localTransformation` (RobotNode.h), joint type, limits,
propagation. -/
structure JRobot where
  tree : Tree
  localTrafo : Nat → Pose3
  kind : Nat → Kind
  lim : Nat → Lim
  prop : Nat → List (Nat × ℝ)

/-- `globalPose = parentPose * localTransformation * tmp`: RobotNodeRevolute.cpp 94,
RobotNodePrismatic.cpp 93. -/
noncomputable def JRobot.toRobot (r : JRobot) : Robot Pose3 where
  tree := r.tree
  loc n q := r.localTrafo n * (r.kind n).trafo q
  lim := r.lim
  prop := r.prop

mutual
/-- SceneObject.cpp 1080-1098 `hasChild(child, true)`: the identifiers properly below node `k`. -/
def belowT (k : Nat) : Tree → List Nat
  | .node i ks => if i = k then idsL ks else belowL k ks
/-- Search among the children. -/
def belowL (k : Nat) : List Tree → List Nat
  | [] => []
  | t :: ts => belowT k t ++ belowL k ts
end

/-- RobotNode.cpp 799-824 `getAllParents(rns)`, then the node itself (DifferentialIK.cpp 35-37, 88-89,
356-357). -/
def parentsOf (tree : Tree) (nodes : List Nat) (n : Nat) : List Nat :=
  nodes.filter (fun m => decide (n ∈ belowT m tree)) ++ [n]

/-- RobotNodeRevolute.cpp 154-168 `getJointRotationAxis(coordSystem)`; RobotNodePrismatic.cpp 200-214
`getJointTranslationDirection(coordSystem)`: a vector of the joint's frame in global coordinates or in
those of the coordinate system. -/
noncomputable def inFrame (frame : Option Pose3) (pose : Pose3) (v : V3) : V3 :=
  match frame with
  | none => pose.rot • v
  | some c => c.rot⁻¹ • (pose.rot • v)

/-- DifferentialIK.cpp 396-405: `toTCP`. -/
noncomputable def toTCP (frame : Option Pose3) (tcp dof : Pose3) : V3 :=
  match frame with
  | none => tcp.pos - dof.pos
  | some c => (toLocal c tcp).pos - (toLocal c dof).pos

/-- `IKSolver::CartesianSelection`, IKSolver.h 47-55, and the test `mode & flag`. -/
def flagX : Nat := 1
def flagY : Nat := 2
def flagZ : Nat := 4
def flagPosition : Nat := 7
def flagOrientation : Nat := 8
def flagAll : Nat := 15
def has (mode flag : Nat) : Bool := mode &&& flag != 0

/-- DifferentialIK.cpp 367-442: the column of one degree of freedom, position and orientation part.
`mm` is `convertMMtoM`. -/
noncomputable def column (r : JRobot) (s : St Pose3) (nodes : List Nat) (frame : Option Pose3)
    (mm : Bool) (mode : Nat) (tcp tcpRN dof : Nat) : V3 × V3 :=
  if dof ∈ parentsOf r.tree nodes tcpRN then
    match r.kind dof with
    | .revolute u _ _ =>
      let axis := inFrame frame (s.pose dof) u
      let d := toTCP frame (s.pose tcp) (s.pose dof)
      let d := if mm then (1 / 1000 : ℝ) • d else d
      (if has mode flagPosition then crossProduct axis d else 0,
        if has mode flagOrientation then axis else 0)
    | .prismatic v _ =>
      (if has mode flagPosition then inFrame frame (s.pose dof) v else 0, 0)
    | .fixed => (0, 0)
  else (0, 0)

/-- What the tcp of a Jacobian can be: a robot node, a scene object attached to a robot node, or
something else (DifferentialIK.cpp 333-352). -/
inductive Tcp where
  | node (n : Nat)
  | attached (obj parent : Nat)
  | loose

/-- DifferentialIK.cpp 282-508 `updateJacobianMatrix(jac, tcp, mode)`: the rows of the matrix. -/
noncomputable def jacobian (r : JRobot) (s : St Pose3) (nodes : List Nat) (frame : Option Pose3)
    (mm : Bool) (mode : Nat) (tcp : Tcp) : List (List ℝ) :=
  let rows (f : Nat → V3 × V3) : List (List ℝ) :=
    let cols := nodes.map f
    (if has mode flagX then [cols.map (fun c => c.1 0)] else []) ++
    (if has mode flagY then [cols.map (fun c => c.1 1)] else []) ++
    (if has mode flagZ then [cols.map (fun c => c.1 2)] else []) ++
    (if has mode flagOrientation then
      [cols.map (fun c => c.2 0), cols.map (fun c => c.2 1), cols.map (fun c => c.2 2)] else [])
  match tcp with
  | .node n => rows (column r s nodes frame mm mode n n)
  | .attached o p => rows (column r s nodes frame mm mode o p)
  | .loose => rows (fun _ => (0, 0))

/-- DifferentialIK.cpp 109-160 `updateJacobianMatrix(jacobian)`: the Jacobians of all tcps with a goal,
one below the other. -/
noncomputable def fullJacobian (r : JRobot) (s : St Pose3) (nodes : List Nat) (frame : Option Pose3)
    (mm : Bool) (goals : List (Tcp × Nat)) : List (List ℝ) :=
  goals.flatMap (fun g => jacobian r s nodes frame mm g.2 g.1)

end Simox.Jac
