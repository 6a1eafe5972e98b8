import Verif.Jac.Model

/-!
# The Jacobian of the centre of mass

Models `VirtualRobot/IK/CoMIK.cpp` (`getJacobianOfCoM`, `getJacobianMatrix`, the parents computed in the
constructor) and `RobotNodeSet::getCoM` / `getMass`, `SceneObject::getCoMGlobal`. Simplifications as in
`Verif.Jac.Model`.
-/

namespace Simox.Jac

open Matrix Kin

/-- SceneObject.h `Physics`: `massKg` and `localCoM` of the nodes. -/
structure Masses where
  mass : Nat → ℝ
  com : Nat → V3

/-- SceneObject.cpp 679-683 `getCoMGlobal`. -/
noncomputable def comGlobal (m : Masses) (s : St Pose3) (n : Nat) : V3 := toGlobalVec (s.pose n) (m.com n)

/-- RobotNodeSet.cpp 600-610 `getMass`. -/
noncomputable def setMass (m : Masses) : List Nat → ℝ
  | [] => 0
  | b :: bs => m.mass b + setMass m bs

/-- RobotNodeSet.cpp 591-595: the loop of `getCoM`. -/
noncomputable def comSum (m : Masses) (s : St Pose3) (total : ℝ) : List Nat → V3
  | [] => 0
  | b :: bs => (m.mass b / total) • comGlobal m s b + comSum m s total bs

open Classical in
/-- RobotNodeSet.cpp 580-598 `getCoM`. -/
noncomputable def getCoM (m : Masses) (s : St Pose3) (bodies : List Nat) : V3 :=
  if setMass m bodies ≤ 0 then 0 else comSum m s (setMass m bodies) bodies

/-- CoMIK.cpp 25-33: the joints that move a body. -/
def bodyParents (tree : Tree) (nodes : List Nat) (b : Nat) : List Nat :=
  nodes.filter (fun m => decide (b ∈ belowT m tree)) ++ if b ∈ nodes then [b] else []

/-- CoMIK.cpp 58-101: the column of one degree of freedom for one body. -/
noncomputable def comColumn (r : JRobot) (m : Masses) (s : St Pose3) (nodes : List Nat)
    (frame : Option Pose3) (mm : Bool) (b dof : Nat) : V3 :=
  if dof ∈ bodyParents r.tree nodes b then
    match r.kind dof with
    | .revolute u _ _ =>
      let axis := inFrame frame (s.pose dof) u
      let d := comGlobal m s b - (s.pose dof).pos
      let d := if mm then (1 / 1000 : ℝ) • d else d
      crossProduct axis d
    | .prismatic v _ => inFrame frame (s.pose dof) v
    | .fixed => 0
  else 0

/-- CoMIK.cpp 132-149: the sum over the bodies, weighted by their masses. -/
noncomputable def comColumnSum (r : JRobot) (m : Masses) (s : St Pose3) (nodes : List Nat)
    (frame : Option Pose3) (mm : Bool) (dof : Nat) : List Nat → V3
  | [] => 0
  | b :: bs => m.mass b • comColumn r m s nodes frame mm b dof +
      comColumnSum r m s nodes frame mm dof bs

open Classical in
/-- CoMIK.cpp 103-115 and 130-157 `getJacobianMatrix()` with a target of `dim` dimensions: two rows if the
target is in the plane, three otherwise (also for `dim = 1`); without bodies the matrix is empty. -/
noncomputable def comJacobian (r : JRobot) (m : Masses) (s : St Pose3) (nodes bodies : List Nat)
    (frame : Option Pose3) (mm : Bool) (dim : Nat) : List (List ℝ) :=
  if bodies = [] then [] else
  let total := setMass m bodies
  let cols := nodes.map (fun d =>
    let c := comColumnSum r m s nodes frame mm d bodies
    if total ≠ 0 then (1 / total) • c else c)
  if dim = 2 then [cols.map (fun c => c 0), cols.map (fun c => c 1)]
  else [cols.map (fun c => c 0), cols.map (fun c => c 1), cols.map (fun c => c 2)]

end Simox.Jac
