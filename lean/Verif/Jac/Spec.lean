import Verif.Jac.Model
import Verif.Kin.Spec
import Mathlib.Analysis.Calculus.Deriv.Basic

/-!
# Specification vocabulary for Jacobians
-/

namespace Simox.Jac.Spec

open Matrix Kin Kin.Spec

/-- The pose as seen from the coordinate system (`none`: the global one). -/
noncomputable def seenFrom (frame : Option Pose3) (p : Pose3) : Pose3 :=
  match frame with
  | none => p
  | some c => toLocal c p

/-- `v` is the velocity of the position of the moving frame `p` at time `x`. -/
def Velocity (p : ℝ → Pose3) (v : V3) (x : ℝ) : Prop := HasDerivAt (fun y => (p y).pos) v x

/-- `ω` is the angular velocity of the moving frame `p` at time `x`: every vector `w` that is fixed in the
frame moves with `ω × w`. -/
def AngularVelocity (p : ℝ → Pose3) (ω : V3) (x : ℝ) : Prop :=
  ∀ w : V3, HasDerivAt (fun y => (p y).rot • w) (crossProduct ω ((p x).rot • w)) x

/-- The components a mode selects, in order: bits 0, 1 and 2 of the mode ask for x, y and z, bit 3 for
the three rotational components. -/
def select {α : Type} (mode : Nat) (v ω : Fin 3 → α) : List α :=
  (if mode.testBit 0 then [v 0] else []) ++ (if mode.testBit 1 then [v 1] else []) ++
    (if mode.testBit 2 then [v 2] else []) ++ (if mode.testBit 3 then [ω 0, ω 1, ω 2] else [])

/-- Node `o` is a child of node `p` in the tree. -/
def ChildOf (t : Tree) (p o : Nat) : Prop := ∃ l, Chain t o (l ++ [p, o])

/-- The tcp `o` is known to the robot: a robot node of the tree, or an object attached to a robot node. -/
def IsTcp (r : JRobot) (o : Nat) : Tcp → Prop
  | .node n => n = o ∧ o ∈ r.tree.ids
  | .attached o' p => o' = o ∧ ChildOf r.tree p o ∧ r.kind o = .fixed
  | .loose => False

/-- Column `i` of a matrix given by its rows. -/
def colAt (m : List (List ℝ)) (i : Nat) : List (Option ℝ) := m.map (fun row => row[i]?)

/-- The unit of the rows for positions, relative to the unit of the robot (millimetres): with
`convertMMtoM` positions of the tcp are in metres. A prismatic joint then has its value in metres as
well, so that its unit cancels. -/
noncomputable def unit (mm : Bool) : Kind → ℝ
  | .revolute _ _ _ => if mm then 1 / 1000 else 1
  | _ => 1

end Simox.Jac.Spec
