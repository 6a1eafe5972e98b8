import Verif.Cst.Solve
import Verif.Ik.Spec

/-!
# Specification: solving constraints by optimisation
-/

namespace Simox.Cst.Spec

open Kin Kin.Spec Jac Ik.Spec

/-- `t` is `s` with the joints of the set moved to the configuration `x`. -/
def AtConfig (r : Robot Pose3) (nodes : List Nat) (x : List ℝ) (s t : St Pose3) : Prop :=
  x.length = nodes.length ∧
    ∃ v : Nat → ℝ, (∀ (i n : Nat) (y : ℝ), nodes[i]? = some n → x[i]? = some y → v n = y) ∧ SetTo r nodes v s t

/-- All constraints that are not soft are within their tolerances. -/
def HardMet (fns : List Fn) (t : St Pose3) : Prop := ∀ f ∈ fns, f.soft = false → f.check t = some true

/-- The sum of the errors of the constraints that are not soft. -/
def hardError (fns : List Fn) (t : St Pose3) : ℝ := ((fns.filter fun f => !f.soft).map fun f => f.value t).sum

/-- The configuration is within the joint limits. -/
def Within (r : Robot Pose3) (nodes : List Nat) (x : List ℝ) : Prop :=
  x.length = nodes.length ∧ ∀ (i n : Nat) (y : ℝ), nodes[i]? = some n → x[i]? = some y → (r.lim n).lo ≤ y ∧ y ≤ (r.lim n).hi

end Simox.Cst.Spec
