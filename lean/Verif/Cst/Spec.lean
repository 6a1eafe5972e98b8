import Verif.Cst.Model
import Verif.Jac.Spec
import Verif.Ik.Spec

/-!
# Specification: gradients
-/

namespace Simox.Cst.Spec

open Kin Kin.Spec Jac

/-- `grad` is the gradient of `F` at the state `s` of the robot: one entry per joint of the set, which is the rate at which `F` changes when the joint is
moved with `setJointValue`. For joints strictly within their limits whose value is not propagated to others. -/
def IsGradient (r : JRobot) (nodes : List Nat) (F : St Pose3 → ℝ) (s : St Pose3) (grad : List ℝ) : Prop :=
  grad.length = nodes.length ∧ ∀ (i d : Nat), nodes[i]? = some d → r.prop d = [] → (r.lim d).lo < s.value d → s.value d < (r.lim d).hi →
    ∃ f : ℝ → St Pose3, (∀ x, setJointValue r.toRobot 1 d x s = some (f x)) ∧
      ∃ v, grad[i]? = some v ∧ HasDerivAt (fun x => F (f x)) v (s.value d)

end Simox.Cst.Spec
