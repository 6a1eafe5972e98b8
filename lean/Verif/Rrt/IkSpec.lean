import Verif.Rrt.IkModel
import Verif.Rrt.Spec

/-!
# What the grasp planner was asked for and what its IK solver offered
-/

namespace Simox.Rrt.Spec

open Simox.Rrt

variable {Q : Type}

/-- The last start configuration passed to the planner since it was created or reset. -/
def ikLastStart (h : List (IkOp Q)) : Option Q :=
  h.foldl (fun r op => match op with | .setStart c => some c | .reset => none | _ => r) none

/-- In one of the cycles of a planning attempt since the last reset, the inverse kinematics returned the
configuration `q` for some grasp. -/
def Offered (h : List (IkOp Q)) (q : Q) : Prop :=
  ∃ pre sched post i g, h = pre ++ .plan sched :: post ∧ (∀ op ∈ post, op ≠ .reset) ∧
    i < max 1 sched.maxCycles ∧ (sched.item i).ik = some (g, q)

end Simox.Rrt.Spec
