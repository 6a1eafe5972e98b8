import Verif.Grv.Model

/-!
# Specification: the potential energy
-/

namespace Simox.Grv.Spec

open Matrix Kin Jac

/-- The potential energy, in joule, of the chosen bodies of a robot: for each `m g h`, with the height `h` of the centre of mass in metres.
Each body counts once, however often it is in the set. -/
noncomputable def energy (r : JRobot) (m : Masses) (bodies : List Nat) (s : St Pose3) : ℝ :=
  ((r.tree.ids.filter (· ∈ bodies)).map fun b => m.mass b * (981 / 100) * (comGlobal m s b 2 / 1000)).sum

/-- The torque, in newton metres, of the weight of a mass `m` at `c` about the axis through `p` with the direction `a`: lever arm times force. Positions
are in millimetres. -/
noncomputable def weightTorque (p a c : V3) (m : ℝ) : ℝ :=
  crossProduct ((1 / 1000 : ℝ) • (c - p)) ![0, 0, -(m * (981 / 100))] ⬝ᵥ a

/-- No two objects in the tree have the same name. -/
def DistinctNames (t : Tree) (name : Nat → Nat) : Prop := ∀ a ∈ t.ids, ∀ b ∈ t.ids, name a = name b → a = b

end Simox.Grv.Spec
