import Verif.Gpn.Model

/-!
# Specification for grasp planning

Notions the statements about grasp planning use: triangles, frames that look along a direction, hands
that are shifted, grasps that are good enough.
-/

namespace Simox.Gpn

open Matrix Jac

/-- The points of a triangle. -/
def InTriangle (v1 v2 v3 p : V3) : Prop :=
  ∃ a b c : ℝ, 0 ≤ a ∧ 0 ≤ b ∧ 0 ≤ c ∧ a + b + c = 1 ∧ p = a • v1 + b • v2 + c • v3

/-- The third axis of a rotation. -/
def axisZ (R : SO3) : V3 := fun i => R.1 i 2

/-- The hand shifted by a vector, with the fingers as they are. -/
def Hand.shift {H : Type} (h : Hand H) (d : V3) : Hand H := { h with root := ⟨h.root.rot, h.root.pos + d⟩ }

/-- Setting poses works as it should: the target is turned against the world, or the root of the hand is
not. (`Robot::setGlobalPoseForRobotNode` forgets the orientation of the robot otherwise, see C40.) -/
def Settable {H : Type} (h : Hand H) (target : Pose3) : Prop := target.rot ≠ 1 ∨ h.root.rot = 1

/-- The hand does not touch the object. -/
def Free {H : Type} (e : Eef H) (h : Hand H) : Prop := e.hits h.root h.cfg = false

/-! ## Planned grasps -/

/-- The pose of the tool centre point a grasp stands for when the object is at `objectPose`
(`Grasp::getTcpPoseGlobal`). -/
def Grasp.tcpPoseGlobal {H : Type} (g : Grasp H) (objectPose : Pose3) : Pose3 := objectPose * g.poseTcp⁻¹

/-- A grasp is good, with the given demands on the quality, for the hand `h`: the hand is clear of the
obstacles, the fingers were closed where the hand is, at least two contacts came out of it, they are good enough, and
the grasp tells where the hand is, how its fingers are and what the quality is. -/
structure Good {H C : Type} (w : World H C) (minQuality : ℝ) (forceClosure : Bool) (h : Hand H) (contacts : List C)
    (g : Grasp H) : Prop where
  clear : ∀ f, w.obstacles = some f → f h.root h.cfg = false
  closing : ∃ c dir, h.cfg = (w.close h.root c).1 ∧ contacts = (w.close h.root c).2 ++ w.statics h.root h.cfg dir
  two : 2 ≤ contacts.length
  closure : forceClosure = true → w.closed contacts = true
  enough : minQuality ≤ w.quality contacts
  quality : g.quality = w.quality contacts
  config : g.config = h.cfg
  pose : g.tcpPoseGlobal w.objectPose = h.root * w.tcp h.cfg

/-- The book-keeping is consistent: every generated grasp is counted once, under one outcome, and every list
has one entry for it. -/
structure Consistent (ev : Eval) : Prop where
  once : ev.nrGraspsGenerated =
    ev.nrGraspsValid + ev.nrGraspsInvalidCollision + ev.nrGraspsInvalidFC + ev.nrGraspsInvalidContacts
  times : ev.timeGraspMS.length = ev.nrGraspsGenerated
  scores : ev.graspScore.length = ev.nrGraspsGenerated
  valids : ev.graspValid.length = ev.nrGraspsGenerated
  types : ev.graspTypePower = List.replicate ev.nrGraspsGenerated true
  valid : ev.graspValid.count true = ev.nrGraspsValid
  power : ev.nrGraspsValidPower = ev.nrGraspsValid ∧ ev.nrGraspsValidPrecision = 0

/-- What a user does with a planner. -/
inductive Op (H : Type) where
  | setParameters (minQuality : ℝ) (forceClosure : Bool)
  | setRetreat (enable : Bool)
  | clearEvaluation
  | plan (nrGrasps timeOutMS : ℤ) (turns : List (Turn H))

end Simox.Gpn
