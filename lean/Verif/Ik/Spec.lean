import Verif.Ik.Model
import Verif.Kin.Spec

/-!
# Specification vocabulary for inverse kinematics
-/

namespace Simox.Ik.Spec

open Matrix Kin Kin.Spec Jac

/-- Distance of two positions in the coordinates a mode selects: bits 0, 1 and 2 ask for x, y and z. -/
noncomputable def posError (mode : Nat) (target current : V3) : ℝ :=
  Real.sqrt (∑ i : Fin 3, if mode.testBit i then (target i - current i) ^ 2 else 0)

/-- `a` is the angle of the rotation `R`: it turns about some axis by `a`, between 0 and pi. -/
def IsAngle (R : SO3) (a : ℝ) : Prop :=
  0 ≤ a ∧ a ≤ Real.pi ∧
    ∃ u : V3, u 0 ^ 2 + u 1 ^ 2 + u 2 ^ 2 = 1 ∧ R.1 = axisAngle u a

/-- `a` is the rotation error a mode (bit 3) asks for: the angle of the rotation that takes the current
orientation to the target, 0 if the orientation is not selected. -/
def IsRotError (mode : Nat) (target current : SO3) (a : ℝ) : Prop :=
  if mode.testBit 3 then ∃ D : SO3, D * current = target ∧ IsAngle D a else a = 0

/-- The goal is met in state `s`. -/
def Met (s : St Pose3) (g : Goal) : Prop :=
  posError g.mode g.target.pos (s.pose g.obj).pos ≤ g.tolPos ∧
    ∃ a, IsRotError g.mode g.target.rot (s.pose g.obj).rot a ∧ a ≤ g.tolRot

/-- All goals are met. -/
def AllMet (s : St Pose3) (goals : List Goal) : Prop := ∀ g ∈ goals, Met s g

/-- Mean of the position errors. -/
noncomputable def meanError (goals : List Goal) (s : St Pose3) : ℝ :=
  (goals.map fun g => posError g.mode g.target.pos (s.pose g.obj).pos).sum / goals.length

/-- The joints of the set have been set to the values `v` (one after the other): each stores what its
limits make of the value, nothing else changes, and the poses are those of forward kinematics. -/
def SetTo (r : Robot Pose3) (nodes : List Nat) (v : Nat → ℝ) (s s' : St Pose3) : Prop :=
  s'.base = s.base ∧ FK r s' ∧ (∀ j, j ∉ r.tree.ids → s'.pose j = s.pose j) ∧
    (∀ n ∈ nodes, s'.value n = stored (r.lim n) (v n)) ∧ ∀ n, n ∉ nodes → s'.value n = s.value n

/-- The joints of the set have been moved by `d`. -/
def Moved (r : Robot Pose3) (nodes : List Nat) (d : List ℝ) (s s' : St Pose3) : Prop :=
  d.length = nodes.length ∧
    ∃ v : Nat → ℝ, (∀ (i n : Nat) (x : ℝ), nodes[i]? = some n → d[i]? = some x → v n = s.value n + x) ∧
      SetTo r nodes v s s'

/-- The states after each of a number of steps. -/
inductive Walk (r : Robot Pose3) (nodes : List Nat) (step : St Pose3 → Step) :
    St Pose3 → List (St Pose3) → Prop
  | nil (s) : Walk r nodes step s []
  | cons {s s1 : St Pose3} {d : List ℝ} {l : List (St Pose3)} (h : step s = .move d)
      (hm : Moved r nodes d s s1) (hw : Walk r nodes step s1 l) : Walk r nodes step s (s1 :: l)

/-- Where a walk ends. -/
def final (s : St Pose3) (l : List (St Pose3)) : St Pose3 := l.getLastD s

/-- Euclidean length. -/
noncomputable def length (d : List ℝ) : ℝ := Real.sqrt ((d.map fun x => x ^ 2).sum)

/-- The joints of the set are within their limits, as far as those are enforced. -/
def InLimits (r : Robot Pose3) (nodes : List Nat) (s : St Pose3) : Prop :=
  ∀ n ∈ nodes, (r.lim n).limitless = true ∨ (r.lim n).enforce = true →
    (r.lim n).lo ≤ s.value n ∧ s.value n ≤ (r.lim n).hi

/-- Sensible limits: an interval, which for limitless joints contains 0 and spans a full turn. -/
def GoodLimits (r : Robot Pose3) (nodes : List Nat) : Prop :=
  ∀ n ∈ nodes, (r.lim n).lo ≤ (r.lim n).hi ∧
    ((r.lim n).limitless = true → 0 ≤ (r.lim n).hi ∧ (r.lim n).lo + 2 * Real.pi ≤ (r.lim n).hi)

/-- A node set as it is used for inverse kinematics: different joints of the robot, below the kinematic
root, which does not drive other joints. -/
structure Usable (r : Robot Pose3) (ns : NodeSet) : Prop where
  names : Names r
  root : GoodRoot r ns
  known : ∀ n ∈ ns.nodes, n ∈ r.tree.ids
  distinct : ns.nodes.Nodup
  quiet : ∀ k, ns.root = some k → r.prop k = []

/-- Why a run of at most `n` steps may stop in state `s'` after `used` steps without having met the goals:
all steps are used, there is no valid next step, or the next step, which would not meet the goals, is too
small or (if asked for, and not for the first one) would not lower the mean position error. -/
def GivesUp (r : Robot Pose3) (nodes : List Nat) (goals : List Goal) (step : St Pose3 → Step)
    (minChange : ℝ) (improve : Bool) (n used : Nat) (s' : St Pose3) : Prop :=
  used = n ∨ step s' = .invalid ∨
    ∃ d t, step s' = .move d ∧ Moved r nodes d s' t ∧ ¬AllMet t goals ∧
      (length d < minChange ∨ (improve = true ∧ 0 < used ∧ meanError goals s' < meanError goals t))

end Simox.Ik.Spec
