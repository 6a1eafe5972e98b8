import Verif.Ik.Spec
import Verif.Ik.Generic

/-!
# Specification vocabulary for the generic solver
-/

namespace Simox.Ik.Spec

open Kin Kin.Spec Jac

/-- One attempt from `s`: `solveIK` ends in `t`, and `b` says whether it succeeded without collision. -/
def Tried (r : Robot Pose3) (fuel : Nat) (ns : NodeSet) (aa : AngleAxes) (so : Solver) (goals : List Goal)
    (s : St Pose3) (b : Bool) (t : St Pose3) : Prop :=
  ∃ b', computeSteps r fuel ns aa goals (so.step goals) 0 true so.jacobianMaxLoops s = .done b' t ∧
    (b = true ↔ b' = true ∧ ∀ c, so.inCollision = some c → c t = false)

/-- The joints have been set randomly: each to the point between its limits the random number says, the
translational joint to its initial value. -/
def Fresh (r : Robot Pose3) (ns : NodeSet) (so : Solver) (rs : List ℝ) (s s1 : St Pose3) : Prop :=
  ∃ v : Nat → ℝ, SetTo r ns.nodes v s s1 ∧
    (∀ n q, so.translational = some (n, q) → v n = q) ∧
    ∀ (i n : Nat) (x : ℝ), ns.nodes[i]? = some n → rs[i]? = some x →
      (∀ m q, so.translational = some (m, q) → m ≠ n) →
      v n = (r.lim n).lo + ((r.lim n).hi - (r.lim n).lo) * x

/-- Failed attempts from random configurations, the first with the random numbers `rnd i`; the list has
the states in which they end. -/
inductive Failed (r : Robot Pose3) (fuel : Nat) (ns : NodeSet) (aa : AngleAxes) (so : Solver)
    (goals : List Goal) (rnd : Nat → List ℝ) : Nat → St Pose3 → List (St Pose3) → Prop
  | nil (i s) : Failed r fuel ns aa so goals rnd i s []
  | cons {i : Nat} {s s1 t : St Pose3} {l : List (St Pose3)} (hf : Fresh r ns so (rnd i) s s1)
      (ht : Tried r fuel ns aa so goals s1 false t) (hl : Failed r fuel ns aa so goals rnd (i + 1) t l) :
      Failed r fuel ns aa so goals rnd i s (t :: l)

/-- `t` is the first state of the list with the least mean position error. -/
def FirstBest (goals : List Goal) (l : List (St Pose3)) (t : St Pose3) : Prop :=
  ∃ pre post, l = pre ++ t :: post ∧ (∀ u ∈ pre, meanError goals t < meanError goals u) ∧
    ∀ u ∈ post, meanError goals t ≤ meanError goals u

/-- The translational joint is one of the set and drives no other joint. -/
def GoodTrans (r : Robot Pose3) (ns : NodeSet) (so : Solver) : Prop :=
  ∀ n q, so.translational = some (n, q) → n ∈ ns.nodes ∧ r.prop n = []

/-- The goals a call of the solver works on: the one for the tcp, and those of other tcps set before. -/
def IsGoals (so : Solver) (target : Pose3) (selection : Nat) (goals : List Goal) : Prop :=
  ∀ g, g ∈ goals ↔ (g.obj ≠ so.tcp ∧ g ∈ so.goals) ∨
    g = ⟨so.tcp, so.link, target, selection, so.maxErrorPositionMM, so.maxErrorOrientationRad⟩

/-- The setting in which the solver is used: a usable node set with sensible limits, a translational joint
(if any) of the set, steps for all joints, and one random number per joint. -/
structure Setup (r : Robot Pose3) (ns : NodeSet) (so : Solver) (rnd : Nat → List ℝ) : Prop where
  usable : Usable r ns
  limits : GoodLimits r ns.nodes
  trans : GoodTrans r ns so
  steps : ∀ goals s d, so.step goals s = .move d → d.length = ns.nodes.length
  random : ∀ i, (rnd i).length = ns.nodes.length

/-- `t` differs from `s` at most in the joints of the set, and its poses are those of forward kinematics. -/
def OnlySet (r : Robot Pose3) (ns : NodeSet) (s t : St Pose3) : Prop :=
  t.base = s.base ∧ FK r t ∧ (∀ n, n ∉ ns.nodes → t.value n = s.value n) ∧ InLimits r ns.nodes t

end Simox.Ik.Spec
