import Verif.Rrt.Model

/-!
# Model of the planner that samples grasps while planning

`MotionPlanning/Planner/GraspIkRrt.cpp`, on top of the bi-directional planner of `Verif.Rrt.Model`.

* `AdvancedIKSolver::sampleSolution` (a random grasp of the set and a configuration that reaches it, or
  nothing) is part of the stream of external influences: any grasp and any configuration may be returned.
* `isConfigValid` is an arbitrary Boolean function `valid` of configurations.
* Pointers to grasps are `Ref`s, so that comparing a grasp with its copy is comparing two pointers.
* The joint values the inverse kinematics leaves in the robot, timings, counters and console output are not
  modelled. The robot's flag "update visualization" is.
-/

namespace Simox.Rrt

open Simox.Planning

variable {Q K : Type}

/-- A pointer to the `g`th grasp of the set passed by the user, or to the copy of it made by
`GraspSet::clone`, GraspSet.cpp 177-188. -/
inductive Ref where
  | orig (g : Nat)
  | copy (g : Nat)
  deriving DecidableEq

/-- `graspSet->clone()` for a set of `n` grasps, GraspSet.cpp 177-188. -/
def cloneSet (n : Nat) : List Ref := (List.range n).map Ref.copy

/-- `GraspSet::removeGrasp(GraspPtr)`, GraspSet.cpp 190-202: pointers are compared. -/
def removeGrasp (l : List Ref) (r : Ref) : List Ref := l.erase r

/-- Members of `GraspIkRrt`, GraspIkRrt.h, and the robot's update flag. -/
structure IkPlanner (Q : Type) where
  base : Planner Q
  /-- `graspSetWorking` -/
  working : List Ref
  /-- `ikSolutions.size()` -/
  sols : Nat
  /-- the keys of `graspNodeMapping` -/
  mapped : List Ref
  /-- `robot->getUpdateVisualizationStatus()` -/
  vis : Bool

/-- The constructor, GraspIkRrt.cpp 23-47, for a set of `n` grasps. -/
def IkPlanner.new (cap : Nat) (q0 : Q) (n : Nat) (vis : Bool) : IkPlanner Q where
  base := { Planner.new cap q0 with goalValid := true }
  working := cloneSet n
  sols := 0
  mapped := []
  vis := vis

/-- One cycle's worth of external influence. -/
structure IkItem (Q : Type) where
  /-- `RandomFloat() <= sampleGoalProbab` -/
  sample : Bool
  /-- result of `sampleSolution`: the index of a grasp and the configuration reached -/
  ik : Option (Nat × Q)
  rnd : Q
  cut : Bool
  stop : Bool
  timeout : Bool

/-- The part of an item that a cycle of the bi-directional planner sees. -/
def IkItem.toItem (it : IkItem Q) : Item Q :=
  { toGoal := false, rnd := it.rnd, cut := it.cut, stop := it.stop, timeout := it.timeout }

/-- `maxCycles` and the influences of all cycles of one `plan` call. -/
structure IkSched (Q : Type) where
  maxCycles : Nat
  item : Nat → IkItem Q

section
variable [LT K] [DecidableRel (α := K) (· < ·)] (env : Env Q K) (valid : Q → Bool)

/-- The end of `addIKSolution`, GraspIkRrt.cpp 110-116: the configuration becomes a root of its own in
the goal tree, with the negative number of solutions as the ID of its parent. `success` = returns true. -/
def addRoot (p : IkPlanner Q) (g : Nat) (q : Q) : Ext × IkPlanner Q :=
  match push p.base.sys 1 q (-(p.sols : Int)) with
  | none => (.throws, p)
  | some (_, s) => (.success, { p with base := { p.base with sys := s }, mapped := .orig g :: p.mapped })

/-- `GraspIkRrt::addIKSolution`, GraspIkRrt.cpp 92-117. -/
def addIk (cut : Bool) (p : IkPlanner Q) (g : Nat) (q : Q) : Ext × IkPlanner Q :=
  let p := { p with sols := p.sols + 1 }
  if (p.base.sys.tree 1).nrOfNodes > 0 then
    let r := connectComplete env cut p.base.sys 1 p.base.lastAddedID2 q
    let p := { p with base := { p.base with sys := r.1, lastAddedID2 := r.2.1 } }
    if r.2.2 = .undef then (.undef, p)
    else if r.2.2 = .throws then (.throws, p)
    else if r.2.2 = .success then
      match (p.base.sys.tree 1).getNodeInt p.base.lastAddedID2 with
      | none => (.throws, p)
      | some _ => (.success, { p with mapped := .orig g :: p.mapped })
    else addRoot p g q
  else addRoot p g q

/-- `GraspIkRrt::searchNewGoal`, GraspIkRrt.cpp 52-90, with `checkGoalConfig`, 119-122. -/
def searchGoal (it : IkItem Q) (p : IkPlanner Q) : Ext × IkPlanner Q :=
  if p.working.length = 0 then (.success, p)
  else
    match it.ik with
    | none => (.success, p)
    | some (g, q) =>
      if Ref.orig g ∈ p.mapped then (.success, p)
      else
        let p := { p with working := removeGrasp p.working (.orig g) }
        if valid q then addIk env it.cut p g q else (.success, p)

/-- One cycle of the planning loop of `GraspIkRrt::plan`, GraspIkRrt.cpp 218-236, with
`doPlanningCycle`, 124-181: a new goal is looked for if the dice say so or the goal tree is empty;
otherwise both trees are extended as by `BiRrt` (always the start tree first). -/
def ikCycle (it : IkItem Q) (p : IkPlanner Q) : Cyc × IkPlanner Q :=
  if it.sample || (p.base.sys.tree 1).nrOfNodes = 0 then
    let r := searchGoal env valid it p
    if r.1 = .undef then (.leave .undef, r.2)
    else if r.1 = .throws then (.leave .throws, r.2)
    else if it.timeout then (.leave (.ret false), r.2)
    else if it.stop then (.leave (.ret false), r.2)
    else (.go, r.2)
  else
    let r := biCycle env .connect .connect it.toItem false p.base
    (r.1, { p with base := r.2 })

/-- The planning loop, GraspIkRrt.cpp 218-238; the second component says whether the loop was left by
the `return` of the timeout. -/
def ikLoop (item : Nat → IkItem Q) : Nat → Nat → IkPlanner Q → Res × Bool × IkPlanner Q
  | n, cyc, p =>
    match ikCycle env valid (item cyc) p with
    | (.leave r, p) => (r, (item cyc).timeout, p)
    | (.go, p) =>
      match n with
      | 0 => (.ret false, false, p)
      | n + 1 => ikLoop item n (cyc + 1) p

/-- `GraspIkRrt::plan`, GraspIkRrt.cpp 184-288. The robot's update flag is switched off; it is restored
before the solution is built, but not if the timeout is exceeded or an exception leaves the function. -/
def ikPlan (sched : IkSched Q) (p : IkPlanner Q) : Res × IkPlanner Q :=
  if !(p.base.startValid && p.base.goalValid) then (.ret false, p)
  else
    let vis := p.vis
    match ikLoop env valid sched.item (sched.maxCycles - 1) 0
        { p with base := { p.base with solution := none }, vis := false } with
    | (.ret b, timeout, p) =>
      if timeout then (.ret false, p)
      else
        let p := if vis then { p with vis := vis } else p
        if b then
          match biCreateSolution p.base with
          | (.ret _, q) => (.ret true, { p with base := q })
          | (r, q) => (r, { p with base := q })
        else (.ret false, p)
    | (r, _, p) => (r, p)

/-- `GraspIkRrt::reset`, GraspIkRrt.cpp 297-304, for a set of `n` grasps. -/
def ikReset (n : Nat) (p : IkPlanner Q) : IkPlanner Q :=
  { p with base := { reset p.base with goalValid := true }, working := cloneSet n, sols := 0, mapped := [] }

/-- Calls on a `GraspIkRrt`. -/
inductive IkOp (Q : Type) where
  | setStart (c : Q)
  | setGoal (c : Q)
  | plan (sched : IkSched Q)
  | getSolution
  | reset

/-- A call of a user; `none` if it does not end normally or with an exception. `setGoal` always throws,
GraspIkRrt.cpp 291-295. -/
def ikStep (n : Nat) (p : IkPlanner Q) : IkOp Q → Option (IkPlanner Q)
  | .setStart c => some { p with base := (setStart env p.base c).2 }
  | .setGoal _ => some p
  | .plan sched =>
    match ikPlan env valid sched p with
    | (.undef, _) => none
    | (.diverges, _) => none
    | (_, p) => some p
  | .getSolution =>
    match biGetSolution p.base with
    | (.undef, _) => none
    | (.diverges, _) => none
    | (_, q) => some { p with base := q }
  | .reset => some (ikReset n p)

/-- A history of calls. -/
def ikRun (n : Nat) : IkPlanner Q → List (IkOp Q) → Option (IkPlanner Q)
  | p, [] => some p
  | p, op :: ops =>
    match ikStep env valid n p op with
    | none => none
    | some p => ikRun n p ops

end

end Simox.Rrt
