import Verif.Ik.Model

/-!
# The generic inverse kinematics solver and grasp selection

Models `VirtualRobot/IK/GenericIKSolver.cpp` and `VirtualRobot/IK/AdvancedIKSolver.cpp` on top of
`Verif.Ik.Model`. Random numbers are parameters: `rnd call i` are the values `RandomFloat()` returns in the
`i`-th round of the `call`-th call of `solve`, `pick` what `rand()` returns. The collision query of the
`CDManager` is a predicate on states. The visualization flag is left out.
-/

namespace Simox.Ik

open Matrix Kin Jac

/-- The members of the solver (AdvancedIKSolver.h 190-206, GenericIKSolver.h 110-122): tcp, tolerances,
`jacobianMaxLoops`, translational joint with its initial value, and the collision query if there is a
`cdm`. `goals` are the goals of the `DifferentialIK` object, to which `getDifferentialIK()` gives access;
`step` is its `computeStep(jacobianStepSize)`. -/
structure Solver where
  tcp : Nat
  link : Tcp
  maxErrorPositionMM : ℝ
  maxErrorOrientationRad : ℝ
  jacobianMaxLoops : Int
  translational : Option (Nat × ℝ)
  inCollision : Option (St Pose3 → Bool)
  goals : List Goal
  step : List Goal → St Pose3 → Step

section
variable (r : Robot Pose3) (fuel : Nat) (ns : NodeSet) (aa : AngleAxes) (so : Solver)

/-- GenericIKSolver.cpp 87-106 `setJointsRandom`, with the random numbers `rs`. -/
noncomputable def setJointsRandom (rs : List ℝ) (s : St Pose3) : Res (St Pose3) :=
  let jv := List.zipWith (fun n x => (r.lim n).lo + ((r.lim n).hi - (r.lim n).lo) * x) ns.nodes rs
  match ns.setJointValues r fuel jv s with
  | .ok s1 =>
    match so.translational with
    | some (n, q) =>
      match setJointValue r fuel n q s1 with
      | some s2 => .ok s2
      | none => .diverge
    | none => .ok s1
  | .throw => .throw
  | .diverge => .diverge

/-- GenericIKSolver.cpp 118-137 `trySolve`; 34: improvements are checked. -/
noncomputable def trySolve (goals : List Goal) (s : St Pose3) : Out :=
  match computeSteps r fuel ns aa goals (so.step goals) 0 true so.jacobianMaxLoops s with
  | .done true s' =>
    match so.inCollision with
    | some c => if !c s' then .done true s' else .done false s'
    | none => .done true s'
  | o => o

/-- RobotNodeSet.cpp 360-368 `getJointValues(config)`: the entries of the set's nodes are overwritten. -/
noncomputable def readConfig (c : Cfg) (s : St Pose3) : Cfg :=
  ns.nodes.foldl (fun c n => (c.setConfig r true n (s.value n)).1) c

open Classical in
/-- The loop over random starts, GenericIKSolver.cpp 54-70, and 72-74. `k` rounds are left, `i` is the
index of the next one. -/
noncomputable def retry (goals : List Goal) (rnd : Nat → List ℝ) :
    Nat → Nat → Cfg → ℝ → St Pose3 → Out
  | 0, _, best, _, s =>
    match ns.setConfig r fuel best s with
    | some s' => .done false s'
    | none => .diverge
  | k + 1, i, best, bestError, s =>
    match setJointsRandom r fuel ns so (rnd i) s with
    | .throw => .throw s
    | .diverge => .diverge
    | .ok s1 =>
      match trySolve r fuel ns aa so goals s1 with
      | .done false s2 =>
        let currentError := getMeanErrorPosition s2 goals
        if currentError < bestError then
          retry goals rnd k (i + 1) (readConfig r ns best s2) currentError s2
        else retry goals rnd k (i + 1) best bestError s2
      | o => o

/-- GenericIKSolver.cpp 31-75 `solve(globalPose, selection, maxLoops)`, also 152-156 `_sampleSolution`.
`reachable` is the answer of `checkReachable`, AdvancedIKSolver.cpp 252-260. -/
noncomputable def genericSolve (reachable : Bool) (rnd : Nat → List ℝ) (target : Pose3) (selection : Nat)
    (maxLoops : Int) (s : St Pose3) : Out :=
  let goals := setGoal so.goals
    ⟨so.tcp, so.link, target, selection, so.maxErrorPositionMM, so.maxErrorOrientationRad⟩
  let best := readConfig r ns [] s
  let bestError := getMeanErrorPosition s goals
  if !reachable then .done false s
  else
    match trySolve r fuel ns aa so goals s with
    | .done false s1 =>
      retry r fuel ns aa so goals rnd (maxLoops - 1).toNat 1 (readConfig r ns best s1) bestError s1
    | o => o

/-- `robot->setJointValues(rns, v)` after a failed attempt. -/
noncomputable def restore (v : List ℝ) (s : St Pose3) : Res (St Pose3) := ns.setJointValues r fuel v s

/-- AdvancedIKSolver.cpp 74-88 `solveNoRNSUpdate`: the joint values found, empty if there are none; the
joints are set back in both cases. -/
noncomputable def solveNoRNSUpdate (reachable : Bool) (rnd : Nat → List ℝ) (target : Pose3)
    (selection : Nat) (maxLoops : Int) (s : St Pose3) : Option (List ℝ × St Pose3) :=
  match genericSolve r fuel ns aa so reachable rnd target selection maxLoops s with
  | .done b s1 =>
    match restore r fuel ns (ns.nodes.map s.value) s1 with
    | .ok s2 => some (if b then ns.nodes.map s1.value else [], s2)
    | _ => none
  | _ => none

/-- AdvancedIKSolver.cpp 161-184 `solve(object, grasp, selection, maxLoops)`; `target` is the pose of the
tcp for the grasp. -/
noncomputable def solveGrasp (reachable : Bool) (rnd : Nat → List ℝ) (target : Pose3) (selection : Nat)
    (maxLoops : Int) (s : St Pose3) : Out :=
  match genericSolve r fuel ns aa so reachable rnd target selection maxLoops s with
  | .done true s1 => .done true (applyJointValues r s1)
  | .done false s1 =>
    match restore r fuel ns (ns.nodes.map s.value) s1 with
    | .ok s2 => .done false s2
    | .throw => .throw s1
    | .diverge => .diverge
  | o => o

/-- Result of a search for a grasp: the grasp (if any), the grasps left in the set and the state. -/
structure Found where
  grasp : Option Nat
  left : List Nat
  state : St Pose3

/-- AdvancedIKSolver.cpp 187-225 `sampleSolution(object, graspSet, selection, removeGraspFromSet,
maxLoops)`: `gs` are the grasps of the set, `pose` the poses of the tcp for the grasps, `reach` the answers
of the reachability test, `p` the value of `rand()`. GraspSet.cpp 190-202 `removeGrasp` erases the first
entry of the grasp. `none`: an exception or an endless recursion. -/
noncomputable def sampleSolution (reach : Pose3 → Bool) (rnd : Nat → List ℝ) (p : Nat)
    (pose : Nat → Pose3) (selection : Nat) (remove : Bool) (maxLoops : Int) (gs : List Nat)
    (s : St Pose3) : Option Found :=
  match gs[p % gs.length]? with
  | none => some ⟨none, gs, s⟩
  | some g =>
    match genericSolve r fuel ns aa so (reach (pose g)) rnd (pose g) selection maxLoops s with
    | .done true s1 => some ⟨some g, gs, s1⟩
    | .done false s1 =>
      match restore r fuel ns (ns.nodes.map s.value) s1 with
      | .ok s2 => some ⟨none, if remove then gs.erase g else gs, s2⟩
      | _ => none
    | _ => none

/-- The loop `while (gs->getSize() > 0)`, AdvancedIKSolver.cpp 141-151; `calls` counts the rounds. The
recursion is over a bound `k` for the rounds: `none` if it is reached. -/
noncomputable def graspLoop (reach : Pose3 → Bool) (rnd : Nat → Nat → List ℝ) (pick : Nat → Nat)
    (pose : Nat → Pose3) (selection : Nat) (maxLoops : Int) :
    Nat → Nat → List Nat → St Pose3 → Option Found
  | 0, _, _, _ => none
  | k + 1, calls, gs, s =>
    if gs.length > 0 then
      match sampleSolution r fuel ns aa so reach (rnd calls) (pick calls) pose selection true maxLoops gs s with
      | none => none
      | some f =>
        match f.grasp with
        | some g => some ⟨some g, f.left, applyJointValues r f.state⟩
        | none => graspLoop reach rnd pick pose selection maxLoops k (calls + 1) f.left f.state
    else some ⟨none, gs, s⟩

/-- AdvancedIKSolver.cpp 100-159 `solve(object, selection, maxLoops)`, from 133: `gs` are the grasps of the
clone of the object's grasp set for the end effector with the solver's tcp. -/
noncomputable def solveObject (reach : Pose3 → Bool) (rnd : Nat → Nat → List ℝ) (pick : Nat → Nat)
    (pose : Nat → Pose3) (selection : Nat) (maxLoops : Int) (gs : List Nat) (s : St Pose3) : Option Found :=
  if gs.length = 0 then some ⟨none, gs, s⟩
  else graspLoop r fuel ns aa so reach rnd pick pose selection maxLoops (gs.length + 1) 0 gs s

end

end Simox.Ik
