import Verif.Jac.Model
import Verif.Inv.Model
import Mathlib.Analysis.Real.Sqrt
import Mathlib.Analysis.SpecialFunctions.Trigonometric.Inverse

/-!
# Differential inverse kinematics: errors, tolerances and the step loop

Models `VirtualRobot/IK/DifferentialIK.cpp` (`setGoal`, `updateDelta`, `updateError`, `computeStep`,
`getErrorPosition`, `getErrorRotation`, `getMeanErrorPosition`, `checkTolerances`, `computeSteps`,
`solveIK`) on top of the kinematic trees of `Verif.Kin.Model`, the Jacobians of `Verif.Jac.Model` and the
inverses of `Verif.Inv.Model`.

Simplifications: reals instead of floats, so that a step with a NaN or infinite entry is a separate
outcome (`Step.invalid`); `FLT_MAX`, the initial `lastDist`, is `none`. Assertions and log output are left
out.
-/

namespace Simox.Ik

open Matrix Kin Jac Simox.Inv

/-- Eigen `AngleAxis(R)` for a rotation matrix: axis and angle of the rotation, the angle between 0 and pi.
Like the singular value decompositions of `Verif.Inv.Model` this is a parameter of the model; that such a
function exists is proved in `Verif.Ik.Angle`. -/
structure AngleAxes where
  axis : SO3 → V3
  angle : SO3 → ℝ
  unit : ∀ R, axis R 0 * axis R 0 + axis R 1 * axis R 1 + axis R 2 * axis R 2 = 1
  nonneg : ∀ R, 0 ≤ angle R
  le_pi : ∀ R, angle R ≤ Real.pi
  eq : ∀ R : SO3, axisAngle (axis R) (angle R) = R.1

/-- What `setGoal` stores for a tcp (DifferentialIK.h 294-307: `tcp_set`, `targets`, `modes`,
`tolerancePosition`, `toleranceRotation`): the object, how it hangs on the robot, target, selection and
tolerances. -/
structure Goal where
  obj : Nat
  link : Tcp
  target : Pose3
  mode : Nat
  tolPos : ℝ
  tolRot : ℝ

/-- DifferentialIK.cpp 48-64 `setGoal`: a new tcp is appended to `tcp_set`, for a known one the entries of
the maps are replaced. The list holds `tcp_set` in order, with the entries of the maps. -/
def setGoal (gs : List Goal) (g : Goal) : List Goal :=
  if gs.any (fun h => h.obj == g.obj) then gs.map (fun h => if h.obj = g.obj then g else h)
  else gs ++ [g]

/-- DifferentialIK.cpp 768-800 `getErrorPosition(tcp)` for a tcp of `tcp_set`. -/
noncomputable def getErrorPosition (s : St Pose3) (g : Goal) : ℝ :=
  if g.mode = flagOrientation then 0
  else
    let position := g.target.pos - (s.pose g.obj).pos
    let result : ℝ := 0
    let result := if has g.mode flagX then result + position 0 * position 0 else result
    let result := if has g.mode flagY then result + position 1 * position 1 else result
    let result := if has g.mode flagZ then result + position 2 * position 2 else result
    Real.sqrt result

/-- DifferentialIK.cpp 801-816 `getErrorRotation(tcp)` for a tcp of `tcp_set`. -/
noncomputable def getErrorRotation (aa : AngleAxes) (s : St Pose3) (g : Goal) : ℝ :=
  if !has g.mode flagOrientation then 0
  else aa.angle (g.target * (s.pose g.obj)⁻¹).rot

/-- DifferentialIK.cpp 818-834 `getMeanErrorPosition`. -/
noncomputable def getMeanErrorPosition (s : St Pose3) (goals : List Goal) : ℝ :=
  if goals.length = 0 then 0
  else goals.foldl (fun res g => res + getErrorPosition s g) 0 / goals.length

open Classical in
/-- DifferentialIK.cpp 836-860 `checkTolerances`. -/
noncomputable def checkTolerances (aa : AngleAxes) (s : St Pose3) (goals : List Goal) : Bool :=
  goals.foldl (fun result g =>
    if getErrorPosition s g > g.tolPos ∨ getErrorRotation aa s g > g.tolRot then false else result) true

/-! ## One step -/

/-- DifferentialIK.cpp 699-738 `updateDelta`: the position part (not selected components are zero) and the
rotation part. -/
noncomputable def updateDelta (aa : AngleAxes) (current goal : Pose3) (mode : Nat) : V3 × V3 :=
  let position := goal.pos - current.pos
  (![if has mode flagX then position 0 else 0, if has mode flagY then position 1 else 0,
      if has mode flagZ then position 2 else 0],
    if has mode flagOrientation then
      aa.angle (goal * current⁻¹).rot • aa.axis (goal * current⁻¹).rot
    else 0)

/-- Eigen `norm` of a vector of three components. -/
noncomputable def norm3 (v : V3) : ℝ := Real.sqrt (v 0 * v 0 + v 1 * v 1 + v 2 * v 2)

open Classical in
/-- DifferentialIK.cpp 191-206: the position part of the delta, scaled by the step size and shortened to
`positionMaxStep` if that is positive. -/
noncomputable def positionStep (positionMaxStep stepSize : ℝ) (delta : V3) : V3 :=
  let p := stepSize • delta
  if positionMaxStep > 0 then
    if norm3 p > positionMaxStep then (positionMaxStep / norm3 p) • p else p
  else p

/-- DifferentialIK.cpp 168-235 `updateError`: the entries of all tcps, one below the other. -/
noncomputable def updateError (aa : AngleAxes) (positionMaxStep : ℝ) (s : St Pose3) (goals : List Goal)
    (stepSize : ℝ) : List ℝ :=
  goals.flatMap fun g =>
    let delta := updateDelta aa (s.pose g.obj) g.target g.mode
    let p := positionStep positionMaxStep stepSize delta.1
    let o := stepSize • delta.2
    (if has g.mode flagX then [p 0] else []) ++
    (if has g.mode flagY then [p 1] else []) ++
    (if has g.mode flagZ then [p 2] else []) ++
    (if has g.mode flagOrientation then [o 0, o 1, o 2] else [])

/-- What `computeStep` gives the loop: a change of the joint values, a vector with an entry that is not a
finite number, or an exception (from the pseudo inverse). -/
inductive Step where
  | move (d : List ℝ)
  | invalid
  | throw

/-- The members of `DifferentialIK` a step depends on (DifferentialIK.h 291-330): coordinate system,
`convertMMtoM`, `positionMaxStep` and the inversion method of `JacobiProvider`. -/
structure Config (n : Nat) where
  frame : Option Pose3
  mm : Bool
  positionMaxStep : ℝ
  prov : Provider n

/-- `currentJacobian`, DifferentialIK.cpp 745: the rows of the Jacobian of all tcps. -/
noncomputable def stepRows (r : JRobot) (ns : NodeSet) (c : Config ns.nodes.length) (goals : List Goal)
    (s : St Pose3) : List (Fin ns.nodes.length → ℝ) :=
  (fullJacobian r s ns.nodes c.frame c.mm (goals.map fun g => (g.link, g.mode))).map
    (fun row => (fun i : Fin ns.nodes.length => row.getD i 0))

/-- DifferentialIK.cpp 740-766 `computeStep`: `J^+ * error`. -/
noncomputable def computeStep (aa : AngleAxes) (svds : Svds) (r : JRobot) (ns : NodeSet)
    (c : Config ns.nodes.length) (goals : List Goal) (stepSize : ℝ) (s : St Pose3) : Step :=
  let err := updateError aa c.positionMaxStep s goals stepSize
  let rows := stepRows r ns c goals s
  match inverse svds c.prov false (mat rows) 0 none with
  | some X => .move (List.ofFn (X *ᵥ fun i : Fin rows.length => err.getD i 0))
  | none => .throw

/-! ## The loop -/

/-- How `computeSteps` ends: with its result and the state of the robot, with an exception, or in an
endless recursion of joint value propagation (see `Kin.updatePose`). -/
inductive Out where
  | done (b : Bool) (s : St Pose3)
  | throw (s : St Pose3)
  | diverge

/-- `robot->setJointValues(rns, jv); return false;` DifferentialIK.cpp 921-922, 935-936, 947-948. -/
noncomputable def undo (r : Robot Pose3) (fuel : Nat) (ns : NodeSet) (best : List ℝ) (s : St Pose3) : Out :=
  match ns.setJointValues r fuel best s with
  | .ok s' => .done false s'
  | .throw => .throw s
  | .diverge => .diverge

/-- `dTheta.norm()`, DifferentialIK.cpp 912-914. -/
noncomputable def stepNorm (d : List ℝ) : ℝ := Real.sqrt ((d.map fun x => x * x).sum)

open Classical in
/-- The loop of `computeSteps`, DifferentialIK.cpp 881-941. `k` is the number of steps left, `best` is
`jvBest`, `last` is `lastDist`, `step` is `computeStep`, `chk` is `checkImprovement`. -/
noncomputable def stepLoop (r : Robot Pose3) (fuel : Nat) (ns : NodeSet) (aa : AngleAxes)
    (goals : List Goal) (step : St Pose3 → Step) (minChange : ℝ) (chk : Bool) :
    Nat → List ℝ → Option ℝ → St Pose3 → Out
  | 0, best, _, s => undo r fuel ns best s
  | k + 1, best, last, s =>
    match step s with
    | .throw => .throw s
    | .invalid => .done false s
    | .move d =>
      let jv := List.zipWith (fun n x => s.value n + x) ns.nodes d
      match ns.setJointValues r fuel jv s with
      | .throw => .throw s
      | .diverge => .diverge
      | .ok s1 =>
        if checkTolerances aa s1 goals then .done true s1
        else if stepNorm d < minChange then undo r fuel ns best s1
        else
          let posDist := getMeanErrorPosition s1 goals
          if chk ∧ ∃ l, last = some l ∧ posDist > l then undo r fuel ns best s1
          else stepLoop r fuel ns aa goals step minChange chk k jv (some posDist) s1

/-- DifferentialIK.cpp 867-949 `computeSteps` and 951-954 `solveIK`. -/
noncomputable def computeSteps (r : Robot Pose3) (fuel : Nat) (ns : NodeSet) (aa : AngleAxes)
    (goals : List Goal) (step : St Pose3 → Step) (minChange : ℝ) (chk : Bool) (maxNStep : Int)
    (s : St Pose3) : Out :=
  stepLoop r fuel ns aa goals step minChange chk maxNStep.toNat (ns.nodes.map s.value) none s

end Simox.Ik
