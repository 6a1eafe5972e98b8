import Mathlib.Analysis.Real.Sqrt
import Mathlib.Algebra.BigOperators.Fin

/-!
# Gaze inverse kinematics

Models `GazeIK::solve`, `trySolve`, `applyJLA`, `setJointsRandom`, `checkTolerances` of
`VirtualRobot/IK/GazeIK.cpp`. The kinematics and the step of the hierarchical solver are arbitrary functions of the
joint values. Numbers are real; a step that makes a joint value nan or inf is `none`. No joint is limitless, and all
enforce their limits. Outputs of text are left out.
-/

namespace Simox.Gaz

open Classical

/-- The joint values of the node set. -/
abbrev Config (n : Nat) := Fin n → ℝ

/-- The solver with its robot and goal, GazeIK.h and GazeIK.cpp 18-53. -/
structure Gaze (n : Nat) where
  /-- `getJointLimitLo`. -/
  lo : Config n
  /-- `getJointLimitHi`. -/
  hi : Config n
  /-- `isRotationalJoint`. -/
  rotational : Fin n → Bool
  /-- `virtualTranslationJoint`. -/
  virt : Fin n
  /-- `(goal - virtualTranslationJoint->getParent()->getGlobalPose().block(0, 3, 3, 1)).norm()`. -/
  guess : Config n → ℝ
  /-- `getCurrentError`, 238-247. -/
  error : Config n → ℝ
  /-- `computeStep`, 87-118; nothing: a new joint value is nan or inf. -/
  step : Config n → Option (Config n)
  maxPosError : ℝ
  maxLoops : Nat
  maxGradientDecentSteps : Nat
  randomTriesToGetBestConfig : Nat

variable {n : Nat}

/-- `FLT_MAX`. -/
def fltMax : ℝ := 340282346638528859811704183484516925440

/-- `setJointValueNoUpdate`, VirtualRobot/Nodes/RobotNode.cpp 195-209. -/
noncomputable def clamp (lo hi q : ℝ) : ℝ :=
  let q := if q < lo then lo else q
  if q > hi then hi else q

/-- `setJointValues`, VirtualRobot/RobotNodeSet.cpp 413-434: the joint values afterwards. -/
noncomputable def Gaze.set (g : Gaze n) (q : Config n) : Config n := fun i => clamp (g.lo i) (g.hi i) (q i)

/-- `norm()`. -/
noncomputable def norm (d : Config n) : ℝ := Real.sqrt (∑ i, d i * d i)

/-- `checkTolerances`, GazeIK.cpp 249-252. -/
def Gaze.checkTolerances (g : Gaze n) (q : Config n) : Prop := g.error q ≤ g.maxPosError

/-- The loop of `applyJLA`, GazeIK.cpp 261-307, with the number of steps left, `jvBest` and the joint values. -/
noncomputable def Gaze.jlaLoop (g : Gaze n) : Nat → Config n → Config n → Config n
  | 0, _, q => q
  | k + 1, best, q =>
    match g.step q with
    | none => g.set best
    | some d =>
      let jv := fun i => q i + d i
      let q' := g.set jv
      if ¬ g.checkTolerances q' then g.set best
      else if norm d < 1 / 1000000 then q'
      else g.jlaLoop k jv q'

/-- `applyJLA`, GazeIK.cpp 254-308. -/
noncomputable def Gaze.applyJLA (g : Gaze n) (steps : Nat) (q : Config n) : Config n := g.jlaLoop steps q q

/-- The loop of `trySolve`, GazeIK.cpp 323-390, with the number of steps left, `jvBest`, `bestDist` and the joint
values. -/
noncomputable def Gaze.tryLoop (g : Gaze n) : Nat → Config n → ℝ → Config n → Bool × Config n
  | 0, best, _, _ => (false, g.set best)
  | k + 1, best, bestDist, q =>
    match g.step q with
    | none => (false, q)
    | some d =>
      let jv := fun i => q i + d i
      let q' := g.set jv
      if g.checkTolerances q' then (true, g.applyJLA 15 q')
      else if norm d < 1 / 100000 then (false, q')
      else if g.error q' < bestDist then g.tryLoop k jv (g.error q') q'
      else g.tryLoop k best bestDist q'

/-- `trySolve`, GazeIK.cpp 310-399. -/
noncomputable def Gaze.trySolve (g : Gaze n) (q : Config n) : Bool × Config n :=
  g.tryLoop g.maxGradientDecentSteps q fltMax q

/-- `setJointsRandom()`, GazeIK.cpp 212-236, with the random numbers. -/
noncomputable def Gaze.setJointsRandom (g : Gaze n) (r : Config n) (q : Config n) : Config n :=
  g.set fun i => if g.rotational i then g.lo i + (g.hi i - g.lo i) * r i else q i

/-- The loop of `setJointsRandom(goal, bestOfTries)`, GazeIK.cpp 196-207, from try `j` on. -/
noncomputable def Gaze.randomLoop (g : Gaze n) (r : Nat → Config n) :
    Nat → Nat → ℝ → Option (Config n) → Config n → Option (Config n)
  | 0, _, _, best, _ => best
  | k + 1, j, bestDist, best, q =>
    let q' := g.setJointsRandom (r j) q
    if g.error q' < bestDist then g.randomLoop r k (j + 1) (g.error q') (some q') q'
    else g.randomLoop r k (j + 1) bestDist best q'

/-- `setJointsRandom(goal, bestOfTries)`, GazeIK.cpp 185-210. Nothing: `setJointValues` throws because there are no
values. -/
noncomputable def Gaze.setBestRandom (g : Gaze n) (r : Nat → Config n) (bestOfTries : Nat) (q : Config n) :
    Option (Config n) :=
  let bestOfTries := if bestOfTries ≤ 0 then 1 else bestOfTries
  (g.randomLoop r bestOfTries 0 fltMax none q).map g.set

/-- The guess for the virtual joint, GazeIK.cpp 131-132 and 156-157. -/
noncomputable def Gaze.setGuess (g : Gaze n) (q : Config n) : Config n :=
  Function.update q g.virt (clamp (g.lo g.virt) (g.hi g.virt) (g.guess q))

/-- The loop of `solve`, GazeIK.cpp 149-176, with the number of iterations left and the number of the iteration.
Nothing: an exception. -/
noncomputable def Gaze.solveLoop (g : Gaze n) (r : Nat → Nat → Config n) :
    Nat → Nat → Config n → ℝ → Config n → Option (Bool × Config n)
  | 0, _, best, _, _ => some (false, g.set best)
  | k + 1, i, best, bestDist, q =>
    match g.setBestRandom (r i) g.randomTriesToGetBestConfig q with
    | none => none
    | some q1 =>
      let s := g.trySolve (g.setGuess q1)
      if s.1 then some s
      else if g.error s.2 < bestDist then g.solveLoop r k (i + 1) s.2 (g.error s.2) s.2
      else g.solveLoop r k (i + 1) best bestDist s.2

/-- `solve`, GazeIK.cpp 120-182, with the random numbers of every try of every loop. -/
noncomputable def Gaze.solve (g : Gaze n) (r : Nat → Nat → Config n) (q : Config n) : Option (Bool × Config n) :=
  let s := g.trySolve (g.setGuess q)
  if s.1 then some s
  else g.solveLoop r (g.maxLoops - 1) 1 s.2 (g.error s.2) s.2

end Simox.Gaz
