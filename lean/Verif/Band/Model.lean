import Mathlib.Analysis.Normed.Module.Basic

/-!
# Model of the elastic band path processor

`MotionPlanning/PostProcessing/ElasticBandProcessor.cpp`.

* Configurations are vectors of a real normed space; numbers are real.
* What the robot and the collision checker contribute is a `Sense`: at a configuration, the distance of
  the node to the obstacles, and the image, under the pseudo-inverse Jacobian, of the unit vector that
  points away from the nearest obstacle. Both are arbitrary functions.
* `weights` is an arbitrary function on vectors (component-wise product in the code; the identity unless
  `setWeights` was called).
* `calcDist2` of the C-space is an arbitrary function.
* Reading a path outside its range throws (`path.at`, VirtualRobot/Trajectory.cpp 351-354); this is `none`.
* Console output and the workspace forces reported by `getForces` are not modelled.
-/

namespace Simox.Band

variable {E : Type*} [NormedAddCommGroup E] [NormedSpace ℝ E]

/-- What is measured at a configuration, ElasticBandProcessor.cpp 85, 108-109, 120-121. -/
structure Sense (E : Type*) where
  dist : E → ℝ
  away : E → E

/-- `if (fc.norm() > maxForce) { fc.normalize(); fc *= maxForce; }`, ElasticBandProcessor.cpp 128-132 and
159-164. -/
noncomputable def clamp (m : ℝ) (f : E) : E := if m < ‖f‖ then m • (‖f‖⁻¹ • f) else f

/-- `getObstacleForce` and `getCSpaceForce`, ElasticBandProcessor.cpp 71-135, with the constants of the
constructor, 36-41. `none` = the node is in collision. -/
noncomputable def obstacleForce (S : Sense E) (a : E) : Option E :=
  if 300 < S.dist a then some (clamp 50 ((10000 : ℝ) • (0 : E)))
  else if S.dist a = 0 then none
  else some (clamp 50 ((10000 : ℝ) • ((1 / S.dist a) • S.away a)))

/-- `getNeighborCForce`, ElasticBandProcessor.cpp 151-167, with the constants of the constructor, 35-37. -/
noncomputable def neighborForce (before act next : E) : E :=
  clamp 20 ((0.5 : ℝ) • ((0.5 : ℝ) • ((before - act) + (next - act))))

/-- The body of the loop in `elasticBandLoop`, ElasticBandProcessor.cpp 177-216. -/
noncomputable def movePoint (S : Sense E) (w : E → E) (before act next : E) : E :=
  match obstacleForce S act with
  | none => act
  | some f => act + w (f + neighborForce before act next)

/-- The loop of `elasticBandLoop` from a point on whose predecessor is `before`: all but the last point
are moved, one after the other; the forces on a point see the new position of its predecessor. -/
noncomputable def moveFrom (S : Sense E) (w : E → E) : E → List E → List E
  | before, act :: next :: rest =>
    movePoint S w before act next :: moveFrom S w (movePoint S w before act next) (next :: rest)
  | _, l => l

/-- `elasticBandLoop`, ElasticBandProcessor.cpp 169-218. On an empty path `getNrOfPoints() - 1` wraps
around and a point that does not exist is asked for. -/
noncomputable def elasticBandLoop (S : Sense E) (w : E → E) : List E → Option (List E)
  | [] => none
  | p :: rest => some (p :: moveFrom S w p rest)

/-- The loop of `checkRemoveNodes` from a point on whose predecessor is `before`: a point that is followed
by at least two others is erased if it is close to its neighbours; the loop then goes on with the point
after the next one. (The three assignments after the erasure are self-assignments.) -/
noncomputable def removeFrom (d2 : E → E → ℝ) (ssd : ℝ) : E → List E → List E
  | before, act :: next :: after :: rest =>
    if d2 before act + d2 act next < ssd then next :: removeFrom d2 ssd next (after :: rest)
    else act :: removeFrom d2 ssd act (next :: after :: rest)
  | _, l => l

/-- `checkRemoveNodes`, ElasticBandProcessor.cpp 221-244. With fewer than two points
`getNrOfPoints() - 2` wraps around and a point that does not exist is asked for. -/
noncomputable def checkRemoveNodes (d2 : E → E → ℝ) (sampling : ℝ) : List E → Option (List E)
  | [] => none
  | [_] => none
  | p :: rest => some (p :: removeFrom d2 (2 * sampling * sampling) p rest)

/-- One round of `optimize`, ElasticBandProcessor.cpp 309-326 (`checkNewNodes` does nothing, 246-250). -/
noncomputable def round (S : Sense E) (w : E → E) (d2 : E → E → ℝ) (sampling : ℝ) (l : List E) :
    Option (List E) :=
  match elasticBandLoop S w l with
  | none => none
  | some l => checkRemoveNodes d2 sampling l

/-- `optimize`, ElasticBandProcessor.cpp 303-332. -/
noncomputable def optimize (S : Sense E) (w : E → E) (d2 : E → E → ℝ) (sampling : ℝ) :
    Nat → List E → Option (List E)
  | 0, l => some l
  | k + 1, l =>
    match round S w d2 sampling l with
    | none => none
    | some l => optimize S w d2 sampling k l

end Simox.Band
