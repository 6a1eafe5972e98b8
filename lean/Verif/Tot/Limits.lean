import Verif.Tot.Model
import Mathlib.Analysis.SpecialFunctions.Pow.Real

/-!
# Limits of the speed along a path

Models lines 370-439 of `VirtualRobot/TimeOptimalTrajectory/TimeOptimalTrajectory.cpp`, for the tangent `t` and the
curvature `k` of the path at the given position. Limits are not negative; `none` is the number infinity.
-/

namespace Simox.Tot

variable {n : ℕ}

/-- `numeric_limits<double>::max()`. -/
noncomputable def dblMax : ℝ := 2 ^ 1024 - 2 ^ 971

/-- TimeOptimalTrajectory.cpp 375-380: the candidates for the minimum. -/
noncomputable def accCandidates (amax : Fin n → ℝ) (t k : Cfg n) (v factor : ℝ) : List ℝ :=
  (List.finRange n).filterMap fun i => if t i ≠ 0 then some (amax i / |t i| - factor * k i * v * v / t i) else none

/-- TimeOptimalTrajectory.cpp 370-382 `getMinMaxPathAcceleration(pathPos, pathVel, max)`. -/
noncomputable def minMaxPathAcceleration (amax : Fin n → ℝ) (t k : Cfg n) (v : ℝ) (max : Bool) : ℝ :=
  let factor : ℝ := if max then 1 else -1
  factor * (accCandidates amax t k v factor).foldl min dblMax

/-- TimeOptimalTrajectory.cpp 392-408: the candidates for the minimum. -/
noncomputable def velCandidates (amax : Fin n → ℝ) (t k : Cfg n) : List ℝ :=
  (List.finRange n).flatMap fun i =>
    if t i ≠ 0 then
      (List.finRange n).filterMap fun j =>
        if i < j ∧ t j ≠ 0 ∧ k i / t i - k j / t j ≠ 0 then
          some (√((amax i / |t i| + amax j / |t j|) / |k i / t i - k j / t j|))
        else none
    else if k i ≠ 0 then [√(amax i / |k i|)]
    else []

/-- TimeOptimalTrajectory.cpp 388-410 `getAccelerationMaxPathVelocity(pathPos)`. -/
noncomputable def accelerationMaxPathVelocity (amax : Fin n → ℝ) (t k : Cfg n) : Option ℝ :=
  match velCandidates amax t k with
  | [] => none
  | c :: cs => some (cs.foldl min c)

/-- TimeOptimalTrajectory.cpp 413-420 `getVelocityMaxPathVelocity(pathPos)`; a quotient by zero is infinity or NaN and does
not change the minimum. -/
noncomputable def velocityMaxPathVelocity (vmax : Fin n → ℝ) (t : Cfg n) : ℝ :=
  ((List.finRange n).filterMap fun i => if t i ≠ 0 then some (vmax i / |t i|) else none).foldl min dblMax

open Classical in
/-- TimeOptimalTrajectory.cpp 428-437: the loop for the constraint that decides; the state is `maxPathVelocity` and
`activeConstraint` (`none`: not initialised). -/
noncomputable def activeConstraint (vmax : Fin n → ℝ) (t : Cfg n) : ℝ × Option (Fin n) :=
  (List.finRange n).foldl (fun s i => if t i ≠ 0 ∧ vmax i / |t i| < s.1 then (vmax i / |t i|, some i) else s) (dblMax, none)

/-- TimeOptimalTrajectory.cpp 426-439 `getVelocityMaxPathVelocityDeriv(pathPos)`; `none`: undefined behaviour. -/
noncomputable def velocityMaxPathVelocityDeriv (vmax : Fin n → ℝ) (t k : Cfg n) : Option ℝ :=
  (activeConstraint vmax t).2.map fun i => -(vmax i * k i) / (t i * |t i|)

end Simox.Tot
