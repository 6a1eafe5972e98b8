import Verif.Tot.Limits

/-!
# Reading a time optimal trajectory

Models lines 80-92 and 445-495 of `VirtualRobot/TimeOptimalTrajectory/TimeOptimalTrajectory.cpp`: the timing at the end of the
constructor and the queries with their cache. Numbers are real numbers.
-/

namespace Simox.Tot

variable {n : ℕ}

/-- TimeOptimalTrajectory.h 76-85 `TimeOptimalTrajectoryStep`. -/
structure Step where
  pathPos : ℝ
  pathVel : ℝ
  time : ℝ

/-- TimeOptimalTrajectory.cpp 86-90: the loop of the timing; `previous` has its time already. -/
noncomputable def timingLoop (previous : Step) : List (ℝ × ℝ) → List Step
  | [] => []
  | it :: rest =>
      let s : Step := ⟨it.1, it.2, previous.time + (it.1 - previous.pathPos) / ((it.2 + previous.pathVel) / 2)⟩
      s :: timingLoop s rest

/-- TimeOptimalTrajectory.cpp 80-92: the timing of the steps, given as pairs of position and speed. -/
noncomputable def timing : List (ℝ × ℝ) → List Step
  | [] => []
  | first :: rest =>
      let s : Step := ⟨first.1, first.2, 0⟩
      s :: timingLoop s rest

/-- TimeOptimalTrajectory.h 112-113: `cachedTime` and `cachedTrajectorySegment` (`none`: not initialised). -/
structure Cache where
  cachedTime : ℝ
  segment : Option ℕ

/-- TimeOptimalTrajectory.cpp 62: the cache after the constructor. -/
noncomputable def Cache.fresh : Cache := ⟨dblMax, none⟩

open Classical in
/-- TimeOptimalTrajectory.cpp 459-461: the loop of `getTrajectorySegment`; the list is what the iterator with the number `i`
still has before it. `none`: the end is dereferenced. -/
noncomputable def advance (time : ℝ) : List Step → ℕ → Option ℕ
  | [], _ => none
  | s :: rest, i => if s.time ≤ time then advance time rest (i + 1) else some i

/-- TimeOptimalTrajectory.cpp 445-447 `getDuration()`; `none`: undefined behaviour, there are no steps. -/
noncomputable def getDuration (steps : List Step) : Option ℝ := steps.getLast?.map Step.time

open Classical in
/-- TimeOptimalTrajectory.cpp 449-465 `getTrajectorySegment(time)`: the new cache and the number of the step. -/
noncomputable def getTrajectorySegment (steps : List Step) (c : Cache) (time : ℝ) : Option (Cache × ℕ) :=
  match steps.getLast? with
  | none => none
  | some last =>
      if last.time ≤ time then some (c, steps.length - 1)
      else
        match if time < c.cachedTime then some 0 else c.segment with
        | none => none
        | some i => (advance time (steps.drop i) i).map fun j => (⟨time, some j⟩, j)

/-- TimeOptimalTrajectory.cpp 472-476, 486-491: `pathPos` and `pathVel` of the queries. -/
noncomputable def interpolate (previous it : Step) (time : ℝ) : ℝ × ℝ :=
  let timeStep := it.time - previous.time
  let acceleration := 2 * (it.pathPos - previous.pathPos - timeStep * previous.pathVel) / (timeStep * timeStep)
  let timeStep := time - previous.time
  let pathPos := previous.pathPos + timeStep * previous.pathVel + 0.5 * timeStep * timeStep * acceleration
  let pathVel := previous.pathVel + timeStep * acceleration
  (pathPos, pathVel)

/-- The step before the one found, and the one found; `none`: undefined behaviour (`previous--` at the first step). -/
def around (steps : List Step) : ℕ → Option (Step × Step)
  | 0 => none
  | j + 1 =>
      match steps[j]?, steps[j + 1]? with
      | some previous, some it => some (previous, it)
      | _, _ => none

/-- TimeOptimalTrajectory.cpp 467-479 `getPosition(time)`: the new cache and the result. -/
noncomputable def getPosition (p : Path n) (steps : List Step) (c : Cache) (time : ℝ) : Option (Cache × Cfg n) :=
  match getTrajectorySegment steps c time with
  | none => none
  | some (c', j) =>
      match around steps j with
      | none => none
      | some (previous, it) => (p.getConfig (interpolate previous it time).1).map fun q => (c', q)

/-- TimeOptimalTrajectory.cpp 481-494 `getVelocity(time)`: the new cache and the result. -/
noncomputable def getVelocity (p : Path n) (steps : List Step) (c : Cache) (time : ℝ) : Option (Cache × Cfg n) :=
  match getTrajectorySegment steps c time with
  | none => none
  | some (c', j) =>
      match around steps j with
      | none => none
      | some (previous, it) =>
          (p.getTangent (interpolate previous it time).1).map fun q => (c', (interpolate previous it time).2 • q)

/-- The caches that are there after any number of queries at any times. -/
inductive Reached (steps : List Step) : Cache → Prop
  | fresh : Reached steps Cache.fresh
  | query {c c' : Cache} {t : ℝ} {j : ℕ} : Reached steps c → t < dblMax → getTrajectorySegment steps c t = some (c', j) → Reached steps c'

end Simox.Tot
