import Verif.Tot.Limits

/-!
# Generating a time optimal trajectory

Models lines 55-78, 233-368 of `VirtualRobot/TimeOptimalTrajectory/TimeOptimalTrajectory.cpp`: the integration forward and backward
and the constructor. Loops have fuel: `more` stands for a run that has not ended yet. Numbers are real numbers. What the
path and the limits decide is given from outside, see `Gen`.
-/

namespace Simox.Tot

/-- The result of a run: not yet there, undefined behaviour, or a value. -/
inductive Out (α : Type) where
  | more
  | ub
  | ok (a : α)

/-- What the generation reads. The functions of the position are those of `Limits.lean` at this position
(`minMax` is `getMinMaxPathAcceleration`). The comparisons of slopes are arbitrary predicates here, since the program compares
quotients by speeds that may be zero and derivatives that may be undefined: `follows x` is
`getMinMaxPhaseSlope(x, getVelocityMaxPathVelocity(x), false) <= getVelocityMaxPathVelocityDeriv(x)`, `leavesAcc x v` and `leavesVel x v` are the
conditions of lines 309 and 314. `nextSwitching` is `getNextSwitchingPoint` (118-151), `none` for the end of the path, otherwise
position, speed, acceleration before and acceleration after. -/
structure Gen where
  length : ℝ
  timeStep : ℝ
  /-- TimeOptimalTrajectory.cpp 49 `eps`. -/
  eps : ℝ
  switchingPoints : List (ℝ × Bool)
  velMax : ℝ → ℝ
  accMax : ℝ → Option ℝ
  minMax : ℝ → ℝ → Bool → ℝ
  follows : ℝ → Prop
  leavesAcc : ℝ → ℝ → Prop
  leavesVel : ℝ → ℝ → Prop
  nextSwitching : ℝ → Option (ℝ × ℝ × ℝ × ℝ)

namespace Gen

variable (E : Gen)

/-- TimeOptimalTrajectory.cpp 278, 296: the speed is above one of the two limits at this position. -/
def over (x v : ℝ) : Prop := (∃ m ∈ E.accMax x, m < v) ∨ E.velMax x < v

open Classical in
/-- TimeOptimalTrajectory.cpp 266-270, 290-294: the speed is cut to the limit if the limit can be followed. `y` is the position
before. -/
noncomputable def cut (y x v : ℝ) : ℝ := if E.velMax x < v ∧ E.follows y then E.velMax x else v

open Classical in
/-- TimeOptimalTrajectory.cpp 286-304: the bisection. -/
noncomputable def bisect : ℕ → ℝ × ℝ → ℝ × ℝ → Out ((ℝ × ℝ) × (ℝ × ℝ))
  | 0, _, _ => .more
  | fuel + 1, before, after =>
      if after.1 - before.1 > E.eps then
        let midpoint := 0.5 * (before.1 + after.1)
        let midpointPathVel := E.cut before.1 midpoint (0.5 * (before.2 + after.2))
        if E.over midpoint midpointPathVel then bisect fuel before (midpoint, midpointPathVel)
        else bisect fuel (midpoint, midpointPathVel) after
      else .ok (before, after)

open Classical in
/-- TimeOptimalTrajectory.cpp 249-259: one step of the integration, cut at the next discontinuity. -/
noncomputable def advanceStep (disc : List (ℝ × Bool)) (pos vel acc : ℝ) : ℝ × ℝ :=
  let v := vel + E.timeStep * acc
  let x := pos + E.timeStep * 0.5 * (vel + v)
  match disc with
  | d :: _ => if d.1 < x then (d.1, vel + (d.1 - pos) * (v - vel) / (x - pos)) else (x, v)
  | [] => (x, v)

open Classical in
/-- TimeOptimalTrajectory.cpp 305-318: whether the integration ends at the limit; `none`: undefined behaviour, the end of the list is
dereferenced. -/
noncomputable def leaves (disc : List (ℝ × Bool)) (before after : ℝ × ℝ) : Option Bool :=
  if ∃ m ∈ E.accMax after.1, m < E.velMax after.1 then
    match disc with
    | [] => none
    | d :: _ => if d.1 < after.1 then some true else some (decide (E.leavesAcc before.1 before.2))
  else some (decide (E.leavesVel before.1 before.2))

open Classical in
/-- TimeOptimalTrajectory.cpp 242-320: the loop of `integrateForward`. The steps are in reverse order. The result is the steps, `valid`
and the value returned. -/
noncomputable def forward : ℕ → List (ℝ × Bool) → List (ℝ × ℝ) → ℝ → ℝ → ℝ → Out (List (ℝ × ℝ) × Bool × Bool)
  | 0, _, _, _, _, _ => .more
  | fuel + 1, disc, traj, pos, vel, acc =>
      let disc := disc.dropWhile fun q => decide (q.1 ≤ pos) || !q.2
      let s := E.advanceStep disc pos vel acc
      if s.1 > E.length then .ok (s :: traj, true, true)
      else if s.2 < 0 then .ok (traj, false, true)
      else
        let v := E.cut pos s.1 s.2
        let acc := E.minMax s.1 v true
        if E.over s.1 v then
          match traj with
          | [] => .ub
          | back :: _ =>
              match E.bisect fuel back (s.1, v) with
              | .more => .more
              | .ub => .ub
              | .ok (before, after) =>
                  match E.leaves disc before after with
                  | none => .ub
                  | some true => .ok (before :: traj, true, false)
                  | some false => forward fuel disc (before :: traj) s.1 v acc
        else forward fuel disc ((s.1, v) :: traj) s.1 v acc

/-- TimeOptimalTrajectory.cpp 233-321 `integrateForward(trajectory, acceleration)`. -/
noncomputable def integrateForward (fuel : ℕ) (traj : List (ℝ × ℝ)) (acc : ℝ) : Out (List (ℝ × ℝ) × Bool × Bool) :=
  match traj with
  | [] => .ub
  | back :: _ => E.forward fuel E.switchingPoints traj back.1 back.2 acc

open Classical in
/-- TimeOptimalTrajectory.cpp 352-356: the point where the segments `start1`, `start2` and `(pos, vel)`, `front` meet. With a denominator
that is zero the comparisons of the program are false. -/
noncomputable def meet (start1 start2 front : ℝ × ℝ) (pos vel : ℝ) : Option (ℝ × ℝ) :=
  if front.1 - pos = 0 ∨ start2.1 - start1.1 = 0 then none
  else
    let slope := (front.2 - vel) / (front.1 - pos)
    let startSlope := (start2.2 - start1.2) / (start2.1 - start1.1)
    if slope - startSlope = 0 then none
    else
      let x := (start1.2 - vel + slope * pos - startSlope * start1.1) / (slope - startSlope)
      if max start1.1 pos - E.eps ≤ x ∧ x ≤ E.eps + min start2.1 front.1 then some (x, start1.2 + startSlope * (x - start1.1))
      else none

open Classical in
/-- TimeOptimalTrajectory.cpp 332-363: the loop of `integrateBackward`. `start` is what the two iterators have before them, in reverse order:
`start2`, `start1` and what comes before; `back` is the trajectory made here. The result is the steps in reverse order, `none` if
`valid` was set to false. -/
noncomputable def backward : ℕ → List (ℝ × ℝ) → List (ℝ × ℝ) → ℝ → ℝ → ℝ → Out (Option (List (ℝ × ℝ)))
  | 0, _, _, _, _, _ => .more
  | fuel + 1, start2 :: start1 :: rest, back, pos, vel, acc =>
      if rest ≠ [] ∨ 0 ≤ pos then
        if start1.1 ≤ pos then
          let v := vel - E.timeStep * acc
          let x := pos - E.timeStep * 0.5 * (v + vel)
          let acc := E.minMax x v false
          if v < 0 then .ok none
          else
            match E.meet start1 start2 (pos, vel) x v with
            | some m => .ok (some (((pos, vel) :: back).reverse ++ m :: start1 :: rest))
            | none => backward fuel (start2 :: start1 :: rest) ((pos, vel) :: back) x v acc
        else
          match rest with
          | [] => .ub
          | start0 :: rest =>
              match back.head? with
              | none => .ub
              | some front =>
                  match E.meet start0 start1 front pos vel with
                  | some m => .ok (some (back.reverse ++ m :: start0 :: rest))
                  | none => backward fuel (start1 :: start0 :: rest) back pos vel acc
      else .ok none
  | _ + 1, _, _, _, _, _ => .ub

/-- TimeOptimalTrajectory.cpp 66-73: the loop of the constructor; `none`: `valid` is false. -/
noncomputable def generateLoop (fuel : ℕ) : ℕ → List (ℝ × ℝ) → ℝ → Out (Option (List (ℝ × ℝ)))
  | 0, _, _ => .more
  | rounds + 1, traj, acc =>
      match E.integrateForward fuel traj acc with
      | .more => .more
      | .ub => .ub
      | .ok (_, false, _) => .ok none
      | .ok (traj, true, true) => .ok (some traj)
      | .ok (traj, true, false) =>
          match traj with
          | [] => .ub
          | b :: _ =>
              match E.nextSwitching b.1 with
              | none => .ok (some traj)
              | some (pos, vel, beforeAcceleration, afterAcceleration) =>
                  match E.backward fuel traj [] pos vel beforeAcceleration with
                  | .more => .more
                  | .ub => .ub
                  | .ok none => .ok none
                  | .ok (some traj) => generateLoop fuel rounds traj afterAcceleration

/-- TimeOptimalTrajectory.cpp 55-78: the constructor without the timing; the steps in order, `none`: `isValid()` is false. -/
noncomputable def generate (fuel rounds : ℕ) : Out (Option (List (ℝ × ℝ))) :=
  match E.generateLoop fuel rounds [(0, 0)] (E.minMax 0 0 true) with
  | .more => .more
  | .ub => .ub
  | .ok none => .ok none
  | .ok (some traj) =>
      match E.backward fuel traj [] E.length 0 (E.minMax E.length 0 false) with
      | .more => .more
      | .ub => .ub
      | .ok none => .ok none
      | .ok (some traj) => .ok (some traj.reverse)

end Gen

end Simox.Tot
