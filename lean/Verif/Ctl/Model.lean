import Mathlib.Algebra.Order.Field.Basic
import Mathlib.Algebra.BigOperators.Group.List.Basic
import Mathlib.Algebra.Order.Ring.Abs

/-!
# Motor controllers

Models `SimDynamics/DynamicsEngine/DynamicsUtils.cpp` over an arbitrary ordered field: numbers are exact, and there is no infinity and no NaN. Divisions are those by the
length `dt` of a step, which the theorems ask to be positive. Names and the output for debugging are left out.
-/

namespace Simox.Ctl

/-- DynamicsUtils.h 22-29: the members of `PIDController`, without `lastOutput`, which is only printed. -/
structure Pid (K : Type) where
  gainP : K
  gainI : K
  gainD : K
  errorSum : K
  lastError : K

/-- DynamicsUtils.h 32-49 `ActuationMode`. -/
structure Modes where
  position : Bool
  velocity : Bool
  torque : Bool

/-- DynamicsUtils.h 86-90: the members of `TorqueMotorController`. -/
structure Torque (K : Type) where
  position : Pid K
  velocity : Pid K
  torque : Pid K

/-- DynamicsUtils.h 143-151: the members of `VelocityMotorController`. -/
structure Velocity (K : Type) where
  position : Pid K
  maxVelocity : K
  maxAcceleration : K
  maxJerk : K
  velocity : K
  acceleration : K

section
variable {K : Type} [Field K]

/-- DynamicsUtils.cpp 9-16: the constructor. -/
def Pid.new (p i d : K) : Pid K := ⟨p, i, d, 0, 0⟩

/-- DynamicsUtils.cpp 18-29 `PIDController::update`: the output, and the controller after it. -/
def Pid.update (c : Pid K) (error dt : K) : K × Pid K :=
  let p := error * c.gainP
  let errorSum := c.errorSum + error * dt
  let i := errorSum * c.gainI
  let d := (error - c.lastError) / dt * c.gainD
  (p + i + d, { c with errorSum := errorSum, lastError := error })

/-- DynamicsUtils.cpp 36-43 `PIDController::reset` with gains. -/
def Pid.gains (_ : Pid K) (p i d : K) : Pid K := ⟨p, i, d, 0, 0⟩

/-- DynamicsUtils.cpp 31-34 `PIDController::reset`. -/
def Pid.reset (c : Pid K) : Pid K := c.gains c.gainP c.gainI c.gainD

/-- DynamicsUtils.cpp 79-138 `TorqueMotorController::update`. -/
def Torque.update (c : Torque K) (positionError velocityError torqueError : K) (m : Modes) (dt : K) : K × Torque K :=
  let pos := if m.position then c.position.update positionError dt else (0, c.position.reset)
  let vel := if m.velocity then c.velocity.update (velocityError + pos.1) dt else (0, c.velocity.reset)
  let tor := if m.torque then c.torque.update (torqueError + vel.1) dt else (0, c.torque.reset)
  (if m.position ∧ m.velocity ∧ m.torque then tor.1
    else if m.position ∧ m.velocity then vel.1
    else if m.position then pos.1
    else if m.velocity then vel.1
    else if m.torque then tor.1
    else 0, ⟨pos.2, vel.2, tor.2⟩)

variable [LinearOrder K]

/-- DynamicsUtils.cpp 140-148: the constructor. -/
def Velocity.new (maxVelocity maxAcceleration maxJerk : K) : Velocity K := ⟨Pid.new 10 0 0, maxVelocity, maxAcceleration, if maxJerk > 0 then maxJerk else 15000, 0, 0⟩

/-- DynamicsUtils.cpp 150-154 `setCurrentVelocity`. -/
def Velocity.setCurrent (c : Velocity K) (v : K) : Velocity K := { c with velocity := v }

/-- DynamicsUtils.cpp 175-180: the limit of velocities. -/
def limitVelocity (maxVelocity v : K) : K := if maxVelocity > 0 ∧ |v| > maxVelocity then (if v > 0 then 1 else -1) * maxVelocity else v

/-- DynamicsUtils.cpp 182-191: the limit of accelerations: the velocity and the acceleration. -/
def limitAcceleration (maxAcceleration velocity v dt : K) : K × K :=
  let a := (v - velocity) / dt
  if maxAcceleration > 0 ∧ |a| > maxAcceleration then
    let a' := (if a > 0 then 1 else -1) * maxAcceleration
    (velocity + a' * dt, a')
  else (v, a)

/-- DynamicsUtils.cpp 156-209 `VelocityMotorController::update`. -/
def Velocity.update (c : Velocity K) (positionError targetVelocity : K) (m : Modes) (dt : K) : K × Velocity K :=
  let pos := if m.position then c.position.update positionError dt else (0, c.position)
  let target := if m.velocity then targetVelocity else 0
  let out := limitAcceleration c.maxAcceleration c.velocity (limitVelocity c.maxVelocity (pos.1 + target)) dt
  (out.1, { c with position := pos.2, velocity := out.1, acceleration := out.2 })

/-- DynamicsUtils.cpp 211-214 `reset`. -/
def Velocity.reset (c : Velocity K) : Velocity K := { c with position := c.position.reset }

/-- DynamicsUtils.cpp 216-219 `reset` with gains. -/
def Velocity.gains (c : Velocity K) (p i d : K) : Velocity K := { c with position := c.position.gains p i d }

end

end Simox.Ctl
