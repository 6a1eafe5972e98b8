import Mathlib.Data.List.Infix
import Verif.Ctl.Model

/-!
# Motor controllers: what is claimed
-/

namespace Simox.Ctl

section
variable {K : Type} [Field K]

/-- A call of a PID controller. -/
inductive PidOp (K : Type)
  | update (error dt : K)
  | reset
  | gains (p i d : K)

/-- The controller after a call. -/
def PidOp.apply (c : Pid K) : PidOp K → Pid K
  | .update e dt => (c.update e dt).2
  | .reset => c.reset
  | .gains p i d => c.gains p i d

/-- The controller after a list of calls. -/
def Pid.after (c : Pid K) (ops : List (PidOp K)) : Pid K := ops.foldl PidOp.apply c

/-- The three terms of a PID controller, for the errors and lengths of all steps, the last step last: the last error, the integral of the errors, and their last change. -/
def pidOut (p i d : K) (us : List (K × K)) : K :=
  let last := us.getLastD (0, 1)
  let before := us.dropLast.getLastD (0, 1)
  p * last.1 + i * (us.map fun u => u.1 * u.2).sum + d * ((last.1 - before.1) / last.2)

/-- The outputs of a PID controller for every step of a list. -/
def signal (p i d : K) (us : List (K × K)) : List K := us.inits.tail.map (pidOut p i d)

/-- The arguments of a step of a motor controller. -/
structure Step (K : Type) where
  position : K
  velocity : K
  torque : K
  dt : K

/-- The outputs for a list of steps with the same mode. -/
def Torque.outputs (m : Modes) (c : Torque K) : List (Step K) → List K
  | [] => []
  | s :: ss => (c.update s.position s.velocity s.torque m s.dt).1 :: Torque.outputs m (c.update s.position s.velocity s.torque m s.dt).2 ss

/-- The diagrams of DynamicsUtils.h 51-75: what is put into the joint, for controllers with the gains of `c`. -/
def diagram (m : Modes) (c : Torque K) (ss : List (Step K)) : List K :=
  let pos := signal c.position.gainP c.position.gainI c.position.gainD
  let vel := signal c.velocity.gainP c.velocity.gainI c.velocity.gainD
  let tor := signal c.torque.gainP c.torque.gainI c.torque.gainD
  match m with
  | ⟨true, false, false⟩ => pos (ss.map fun s => (s.position, s.dt))
  | ⟨false, true, false⟩ => vel (ss.map fun s => (s.velocity, s.dt))
  | ⟨false, false, true⟩ => tor (ss.map fun s => (s.torque, s.dt))
  | ⟨true, true, false⟩ => vel (List.zipWith (fun s p => (s.velocity + p, s.dt)) ss (pos (ss.map fun s => (s.position, s.dt))))
  | ⟨true, true, true⟩ => tor (List.zipWith (fun s v => (s.torque + v, s.dt)) ss
      (vel (List.zipWith (fun s p => (s.velocity + p, s.dt)) ss (pos (ss.map fun s => (s.position, s.dt))))))
  | ⟨false, false, false⟩ => ss.map fun _ => 0
  | _ => []

/-- The modes for which the header has a diagram, or in which nothing is controlled. -/
def Modes.Documented (m : Modes) : Prop := m.torque = true → (m.position = m.velocity)

/-- A controller without errors from before. -/
def Pid.Fresh (c : Pid K) : Prop := c.errorSum = 0 ∧ c.lastError = 0

/-- The controller after steps with modes of their own. -/
def Torque.after (c : Torque K) : List (Step K × Modes) → Torque K
  | [] => c
  | (s, m) :: ss => Torque.after (c.update s.position s.velocity s.torque m s.dt).2 ss

variable [LinearOrder K]

/-- A call of a velocity controller. -/
inductive VelOp (K : Type)
  | update (positionError targetVelocity : K) (m : Modes) (dt : K)
  | current (v : K)
  | reset
  | gains (p i d : K)

/-- The controller after a call. -/
def VelOp.apply (c : Velocity K) : VelOp K → Velocity K
  | .update e t m dt => (c.update e t m dt).2
  | .current v => c.setCurrent v
  | .reset => c.reset
  | .gains p i d => c.gains p i d

/-- The controller after a list of calls. -/
def Velocity.after (c : Velocity K) (ops : List (VelOp K)) : Velocity K := ops.foldl VelOp.apply c

/-- Steps have a positive length, and no velocity above the limit is set from outside. -/
def VelOp.Within (maxVelocity : K) : VelOp K → Prop
  | .update _ _ _ dt => 0 < dt
  | .current v => |v| ≤ maxVelocity
  | _ => True

/-- The velocity after steps towards a velocity, for steps of the lengths `dts`. -/
def towards (c : Velocity K) (target : K) (dts : List K) : Velocity K := c.after (dts.map (.update 0 target ⟨false, true, false⟩))

/-- The position error after `n` steps of length `dt` in which the joint has the velocity of the controller, and the controller then. -/
def closedLoop (dt : K) : ℕ → K × Velocity K → K × Velocity K
  | 0, x => x
  | n + 1, x => closedLoop dt n (x.1 - (x.2.update x.1 0 ⟨true, false, false⟩ dt).1 * dt, (x.2.update x.1 0 ⟨true, false, false⟩ dt).2)

end

end Simox.Ctl
