import Verif.Ctl.Model
import Verif.Kin.Model

/-!
# Actuation of the joints of a simulated robot

Models the targets and controllers of `SimDynamics/DynamicsEngine/DynamicsRobot.cpp` and `BulletRobot::actuateJoints`, `actuateNode` and `actuateNodeVel` of
`BulletEngine/BulletRobot.cpp`. Numbers are reals. `ignoreTranslationalJoints` is false, as the constructor sets it (BulletRobot.cpp 31). The links of a robot do not change
while its joints are actuated. Names and the activation of sleeping bodies are left out.
-/

namespace Simox.Dyn

open Simox.Ctl

/-- RobotNode.h `isRotationalJoint`, `isTranslationalJoint`. -/
inductive Kind where
  | rotational
  | translational
  | other
deriving DecidableEq

/-- The constraint of a link (BulletRobot.cpp 374-422, 903): a hinge, a slider or a fixed joint. -/
inductive Joint where
  | hinge
  | slider
  | fixed
deriving DecidableEq

/-- DynamicsRobot.h `robotNodeActuationTarget`. -/
structure Target where
  value : ℝ
  velocity : ℝ
  torque : ℝ
  modes : Modes

/-- What the code asks of a node: its kind, the first link with this joint (BulletRobot.cpp 752-766, 971-984) with its offset, its limits. -/
structure Node where
  kind : Kind
  link : Option (Joint × ℝ)
  lim : Kin.Lim
  maxVelocity : ℝ
  maxAcceleration : ℝ
  maxTorque : ℝ

section
variable {ν : Type} [DecidableEq ν]

/-- DynamicsRobot.h: `actuationTargets`, `actuationControllers` and the gains. -/
structure Robot (ν : Type) where
  targets : ν → Option Target
  ctrls : ν → Option (Velocity ℝ)
  p : ℝ
  i : ℝ
  d : ℝ

/-- DynamicsRobot.h: a new robot without targets. -/
noncomputable def Robot.empty : Robot ν := ⟨fun _ => none, fun _ => none, 10, 0, 0⟩

/-- DynamicsRobot.cpp 142-150, 169-177, 226-239, 270-278: a controller is made, or, if `reset`, reset. -/
noncomputable def Robot.control (env : ν → Node) (s : Robot ν) (n : ν) (reset : Bool) : Robot ν :=
  match s.ctrls n with
  | none => { s with ctrls := Function.update s.ctrls n (some ((Velocity.new (env n).maxVelocity (env n).maxAcceleration (-1)).gains s.p s.i s.d)) }
  | some c => { s with ctrls := Function.update s.ctrls n (some (if reset then c.reset else c)) }

/-- DynamicsRobot.cpp 135-140, 162-167, 222-224, 261-268: the target is stored. -/
def Robot.aim (s : Robot ν) (n : ν) (t : Target) : Robot ν := { s with targets := Function.update s.targets n (some t) }

/-- DynamicsRobot.cpp 112-151 `actuateNode` with a value. -/
noncomputable def Robot.setPosition (env : ν → Node) (s : Robot ν) (n : ν) (q : ℝ) : Robot ν :=
  (s.aim n ⟨q, 0, 0, ⟨true, false, false⟩⟩).control env n true

/-- DynamicsRobot.cpp 153-178 `actuateNode` with a value and a velocity. -/
noncomputable def Robot.setBoth (env : ν → Node) (s : Robot ν) (n : ν) (q v : ℝ) : Robot ν :=
  (s.aim n ⟨q, v, 0, ⟨true, true, false⟩⟩).control env n true

open Classical in
/-- DynamicsRobot.cpp 189-240 `actuateNodeVel`; `q` is the joint value of the node at the time of the call. `none`: undefined behaviour, the iterator at the end is read (213). -/
noncomputable def Robot.setVelocity (env : ν → Node) (s : Robot ν) (n : ν) (v q : ℝ) : Option (Robot ν) :=
  let changed := match s.targets n with
    | none => true
    | some t => !t.modes.velocity || t.modes.position
  if |v| < 1 / 10 ^ 10 then
    match s.targets n with
    | none => none
    | some t => some ((s.aim n ⟨t.value, v, 0, ⟨false, true, false⟩⟩).control env n changed)
  else some ((s.aim n ⟨q, v, 0, ⟨false, true, false⟩⟩).control env n changed)

/-- DynamicsRobot.cpp 250-279 `actuateNodeTorque`. -/
noncomputable def Robot.setTorque (env : ν → Node) (s : Robot ν) (n : ν) (t : ℝ) : Robot ν :=
  (s.aim n ⟨0, 0, t, ⟨false, false, true⟩⟩).control env n true

/-- DynamicsRobot.cpp 281-289 `disableNodeActuation`. -/
def Robot.disable (s : Robot ν) (n : ν) : Robot ν := { s with targets := Function.update s.targets n none }

/-- DynamicsRobot.cpp 291-301 `enableActuation`. -/
def Robot.enableAll (s : Robot ν) (m : Modes) : Robot ν := { s with targets := fun n => (s.targets n).map fun t => { t with modes := m } }

/-- DynamicsRobot.cpp 303-313 `disableActuation`. -/
def Robot.disableAll (s : Robot ν) : Robot ν := s.enableAll ⟨false, false, false⟩

/-- DynamicsRobot.cpp 442-451 `setPIDParameters`. -/
noncomputable def Robot.setGains (s : Robot ν) (p i d : ℝ) : Robot ν :=
  { s with p := p, i := i, d := d, ctrls := fun n => (s.ctrls n).map fun c => c.gains p i d }

/-- DynamicsUtils.h 48: `mode != 0`. -/
def anyMode (m : Modes) : Bool := m.position || m.velocity || m.torque

/-- DynamicsRobot.cpp 319-330 `isNodeActuated`. -/
def Robot.isActuated (s : Robot ν) (n : ν) : Bool := match s.targets n with
  | none => false
  | some t => anyMode t.modes

/-- DynamicsRobot.cpp 332-344 `getNodeTarget`. -/
noncomputable def Robot.getTarget (s : Robot ν) (n : ν) : ℝ := match s.targets n with
  | none => 0
  | some t => t.value

/-- BulletRobot.cpp 986-1012 `BulletRobot::actuateNode`. -/
noncomputable def Robot.bulletPosition (env : ν → Node) (s : Robot ν) (n : ν) (q : ℝ) : Robot ν :=
  if (env n).kind = .rotational ∨ (env n).kind = .translational then
    if (env n).link = none then s else s.setPosition env n q
  else s

/-- BulletRobot.cpp 1014-1035 `BulletRobot::actuateNodeVel`. -/
noncomputable def Robot.bulletVelocity (env : ν → Node) (s : Robot ν) (n : ν) (v q : ℝ) : Option (Robot ν) :=
  if (env n).link = none then some s
  else if (env n).kind = .rotational ∨ (env n).kind = .translational then s.setVelocity env n v q
  else some s

/-! ## One step of the simulation -/

/-- What the motor of a joint is told. -/
inductive Motor where
  /-- nothing -/
  | idle
  /-- the motor is switched off -/
  | off
  /-- the motor is switched off, and a torque, or for sliders a force, acts on the two bodies -/
  | torque (t : ℝ)
  /-- the motor runs with a velocity and at most this impulse -/
  | speed (v impulse : ℝ)

/-- The outcome of a step. -/
inductive Result (α : Type) where
  /-- `getLink` throws (BulletRobot.cpp 764) -/
  | throws
  /-- a null pointer is read: the constraint is not of the kind of the node -/
  | undefined
  | ok (a : α)

/-- The constraint the code casts to. -/
def Kind.joint : Kind → Joint
  | .rotational => .hinge
  | _ => .slider

open Classical in
/-- BulletRobot.cpp 551-552, 578-579: the torque that is applied. -/
noncomputable def applied (maxTorque t : ℝ) : ℝ := min |t| maxTorque * (if t > 0 then 1 else -1)

open Classical in
/-- BulletRobot.cpp 592-596: the target of a joint whose velocity is controlled is moved on. -/
noncomputable def Target.advance (t : Target) (dt : ℝ) : Target :=
  if t.modes.velocity ∧ ¬ t.modes.position then { t with value := t.value + t.velocity * dt } else t

open Classical in
/-- BulletRobot.cpp 493-656 `actuateJoints`, for one target: the target, the controller and the motor afterwards. `q` is the joint value of the node, `impulse` the maximal
impulse of the robot and `scale` the scale of the simulation (BulletObject.cpp 29). -/
noncomputable def stepNode (n : Node) (q impulse scale dt : ℝ) (t : Target) (c : Velocity ℝ) : Result (Target × Velocity ℝ × Motor) :=
  if n.kind = .other then .ok (t, c, .idle)
  else match n.link with
  | none => .throws
  | some (j, offset) =>
    if ¬ anyMode t.modes then if j = n.kind.joint then .ok (t, c, .off) else .undefined
    else if t.modes.torque then if j = n.kind.joint then .ok (t, c, .torque (applied n.maxTorque t.torque)) else .undefined
    else
      let t' := t.advance dt
      let factor : ℝ := if n.kind = .translational then 1 / 1000 else 1
      let delta := Kin.getDelta n.lim q (t'.value + offset) * factor
      let u := c.update delta (t'.velocity * factor) { t'.modes with position := true } dt
      let imp := if n.maxTorque > 0 then n.maxTorque * dt * scale * scale * scale else impulse
      if j = n.kind.joint then .ok (t', u.2, .speed u.1 (if n.kind = .translational then imp * 1000 else imp)) else .undefined

/-- BulletRobot.cpp 493-656 `actuateJoints`: the loop over the nodes with a target, in the order of the map. `values` are the joint values. A controller that is missing is
made without limits (507). -/
noncomputable def stepAll (env : ν → Node) (values : ν → ℝ) (impulse scale dt : ℝ) : List ν → Robot ν → Result (Robot ν)
  | [], s => .ok s
  | n :: ns, s => match s.targets n with
    | none => stepAll env values impulse scale dt ns s
    | some t => match stepNode (env n) (values n) impulse scale dt t ((s.ctrls n).getD (Velocity.new (-1) (-1) (-1))) with
      | .throws => .throws
      | .undefined => .undefined
      | .ok (t', c', _) => stepAll env values impulse scale dt ns
          { s with targets := Function.update s.targets n (some t'), ctrls := Function.update s.ctrls n (some c') }

end

/-! ## Nodes without a body -/

section
variable {ν : Type} [DecidableEq ν]

/-- BulletRobot.cpp 1399-1421: one pass over the nodes still to do: those that stay, those that are done, and those that are updated, in the order of the updates. -/
def posePass (parent : ν → Option ν) : List ν → List ν → List ν × List ν × List ν
  | [], done => ([], done, [])
  | n :: ns, done => match parent n with
    | none => let r := posePass parent ns (done ++ [n]); r
    | some p => if p ∈ done then let r := posePass parent ns (done ++ [n]); (r.1, r.2.1, n :: r.2.2)
      else let r := posePass parent ns done; (n :: r.1, r.2.1, r.2.2)

/-- A pass never adds a node to those still to do. -/
theorem posePass_length (parent : ν → Option ν) (ns done : List ν) : (posePass parent ns done).1.length ≤ ns.length := by
  induction ns generalizing done with
  | nil => exact le_rfl
  | cons n ns ih =>
    unfold posePass
    cases parent n with
    | none => exact (ih _).trans (Nat.le_succ _)
    | some p =>
      simp only
      by_cases h : p ∈ done
      · rw [if_pos h]
        exact (ih _).trans (Nat.le_succ _)
      · rw [if_neg h]
        exact Nat.succ_le_succ (ih _)

/-- BulletRobot.cpp 1395-1434: the loop. The nodes that are updated, in order, and whether the loop ended without an error. -/
def poseLoop (parent : ν → Option ν) (todo done : List ν) : Bool × List ν :=
  if todo.length = 0 then (true, [])
  else
    let r := posePass parent todo done
    if _h : r.1.length = todo.length then (false, r.2.2)
    else let s := poseLoop parent r.1 r.2.1; (s.1, r.2.2 ++ s.2)
termination_by todo.length
decreasing_by exact lt_of_le_of_ne (posePass_length parent todo done) _h

/-- BulletRobot.cpp 1374-1436 `setPoseNonActuatedRobotNodes`. -/
def poseNodes (parent : ν → Option ν) (body : ν → Bool) (nodes : List ν) : Bool × List ν :=
  poseLoop parent (nodes.filter fun n => !body n) (nodes.filter fun n => body n)

end

end Simox.Dyn
