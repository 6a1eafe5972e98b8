import Verif.Dyn.Actuation

/-! # Vocabulary for the actuation of joints. A history is the list of commands given so far, the last one first. -/

namespace Simox.Dyn

open Simox.Ctl

/-- The commands of a robot. -/
inductive Cmd (ν : Type) where
  /-- go to a value -/
  | position (n : ν) (q : ℝ)
  /-- go to a value with a velocity -/
  | both (n : ν) (q v : ℝ)
  /-- move with a velocity; the joint has the value `q` at this time -/
  | velocity (n : ν) (v q : ℝ)
  /-- apply a torque -/
  | torque (n : ν) (t : ℝ)
  /-- forget the target of a joint -/
  | disable (n : ν)
  /-- use these modes for all joints with a target -/
  | enableAll (m : Modes)
  /-- use no mode for all joints with a target -/
  | disableAll
  /-- new gains for all controllers -/
  | gains (p i d : ℝ)

variable {ν : Type} [DecidableEq ν]

/-- The joint can be moved: it is rotational or translational and has a link. -/
def Movable (env : ν → Node) (n : ν) : Prop := ((env n).kind = .rotational ∨ (env n).kind = .translational) ∧ (env n).link ≠ none

open Classical in
/-- The target of a joint, from the history: the last command for it that was accepted. Commands for positions and for velocities are accepted for joints that can be moved. -/
noncomputable def targetOf (env : ν → Node) (n : ν) : List (Cmd ν) → Option Target
  | [] => none
  | .position m q :: h => if m = n ∧ Movable env n then some ⟨q, 0, 0, ⟨true, false, false⟩⟩ else targetOf env n h
  | .both m q v :: h => if m = n then some ⟨q, v, 0, ⟨true, true, false⟩⟩ else targetOf env n h
  | .velocity m v q :: h => if m = n ∧ Movable env n then
      some ⟨if |v| < 1 / 10 ^ 10 then (match targetOf env n h with | none => 0 | some t => t.value) else q, v, 0, ⟨false, true, false⟩⟩
    else targetOf env n h
  | .torque m t :: h => if m = n then some ⟨0, 0, t, ⟨false, false, true⟩⟩ else targetOf env n h
  | .disable m :: h => if m = n then none else targetOf env n h
  | .enableAll m :: h => (targetOf env n h).map fun t => { t with modes := m }
  | .disableAll :: h => (targetOf env n h).map fun t => { t with modes := ⟨false, false, false⟩ }
  | .gains _ _ _ :: h => targetOf env n h

/-- The gains set last; 10, 0, 0 at first. -/
noncomputable def gainsOf : List (Cmd ν) → ℝ × ℝ × ℝ
  | [] => (10, 0, 0)
  | .gains p i d :: _ => (p, i, d)
  | _ :: h => gainsOf h

/-- The joint is rotational or translational, and its link has the constraint that belongs to it, with the offset `o`. -/
def Node.Linked (n : Node) (o : ℝ) : Prop := (n.kind = .rotational ∨ n.kind = .translational) ∧ n.link = some (n.kind.joint, o)

/-- Many steps: the joint values and the lengths of the steps, the first one first. The target and the controller afterwards, and what the motor is told. -/
noncomputable def stepsNode (n : Node) (impulse scale : ℝ) : List (ℝ × ℝ) → Target → Velocity ℝ → Result (Target × Velocity ℝ × List Motor)
  | [], t, c => .ok (t, c, [])
  | (q, dt) :: ss, t, c => match stepNode n q impulse scale dt t c with
    | .throws => .throws
    | .undefined => .undefined
    | .ok (t', c', m) => match stepsNode n impulse scale ss t' c' with
      | .throws => .throws
      | .undefined => .undefined
      | .ok (t'', c'', ms) => .ok (t'', c'', m :: ms)

/-- The motor runs with at most this speed. -/
def Motor.AtMost (v : ℝ) : Motor → Prop
  | .speed w _ => |w| ≤ v
  | _ => False

end Simox.Dyn
