import Verif.Lgr.Model

/-!
# Specification: what was measured while the switch was on
-/

namespace Simox.Lgr

variable {n : Nat}

/-- What happens to a logger: the user switches it on and off, and the engine calls it after every step. -/
inductive Op (n : Nat) where
  | start
  | stop
  | log (dt : ℝ) (r : Reading n)

/-- The logger afterwards. -/
def run (l : Logger n) : List (Op n) → Logger n
  | [] => l
  | .start :: ops => run l.startLogging ops
  | .stop :: ops => run l.stopLogging ops
  | .log dt r :: ops => run (l.log dt r) ops

/-- The steps the engine took while the switch was on. -/
def live : Bool → List (Op n) → List (ℝ × Reading n)
  | _, [] => []
  | _, .start :: ops => live true ops
  | _, .stop :: ops => live false ops
  | true, .log dt r :: ops => (dt, r) :: live true ops
  | false, .log _ _ :: ops => live false ops

/-- The times after each of the steps, from `t` on. -/
def times (t : ℝ) : List (ℝ × Reading n) → List ℝ
  | [] => []
  | s :: l => (t + s.1) :: times (t + s.1) l

/-- The row for a reading. -/
def rowOf (t : ℝ) (r : Reading n) : List Cell :=
  [.num t] ++
    (List.finRange n).flatMap (fun dof =>
      [.num (r.target dof), .num (r.angle dof), .num (r.targetSpeed dof), .num (- r.speed dof), .num (r.torque dof),
        .num (r.forces dof 0), .num (r.forces dof 1), .num (r.forces dof 2)]) ++
    [.num (r.com 0), .num (r.com 1), .num (r.com 2), .num (r.comVelocity 0), .num (r.comVelocity 1),
      .num (r.comVelocity 2)]

/-- The table of steps: the times and the readings. -/
def table (steps : List (ℝ × Reading n)) : List (List Cell) :=
  List.zipWith (fun t s => rowOf t s.2) (times 0 steps) steps

end Simox.Lgr
