import Mathlib.Data.Real.Basic
import Mathlib.Data.List.FinRange

/-!
# The logger of a simulated robot

Models `SimDynamics/DynamicsEngine/BulletEngine/BulletRobotLogger.cpp` and `.h`. The readings of the robot are given,
numbers are real, and the file is the list of its rows of cells. `int` does not overflow. Reading a log outside of its
range is the outcome `ub`.
-/

namespace Simox.Lgr

variable {n : Nat}

/-- What the robot and the node sets say at one moment, BulletRobotLogger.cpp 102-125. -/
structure Reading (n : Nat) where
  /-- `getJointAngle`. -/
  angle : Fin n → ℝ
  /-- `getJointSpeed`. -/
  speed : Fin n → ℝ
  /-- `getNodeTarget`. -/
  target : Fin n → ℝ
  /-- `getJointTargetSpeed`. -/
  targetSpeed : Fin n → ℝ
  /-- `getJointTorque`. -/
  torque : Fin n → ℝ
  /-- `getJointForces`. -/
  forces : Fin n → Fin 3 → ℝ
  /-- `bodyNodes->getCoM()`. -/
  com : Fin 3 → ℝ
  /-- `getComVelocityGlobal`. -/
  comVelocity : Fin 3 → ℝ

/-- `BulletRobotLogger`, BulletRobotLogger.h 58-82. -/
structure Logger (n : Nat) where
  running : Bool
  targetAngleLog : List (Fin n → ℝ)
  targetVelocityLog : List (Fin n → ℝ)
  actualAngleLog : List (Fin n → ℝ)
  actualVelocityLog : List (Fin n → ℝ)
  actualJointTorquesLog : List (Fin n → ℝ)
  actualJointForcesLog : List (Fin n → Fin 3 → ℝ)
  actualCoMLog : List (Fin 3 → ℝ)
  actualCoMVelocityLog : List (Fin 3 → ℝ)
  timestamps : List ℝ
  max_samples : Nat
  timestamp : ℝ

/-- The constructor, BulletRobotLogger.h 19-39 (`max_samples` is 1024 * 1024 there). -/
def Logger.init (max_samples : Nat) : Logger n :=
  ⟨false, [], [], [], [], [], [], [], [], [], max_samples, 0⟩

/-- `startLogging`, BulletRobotLogger.cpp 10-13. -/
def Logger.startLogging (l : Logger n) : Logger n := { l with running := true }

/-- `stopLogging`, BulletRobotLogger.cpp 15-18. -/
def Logger.stopLogging (l : Logger n) : Logger n := { l with running := false }

/-- `log`, BulletRobotLogger.cpp 88-132. -/
def Logger.log (l : Logger n) (dt : ℝ) (r : Reading n) : Logger n :=
  if ¬ l.running = true then l
  else if l.actualAngleLog.length > l.max_samples then { l with running := false }
  else
    let timestamp := l.timestamp + dt
    { l with
      actualJointTorquesLog := l.actualJointTorquesLog ++ [r.torque]
      actualJointForcesLog := l.actualJointForcesLog ++ [r.forces]
      actualCoMLog := l.actualCoMLog ++ [r.com]
      actualCoMVelocityLog := l.actualCoMVelocityLog ++ [r.comVelocity]
      actualVelocityLog := l.actualVelocityLog ++ [fun i => - r.speed i]
      actualAngleLog := l.actualAngleLog ++ [r.angle]
      targetAngleLog := l.targetAngleLog ++ [r.target]
      targetVelocityLog := l.targetVelocityLog ++ [r.targetSpeed]
      timestamp := timestamp
      timestamps := l.timestamps ++ [timestamp] }

/-- A cell of the file. -/
inductive Cell where
  | text (s : String)
  | num (x : ℝ)

/-- The first row, BulletRobotLogger.cpp 33-54. -/
def header (names : Fin n → String) : List Cell :=
  [.text "Timestamp"] ++
    (List.finRange n).flatMap (fun dof =>
      [.text ("TargetAngle" ++ names dof), .text ("ActualAngle" ++ names dof), .text ("TargetVelocity" ++ names dof),
        .text ("ActualVelocity" ++ names dof), .text ("ActualTorque" ++ names dof), .text ("ActualForceX" ++ names dof),
        .text ("ActualForceY" ++ names dof), .text ("ActualForceZ" ++ names dof)]) ++
    [.text "CoM X", .text "CoM Y", .text "CoM Z", .text "CoMVelocity X", .text "CoMVelocity Y", .text "CoMVelocity Z"]

/-- A row, BulletRobotLogger.cpp 58-78. Nothing: a read outside of a log. -/
def Logger.row (l : Logger n) (frame : Nat) : Option (List Cell) := do
  let ts ← l.timestamps[frame]?
  let ta ← l.targetAngleLog[frame]?
  let aa ← l.actualAngleLog[frame]?
  let tv ← l.targetVelocityLog[frame]?
  let av ← l.actualVelocityLog[frame]?
  let jt ← l.actualJointTorquesLog[frame]?
  let jf ← l.actualJointForcesLog[frame]?
  let cm ← l.actualCoMLog[frame]?
  let cv ← l.actualCoMVelocityLog[frame]?
  some ([.num ts] ++
    (List.finRange n).flatMap (fun dof =>
      [.num (ta dof), .num (aa dof), .num (tv dof), .num (av dof), .num (jt dof), .num (jf dof 0), .num (jf dof 1),
        .num (jf dof 2)]) ++
    [.num (cm 0), .num (cm 1), .num (cm 2), .num (cv 0), .num (cv 1), .num (cv 2)])

/-- What writing does to the file. -/
inductive Written where
  | untouched
  | rows (l : List (List Cell))
  | ub

/-- `writeToFile`, BulletRobotLogger.cpp 20-80. -/
def Logger.writeToFile (l : Logger n) (names : Fin n → String) : Written :=
  if l.targetAngleLog.length = 0 then .untouched
  else
    match (List.range l.timestamps.length).mapM l.row with
    | none => .ub
    | some rows => .rows (header names :: rows)

end Simox.Lgr
