import Verif.Ik.Model
import Verif.Jac.Com
import Mathlib.Analysis.SpecialFunctions.Exp

/-!
# Constraints of the constrained inverse kinematics

Models `VirtualRobot/IK/constraints/*.cpp` (value, gradient and tolerance check of each constraint) on the kinematic trees of `Verif.Kin.Model` and the
Jacobians of `Verif.Jac.Model`. A constraint is evaluated in a state of the robot. Simplifications: reals instead of floats; `AngleAxis` is the parameter
`AngleAxes` of `Verif.Ik.Model`; the support polygon of the balance constraint is a list of segments.
-/

namespace Simox.Cst

open Matrix Kin Jac Ik

/-- The entry of a matrix given by its rows. -/
def entry (J : List (List ℝ)) (a i : Nat) : ℝ := (J.getD a []).getD i 0

/-- Eigen `d.transpose() * J.block(first, 0, 3, size)`. -/
def rowTimes (d : V3) (J : List (List ℝ)) (first size : Nat) : List ℝ :=
  (List.range size).map fun i => d 0 * entry J first i + d 1 * entry J (first + 1) i + d 2 * entry J (first + 2) i

/-- The same with the two rows of a Jacobian in the plane. -/
def rowTimes2 (a b : ℝ) (J : List (List ℝ)) (size : Nat) : List ℝ :=
  (List.range size).map fun i => a * entry J 0 i + b * entry J 1 i

/-- `f * v` for a number and a vector. -/
def scale (f : ℝ) (v : List ℝ) : List ℝ := v.map (f * ·)

/-- `Eigen::VectorXf::Zero(size)`. -/
def zeros (size : Nat) : List ℝ := List.replicate size 0

/-! ## Position -/

/-- PositionConstraint.cpp 30-45: what the constraint is made of; `factor` is `optimizationFunctionFactor`. `sel` is `cartesianSelection`, any number. -/
structure Position where
  factor : ℝ
  nodes : List Nat
  tcp : Tcp
  obj : Nat
  target : V3
  sel : Nat
  tolerance : ℝ

/-- PositionConstraint.cpp 49, 78, 104: `d`. -/
def Position.diff (c : Position) (s : St Pose3) : V3 := (s.pose c.obj).pos - c.target

/-- PositionConstraint.cpp 47-71 `optimizationFunction`. -/
def Position.value (c : Position) (s : St Pose3) : ℝ :=
  let d := c.diff s
  if c.sel = flagX then c.factor * d 0 * d 0
  else if c.sel = flagY then c.factor * d 1 * d 1
  else if c.sel = flagZ then c.factor * d 2 * d 2
  else if c.sel = flagPosition ∨ c.sel = flagAll then c.factor * (d 0 * d 0 + d 1 * d 1 + d 2 * d 2)
  else 0

/-- DifferentialIK.cpp 237-240 `getJacobianMatrix(tcp)`: of all components, of a `DifferentialIK` without coordinate system. -/
noncomputable def tcpJacobian (r : JRobot) (s : St Pose3) (nodes : List Nat) (tcp : Tcp) : List (List ℝ) :=
  jacobian r s nodes none false flagAll tcp

/-- PositionConstraint.cpp 73-100 `optimizationGradient`. -/
noncomputable def Position.gradient (r : JRobot) (c : Position) (s : St Pose3) : List ℝ :=
  let size := c.nodes.length
  let J := tcpJacobian r s c.nodes c.tcp
  let d := c.diff s
  if c.sel = flagX then scale (2 * c.factor) (rowTimes ![d 0, 0, 0] J 0 size)
  else if c.sel = flagY then scale (2 * c.factor) (rowTimes ![0, d 1, 0] J 0 size)
  else if c.sel = flagZ then scale (2 * c.factor) (rowTimes ![0, 0, d 2] J 0 size)
  else if c.sel = flagPosition ∨ c.sel = flagAll then scale (2 * c.factor) (rowTimes d J 0 size)
  else zeros size

open Classical in
/-- PositionConstraint.cpp 102-126 `checkTolerances`; `none`: it throws. -/
noncomputable def Position.check (c : Position) (s : St Pose3) : Option Bool :=
  let d := c.diff s
  if c.sel = flagX then some (decide (d 0 ≤ c.tolerance))
  else if c.sel = flagY then some (decide (d 1 ≤ c.tolerance))
  else if c.sel = flagZ then some (decide (d 2 ≤ c.tolerance))
  else if c.sel = flagPosition ∨ c.sel = flagAll then some (decide (norm3 d ≤ c.tolerance))
  else if c.sel = flagOrientation then some true
  else none

/-! ## Orientation -/

/-- OrientationConstraint.cpp 33-48. -/
structure Orientation where
  factor : ℝ
  nodes : List Nat
  tcp : Tcp
  obj : Nat
  target : SO3
  sel : Nat
  tolerance : ℝ

/-- OrientationConstraint.cpp 50-71 `optimizationFunction`. -/
noncomputable def Orientation.value (aa : AngleAxes) (c : Orientation) (s : St Pose3) : ℝ :=
  let a := aa.angle (c.target * (s.pose c.obj).rot⁻¹)
  if c.sel = flagOrientation ∨ c.sel = flagAll then c.factor * a * a else 0

/-- OrientationConstraint.cpp 73-99 `optimizationGradient`. -/
noncomputable def Orientation.gradient (r : JRobot) (aa : AngleAxes) (c : Orientation) (s : St Pose3) : List ℝ :=
  let size := c.nodes.length
  let J := tcpJacobian r s c.nodes c.tcp
  let diff := (s.pose c.obj).rot * c.target⁻¹
  let rpy := aa.angle diff • aa.axis diff
  if c.sel = flagOrientation ∨ c.sel = flagAll then scale (2 * c.factor) (rowTimes rpy J 3 size) else zeros size

open Classical in
/-- OrientationConstraint.cpp 101-127 `checkTolerances`; `none`: it throws. -/
noncomputable def Orientation.check (aa : AngleAxes) (c : Orientation) (s : St Pose3) : Option Bool :=
  if c.sel = flagX ∨ c.sel = flagY ∨ c.sel = flagZ ∨ c.sel = flagPosition then some true
  else if c.sel = flagOrientation ∨ c.sel = flagAll then
    some (decide (|aa.angle (c.target * (s.pose c.obj).rot⁻¹)| ≤ c.tolerance))
  else none

/-! ## Pose -/

/-- PoseConstraint.cpp 35-54. -/
structure PoseC where
  factor : ℝ
  nodes : List Nat
  tcp : Tcp
  obj : Nat
  target : Pose3
  sel : Nat
  tolPos : ℝ
  tolRot : ℝ

/-- PoseConstraint.cpp 45 `posRotTradeoff`, TSRConstraint.cpp 45. -/
noncomputable def tradeoff : ℝ := 1 / 10

/-- PoseConstraint.cpp 142, 170: `d`. -/
noncomputable def PoseC.diff (c : PoseC) (s : St Pose3) : V3 := tradeoff • ((s.pose c.obj).pos - c.target.pos)

/-- PoseConstraint.cpp 140-163 `positionOptimizationFunction`. -/
noncomputable def PoseC.posValue (c : PoseC) (s : St Pose3) : ℝ :=
  let d := c.diff s
  if c.sel = flagX then d 0 * d 0
  else if c.sel = flagY then d 1 * d 1
  else if c.sel = flagZ then d 2 * d 2
  else if c.sel = flagPosition ∨ c.sel = flagAll then d 0 * d 0 + d 1 * d 1 + d 2 * d 2
  else 0

/-- PoseConstraint.cpp 165-191 `positionOptimizationGradient`. -/
noncomputable def PoseC.posGradient (r : JRobot) (c : PoseC) (s : St Pose3) : List ℝ :=
  let size := c.nodes.length
  let J := tcpJacobian r s c.nodes c.tcp
  let d := c.diff s
  if c.sel = flagX then scale 2 (rowTimes ![d 0, 0, 0] J 0 size)
  else if c.sel = flagY then scale 2 (rowTimes ![0, d 1, 0] J 0 size)
  else if c.sel = flagZ then scale 2 (rowTimes ![0, 0, d 2] J 0 size)
  else if c.sel = flagPosition ∨ c.sel = flagAll then scale 2 (rowTimes d J 0 size)
  else zeros size

/-- PoseConstraint.cpp 193-217 `orientationOptimizationFunction`. -/
noncomputable def PoseC.rotValue (aa : AngleAxes) (c : PoseC) (s : St Pose3) : ℝ :=
  let a := aa.angle (c.target.rot * (s.pose c.obj).rot⁻¹)
  if c.sel = flagOrientation ∨ c.sel = flagAll then a * a else 0

/-- PoseConstraint.cpp 219-247 `orientationOptimizationGradient`. -/
noncomputable def PoseC.rotGradient (r : JRobot) (aa : AngleAxes) (c : PoseC) (s : St Pose3) : List ℝ :=
  let size := c.nodes.length
  let J := tcpJacobian r s c.nodes c.tcp
  let diff := (s.pose c.obj * c.target⁻¹).rot
  let rpy := aa.angle diff • aa.axis diff
  if c.sel = flagOrientation ∨ c.sel = flagAll then scale 2 (rowTimes rpy J 3 size) else zeros size

/-- PoseConstraint.cpp 110-123 `optimizationFunction(id)`. -/
noncomputable def PoseC.value (aa : AngleAxes) (c : PoseC) (id : Nat) (s : St Pose3) : ℝ :=
  match id with
  | 0 => c.factor * c.posValue s
  | 1 => c.factor * c.rotValue aa s
  | _ => 0

/-- PoseConstraint.cpp 125-138 `optimizationGradient(id)`. -/
noncomputable def PoseC.gradient (r : JRobot) (aa : AngleAxes) (c : PoseC) (id : Nat) (s : St Pose3) : List ℝ :=
  match id with
  | 0 => scale c.factor (c.posGradient r s)
  | 1 => scale c.factor (c.rotGradient r aa s)
  | _ => []

/-- PoseConstraint.cpp 48, 107: the goal of the `DifferentialIK`. -/
def PoseC.goal (c : PoseC) : Goal := ⟨c.obj, c.tcp, c.target, c.sel, c.tolPos, c.tolRot⟩

/-- PoseConstraint.cpp 81-84 `checkTolerances`. -/
noncomputable def PoseC.check (aa : AngleAxes) (c : PoseC) (s : St Pose3) : Bool := checkTolerances aa s [c.goal]

/-- PoseConstraint.cpp 104-108 `updateTarget`: target and goal. -/
def PoseC.updateTarget (c : PoseC) (t : Pose3) : PoseC := { c with target := t }

/-! ## Centre of mass -/

/-- CoMConstraint.cpp 30-58; `dim` is `dimensions`, `goal` the goal of the `CoMIK`. In the plane the third coordinates are not used. -/
structure CoM where
  factor : ℝ
  joints : List Nat
  bodies : List Nat
  target : V3
  goal : V3
  dim : Nat
  tolerance : ℝ

/-- CoMConstraint.cpp 70-84 `optimizationFunction`. -/
noncomputable def CoM.value (m : Masses) (c : CoM) (s : St Pose3) : ℝ :=
  let d := getCoM m s c.bodies - c.target
  if c.dim = 2 then c.factor * (d 0 * d 0 + d 1 * d 1)
  else if c.dim = 3 then c.factor * (d 0 * d 0 + d 1 * d 1 + d 2 * d 2)
  else 0

/-- CoMConstraint.cpp 86-104 `optimizationGradient`. -/
noncomputable def CoM.gradient (r : JRobot) (m : Masses) (c : CoM) (s : St Pose3) : List ℝ :=
  let size := c.joints.length
  let d := getCoM m s c.bodies - c.target
  if c.dim = 2 then scale (2 * c.factor) (rowTimes2 (d 0) (d 1) (comJacobian r m s c.joints c.bodies none false 2) size)
  else if c.dim = 3 then scale (2 * c.factor) (rowTimes d (comJacobian r m s c.joints c.bodies none false 3) 0 size)
  else zeros size

open Classical in
/-- CoMConstraint.cpp 106-120 `checkTolerances`. -/
noncomputable def CoM.check (m : Masses) (c : CoM) (s : St Pose3) : Bool :=
  let d := getCoM m s c.bodies - c.target
  if c.dim = 2 then decide (Real.sqrt (d 0 * d 0 + d 1 * d 1) ≤ c.tolerance)
  else if c.dim = 3 then decide (norm3 d ≤ c.tolerance)
  else false

/-- CoMConstraint.cpp 60-68 `updateTarget`. -/
def CoM.updateTarget (c : CoM) (t : V3) : CoM := { c with goal := t }

/-! ## Reference configurations -/

/-- ReferenceConfigurationConstraint.cpp 28-54. -/
structure Reference where
  factor : ℝ
  nodes : List Nat
  reference : List ℝ

/-- ReferenceConfigurationConstraint.cpp 56-67 `setReferenceConfiguration`; `none`: it throws. -/
def Reference.set (c : Reference) (config : List ℝ) : Option Reference :=
  if c.nodes.length ≠ config.length then none else some { c with reference := config }

/-- ReferenceConfigurationConstraint.cpp 28-40: the constructor without a configuration. -/
def Reference.zero (factor : ℝ) (nodes : List Nat) : Option Reference := Reference.set ⟨factor, nodes, []⟩ (zeros nodes.length)

/-- ReferenceConfigurationConstraint.cpp 74-87 `optimizationFunction`; `keep` is the test of JointLimitAvoidanceConstraint.cpp 50. -/
def refSum (keep : Nat → Bool) (s : St Pose3) : List (Nat × ℝ) → ℝ
  | [] => 0
  | (n, x) :: l => (if keep n then (s.value n - x) * (s.value n - x) else 0) + refSum keep s l

/-- ReferenceConfigurationConstraint.cpp 74-87 `optimizationFunction`. -/
def Reference.value (c : Reference) (s : St Pose3) : ℝ := c.factor * refSum (fun _ => true) s (c.nodes.zip c.reference)

/-- ReferenceConfigurationConstraint.cpp 89-99 `optimizationGradient`. -/
def Reference.gradient (c : Reference) (s : St Pose3) : List ℝ :=
  scale c.factor ((c.nodes.zip c.reference).map fun p => 2 * (s.value p.1 - p.2))

/-- JointLimitAvoidanceConstraint.cpp 28-40: the constructor. -/
noncomputable def limitAvoidance (r : JRobot) (factor : ℝ) (nodes : List Nat) : Option Reference :=
  (Reference.zero factor nodes).bind fun c => c.set (nodes.map fun n => (r.lim n).lo + ((r.lim n).hi - (r.lim n).lo) / 2)

/-- JointLimitAvoidanceConstraint.cpp 42-57 `optimizationFunction`. -/
def limitValue (r : JRobot) (c : Reference) (s : St Pose3) : ℝ :=
  c.factor * refSum (fun n => !(r.lim n).limitless) s (c.nodes.zip c.reference)

/-- JointLimitAvoidanceConstraint.cpp 59-73 `optimizationGradient`. -/
def limitGradient (r : JRobot) (c : Reference) (s : St Pose3) : List ℝ :=
  scale c.factor ((c.nodes.zip c.reference).map fun p => if (r.lim p.1).limitless then 0 else 2 * (s.value p.1 - p.2))

/-! ## Balance -/

/-- A point in the plane. -/
abbrev P2 := ℝ × ℝ

/-- BalanceConstraint.cpp 125-129 `sigmoid`. -/
noncomputable def sigmoid (x : ℝ) : ℝ := 1 / (1 + Real.exp (-(1 / 10) * x))

/-- BalanceConstraint.cpp 131-134 `sigmoid_prime`. -/
noncomputable def sigmoidPrime (x : ℝ) : ℝ := sigmoid x * (1 - sigmoid x)

/-- BalanceConstraint.cpp 116-121: the first row of the matrix of a segment. Eigen's `normalized` leaves a vector of length zero. -/
noncomputable def normal (p1 p2 : P2) : P2 :=
  let v : P2 := (p2.1 - p1.1, p2.2 - p1.2)
  let z := v.1 * v.1 + v.2 * v.2
  let v : P2 := if 0 < z then (v.1 / Real.sqrt z, v.2 / Real.sqrt z) else v
  (-v.2, v.1)

/-- BalanceConstraint.cpp 52, 70: `(R * (com - d))[0]` for the segment from `p1` to `p2`. -/
noncomputable def side (com : P2) (seg : P2 × P2) : ℝ :=
  let n := normal seg.1 seg.2
  n.1 * (com.1 - seg.1.1) + n.2 * (com.2 - seg.1.2)

/-- BalanceConstraint.cpp 42-56 `evaluateOptimizationFunction`. -/
noncomputable def balanceValue (segs : List (P2 × P2)) (com : P2) : ℝ := 1 - (segs.map fun g => sigmoid (side com g)).prod

/-- BalanceConstraint.cpp 79-93: the sum over the segments, for one column `(jx, jy)` of the Jacobian. `before` has the values of the segments before. -/
noncomputable def balanceSum (com : P2) (jx jy : ℝ) : ℝ → List (P2 × P2) → ℝ
  | _, [] => 0
  | before, g :: l =>
    let n := normal g.1 g.2
    (n.1 * jx + n.2 * jy) * sigmoidPrime (side com g) * (before * (l.map fun g => sigmoid (side com g)).prod) +
      balanceSum com jx jy (before * sigmoid (side com g)) l

/-- BalanceConstraint.cpp 58-96 `evaluateOptimizationGradient`. -/
noncomputable def balanceGradient (segs : List (P2 × P2)) (com : P2) (J : List (List ℝ)) (size : Nat) : List ℝ :=
  (List.range size).map fun i => -balanceSum com (entry J 0 i) (entry J 1 i) 1 segs

/-- BalanceConstraint.cpp 151-186: joints, bodies and the segments of the support polygon (without `supportPolygonUpdates` they do not change). -/
structure Balance where
  joints : List Nat
  bodies : List Nat
  segs : List (P2 × P2)

/-- The first two coordinates, `head(2)`. -/
def head2 (v : V3) : P2 := (v 0, v 1)

/-- BalanceConstraint.cpp 242-256 `optimizationFunction`: with the centre of mass of `rns`, the node set of the joints. -/
noncomputable def Balance.value (m : Masses) (c : Balance) (s : St Pose3) : ℝ := balanceValue c.segs (head2 (getCoM m s c.joints))

/-- BalanceConstraint.cpp 258-272 `optimizationGradient`: with the Jacobian of the centre of mass of the bodies. -/
noncomputable def Balance.gradient (r : JRobot) (m : Masses) (c : Balance) (s : St Pose3) : List ℝ :=
  balanceGradient c.segs (head2 (getCoM m s c.joints)) (comJacobian r m s c.joints c.bodies none false 2) c.joints.length

/-! ## Task space regions -/

/-- TSRConstraint.cpp 33-57; `bounds` are lower and upper bounds of position and orientation. -/
structure Tsr where
  factor : ℝ
  nodes : List Nat
  tcp : Tcp
  obj : Nat
  transformation : Pose3
  offset : Pose3
  lo : V3
  hi : V3
  rotLo : V3
  rotHi : V3

open Classical in
/-- TSRConstraint.cpp 189-191, 207-209. -/
noncomputable def clampTo (lo hi x : ℝ) : ℝ := if x ≤ lo then lo else if x ≥ hi then hi else x

/-- TSRConstraint.cpp 79, 184, 199: `T`. -/
noncomputable def Tsr.current (c : Tsr) (s : St Pose3) : Pose3 := c.transformation⁻¹ * s.pose c.obj * c.offset

/-- The difference to the clamped vector. -/
noncomputable def outside (lo hi v : V3) : V3 := fun k => v k - clampTo (lo k) (hi k) (v k)

/-- TSRConstraint.cpp 181-194 `getPositionError`. -/
noncomputable def Tsr.posError (c : Tsr) (s : St Pose3) : V3 := outside c.lo c.hi (c.current s).pos

/-- TSRConstraint.cpp 196-212 `getOrientationError`. -/
noncomputable def Tsr.rotError (aa : AngleAxes) (c : Tsr) (s : St Pose3) : V3 :=
  outside c.rotLo c.rotHi (aa.angle (c.current s).rot • aa.axis (c.current s).rot)

/-- TSRConstraint.cpp 154-158, 167-171 `positionOptimizationFunction`, `orientationOptimizationFunction`. -/
noncomputable def sq3 (e : V3) : ℝ := e 0 * e 0 + e 1 * e 1 + e 2 * e 2

/-- TSRConstraint.cpp 124-137 `optimizationFunction(id)`. -/
noncomputable def Tsr.value (aa : AngleAxes) (c : Tsr) (id : Nat) (s : St Pose3) : ℝ :=
  match id with
  | 0 => c.factor * sq3 (tradeoff • c.posError s)
  | 1 => c.factor * sq3 (c.rotError aa s)
  | _ => 0

/-- TSRConstraint.cpp 139-152, 160-165, 173-179 `optimizationGradient(id)`. -/
noncomputable def Tsr.gradient (r : JRobot) (aa : AngleAxes) (c : Tsr) (id : Nat) (s : St Pose3) : List ℝ :=
  let size := c.nodes.length
  let J := tcpJacobian r s c.nodes c.tcp
  match id with
  | 0 => scale c.factor (scale 2 (rowTimes (tradeoff • c.posError s) J 0 size))
  | 1 => scale c.factor (scale 2 (rowTimes (c.rotError aa s) J 3 size))
  | _ => []

end Simox.Cst
