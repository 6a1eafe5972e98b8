import Verif.Ik.Model

/-!
# The stepwise solvers for constraints

Models `VirtualRobot/IK/ConstrainedIK.cpp` (the list of constraints, `initialize`, `solve`), `ConstrainedHierarchicalIK.cpp` and `ConstrainedStackedIK.cpp`
(`initialize`, `solveStep`). Simplifications: constraints are numbers; reals instead of float; `std::sort` is a parameter of which its contract is assumed; the
seeds (only a warning here), the output and the reduced robot are left out.
-/

namespace Simox.Cst

open Kin Jac Ik

/-! ## The constraints -/

/-- ConstrainedIK.h: `constraints`, `priorities` and `hardConstraints`. The maps are only read with `operator[]`, which gives 0 and false for missing keys. -/
structure Book where
  list : List Nat
  prio : Nat → Int
  hard : Nat → Bool

/-- ConstrainedIK.cpp 3-27. -/
def Book.empty : Book := ⟨[], fun _ => 0, fun _ => false⟩

/-- A map with one entry changed. -/
def set {α : Type} (f : Nat → α) (c : Nat) (v : α) : Nat → α := fun d => if d = c then v else f d

/-- ConstrainedIK.cpp 29-38 `addConstraint`; `sort` is `std::sort` with the comparison by the given priorities. -/
def Book.add (sort : (Nat → Int) → List Nat → List Nat) (b : Book) (c : Nat) (p : Int) (h : Bool) : Book :=
  let prio := set b.prio c p
  ⟨sort prio (b.list ++ [c]), prio, set b.hard c h⟩

/-- ConstrainedIK.cpp 40-50 `removeConstraint`. -/
def Book.remove (b : Book) (c : Nat) : Book :=
  if c ∈ b.list then ⟨b.list.erase c, set b.prio c 0, set b.hard c false⟩ else b

/-- A call. -/
inductive BookOp where
  | add (c : Nat) (p : Int) (h : Bool)
  | remove (c : Nat)

/-- The effect of a call. -/
def Book.run (sort : (Nat → Int) → List Nat → List Nat) (b : Book) : BookOp → Book
  | .add c p h => b.add sort c p h
  | .remove c => b.remove c

/-! ## The loop -/

/-- What a solver changes: the state of the robot and of the step function, `running` and `currentIteration`. -/
structure Prog (σ : Type) where
  st : σ
  running : Bool
  iter : Nat

/-- ConstrainedIK.cpp 67-94 `initialize`: `pose` is `getRobotPoseForConstraint` of a constraint, `place` the effect of `setGlobalPose`. `first` is the state
after `initialize` of the constraints. -/
def start {σ : Type} (b : Book) (pose : Nat → Option Pose3) (place : Pose3 → σ → σ) (first : σ) (p : Prog σ) : Bool × Prog σ :=
  match b.list.filterMap pose with
  | [] => (true, ⟨first, true, 0⟩)
  | [x] => (true, ⟨place x first, true, 0⟩)
  | _ => (false, { p with st := first })

/-- ConstrainedIK.cpp 112-121: `goalReached`. -/
def reached {σ : Type} (b : Book) (check : Nat → σ → Bool) (s : σ) : Bool := b.list.all fun c => !(b.hard c && !check c s)

/-- ConstrainedIK.cpp 104-141: the loop, with `n` = `maxIterations - currentIteration` rounds left. -/
def solveLoop {σ : Type} (b : Book) (check : Nat → σ → Bool) (step : σ → Bool × σ) (stepwise : Bool) : Nat → Prog σ → Bool × Prog σ
  | 0, p => (false, { p with running := false })
  | n + 1, p =>
    let r := step p.st
    if !r.1 then (false, { p with st := r.2, running := false })
    else if reached b check r.2 then (true, { p with st := r.2, running := false })
    else if stepwise then (false, { p with st := r.2, iter := p.iter + 1 })
    else solveLoop b check step stepwise n { p with st := r.2, iter := p.iter + 1 }

/-- ConstrainedIK.cpp 96-141 `solve`. -/
def solve {σ : Type} (b : Book) (check : Nat → σ → Bool) (step : σ → Bool × σ) (maxIterations : Int) (stepwise : Bool) (p : Prog σ) : Bool × Prog σ :=
  solveLoop b check step stepwise (maxIterations - p.iter).toNat p

/-! ## Steps -/

/-- The robot, `lastDelta` (`none`: no rows) and for each constraint `lastError` and `lastLastError` (Constraint.h). -/
structure HSt where
  rob : St Pose3
  lastDelta : Option (List ℝ)
  errs : Nat → ℝ × ℝ

/-- Constraint.cpp 13-18 `initialize`, for all constraints of the list; ConstrainedHierarchicalIK.cpp 12-23 does not change `lastDelta`. -/
def HSt.first (b : Book) (h : HSt) : HSt := { h with errs := fun c => if c ∈ b.list then (-1, -1) else h.errs c }

open Classical in
/-- Constraint.cpp 26-38 `getErrorDifference`, for the error `e` of now: the new errors and the result. -/
noncomputable def errorDifference (old : ℝ × ℝ) (e : ℝ) : (ℝ × ℝ) × ℝ := ((e, old.1), if old.1 ≤ 0 then 0 else old.1 - e)

open Classical in
/-- ConstrainedHierarchicalIK.cpp 41-56: the loop over the constraints; `false`: the error of a hard one has increased. -/
noncomputable def raised (hard : Nat → Bool) (err : Nat → ℝ) (eps : ℝ) : List Nat → (Nat → ℝ × ℝ) → Bool × (Nat → ℝ × ℝ)
  | [], es => (true, es)
  | c :: l, es =>
    if hard c then
      let d := errorDifference (es c) (err c)
      if d.2 < -eps then (false, set es c d.1) else raised hard err eps l (set es c d.1)
    else raised hard err eps l es

/-- Eigen `norm` of the difference of two vectors of one size. -/
noncomputable def distance (a b : List ℝ) : ℝ := stepNorm (List.zipWith (fun x y => x - y) a b)

/-- The parameters of a solver. -/
structure Hier where
  ns : NodeSet
  book : Book
  stallEpsilon : ℝ
  raiseEpsilon : ℝ

/-- ConstrainedHierarchicalIK.cpp 58-61, ConstrainedStackedIK.cpp 32-35: the joint values plus `delta`. A failure of `setJointValues` leaves the state; it does
not happen for vectors of the right size. -/
noncomputable def moveBy (r : Robot Pose3) (fuel : Nat) (ns : NodeSet) (delta : List ℝ) (s : St Pose3) : St Pose3 :=
  match ns.setJointValues r fuel (List.zipWith (fun n x => s.value n + x) ns.nodes delta) s with
  | .ok s' => s'
  | _ => s

open Classical in
/-- ConstrainedHierarchicalIK.cpp 30-39: the stall condition. -/
noncomputable def stalled (eps : ℝ) (delta : List ℝ) : Option (List ℝ) → Bool
  | none => false
  | some d => decide (0 < d.length) && decide (distance delta d < eps)

/-- ConstrainedHierarchicalIK.cpp 25-62 `solveStep`; `compute` is `computeStep` of `HierarchicalIK`, `err c` the length of `getError(1)` of constraint `c`. -/
noncomputable def Hier.step (r : Robot Pose3) (fuel : Nat) (o : Hier) (compute : St Pose3 → List ℝ) (err : Nat → St Pose3 → ℝ) (h : HSt) : Bool × HSt :=
  let delta := compute h.rob
  if stalled o.stallEpsilon delta h.lastDelta then (false, h)
  else
    let q := raised o.book.hard (fun c => err c h.rob) o.raiseEpsilon o.book.list h.errs
    if !q.1 then (false, ⟨h.rob, some delta, q.2⟩)
    else (true, ⟨moveBy r fuel o.ns delta h.rob, some delta, q.2⟩)

/-- ConstrainedStackedIK.cpp 25-38 `solveStep`; `compute` is `computeStep` of `StackedIK`. -/
noncomputable def stackedStep (r : Robot Pose3) (fuel : Nat) (ns : NodeSet) (compute : St Pose3 → List ℝ) (s : St Pose3) : Bool × St Pose3 :=
  (true, moveBy r fuel ns (compute s) s)

end Simox.Cst
