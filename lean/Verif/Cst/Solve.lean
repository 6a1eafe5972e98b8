import Verif.Cst.Model
import Verif.Ik.GenericSpec

/-!
# Solvers for constraints

Models `VirtualRobot/IK/ConstrainedOptimizationIK.cpp` and `ConstrainedIK.cpp`. The optimiser (NLopt) is a parameter: for each attempt any sequence of
evaluations of the objective and any result. Simplifications: reals instead of float and double; of visualisation and collision models only the two flags of
the robot; the output on the console is left out.
-/

namespace Simox.Cst

open Kin Jac Ik

/-- Constraint.h `OptimizationFunctionSetup`, with the functions of its constraint: `value` and `grad` for the id of the setup, `check` is `checkTolerances`
(`none`: it throws). -/
structure Fn where
  value : St Pose3 → ℝ
  grad : St Pose3 → List ℝ
  check : St Pose3 → Option Bool
  soft : Bool

/-- ConstrainedIK.h `SeedType`, with the configuration of `eSeedOther`. -/
inductive Seed where
  | initial
  | zero
  | other (s : List ℝ)

/-- The solver as it is used during one call of `solve`: the functions of all constraints in their order, `collision` tells whether a constraint uses the
collision model. -/
structure Opt where
  ns : NodeSet
  fns : List Fn
  collision : Bool
  seeds : List Seed
  displacement : ℝ
  maxIterations : Nat

/-- What a call changes: the robot, `currentX` (empty at first), `initialConfig`, the flags for updating the visualisation and the collision model and
whether there is an optimiser. -/
structure OSt where
  rob : St Pose3
  cur : List ℝ
  init : List ℝ
  vis : Bool
  col : Bool
  ready : Bool

/-- Result of a call; an exception leaves its state as well. `bad`: undefined behaviour or no end. -/
inductive Out (α : Type) where
  | ret (a : α) (k : OSt)
  | throw (k : OSt)
  | bad

/-- ConstrainedOptimizationIK.cpp 50-93 `initialize`. -/
def Opt.initialize (o : Opt) (k : OSt) : OSt := { k with init := o.ns.nodes.map k.rob.value, ready := true }

/-- ConstrainedOptimizationIK.cpp 244-249, 303-308, 325-330: move the robot to `x` if it is not known to be there. -/
noncomputable def Opt.goTo (r : Robot Pose3) (fuel : Nat) (o : Opt) (x : List ℝ) (k : OSt) : Out Unit :=
  if x = k.cur then .ret () k
  else match o.ns.setJointValues r fuel x k.rob with
    | .ok s => .ret () { k with rob := s, cur := x }
    | .throw => .throw k
    | .diverge => .bad

/-- ConstrainedOptimizationIK.cpp 253-264: `scalingVec`. -/
noncomputable def scaling (r : JRobot) (n : Nat) : ℝ :=
  match r.kind n with
  | .revolute _ _ _ => 1
  | _ => 1 / 57

/-- Eigen `VectorXf::normalize`: a vector of length zero stays. -/
noncomputable def normalize (v : List ℝ) : List ℝ :=
  let z := (v.map fun x => x * x).sum
  if 0 < z then v.map (· / Real.sqrt z) else v

/-- ConstrainedOptimizationIK.cpp 240-297 `optimizationFunction`: value and gradient in the state it has moved to. The gradients of the functions have
one entry per joint. -/
noncomputable def Opt.objective (r : JRobot) (o : Opt) (s : St Pose3) : ℝ × List ℝ :=
  ((o.fns.map fun f => f.value s).sum,
    normalize (o.fns.foldl (fun g f => List.zipWith (· + ·) g (List.zipWith (fun x n => x * scaling r n) (f.grad s) o.ns.nodes))
      (zeros o.ns.nodes.length)))

/-- The optimiser: for an attempt and a starting point, the points where the objective or a constraint is evaluated and the result. -/
abbrev Optimiser := Nat → List ℝ → List (List ℝ) × List ℝ

/-- ConstrainedOptimizationIK.cpp 174-189: `optimize`; exceptions in the objective (wrong sizes) end it and are caught. -/
noncomputable def Opt.evaluations (r : Robot Pose3) (fuel : Nat) (o : Opt) : List (List ℝ) → OSt → Out Unit
  | [], k => .ret () k
  | x :: l, k => match o.goTo r fuel x k with
    | .ret _ k' => Opt.evaluations r fuel o l k'
    | .throw k' => .ret () k'
    | .bad => .bad

/-- ConstrainedOptimizationIK.cpp 138, 146, 155: `std::max(lo, std::min(hi, x))`. -/
noncomputable def intoLimits (l : Lim) (x : ℝ) : ℝ := max l.lo (min l.hi x)

/-- ConstrainedOptimizationIK.cpp 120-168: where attempt `a` starts. `t` gives the random numbers. `none`: a seed of the wrong size (undefined). -/
noncomputable def Opt.start (r : Robot Pose3) (o : Opt) (t : Nat → Nat → ℝ) (init : List ℝ) (a : Nat) : Option (List ℝ) :=
  let n := o.ns.nodes.length
  match o.seeds[a]? with
  | none => if init.length < n then none else
      some ((o.ns.nodes.zip (init.zip (List.range n))).map fun p =>
        p.2.1 + o.displacement * ((r.lim p.1).lo + t a p.2.2 * ((r.lim p.1).hi - (r.lim p.1).lo) - p.2.1))
  | some .zero => some (o.ns.nodes.map fun m => intoLimits (r.lim m) 0)
  | some .initial => if init.length < n then none else some (List.zipWith (fun m x => intoLimits (r.lim m) x) o.ns.nodes init)
  | some (.other s) => if s.length < n then none else some (List.zipWith (fun m x => intoLimits (r.lim m) x) o.ns.nodes s)

open Classical in
/-- ConstrainedOptimizationIK.cpp 161-168: the test of a starting point which is a seed. -/
noncomputable def Opt.startOk (r : Robot Pose3) (o : Opt) (a : Nat) (x : List ℝ) : Bool :=
  decide (o.seeds.length ≤ a) || (o.ns.nodes.zip x).all fun p => !(decide (p.2 < (r.lim p.1).lo) || decide ((r.lim p.1).hi < p.2))

/-- ConstrainedOptimizationIK.cpp 191-194: the joints are set one by one. `none`: no end. -/
noncomputable def setEach (r : Robot Pose3) (fuel : Nat) : List (Nat × ℝ) → St Pose3 → Option (St Pose3)
  | [], s => some s
  | e :: l, s => (setJointValue r fuel e.1 e.2 s).bind (setEach r fuel l)

/-- ConstrainedOptimizationIK.cpp 331-353: tolerances and error of the functions that are not soft. `none`: a check throws. -/
noncomputable def hardSum (s : St Pose3) : List Fn → Option (Bool × ℝ)
  | [] => some (true, 0)
  | f :: l =>
    if f.soft then hardSum s l
    else match f.check s, hardSum s l with
      | some b, some (b', e) => some (b && b', f.value s + e)
      | _, _ => none

/-- ConstrainedOptimizationIK.cpp 323-354 `hardOptimizationFunction`. -/
noncomputable def Opt.hard (r : Robot Pose3) (fuel : Nat) (o : Opt) (x : List ℝ) (k : OSt) : Out (Bool × ℝ) :=
  match o.goTo r fuel x k with
  | .ret _ k' => match hardSum k'.rob o.fns with
    | some b => .ret b k'
    | none => .throw k'
  | .throw k' => .throw k'
  | .bad => .bad

/-- ConstrainedOptimizationIK.cpp 114-194: an attempt, up to the state in which its result is judged. Returns the result of the optimiser; its size is that
of the starting point. -/
noncomputable def Opt.attempt (r : Robot Pose3) (fuel : Nat) (o : Opt) (t : Nat → Nat → ℝ) (opt : Optimiser) (a : Nat) (k : OSt) : Out (List ℝ) :=
  match o.start r t k.init a with
  | none => .bad
  | some x0 =>
    if o.startOk r a x0 then
      match o.evaluations r fuel (opt a x0).1 k with
      | .ret _ k1 => match setEach r fuel (o.ns.nodes.zip (opt a x0).2) k1.rob with
        | some s => .ret (opt a x0).2 { k1 with rob := s }
        | none => .bad
      | .throw k' => .throw k'
      | .bad => .bad
    else .throw k

open Classical in
/-- ConstrainedOptimizationIK.cpp 208-213: keep the configuration with the smallest error. -/
noncomputable def better (e : ℝ) (x : List ℝ) : Option (ℝ × List ℝ) → Option (ℝ × List ℝ)
  | none => some (e, x)
  | some (m, y) => if e < m then some (e, x) else some (m, y)

open Classical in
/-- ConstrainedOptimizationIK.cpp 114-228: the attempts from `a`, `n` of them left; `best` is `currentMinError` and `bestJointValues` (errors below the
largest double). The flags are restored to `fl` at the end. -/
noncomputable def Opt.loop (r : Robot Pose3) (fuel : Nat) (o : Opt) (t : Nat → Nat → ℝ) (opt : Optimiser) (fl : Bool × Bool) :
    Nat → Nat → Option (ℝ × List ℝ) → OSt → Out Bool
  | 0, _, best, k =>
    match best with
    | none => .ret false { k with vis := fl.1, col := fl.2 }
    | some (_, x) =>
      if x.length = 0 then .ret false { k with vis := fl.1, col := fl.2 }
      else match o.ns.setJointValues r fuel x k.rob with
        | .ok s => .ret false { k with rob := s, vis := fl.1, col := fl.2 }
        | .throw => .throw k
        | .diverge => .bad
  | n + 1, a, best, k =>
    match o.attempt r fuel t opt a k with
    | .throw k' => .throw k'
    | .bad => .bad
    | .ret x k1 => match o.hard r fuel x k1 with
      | .throw k' => .throw k'
      | .bad => .bad
      | .ret (success, e) k2 =>
        if success then
          match o.ns.setJointValues r fuel x k2.rob with
          | .ok s => .ret true { k2 with rob := s, vis := fl.1, col := fl.2 }
          | .throw => .throw { k2 with vis := fl.1, col := fl.2 }
          | .diverge => .bad
        else
          Opt.loop r fuel o t opt fl n (a + 1)
            (better e x best) k2

/-- ConstrainedOptimizationIK.cpp 95-228 `solve`. -/
noncomputable def Opt.solve (r : Robot Pose3) (fuel : Nat) (o : Opt) (t : Nat → Nat → ℝ) (opt : Optimiser) (stepwise : Bool) (k : OSt) : Out Bool :=
  if stepwise then .throw k
  else if !k.ready then .throw k
  else o.loop r fuel t opt (k.vis, k.col) o.maxIterations 0 none { k with vis := false, col := o.collision }

end Simox.Cst
