import Verif.Planning.Model

/-!
# Model of the RRT and bi-directional RRT planners

`MotionPlanning/Planner/MotionPlanner.cpp`, `Rrt.cpp`, `BiRrt.cpp` and the path-appending functions of
`CSpaceTree.cpp`, on top of the node pool and tree model of `Verif.Planning.Model`.

* The planner has the C-space for itself (no other planner uses the same `CSpace` object).
* Everything the C-space computes (validity, distances, interpolation, local paths) is a parameter
  `Env`; it is instantiated with the model of `CSpaceSampled` in `Verif.Rrt.Sampled`.
* Random numbers, the clock and requests of other threads are a stream of arbitrary items.
* Tree 0 of `Sys` is `tree`, tree 1 is `tree2` of `BiRrt`.
* `tmpConfig`, counters, timings and console output are not modelled.
-/

namespace Simox.Rrt

open Simox.Planning

variable {Q K : Type}

/-- What the planners call on the C-space. -/
structure Env (Q K : Type) where
  /-- `isCollisionFree` -/
  free : Q → Bool
  /-- `isInBoundary` -/
  inBd : Q → Bool
  /-- `calcDist2(·, ·, true)`, used for nearest neighbours -/
  d2 : Q → Q → K
  /-- `calcDist(nn, c) > extendStepSize` -/
  far : Q → Q → Bool
  /-- `interpolate(nn, c, extendStepSize / calcDist(nn, c))` -/
  toward : Q → Q → Q
  /-- `isPathValid` while no stop is requested -/
  pathValid : Q → Q → Bool
  /-- points of `createPath` -/
  path : Q → Q → List Q
  /-- points of `createPathUntilInvalid`, and whether the stored length equals 1 -/
  pathUntil : Q → Q → List Q × Bool

/-- `RrtMethod`, Rrt.h 51-56. -/
inductive Mode where
  | extend | connect | connectComplete
  deriving DecidableEq

/-- `ExtensionResult`, Rrt.h 58-64, and the two ways not to return: the exception of an exhausted node
pool, and the dereference of a null pointer. -/
inductive Ext where
  | error | failed | success | part
  | throws | undef
  deriving DecidableEq

/-- `appendNode` on tree `k` of a system. -/
def push (s : Sys Q) (k : Nat) (q : Q) (parent : Int) : Option (Nat × Sys Q) :=
  match appendNode s.pool (s.tree k) q parent with
  | none => none
  | some (i, p, t) => some (i, { pool := p, tree := upd s.tree k t })

/-- The loop of `CSpaceTree::appendPath(startNode, path, …)`, CSpaceTree.cpp 216-223. If the pool is
exhausted on the way, the nodes appended so far stay (second component `none`). -/
def appendList (s : Sys Q) (k n : Nat) : List Q → Sys Q × Option Nat
  | [] => (s, some n)
  | q :: qs =>
    match push s k q n with
    | none => (s, none)
    | some (i, s) => appendList s k i qs

section
variable [LT K] [DecidableRel (α := K) (· < ·)] (env : Env Q K)

/-- `CSpaceTree::appendPath(startNode, config, storeLastAddedID)`, CSpaceTree.cpp 236-250 and 212-231,
with the result codes of the calling planner functions: `error` if the local path has at most one
point. -/
def appendLocal (s : Sys Q) (k nn : Nat) (last : Int) (local_ : List Q) (okResult : Ext) :
    Sys Q × Int × Ext :=
  match local_ with
  | _ :: q :: qs =>
    match appendList s k nn (q :: qs) with
    | (s, none) => (s, last, .throws)
    | (s, some i) => (s, (i : Int), okResult)
  | _ => (s, last, .error)

/-- `Rrt::extend`, Rrt.cpp 253-303. `cut` says that `stopPathCheck` is set. -/
def extend (cut : Bool) (s : Sys Q) (k : Nat) (last : Int) (c : Q) : Sys Q × Int × Ext :=
  match nearestNeighbor s.pool (s.tree k) env.d2 c with
  | none => (s, last, .undef)
  | some nn =>
    let u := (s.pool.node nn).config
    let far := env.far u c
    let tmp := if far then env.toward u c else c
    if !cut && env.pathValid u tmp then
      appendLocal s k nn last (env.path u tmp) (if far then .part else .success)
    else (s, last, .failed)

/-- `Rrt::connectComplete`, Rrt.cpp 306-326. -/
def connectComplete (cut : Bool) (s : Sys Q) (k : Nat) (last : Int) (c : Q) : Sys Q × Int × Ext :=
  match nearestNeighbor s.pool (s.tree k) env.d2 c with
  | none => (s, last, .undef)
  | some nn =>
    let u := (s.pool.node nn).config
    if !cut && env.pathValid u c then appendLocal s k nn last (env.path u c) .success
    else (s, last, .failed)

/-- `Rrt::connectUntilCollision`, Rrt.cpp 328-349, with `CSpaceTree::appendPathUntilCollision`,
CSpaceTree.cpp 188-210. -/
def connectUntil (s : Sys Q) (k : Nat) (last : Int) (c : Q) : Sys Q × Int × Ext :=
  match nearestNeighbor s.pool (s.tree k) env.d2 c with
  | none => (s, last, .undef)
  | some nn =>
    let r := env.pathUntil (s.pool.node nn).config c
    match r.1 with
    | _ :: q :: qs =>
      match appendList s k nn (q :: qs) with
      | (s, none) => (s, last, .throws)
      | (s, some i) =>
        (s, (i : Int), if r.2 then .success else if (i : Int) = last then .failed else .part)
    | _ => (s, last, .failed)

/-- The `switch (rrtMode)` of `plan`, Rrt.cpp 114-129, 163-178; BiRrt.cpp 142-158, 175-191. -/
def grow (mode : Mode) (cut : Bool) (s : Sys Q) (k : Nat) (last : Int) (c : Q) : Sys Q × Int × Ext :=
  match mode with
  | .extend => extend env cut s k last c
  | .connect => connectUntil env s k last c
  | .connectComplete => connectComplete env cut s k last c

end

/-! ## Planner object -/

/-- Members of `MotionPlanner`, `Rrt` and `BiRrt`. -/
structure Planner (Q : Type) where
  sys : Sys Q
  startCfg : Q
  goalCfg : Q
  startValid : Bool
  goalValid : Bool
  startNode : Option Nat
  goalNode : Option Nat
  lastAddedID : Int
  lastAddedID2 : Int
  solution : Option (List Q)

/-- A new planner on a new C-space, MotionPlanner.cpp 7-36, Rrt.cpp 17-43, BiRrt.cpp 20-26. -/
def Planner.new (cap : Nat) (q0 : Q) : Planner Q where
  sys := Sys.new cap q0
  startCfg := q0
  goalCfg := q0
  startValid := false
  goalValid := false
  startNode := none
  goalNode := none
  lastAddedID := -1
  lastAddedID2 := -1
  solution := none

/-- Outcome of a planner call. -/
inductive Res where
  | ret (b : Bool)
  /-- exception "maxNodes exceeded" -/
  | throws
  /-- null pointer dereferenced -/
  | undef
  /-- infinite loop -/
  | diverges
  deriving DecidableEq

/-- Outcome of `getSolution`. -/
inductive SolRes (Q : Type) where
  | path (l : List Q)
  | null
  | undef
  | diverges

/-- One cycle's worth of external influence. -/
structure Item (Q : Type) where
  /-- `RandomFloat() <= extendGoToGoal` -/
  toGoal : Bool
  /-- result of `getRandomConfig` -/
  rnd : Q
  /-- `stopPathCheck` is set -/
  cut : Bool
  /-- another thread called `stopExecution()` -/
  stop : Bool
  /-- the planning timeout is exceeded -/
  timeout : Bool

/-- `maxCycles` and the influences of all cycles of one `plan` call. -/
structure Sched (Q : Type) where
  maxCycles : Nat
  item : Nat → Item Q

section
variable [LT K] [DecidableRel (α := K) (· < ·)] (env : Env Q K)

/-- `MotionPlanner::setStart`, MotionPlanner.cpp 98-124, and `Rrt::setStart`, Rrt.cpp 401-418 (also
`BiRrt::setStart`). -/
def setStart (p : Planner Q) (c : Q) : Res × Planner Q :=
  let p := { p with startCfg := c, startValid := false }
  if !env.free c then (.ret false, p)
  else if !env.inBd c then (.ret false, p)
  else
    let p := { p with startValid := true }
    let s := { p.sys with tree := upd p.sys.tree 0 Tree.empty }
    match push s 0 c (-1) with
    | none => (.throws, { p with sys := s })
    | some (i, s) => (.ret true, { p with sys := s, startNode := some i })

/-- `MotionPlanner::setGoal`, MotionPlanner.cpp 127-153, and `Rrt::setGoal`, Rrt.cpp 421-429. -/
def setGoal (p : Planner Q) (c : Q) : Bool × Planner Q :=
  let p := { p with goalCfg := c, goalValid := false }
  if !env.free c then (false, p)
  else if !env.inBd c then (false, p)
  else (true, { p with goalValid := true })

/-- `if (goalNode) tree2->removeNode(goalNode)`, BiRrt.cpp 387-390. -/
def dropGoal (p : Planner Q) : Sys Q :=
  match p.goalNode with
  | none => p.sys
  | some g =>
    let r := removeNode p.sys.pool (p.sys.tree 1) g
    { pool := r.1, tree := upd p.sys.tree 1 r.2 }

/-- `BiRrt::setGoal`, BiRrt.cpp 379-395. -/
def biSetGoal (p : Planner Q) (c : Q) : Res × Planner Q :=
  match setGoal env p c with
  | (false, p) => (.ret false, p)
  | (true, p) =>
    let s := dropGoal p
    match push s 1 c (-1) with
    | none => (.throws, { p with sys := s })
    | some (i, s) => (.ret true, { p with sys := s, goalNode := some i })

/-- `MotionPlanner::reset`, MotionPlanner.cpp 193-207, `Rrt::reset`, Rrt.cpp 507-517, `BiRrt::reset`,
BiRrt.cpp 397-405. `solution` and the last added IDs are kept by the code. (`startConfig`/`goalConfig`
are overwritten with zeros; they cannot be observed while the validity flags are false.) -/
def reset (p : Planner Q) : Planner Q :=
  { p with
    startValid := false
    goalValid := false
    startNode := none
    goalNode := none
    sys := { pool := p.sys.pool.reset, tree := upd (upd p.sys.tree 0 Tree.empty) 1 Tree.empty } }

/-- The backward walk of `Rrt::createSolution`, Rrt.cpp 456-482. More iterations than the tree has nodes
mean that a node is visited twice, hence an infinite loop (`running`). -/
def solLoop (s : Sys Q) (start : Nat) : Nat → Nat → List Nat → Walk
  | 0, _, _ => .running
  | fuel + 1, act, acc =>
    let next := (s.pool.node act).parent
    if next < 0 then if act ≠ start then .notFound else .found acc
    else
      match (s.tree 0).getNode next.toNat with
      | none => .notFound
      | some a =>
        if a = start then .found (acc ++ [next.toNat])
        else solLoop s start fuel a (acc ++ [next.toNat])

/-- `Rrt::createSolution`, Rrt.cpp 432-505; `diverges`/`undef` are outcomes, otherwise the new value of
`solution`. -/
def createSolution (p : Planner Q) : Res × Planner Q :=
  match p.goalNode with
  | none => (.ret false, p)
  | some g =>
    if (p.sys.pool.node g).parent < 0 then (.ret false, p)
    else
      match (p.sys.tree 0).getNode g, p.startNode with
      | some l, some st =>
        match solLoop p.sys st ((p.sys.tree 0).nrOfNodes + 1) l [l] with
        | .running => (.diverges, p)
        | .notFound => (.ret false, p)
        | .found ids =>
          (.ret true,
            { p with solution := some (ids.reverse.map fun i => (p.sys.pool.node i).config) })
      | _, _ => (.undef, p)

/-- `MotionPlanner::getSolution`, MotionPlanner.cpp 183-191, for a given `createSolution`. -/
def getSolutionWith (create : Planner Q → Res × Planner Q) (p : Planner Q) : SolRes Q × Planner Q :=
  let r := if p.solution.isSome then (.ret true, p) else create p
  match r.1 with
  | .undef => (.undef, r.2)
  | .throws => (.undef, r.2)
  | .diverges => (.diverges, r.2)
  | .ret _ =>
    match r.2.solution with
    | none => (.null, r.2)
    | some l => (.path l, r.2)

/-- `getSolution` of an `Rrt`. -/
def getSolution (p : Planner Q) : SolRes Q × Planner Q := getSolutionWith createSolution p

/-- How a cycle of a planning loop ends: by leaving the loop (`ret true` = found), or by going on if
cycles are left. -/
inductive Cyc where
  | leave (r : Res)
  | go

/-- One cycle of the extension loop of `Rrt::plan`, Rrt.cpp 106-198. -/
def planCycle (mode : Mode) (it : Item Q) (p : Planner Q) : Cyc × Planner Q :=
  let g := grow env mode it.cut p.sys 0 p.lastAddedID (if it.toGoal then p.goalCfg else it.rnd)
  let p := { p with sys := g.1, lastAddedID := g.2.1 }
  if g.2.2 = .undef then (.leave .undef, p)
  else if g.2.2 = .throws then (.leave .throws, p)
  else
    let hit := it.toGoal && g.2.2 = .success
    let node := p.sys.pool.getNode p.lastAddedID.toNat
    let p := if hit then { p with goalNode := node } else p
    let found := hit && node.isSome
    let stop := it.stop || (hit && node.isNone) || g.2.2 = .error
    if it.timeout then (.leave (.ret false), p)
    else if found then (.leave (.ret true), p)
    else if stop then (.leave (.ret false), p)
    else (.go, p)

/-- The extension loop, from cycle `cyc` on, with `n` further cycles allowed after this one. -/
def planLoop (mode : Mode) (item : Nat → Item Q) : Nat → Nat → Planner Q → Res × Planner Q
  | n, cyc, p =>
    match planCycle env mode (item cyc) p with
    | (.leave r, p) => (r, p)
    | (.go, p) =>
      match n with
      | 0 => (.ret false, p)
      | n + 1 => planLoop mode item n (cyc + 1) p

/-- `Rrt::plan`, Rrt.cpp 50-251. (`goalNode = cspace->getNode(lastAddedID)`; a failing `createSolution`
after success does not change the result.) -/
def plan (mode : Mode) (sched : Sched Q) (p : Planner Q) : Res × Planner Q :=
  if !(p.startValid && p.goalValid) then (.ret false, p)
  else
    match planLoop env mode sched.item (sched.maxCycles - 1) 0 { p with solution := none } with
    | (.ret true, p) =>
      match createSolution p with
      | (.ret _, p) => (.ret true, p)
      | r => r
    | r => r

/-! ## BiRrt -/

/-- A walk of `BiRrt::createSolution` up to a node without parent, BiRrt.cpp 325-331, 336-342.
`none` = null pointer dereferenced. -/
def biWalk (s : Sys Q) (k : Nat) : Nat → Int → List Nat → Option Walk
  | 0, _, _ => some .running
  | fuel + 1, next, acc =>
    if next < 0 then some (.found acc)
    else
      match (s.tree k).getNode next.toNat with
      | none => none
      | some a => biWalk s k fuel (s.pool.node a).parent (acc ++ [next.toNat])

/-- `BiRrt::createSolution`, BiRrt.cpp 289-372. -/
def biCreateSolution (p : Planner Q) : Res × Planner Q :=
  let p := { p with solution := none }
  match (p.sys.tree 0).getNodeInt p.lastAddedID, (p.sys.tree 1).getNodeInt p.lastAddedID2 with
  | some a, some b =>
    match biWalk p.sys 0 ((p.sys.tree 0).nrOfNodes + 1) (p.sys.pool.node a).parent [a],
      biWalk p.sys 1 ((p.sys.tree 1).nrOfNodes + 1) (p.sys.pool.node b).parent [] with
    | some (.found l1), some (.found l2) =>
      (.ret true,
        { p with solution := some ((l1.reverse ++ l2).map fun i => (p.sys.pool.node i).config) })
    | none, _ => (.undef, p)
    | some .running, _ => (.diverges, p)
    | _, none => (.undef, p)
    | _, _ => (.diverges, p)
  | _, _ => (.ret false, p)

/-- `getSolution` of a `BiRrt`. -/
def biGetSolution (p : Planner Q) : SolRes Q × Planner Q := getSolutionWith biCreateSolution p

/-- `*lastIDA` etc.: the last added ID of tree `k`. -/
def Planner.lastOf (p : Planner Q) (k : Nat) : Int :=
  if k = 0 then p.lastAddedID else p.lastAddedID2

/-- Store the last added ID of tree `k`. -/
def Planner.setLast (p : Planner Q) (k : Nat) (i : Int) : Planner Q :=
  if k = 0 then { p with lastAddedID := i } else { p with lastAddedID2 := i }

/-- One extension of tree `k`, with the bookkeeping of the last added ID. -/
def biGrow (mode : Mode) (cut : Bool) (p : Planner Q) (k : Nat) (c : Q) : Planner Q × Ext :=
  let g := grow env mode cut p.sys k (p.lastOf k) c
  ({ p with sys := g.1 }.setLast k g.2.1, g.2.2)

/-- The second half of a cycle of `BiRrt::plan`, BiRrt.cpp 167-215: tree `b` is extended towards the
node last added to tree `a`. Returns how the extension ended and whether the trees met. -/
def biSecond (modeB : Mode) (cut : Bool) (a b : Nat) (p : Planner Q) : Ext × Bool × Planner Q :=
  match (p.sys.tree a).getNodeInt (p.lastOf a) with
  | none => (.undef, false, p)
  | some n =>
    let gB := biGrow env modeB cut p b (p.sys.pool.node n).config
    let p := gB.1
    if gB.2 = .success then
      let node := (p.sys.tree b).getNodeInt (p.lastOf b)
      (if node.isSome then .success else .error, node.isSome, { p with goalNode := node })
    else (gB.2, false, p)

/-- One cycle of the planning loop of `BiRrt::plan`, BiRrt.cpp 114-231. Tree A is `tree` or, if
`switched`, `tree2`; `rrtMode` belongs to `tree`, `rrtMode2` to `tree2`. -/
def biCycle (mode mode2 : Mode) (it : Item Q) (switched : Bool) (p : Planner Q) : Cyc × Planner Q :=
  let a := if switched then 1 else 0
  let b := if switched then 0 else 1
  let gA := biGrow env (if switched then mode2 else mode) it.cut p a it.rnd
  let p := gA.1
  if gA.2 = .undef then (.leave .undef, p)
  else if gA.2 = .throws then (.leave .throws, p)
  else
    let r := if gA.2 = .part ∨ gA.2 = .success then
        biSecond env (if switched then mode else mode2) it.cut a b p
      else (gA.2, false, p)
    let p := r.2.2
    if r.1 = .undef then (.leave .undef, p)
    else if r.1 = .throws then (.leave .throws, p)
    else if it.timeout then (.leave (.ret false), p)
    else if r.2.1 then (.leave (.ret true), p)
    else if it.stop || r.1 = .error then (.leave (.ret false), p)
    else (.go, p)

/-- The planning loop of `BiRrt::plan`, BiRrt.cpp 106-231. -/
def biLoop (mode mode2 : Mode) (item : Nat → Item Q) : Nat → Nat → Bool → Planner Q → Res × Planner Q
  | n, cyc, switched, p =>
    match biCycle env mode mode2 (item cyc) switched p with
    | (.leave r, p) => (r, p)
    | (.go, p) =>
      match n with
      | 0 => (.ret false, p)
      | n + 1 => biLoop mode mode2 item n (cyc + 1) (!switched) p

/-- `BiRrt::plan`, BiRrt.cpp 32-285. -/
def biPlan (mode mode2 : Mode) (sched : Sched Q) (p : Planner Q) : Res × Planner Q :=
  if !(p.startValid && p.goalValid) then (.ret false, p)
  else
    match biLoop env mode mode2 sched.item (sched.maxCycles - 1) 0 false { p with solution := none } with
    | (.ret true, p) =>
      match biCreateSolution p with
      | (.ret _, p) => (.ret true, p)
      | r => r
    | r => r

/-! ## Histories -/

/-- Calls on a planner. -/
inductive Op (Q : Type) where
  | setStart (c : Q)
  | setGoal (c : Q)
  | plan (sched : Sched Q)
  | getSolution
  | reset

/-- A call of a user on an `Rrt`; `none` if it does not end normally or with an exception. -/
def step (mode : Mode) (p : Planner Q) : Op Q → Option (Planner Q)
  | .setStart c => some (setStart env p c).2
  | .setGoal c => some (setGoal env p c).2
  | .plan sched =>
    match plan env mode sched p with
    | (.undef, _) => none
    | (.diverges, _) => none
    | (_, p) => some p
  | .getSolution =>
    match getSolution p with
    | (.undef, _) => none
    | (.diverges, _) => none
    | (_, p) => some p
  | .reset => some (reset p)

/-- The same on a `BiRrt`. -/
def biStep (mode mode2 : Mode) (p : Planner Q) : Op Q → Option (Planner Q)
  | .setStart c => some (setStart env p c).2
  | .setGoal c => some (biSetGoal env p c).2
  | .plan sched =>
    match biPlan env mode mode2 sched p with
    | (.undef, _) => none
    | (.diverges, _) => none
    | (_, p) => some p
  | .getSolution =>
    match biGetSolution p with
    | (.undef, _) => none
    | (.diverges, _) => none
    | (_, p) => some p
  | .reset => some (reset p)

/-- A history of calls on an `Rrt`. -/
def run (mode : Mode) : Planner Q → List (Op Q) → Option (Planner Q)
  | p, [] => some p
  | p, op :: ops =>
    match step env mode p op with
    | none => none
    | some p => run mode p ops

/-- A history of calls on a `BiRrt`. -/
def biRun (mode mode2 : Mode) : Planner Q → List (Op Q) → Option (Planner Q)
  | p, [] => some p
  | p, op :: ops =>
    match biStep env mode mode2 p op with
    | none => none
    | some p => biRun mode mode2 p ops

end

end Simox.Rrt
