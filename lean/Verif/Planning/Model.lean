/-!
# Model of the C-space node pool and the RRT tree

`MotionPlanning/CSpace/CSpace.cpp` (node pool) and `MotionPlanning/CSpace/CSpaceTree.cpp`.

* A `CSpaceNodePtr` handed out by the pool is identified with the node's `ID`: the constructor
  creates exactly one node object per ID and IDs are never changed afterwards.
* `Q` is the type of configurations (`Eigen::VectorXf` of the right dimension); the assertions
  `config.rows() == dimension` hold by typing.
* `children` lists are not modelled: `updateChildren` is false unless a user calls
  `setUpdateChildren(true)` (CSpaceTree.h 88), no code in the repository does.
* `obstacleDistance`/`dynDomRadius` do not influence anything modelled here.
* 32-bit overflow of IDs is not modelled (the pool would need `2^31` nodes).
-/

namespace Simox.Planning

/-- The fields of `CSpaceNode` used (CSpaceNode.h). `parent < 0` means "no parent". -/
structure Node (Q : Type) where
  parent : Int
  config : Q
  allocated : Bool

/-- The pool members of `CSpace`: `maxNodes`, the node objects (indexed by ID) and `freeNodes`.
The *back* of the C++ vector `freeNodes` is the *head* of the list. -/
structure Pool (Q : Type) where
  cap : Nat
  node : Nat → Node Q
  free : List Nat

variable {Q : Type}

/-- `f` with the value at `i` replaced. -/
def upd {α : Type} (f : Nat → α) (i : Nat) (x : α) : Nat → α := fun j => if j = i then x else f j

/-- Constructor, CSpace.cpp 102-116. `q0` stands for the uninitialised configuration. -/
def Pool.new (cap : Nat) (q0 : Q) : Pool Q :=
  { cap := cap
    node := fun _ => { parent := -666, config := q0, allocated := false }
    free := (List.range cap).reverse }

/-- `CSpace::reset`, CSpace.cpp 137-148: everything becomes free, whoever may still use it. -/
def Pool.reset (p : Pool Q) : Pool Q :=
  { p with
    node := fun i => if i < p.cap then { p.node i with allocated := false } else p.node i
    free := (List.range p.cap).reverse }

/-- `CSpace::createNewNode`, CSpace.cpp 571-587. `none` = exception "maxNodes exceeded". -/
def Pool.createNewNode (p : Pool Q) : Option (Nat × Pool Q) :=
  match p.free with
  | [] => none
  | i :: rest =>
    some (i, { p with node := upd p.node i { p.node i with allocated := true }, free := rest })

/-- `CSpace::removeNode`, CSpace.cpp 766-778. -/
def Pool.removeNode (p : Pool Q) (i : Nat) : Pool Q :=
  if i ≥ p.cap then p
  else
    { p with
      node := upd p.node i { p.node i with allocated := false }
      free := i :: p.free }

/-- `CSpace::getNode`, CSpace.cpp 150-164 (`none` = null pointer). -/
def Pool.getNode (p : Pool Q) (i : Nat) : Option Nat := if i ≥ p.cap then none else some i

/-- `CSpaceTree`: the vector `nodes` and the map `idNodeMapping` (CSpaceTree.h). -/
structure Tree where
  ids : List Nat
  map : Nat → Option Nat

/-- A new or reset tree, CSpaceTree.cpp 22-41, 58-62. -/
def Tree.empty : Tree := { ids := [], map := fun _ => none }

/-- `CSpaceTree::getNode`, CSpaceTree.cpp 64-73. -/
def Tree.getNode (t : Tree) (id : Nat) : Option Nat := t.map id

/-- `getNode` called with an `int` argument: a negative one converts to a huge `unsigned int`, which
is no ID. -/
def Tree.getNodeInt (t : Tree) (id : Int) : Option Nat := if id < 0 then none else t.map id.toNat

/-- `CSpaceTree::hasNode`, CSpaceTree.cpp 75-88 (non-null argument). -/
def Tree.hasNode (t : Tree) (n : Nat) : Bool := (t.map n).isSome

/-- `CSpaceTree::getNrOfNodes`, CSpaceTree.cpp 475-478. -/
def Tree.nrOfNodes (t : Tree) : Nat := t.ids.length

/-- `nodes.push_back(newNode); idNodeMapping[newNode->ID] = newNode`, CSpaceTree.cpp 141-142. -/
def Tree.add (t : Tree) (i : Nat) : Tree := { ids := t.ids ++ [i], map := upd t.map i (some i) }

/-- `nodes.erase(it); idNodeMapping.erase(n->ID)`, CSpaceTree.cpp 286-287. -/
def Tree.del (t : Tree) (n : Nat) : Tree := { ids := t.ids.erase n, map := upd t.map n none }

/-- `CSpaceTree::appendNode`, CSpaceTree.cpp 129-184. `none` = exception of the pool. -/
def appendNode (p : Pool Q) (t : Tree) (config : Q) (parent : Int) :
    Option (Nat × Pool Q × Tree) :=
  match p.createNewNode with
  | none => none
  | some (i, p) =>
    some (i,
      { p with node := upd p.node i { p.node i with parent := parent, config := config } },
      t.add i)

/-- `CSpaceTree::removeNode`, CSpaceTree.cpp 253-289 (non-null argument). -/
def removeNode (p : Pool Q) (t : Tree) (n : Nat) : Pool Q × Tree :=
  if t.ids = [] then (p, t)
  else if n ∈ t.ids then
    (p.removeNode n, t.del n)
  else (p, t)

/-- `CSpaceTree::appendPath(startNode, path, storeLastAddedID)`, CSpaceTree.cpp 212-231: appends the
configurations as a chain below `n`. Returns the last ID (`n` if the path is empty). -/
def appendChain (p : Pool Q) (t : Tree) (n : Nat) : List Q → Option (Nat × Pool Q × Tree)
  | [] => some (n, p, t)
  | q :: qs =>
    match appendNode p t q n with
    | none => none
    | some (i, p, t) => appendChain p t i qs

/-- Loop of `getNearestNeighborID`, CSpaceTree.cpp 313-322. -/
def nearestLoop {K : Type} [LT K] [DecidableRel (α := K) (· < ·)] (d : Nat → K) :
    Nat → K → List Nat → Nat
  | best, _, [] => best
  | best, dist, i :: is => if d i < dist then nearestLoop d i (d i) is else nearestLoop d best dist is

/-- `CSpaceTree::getNearestNeighborID`, CSpaceTree.cpp 298-330. `d2 c q` is
`calcDist2(c, q, true)`. -/
def nearestNeighborID {K : Type} [LT K] [DecidableRel (α := K) (· < ·)] (p : Pool Q) (t : Tree)
    (d2 : Q → Q → K) (c : Q) : Nat :=
  match t.ids with
  | [] => 0
  | i :: is => nearestLoop (fun j => d2 c (p.node j).config) i (d2 c (p.node i).config) is

/-- `CSpaceTree::getNearestNeighbor`, CSpaceTree.cpp 292-295. -/
def nearestNeighbor {K : Type} [LT K] [DecidableRel (α := K) (· < ·)] (p : Pool Q) (t : Tree)
    (d2 : Q → Q → K) (c : Q) : Option Nat :=
  t.getNode (nearestNeighborID p t d2 c)

/-- Result of the walk of `createPath`. -/
inductive Walk where
  /-- start node reached; visited IDs from goal to start -/
  | found (ids : List Nat)
  /-- a node without parent, or a parent that is not in the tree -/
  | notFound
  /-- still running after the given number of iterations -/
  | running
  deriving DecidableEq

/-- The `while` loop of `CSpaceTree::createPath`, CSpaceTree.cpp 403-425, run for at most `fuel`
iterations. `acc` is `tmpSol` reversed. -/
def walk (p : Pool Q) (t : Tree) (start : Nat) : Nat → Int → List Nat → Walk
  | 0, _, _ => .running
  | fuel + 1, act, acc =>
    if act < 0 then .notFound
    else
      match t.getNode act.toNat with
      | none => .notFound
      | some n =>
        if act.toNat = start then .found (acc ++ [act.toNat])
        else walk p t start fuel (p.node n).parent (acc ++ [act.toNat])

/-- Outcome of `CSpaceTree::createPath`, CSpaceTree.cpp 392-441 (`running` = iteration bound of the
model reached). -/
inductive PathResult (Q : Type) where
  | path (l : List Q)
  | failed
  | running

/-- `CSpaceTree::createPath`, CSpaceTree.cpp 392-441: on success the configurations from start to
goal. -/
def createPath (p : Pool Q) (t : Tree) (start goal fuel : Nat) : PathResult Q :=
  match walk p t start fuel goal [] with
  | .found ids => .path (ids.reverse.map fun i => (p.node i).config)
  | .notFound => .failed
  | .running => .running

/-! ## Histories -/

/-- Several trees sharing one C-space (e.g. the two trees of `BiRrt`). -/
structure Sys (Q : Type) where
  pool : Pool Q
  tree : Nat → Tree

/-- A fresh C-space, no tree contains anything. -/
def Sys.new (cap : Nat) (q0 : Q) : Sys Q := { pool := Pool.new cap q0, tree := fun _ => Tree.empty }

/-- Calls on trees. -/
inductive TOp (Q : Type) where
  /-- `tree_k->appendNode(q, parent)` -/
  | append (k : Nat) (q : Q) (parent : Int)
  /-- `tree_k->removeNode(n)` -/
  | remove (k : Nat) (n : Nat)
  /-- `tree_k->reset()` -/
  | reset (k : Nat)
  /-- reset of the C-space together with all trees on it -/
  | resetAll

/-- One call; a throwing `appendNode` leaves everything unchanged. -/
def Sys.step (s : Sys Q) : TOp Q → Sys Q
  | .append k q parent =>
    match appendNode s.pool (s.tree k) q parent with
    | none => s
    | some (_, p, t) => { pool := p, tree := upd s.tree k t }
  | .remove k n =>
    let r := removeNode s.pool (s.tree k) n
    { pool := r.1, tree := upd s.tree k r.2 }
  | .reset k => { s with tree := upd s.tree k Tree.empty }
  | .resetAll => { pool := s.pool.reset, tree := fun _ => Tree.empty }

/-- A history of calls. -/
def Sys.run (s : Sys Q) : List (TOp Q) → Sys Q
  | [] => s
  | op :: ops => (s.step op).run ops

end Simox.Planning
