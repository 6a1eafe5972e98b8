import Verif.Planning.Model
import Mathlib.Data.List.Chain

/-!
# Specification vocabulary for the node pool and the tree
-/

namespace Simox.Planning.Spec

variable {Q : Type}

/-! ## Pool: a client that keeps the list of nodes it currently holds -/

/-- Calls of a client of the pool. -/
inductive POp where
  | create
  | remove (i : Nat)
  | reset

/-- Pool and the nodes the client holds. The client removes only nodes it holds; after a reset it
holds none. -/
def pstep (s : Pool Q × List Nat) : POp → Pool Q × List Nat
  | .create =>
    match s.1.createNewNode with
    | none => s
    | some (i, p) => (p, i :: s.2)
  | .remove i => if i ∈ s.2 then (s.1.removeNode i, s.2.erase i) else s
  | .reset => (s.1.reset, [])

def prun (s : Pool Q × List Nat) : List POp → Pool Q × List Nat
  | [] => s
  | op :: ops => prun (pstep s op) ops

/-! ## Tree: a list of (ID, configuration, parent) -/

/-- What a user sees of tree `k`: its nodes in order of insertion. -/
def view (s : Sys Q) (k : Nat) : List (Nat × Q × Int) :=
  (s.tree k).ids.map fun i => (i, (s.pool.node i).config, (s.pool.node i).parent)

/-- Systems built by appending nodes below existing nodes of the same tree (or as roots) and by
resetting, never removing single nodes. -/
inductive Built : Sys Q → Prop
  | new (cap : Nat) (q0 : Q) : Built (Sys.new cap q0)
  | append {s : Sys Q} (k : Nat) (q : Q) (parent : Int) :
      Built s → (parent < 0 ∨ ∃ i ∈ (s.tree k).ids, parent = (i : Int)) →
      Built (s.step (.append k q parent))
  | reset {s : Sys Q} (k : Nat) : Built s → Built (s.step (.reset k))
  | resetAll {s : Sys Q} : Built s → Built (s.step .resetAll)

/-- A list of nodes of tree `k`, from `a` down to `b`, each the parent of the next. -/
structure Lineage (s : Sys Q) (k : Nat) (a b : Nat) (l : List Nat) : Prop where
  first : l.head? = some a
  last : l.getLast? = some b
  inTree : ∀ i ∈ l, i ∈ (s.tree k).ids
  linked : l.IsChain fun x y => (s.pool.node y).parent = (x : Int)

end Simox.Planning.Spec
