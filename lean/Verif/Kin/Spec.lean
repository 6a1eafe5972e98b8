import Verif.Kin.Model

/-!
# Specification vocabulary for joints, kinematic trees and configurations
-/

set_option linter.unusedSectionVars false

namespace Simox.Kin.Spec

/-- The two joint values differ by whole turns. -/
def SameAngle (a b : ℝ) : Prop := ∃ k : ℤ, a = b + k * (2 * Real.pi)

/-- `x` is the point of `[lo, hi]` that is nearest to `q`. -/
def Nearest (lo hi q x : ℝ) : Prop :=
  lo ≤ x ∧ x ≤ hi ∧ ∀ y, lo ≤ y → y ≤ hi → |x - q| ≤ |y - q|

/-- `l` is the chain of nodes from the root of the tree down to node `j`. -/
inductive Chain : Tree → Nat → List Nat → Prop
  | here (i : Nat) (ks : List Tree) : Chain (.node i ks) i [i]
  | step (i : Nat) (ks : List Tree) (k : Tree) (j : Nat) (l : List Nat) :
      k ∈ ks → Chain k j l → Chain (.node i ks) j (i :: l)

variable {G : Type} [Group G]

/-- Forward kinematics: the stored global pose of every node is the robot's pose times the
transformations of the nodes on the chain to it, at the current joint values. -/
def FK (r : Robot G) (s : St G) : Prop :=
  ∀ j l, Chain r.tree j l → s.pose j = s.base * (l.map (fun i => r.loc i (s.value i))).prod

/-- Node names are unique within a robot. -/
def Names (r : Robot G) : Prop := r.tree.ids.Nodup

/-- The last entry for `n` in a list of assignments. -/
def lastFor (m : List (Nat × ℝ)) (n : Nat) : Option ℝ :=
  ((m.filter (fun e => e.1 == n)).getLast?).map Prod.snd

/-- Every propagated joint has the value of its source times the factor (subject to its own limits). -/
def Propagated (r : Robot G) (s : St G) : Prop :=
  ∀ n m c, n ∈ r.tree.ids → m ∈ r.tree.ids → (m, c) ∈ r.prop n →
    s.value m = stored (r.lim m) (s.value n * c)

/-- The propagation links descend in `rank`: there is no cycle. -/
def Acyclic (r : Robot G) (rank : Nat → Nat) : Prop :=
  ∀ n m c, (m, c) ∈ r.prop n → m ∈ r.tree.ids → rank m < rank n

/-- No joint is driven by two links. -/
def OneSource (r : Robot G) : Prop :=
  (∀ n n' m c c', (m, c) ∈ r.prop n → (m, c') ∈ r.prop n' → n = n' ∧ c = c')

/-- A joint that no propagation link drives. -/
def Free (r : Robot G) (n : Nat) : Prop := ∀ m c, (n, c) ∉ r.prop m

/-- Calls of the API that change joint values or the robot's pose. -/
inductive Op (G : Type) where
  | setJointValue (n : Nat) (q : ℝ)
  | setJointValues (m : List (Nat × ℝ))
  | nodeSet (ns : NodeSet) (v : List ℝ)
  | nodeSetConfig (ns : NodeSet) (c : Cfg)
  | setConfig (c : Cfg)
  | setGlobalPose (p : G)

/-- The kinematic root of the set is null or has all nodes of the set below it. -/
def GoodRoot (r : Robot G) (ns : NodeSet) : Prop :=
  ∀ k, ns.root = some k → ∀ n ∈ ns.nodes, n ∈ sub k r.tree

/-- Effect of one call; `none`: unbounded recursion. A throwing call has no effect. -/
noncomputable def Op.run (r : Robot G) (fuel : Nat) (s : St G) : Op G → Option (St G)
  | .setJointValue n q => Kin.setJointValue r fuel n q s
  | .setJointValues m => some (Kin.setJointValues r m s)
  | .nodeSet ns v =>
    match ns.setJointValues r fuel v s with
    | .ok s' => some s'
    | .throw => some s
    | .diverge => none
  | .nodeSetConfig ns c => ns.setConfig r fuel c s
  | .setConfig c => some (robotSetConfig r c s).1
  | .setGlobalPose p => some (Kin.setGlobalPose r p true s)

/-- Node sets used in the call have a good root and joints are addressed that exist. -/
def Op.Good (r : Robot G) : Op G → Prop
  | .setJointValue n _ => n ∈ r.tree.ids
  | .nodeSet ns _ => GoodRoot r ns
  | .nodeSetConfig ns _ => GoodRoot r ns
  | _ => True

/-- A map has one entry per key. -/
def Keys (c : Cfg) : Prop := (c.map Prod.fst).Nodup

end Simox.Kin.Spec
