import Verif.Rfc.Model
import Mathlib.Logic.Relation

/-!
# What copies with another structure are measured by
-/

namespace Simox.Rfc

variable {G V P B : Type}

/-- The nodes of a robot form one tree: every node but the root has a parent, parents and children agree, and there is no cycle. -/
structure IsTree (r : Robot G V P B) : Prop where
  nodup : r.ids.Nodup
  root_mem : r.root ∈ r.ids
  root_parent : r.parent r.root = none
  only_root : ∀ n ∈ r.ids, r.parent n = none → n = r.root
  parent_mem : ∀ c p, r.parent c = some p → c ∈ r.ids ∧ p ∈ r.ids
  children_iff : ∀ p c, c ∈ r.children p ↔ r.parent c = some p
  children_nodup : ∀ p, (r.children p).Nodup
  acyclic : ∃ rank : ℕ → ℕ, ∀ c p, r.parent c = some p → rank p < rank c

/-- `n` is the node `a` or below it. -/
def Below (r : Robot G V P B) (n a : ℕ) : Prop := Relation.ReflTransGen (fun c p => r.parent c = some p) n a

/-- The motion of a joint, from its kind, its axis or direction, and its value: a fixed joint does not move, and a joint with the opposite axis moves back. -/
structure Motion (G V : Type) [Group G] [Neg V] where
  run : Kind → V → ℝ → G
  fixed : ∀ v q, run .fixed v q = 1
  neg : ∀ k v q, run k (-v) q = (run k v q)⁻¹

variable [Group G] [Neg V]

/-- The motion of the joint of a node for the joint values `q`. -/
def Motion.at (m : Motion G V) (r : Robot G V P B) (q : ℕ → ℝ) (n : ℕ) : G := m.run (r.node n).kind (r.node n).axis (q n + (r.node n).offset)

/-- `g` are the poses of the nodes for the base pose `base` and the joint values `q`: every node is moved by its joint behind its fixed transformation from its parent. -/
def Poses (m : Motion G V) (r : Robot G V P B) (base : G) (q : ℕ → ℝ) (g : ℕ → G) : Prop :=
  g r.root = base * (r.node r.root).loc * m.at r q r.root ∧
    ∀ c p, r.parent c = some p → g c = g p * (r.node c).loc * m.at r q c

/-- Denavit-Hartenberg parameters of nodes, where they are set, still describe the node. -/
def DhOk (z : V) (n : Node G V P B) : Prop := ∀ h, n.dh = some h → n.loc = h ∧ n.axis = z

/-- The shape `b` is shown at the pose `x`. -/
def Shown (r : Robot G V P B) (g : ℕ → G) (b : B) (x : G) : Prop := ∃ n ∈ r.ids, ∃ d, (r.node n).model = some (b, d) ∧ x = g n * d

end Simox.Rfc
