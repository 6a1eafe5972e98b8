import Verif.Collision.Model

/-!
# Specification vocabulary for object sets and the collision manager
-/

namespace Simox.Collision.Spec

variable {D W : Type} [LinearOrder D]

/-- Some object with a mesh in the first set collides with one in the second. -/
def Collide (w : World D W) (a b : SetObj) : Prop :=
  ∃ x ∈ a.objs, ∃ y ∈ b.objs, ∃ p q, w.colModel x = some p ∧ w.colModel y = some q ∧
    w.collide p q = true

/-- `r` is the answer of the collision library for a mesh of the first and a mesh of the second set. -/
def IsDist (w : World D W) (a b : SetObj) (r : D × W) : Prop :=
  ∃ x ∈ a.objs, ∃ y ∈ b.objs, ∃ p q, w.colModel x = some p ∧ w.colModel y = some q ∧
    r = w.closest p q

/-- `d` is the minimum of the values satisfying `S`, capped by `top`. -/
def IsMin (top : D) (S : D → Prop) (d : D) : Prop :=
  d ≤ top ∧ (∀ x, S x → d ≤ x) ∧ (d = top ∨ S d)

/-- The set has an object with a mesh. -/
def HasMesh (w : World D W) (a : SetObj) : Prop := ∃ x ∈ a.objs, ∃ p, w.colModel x = some p

/-- The pair `(a, b)` is put under surveillance by the API call `op` made in state `s`: either it is named
explicitly (objects are wrapped into new sets, whose identities are the next free ones), or `b` is added
with `addCollisionModel` while `a` is a member of the manager. -/
def Introduces (s : St) (op : Op) (a b : Nat) : Prop :=
  match op with
  | .addPair m1 m2 => a = m1 ∧ b = m2
  | .addPairOS _ m => a = s.heap.length ∧ b = m
  | .addPairOO _ _ => a = s.heap.length ∧ b = s.heap.length + 1
  | .addModel m => b = m ∧ a ≠ m ∧ hasSceneObjectSet s a = true
  | .addObject _ => b = s.heap.length ∧ a ≠ b ∧ hasSceneObjectSet s a = true
  | _ => False

/-- Some call of the history put the pair under surveillance. -/
def Registered (w : World D W) (grow : Nat → Nat) (s0 : St) (ops : List Op) (a b : Nat) : Prop :=
  ∃ pre op post s, ops = pre ++ op :: post ∧ run w grow s0 pre = some s ∧ Introduces s op a b

/-- The set is named by a call that makes it a member. -/
def Names (s : St) (op : Op) (a : Nat) : Prop :=
  match op with
  | .addPair m1 m2 => a = m1 ∨ a = m2
  | .addPairOS _ m => a = s.heap.length ∨ a = m
  | .addPairOO _ _ => a = s.heap.length ∨ a = s.heap.length + 1
  | .addModel m => a = m
  | .addObject _ => a = s.heap.length
  | _ => False

/-- Objects are added only once and belong to the set's collision checker. -/
def SetOK (w : World D W) (s : SetObj) : Prop :=
  s.objs.Nodup ∧ ∀ o ∈ s.objs, w.objChecker o = s.checker

end Simox.Collision.Spec
