import Verif.Mjc.Model

/-!
# What the bodies of a MuJoCo file are

The poses of everything in a tree of bodies for all joint values: a body is at its pose within the body it is in, moved by its joints one after the other.
-/

namespace Simox.Mjc

open Kin

section
variable {R V Q : Type} [Group R] [AddCommGroup V] [DistribMulAction R V]

/-- Motions of hinges and slides with a point and an axis. A motion about a moved axis is the moved motion. -/
structure Motion (R V Q : Type) [Group R] [AddCommGroup V] [DistribMulAction R V] where
  mot : Bool → V → V → Q → Pose R V
  moved : ∀ (g : Pose R V) sl p a q, mot sl (g.pos + g.rot • p) (g.rot • a) q = g * mot sl p a q * g⁻¹

/-- The motion by the joints of a body, in their order. -/
def motion (M : Motion R V Q) (q : String → Q) (i : List (Item R V Q)) : Pose R V :=
  ((i.filter fun e => e.kind = .joint).map fun e => M.mot e.slide e.pos e.axis (q e.name)).prod

/-- An element as it is seen from outside: with a pose, as a ray, or without a place. -/
inductive Seen (R V : Type)
  | frame (k : Kind) (name : String) (p : Pose R V)
  | ray (k : Kind) (name : String) (p a : V)
  | rest (name : String)

/-- What is seen of an element of a body at the pose `h`. Joints are only seen by what they move. -/
def Item.seen (h : Pose R V) (e : Item R V Q) : Option (Seen R V) :=
  match e.kind with
  | .joint => none
  | .light => some (.ray .light e.name (h.pos + h.rot • e.pos) (h.rot • e.axis))
  | .other => some (.rest e.name)
  | k => some (.frame k e.name (h * ⟨e.rot, e.pos⟩))

mutual
/-- Everything that is seen of a body within a body at the pose `g`. -/
def Body.seen (M : Motion R V Q) (q : String → Q) (g : Pose R V) : Body R V Q → List (Seen R V)
  | ⟨_, p, i, bs⟩ => i.filterMap (Item.seen (g * p * motion M q i)) ++ seenAll M q (g * p * motion M q i) bs
/-- The same for a list of bodies. -/
def seenAll (M : Motion R V Q) (q : String → Q) (g : Pose R V) : List (Body R V Q) → List (Seen R V)
  | [] => []
  | b :: bs => Body.seen M q g b ++ seenAll M q g bs
end

/-- What is seen of what a body has become. -/
def Out.seen (M : Motion R V Q) (q : String → Q) (g : Pose R V) : Out R V Q → List (Seen R V)
  | .body b => b.seen M q g
  | .site e => (e.seen g).toList

/-- The sites and masses that may be added. -/
def Seen.Added (x : Seen R V) : Prop := ∃ p, x = .frame .inertial "dummy" p ∨ ∃ n, x = .frame .site n p

/-- The bodies in other bodies are where `loc` says. -/
def Faithful (loc : String → Pose R V) (b : Body R V Q) : Prop := ∀ x ∈ b.all, ∀ c ∈ x.bodies, c.pose = loc c.name

/-- Bodies without mass have nothing but joints and other bodies in them. -/
def Plain (b : Body R V Q) : Prop := ∀ x ∈ b.all, hasMass x.items = false → ∀ e ∈ x.items, e.kind = .joint

mutual
/-- Bodies without mass one within the other, each the only one: the pose of the next commutes with the pose so far. -/
def Body.Straight (loc : String → Pose R V) (acc : Pose R V) : Body R V Q → Prop
  | ⟨_, _, i, bs⟩ => StraightAll loc acc (!hasMass i && bs.length == 1) bs
/-- The same for a list of bodies: `m` if they are merged with the body they are in. -/
def StraightAll (loc : String → Pose R V) (acc : Pose R V) (m : Bool) : List (Body R V Q) → Prop
  | [] => True
  | b :: bs => (if m then loc b.name * acc = acc * loc b.name ∧ Body.Straight loc (acc * loc b.name) b else Body.Straight loc 1 b) ∧ StraightAll loc acc m bs
end

/-- Every body has a mass. -/
def Out.Massive : Out R V Q → Prop
  | .body b => ∀ x ∈ b.all, hasMass x.items = true
  | .site _ => True

/-- The pose with scaled lengths. -/
def scalePose (sv : V → V) (g : Pose R V) : Pose R V := ⟨g.rot, sv g.pos⟩

/-- What is seen, with scaled lengths. -/
def Seen.scale (sv : V → V) : Seen R V → Seen R V
  | .frame k n p => .frame k n (scalePose sv p)
  | .ray k n p a => .ray k n (sv p) a
  | .rest n => .rest n

/-- A scaling of lengths: of places, and of the values of slides. -/
structure Scaling (M : Motion R V Q) where
  sv : V → V
  sq : Q → Q
  add : ∀ a b, sv (a + b) = sv a + sv b
  rot : ∀ (r : R) a, sv (r • a) = r • sv a
  slide : ∀ p a q, M.mot true (sv p) a (sq q) = scalePose sv (M.mot true p a q)
  hinge : ∀ p a q, M.mot false (sv p) a q = scalePose sv (M.mot false p a q)

/-- A body as it is seen from outside: its name, its elements, and its pose after the motion of its joints. -/
structure Placed (R V Q : Type) where
  name : String
  items : List (Item R V Q)
  pose : Pose R V

mutual
/-- The bodies of a tree within a body at the pose `g`. -/
def Body.placed (M : Motion R V Q) (q : String → Q) (g : Pose R V) : Body R V Q → List (Placed R V Q)
  | ⟨n, p, i, bs⟩ => ⟨n, i, g * p * motion M q i⟩ :: placedAll M q (g * p * motion M q i) bs
/-- The same for a list of bodies. -/
def placedAll (M : Motion R V Q) (q : String → Q) (g : Pose R V) : List (Body R V Q) → List (Placed R V Q)
  | [] => []
  | b :: bs => Body.placed M q g b ++ placedAll M q g bs
end

/-- A robot: names are different, and every node but the root, which has no parent, has a parent that is less deep. -/
structure Robot.Proper (r : Robot R V Q) (depth : String → ℕ) : Prop where
  names : (r.nodes.map (·.name)).Nodup
  root : r.root ∈ r.nodes
  top : r.root.parent = none
  step : ∀ n ∈ r.nodes, n.name ≠ r.root.name → ∃ p, n.parent = some p ∧ (∃ m ∈ r.nodes, m.name = p) ∧ depth p < depth n.name

/-- The motion of the joint of a node. -/
def Node.motion (M : Motion R V Q) (q : String → Q) (n : Node R V Q) : Pose R V := if n.isJoint then M.mot n.slide 0 n.axis (q n.name) else 1

/-- The poses of the nodes of a robot at the pose `g` for the joint values `q`: the transformations from the parents are those for joint values of zero. -/
structure Robot.Poses (r : Robot R V Q) (M : Motion R V Q) (q : String → Q) (g : Pose R V) (global : String → Pose R V) : Prop where
  root : global r.root.name = g * r.root.motion M q
  node : ∀ n ∈ r.nodes, ∀ p, n.parent = some p → global n.name = global p * n.tf * n.motion M q

/-- The elements of the body of a node. -/
def Node.items (n : Node R V Q) (mesh : Bool) : List (Item R V Q) :=
  (if mesh && n.mesh then [geomItem n] else []) ++ (if n.isJoint then [jointItem n] else []) ++ (if n.massless then [] else [inertialItem n])

/-- The names of the bodies of a tree. -/
def Body.names (b : Body R V Q) : List String := b.all.map Body.name

/-- The names of a list of bodies. -/
def namesAll (bs : List (Body R V Q)) : List String := (allAll bs).map Body.name

/-- No body is merged with more than one other: the only body in a body without mass has a mass or does not have exactly one body in it. -/
def Single (b : Body R V Q) : Prop := ∀ x ∈ b.all, hasMass x.items = false → ∀ c, x.bodies = [c] → hasMass c.items = true ∨ c.bodies.length ≠ 1

/-- Some body of the name `n` in the list has the element `e`, up to its place. -/
def HoldsIn (l : List (Body R V Q)) (n : String) (e : Item R V Q) : Prop := ∃ y ∈ l, y.name = n ∧ ∃ e' ∈ y.items, e'.kind = e.kind ∧ e'.name = e.name

/-- The bodies of what a body has become. -/
def Out.all : Out R V Q → List (Body R V Q)
  | .body b => b.all
  | .site _ => []

/-- The joints are at the origins of their bodies. -/
def AtOrigin (b : Body R V Q) : Prop := ∀ x ∈ b.all, ∀ e ∈ x.items, e.kind = .joint → e.pos = 0

/-- The joint values `q'` are `q` with the values of slides scaled. -/
def ScaledValues (sq : Q → Q) (q q' : String → Q) (b : Body R V Q) : Prop := ∀ x ∈ b.all, ∀ e ∈ x.items, e.kind = .joint → q' e.name = if e.slide then sq (q e.name) else q e.name

/-- The transformation from the parent of a node, as the merging of bodies asks the robot for it. -/
def Robot.loc (r : Robot R V Q) (n : String) : Pose R V :=
  match r.get n with
  | some m => if m.parent.isSome then m.tf else 1
  | none => 1

end

end Simox.Mjc
