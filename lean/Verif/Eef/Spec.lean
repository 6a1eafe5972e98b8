import Verif.Eef.Model
import Mathlib.Logic.Relation

/-!
# What closing a hand should do

Stated with the collision answers, limits and definitions of the hand only.
-/

namespace Simox.Eef

variable {N O K I : Type} [DecidableEq N] [DecidableEq O] [Field K] [LinearOrder K]

/-- The collision mode of a definition mentions other actors / the static part / anything. -/
def ActorDef.minds (d : ActorDef N K) : Prop := d.colMode ≠ .eNone
def ActorDef.mindsActors (d : ActorDef N K) : Prop := d.colMode = .eActors ∨ d.colMode = .eAll
def ActorDef.mindsStatic (d : ActorDef N K) : Prop := d.colMode = .eStatic ∨ d.colMode = .eAll

/-- A definition touches an obstacle. -/
def Hand.Touches (h : Hand N O K I) (q : N → K) (d : ActorDef N K) (o : O) : Prop :=
  d.minds ∧ h.objModel o ∧ h.nodeModel d.node ∧ h.hitObj q d.node o

/-- In configuration `q` the actor collides: with an obstacle, with another actor of the hand or with
the static part of the hand, as far as the collision modes ask for it. -/
def Hand.Blocked (h : Hand N O K I) (obs : List O) (q : N → K) (a : Actor N K) : Prop :=
  (∃ d ∈ a.defs, ∃ o ∈ obs, h.Touches q d o) ∨
  (∃ b ∈ h.actors, b.name ≠ a.name ∧ ∃ d ∈ a.defs, d.mindsActors ∧ ∃ e ∈ b.defs, e.minds ∧
    h.nodeModel d.node ∧ h.nodeModel e.node ∧ h.hitNode q e.node d.node) ∨
  (∃ n ∈ h.statics, ∃ d ∈ a.defs, d.mindsStatic ∧
    h.nodeModel d.node ∧ h.nodeModel n ∧ h.hitNode q d.node n)

/-- The configuration after one step of one joint. -/
def stepped (q : N → K) (angle : K) (d : ActorDef N K) : N → K :=
  Function.update q d.node (q d.node + angle * d.speed)

/-- The value after one step is within the limits of the joint. -/
def Hand.Allowed (h : Hand N O K I) (q : N → K) (angle : K) (d : ActorDef N K) : Prop :=
  h.lo d.node ≤ q d.node + angle * d.speed ∧ q d.node + angle * d.speed ≤ h.hi d.node

/-- One joint of one actor moves by one step, stays within its limits, and the actor does not collide
afterwards. -/
def Hand.Step (h : Hand N O K I) (obs : List O) (angle : K) (q q' : N → K) : Prop :=
  ∃ a ∈ h.actors, ∃ d ∈ a.defs,
    h.Allowed q angle d ∧ q' = stepped q angle d ∧ ¬ h.Blocked obs q' a

/-- No joint of the hand can do another step. -/
def Hand.Closed (h : Hand N O K I) (obs : List O) (angle : K) (q : N → K) : Prop :=
  ∀ q', ¬ h.Step obs angle q q'

/-- Within configuration `q`, moving one of the joints of actor `a` by one (allowed) step brings its
node `n` into contact with the obstacle `o`. -/
def Hand.WouldTouch (h : Hand N O K I) (obs : List O) (angle : K) (q : N → K) (a : Actor N K)
    (n : N) (o : O) : Prop :=
  o ∈ obs ∧ ∃ e ∈ a.defs, h.Allowed q angle e ∧
    ∃ d ∈ a.defs, d.node = n ∧ h.Touches (stepped q angle e) d o

/-- Every joint whose limits are enforced is within its limits (kept by `setJointValue`). -/
def Hand.Within (h : Hand N O K I) (q : N → K) : Prop :=
  ∀ n, h.enforce n → h.lo n ≤ q n ∧ q n ≤ h.hi n

/-- No actor lists a joint twice. -/
def Hand.Proper (h : Hand N O K I) : Prop :=
  ∀ a ∈ h.actors, (a.defs.map ActorDef.node).Nodup

/-- All definitions of a joint move it, and all in the same direction. -/
def Hand.Moves (h : Hand N O K I) (angle : K) : Prop :=
  (∀ a ∈ h.actors, ∀ d ∈ a.defs, angle * d.speed ≠ 0) ∧
  (∀ a ∈ h.actors, ∀ d ∈ a.defs, ∀ b ∈ h.actors, ∀ e ∈ b.defs, d.node = e.node →
    0 < angle * d.speed → 0 < angle * e.speed)

/-- The fingers are independent: where a node of an actor is depends on the joints of this actor
only, and the static part does not move. -/
structure Hand.Independent (h : Hand N O K I) : Prop where
  obj : ∀ a ∈ h.actors, ∀ d ∈ a.defs, ∀ q q' : N → K, (∀ e ∈ a.defs, q e.node = q' e.node) →
    ∀ o, h.hitObj q d.node o = h.hitObj q' d.node o
  node : ∀ a ∈ h.actors, ∀ d ∈ a.defs, ∀ b ∈ h.actors, ∀ f ∈ b.defs, ∀ q q' : N → K,
    (∀ e ∈ a.defs, q e.node = q' e.node) → (∀ e ∈ b.defs, q e.node = q' e.node) →
    h.hitNode q d.node f.node = h.hitNode q' d.node f.node
  static : ∀ a ∈ h.actors, ∀ d ∈ a.defs, ∀ q q' : N → K, (∀ e ∈ a.defs, q e.node = q' e.node) →
    ∀ n ∈ h.statics, h.hitNode q d.node n = h.hitNode q' d.node n
  symm : ∀ q a b, h.hitNode q a b = h.hitNode q b a
  apart : ∀ a ∈ h.actors, ∀ b ∈ h.actors, ∀ d ∈ a.defs, ∀ e ∈ b.defs, d.node = e.node → a = b
  names : ∀ a ∈ h.actors, ∀ b ∈ h.actors, a.name = b.name → a = b

/-- The hand touches nothing: no obstacle, no static part, and no two actors that both ask for
checks against actors touch each other. -/
def Hand.Free (h : Hand N O K I) (obs : List O) (q : N → K) : Prop :=
  (∀ a ∈ h.actors, ∀ d ∈ a.defs, ∀ o ∈ obs, ¬ h.Touches q d o) ∧
  (∀ a ∈ h.actors, ∀ b ∈ h.actors, a.name ≠ b.name → ∀ d ∈ a.defs, ∀ e ∈ b.defs,
    d.mindsActors → e.mindsActors → h.nodeModel d.node → h.nodeModel e.node →
    ¬ h.hitNode q d.node e.node) ∧
  (∀ a ∈ h.actors, ∀ d ∈ a.defs, d.mindsStatic → ∀ n ∈ h.statics, h.nodeModel d.node →
    h.nodeModel n → ¬ h.hitNode q d.node n)

end Simox.Eef
