import Mathlib.Logic.Function.Basic
import Mathlib.Algebra.Order.Ring.Defs
import Mathlib.Algebra.Field.Defs

/-!
# Closing and opening a hand

Model of `VirtualRobot::EndEffector::closeActors` / `openActors` and of
`VirtualRobot::EndEffectorActor::moveActor` / `moveActorCheckCollision`
(`/repo/VirtualRobot/EndEffector/EndEffector.cpp`, `EndEffectorActor.cpp`).

Simplifications.
* Joint values, limits and steps are elements of an ordered field `K` instead of floats.
* The joints of a hand are neither limitless nor do they propagate their value to other joints.
* A configuration is the assignment of a value to every joint; the robot is not moved otherwise.
* The collision checker is an arbitrary function of the configuration
  (`hitObj`, `hitNode`), the distance calculation and the geometry of a contact
  an arbitrary function `measure` of the two configurations the code uses.
* `Node` identifies both the joint and its robot node; equality of shared pointers is equality.
-/

namespace Simox.Eef

/-- `EndEffectorActor::CollisionMode`, EndEffectorActor.h:36-42. -/
inductive ColMode
  | eNone | eActors | eStatic | eAll
  deriving DecidableEq, Repr

/-- The integer values of the enumeration, EndEffectorActor.h:38-41. -/
def ColMode.bits : ColMode → Nat
  | .eNone => 0
  | .eActors => 1
  | .eStatic => 2
  | .eAll => 3

/-- `colMode & checkColMode` as a condition, EndEffectorActor.cpp:243, 276, 294, 309. -/
def ColMode.meets (m c : ColMode) : Bool := Nat.land m.bits c.bits != 0

/-- `EndEffectorActor::ActorDefinition`, EndEffectorActor.h:44-49. -/
structure ActorDef (N K : Type) where
  node : N
  speed : K
  colMode : ColMode

/-- `EndEffectorActor`: its name and its definitions, EndEffectorActor.h. -/
structure Actor (N K : Type) where
  name : String
  defs : List (ActorDef N K)

/-- An end effector with its robot and the collision checker.  `actors` and `statics` are the
members of `EndEffector` (EndEffector.h); `lo`, `hi`, `enforce` are the limits of the robot nodes
(RobotNode.cpp:178-210, 587-597); `nodeModel` and `objModel` say whether `getCollisionModel()` is
present; `hitNode q a b`, `hitObj q a o` are the answers of `CollisionChecker::checkCollision`
in configuration `q`; `measure q q' n o` is the contact geometry of
EndEffectorActor.cpp:200-212, a function of the configuration `q` in which the distance is
computed and of the configuration `q'` after `moveActor`. -/
structure Hand (N O K I : Type) where
  actors : List (Actor N K)
  statics : List N
  lo : N → K
  hi : N → K
  enforce : N → Bool
  nodeModel : N → Bool
  objModel : O → Bool
  hitNode : (N → K) → N → N → Bool
  hitObj : (N → K) → N → O → Bool
  measure : (N → K) → (N → K) → N → O → I

/-- `EndEffector::ContactInfo` (EndEffector.h): the actor (by name), the robot node, the obstacle
and the geometric entries. -/
structure Contact (N O I : Type) where
  actor : String
  node : N
  obj : O
  info : I

/-- `enum ActorStatus`, EndEffectorActor.cpp:104-109. -/
inductive Status
  | eFinished | eCollision | eMoving
  deriving DecidableEq, Repr

variable {N O K I : Type} [DecidableEq N] [DecidableEq O] [Field K] [LinearOrder K]

/-- `RobotNode::setJointValueNoUpdate`, RobotNode.cpp:178-210, the branch for joints that are not
limitless: the value is cut to the limits when these are enforced. -/
def Hand.setJoint (h : Hand N O K I) (q : N → K) (n : N) (v : K) : N → K :=
  let v1 := if h.enforce n ∧ v < h.lo n then h.lo n else v
  let v2 := if h.enforce n ∧ h.hi n < v1 then h.hi n else v1
  Function.update q n v2

/-- The value the code computes for the next step, EndEffectorActor.cpp:79 and 116-117. -/
def next (q : N → K) (angle : K) (d : ActorDef N K) : K := q d.node + angle * d.speed

/-- The test of the limits, EndEffectorActor.cpp:81 and 121. -/
def Hand.inLimits (h : Hand N O K I) (n : N) (v : K) : Bool :=
  decide (v ≤ h.hi n) && decide (h.lo n ≤ v)

/-- `EndEffectorActor::moveActor`, EndEffectorActor.cpp:66-90: the new configuration and the
returned flag (`true` if nothing moved). -/
def Hand.moveActor (h : Hand N O K I) (angle : K) :
    List (ActorDef N K) → (N → K) → Bool × (N → K)
  | [], q => (true, q)
  | d :: ds, q =>
    let v := next q angle d
    if h.inLimits d.node v then
      (false, (h.moveActor angle ds (h.setJoint q d.node v)).2)
    else h.moveActor angle ds q

/-- `EndEffectorActor::isColliding(eef, obstacles, storeContacts, eAll)`,
EndEffectorActor.cpp:232-270: all pairs (node, obstacle) found in collision, in the order of the
two loops.  The flag `col` is true exactly when the list is not empty. -/
def Hand.obstacleHits (h : Hand N O K I) (obs : List O) (q : N → K) (a : Actor N K) :
    List (N × O) :=
  a.defs.flatMap fun d =>
    (obs.filter fun o =>
      d.colMode.meets .eAll && h.objModel o && h.nodeModel d.node && h.hitObj q d.node o).map
      fun o => (d.node, o)

/-- `EndEffectorActor::isColliding(SceneObjectPtr, CollisionMode)` for a robot node as the
obstacle, EndEffectorActor.cpp:285-301. -/
def Hand.collidesWithNode (h : Hand N O K I) (q : N → K) (a : Actor N K) (n : N) (c : ColMode) :
    Bool :=
  h.nodeModel n &&
    a.defs.any fun d => d.colMode.meets c && h.nodeModel d.node && h.hitNode q d.node n

/-- `EndEffectorActor::isColliding(EndEffectorActorPtr)`, EndEffectorActor.cpp:303-316. -/
def Hand.collidesWithActor (h : Hand N O K I) (q : N → K) (a b : Actor N K) : Bool :=
  a.defs.any fun d => d.colMode.meets .eActors && h.collidesWithNode q b d.node .eAll

/-- The test of the other actors of the hand, EndEffectorActor.cpp:136-146. -/
def Hand.hitsOther (h : Hand N O K I) (q : N → K) (a : Actor N K) : Bool :=
  h.actors.any fun b => b.name != a.name && h.collidesWithActor q a b

/-- The test of the static part of the hand, EndEffectorActor.cpp:149-162. -/
def Hand.hitsStatic (h : Hand N O K I) (q : N → K) (a : Actor N K) : Bool :=
  h.statics.any fun n => h.collidesWithNode q a n .eStatic

/-- State of the loop over the definitions of one actor. -/
structure MoveState (N O K : Type) where
  q : N → K
  status : N → Option Status
  found : List (N × O)

/-- The body of the loop over the definitions, EndEffectorActor.cpp:114-180.  `obs = []` also
stands for missing obstacles (line 130). -/
def Hand.moveDef (h : Hand N O K I) (obs : List O) (angle : K) (a : Actor N K)
    (st : MoveState N O K) (d : ActorDef N K) : MoveState N O K :=
  let oldV := st.q d.node
  let v := next st.q angle d
  if h.inLimits d.node v then
    let q1 := h.setJoint st.q d.node v
    let cs := h.obstacleHits obs q1 a
    let found := st.found ++ cs
    if !cs.isEmpty || h.hitsOther q1 a || h.hitsStatic q1 a then
      { q := h.setJoint q1 d.node oldV
        status := Function.update st.status d.node (some .eCollision)
        found := found }
    else
      { q := q1
        status := Function.update st.status d.node (some .eMoving)
        found := found }
  else
    { q := st.q
      status := Function.update st.status d.node (some .eFinished)
      found := st.found }

/-- `RobotConfig::setJointValues` applied to the configuration of an actor
(`EndEffectorActor::getConfiguration`, EndEffectorActor.cpp:529-548; RobotConfig.cpp:258-300). -/
def Hand.restore (h : Hand N O K I) (saved : N → K) : List (ActorDef N K) → (N → K) → (N → K)
  | [], q => q
  | d :: ds, q => h.restore saved ds (h.setJoint q d.node (saved d.node))

/-- One new contact, EndEffectorActor.cpp:183-217: nothing if the pair is stored already, otherwise
the distance is measured, the actor moved on for the approach direction and the old values restored. -/
def Hand.addContact (h : Hand N O K I) (angle : K) (a : Actor N K)
    (st : List (Contact N O I) × (N → K)) (c : N × O) : List (Contact N O I) × (N → K) :=
  if st.1.any fun s => decide (s.node = c.1) && decide (s.obj = c.2) then st
  else
    let q' := (h.moveActor angle a.defs st.2).2
    (st.1 ++ [⟨a.name, c.1, c.2, h.measure st.2 q' c.1 c.2⟩], h.restore st.2 a.defs q')

/-- `EndEffectorActor::moveActorCheckCollision`, EndEffectorActor.cpp:92-229: returned flag, stored
contacts and configuration. -/
def Hand.moveActorCheckCollision (h : Hand N O K I) (obs : List O) (angle : K) (a : Actor N K)
    (store : List (Contact N O I)) (q : N → K) : Bool × List (Contact N O I) × (N → K) :=
  let st := a.defs.foldl (h.moveDef obs angle a) ⟨q, fun _ => none, []⟩
  let r := st.found.foldl (h.addContact angle a) (store, st.q)
  (a.defs.all fun d => decide (st.status d.node ≠ some .eMoving), r.1, r.2)

/-- One pass of the loop over all actors, EndEffector.cpp:129-138.  The actors are listed with their
entry of `actorCollisionStatus`; the last component is `finished`. -/
def Hand.pass (h : Hand N O K I) (obs : List O) (angle : K) :
    List (Actor N K × Bool) → List (Contact N O I) → (N → K) →
    List (Actor N K × Bool) × List (Contact N O I) × (N → K) × Bool
  | [], store, q => ([], store, q, true)
  | (a, true) :: as, store, q =>
    let r := h.pass obs angle as store q
    ((a, true) :: r.1, r.2.1, r.2.2.1, r.2.2.2)
  | (a, false) :: as, store, q =>
    let m := h.moveActorCheckCollision obs angle a store q
    let r := h.pass obs angle as m.2.1 m.2.2
    ((a, m.1) :: r.1, r.2.1, r.2.2.1, false)

/-- The loop of `EndEffector::closeActors`, EndEffector.cpp:124-152.  `none`: still running after
`fuel` passes. -/
def Hand.closeLoop (h : Hand N O K I) (obs : List O) (angle : K) :
    Nat → Nat → List (Actor N K × Bool) → List (Contact N O I) → (N → K) →
    Option (List (Contact N O I) × (N → K))
  | 0, _, _, _, _ => none
  | fuel + 1, loop, acts, store, q =>
    let r := h.pass obs angle acts store q
    if r.2.2.2 then
      if 2 < loop + 1 then
        h.closeLoop obs angle fuel 0 (r.1.map fun p => (p.1, false)) [] r.2.2.1
      else some (r.2.1, r.2.2.1)
    else h.closeLoop obs angle fuel (loop + 1) r.1 r.2.1 r.2.2.1

/-- `EndEffector::closeActors`, EndEffector.cpp:114-155: the contacts and the configuration in which
the hand is left, if the call has returned within `fuel` passes of its loop. -/
def Hand.closeActors (h : Hand N O K I) (obs : List O) (stepSize : K) (fuel : Nat) (q : N → K) :
    Option (List (Contact N O I) × (N → K)) :=
  h.closeLoop obs stepSize fuel 0 (h.actors.map fun a => (a, false)) [] q

/-- `EndEffector::closeActors(SceneObjectPtr, float)`, EndEffector.cpp:158-168. -/
def Hand.closeOnObject (h : Hand N O K I) (obj : Option O) (stepSize : K) (fuel : Nat) (q : N → K) :
    Option (List (Contact N O I) × (N → K)) :=
  match obj with
  | none => h.closeActors [] stepSize fuel q
  | some o => h.closeActors [o] stepSize fuel q

/-- `EndEffector::openActors`, EndEffector.cpp:171-174. -/
def Hand.openActors (h : Hand N O K I) (obs : List O) (stepSize : K) (fuel : Nat) (q : N → K) :
    Option (N → K) :=
  (h.closeActors obs (-stepSize) fuel q).map Prod.snd

end Simox.Eef
