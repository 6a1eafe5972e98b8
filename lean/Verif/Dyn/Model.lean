import Mathlib.Logic.Function.Basic
import Mathlib.Data.List.Basic

/-!
# The engine of the physics simulation: objects, robots, switched off collisions, attached objects

Models `SimDynamics/DynamicsEngine/DynamicsEngine.cpp` and the parts of `BulletEngine/BulletEngine.cpp` and `BulletEngine/BulletRobot.cpp` that keep lists. Objects, wrappers
of robots and nodes are pointers: values of types with decidable equality. The mutex, the settings handed to Bullet, friction, the floor, contacts and the output of messages are
left out. Bullet itself appears only through the lists of bodies and constraints handed to it.
-/

namespace Simox.Dyn

section
variable {ο : Type} [DecidableEq ο]

/-- DynamicsEngine.h: `collisionDisabled` and `collisionToAllDisabled`. Keys and entries may be null pointers (`none`). The entries `operator[]` adds to the map are empty lists,
which nothing distinguishes from no entry. -/
structure Coll (ο : Type) where
  pairs : Option ο → List (Option ο)
  all : List (Option ο)

/-- A new engine. -/
def Coll.empty : Coll ο := ⟨fun _ => [], []⟩

/-- DynamicsEngine.cpp 185-190, 192-197: one of the two lists. -/
def pushNew (m : Option ο → List (Option ο)) (a b : Option ο) : Option ο → List (Option ο) :=
  if b ∈ m a then m else Function.update m a (m a ++ [b])

/-- DynamicsEngine.cpp 216-221, 226-231: one of the two lists. -/
def eraseOne (m : Option ο → List (Option ο)) (a b : Option ο) : Option ο → List (Option ο) := Function.update m a ((m a).erase b)

/-- DynamicsEngine.cpp 182-198 `disableCollision` of a pair. -/
def Coll.off (c : Coll ο) (a b : Option ο) : Coll ο := { c with pairs := pushNew (pushNew c.pairs a b) b a }

/-- DynamicsEngine.cpp 200-209 `disableCollision` of an object. -/
def Coll.offAll (c : Coll ο) (a : Option ο) : Coll ο := if a ∈ c.all then c else { c with all := c.all ++ [a] }

/-- DynamicsEngine.cpp 211-233 `enableCollision` of a pair. -/
def Coll.on (c : Coll ο) (a b : Option ο) : Coll ο := { c with pairs := eraseOne (eraseOne c.pairs a b) b a }

/-- DynamicsEngine.cpp 235-244 `enableCollision` of an object. -/
def Coll.onAll (c : Coll ο) (a : Option ο) : Coll ο := { c with all := c.all.erase a }

/-- DynamicsEngine.cpp 246-251 `checkCollisionEnabled` of an object. -/
def Coll.enabledAll (c : Coll ο) (a : Option ο) : Bool := decide (a ∉ c.all)

/-- DynamicsEngine.cpp 261-296 `checkCollisionEnabled` of a pair. -/
def Coll.enabled (c : Coll ο) (a b : Option ο) : Bool :=
  if a = none ∨ b = none then true
  else if ¬ c.enabledAll a then false
  else if ¬ c.enabledAll b then false
  else if b ∈ c.pairs a then false
  else if a ∈ c.pairs b then false
  else true

/-- DynamicsEngine.cpp 298-317 `resetCollisions`. -/
def Coll.reset (c : Coll ο) (a : Option ο) : Coll ο :=
  Coll.onAll { c with pairs := fun x => if x = a then [] else (c.pairs x).erase a } a

/-- DynamicsRobot.cpp 453-468 `enableSelfCollisions`, the inner loop, for the bodies of the nodes of the robot; nodes without a body give null pointers. -/
def Coll.selfOne (enable : Bool) (a : Option ο) : List (Option ο) → Coll ο → Coll ο
  | [], c => c
  | b :: bs, c => Coll.selfOne enable a bs (if enable then c.on a b else c.off a b)

/-- DynamicsRobot.cpp 453-468 `enableSelfCollisions`, the outer loop: `nodes` are the bodies the inner loop runs over. -/
def Coll.selfAll (enable : Bool) (nodes : List (Option ο)) : List (Option ο) → Coll ο → Coll ο
  | [], c => c
  | a :: as, c => Coll.selfAll enable nodes as (Coll.selfOne enable a nodes c)

/-- DynamicsRobot.cpp 453-468 `enableSelfCollisions`. -/
def Coll.self (c : Coll ο) (enable : Bool) (nodes : List (Option ο)) : Coll ο := Coll.selfAll enable nodes nodes c

/-! ## Lists of objects and robots -/

variable {ρ ω ν : Type} [DecidableEq ρ] [DecidableEq ω] [DecidableEq ν]

/-- BulletRobot.h 48-59 `LinkInfo`: the joint, the two bodies and the pairs whose collisions are switched off; `nodeA` and `nodeB` are only read by `hasLink` with two nodes. -/
structure Link (ο ν : Type) where
  joint : ν
  body1 : ο
  body2 : ο
  pairs : List (ο × ο)
deriving DecidableEq

/-- BulletEngine.h: the members of the engine, and with `bodies` and `constraints` what Bullet was handed. `links` are the links of the wrappers of robots (BulletRobot.h). -/
structure Engine (ο ω ν : Type) where
  objects : List ο
  robots : List ω
  coll : Coll ο
  bodies : List ο
  constraints : List (Link ο ν)
  links : ω → List (Link ο ν)

/-- A new engine, for wrappers with the given links. -/
def Engine.empty (links : ω → List (Link ο ν)) : Engine ο ω ν := ⟨[], [], Coll.empty, [], [], links⟩

/-- DynamicsEngine.cpp 51-62 `DynamicsEngine::addObject`. -/
def Engine.register (e : Engine ο ω ν) (o : ο) : Engine ο ω ν := if o ∈ e.objects then e else { e with objects := e.objects ++ [o] }

/-- BulletEngine.cpp 195-245 `BulletEngine::addObject`, for objects of Bullet. -/
def Engine.addObject (e : Engine ο ω ν) (o : ο) : Bool × Engine ο ω ν := (true, Engine.register { e with bodies := e.bodies ++ [o] } o)

/-- BulletEngine.cpp 247-261 and DynamicsEngine.cpp 64-76 `removeObject`. -/
def Engine.removeObject (e : Engine ο ω ν) (o : ο) : Bool × Engine ο ω ν :=
  let e := { e with bodies := e.bodies.erase o }
  if o ∈ e.objects then (true, { e with objects := e.objects.erase o }) else (false, e)

/-- DynamicsEngine.cpp 331-344 `getObject`. -/
def Engine.getObject (name : ο → String) (e : Engine ο ω ν) (n : String) : Option ο := e.objects.find? fun o => name o == n

/-- DynamicsEngine.cpp 85-105 `DynamicsEngine::addRobot`; `robot` is the robot a wrapper is made for. -/
def Engine.registerRobot (robot : ω → ρ) (e : Engine ο ω ν) (r : ω) : Bool × Engine ο ω ν :=
  if r ∈ e.robots then (true, e)
  else if e.robots.any fun r' => robot r' = robot r then (false, e)
  else (true, { e with robots := e.robots ++ [r] })

/-- BulletEngine.cpp 517-522: the loop over the pairs of a link. -/
def offPairs : List (ο × ο) → Coll ο → Coll ο
  | [], c => c
  | p :: ps, c => offPairs ps (c.off (some p.1) (some p.2))

/-- BulletEngine.cpp 510-525 `addLink`. -/
def Engine.addLink (e : Engine ο ω ν) (l : Link ο ν) : Engine ο ω ν :=
  { e with constraints := e.constraints ++ [l], coll := offPairs l.pairs e.coll }

/-- BulletEngine.cpp 263-271 `removeLink`. -/
def Engine.removeLink (e : Engine ο ω ν) (l : Link ο ν) : Engine ο ω ν :=
  { e with constraints := e.constraints.erase l, coll := e.coll.on (some l.body1) (some l.body2) }

/-- BulletEngine.cpp 418-443 `addRobot`; `nodes` are the bodies of a wrapper (DynamicsRobot.cpp 48-61). -/
def Engine.addRobot (robot : ω → ρ) (nodes : ω → List ο) (e : Engine ο ω ν) (r : ω) : Bool × Engine ο ω ν :=
  let e := (nodes r).foldl (fun e o => (e.addObject o).2) e
  let e := (e.links r).foldl Engine.addLink e
  e.registerRobot robot r

/-- BulletEngine.cpp 482-508 `removeRobot`, with DynamicsEngine.cpp 107-119. -/
def Engine.removeRobot (nodes : ω → List ο) (e : Engine ο ω ν) (r : ω) : Bool × Engine ο ω ν :=
  let e := (e.links r).foldl Engine.removeLink e
  let e := (nodes r).foldl (fun e o => (e.removeObject o).2) e
  if r ∈ e.robots then (true, { e with robots := e.robots.erase r }) else (false, e)

/-- DynamicsEngine.cpp 363-376 `getRobot` of a robot. -/
def Engine.getRobot (robot : ω → ρ) (e : Engine ο ω ν) (r : ρ) : Option ω := e.robots.find? fun w => robot w = r

/-! ## Attached objects -/

/-- BulletRobot.cpp 850-873: the node itself or the nearest node above it with a body. `chain` is the node followed by the nodes above it, nearest first. -/
def nearestBody (body : ν → Option ο) : List ν → Option (ν × ο)
  | [] => none
  | n :: ns => match body n with
    | some o => some (n, o)
    | none => nearestBody body ns

/-- BulletRobot.cpp 823-927 `attachObjectLink` without the geometry of the joint: the link. `chain` is `none` if the robot has no node of that name. -/
def attachLink (body : ν → Option ο) (chain : Option (List ν)) (o : ο) : Option (Link ο ν) :=
  match chain with
  | none => none
  | some ns => match nearestBody body ns with
    | none => none
    | some (n, b) => some ⟨n, b, o, [(b, o)]⟩

/-- BulletEngine.cpp 655-687 `attachObjectToRobot`. -/
def Engine.attach (body : ν → Option ο) (e : Engine ο ω ν) (r : ω) (chain : Option (List ν)) (o : ο) : Bool × Engine ο ω ν :=
  match attachLink body chain o with
  | none => (false, e)
  | some l => (true, Engine.addLink { e with links := Function.update e.links r (e.links r ++ [l]) } l)

/-- BulletRobot.cpp 800-815 `getLinks` of a body. -/
def linksOf (o : ο) (ls : List (Link ο ν)) : List (Link ο ν) := ls.filter fun l => l.body1 = o ∨ l.body2 = o

/-- BulletRobot.cpp 193-212 `BulletRobot::removeLink`: whether a link was removed, and the links that stay. -/
def dropLink (ls : List (Link ο ν)) (l : Link ο ν) : Bool × List (Link ο ν) :=
  (ls.any fun k => k.body1 = l.body1 ∧ k.body2 = l.body2, ls.filter fun k => ¬ (k.body1 = l.body1 ∧ k.body2 = l.body2))

/-- BulletRobot.cpp 961-964: the loop of `detachObject`. -/
def dropLinks : List (Link ο ν) → Bool × List (Link ο ν) → Bool × List (Link ο ν)
  | [], s => s
  | l :: ls, s => let d := dropLink s.2 l; dropLinks ls (s.1 && d.1, d.2)

/-- BulletEngine.cpp 689-731 `detachObjectFromRobot`, with BulletRobot.cpp 929-968 `detachObject`. -/
def Engine.detach (e : Engine ο ω ν) (r : ω) (o : ο) : Bool × Engine ο ω ν :=
  let ls := linksOf o (e.links r)
  let e := ls.foldl Engine.removeLink e
  if ls.length = 0 then (true, e)
  else
    let d := dropLinks ls (true, e.links r)
    (d.1, { e with links := Function.update e.links r d.2 })

end

end Simox.Dyn
