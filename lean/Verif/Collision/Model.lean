import Mathlib.Order.Defs.LinearOrder

/-!
# Model of object sets, the collision checker front end and the collision manager

`VirtualRobot/SceneObjectSet.cpp`, `VirtualRobot/CollisionDetection/CollisionChecker.cpp` and
`VirtualRobot/CollisionDetection/CDManager.cpp`.

Scene objects, collision models and collision checkers are identified by numbers (their addresses); object
sets live on a heap (a list; the identity of a set is its position). The mesh-against-mesh test and distance
of two collision models (`collisionCheckerImplementation`) are parameters. Distances are elements of an
arbitrary linear order with two distinguished elements: `FLT_MAX` and `-1`.

Null arguments, for which every operation returns at once, are not modelled, and neither are robots as
members of a set nor the `VR_ASSERT`s on mixed collision checkers (a set with a foreign collision checker
only causes a warning in `CDManager`, CDManager.cpp 36-39).
-/

namespace Simox.Collision

/-- What the objects are and how the collision library answers; `W` is the witness of a distance query (two
points and two triangle numbers). -/
structure World (D W : Type) where
  /-- `SceneObject::getCollisionChecker`, SceneObject.cpp 173-176 (fixed at construction) -/
  objChecker : Nat → Nat
  /-- `SceneObject::getCollisionModel`, null for objects without a mesh -/
  colModel : Nat → Option Nat
  /-- `CollisionCheckerImplementation::checkCollision` -/
  collide : Nat → Nat → Bool
  /-- `CollisionCheckerImplementation::calculateDistance` -/
  closest : Nat → Nat → D × W
  fltMax : D
  negOne : D

/-- A `SceneObjectSet`: SceneObjectSet.h, members `colChecker` and `sceneObjects` (the name is left out). -/
structure SetObj where
  checker : Nat
  objs : List Nat
  deriving Repr, DecidableEq

variable {D W : Type}

/-- `SceneObjectSet::addSceneObject`, SceneObjectSet.cpp 51-74. -/
def SetObj.add (w : World D W) (s : SetObj) (o : Nat) : SetObj × Bool :=
  if s.checker ≠ w.objChecker o then (s, false)
  else if o ∈ s.objs then (s, false)
  else ({ s with objs := s.objs ++ [o] }, true)

/-- `SceneObjectSet::addSceneObjects`, loop of SceneObjectSet.cpp 94-102: stops at the first failure. -/
def SetObj.addLoop (w : World D W) : SetObj → List Nat → SetObj × Bool
  | s, [] => (s, true)
  | s, o :: os =>
    match s.add w o with
    | (s', true) => SetObj.addLoop w s' os
    | (s', false) => (s', false)

/-- `SceneObjectSet::addSceneObjects(SceneObjectSetPtr)`, SceneObjectSet.cpp 78-103. -/
def SetObj.addSet (w : World D W) (s t : SetObj) : SetObj × Bool :=
  if s.checker ≠ t.checker then (s, false) else s.addLoop w t.objs

/-- `SceneObjectSet::addSceneObjects(std::vector<RobotNodePtr>)`, SceneObjectSet.cpp 117-140: nodes with a
different collision checker are skipped, any other failure ends the loop. -/
def SetObj.addNodes (w : World D W) : SetObj → List Nat → SetObj × Bool
  | s, [] => (s, true)
  | s, o :: os =>
    if s.checker ≠ w.objChecker o then SetObj.addNodes w s os
    else
      match s.add w o with
      | (s', true) => SetObj.addNodes w s' os
      | (s', false) => (s', false)

/-- `SceneObjectSet::removeSceneObject`, SceneObjectSet.cpp 142-168. -/
def SetObj.remove (s : SetObj) (o : Nat) : SetObj × Bool :=
  if o ∈ s.objs then ({ s with objs := s.objs.erase o }, true) else (s, false)

/-- `SceneObjectSet::hasSceneObject`, SceneObjectSet.cpp 232-243. -/
def SetObj.has (s : SetObj) (o : Nat) : Bool := s.objs.any (fun x => x == o)

/-- `SceneObjectSet::clone(newName)`, SceneObjectSet.cpp 298-308. -/
def SetObj.clone (w : World D W) (s : SetObj) : SetObj :=
  s.objs.foldl (fun r o => (r.add w o).1) { checker := s.checker, objs := [] }

/-- `SceneObjectSet::getCollisionModels`, SceneObjectSet.cpp 245-258. -/
def SetObj.models (w : World D W) (s : SetObj) : List Nat := s.objs.filterMap w.colModel

/-! ## The collision checker on sets -/

/-- Inner loop of `checkCollision`, CollisionChecker.cpp 354-364 (also 405-433 with one model fixed). -/
def checkOne (w : World D W) (x : Nat) : List Nat → Bool
  | [] => false
  | y :: ys => if w.collide x y then true else checkOne w x ys

/-- Outer loop of `checkCollision`, CollisionChecker.cpp 350-367. -/
def checkAll (w : World D W) : List Nat → List Nat → Bool
  | [], _ => false
  | x :: xs, ys => if checkOne w x ys then true else checkAll w xs ys

/-- `CollisionChecker::checkCollision(SceneObjectSetPtr, SceneObjectSetPtr)`, CollisionChecker.cpp 329-370. -/
def checkSets (w : World D W) (s t : SetObj) : Bool :=
  let a := s.models w
  let b := t.models w
  if a.length = 0 then false
  else if b.length = 0 then false
  else checkAll w a b

variable [LinearOrder D]

/-- Inner loop of `calculateDistance`, CollisionChecker.cpp 210-233: a result that is not larger replaces the
best one. The witness is `none` while the output parameters have not been written. -/
def distOne (w : World D W) (x : Nat) : List Nat → D × Option W → D × Option W
  | [], acc => acc
  | y :: ys, acc =>
    let r := w.closest x y
    distOne w x ys (if r.1 ≤ acc.1 then (r.1, some r.2) else acc)

/-- Outer loop of `calculateDistance`, CollisionChecker.cpp 206-236. -/
def distAll (w : World D W) : List Nat → List Nat → D × Option W → D × Option W
  | [], _, acc => acc
  | x :: xs, ys, acc => distAll w xs ys (distOne w x ys acc)

/-- `CollisionChecker::calculateDistance(SceneObjectSetPtr, SceneObjectSetPtr, …)`, CollisionChecker.cpp
185-239: the variants without output points (77-81) call it too. -/
def distSets (w : World D W) (s t : SetObj) : D × Option W :=
  let a := s.models w
  let b := t.models w
  if a.length = 0 ∨ b.length = 0 then (w.negOne, none)
  else distAll w a b (w.fltMax, none)

/-! ## The collision manager -/

/-- Heap of object sets and the members of a `CDManager` (CDManager.h 143-146). `cap` is the capacity of the
vector `colModels`. `pairs` is the map `colModelPairs`, listed by first insertion (the real map is ordered by
address; no theorem depends on the order). -/
structure St where
  heap : List SetObj
  checker : Nat
  models : List Nat
  cap : Nat
  pairs : List (Nat × List Nat)

/-- A new manager (CDManager.cpp 17-27), no sets yet. -/
def St.init (checker : Nat) : St where
  heap := []
  checker := checker
  models := []
  cap := 0
  pairs := []

/-- The set a pointer refers to. -/
def St.set (s : St) (m : Nat) : SetObj := (s.heap[m]?).getD { checker := 0, objs := [] }

/-- `CDManager::hasSceneObjectSet`, CDManager.cpp 318-329. -/
def hasSceneObjectSet (s : St) (m : Nat) : Bool := s.models.any (fun c => c == m)

/-- `CDManager::_hasSceneObjectSet`, CDManager.cpp 331-347. -/
def knowsSet (s : St) (m : Nat) : Bool :=
  s.models.any (fun c => c == m ||
    ((s.set m).objs.length == 1 && (s.set c).objs.length == 1 &&
      (s.set c).objs[0]? == (s.set m).objs[0]?))

/-- `CDManager::hasSceneObject`, CDManager.cpp 349-360. -/
def hasSceneObject (s : St) (o : Nat) : Bool :=
  s.models.any (fun c => (s.set c).objs.length == 1 && (s.set c).objs[0]? == some o)

/-- `colModels.push_back`: `grow` is the growth policy of the library. The flag says whether the storage was
reallocated, which invalidates all iterators. -/
def pushModel (grow : Nat → Nat) (s : St) (m : Nat) : St × Bool :=
  if s.models.length < s.cap then ({ s with models := s.models ++ [m] }, false)
  else ({ s with models := s.models ++ [m], cap := grow s.models.length }, true)

/-- `colModelPairs[m1].push_back(m2)`. -/
def addToMap (m1 m2 : Nat) : List (Nat × List Nat) → List (Nat × List Nat)
  | [] => [(m1, [m2])]
  | (k, v) :: rest => if k = m1 then (k, v ++ [m2]) :: rest else (k, v) :: addToMap m1 m2 rest

/-- `CDManager::addCollisionModelPair(SceneObjectSetPtr, SceneObjectSetPtr)`, CDManager.cpp 362-380. The flag
says whether `colModels` was reallocated. -/
def addPair (grow : Nat → Nat) (s : St) (m1 m2 : Nat) : St × Bool :=
  let (s, r1) := if !knowsSet s m1 then pushModel grow s m1 else (s, false)
  let (s, r2) := if !knowsSet s m2 then pushModel grow s m2 else (s, false)
  ({ s with pairs := addToMap m1 m2 s.pairs }, r1 || r2)

/-- Loop of `CDManager::addCollisionModel`, CDManager.cpp 41-47: a range-`for` over the vector that
`addCollisionModelPair` may grow. The loop visits the elements that were there at the beginning; when the
vector is reallocated meanwhile the iterators dangle and the behaviour is undefined (`none`). -/
def addModelLoop (grow : Nat → Nat) (m : Nat) : List Nat → St → Option St
  | [], s => some s
  | c :: cs, s =>
    if m ≠ c then
      match addPair grow s c m with
      | (_, true) => none
      | (s', false) => addModelLoop grow m cs s'
    else addModelLoop grow m cs s

/-- `CDManager::addCollisionModel(SceneObjectSetPtr)`, CDManager.cpp 32-54. -/
def addModel (grow : Nat → Nat) (s : St) (m : Nat) : Option St :=
  match addModelLoop grow m s.models s with
  | none => none
  | some s' => some (if !knowsSet s' m then (pushModel grow s' m).1 else s')

/-- `new SceneObjectSet(name, checker)`, SceneObjectSet.cpp 16-26. -/
def newSet (s : St) (checker : Nat) : St :=
  { s with heap := s.heap ++ [{ checker := checker, objs := [] }] }

/-- Replace the contents of a set. -/
def St.put (s : St) (m : Nat) (x : SetObj) : St := { s with heap := s.heap.set m x }

/-- A set holding one object, linked to the manager's checker: CDManager.cpp 60-61, 389-390, 401-404 (the
result of `addSceneObject` is ignored). -/
def wrap (w : World D W) (s : St) (o : Nat) : St :=
  let m := s.heap.length
  let s := newSet s s.checker
  s.put m ((s.set m).add w o).1

/-- The operations of the API that change the state. -/
inductive Op where
  | newSet (checker : Nat)
  | setAdd (m o : Nat)
  | setAddSet (m t : Nat)
  | setAddNodes (m : Nat) (os : List Nat)
  | setRemove (m o : Nat)
  /-- `addCollisionModel(set)` -/
  | addModel (m : Nat)
  /-- `addCollisionModel(object)`, CDManager.cpp 56-64 -/
  | addObject (o : Nat)
  /-- `addCollisionModelPair(set, set)` -/
  | addPair (m1 m2 : Nat)
  /-- `addCollisionModelPair(object, set)`, CDManager.cpp 382-392 -/
  | addPairOS (o m : Nat)
  /-- `addCollisionModelPair(object, object)`, CDManager.cpp 394-407 -/
  | addPairOO (o1 o2 : Nat)

/-- One API call; `none` is undefined behaviour. -/
def step (w : World D W) (grow : Nat → Nat) (s : St) : Op → Option St
  | .newSet c => some (newSet s c)
  | .setAdd m o => some (s.put m ((s.set m).add w o).1)
  | .setAddSet m t => some (s.put m ((s.set m).addSet w (s.set t)).1)
  | .setAddNodes m os => some (s.put m ((s.set m).addNodes w os).1)
  | .setRemove m o => some (s.put m ((s.set m).remove o).1)
  | .addModel m => addModel grow s m
  | .addObject o => addModel grow (wrap w s o) s.heap.length
  | .addPair m1 m2 => some (addPair grow s m1 m2).1
  | .addPairOS o m => some (addPair grow (wrap w s o) s.heap.length m).1
  | .addPairOO o1 o2 =>
    some (addPair grow (wrap w (wrap w s o1) o2) s.heap.length (s.heap.length + 1)).1

/-- A sequence of API calls. -/
def run (w : World D W) (grow : Nat → Nat) : St → List Op → Option St
  | s, [] => some s
  | s, op :: ops =>
    match step w grow s op with
    | none => none
    | some s' => run w grow s' ops

/-- `CDManager::isInCollision(SceneObjectSetPtr, vector)`, CDManager.cpp 272-283. -/
def inCollisionList (w : World D W) (s : St) (m : Nat) : List Nat → Bool
  | [] => false
  | c :: cs => if checkSets w (s.set m) (s.set c) then true else inCollisionList w s m cs

/-- Loop of `CDManager::isInCollision()`, CDManager.cpp 292-302. -/
def inCollisionPairs (w : World D W) (s : St) : List (Nat × List Nat) → Bool
  | [] => false
  | (k, v) :: rest => if inCollisionList w s k v then true else inCollisionPairs w s rest

/-- `CDManager::isInCollision()`, CDManager.cpp 285-305. -/
def isInCollision (w : World D W) (s : St) : Bool := inCollisionPairs w s s.pairs

/-- Loop of `CDManager::isInCollision(SceneObjectSetPtr)`, CDManager.cpp 75-84. -/
def inCollisionModels (w : World D W) (s : St) (m : Nat) : List Nat → Bool
  | [] => false
  | c :: cs =>
    if m ≠ c then
      if checkSets w (s.set c) (s.set m) then true else inCollisionModels w s m cs
    else inCollisionModels w s m cs

/-- `CDManager::isInCollision(SceneObjectSetPtr)`, CDManager.cpp 66-88. -/
def isInCollisionWith (w : World D W) (s : St) (m : Nat) : Bool := inCollisionModels w s m s.models

/-- `if (tmp < minDist) minDist = tmp` together with the copying of the witness. -/
def better (r acc : D × Option W) : D × Option W := if r.1 < acc.1 then r else acc

/-- `CDManager::getDistance(m, sets, …)`, CDManager.cpp 121-136 and 166-193. -/
def distList (w : World D W) (s : St) (m : Nat) : List Nat → D × Option W → D × Option W
  | [], acc => acc
  | c :: cs, acc => distList w s m cs (better (distSets w (s.set m) (s.set c)) acc)

/-- Loop of `CDManager::getDistance()`, CDManager.cpp 149-161 and 210-230. -/
def distPairs (w : World D W) (s : St) : List (Nat × List Nat) → D × Option W → D × Option W
  | [], acc => acc
  | (k, v) :: rest, acc => distPairs w s rest (better (distList w s k v (w.fltMax, none)) acc)

/-- `CDManager::getDistance()` and `getDistance(P1, P2, trID1, trID2)`, CDManager.cpp 139-164 and 195-233:
the distance and, for the second, the output parameters (`none`: not written). -/
def getDistance (w : World D W) (s : St) : D × Option W := distPairs w s s.pairs (w.fltMax, none)

/-- Loop of `CDManager::getDistance(SceneObjectSetPtr)`, CDManager.cpp 103-114. -/
def distModels (w : World D W) (s : St) (m : Nat) : List Nat → D → D
  | [], acc => acc
  | c :: cs, acc =>
    if m ≠ c then
      let d := (distSets w (s.set c) (s.set m)).1
      distModels w s m cs (if d < acc then d else acc)
    else distModels w s m cs acc

/-- `CDManager::getDistance(SceneObjectSetPtr)`, CDManager.cpp 91-117. -/
def getDistanceTo (w : World D W) (s : St) (m : Nat) : D := distModels w s m s.models w.fltMax

/-- `CDManager::getDistance(m, P1, P2, trID1, trID2)`, CDManager.cpp 235-268: in contrast to the variant
without output points `m` itself is not left out. -/
def getDistanceToPts (w : World D W) (s : St) (m : Nat) : D × Option W :=
  distList w s m s.models (w.fltMax, none)

end Simox.Collision
