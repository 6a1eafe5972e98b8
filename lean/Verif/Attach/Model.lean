/-
Model of attaching and detaching scene objects.

Modelled: `/repo/VirtualRobot/SceneObject.cpp` lines 52-58 (destructor), 61-101 (initialize),
103-139 and 157-161 (global pose), 1081-1200 (children and parents).

Objects are identified by numbers (the address an object has during its life).  `children` is a
vector of owning pointers, `parent` is a weak pointer.  Poses are elements of an arbitrary type.
Not modelled: visualization and collision models, physics, and the overriding functions of the
subclasses (robot nodes are the subject of `Verif.Kin`).
-/
namespace Simox.Attach

/-- All scene objects of a program (`/repo/VirtualRobot/SceneObject.h` 409-424: `name`,
`globalPose`, `children`, `parent`).  `alive` tells which objects have been constructed and not yet
destroyed. -/
structure World (P : Type) where
  alive : Nat → Bool
  name : Nat → String
  children : Nat → List Nat
  parent : Nat → Option Nat
  pose : Nat → P

variable {P : Type}

/-- Pointwise update of a field. -/
def put {α : Type} (f : Nat → α) (k : Nat) (v : α) : Nat → α := fun x => if x = k then v else f x

/-- A program before its first scene object. -/
def World.init (one : P) : World P :=
  { alive := fun _ => false, name := fun _ => "", children := fun _ => [], parent := fun _ => none,
    pose := fun _ => one }

/-- Constructor (`/repo/VirtualRobot/SceneObject.cpp` 21-49): no parent, no children, identity
pose. -/
def create (one : P) (w : World P) (x : Nat) (n : String) : World P :=
  { alive := put w.alive x true, name := put w.name x n, children := put w.children x [],
    parent := put w.parent x none, pose := put w.pose x one }

/-- `SceneObject::getParent` (`/repo/VirtualRobot/SceneObject.cpp` 1178-1182): locking the weak
pointer gives null if the parent is dead. -/
def getParent (w : World P) (x : Nat) : Option Nat :=
  match w.parent x with
  | some p => if w.alive p then some p else none
  | none => none

/-- `SceneObject::hasChild` without recursion, by pointer (1081-1099). -/
def hasChild (w : World P) (p c : Nat) : Bool := (w.children p).any (fun y => y == c)

/-- `SceneObject::hasChild` without recursion, by name (1101-1117). -/
def hasChildNamed (w : World P) (p : Nat) (n : String) : Bool :=
  (w.children p).any (fun y => w.name y == n)

/-- The loop of `SceneObject::hasChild` with `recursive` set (1085-1096, 1103-1114); `rec` is the
call for a child, `none` a call that does not return. -/
def scan (hit : Nat → Bool) (rec : Nat → Option Bool) : List Nat → Option Bool
  | [] => some false
  | y :: ys =>
    if hit y then some true
    else
      match rec y with
      | none => none
      | some true => some true
      | some false => scan hit rec ys

/-- `SceneObject::hasChild` with `recursive` set (1081-1117).  The first argument bounds the depth of
the recursion; `none` means that the bound was hit.  `hit` is the comparison by pointer or by
name. -/
def hasChildRec (w : World P) (hit : Nat → Bool) : Nat → Nat → Option Bool
  | 0, _ => none
  | f + 1, x => scan hit (hasChildRec w hit f) (w.children x)

/-- What a call that may throw does. -/
inductive Outcome (P : Type) where
  | returned (w : World P) (ok : Bool)
  | threw (w : World P)

/-- `SceneObject::attached` (1194-1200). -/
def attached (w : World P) (c p : Nat) : Outcome P :=
  match getParent w c with
  | some q =>
    if q = p then .returned { w with parent := put w.parent c (some p) } true else .threw w
  | none => .returned { w with parent := put w.parent c (some p) } true

/-- `SceneObject::attachChild` (1133-1164). -/
def attachChild (w : World P) (p c : Nat) : Outcome P :=
  if p = c then .returned w false
  else if hasChild w p c then .returned w true
  else if (getParent w c).isSome then .returned w false
  else if hasChildNamed w p (w.name c) then .returned w false
  else attached { w with children := put w.children p (w.children p ++ [c]) } c p

/-- `SceneObject::detachChild` (1119-1131). -/
def detachChild (w : World P) (p c : Nat) : World P :=
  if hasChild w p c then
    { w with children := put w.children p ((w.children p).erase c), parent := put w.parent c none }
  else w

/-- Destructor (52-58); afterwards the vector of children is gone too. -/
def destroy (w : World P) (x : Nat) : World P :=
  { w with
    alive := put w.alive x false
    children := put w.children x []
    parent := fun c => if c ∈ w.children x then none else w.parent c }

/-- `SceneObject::setName` (946-949). -/
def setName (w : World P) (x : Nat) (n : String) : World P := { w with name := put w.name x n }

/-- The loop over the children in `SceneObject::updatePose` (134-138): each child gets the object's
current global pose. -/
def pushPose (rec : World P → Nat → P → Option (World P)) (x : Nat) :
    List Nat → World P → Option (World P)
  | [], w => some w
  | c :: cs, w =>
    match rec w c (w.pose x) with
    | none => none
    | some w' => pushPose rec x cs w'

/-- `SceneObject::updatePose(parentPose, true)` (157-161 and 122-139), with a bound on the depth of
the recursion. -/
def updatePose : Nat → World P → Nat → P → Option (World P)
  | 0, _, _, _ => none
  | f + 1, w, x, g =>
    pushPose (updatePose f) x (w.children x) { w with pose := put w.pose x g }

/-- `SceneObject::setGlobalPose` (103-114). -/
def setGlobalPose (fuel : Nat) (w : World P) (x : Nat) (g : P) : Option (World P) :=
  match getParent w x with
  | some _ => some w
  | none => updatePose fuel w x g

/-- `attachChild` with the result ignored, as in `initialize`; a throw ends the call. -/
def attachIgnored (w : World P) (p c : Nat) : Option (World P) :=
  if hasChild w p c then some w
  else
    match attachChild w p c with
    | .returned w' _ => some w'
    | .threw _ => none

/-- Attaching to the parent given to `initialize`, if any (64-70). -/
def attachTo (w : World P) (par : Option Nat) (x : Nat) : Option (World P) :=
  match par with
  | some p => attachIgnored w p x
  | none => some w

/-- The pose an initialized object gets (91-96). -/
def basePose (one : P) (w : World P) (par : Option Nat) : P :=
  match par with
  | some p => w.pose p
  | none => one

/-- Attaching the children given to `initialize` (75-81). -/
def attachAll (w : World P) (x : Nat) : List Nat → Option (World P)
  | [] => some w
  | c :: cs =>
    match attachIgnored w x c with
    | none => none
    | some w' => attachAll w' x cs

/-- Initializing all children (84-89). -/
def initAll (rec : World P → Nat → Option (World P)) : List Nat → World P → Option (World P)
  | [], w => some w
  | c :: cs, w =>
    match rec w c with
    | none => none
    | some w' => initAll rec cs w'

/-- `SceneObject::initialize` (61-101), with a bound on the depth of the recursion.  `none`: the
bound was hit or an exception was thrown.  The physics part (100) is not modelled. -/
def initObj (one : P) : Nat → World P → Nat → Option Nat → List Nat → Option (World P)
  | 0, _, _, _, _ => none
  | f + 1, w, x, par, cs =>
    match attachTo w par x with
    | none => none
    | some w1 =>
      -- 72 and 75-81
      match attachAll { w1 with parent := put w1.parent x par } x cs with
      | none => none
      | some w3 =>
        -- 84-89
        match initAll (fun w' c => initObj one f w' c (some x) []) (w3.children x) w3 with
        | none => none
        | some w4 => updatePose f w4 x (basePose one w4 par)

/-- The calls a program can make. -/
inductive Op where
  | create (x : Nat) (n : String)
  | attach (p c : Nat)
  | detach (p c : Nat)
  | destroy (x : Nat)

/-- Effect of a call on the objects (poses are changed by other calls). -/
def step (one : P) (w : World P) : Op → World P
  | .create x n => create one w x n
  | .attach p c =>
    match attachChild w p c with
    | .returned w' _ => w'
    | .threw w' => w'
  | .detach p c => detachChild w p c
  | .destroy x => destroy w x

/-- Calls that a program can make at all: it must hold the objects it names, an address is free
before it is used, and an object is destroyed only when no other object owns it. -/
def Legal (w : World P) : Op → Prop
  | .create x _ => w.alive x = false
  | .attach p c => w.alive p = true ∧ w.alive c = true
  | .detach p c => w.alive p = true ∧ w.alive c = true
  | .destroy x => w.alive x = true ∧ ∀ p, x ∉ w.children p

/-- A history of calls from the start of the program. -/
inductive Reach (one : P) : List Op → World P → Prop where
  | start : Reach one [] (World.init one)
  | next {h : List Op} {w : World P} {op : Op} :
      Reach one h w → Legal w op → Reach one (h ++ [op]) (step one w op)

end Simox.Attach
