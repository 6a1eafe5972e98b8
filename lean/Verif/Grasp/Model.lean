/-
Model of grasps, grasp sets and the grasp sets of manipulation objects.

Modelled: `/repo/VirtualRobot/Grasping/Grasp.cpp` 12-17, 49-80, 147-194,
`/repo/VirtualRobot/Grasping/GraspSet.cpp` 14-76, 95-136, 177-235 and
`/repo/VirtualRobot/ManipulationObject.cpp` 40-127, 184-216 (grasp sets only).

Grasps and grasp sets are objects behind shared pointers, identified by numbers.  The asserts of
`addGrasp` exist in debug builds only (`/repo/VirtualRobot/VirtualRobot.h` 306-322), so the build is
a parameter.  Not modelled: null pointers in sets, printing and XML export, visualizations.
-/
import Mathlib.Algebra.Group.Defs

namespace Simox.Grsp

/-- Members of a grasp (`/repo/VirtualRobot/Grasping/Grasp.h`).  `rest` stands for creation method,
quality and the stored configuration, which are only copied. -/
structure Grasp (P : Type) where
  name : String
  robotType : String
  eef : String
  pose : P
  preshape : String
  rest : String

/-- Members of a grasp set (`/repo/VirtualRobot/Grasping/GraspSet.h`). -/
structure GraspSet where
  name : String
  robotType : String
  eef : String
  grasps : List Nat

/-- All grasps and grasp sets of a program; `next` is an address not in use. -/
structure World (P : Type) where
  grasp : Nat → Grasp P
  set : Nat → GraspSet
  next : Nat

variable {P : Type}

/-! ### Grasp sets -/

/-- `GraspSet::hasGrasp` by pointer (`GraspSet.cpp` 33-44). -/
def hasGrasp (s : GraspSet) (g : Nat) : Bool := s.grasps.any (fun i => i == g)

/-- `GraspSet::hasGrasp` by name (46-57). -/
def hasGraspNamed (w : World P) (s : GraspSet) (n : String) : Bool :=
  s.grasps.any (fun i => (w.grasp i).name == n)

/-- `GraspSet::isCompatibleGrasp` (95-108). -/
def isCompatible (w : World P) (s : GraspSet) (g : Nat) : Bool :=
  if (w.grasp g).robotType ≠ s.robotType then false
  else if (w.grasp g).eef ≠ s.eef then false
  else true

/-- `GraspSet::addGrasp` (23-31).  `none`: an assert of the debug build stops the program. -/
def addGrasp (debug : Bool) (w : World P) (s : GraspSet) (g : Nat) : Option GraspSet :=
  if debug && (hasGrasp s g || !isCompatible w s g) then none
  else some { s with grasps := s.grasps ++ [g] }

/-- The loop of `GraspSet::includeGraspSet` (65-76) over a copy of the other set's grasps. -/
def includeGrasps (debug : Bool) (w : World P) (s : GraspSet) : List Nat → Option GraspSet
  | [] => some s
  | g :: gs =>
    if hasGrasp s g then includeGrasps debug w s gs
    else
      match addGrasp debug w s g with
      | none => none
      | some s' => includeGrasps debug w s' gs

/-- `GraspSet::getGrasp` by index (115-123). -/
def getGraspAt (s : GraspSet) (n : Nat) : Option Nat :=
  if n ≥ s.grasps.length then none else s.grasps[n]?

/-- `GraspSet::getGrasp` by name (125-136). -/
def getGraspNamed (w : World P) : List Nat → String → Option Nat
  | [], _ => none
  | g :: gs, n => if (w.grasp g).name == n then some g else getGraspNamed w gs n

/-- Loop of `GraspSet::removeGrasp` (192-199). -/
def eraseGrasp (g : Nat) : List Nat → List Nat × Bool
  | [] => ([], false)
  | x :: xs =>
    if x = g then (xs, true)
    else
      let p := eraseGrasp g xs
      (x :: p.1, p.2)

/-- `GraspSet::removeGrasp` by pointer (190-202). -/
def removeGrasp (s : GraspSet) (g : Nat) : GraspSet × Bool :=
  let p := eraseGrasp g s.grasps
  ({ s with grasps := p.1 }, p.2)

/-- `GraspSet::removeGrasp` by index (204-210). -/
def removeGraspAt (s : GraspSet) (i : Nat) : GraspSet × Bool :=
  match getGraspAt s i with
  | none => (s, false)
  | some g => removeGrasp s g

/-- `GraspSet::clear` (60-63) and `removeAllGrasps` (212-215). -/
def clear (s : GraspSet) : GraspSet := { s with grasps := [] }

/-- Writing back a changed set. -/
def World.putSet (w : World P) (k : Nat) (s : GraspSet) : World P :=
  { w with set := fun i => if i = k then s else w.set i }

/-- `GraspSet::setPreshape` (229-235): the loop over the grasps. -/
def setPreshapes (p : String) : List Nat → (Nat → Grasp P) → (Nat → Grasp P)
  | [], f => f
  | g :: gs, f => setPreshapes p gs (fun i => if i = g then { f i with preshape := p } else f i)

/-- `GraspSet::setPreshape` (229-235). -/
def setPreshape (w : World P) (k : Nat) (p : String) : World P :=
  { w with grasp := setPreshapes p (w.set k).grasps w.grasp }

/-- `Grasp::clone` (`Grasp.cpp` 159-164): a new object with the same members. -/
def cloneGrasp (w : World P) (g : Nat) : World P × Nat :=
  ({ w with
      grasp := fun i => if i = w.next then w.grasp g else w.grasp i
      next := w.next + 1 }, w.next)

/-- The loop of `GraspSet::clone` (182-185). -/
def cloneGrasps (debug : Bool) (w : World P) (s : GraspSet) :
    List Nat → Option (World P × GraspSet)
  | [] => some (w, s)
  | g :: gs =>
    let p := cloneGrasp w g
    match addGrasp debug p.1 s p.2 with
    | none => none
    | some s' => cloneGrasps debug p.1 s' gs

/-- `GraspSet::clone` (177-188). -/
def cloneSet (debug : Bool) (w : World P) (s : GraspSet) : Option (World P × GraspSet) :=
  cloneGrasps debug w { name := s.name, robotType := s.robotType, eef := s.eef, grasps := [] }
    s.grasps

/-- The calls that change one grasp set. -/
inductive SetOp where
  | add (g : Nat)
  | incl (gs : List Nat)
  | remove (g : Nat)
  | removeAt (i : Nat)
  | clear

/-- Effect of a call on a set; `none`: stopped by an assert. -/
def setStep (debug : Bool) (w : World P) (s : GraspSet) : SetOp → Option GraspSet
  | .add g => addGrasp debug w s g
  | .incl gs => includeGrasps debug w s gs
  | .remove g => some (removeGrasp s g).1
  | .removeAt i => some (removeGraspAt s i).1
  | .clear => some (clear s)

/-- A sequence of calls. -/
def setRun (debug : Bool) (w : World P) (s : GraspSet) : List SetOp → Option GraspSet
  | [] => some s
  | op :: ops =>
    match setStep debug w s op with
    | none => none
    | some s' => setRun debug w s' ops

/-! ### Manipulation objects -/

/-- Does a set belong to this robot type and end effector (`ManipulationObject.cpp` 60, 85, 105)? -/
def matching (w : World P) (rt eef : String) (k : Nat) : Bool :=
  (w.set k).robotType == rt && (w.set k).eef == eef

/-- `ManipulationObject::hasGraspSet` by pointer (69-80). -/
def hasSet (sets : List Nat) (k : Nat) : Bool := sets.any (fun i => i == k)

/-- `ManipulationObject::hasGraspSet` by robot type and end effector (82-91). -/
def hasSetFor (w : World P) (sets : List Nat) (rt eef : String) : Bool :=
  sets.any (matching w rt eef)

/-- `ManipulationObject::addGraspSet` (40-47); `none`: exception. -/
def addSet (sets : List Nat) (k : Nat) : Option (List Nat) :=
  if hasSet sets k then none else some (sets ++ [k])

/-- `ManipulationObject::getGraspSet` by robot type and end effector (102-111). -/
def getSetFor (w : World P) : List Nat → String → String → Option Nat
  | [], _, _ => none
  | k :: ks, rt, eef => if matching w rt eef k then some k else getSetFor w ks rt eef

/-- `ManipulationObject::getGraspSet` by name (113-122). -/
def getSetNamed (w : World P) : List Nat → String → Option Nat
  | [], _ => none
  | k :: ks, n => if (w.set k).name == n then some k else getSetNamed w ks n

/-- The loop of `ManipulationObject::includeGraspSet` (57-64): every match overwrites the index. -/
def lastMatch (w : World P) (rt eef : String) : List Nat → Option Nat → Option Nat
  | [], acc => acc
  | k :: ks, acc => lastMatch w rt eef ks (if matching w rt eef k then some k else acc)

/-- Result of a call that may throw or be stopped by an assert. -/
inductive Outcome (α : Type) where
  | done (a : α)
  | threw
  | aborted

/-- `ManipulationObject::includeGraspSet` (49-67). -/
def includeSet (debug : Bool) (w : World P) (sets : List Nat) (k : Nat) : Outcome (World P) :=
  match lastMatch w (w.set k).robotType (w.set k).eef sets none with
  | none => .threw
  | some t =>
    match includeGrasps debug w (w.set t) (w.set k).grasps with
    | none => .aborted
    | some s => .done (w.putSet t s)

/-! ### Poses -/

variable [Group P]

/-- `Grasp::getTcpPoseGlobal` (`Grasp.cpp` 147-151). -/
def tcpPoseGlobal (g : Grasp P) (objectPose : P) : P := objectPose * g.pose⁻¹

/-- `Grasp::getObjectTargetPoseGlobal` (153-157). -/
def objectTargetPoseGlobal (g : Grasp P) (graspingPose : P) : P := graspingPose * g.pose

/-- What `Grasp::getTargetPoseGlobal` needs of a robot: its type and the global poses of the tool
center points of its end effectors (`none`: end effector without tool center point). -/
structure RobotView (P : Type) where
  type : String
  tcp : String → Option (Option P)

/-- `Grasp::getTargetPoseGlobal` (59-80); `none`: exception. -/
def targetPoseGlobal (g : Grasp P) (r : RobotView P) : Option P :=
  if r.type ≠ g.robotType then none
  else
    match r.tcp g.eef with
    | none => some 1
    | some none => some 1
    | some (some t) => some (t * g.pose)

end Simox.Grsp
