import Verif.Rot.Model
import Verif.Jac.Model

/-!
# Grasp planning: approach movements and the generic grasp planner

Models, of `GraspPlanning/`, `ApproachMovementGenerator.cpp`, `ApproachMovementSurfaceNormal.cpp`,
`GraspPlanner/GenericGraspPlanner.cpp` and `GraspPlanner/GraspPlannerEvaluation.cpp`.

Simplifications: reals instead of floats; a hand is a root pose and a configuration of the fingers, and the
nodes of the hand have poses relative to the root that depend on the configuration; collision checks,
closing the fingers and the quality measure are functions (closing is modelled in `Verif.Eef`, the measure in
`Verif.Gpl`); random numbers are arguments; no output.
-/

namespace Simox.Gpn

open Matrix Jac Rot

/-! ## The hand -/

/-- The cloned hand that is moved around: the pose of its root and the configuration of the fingers. -/
structure Hand (H : Type) where
  root : Pose3
  cfg : H

/-- What is fixed about the hand and the object: the poses of the grasp centre point and of the tool centre
point of the grasp preshape (if there is a preshape with one) relative to the root, the configuration
`openHand` leads to, and the collision check with the object. -/
structure Eef (H : Type) where
  gcp : H → Pose3
  preshapeTcp : Option (H → Pose3)
  opened : H → H
  hits : Pose3 → H → Bool

variable {H : Type}

/-- ApproachMovementGenerator.cpp 57-63, 84-88 (and ApproachMovementSurfaceNormal.cpp 223-227, 233-237): the
node `setEEFPose` and `getEEFPose` use. -/
def Eef.main (e : Eef H) : H → Pose3 := e.preshapeTcp.getD e.gcp

/-- ApproachMovementGenerator.cpp 82-90 and ApproachMovementSurfaceNormal.cpp 221-229 `getEEFPose()`. -/
def Eef.getPose (e : Eef H) (h : Hand H) : Pose3 := h.root * e.main h.cfg

/-- ApproachMovementGenerator.cpp 55-66 and ApproachMovementSurfaceNormal.cpp 231-240 `setEEFPose(pose)`. -/
noncomputable def Eef.setPose (e : Eef H) (pose : Pose3) (h : Hand H) : Hand H :=
  { h with root := Kin.getGlobalPoseForRobotNode h.root (h.root * e.main h.cfg) pose }

/-- ApproachMovementGenerator.cpp 68-73 `updateEEFPose(deltaPosition)`. -/
noncomputable def Eef.update (e : Eef H) (delta : V3) (h : Hand H) : Hand H :=
  let pose := h.root * e.gcp h.cfg
  e.setPose ⟨pose.rot, pose.pos + delta⟩ h

/-- ApproachMovementGenerator.cpp 129-142 `openHand()`. -/
def Eef.openHand (e : Eef H) (h : Hand H) : Hand H := { h with cfg := e.opened h.cfg }

/-! ## Approach movements along the surface normal -/

/-- A face of the mesh of the object: its vertices and its normal. -/
structure Face where
  v1 : V3
  v2 : V3
  v3 : V3
  normal : V3

/-- ApproachMovementSurfaceNormal.h 95: the member that selects the distribution. -/
structure Gen where
  useFaceAreasDistrib : Bool

/-- ApproachMovementSurfaceNormal.cpp 21-34, the constructor: the argument is not stored. -/
def Gen.new (_useFaceAreaDistribution : Bool) : Gen := { useFaceAreasDistrib := false }

/-- ApproachMovementSurfaceNormal.cpp 46-47: the index of the face; the arguments are the draws of the two
distributions. -/
def Gen.faceIndex (g : Gen) (byArea uniform : ℕ) : ℕ := if g.useFaceAreasDistrib then byArea else uniform

/-- MathTools.cpp 959-966 `randomPointInTriangle`; `r0`, `r1` are the results of `RandomFloat()`. -/
noncomputable def randomPointInTriangle (v1 v2 v3 : V3) (r0 r1 : ℝ) : V3 :=
  let b0 := r0
  let b1 := (1 - b0) * r1
  let b2 := 1 - b0 - b1
  b0 • v1 + b1 • v2 + b2 • v3

/-- ApproachMovementSurfaceNormal.cpp 49-55: the position. -/
noncomputable def positionOn (f : Face) (r0 r1 : ℝ) : V3 := randomPointInTriangle f.v1 f.v2 f.v3 r0 r1

/-- ApproachMovementSurfaceNormal.cpp 62-67: the approach direction. -/
noncomputable def directionOn (f : Face) : V3 :=
  if |f.normal ⬝ᵥ f.normal - 1| > 1e-6 then Rot.normalize f.normal else f.normal

/-- ApproachMovementSurfaceNormal.cpp 133-138: a direction that is not zero; `zs` are the results of
`setRandom()`, `none` means that more are needed. -/
noncomputable def longEnough : V3 → List V3 → Option V3
  | z, [] => if nrm z < 1e-10 then none else some z
  | z, r :: zs => if nrm z < 1e-10 then longEnough r zs else some z

/-- ApproachMovementSurfaceNormal.cpp 160-190: one attempt at a basis with the third vector `z`. -/
noncomputable def tryBasis (z y : V3) : Option (V3 × V3) :=
  if nrm y < 1e-8 then none
  else
    let x := crossProduct (Rot.normalize y) z
    if nrm x < 1e-8 then none
    else
      let x := Rot.normalize x
      let y := crossProduct z x
      if nrm y < 1e-8 then none else some (x, Rot.normalize y)

/-- What the loop of 146-191 ends with. -/
inductive Basis where
  /-- more random vectors are needed -/
  | more
  /-- "INTERNAL ERROR, aborting" -/
  | failed
  | found (x y : V3)

/-- ApproachMovementSurfaceNormal.cpp 146-191: the loop, with `n` attempts left. -/
noncomputable def basisLoop (z : V3) : ℕ → List V3 → Basis
  | 0, _ => .failed
  | _ + 1, [] => .more
  | n + 1, y :: ys => match tryBasis z y with
      | some (x, y) => .found x y
      | none => basisLoop z n ys

/-- The matrix with the given columns. -/
def columns (x y z : V3) : M3 := !![x 0, y 0, z 0; x 1, y 1, z 1; x 2, y 2, z 2]

open Classical in
/-- The rotation with the given columns (they form a right-handed orthonormal basis: `columns_mem`). -/
noncomputable def rotOf (x y z : V3) : SO3 :=
  if h : columns x y z ∈ Matrix.specialOrthogonalGroup (Fin 3) ℝ then ⟨columns x y z, h⟩ else 1

/-- ApproachMovementSurfaceNormal.cpp 118-200 `setEEFToApproachPose(position, approachDir)`: the result and
the hand; `none` if more random vectors are needed. -/
noncomputable def Eef.toApproach (e : Eef H) (position dir : V3) (zs ys : List V3) (h : Hand H) :
    Option (Bool × Hand H) :=
  match longEnough dir zs with
  | none => none
  | some z =>
      let z := -Rot.normalize z
      match basisLoop z 1000 ys with
      | .more => none
      | .failed => some (false, h)
      | .found x y => some (true, e.setPose ⟨rotOf x y z, position⟩ h)

/-- ApproachMovementSurfaceNormal.cpp 202-219: the loop of `moveEEFAway`, with `n` steps left. -/
noncomputable def Eef.moveAway (e : Eef H) (delta : V3) : ℕ → Hand H → Hand H
  | 0, h => h
  | n + 1, h => if e.hits h.root h.cfg then e.moveAway delta n (e.update delta h) else h

/-- The random numbers of one approach. -/
structure Draws where
  byArea : ℕ
  uniform : ℕ
  r0 : ℝ
  r1 : ℝ
  zs : List V3
  ys : List V3
  distance : ℝ

/-- What `createNewApproachPose` leaves behind and returns. -/
structure Approach (H : Type) where
  hand : Hand H
  dir : V3
  pose : Pose3

/-- ApproachMovementSurfaceNormal.cpp 72-116 `createNewApproachPose()`, `maxRetreat` is
`distribRetreatDistance.max()`. The check of 106 asks for the original hand (`eef`) and not for the clone:
its answer is `originalHits`. `dir` is the member `approachDirGlobal`. The
distributions deliver indices of faces, so that there is no face only if the mesh is empty. -/
noncomputable def Eef.createNewApproachPose (e : Eef H) (g : Gen) (faces : List Face) (maxRetreat : ℝ)
    (originalHits : Bool) (d : Draws) (dir : V3) (h : Hand H) : Option (Approach H) :=
  let pose := e.getPose h
  let h := e.openHand h
  match faces[g.faceIndex d.byArea d.uniform]? with
  | none => some ⟨h, dir, pose⟩
  | some f =>
      let dir := directionOn f
      match e.toApproach (positionOn f d.r0 d.r1) dir d.zs d.ys h with
      | none => none
      | some (_, h) =>
          let h := e.moveAway dir 1000 h
          let poseB := e.getPose h
          if maxRetreat > 0 then
            let h := e.update (d.distance • dir) h
            let poseB := if originalHits then poseB else e.getPose h
            some ⟨e.setPose pose h, dir, poseB⟩
          else some ⟨e.setPose pose h, dir, poseB⟩

/-- ApproachMovementGenerator.cpp 92-96 `setEEFToRandomApproachPose()`. -/
noncomputable def Eef.setToRandomApproachPose (e : Eef H) (g : Gen) (faces : List Face) (maxRetreat : ℝ)
    (originalHits : Bool) (d : Draws) (dir : V3) (h : Hand H) : Option (Hand H × V3) :=
  (e.createNewApproachPose g faces maxRetreat originalHits d dir h).map fun a => (e.setPose a.pose a.hand, a.dir)

/-! ## The planner -/

/-- What the planner works with: the hand, its tool centre point relative to the root, the pose of the
object, the collision check with the obstacles (if there are any), closing the fingers, the contacts of the
rigid parts, and the quality measure for a list of contacts. -/
structure World (H C : Type) where
  eef : Eef H
  tcp : H → Pose3
  objectPose : Pose3
  obstacles : Option (Pose3 → H → Bool)
  close : Pose3 → H → H × List C
  statics : Pose3 → H → V3 → List C
  quality : List C → ℝ
  closed : List C → Bool

variable {C : Type}

/-- `eef->closeActors(object)`. -/
def World.closeActors (w : World H C) (h : Hand H) : Hand H × List C :=
  ({ h with cfg := (w.close h.root h.cfg).1 }, (w.close h.root h.cfg).2)

/-- GenericGraspPlanner.cpp 83-120: the loop of `moveEEFAway`, with `n` rounds left. -/
noncomputable def World.retreat (w : World H C) (delta : V3) : ℕ → Hand H → Hand H × Bool
  | 0, h => (h, false)
  | n + 1, h =>
      let h := w.eef.update delta (w.eef.openHand h)
      if w.eef.hits h.root h.cfg then (h, false)
      else
        let r := w.closeActors h
        if r.2.length ≥ 2 then (w.eef.openHand r.1, true) else w.retreat delta n r.1

/-- Grasp.h: the members the planner sets. The name is "Grasp " and the number `name`. -/
structure Grasp (H : Type) where
  name : ℕ
  poseTcp : Pose3
  config : H
  quality : ℝ

/-- GraspPlannerEvaluation.h 34-54. -/
structure Eval where
  nrGraspsGenerated : ℕ
  nrGraspsValid : ℕ
  nrGraspsInvalidCollision : ℕ
  nrGraspsInvalidFC : ℕ
  nrGraspsInvalidContacts : ℕ
  nrGraspsValidPrecision : ℕ
  nrGraspsValidPower : ℕ
  timeGraspMS : List ℝ
  graspScore : List ℝ
  graspValid : List Bool
  graspTypePower : List Bool
  fcCheck : Bool
  minQuality : ℝ

/-- GraspPlannerEvaluation.cpp 28-39, the constructor. -/
def Eval.new : Eval :=
  { nrGraspsGenerated := 0, nrGraspsValid := 0, nrGraspsInvalidCollision := 0, nrGraspsInvalidFC := 0,
    nrGraspsInvalidContacts := 0, nrGraspsValidPrecision := 0, nrGraspsValidPower := 0, timeGraspMS := [],
    graspScore := [], graspValid := [], graspTypePower := [], fcCheck := false, minQuality := 0 }

/-- GenericGraspPlanner.h, GraspPlanner.h: the members that change; the grasps of the set are identified with
the grasps themselves. -/
structure Planner (H C : Type) where
  contacts : List C
  minQuality : ℝ
  forceClosure : Bool
  retreatOnLowContacts : Bool
  eval : Eval
  graspSet : List (Grasp H)
  plannedGrasps : List (Grasp H)

/-- GenericGraspPlanner.cpp 21-36, the constructor. -/
def Planner.new (graspSet : List (Grasp H)) (minQuality : ℝ) (forceClosure : Bool) : Planner H C :=
  { contacts := [], minQuality := minQuality, forceClosure := forceClosure, retreatOnLowContacts := true,
    eval := { Eval.new with fcCheck := forceClosure, minQuality := minQuality },
    graspSet := graspSet, plannedGrasps := [] }

/-- GenericGraspPlanner.cpp 296-300 `setParameters`. -/
def Planner.setParameters (minQuality : ℝ) (forceClosure : Bool) (p : Planner H C) : Planner H C :=
  { p with minQuality := minQuality, forceClosure := forceClosure }

/-- GenericGraspPlanner.cpp 302-305 `setRetreatOnLowContacts`. -/
def Planner.setRetreat (enable : Bool) (p : Planner H C) : Planner H C := { p with retreatOnLowContacts := enable }

/-- GraspPlanner.cpp 29-32 `clearEvaluation`. -/
def Planner.clearEvaluation (p : Planner H C) : Planner H C := { p with eval := Eval.new }

/-- "`if (colChecker->checkCollision(eef->createSceneObjectSet(), obstacles))`", GenericGraspPlanner.cpp 140-153, 175-187. -/
def World.hitsObstacles (w : World H C) (h : Hand H) : Bool :=
  match w.obstacles with
  | none => false
  | some f => f h.root h.cfg

/-- GenericGraspPlanner.cpp 158-173: closing the fingers, with the retreat. -/
noncomputable def World.grab (w : World H C) (retreatOnLowContacts : Bool) (dir : V3) (h : Hand H) : Hand H × List C :=
  let r := w.closeActors h
  let contacts := r.2 ++ w.statics r.1.root r.1.cfg dir
  if retreatOnLowContacts && decide (contacts.length < 2) then
    let m := w.retreat ((5 : ℝ) • dir) 10 r.1
    if m.2 then
      let r := w.closeActors m.1
      (r.1, r.2 ++ w.statics r.1.root r.1.cfg dir)
    else (m.1, contacts)
  else (r.1, contacts)

/-- GenericGraspPlanner.cpp 190-202, 247: the grasp. -/
def World.graspOf (w : World H C) (p : Planner H C) (h : Hand H) (quality : ℝ) : Grasp H :=
  { name := p.graspSet.length + 1
    poseTcp := (h.root * w.tcp h.cfg)⁻¹ * w.objectPose
    config := h.cfg
    quality := quality }

/-- What is recorded for every grasp that is generated, GenericGraspPlanner.cpp 206-208, 220-224, 236-240,
252-256, 264-268, 279-286. -/
def Eval.record (ev : Eval) (ms score : ℝ) (valid : Bool) : Eval :=
  { ev with
    graspTypePower := ev.graspTypePower ++ [true]
    nrGraspsGenerated := ev.nrGraspsGenerated + 1
    graspScore := ev.graspScore ++ [score]
    graspValid := ev.graspValid ++ [valid]
    timeGraspMS := ev.timeGraspMS ++ [ms] }

open Classical in
/-- GenericGraspPlanner.cpp 122-289 `planGrasp(obstacles)`. `h` and `dir` are the hand and the approach
direction after `setEEFToRandomApproachPose`, `bRes` is its result, `ms` the time that is measured. The
result is the hand, the planner and the grasp. -/
noncomputable def World.planGrasp (w : World H C) (h : Hand H) (dir : V3) (bRes : Bool) (ms : ℝ) (p : Planner H C) :
    Hand H × Planner H C × Option (Grasp H) :=
  let bRes := bRes && !w.hitsObstacles h
  let r := if bRes then w.grab p.retreatOnLowContacts dir h else (h, [])
  let h := r.1
  let p := { p with contacts := r.2 }
  let bRes := bRes && !w.hitsObstacles h
  if !bRes then
    let ev := p.eval.record ms 0 false
    (h, { p with eval := { ev with nrGraspsInvalidCollision := ev.nrGraspsInvalidCollision + 1 } }, none)
  else if r.2.length < 2 then
    let ev := p.eval.record ms 0 false
    (h, { p with eval := { ev with nrGraspsInvalidContacts := ev.nrGraspsInvalidContacts + 1 } }, none)
  else
    let score := w.quality r.2
    if p.forceClosure && !w.closed r.2 then
      let ev := p.eval.record ms 0 false
      (h, { p with eval := { ev with nrGraspsInvalidFC := ev.nrGraspsInvalidFC + 1 } }, none)
    else if score < p.minQuality then
      let ev := p.eval.record ms score false
      (h, { p with eval := { ev with nrGraspsInvalidFC := ev.nrGraspsInvalidFC + 1 } }, none)
    else
      let ev := p.eval.record ms score true
      (h, { p with eval := { ev with
        nrGraspsValid := ev.nrGraspsValid + 1, nrGraspsValidPower := ev.nrGraspsValidPower + 1 } },
        some (w.graspOf p h score))

/-- One round of `plan`: the time since the start when it is read, and what the approach generator and the
clock deliver if a grasp is planned. -/
structure Turn (H : Type) where
  now : ℝ
  approach : Hand H → Hand H × V3 × Bool
  ms : ℝ

open Classical in
/-- GenericGraspPlanner.cpp 307-311 `timeout()`. -/
noncomputable def timeout (timeOutMS : ℤ) (now : ℝ) : Bool := decide (timeOutMS ≤ 0) || decide (now > (timeOutMS : ℝ))

/-- GenericGraspPlanner.cpp 57-73: the loop of `plan`, with the number of grasps created so far; `none` if it
goes on after the given turns. -/
noncomputable def World.planLoop (w : World H C) (nrGrasps timeOutMS : ℤ) :
    List (Turn H) → ℕ → Hand H → Planner H C → Option (ℕ × Hand H × Planner H C)
  | [], _, _, _ => none
  | t :: ts, created, h, p =>
      if !timeout timeOutMS t.now && decide ((created : ℤ) < nrGrasps) then
        let a := t.approach h
        match w.planGrasp a.1 a.2.1 a.2.2 t.ms p with
        | (h, p, some g) => w.planLoop nrGrasps timeOutMS ts (created + 1) h
            { p with graspSet := p.graspSet ++ [g], plannedGrasps := p.plannedGrasps ++ [g] }
        | (h, p, none) => w.planLoop nrGrasps timeOutMS ts created h p
      else some (created, h, p)

/-- GenericGraspPlanner.cpp 41-81 `plan(nrGrasps, timeOutMS, obstacles)`: the number of grasps, the hand and
the planner. -/
noncomputable def World.plan (w : World H C) (nrGrasps timeOutMS : ℤ) (ts : List (Turn H)) (h : Hand H) (p : Planner H C) :
    Option (ℕ × Hand H × Planner H C) :=
  w.planLoop nrGrasps timeOutMS ts 0 h p

/-! ## The evaluation -/

/-- The numbers `toCSVString` prints after the counters. -/
structure Summary where
  nrInvalid : ℕ
  avgTime : ℝ
  percPower : ℝ
  percPrec : ℝ
  avgScore : ℝ

/-- GraspPlannerEvaluation.cpp 67-86: the loop, with the counters `timeAcc`, `nrValid`, `scoreAcc`, `nrPower`,
`nrPrecision`; `none` is the exception of `at`. -/
noncomputable def accumulate (ev : Eval) : ℕ → Option (ℝ × ℕ × ℝ × ℕ × ℕ)
  | 0 => some (0, 0, 0, 0, 0)
  | i + 1 => do
      let (timeAcc, nrValid, scoreAcc, nrPower, nrPrecision) ← accumulate ev i
      let t ← ev.timeGraspMS[i]?
      let v ← ev.graspValid[i]?
      let s ← if v then ev.graspScore[i]? else some 0
      let w ← ev.graspTypePower[i]?
      some (timeAcc + t, if v then nrValid + 1 else nrValid, scoreAcc + s, if w then nrPower + 1 else nrPower,
        if w then nrPrecision else nrPrecision + 1)

/-- GraspPlannerEvaluation.cpp 65-117 `toCSVString()`: the numbers that are computed. -/
noncomputable def Eval.summary (ev : Eval) : Option Summary :=
  match accumulate ev ev.timeGraspMS.length with
  | none => none
  | some (timeAcc, nrValid, scoreAcc, nrPower, nrPrecision) =>
      let n := ev.timeGraspMS.length
      some
        { nrInvalid := ev.nrGraspsInvalidCollision + ev.nrGraspsInvalidFC + ev.nrGraspsInvalidContacts
          avgTime := if n > 0 then timeAcc / n else 0
          percPower := if n > 0 then (nrPower : ℝ) / n else 0
          percPrec := if n > 0 then (nrPrecision : ℝ) / n else 0
          avgScore := if nrValid > 0 then scoreAcc / nrValid else 0 }

end Simox.Gpn
