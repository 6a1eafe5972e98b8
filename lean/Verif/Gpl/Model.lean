import Verif.Rot.Model
import Mathlib.Analysis.SpecialFunctions.Trigonometric.Arctan

/-!
# Grasp planning: contacts, friction cones, wrench spaces, grasp quality

Models `VirtualRobot/Grasping/BasicGraspQualityMeasure.cpp` and, of `GraspPlanning/`,
`ContactConeGenerator.cpp`, the six-dimensional part of `ConvexHullGenerator.cpp`,
`GraspQuality/GraspQualityMeasure.cpp`, `GraspQuality/GraspQualityMeasureWrenchSpace.cpp` and
`GraspQuality/GraspQualityMeasureWrenchSpaceNotNormalized.cpp`.

Simplifications: reals instead of floats and doubles; output to the console (`verbose`) and the mutex of
qhull are left out. The qhull library is not part of the repository: it is a parameter, `Qhull`.
-/

namespace Simox.Gpl

open Matrix Jac Rot

/-- MathTools.h `struct ContactPoint`: position, normal, force. -/
@[ext] structure ContactPoint where
  p : V3
  n : V3
  force : ℝ

/-- EndEffector.h `struct ContactInfo`: the two points of a contact, on the obstacle (the object) and on the
finger, in local and global coordinates, and the direction in which the finger approached. -/
structure ContactInfo where
  contactPointObstacleLocal : V3
  contactPointFingerLocal : V3
  contactPointObstacleGlobal : V3
  contactPointFingerGlobal : V3
  approachDirectionGlobal : V3

/-- `FLT_MAX`. -/
noncomputable def fltMax : ℝ := (2 - 1 / 2 ^ 23) * 2 ^ 127

/-! ## Contacts -/

/-- MathTools.cpp 856-864 `convertMM2M(points, storeResult)`. -/
noncomputable def convertMM2M (points : List ContactPoint) : List ContactPoint :=
  points.map fun c => { c with p := (1 / 1000 : ℝ) • c.p }

/-- BasicGraspQualityMeasure.cpp 107-126: one contact of the overload for `ContactInfoVector`. -/
noncomputable def contactOfInfo (centerOfModel : V3) (objPoint : ContactInfo) : ContactPoint :=
  let nGlob := objPoint.contactPointObstacleGlobal - objPoint.contactPointFingerGlobal
  { p := objPoint.contactPointObstacleLocal - centerOfModel
    n := normalize (objPoint.contactPointFingerLocal - objPoint.contactPointObstacleLocal)
    force := if nrm nGlob > 1e-10 then (nGlob ⬝ᵥ objPoint.approachDirectionGlobal) / nrm nGlob else 0 }

/-- The contacts a measure holds: BasicGraspQualityMeasure.h, `contactPoints`, `contactPointsM`. -/
structure Contacts where
  contactPoints : List ContactPoint
  contactPointsM : List ContactPoint

/-- BasicGraspQualityMeasure.cpp 97-135 `setContactPoints(ContactInfoVector)`. -/
noncomputable def setInfos (centerOfModel : V3) (infos : List ContactInfo) : Contacts :=
  { contactPoints := infos.map (contactOfInfo centerOfModel)
    contactPointsM := convertMM2M (infos.map (contactOfInfo centerOfModel)) }

/-- BasicGraspQualityMeasure.cpp 81-88: one contact of the loop of the overload for contact points. -/
noncomputable def contactOfPoint (centerOfModel : V3) (c : ContactPoint) : ContactPoint :=
  { p := c.p - centerOfModel, n := normalize c.n, force := 1 }

/-- BasicGraspQualityMeasure.cpp 73-95 `setContactPoints(std::vector<ContactPoint>)`. The parameter has no
name (it is commented out, 73): the loop of 79-88 runs over the member `contactPoints`, which 75 has just
cleared. -/
noncomputable def setPoints (centerOfModel : V3) (_contactPoints6d : List ContactPoint) : Contacts :=
  let cleared : List ContactPoint := []
  { contactPoints := cleared.map (contactOfPoint centerOfModel)
    contactPointsM := convertMM2M (cleared.map (contactOfPoint centerOfModel)) }

/-- BasicGraspQualityMeasure.cpp 138-160 `getContactPointsCenter()`, and GraspQualityMeasure.cpp 86-106
`getSampledObjectPointsCenter()`, the same for another list. (The force of the result is not set.) -/
noncomputable def center (points : List ContactPoint) : V3 × V3 :=
  if points.length = 0 then (0, 0)
  else ((1 / (points.length : ℝ)) • (points.map (·.p)).sum, (1 / (points.length : ℝ)) • (points.map (·.n)).sum)

/-- BasicGraspQualityMeasure.cpp 52-62 `calculateGraspQuality()`, `getGraspQuality()` of the basic measure,
with `maxContacts = 5` (49). -/
noncomputable def basicQuality (c : Contacts) : ℝ :=
  let graspQuality : ℝ := (c.contactPoints.length : ℝ) / 5
  if graspQuality > 1 then 1 else graspQuality

/-- BasicGraspQualityMeasure.cpp 183-187 `isValid()` of the basic measure. -/
def basicValid (c : Contacts) : Bool := decide (c.contactPoints.length ≥ 2)

/-- BasicGraspQualityMeasure.cpp 34-46: `objectLength`, the longest side of the bounding box. -/
noncomputable def objectLengthOf (minS maxS : V3) : ℝ :=
  let s := maxS - minS
  let l := s 0
  let l := if s 1 > l then s 1 else l
  if s 2 > l then s 2 else l

/-! ## Friction cones -/

/-- ContactConeGenerator.h: the members. -/
structure ConeGen where
  unitForce : ℝ
  frictionCoeff : ℝ
  frictionConeAngle : ℝ
  frictionConeRad : ℝ
  frictionConeHeight : ℝ
  frictionConeSamples : ℤ
  frictionConeRimPoints : List V3

/-- ContactConeGenerator.cpp 41-44: the rim point `i`. -/
noncomputable def rimPoint (unitForce angle height : ℝ) (samples : ℤ) (i : ℕ) : V3 :=
  ![unitForce * (Real.cos angle * Real.cos (i * 2 * Real.pi / samples)),
    unitForce * (Real.cos angle * Real.sin (i * 2 * Real.pi / samples)),
    height]

/-- ContactConeGenerator.cpp 28-47, the constructor. -/
noncomputable def ConeGen.new (coneSamples : ℤ) (frictionCoeff unitForce : ℝ) : ConeGen :=
  let angle := Real.arctan frictionCoeff
  { unitForce := unitForce
    frictionCoeff := frictionCoeff
    frictionConeAngle := angle
    frictionConeRad := unitForce * Real.sin angle
    frictionConeHeight := unitForce * Real.cos angle
    frictionConeSamples := coneSamples
    frictionConeRimPoints := (List.range coneSamples.toNat).map
      (rimPoint unitForce angle (unitForce * Real.cos angle) coneSamples) }

/-- MathTools.cpp 837-842 `transformPosition(pos, m)`. -/
noncomputable def transformPosition (pos : V3) (m : M4) : V3 :=
  let t := m *ᵥ ![pos 0, pos 1, pos 2, 1]
  ![t 0, t 1, t 2]

/-- ContactConeGenerator.cpp 87-88, 142-143: a rim point scaled by the force and turned to the normal. -/
noncomputable def conePoint (point : ContactPoint) (rim : V3) : V3 :=
  transformPosition (point.force • rim) (quat2eigen4f (getRotation ![0, 0, 1] point.n))

/-- ContactConeGenerator.cpp 86-92: one point of the cone. -/
noncomputable def coneContact (point : ContactPoint) (rim : V3) : ContactPoint :=
  { p := conePoint point rim + point.p, n := normalize (conePoint point rim), force := point.force }

/-- ContactConeGenerator.cpp 54-107 `computeConePoints(point, storeConePoints)` with normals: appends to
`storeConePoints`. (The loop runs over the first `frictionConeSamples` rim points; these are all of
them.) -/
noncomputable def computeConePoints (g : ConeGen) (point : ContactPoint) (store : List ContactPoint) :
    List ContactPoint :=
  store ++ g.frictionConeRimPoints.map (coneContact point)

/-- ContactConeGenerator.cpp 109-155 `computeConePoints(point, storeConePoints)` without normals. -/
noncomputable def computeConePositions (g : ConeGen) (point : ContactPoint) (store : List V3) : List V3 :=
  store ++ g.frictionConeRimPoints.map fun rim => conePoint point rim + point.p

/-- GraspQualityMeasureWrenchSpace.cpp 137-155 (and 85-102): the cones of all contacts, one after the
other. -/
noncomputable def conesOf (g : ConeGen) (contacts : List ContactPoint) : List ContactPoint :=
  contacts.foldl (fun conePoints c => computeConePoints g c conePoints) []

/-! ## Wrenches -/

/-- A `ContactPoint` used as a point of six-dimensional space: the force part (`p`) and the torque part
(`n`). -/
abbrev Wrench := V3 × V3

/-- The scalar product of six-dimensional space. -/
noncomputable def dot6 (a b : Wrench) : ℝ := a.1 ⬝ᵥ b.1 + a.2 ⬝ᵥ b.2

/-- GraspQualityMeasureWrenchSpace.cpp 200-215: the scale of the torques. -/
noncomputable def torqueFactor (objectLengthMM : ℝ) : ℝ :=
  if objectLengthMM ≠ 0 then 2 / (objectLengthMM / 1000) else 1

/-- GraspQualityMeasureWrenchSpace.cpp 219-238: one wrench (`INVERT_NORMALS` is not defined, 23). -/
noncomputable def wrenchOf (centerOfModel : V3) (factor : ℝ) (c : ContactPoint) : Wrench :=
  (c.n, factor • crossProduct (c.p - centerOfModel) (-c.n))

/-- GraspQualityMeasureWrenchSpace.cpp 193-241 `createWrenchPoints(points, centerOfModel, objectLengthMM)`,
and the same text in GraspQualityMeasureWrenchSpaceNotNormalized.cpp 125-173. -/
noncomputable def createWrenchPoints (points : List ContactPoint) (centerOfModel : V3) (objectLengthMM : ℝ) :
    List Wrench :=
  points.map (wrenchOf centerOfModel (torqueFactor objectLengthMM))

/-- GraspQualityMeasureWrenchSpace.cpp 577-584 `crossProductPosNormalInv(v1)`. -/
def crossProductPosNormalInv (v1 : ContactPoint) : V3 :=
  ![v1.p 1 * (-v1.n 2) - v1.p 2 * (-v1.n 1),
    v1.p 2 * (-v1.n 0) - v1.p 0 * (-v1.n 2),
    v1.p 0 * (-v1.n 1) - v1.p 1 * (-v1.n 0)]

/-! ## Convex hulls of wrenches -/

/-- A facet as qhull reports it: six vertices (after `qh_triangulate` every facet is a simplex), the normal
and the offset. -/
structure QFacet where
  vertices : Fin 6 → Wrench
  normal : Wrench
  offset : ℝ

/-- What qhull reports: the vertices of the hull, its facets and its volume. -/
structure QResult where
  vertices : List Wrench
  facets : List QFacet
  totvol : ℝ

/-- The qhull library: `none` is an exit code other than 0 (for example, too few points). -/
abbrev Qhull := List Wrench → Option QResult

/-- MathTools.h `struct TriangleFace6D`. -/
structure Face6D where
  id : Fin 6 → ℕ
  normal : Wrench
  offset : ℝ
  distNormCenter : ℝ
  distPlaneCenter : ℝ
  distNormZero : ℝ
  distPlaneZero : ℝ

/-- MathTools.h 660-666 `struct ConvexHull6D`. The constructor sets neither `volume` nor `center`: they are
`none` until they are set. -/
structure ConvexHull6D where
  vertices : List Wrench
  faces : List Face6D
  volume : Option ℝ
  center : Option Wrench

/-- The hull that is made when nothing can be computed, ConvexHullGenerator.cpp 297, 301-312, 352. -/
def emptyHull : ConvexHull6D := { vertices := [], faces := [], volume := none, center := none }

/-- qhull's `qh_distnorm`, `qh_distplane`: the signed distance of a point to a hyperplane. -/
noncomputable def dist (point : Wrench) (f : QFacet) : ℝ := dot6 point f.normal + f.offset

/-- ConvexHullGenerator.cpp 363-387: `pCenter`, the mean of the vertices. -/
noncomputable def meanOf (vertices : List Wrench) : Wrench :=
  if vertices.length > 0 then (1 / (vertices.length : ℝ)) • vertices.sum else vertices.sum

/-- ConvexHullGenerator.cpp 408-495: one facet; `vs` are the vertices stored so far. -/
noncomputable def face6D (pCenter : Wrench) (vs : List Wrench) (facet : QFacet) : Face6D :=
  { id := fun c => vs.length + c
    normal := facet.normal
    offset := facet.offset
    distNormCenter := dist pCenter facet
    distPlaneCenter := dist pCenter facet
    distNormZero := dist 0 facet
    distPlaneZero := dist 0 facet }

/-- ConvexHullGenerator.cpp 407-496: the loop over the facets. The vertices of each facet are appended to
the vertices of the hull. -/
noncomputable def addFacets (pCenter : Wrench) : List QFacet → List Wrench × List Face6D → List Wrench × List Face6D
  | [], acc => acc
  | facet :: rest, (vs, fs) =>
      addFacets pCenter rest (vs ++ List.ofFn facet.vertices, fs ++ [face6D pCenter vs facet])

/-- ConvexHullGenerator.cpp 288-518 `CreateConvexHull(pointsInput, lockMutex)` for six dimensions. -/
noncomputable def createConvexHull (qhull : Qhull) (pointsInput : List Wrench) : ConvexHull6D :=
  if pointsInput.length < 4 then emptyHull
  else match qhull pointsInput with
    | none => emptyHull
    | some r =>
        let pCenter := meanOf r.vertices
        let vf := addFacets pCenter r.facets ([], [])
        { vertices := vf.1, faces := vf.2, volume := some r.totvol, center := some pCenter }

/-- GraspQualityMeasureWrenchSpace.cpp 380-393: the loop of `isOriginInGWSHull`. -/
noncomputable def originInHull (h : ConvexHull6D) : Bool :=
  h.faces.all fun f => !decide (f.distPlaneZero > 1e-4)

/-- One step of the loop of `minOffset`, GraspQualityMeasureWrenchSpace.cpp 408-418. -/
noncomputable def offsetStep (fRes : ℝ) (f : Face6D) : ℝ :=
  if f.distNormCenter > 0 then fRes
  else if -f.distNormCenter < fRes then -f.distNormCenter else fRes

/-- GraspQualityMeasureWrenchSpace.cpp 398-426 `minOffset(ch)`. -/
noncomputable def minOffset : Option ConvexHull6D → ℝ
  | none => 0
  | some ch => ch.faces.foldl offsetStep fltMax

/-- One step of the loop of `minOffset`, GraspQualityMeasureWrenchSpaceNotNormalized.cpp 288-298. -/
noncomputable def offsetStepNN (fRes : ℝ) (f : Face6D) : ℝ :=
  if f.distNormCenter > 0 then fRes else max fRes (-f.distNormCenter)

/-- GraspQualityMeasureWrenchSpaceNotNormalized.cpp 278-306 `minOffset(ch)`. -/
noncomputable def minOffsetNN : Option ConvexHull6D → ℝ
  | none => 0
  | some ch => ch.faces.foldl offsetStepNN fltMax

/-! ## The measure of the wrench space -/

/-- What the constructors fix: BasicGraspQualityMeasure.cpp 19-50, GraspQualityMeasure.cpp 27-31; and the
qhull library. -/
structure Cfg where
  centerOfModel : V3
  objectLength : ℝ
  cone : ConeGen
  qhull : Qhull

/-- GraspQualityMeasureWrenchSpace.cpp 171-191 `calculateConvexHull(points)`. -/
noncomputable def calculateConvexHull (cfg : Cfg) (points : List ContactPoint) : ConvexHull6D :=
  createConvexHull cfg.qhull (createWrenchPoints points 0 cfg.objectLength)

/-- GraspQualityMeasureWrenchSpace.h: the members that change. The volume of the object wrench space is
`none` if it was copied from a hull without volume. -/
structure St where
  contacts : Contacts
  OWSCalculated : Bool
  GWSCalculated : Bool
  minOffsetOWS : ℝ
  volumeOWS : Option ℝ
  convexHullGWS : Option ConvexHull6D
  graspQuality : ℝ

/-- GraspQualityMeasureWrenchSpace.cpp 32-39, the constructor. -/
def St.new : St :=
  { contacts := { contactPoints := [], contactPointsM := [] }
    OWSCalculated := false
    GWSCalculated := false
    minOffsetOWS := 0
    volumeOWS := some 0
    convexHullGWS := none
    graspQuality := 0 }

/-- GraspQualityMeasureWrenchSpace.cpp 51-55 `setContactPoints(ContactInfoVector)`. -/
noncomputable def St.setInfos (cfg : Cfg) (infos : List ContactInfo) (s : St) : St :=
  { s with contacts := Gpl.setInfos cfg.centerOfModel infos, GWSCalculated := false }

/-- GraspQualityMeasureWrenchSpace.cpp 45-49 `setContactPoints(std::vector<ContactPoint>)`. -/
noncomputable def St.setPoints (cfg : Cfg) (points : List ContactPoint) (s : St) : St :=
  { s with contacts := Gpl.setPoints cfg.centerOfModel points, GWSCalculated := false }

/-- GraspQualityMeasureWrenchSpace.cpp 127-169 `calculateGWS()`. -/
noncomputable def St.calculateGWS (cfg : Cfg) (s : St) : St :=
  if s.contacts.contactPointsM.isEmpty then s
  else
    { s with
      convexHullGWS := some (calculateConvexHull cfg (conesOf cfg.cone s.contacts.contactPointsM))
      GWSCalculated := true }

/-- "`if (!GWSCalculated) calculateGWS();`", 67-70, 430-433, 476-479. -/
noncomputable def St.needGWS (cfg : Cfg) (s : St) : St :=
  if s.GWSCalculated then s else s.calculateGWS cfg

/-- A face of the mesh of the object as the sampling uses it: the three vertices and the normal. -/
structure MeshFace where
  v1 : V3
  v2 : V3
  v3 : V3
  normal : V3

/-- GraspQualityMeasure.cpp 65-72: the sample of a face. -/
noncomputable def sampleOf (cfg : Cfg) (f : MeshFace) : ContactPoint :=
  { p := (1 / 3 : ℝ) • (f.v1 + f.v2 + f.v3) - cfg.centerOfModel
    n := cfg.cone.unitForce • normalize f.normal
    force := 1 }

/-- GraspQualityMeasure.cpp 59-78: the loop of `sampleObjectPoints`; `rnd` are the results of `rand()`,
`n` the number of rounds left. A face that was drawn is taken out of the list. -/
noncomputable def sampleLoop (cfg : Cfg) : ℕ → List ℕ → List MeshFace → List ContactPoint
  | 0, _, _ => []
  | _ + 1, _, [] => []
  | _ + 1, [], _ => []
  | n + 1, r :: rnd, f :: faces =>
      let nRnd := r % (f :: faces).length
      match (f :: faces)[nRnd]? with
      | none => []
      | some g => sampleOf cfg g :: sampleLoop cfg n rnd ((f :: faces).eraseIdx nRnd)

/-- GraspQualityMeasure.cpp 35-88 `sampleObjectPoints(nMaxFaces)`, with the results of `rand()`: the
points, in mm. -/
noncomputable def sampleObjectPoints (cfg : Cfg) (rnd : List ℕ) (faces : List MeshFace) (nMaxFaces : ℕ) :
    List ContactPoint :=
  sampleLoop cfg (if faces.length > nMaxFaces then nMaxFaces else faces.length) rnd faces

/-- GraspQualityMeasureWrenchSpace.cpp 75-125 `calculateOWS(samplePoints)`. -/
noncomputable def St.calculateOWS (cfg : Cfg) (rnd : List ℕ) (faces : List MeshFace) (samplePoints : ℕ) (s : St) : St :=
  let sampled := sampleObjectPoints cfg rnd faces samplePoints
  if sampled.length = 0 then s
  else
    let hull := calculateConvexHull cfg (conesOf cfg.cone (convertMM2M sampled))
    { s with
      minOffsetOWS := minOffset (some hull)
      volumeOWS := hull.volume
      OWSCalculated := true }

/-- GraspQualityMeasureWrenchSpace.cpp 457-462 `preCalculatedOWS(minDist, volume)`. -/
def St.preCalculatedOWS (minDist volume : ℝ) (s : St) : St :=
  { s with minOffsetOWS := minDist, volumeOWS := some volume, OWSCalculated := true }

/-- GraspQualityMeasureWrenchSpace.cpp 464-472 `calculateObjectProperties()`, with the default of 300
samples. -/
noncomputable def St.calculateObjectProperties (cfg : Cfg) (rnd : List ℕ) (faces : List MeshFace) (s : St) : St :=
  if s.OWSCalculated then s else s.calculateOWS cfg rnd faces 300

/-- "`convexHullGWS->volume <= 0`": a volume that was never set is not compared (the vertices are tested
before). -/
def volumeNotPos : Option ℝ → Prop
  | none => True
  | some v => v ≤ 0

open Classical in
/-- GraspQualityMeasureWrenchSpace.cpp 481-503: the quality for a hull. -/
noncomputable def qualityOf (hull : Option ConvexHull6D) (minOffsetOWS : ℝ) : ℝ :=
  match hull with
  | none => 0
  | some h =>
      if h.vertices.length = 0 then 0
      else if minOffsetOWS ≤ 0 ∨ volumeNotPos h.volume then 0
      else if minOffsetOWS ≠ 0 then minOffset (some h) / minOffsetOWS else minOffset (some h)

/-- GraspQualityMeasureWrenchSpace.cpp 474-518 `calculateGraspQuality()`. -/
noncomputable def St.calculateGraspQuality (cfg : Cfg) (s : St) : St :=
  let s := s.needGWS cfg
  { s with graspQuality := qualityOf s.convexHullGWS s.minOffsetOWS }

/-- GraspQualityMeasureWrenchSpace.cpp 58-63 `getGraspQuality()`. -/
noncomputable def St.getGraspQuality (cfg : Cfg) (rnd : List ℕ) (faces : List MeshFace) (s : St) : St × ℝ :=
  let s := (s.calculateObjectProperties cfg rnd faces).calculateGraspQuality cfg
  (s, s.graspQuality)

/-- GraspQualityMeasureWrenchSpace.cpp 65-73 `isGraspForceClosure()`, with 375-394
`isOriginInGWSHull()`; also `isValid()` (GraspQualityMeasure.cpp 115-118). -/
noncomputable def St.isGraspForceClosure (cfg : Cfg) (s : St) : St × Bool :=
  let s := s.needGWS cfg
  (s, match s.GWSCalculated, s.convexHullGWS with
    | true, some h => originInHull h
    | _, _ => false)

open Classical in
/-- GraspQualityMeasureWrenchSpace.cpp 435-454: the volume measure for a hull. (If the volume of the object
wrench space was copied from a hull that has none, the program compares a number that was never set; here
the result is 0.) -/
noncomputable def volumeOf (hull : Option ConvexHull6D) (volumeOWS : Option ℝ) : ℝ :=
  match hull with
  | none => 0
  | some h =>
      if h.vertices.length = 0 then 0
      else match h.volume, volumeOWS with
        | some v, some w => if w ≤ 0 ∨ v ≤ 0 then 0 else if w > 1e-10 then v / w else v
        | _, _ => 0

/-- GraspQualityMeasureWrenchSpace.cpp 428-455 `getVolumeGraspMeasure()`. -/
noncomputable def St.getVolumeGraspMeasure (cfg : Cfg) (s : St) : St × ℝ :=
  let s := s.needGWS cfg
  (s, volumeOf s.convexHullGWS s.volumeOWS)

/-! ## The measure that is not normalised -/

/-- GraspQualityMeasureWrenchSpaceNotNormalized.cpp 320-345: the quality for a hull (`getGraspQuality`, 43-47,
calls `updateGWS`, 55-101, which is `needGWS`, and returns this). -/
noncomputable def qualityOfNN (hull : Option ConvexHull6D) : ℝ :=
  match hull with
  | none => 0
  | some h => if h.vertices.length = 0 then 0 else minOffsetNN (some h)

/-- GraspQualityMeasureWrenchSpaceNotNormalized.cpp 43-47 `getGraspQuality()`. -/
noncomputable def St.getGraspQualityNN (cfg : Cfg) (s : St) : St × ℝ :=
  let s := s.needGWS cfg
  ({ s with graspQuality := qualityOfNN s.convexHullGWS }, qualityOfNN s.convexHullGWS)

end Simox.Gpl
