import Verif.Mth.Geo

/-!
# Evaluating grasps under pose uncertainty

Models `GraspPlanning/GraspQuality/GraspEvaluationPoseUncertainty.cpp` and `.h`.

Simplifications: reals instead of floats; the hand, the collision check, closing the fingers and the quality
measure are given by functions; random numbers are arguments; a loop that does not end has no result; null
pointers are left out.
-/

namespace Simox.Gpn

open Matrix Jac Rot Mth

/-! ## Poses -/

/-- GraspEvaluationPoseUncertainty.h 49-85 `PoseUncertaintyConfig`. -/
structure Config where
  enableDimension : Fin 6 → Bool
  dimExtends : Fin 6 → ℝ
  stepSize : Fin 6 → ℝ
  useNormalDistribution : Bool
  posDeltaMM : ℝ
  oriDeltaDeg : ℝ

/-- GraspEvaluationPoseUncertainty.h 56-75 `init`. -/
noncomputable def Config.init (maxPosDelta maxOriDeltaDeg : ℝ) (normalDistribution : Bool) (stepFactorPos stepFactorOri : ℝ) :
    Config :=
  let rad := maxOriDeltaDeg * (Real.pi / 180)
  { useNormalDistribution := normalDistribution
    posDeltaMM := maxPosDelta
    oriDeltaDeg := maxOriDeltaDeg
    enableDimension := fun _ => true
    dimExtends := fun i => if i.1 < 3 then maxPosDelta else rad
    stepSize := fun i => if i.1 < 3 then maxPosDelta * stepFactorPos else rad * stepFactorOri }

/-- The six numbers of a pose in an array. -/
def six (v : PosRpy) : Fin 6 → ℝ := ![v.x, v.y, v.z, v.roll, v.pitch, v.yaw]

/-- The pose of an array of six numbers, for `posrpy2eigen4f`. -/
def ofSix (t : Fin 6 → ℝ) : PosRpy := ⟨t 0, t 1, t 2, t 3, t 4, t 5⟩

/-- The bounds and the step of a loop. -/
structure Dim where
  start : ℝ
  stop : ℝ
  step : ℝ

/-- GraspEvaluationPoseUncertainty.cpp 32-63: the bounds of the six loops. -/
noncomputable def Config.dim (c : Config) (graspCenterGP : M4) (i : Fin 6) : Dim :=
  let initPose := six (eigen4f2rpy graspCenterGP) i
  if c.enableDimension i then ⟨initPose - c.dimExtends i, initPose + c.dimExtends i, c.stepSize i⟩
  else ⟨initPose, initPose, 1⟩

/-- GraspEvaluationPoseUncertainty.cpp 67-93: loops inside each other, `for (a = start; a <= end; a += step)`,
and the tuples of the loop variables the innermost body is executed with, in this order. `acc` holds the
variables of the loops around. Loops that do not end have no result. -/
inductive Nest : List Dim → List ℝ → List (List ℝ) → Prop
  | body {acc} : Nest [] acc [acc]
  | stop {a e s ds acc} (h : ¬ a ≤ e) : Nest (⟨a, e, s⟩ :: ds) acc []
  | next {a e s ds acc l₁ l₂} (h : a ≤ e) (inner : Nest ds (acc ++ [a]) l₁) (rest : Nest (⟨a + s, e, s⟩ :: ds) acc l₂) :
      Nest (⟨a, e, s⟩ :: ds) acc (l₁ ++ l₂)

/-- The six loops. -/
noncomputable def Config.dims (c : Config) (graspCenterGP : M4) : List Dim := List.ofFn (c.dim graspCenterGP)

/-- A tuple of loop variables as an array. -/
def ofTuple (t : List ℝ) : Fin 6 → ℝ := fun i => t.getD i.1 0

/-- GraspEvaluationPoseUncertainty.cpp 85-86: the pose of one run of the innermost body. -/
noncomputable def gridPose (objectGP graspCenterGP : M4) (t : List ℝ) : M4 :=
  posrpy2eigen4f (ofSix (ofTuple t)) * (objectGP * graspCenterGP⁻¹)

/-- GraspEvaluationPoseUncertainty.cpp 27-95 `generatePoses(objectGP, graspCenterGP)` has the result. -/
def Config.Generates (c : Config) (objectGP graspCenterGP : M4) (result : List M4) : Prop :=
  ∃ tuples, Nest (c.dims graspCenterGP) [] tuples ∧ result = tuples.map (gridPose objectGP graspCenterGP)

/-- GraspEvaluationPoseUncertainty.cpp 134-148: how far a dimension is disturbed. -/
noncomputable def Config.dist (c : Config) (i : Fin 6) : ℝ :=
  if c.enableDimension i then (if i.1 < 3 then c.posDeltaMM else c.oriDeltaDeg * (Real.pi / 180)) else 0

/-- GraspEvaluationPoseUncertainty.cpp 157-164: one random pose; `r` are the random numbers. -/
noncomputable def Config.randomPose (c : Config) (objectGP graspCenterGP : M4) (r : Fin 6 → ℝ) : M4 :=
  posrpy2eigen4f (ofSix fun i => six (eigen4f2rpy graspCenterGP) i + r i * c.dist i) * (invertedPose graspCenterGP * objectGP)

/-- GraspEvaluationPoseUncertainty.cpp 113-168 `generatePoses(objectGP, graspCenterGP, numPoses)`. -/
noncomputable def Config.randomPoses (c : Config) (objectGP graspCenterGP : M4) (numPoses : ℤ) (r : ℕ → Fin 6 → ℝ) : List M4 :=
  (List.range numPoses.toNat).map fun j => c.randomPose objectGP graspCenterGP (r j)

/-- GraspEvaluationPoseUncertainty.cpp 380-397 `getMean(contacts)`: `none` is the vector of NaN. -/
noncomputable def getMean (points : List V3) : Option V3 :=
  if points.isEmpty then none else some ((1 / (points.length : ℝ)) • points.sum)

/-- GraspEvaluationPoseUncertainty.cpp 97-110 `generatePoses(objectGP, contacts)` has the result. -/
def Config.GeneratesAt (c : Config) (objectGP : M4) (points : List V3) (result : List M4) : Prop :=
  match getMean points with
  | none => result = []
  | some p => c.Generates objectGP (mkPose p 1) result

/-- GraspEvaluationPoseUncertainty.cpp 170-186 `generatePoses(objectGP, contacts, numPoses)`. -/
noncomputable def Config.randomPosesAt (c : Config) (objectGP : M4) (points : List V3) (numPoses : ℤ) (r : ℕ → Fin 6 → ℝ) : List M4 :=
  match getMean points with
  | none => []
  | some p => c.randomPoses objectGP (mkPose p 1) numPoses r

/-! ## Evaluation -/

/-- The hand (poses of its root `R`, configurations `H`), the object and the measure (its state `Q`, contacts
`C`): the configuration before closing (`openActors` or the preshape), the collision check, closing, the
measure, and placing the tool centre point. -/
structure Bench (R H C Q : Type) where
  opened : H → H
  hits : M4 → R → H → Bool
  close : M4 → R → H → H × List C
  point : C → V3
  setContacts : List C → Q → Q
  quality : Q → ℝ
  closed : Q → Bool
  place : M4 → R → H → R

/-- What the evaluation changes. -/
structure Setup (R H Q : Type) where
  root : R
  cfg : H
  object : M4
  measure : Q

/-- GraspEvaluationPoseUncertainty.h 87-92 `PoseEvalResult`. -/
structure PoseResult where
  forceClosure : Bool
  quality : ℝ
  initialCollision : Bool

/-- GraspEvaluationPoseUncertainty.h 94-107 `PoseEvalResults`. -/
structure Results where
  numPosesTested : ℕ
  numValidPoses : ℕ
  numColPoses : ℕ
  numForceClosurePoses : ℕ
  forceClosureRate : ℝ
  avgQuality : ℝ
  forceClosureRateCol : ℝ
  avgQualityCol : ℝ

/-- GraspEvaluationPoseUncertainty.h 96-103: the initial values. -/
def Results.zero : Results := ⟨0, 0, 0, 0, 0, 0, 0, 0⟩

variable {R H C Q : Type}

/-- GraspEvaluationPoseUncertainty.cpp 188-229 `evaluatePose`. -/
def Bench.evaluatePose (b : Bench R H C Q) (objectPose : M4) (s : Setup R H Q) : PoseResult × Setup R H Q :=
  let s := { s with cfg := b.opened s.cfg, object := objectPose }
  if b.hits s.object s.root s.cfg then (⟨false, 0, true⟩, s)
  else
    let r := b.close s.object s.root s.cfg
    let s := { s with cfg := r.1, measure := b.setContacts r.2 s.measure }
    (⟨b.closed s.measure, b.quality s.measure, false⟩, s)

/-- GraspEvaluationPoseUncertainty.cpp 261-265: the loop over the poses. -/
def Bench.evaluateAll (b : Bench R H C Q) : List M4 → Setup R H Q → List PoseResult × Setup R H Q
  | [], s => ([], s)
  | p :: ps, s =>
      let r := b.evaluatePose p s
      let rs := b.evaluateAll ps r.2
      (r.1 :: rs.1, rs.2)

/-- GraspEvaluationPoseUncertainty.cpp 271-289: one run of the loop over the results. -/
noncomputable def Results.add (res : Results) (r : PoseResult) : Results :=
  if r.initialCollision then { res with numColPoses := res.numColPoses + 1 }
  else
    let res := { res with
      numValidPoses := res.numValidPoses + 1
      avgQuality := res.avgQuality + r.quality
      avgQualityCol := res.avgQualityCol + r.quality }
    if r.forceClosure then
      { res with
        forceClosureRate := res.forceClosureRate + 1
        forceClosureRateCol := res.forceClosureRateCol + 1
        numForceClosurePoses := res.numForceClosurePoses + 1 }
    else res

/-- GraspEvaluationPoseUncertainty.cpp 270-300: the statistics. -/
noncomputable def statistics (rs : List PoseResult) : Results :=
  let res := rs.foldl Results.add { Results.zero with numPosesTested := rs.length }
  let res := if res.numValidPoses > 0 then
      { res with
        forceClosureRate := res.forceClosureRate / res.numValidPoses
        avgQuality := res.avgQuality / res.numValidPoses }
    else res
  if res.numPosesTested > 0 then
    { res with
      forceClosureRateCol := res.forceClosureRateCol / res.numPosesTested
      avgQualityCol := res.avgQualityCol / res.numPosesTested }
  else res

/-- GraspEvaluationPoseUncertainty.cpp 231-308 `evaluatePoses`. -/
noncomputable def Bench.evaluatePoses (b : Bench R H C Q) (objectPoses : List M4) (s : Setup R H Q) : Results × Setup R H Q :=
  let r := b.evaluateAll objectPoses s
  if r.1.isEmpty then (Results.zero, r.2)
  else (statistics r.1, { r.2 with root := s.root, object := s.object, cfg := s.cfg })

/-- GraspEvaluationPoseUncertainty.cpp 310-378 `evaluateGrasp`; `poseTcp` is the pose of the grasp. -/
noncomputable def Bench.evaluateGrasp (b : Bench R H C Q) (c : Config) (poseTcp : M4) (numPoses : ℤ) (r : ℕ → Fin 6 → ℝ)
    (s : Setup R H Q) : Results × Setup R H Q :=
  let s₁ := { s with root := b.place (s.object * poseTcp⁻¹) s.root s.cfg }
  let s₂ := { s₁ with cfg := b.opened s₁.cfg }
  let k := b.close s₂.object s₂.root s₂.cfg
  let s₃ := { s₂ with cfg := k.1 }
  if k.2.isEmpty then (Results.zero, s₃)
  else
    let poses := c.randomPosesAt s₃.object (k.2.map b.point) numPoses r
    if poses.isEmpty then (Results.zero, s₃)
    else
      let e := b.evaluatePoses poses s₃
      (e.1, { e.2 with root := s.root, object := s.object, cfg := s.cfg })

end Simox.Gpn
