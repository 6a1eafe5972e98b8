import Mathlib.Analysis.SpecialFunctions.Pow.Real
import Mathlib.Analysis.Real.Pi.Bounds
import Mathlib.Algebra.Order.Floor.Ring

/-!
# Model of the C-space metric, boundaries, interpolation and local paths

`MotionPlanning/CSpace/CSpace.cpp`, `CSpaceSampled.cpp`, `CSpacePath.cpp` and the angle helpers of
`VirtualRobot/MathTools.cpp`.

Simplification that applies to the whole file: `float` is the field of real numbers (no rounding,
no NaN, no infinity).
-/

namespace Simox.CSpace

open Real Classical

/-! ## Angles (MathTools.cpp 2068-2112) -/

/-- `std::fmod(x, m)`: remainder with the quotient rounded towards zero. -/
noncomputable def cfmod (x m : ℝ) : ℝ :=
  x - m * (if 0 ≤ x / m then (⌊x / m⌋ : ℝ) else (⌈x / m⌉ : ℝ))

/-- `MathTools::fmod(value, boundLow, boundHigh)`, MathTools.cpp 2068-2076 (and the identical lambda
in CSpace.cpp 641-649). -/
noncomputable def fmodRange (value lo hi : ℝ) : ℝ :=
  let value := cfmod (value - lo) (hi - lo) + lo
  if value < lo then value + (hi - lo) else value

/-- `MathTools::angleMod2PI`, MathTools.cpp 2078-2081. -/
noncomputable def angleMod2PI (value : ℝ) : ℝ := fmodRange value 0 (2 * π)

/-- `MathTools::angleModPI`, MathTools.cpp 2083-2086. -/
noncomputable def angleModPI (value : ℝ) : ℝ := angleMod2PI (value + π) - π

/-- `MathTools::angleModX`, MathTools.cpp 2088-2091. -/
noncomputable def angleModX (value center : ℝ) : ℝ := angleMod2PI (value + π - center) - π + center

/-- `MathTools::Lerp`, MathTools.cpp 2093-2096. -/
def lerp (a b f : ℝ) : ℝ := a * (1 - f) + b * f

/-- `MathTools::AngleLerp`, MathTools.cpp 2103-2107 (and CSpace.cpp 656-660). -/
noncomputable def angleLerp (a b f : ℝ) : ℝ := lerp a (fmodRange b (a - π) (a + π)) f

/-- `MathTools::AngleDelta`, MathTools.cpp 2109-2112. -/
noncomputable def angleDelta (angle1 angle2 : ℝ) : ℝ := angleModPI (angle2 - angle1)

/-! ## Metric and boundaries (CSpace.cpp) -/

/-- A configuration of dimension `n` (`Eigen::VectorXf`; the dimension assertions hold by typing). -/
abbrev Config (n : Nat) := Fin n → ℝ

/-- The members of `CSpace` used by metric, boundaries and interpolation (CSpace.h). -/
structure Space (n : Nat) where
  useMetricWeights : Bool
  metricWeights : Fin n → ℝ
  /-- `borderLessDimension` -/
  borderless : Fin n → Bool
  /-- `robotJoints[i]->isTranslationalJoint()` -/
  translational : Fin n → Bool
  boundaryMin : Fin n → ℝ
  boundaryMax : Fin n → ℝ

variable {n : Nat}

/-- One summand of `calcDist2`, CSpace.cpp 306-325. -/
noncomputable def Space.distDim (S : Space n) (c1 c2 : Config n) (i : Fin n) : ℝ :=
  if S.borderless i then |angleDelta (c1 i) (c2 i)| else c1 i - c2 i

/-- `CSpace::calcDist2(c1, c2, forceDisablingMetricWeights)`, CSpace.cpp 298-328. -/
noncomputable def Space.calcDist2 (S : Space n) (c1 c2 : Config n) (forceDisable : Bool) : ℝ :=
  ∑ i, if S.useMetricWeights && !forceDisable then
      S.metricWeights i * S.metricWeights i * S.distDim c1 c2 i * S.distDim c1 c2 i
    else S.distDim c1 c2 i * S.distDim c1 c2 i

/-- `CSpace::calcDist`, CSpace.cpp 293-296. -/
noncomputable def Space.calcDist (S : Space n) (c1 c2 : Config n) (forceDisable : Bool) : ℝ :=
  √(S.calcDist2 c1 c2 forceDisable)

/-- `CSpace::setBoundary`, CSpace.cpp 247-262 (the recomputation of the borderless flags does not
depend on the boundary). -/
noncomputable def Space.setBoundary (S : Space n) (dim : Fin n) (lo hi : ℝ) : Space n :=
  let lo' := if lo > hi then hi else lo
  let hi' := if lo > hi then lo else hi
  { S with
    boundaryMin := Function.update S.boundaryMin dim lo'
    boundaryMax := Function.update S.boundaryMax dim hi' }

/-- `CSpace::setBoundaries`, CSpace.cpp 236-244. -/
noncomputable def Space.setBoundaries (S : Space n) (lo hi : Config n) : Space n :=
  (List.finRange n).foldl (fun S i => S.setBoundary i (lo i) (hi i)) S

/-- `CSpace::isInBoundary`, CSpace.cpp 473-487: no dimension is found outside. -/
def Space.isInBoundary (S : Space n) (c : Config n) : Prop :=
  ¬ ∃ i, c i < S.boundaryMin i ∨ c i > S.boundaryMax i

/-- `CSpace::respectBoundaries`, CSpace.cpp 552-568. -/
noncomputable def Space.respectBoundaries (S : Space n) (c : Config n) : Config n := fun i =>
  let x := if c i < S.boundaryMin i then S.boundaryMin i else c i
  if x > S.boundaryMax i then S.boundaryMax i else x

/-- `CSpace::interpolate(q1, q2, dim, step)`, CSpace.cpp 604-632, and `interpolate(q1, q2, step)`,
589-601. -/
noncomputable def Space.interpolate (S : Space n) (q1 q2 : Config n) (step : ℝ) : Config n := fun i =>
  if S.translational i then q1 i + step * (q2 i - q1 i)
  else if S.borderless i = false then q1 i + step * (q2 i - q1 i)
  else
    angleModX (angleLerp (q1 i) (q2 i) step) (1 / 2 * (S.boundaryMax i + S.boundaryMin i))

/-- One coordinate of a uniformly sampled configuration, CSpace.cpp 688-692 (`getRandomConfig`)
and 665-672; `t` is the value of `RandomFloat()`, `boundaryDist = |max - min|`. -/
noncomputable def Space.randomConfig (S : Space n) (t : Fin n → ℝ) : Config n := fun i =>
  S.boundaryMin i + |S.boundaryMax i - S.boundaryMin i| * t i

/-- Outcome of the three checks of `isConfigValid`, CSpace.cpp 489-512. -/
def isConfigValid (inBoundary collisionFree constraints : Prop)
    (checkBorders checkCollisions checkConstraints : Bool) : Prop :=
  if checkBorders = true ∧ ¬ inBoundary then False
  else if checkCollisions = true ∧ ¬ collisionFree then False
  else if checkConstraints = true ∧ ¬ constraints then False
  else True

/-! ## Local paths

They use only the distance (`calcDist(a, b)`, default arguments) and the interpolation. -/

/-- Distance and interpolation of a C-space. -/
structure Geo (Q : Type) where
  dist : Q → Q → ℝ
  interp : Q → Q → ℝ → Q

/-- Distance and interpolation of a `Space`. -/
noncomputable def Space.geo (S : Space n) : Geo (Config n) where
  dist a b := S.calcDist a b false
  interp := S.interpolate

variable {Q : Type}

/-- `CSpace::generateNewConfig`, CSpace.cpp 331-356. A negative `pre` means "compute it". -/
noncomputable def Geo.generateNewConfig (G : Geo Q) (random nearest : Q) (stepSize pre : ℝ) : Q :=
  let pre := if pre < 0 then G.dist random nearest else pre
  if pre ≤ stepSize then random else G.interp nearest random (stepSize / pre)

/-- The `do … while` loop of `CSpaceSampled::createPath`, CSpaceSampled.cpp 115-146; `none` = still
running after `fuel` iterations. -/
noncomputable def Geo.createPathLoop (G : Geo Q) (ss : ℝ) (goal : Q) :
    Nat → Q → ℝ → Bool → List Q → Option (List Q)
  | 0, _, _, _, _ => none
  | fuel + 1, last, dist, lastNode, acc =>
    let last' := if lastNode then goal else G.interp last goal (ss / dist)
    let acc' := acc ++ [last']
    let dist' := G.dist last' goal
    if dist' ≤ ss * 1.05 then
      if lastNode = true ∨ dist' < 1e-6 then some acc'
      else G.createPathLoop ss goal fuel last' dist' true acc'
    else G.createPathLoop ss goal fuel last' dist' lastNode acc'

/-- `CSpaceSampled::createPath`, CSpaceSampled.cpp 83-149. `ss` is `samplingSizePaths`. -/
noncomputable def Geo.createPath (G : Geo Q) (ss : ℝ) (start goal : Q) (fuel : Nat) :
    Option (List Q) :=
  let dist := G.dist start goal
  if dist = 0 then some [start]
  else G.createPathLoop ss goal fuel start dist (decide (dist < ss)) [start]

/-- Result of `createPathUntilInvalid`: the points and `storeAddedLength`. -/
structure PartialPath (Q : Type) where
  points : List Q
  added : ℝ

/-- The loop of `CSpaceSampled::createPathUntilInvalid`, CSpaceSampled.cpp 183-233. `validB` is
`isConfigValid(·, true, true, true)`, `validN` is `isConfigValid(·, false, true, true)`; `dcd` is
`samplingSizeDCD`, `ss` is `samplingSizePaths`; `none` = still running. (The assertion
`distT < dist` is not modelled; it holds for `dcd > 0`.) -/
noncomputable def Geo.untilInvalidLoop (G : Geo Q) (validB validN : Q → Prop) (dcd ss : ℝ) (goal : Q)
    (orig : ℝ) : Nat → Q → ℝ → ℝ → PartialPath Q → Option (PartialPath Q)
  | 0, _, _, _, _ => none
  | fuel + 1, tmp, dist, nodeDist, r =>
    if dist ≤ dcd then
      if ¬ validN goal then some { r with added := (orig - dist) / orig }
      else some { points := r.points ++ [goal], added := 1 }
    else
      let tmp := G.generateNewConfig goal tmp dcd dist
      if ¬ validB tmp then some r
      else
        let nodeDist := nodeDist + dcd
        let dist' := G.dist tmp goal
        if nodeDist ≥ ss then
          G.untilInvalidLoop validB validN dcd ss goal orig fuel tmp dist' (nodeDist - ss)
            { points := r.points ++ [tmp], added := (orig - dist) / orig }
        else G.untilInvalidLoop validB validN dcd ss goal orig fuel tmp dist' nodeDist r

/-- `CSpaceSampled::createPathUntilInvalid`, CSpaceSampled.cpp 151-236. -/
noncomputable def Geo.createPathUntilInvalid (G : Geo Q) (validB validN : Q → Prop) (dcd ss : ℝ)
    (start goal : Q) (fuel : Nat) : Option (PartialPath Q) :=
  let dist := G.dist start goal
  if dist = 0 then some { points := [start], added := 1 }
  else
    G.untilInvalidLoop validB validN dcd ss goal dist fuel start dist 0
      { points := [start], added := 0 }

/-- Where a `const Eigen::VectorXf&` argument of `isPathValid` points to: the caller's object or the
buffer `recursiveTmpValues[i]`. -/
inductive Ref (Q : Type) where
  | ext (q : Q)
  | tmp (i : Nat)

/-- Value behind a reference. -/
def Ref.get (buf : Nat → Q) : Ref Q → Q
  | .ext q => q
  | .tmp i => buf i

/-- `CSpaceSampled::isPathValid`, CSpaceSampled.cpp 239-274, with its explicit buffer
`recursiveTmpValues` (`buf`), `recursiveTmpValuesIndex` (`idx`), and `stopPathCheck` observed at the
`k`-th call as `stop k` (another thread may set it at any time). `limit` is `recursionMaxDepth`. The
recursion is bounded by the code's own depth limit; returns the result, the buffer and the number of
calls made. -/
noncomputable def Geo.isPathValidMem (G : Geo Q) (valid : Q → Prop) (dcd : ℝ) (stop : Nat → Bool)
    (limit : Nat) (idx : Nat) (q1 q2 : Ref Q) (buf : Nat → Q) (k : Nat) : Bool × (Nat → Q) × Nat :=
  if stop k then (false, buf, k + 1)
  else
    let d := G.dist (q1.get buf) (q2.get buf)
    if d ≤ dcd * 1.001 then (decide (valid (q2.get buf)), buf, k + 1)
    else if h : idx + 1 ≥ limit then (false, buf, k + 1)
    else
      let buf1 := fun j => if j = idx + 1
        then G.generateNewConfig (q2.get buf) (q1.get buf) (d * 0.5) d else buf j
      let r1 := G.isPathValidMem valid dcd stop limit (idx + 1) q1 (.tmp (idx + 1)) buf1 (k + 1)
      if r1.1 then
        G.isPathValidMem valid dcd stop limit (idx + 1) (.tmp (idx + 1)) q2 r1.2.1 r1.2.2
      else r1
  termination_by limit - idx

/-- `isPathValid` as called from outside: `recursiveTmpValuesIndex = 0`, `recursionMaxDepth = 1000`
(CSpaceSampled.cpp 22, 24). -/
noncomputable def Geo.isPathValid (G : Geo Q) (valid : Q → Prop) (dcd : ℝ) (stop : Nat → Bool)
    (q1 q2 : Q) (buf : Nat → Q) : Bool :=
  (G.isPathValidMem valid dcd stop 1000 0 (.ext q1) (.ext q2) buf 0).1

/-! ## CSpacePath -/

/-- `CSpacePath::getLength(startIndex, endIndex, useCSpaceWeights)` over the whole path,
CSpacePath.cpp 115-143: the flag is handed to `calcDist` as `forceDisablingMetricWeights`. -/
noncomputable def pathLength (S : Space n) (useCSpaceWeights : Bool) : List (Config n) → ℝ
  | [] => 0
  | [_] => 0
  | a :: b :: l => S.calcDist a b useCSpaceWeights + pathLength S useCSpaceWeights (b :: l)

/-- `CSpacePath::getTime(nr)`, CSpacePath.cpp 249-286, for a valid index: `calcDist` is called with
its default argument, `getLength()` is `getLength(true)`. -/
noncomputable def pathTime (S : Space n) (l : List (Config n)) (nr : Nat) : ℝ :=
  (∑ i ∈ Finset.range nr,
    match l[i]?, l[i + 1]? with
    | some a, some b => S.calcDist a b false / pathLength S true l
    | _, _ => 0)

/-- The segment search of `CSpacePath::interpolate`, CSpacePath.cpp 345-356: returns `c1`, `c2`,
`actLength` and `lastLength`. `calcDist` is called with its default argument. -/
noncomputable def segmentSearch (S : Space n) (wanted : ℝ) :
    List (Config n) → Config n → Config n → ℝ → ℝ → Config n × Config n × ℝ × ℝ
  | [], c1, c2, act, last => (c1, c2, act, last)
  | p :: rest, c1, c2, act, last =>
    if act < wanted then
      segmentSearch S wanted rest c2 p (act + S.calcDist c2 p false) (S.calcDist c2 p false)
    else (c1, c2, act, last)

/-- `CSpacePath::interpolate(t)`, CSpacePath.cpp 289-408, without `storeIndex` (`none` = empty path,
where the C++ code goes on with `getPoint(0)`). -/
noncomputable def pathInterpolate (S : Space n) (l : List (Config n)) (t : ℝ) : Option (Config n) :=
  let t := if t < 0 then 0 else if t > 1 then 1 else t
  match l with
  | [] => none
  | p :: rest =>
    if t = 0 then some p
    else if t = 1 then (p :: rest).getLast?
    else
      let wanted := pathLength S true (p :: rest) * t
      let r := segmentSearch S wanted rest p p 0 0
      let c1 := r.1
      let c2 := r.2.1
      let last := r.2.2.2
      let act := r.2.2.1 - last
      let factor := if last > 0 then (wanted - act) / last else 0
      let factor := if factor > 1 then 1 else factor
      some fun j =>
        if S.borderless j then
          let diff := c2 j - c1 j
          let diff := if diff > π then diff - 2 * π else diff
          let diff := if diff < -π then diff + 2 * π else diff
          c1 j + diff * factor
        else c1 j + (c2 j - c1 j) * factor

end Simox.CSpace
