import Mathlib.Data.Matrix.Basic
import Mathlib.Analysis.SpecialFunctions.Exp
import Mathlib.Analysis.SpecialFunctions.Pow.Real
import Mathlib.Analysis.SpecialFunctions.Sqrt
import Mathlib.Algebra.Order.Floor.Ring

/-!
# The quality of poses

Model of `VirtualRobot/IK/PoseQualityManipulability.cpp`, `VirtualRobot/IK/PoseQualityExtendedManipulability.cpp`
and of the quality maps of `VirtualRobot/Workspace/Manipulability.cpp`. Numbers are real; the Jacobian of the
chain (see `Jac`) is an arbitrary matrix with six rows and one column for each joint, the singular values are
an arbitrary list that `Spec.lean` relates to the matrix.
-/

namespace Simox.Mnp

/-- PoseQualityManipulability.h `ManipulabilityIndexType`. -/
inductive Index where
  | multiplySV
  | minMaxRatio
deriving DecidableEq

/-- PoseQualityManipulability.cpp 36, 104, 191 `jac.block(3, 0, 3, jac.cols()) *= penalizeRotationFactor`
with the factor of the constructor, 19. -/
noncomputable def penalize {n : ℕ} (J : Matrix (Fin 6) (Fin n) ℝ) : Matrix (Fin 6) (Fin n) ℝ :=
  fun i j => if 3 ≤ i.val then J i j * (15 / 100) else J i j

/-- PoseQualityManipulability.cpp 125-128 (the same in PoseQualityExtendedManipulability.cpp 426-429 and
704-707): how many singular values are considered. -/
def considered (first : ℤ) (rows : ℕ) : ℕ := if first ≤ 0 ∨ first > rows then rows else first.toNat

/-- PoseQualityManipulability.cpp 134-147: the product of the singular values that are considered. -/
def product : List ℝ → ℕ → ℝ
  | [], _ => 0
  | s :: r, k => (r.take (k - 1)).foldl (· * ·) s

open Classical in
/-- PoseQualityManipulability.cpp 149-163: the last singular value considered over the first one. -/
noncomputable def ratio (sv : List ℝ) (k : ℕ) : ℝ :=
  if 2 ≤ sv.length then
    if sv.getD 0 0 ≠ 0 then sv.getD (k - 1) 0 / sv.getD 0 0 else 0
  else 0

/-- A joint of the chain: RobotNode.h `jointLimitLo`, `jointLimitHi`, `jointValue`. -/
structure Joint where
  lo : ℝ
  hi : ℝ
  q : ℝ

open Classical in
/-- PoseQualityManipulability.cpp 205-219: the step of the loop over the joints. -/
noncomputable def limitStep (p : ℝ) (j : Joint) : ℝ :=
  if (j.hi - j.lo) * (j.hi - j.lo) ≠ 0 then
    p * ((j.q - j.lo) * (j.hi - j.q) / ((j.hi - j.lo) * (j.hi - j.lo)))
  else p

/-- PoseQualityManipulability.cpp 202-225 `getJointLimitPenalizationFactor`. -/
noncomputable def limitFactor (k : ℝ) (joints : List Joint) : ℝ :=
  1 - Real.exp (-k * joints.foldl limitStep 1)

/-- PoseQualityManipulability.cpp 121-175 `getManipulability`; `pen` is the factor `k` if joint limits are
penalized. -/
noncomputable def getManipulability (sv : List ℝ) (i : Index) (first : ℤ) (pen : Option ℝ) (joints : List Joint) :
    ℝ :=
  let k := considered first sv.length
  let r := match i with
    | .multiplySV => product sv k
    | .minMaxRatio => ratio sv k
  match pen with
  | none => r
  | some f => r * limitFactor f joints

/-- PoseQualityManipulability.cpp 83-94: a direction in space, or a direction and a rotation. -/
def sixDim : (Fin 3 → ℝ) ⊕ (Fin 6 → ℝ) → Fin 6 → ℝ
  | .inl d, i => if h : i.val < 3 then d ⟨i.val, h⟩ else 0
  | .inr d, i => d i

/-- PoseQualityManipulability.cpp 81-119 `getManipulability(direction)` for the Jacobian in global
coordinates. -/
noncomputable def getManipulabilityDir {n : ℕ} (J : Matrix (Fin 6) (Fin n) ℝ)
    (d : (Fin 3 → ℝ) ⊕ (Fin 6 → ℝ)) (pen : Option ℝ) (joints : List Joint) : ℝ :=
  let g := Matrix.mulVec (penalize J).transpose (sixDim d)
  let r := Real.sqrt (∑ j, g j * g j)
  match pen with
  | none => r
  | some f => r * limitFactor f joints

/-! ## The extended measure -/

open Classical in
/-- PoseQualityExtendedManipulability.cpp 81-92: how steep the penalty for being near a limit is. -/
noncomputable def steepness (j : Joint) : ℝ :=
  |if |j.hi - j.q| > 1 / 10 ^ 10 ∧ |j.q - j.lo| > 1 / 10 ^ 10 then
      (j.hi - j.lo) * (j.hi - j.lo) * (2 * j.q - j.hi - j.lo) /
        (4 * (j.hi - j.q) * (j.hi - j.q) * (j.q - j.lo) * (j.q - j.lo))
    else 10 ^ 10|

open Classical in
/-- PoseQualityExtendedManipulability.cpp 77-112 `getQualityWeighting`: the weights for the lower and for the
upper limit. -/
noncomputable def weights (j : Joint) : ℝ × ℝ :=
  if |j.q - j.lo| > |j.q - j.hi| then (1, 1 + steepness j) else (1 + steepness j, 1)

/-- PoseQualityExtendedManipulability.cpp 119-125 `getPenalizations`, lower limit. -/
noncomputable def penLo (j : Joint) : ℝ := 1 / Real.sqrt (weights j).1

/-- PoseQualityExtendedManipulability.cpp 119-125 `getPenalizations`, upper limit. -/
noncomputable def penHi (j : Joint) : ℝ := 1 / Real.sqrt (weights j).2

open Classical in
/-- PoseQualityExtendedManipulability.cpp 310-339 (and 271-301): whether the upper limit of the joint counts
when the coordinate `i` moves in direction `dir` with the entry `a` of the Jacobian. -/
noncomputable def upperCounts (dir a : ℝ) : Bool :=
  (if a < 0 then not else id) ((if dir < 0 then not else id) true)

/-- PoseQualityExtendedManipulability.cpp 303-341 `getJacobianWeighted`. -/
noncomputable def weighted {n : ℕ} (J : Matrix (Fin 6) (Fin n) ℝ) (dir : Fin 6 → ℝ) (js : Fin n → Joint) :
    Matrix (Fin 6) (Fin n) ℝ :=
  fun i j => J i j * (if upperCounts (dir i) (J i j) then penHi (js j) else penLo (js j))

/-- The parameters of the penalty for obstacles, `obstacle_alpha` and `obstacle_beta`. -/
structure ObstPar where
  alpha : ℝ
  beta : ℝ

/-- PoseQualityExtendedManipulability.cpp 151-163: length of the vector to the obstacle in metres, and the
derivative of the penalty. -/
noncomputable def obstSlope (p : ObstPar) (d : ℝ) : ℝ :=
  -(Real.exp (-p.alpha * d) * d ^ (-p.beta) * (p.beta * 1 / d + p.alpha))

/-- Length of a vector. -/
noncomputable def norm3 (v : Fin 3 → ℝ) : ℝ := Real.sqrt (∑ i, v i * v i)

/-- PoseQualityExtendedManipulability.cpp 173-211: the penalty of each joint. -/
noncomputable def obstJoint {n : ℕ} (p : ObstPar) (v : Fin 3 → ℝ) (J : Matrix (Fin 6) (Fin n) ℝ) (j : Fin n) : ℝ :=
  let d := norm3 v * (1 / 1000)
  let g := Matrix.mulVec J.transpose (fun i => sixDim (.inl v) i * (1 / 1000)) j
  1 / Real.sqrt (1 + |g / d * obstSlope p d|)

open Classical in
/-- PoseQualityExtendedManipulability.cpp 140-238 `getObstaclePenalizations`, for the negative (`false`) and
the positive (`true`) direction of each coordinate. -/
noncomputable def obstPen {n : ℕ} (p : ObstPar) (v : Fin 3 → ℝ) (J : Matrix (Fin 6) (Fin n) ℝ) (up : Bool) :
    Matrix (Fin 6) (Fin n) ℝ :=
  fun i j =>
    if norm3 v < 1 / 10 ^ 10 then 0
    else if h : i.val < 3 then
      if decide (v ⟨i.val, h⟩ > 0) = up then obstJoint p v J j else 1
    else 1

open Classical in
/-- PoseQualityExtendedManipulability.cpp 257-301 `getJacobianWeightedObstacles`. -/
noncomputable def weightedObst {n : ℕ} (J : Matrix (Fin 6) (Fin n) ℝ) (dir : Fin 6 → ℝ) (js : Fin n → Joint)
    (p : ObstPar) (v : Fin 3 → ℝ) : Matrix (Fin 6) (Fin n) ℝ :=
  fun i j => J i j * (if dir i < 0 then obstPen p v J false i j else obstPen p v J true i j) *
    (if upperCounts (dir i) (J i j) then penHi (js j) else penLo (js j))

/-- PoseQualityExtendedManipulability.cpp 566-632 `createCartDimPermutations`: the `k`-th direction. -/
def octant (k : ℕ) (i : Fin 6) : ℤ := if (k / 2 ^ i.val) % 2 = 0 then 1 else -1

/-- PoseQualityExtendedManipulability.cpp 395-424: the `k`-th penalized Jacobian; coordinates that are not
in `dims` are dropped. -/
noncomputable def jacPen {n : ℕ} (J : Matrix (Fin 6) (Fin n) ℝ) (js : Fin n → Joint) (obst : Option (ObstPar × (Fin 3 → ℝ)))
    (dims : Fin 6 → Bool) (k : ℕ) : Matrix (Fin 6) (Fin n) ℝ :=
  fun i j =>
    if dims i then
      match obst with
      | none => weighted (penalize J) (fun i => (octant k i : ℝ)) js i j
      | some o => weightedObst (penalize J) (fun i => (octant k i : ℝ)) js o.1 o.2 i j
    else 0

/-- PoseQualityExtendedManipulability.cpp 445-457: the volume of one octant. -/
noncomputable def extVolume : List ℝ → ℕ → ℝ
  | [], _ => 0
  | s :: r, k => Real.sqrt ((r.take (k - 1)).foldl (fun a x => a * (x * x)) (s * s))

open Classical in
/-- `if (x < acc) acc = x`. -/
noncomputable def smaller (acc x : ℝ) : ℝ := if x < acc then x else acc

open Classical in
/-- `if (x > acc) acc = x`. -/
noncomputable def larger (acc x : ℝ) : ℝ := if x > acc then x else acc

open Classical in
/-- PoseQualityExtendedManipulability.cpp 469-504: the ratio of one octant; `top` is `FLT_MAX`. -/
noncomputable def extRatio (top : ℝ) (sv : List ℝ) (k : ℕ) : ℝ :=
  let lo := (sv.take k).foldl smaller top
  let hi := (sv.take k).foldl larger 0
  if hi ≠ 0 then lo / hi else 0

/-- PoseQualityExtendedManipulability.cpp 431-522: both measures over all octants. -/
noncomputable def extended (top : ℝ) (svs : List (List ℝ)) (first : ℤ) : ℝ × ℝ :=
  let k := considered first (svs.headD []).length
  (svs.foldl (fun acc sv => smaller acc (extVolume sv k)) top,
   svs.foldl (fun acc sv => if 2 ≤ sv.length then smaller acc (extRatio top sv k) else acc) top)

/-- PoseQualityExtendedManipulability.cpp 41-69 `getPoseQuality`, with the six coordinates of 525-562. -/
noncomputable def extQuality (top : ℝ) (svs : List (List ℝ)) (i : Index) (first : ℤ) : ℝ :=
  let r := extended top svs (if first ≤ 0 ∨ first > 6 then 6 else first)
  match i with
  | .multiplySV => r.1
  | .minMaxRatio => r.2

/-! ## Quality maps -/

open Classical in
/-- Manipulability.cpp 72-100: the entry for a pose of quality `m`. -/
noncomputable def entry (maxManip m : ℝ) : ℕ :=
  let s := if m / maxManip > 1 then 1 else m / maxManip
  let s := if m < 0 then 0 else s
  let e := ⌊s * 255 + 1 / 2⌋₊
  if e = 0 then 1 else e

/-- The entries of a map, WorkspaceDataArray.cpp. -/
abbrev Data (V : Type) := V → ℕ

/-- Manipulability.cpp 67-107, one thread: the pose with voxel `v` (`none`: outside) and quality `m`. -/
noncomputable def addPose {V : Type} [DecidableEq V] (maxManip : ℝ) (d : Data V) (x : Option V × ℝ) : Data V :=
  match x.1 with
  | none => d
  | some v => if entry maxManip x.2 > d v then Function.update d v (entry maxManip x.2) else d

/-- Manipulability.cpp 445-465 `getManipulabilityAtPose`. -/
noncomputable def atPose {V : Type} (maxManip : ℝ) (d : Data V) : Option V → ℝ
  | none => 0
  | some v => (d v : ℝ) / 255 * maxManip

/-- A thread of `addRandomTCPPoses`, Manipulability.cpp 760-845: the poses it has still to add, and whether it
is between the comparison and the write of Manipulability.cpp 102-105. -/
structure Worker (V : Type) where
  todo : List (V × ℕ)
  write : Option (V × ℕ)

open Classical in
/-- One step of a thread: it compares its next entry with the map, or writes the entry. The code takes no lock;
the model is kind to it and makes every single access atomic. -/
noncomputable def Worker.step {V : Type} (d : Data V) (w : Worker V) : Data V × Worker V :=
  match w.write with
  | some x => (Function.update d x.1 x.2, ⟨w.todo, none⟩)
  | none => match w.todo with
    | [] => (d, w)
    | x :: r => if x.2 > d x.1 then (d, ⟨r, some x⟩) else (d, ⟨r, none⟩)

/-- The threads take turns in an arbitrary order. -/
noncomputable def run {V : Type} (d : Data V) (ws : ℕ → Worker V) : List ℕ → Data V × (ℕ → Worker V)
  | [] => (d, ws)
  | t :: r => run ((ws t).step d).1 (Function.update ws t ((ws t).step d).2) r

/-- A pair of sets for the distance of the robot to itself, with the vector between them. -/
structure SelfDist (S W : Type) where
  /-- `calculateDistance` of two sets, in the frame of the TCP. -/
  vec : S → S → W

/-- Manipulability.cpp 115-158 `getCurrentManipulability`: the vector handed to the measure (`none`: no
vector). The sets given are completed by the members, but the members are used. -/
def selfDistVector {S W : Type} (sd : SelfDist S W) (consider : Bool) (member : Option S × Option S)
    (_given : Option S × Option S) : Option W :=
  match consider, member.1, member.2 with
  | true, some a, some b => some (sd.vec a b)
  | _, _, _ => none

/-- Manipulability.cpp 522-548 `analyseGrasps`: the grasps with a positive quality, best first; `sort` is
`std::sort` followed by `std::reverse`. -/
noncomputable def analyseGrasps {A : Type} (sort : List (ℝ × A) → List (ℝ × A)) (q : A → ℝ) (gs : List A) : List (ℝ × A) :=
  sort (gs.foldl (fun acc g => open Classical in if q g > 0 then acc ++ [(q g, g)] else acc) [])

/-- Manipulability.cpp 677-695 `getReachableGrasps` (names and types of the sets left out); `addGrasp` as in
`Grsp`. -/
def getReachableGrasps {A : Type} [DecidableEq A] (covered : A → Bool) (gs : List A) : List A :=
  gs.foldl (fun acc g => if covered g then acc ++ [g] else acc) []

/-- Manipulability.cpp 602-640: sum and number of the positive entries around a cell. -/
def neighbourhood (xs : List ℕ) : ℕ × ℕ :=
  xs.foldl (fun acc e => if e > 0 then (acc.1 + e, acc.2 + 1) else acc) (0, 0)

/-- Manipulability.cpp 642-652: the new entry of an inner cell, `old` its entry, `xs` the entries of the cells
around it and its own. -/
def smoothed (minNeighbors old : ℕ) (xs : List ℕ) : ℕ :=
  let n := neighbourhood xs
  if n.2 ≥ (if minNeighbors ≤ 0 then 1 else minNeighbors) then
    if n.1 / n.2 > 0 then n.1 / n.2 else old
  else old

/-- The offsets of Manipulability.cpp 604-640. -/
def offsets : List (Fin 6 → ℤ) :=
  (List.range (3 ^ 6)).map fun k i => ((k / 3 ^ (5 - i.val)) % 3 : ℕ) - (1 : ℤ)

/-- Manipulability.cpp 562-674 `smooth`: all inner cells of a map with `size` cells in each dimension; the new
entries are computed from the old ones. -/
def smooth (minNeighbors : ℕ) (size : Fin 6 → ℕ) (d : (Fin 6 → ℤ) → ℕ) : (Fin 6 → ℤ) → ℕ :=
  fun c => if ∀ i, 1 ≤ c i ∧ c i < (size i : ℤ) - 1 then smoothed minNeighbors (d c) (offsets.map fun o => d (c + o))
    else d c

end Simox.Mnp
