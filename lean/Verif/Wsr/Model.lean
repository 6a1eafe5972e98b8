import Verif.Workspace.Model
import Verif.Jac.Model
import Mathlib.Algebra.Order.Floor.Ring

/-!
# Workspace representations

Models `VirtualRobot/Workspace/WorkspaceRepresentation.cpp` on top of the voxel store of
`Verif.Workspace.Model`: the addressing of voxels, the recording of poses, the queries, the bounding box
and the cuts.

Simplifications: floats are reals, and the conversion of a float to an `int` never overflows; poses are
rigid transformations (`Verif.Jac.Model`); the conversion between rotations and the three orientation
coordinates is a parameter (`Coords`, no particular conversion is assumed); a representation here has its
voxel data, that is, it has been initialised or loaded (without data the calls throw or dereference a null
pointer).
-/

namespace Simox.Wsr

open Workspace Jac Kin

/-- The conversion `(int)x` of a float: truncation towards zero. -/
noncomputable def toInt (x : ℝ) : ℤ := if 0 ≤ x then ⌊x⌋ else ⌈x⌉

/-- `FLT_MAX`. -/
noncomputable def fltMax : ℝ := 340282346638528859811704183484516925440

/-- Component `i` of an index array `unsigned int v[6]`. -/
def at6 (v : Vox) : Fin 6 → Nat
  | 0 => v.a
  | 1 => v.b
  | 2 => v.c
  | 3 => v.d
  | 4 => v.e
  | 5 => v.f

/-- The members of a workspace representation (WorkspaceRepresentation.h) that the functions below use. -/
structure Rep where
  lo : Fin 6 → ℝ
  hi : Fin 6 → ℝ
  space : Fin 6 → ℝ
  num : Fin 6 → ℤ
  stepT : ℝ
  stepR : ℝ
  achLo : Fin 6 → ℝ
  achHi : Fin 6 → ℝ
  loops : Nat
  collisions : Nat
  data : WDA

/-- Step size of a dimension: translation for the first three (1183-1190). -/
noncomputable def stepOf (stepT stepR : ℝ) (i : Fin 6) : ℝ := if i.1 < 3 then stepT else stepR

/-- `numVoxels[i]`, WorkspaceRepresentation.cpp 1183-1190. -/
noncomputable def voxelCount (stepT stepR : ℝ) (lo hi : Fin 6 → ℝ) (i : Fin 6) : ℤ :=
  toInt ((hi i - lo i) / stepOf stepT stepR i) + 1

/-- The sizes passed to the voxel store, 1195. -/
def sizesOf (num : Fin 6 → ℤ) : Vox :=
  ⟨(num 0).toNat, (num 1).toNat, (num 2).toNat, (num 3).toNat, (num 4).toNat, (num 5).toNat⟩

open Classical in
/-- `initialize`, WorkspaceRepresentation.cpp 1125-1198; `none` is an exception. `nodesOk` stands for the
checks on node set, tcp, base node and collision models (1141-1173); `customInitialize` is empty. -/
noncomputable def initialize' (nodesOk : Bool) (stepT stepR : ℝ) (lo hi : Fin 6 → ℝ) (adjust : Bool) :
    Option Rep :=
  if stepT ≤ 0 ∨ stepR ≤ 0 then none
  else if ∃ i, hi i ≤ lo i then none
  else if nodesOk = false then none
  else if ∃ i, voxelCount stepT stepR lo hi i ≤ 0 then none
  else some
    { lo := lo, hi := hi
      space := fun i => hi i - lo i
      num := voxelCount stepT stepR lo hi
      stepT := stepT, stepR := stepR
      achLo := fun _ => fltMax, achHi := fun _ => -fltMax
      loops := 0, collisions := 0
      data := Workspace.new (sizesOf (voxelCount stepT stepR lo hi)) adjust }

/-! ## Voxel addresses -/

/-- `getVoxelSize(dim)` for `0 ≤ dim < 6`, 680-693. (The check accepts `dim = 6` as well and then reads
past the arrays.) -/
noncomputable def getVoxelSize (r : Rep) (i : Fin 6) : ℝ :=
  if r.num i ≤ 0 then 0 else r.space i / r.num i

/-- The loop body of `getVoxelFromPose(float[6], unsigned[6])`, 807-828. -/
noncomputable def axisVoxel (r : Rep) (i : Fin 6) (x : ℝ) : Option Nat :=
  let pos := (x - r.lo i) / r.space i * r.num i
  let a := toInt pos
  if a < 0 then
    if a = -1 ∧ |(a : ℝ) - pos| < 1 / 2 then some 0 else none
  else if a ≥ r.num i then
    if a = r.num i ∧ |(a : ℝ) - pos| < 1 / 2 then some (r.num i - 1).toNat else none
  else some a.toNat

/-- `getVoxelFromPose(float[6], unsigned[6])`, 800-831; `none` is the result `false`. -/
noncomputable def getVoxelFromPose (r : Rep) (x : Fin 6 → ℝ) : Option Vox := do
  let a ← axisVoxel r 0 (x 0)
  let b ← axisVoxel r 1 (x 1)
  let c ← axisVoxel r 2 (x 2)
  let d ← axisVoxel r 3 (x 3)
  let e ← axisVoxel r 4 (x 4)
  let f ← axisVoxel r 5 (x 5)
  return ⟨a, b, c, d, e, f⟩

/-- The loop body of `getVoxelFromPosition(float[3], unsigned[3])`, 850-860. -/
noncomputable def axisPosition (r : Rep) (i : Fin 6) (x : ℝ) : Option Nat :=
  let a := toInt ((x - r.lo i) / r.space i * r.num i)
  if a < 0 then none else if a ≥ r.num i then none else some a.toNat

/-- `getVoxelFromPosition(float[3], unsigned[3])`, 844-864. -/
noncomputable def getVoxelFromPosition (r : Rep) (x y z : ℝ) : Option (Nat × Nat × Nat) := do
  let a ← axisPosition r 0 x
  let b ← axisPosition r 1 y
  let c ← axisPosition r 2 z
  return (a, b, c)

/-- The coordinates in `getPoseFromVoxel(float[6])`, 1317-1324. -/
noncomputable def coordsOf (r : Rep) (v : Fin 6 → ℝ) : Fin 6 → ℝ :=
  fun j => r.lo j + v j * getVoxelSize r j

/-- The coordinates in `getPoseFromVoxel(unsigned[6], bool)`, 1228-1238: those of `v + 0.5`. Also 1357-1360. -/
noncomputable def centre (r : Rep) (v : Vox) : Fin 6 → ℝ :=
  coordsOf r fun j => (at6 v j : ℝ) + 1 / 2

open Classical in
/-- `getPoseFromVoxel(unsigned x[6], float v[6])`, 1240-1262. -/
noncomputable def getPoseFromVoxel (r : Rep) (v : Vox) : Option (Fin 6 → ℝ) :=
  if ∃ i, (at6 v i : ℤ) ≥ r.num i then none
  else some fun i => (at6 v i : ℝ) * r.space i / r.num i + r.lo i + stepOf r.stepT r.stepR i / 2

/-! ## Poses -/

/-- Conversion between rotations and the coordinates 3-5: the `orientationType` cases of `matrix2Vector`
and `vector2Matrix`, 1946-2106. -/
structure Coords where
  rot : SO3 → Fin 3 → ℝ
  unrot : (Fin 3 → ℝ) → SO3

/-- `matrix2Vector`, 1946-2004. -/
noncomputable def matrix2Vector (c : Coords) (p : Pose3) : Fin 6 → ℝ :=
  ![p.pos 0, p.pos 1, p.pos 2, c.rot p.rot 0, c.rot p.rot 1, c.rot p.rot 2]

/-- `vector2Matrix`, 2023-2094. -/
noncomputable def vector2Matrix (c : Coords) (x : Fin 6 → ℝ) : Pose3 :=
  ⟨c.unrot ![x 3, x 4, x 5], ![x 0, x 1, x 2]⟩

/-- `toLocal`, 710-739; `base` is the global pose of the base node, if there is one. -/
noncomputable def toLocal (base : Option Pose3) (p : Pose3) : Pose3 :=
  match base with
  | none => p
  | some b => b⁻¹ * p

/-- `toGlobal`, 722-745. -/
noncomputable def toGlobal (base : Option Pose3) (p : Pose3) : Pose3 :=
  match base with
  | none => p
  | some b => b * p

/-- `toGlobalVec`, 757-764. -/
noncomputable def toGlobalVec (base : Option Pose3) (v : V3) : V3 := (toGlobal base ⟨1, v⟩).pos

/-- The coordinates of a global pose: `toLocal` and `matrix2Vector`, e.g. 833-840. -/
noncomputable def local6 (c : Coords) (base : Option Pose3) (p : Pose3) : Fin 6 → ℝ :=
  matrix2Vector c (toLocal base p)

/-! ## Recording -/

open Classical in
/-- "check for achieved values", 777-788, 947-958, 1865-1876. -/
noncomputable def achieve (x : Fin 6 → ℝ) (r : Rep) : Rep :=
  { r with
    achLo := fun i => if x i < r.achLo i then x i else r.achLo i
    achHi := fun i => if x i > r.achHi i then x i else r.achHi i }

/-- `data->get(x, this)`, WorkspaceDataArray.cpp 226-236. -/
noncomputable def dataGet (r : Rep) (x : Fin 6 → ℝ) : Option Nat :=
  match getVoxelFromPose r x with
  | some v => Workspace.get r.data v
  | none => some 0

/-- `data->setDatum(x, value, this)`, WorkspaceDataArray.cpp 153-162. -/
noncomputable def dataSet (r : Rep) (x : Fin 6 → ℝ) (value : Nat) : Option WDA :=
  match getVoxelFromPose r x with
  | some v => setDatum r.data v value
  | none => some r.data

/-- `data->increaseDatum(x, this)`, WorkspaceDataArray.cpp 424-433. -/
noncomputable def dataIncrease (r : Rep) (x : Fin 6 → ℝ) : Option WDA :=
  match getVoxelFromPose r x with
  | some v => increaseDatum r.data v
  | none => some r.data

/-- `addPose(globalPose)`, 937-965, on local coordinates. -/
noncomputable def addPose (x : Fin 6 → ℝ) (r : Rep) : Option Rep := do
  let r := achieve x r
  let d ← dataIncrease r x
  return { r with data := d, loops := r.loops + 1 }

/-- `setCurrentTCPPoseEntryIfLower(e)`, 766-798, on the local coordinates of the tcp. -/
noncomputable def setEntryIfLower (x : Fin 6 → ℝ) (e : Nat) (r : Rep) : Option Rep := do
  let r := achieve x r
  let old ← dataGet r x
  let d ← if old < e then dataSet r x e else some r.data
  return { r with data := d, loops := r.loops + 1 }

/-- `setEntryCheckNeighbors(pose, e, n)`, 1856-1906; `setEntry` (1851-1854) is the case `n = 0`. -/
noncomputable def setEntryCheckNeighbors (x : Fin 6 → ℝ) (e n : Nat) (r : Rep) : Option Rep := do
  let r := achieve x r
  let d ← match getVoxelFromPose r x with
    | some v => setDatumCheckNeighbors r.data v e n
    | none => some r.data
  return { r with data := d, loops := r.loops + 1 }

/-- `setVoxelEntry(v, e)`, 1504-1508. -/
def setVoxelEntry (v : Vox) (e : Nat) (r : Rep) : Option Rep := do
  let d ← setDatum r.data v e
  return { r with data := d, loops := r.loops + 1 }

/-- `binarize`, 1200-1206. -/
def binarizeRep (r : Rep) : Option Rep := do
  let d ← Workspace.binarize r.data
  return { r with data := d }

/-- `clear`, 1928-1939. -/
noncomputable def clearRep (r : Rep) : Rep :=
  { r with
    data := Workspace.clear r.data
    loops := 0, collisions := 0
    achLo := fun _ => fltMax, achHi := fun _ => -fltMax }

/-- `clone`, 2113-2141: all members are copied, the voxel data by `WorkspaceData::clone`. -/
def cloneRep (r : Rep) : Rep := { r with data := Workspace.clone r.data }

/-- `getEntry(globalPose)`, 1208-1225, on local coordinates. -/
noncomputable def getEntry (r : Rep) (x : Fin 6 → ℝ) : Option Nat := dataGet r x

/-- `isCovered(globalPose)`, 1492-1495. -/
noncomputable def isCovered (r : Rep) (x : Fin 6 → ℝ) : Option Bool :=
  (getEntry r x).map fun e => decide (e > 0)

/-! ## fillHoles -/

/-- `x` with component `i` decreased or increased, 1402-1420. -/
def bump (f : Nat → Nat) (v : Vox) : Fin 6 → Vox
  | 0 => { v with a := f v.a }
  | 1 => { v with b := f v.b }
  | 2 => { v with c := f v.c }
  | 3 => { v with d := f v.d }
  | 4 => { v with e := f v.e }
  | 5 => { v with f := f v.f }

/-- The twelve neighbours of a voxel in the order in which they are looked at, 1400-1421. -/
def twelve (v : Vox) : List Vox :=
  [bump (· - 1) v 0, bump (· + 1) v 0, bump (· - 1) v 1, bump (· + 1) v 1,
   bump (· - 1) v 2, bump (· + 1) v 2, bump (· - 1) v 3, bump (· + 1) v 3,
   bump (· - 1) v 4, bump (· + 1) v 4, bump (· - 1) v 5, bump (· + 1) v 5]

/-- Sum and number of the covered ones, 1404-1418. -/
def sumCovered (w : WDA) : List Vox → Option (Nat × Nat)
  | [] => some (0, 0)
  | v :: vs => do
    let e ← Workspace.get w v
    let sc ← sumCovered w vs
    return if e > 0 then (e + sc.1, sc.2 + 1) else sc

/-- The indices of the nested loops `for (x[i] = 1; x[i] < numVoxels[i] - 1; x[i]++)`, 1388-1393. -/
def interior (s : Vox) : List Vox :=
  (List.range' 1 (s.a - 1 - 1)).flatMap fun a => (List.range' 1 (s.b - 1 - 1)).flatMap fun b =>
  (List.range' 1 (s.c - 1 - 1)).flatMap fun c => (List.range' 1 (s.d - 1 - 1)).flatMap fun d =>
  (List.range' 1 (s.e - 1 - 1)).flatMap fun e =>
    (List.range' 1 (s.f - 1 - 1)).map fun f => ⟨a, b, c, d, e, f⟩

/-- Loop body of `fillHoles`, 1394-1431; `w` is the data, the accumulator the new data and `res`.
The number of neighbours is compared as `int`; a division by zero is undefined (`none`). -/
def fillStep (w : WDA) (minNeighbors : Nat) (acc : WDA × Nat) (v : Vox) : Option (WDA × Nat) := do
  let e ← Workspace.get w v
  if e > 0 then
    let sc ← sumCovered w (twelve v)
    if (sc.2 : ℤ) ≥ i32 minNeighbors then
      if sc.2 = 0 then none
      else
        let nw ← setDatum acc.1 v ((sc.1 / sc.2) % 256)
        return (nw, acc.2 + 1)
    else return acc
  else return acc

/-- The loops of `fillHoles`. -/
def fillLoop (w : WDA) (minNeighbors : Nat) : List Vox → WDA × Nat → Option (WDA × Nat)
  | [], acc => some acc
  | v :: vs, acc => (fillStep w minNeighbors acc v).bind (fillLoop w minNeighbors vs)

/-- `fillHoles(minNeighbors)`, 1375-1435. -/
def fillHoles (minNeighbors : Nat) (r : Rep) : Option (Rep × Nat) := do
  let m := if minNeighbors = 0 then 1 else minNeighbors
  let acc ← fillLoop r.data m (interior (sizesOf r.num)) (Workspace.clone r.data, 0)
  return ({ r with data := acc.1 }, acc.2)

/-! ## Histories -/

/-- The recording calls. Poses are given by their local coordinates. -/
inductive Call where
  | addPose (x : Fin 6 → ℝ)
  | setIfLower (x : Fin 6 → ℝ) (e : Nat)
  | setEntry (x : Fin 6 → ℝ) (e n : Nat)
  | setVoxel (v : Vox) (e : Nat)
  | binarize
  | fillHoles (minNeighbors : Nat)
  | clear
  | goOnWithClone

/-- One call; `none` is undefined behaviour. -/
noncomputable def callStep (r : Rep) : Call → Option Rep
  | .addPose x => addPose x r
  | .setIfLower x e => setEntryIfLower x e r
  | .setEntry x e n => setEntryCheckNeighbors x e n r
  | .setVoxel v e => setVoxelEntry v e r
  | .binarize => binarizeRep r
  | .fillHoles m => (fillHoles m r).map Prod.fst
  | .clear => some (clearRep r)
  | .goOnWithClone => some (cloneRep r)

/-- A history of calls. -/
noncomputable def runCalls (r : Rep) : List Call → Option Rep
  | [] => some r
  | c :: cs => (callStep r c).bind (runCalls · cs)

/-! ## Queries -/

/-- `getVoxelEntry`, 1458-1467: the indices are compared as `int`. -/
def getVoxelEntry (r : Rep) (v : Vox) : Option Nat :=
  if i32 v.a ≥ r.num 0 ∨ i32 v.b ≥ r.num 1 ∨ i32 v.c ≥ r.num 2 ∨ i32 v.d ≥ r.num 3 ∨
      i32 v.e ≥ r.num 4 ∨ i32 v.f ≥ r.num 5 then some 0
  else Workspace.get r.data v

/-- All orientations of a position, in loop order. -/
def rotations (s : Vox) (x y z : Nat) : List Vox :=
  (voxels { s with a := 1, b := 1, c := 1 }).map fun q => ⟨x, y, z, q.d, q.e, q.f⟩

/-- `sumAngleReachabilities`, 37-59. The loops use `numVoxels`, here the sizes of the data. -/
def sumAngles (r : Rep) (x y z : Nat) : Option Nat :=
  if hasEntry r.data x y z then sumOpt ((rotations (sizesOf r.num) x y z).map (Workspace.get r.data))
  else some 0

/-- `avgAngleReachabilities`, 61-84. -/
def avgAngles (r : Rep) (x y z : Nat) : Option Nat :=
  (sumAngles r x y z).map fun s =>
    s / ((sizesOf r.num).d * (sizesOf r.num).e * (sizesOf r.num).f)

/-- Running maximum of optional values (`if (value >= maxValue) maxValue = value`). -/
def maxOpt : Nat → List (Option Nat) → Option Nat
  | m, [] => some m
  | m, o :: os => do
    let value ← o
    maxOpt (if value ≥ m then value else m) os

/-- `getMaxEntry(x0, x1, x2)`, 656-678. -/
def getMaxEntryAt (r : Rep) (x y z : Nat) : Option Nat :=
  maxOpt 0 ((rotations (sizesOf r.num) x y z).map (Workspace.get r.data))

/-- `getMaxEntry(position_global)`, 637-654, on local coordinates. -/
noncomputable def getMaxEntryPos (r : Rep) (x y z : ℝ) : Option Nat :=
  match getVoxelFromPosition r x y z with
  | none => some 0
  | some (a, b, c) => getMaxEntryAt r a b c

/-- The positions of a grid in loop order. -/
def positions (s : Vox) : List Vox := voxels { s with d := 1, e := 1, f := 1 }

/-- `getMaxSummedAngleReachablity`, 1469-1490. -/
def getMaxSummed (r : Rep) : Option Nat :=
  maxOpt 0 ((positions (sizesOf r.num)).map fun v => sumAngles r v.a v.b v.c)

/-- The six neighbours of a position, 1289-1300. -/
def faces (v : Vox) : List (Nat × Nat × Nat) :=
  [(v.a - 1, v.b, v.c), (v.a + 1, v.b, v.c), (v.a, v.b - 1, v.c), (v.a, v.b + 1, v.c),
   (v.a, v.b, v.c - 1), (v.a, v.b, v.c + 1)]

/-- Number of `some 0` entries; `none` if one is undefined. -/
def countZero : List (Option Nat) → Option Nat
  | [] => some 0
  | o :: os => do
    let x ← o
    let n ← countZero os
    return if x = 0 then n + 1 else n

/-- Loop body of `computeVolumeInformation`, 1279-1304, on the pair
`(filledVoxelCount3D, borderVoxelCount3D)`. -/
def volumeStep (r : Rep) (acc : Nat × Nat) (v : Vox) : Option (Nat × Nat) := do
  let value ← sumAngles r v.a v.b v.c
  if value > 0 then
    if v.a = 0 ∨ v.b = 0 ∨ v.c = 0 ∨ (v.a : ℤ) = r.num 0 - 1 ∨ (v.b : ℤ) = r.num 1 - 1 ∨
        (v.c : ℤ) = r.num 2 - 1 then return (acc.1 + 1, acc.2 + 1)
    else
      let n ← countZero ((faces v).map fun p => sumAngles r p.1 p.2.1 p.2.2)
      if n ≥ 1 then return (acc.1 + 1, acc.2 + 1) else return (acc.1 + 1, acc.2)
  else return acc

/-- The loops of `computeVolumeInformation`, 1273-1307. -/
def volumeLoop (r : Rep) : List Vox → Nat × Nat → Option (Nat × Nat)
  | [], acc => some acc
  | v :: vs, acc => (volumeStep r acc v).bind (volumeLoop r vs)

/-- `VolumeInfo`, WorkspaceRepresentation.h. -/
structure VolumeInfo where
  voxelCount : ℤ
  filled : Nat
  border : Nat
  volumeVoxel : ℝ
  volumeFilled : ℝ
  volume : ℝ

/-- `computeVolumeInformation`, 1264-1315. -/
noncomputable def computeVolumeInformation (r : Rep) : Option VolumeInfo := do
  let fb ← volumeLoop r (positions (sizesOf r.num)) (0, 0)
  let discrM := r.stepT * (1 / 1000)
  let voxelVolume := discrM * discrM * discrM
  return { voxelCount := r.num 0 * r.num 1 * r.num 2, filled := fb.1, border := fb.2,
           volumeVoxel := voxelVolume, volumeFilled := fb.1 * voxelVolume,
           volume := (fb.1 - 1 / 2 * fb.2) * voxelVolume }

/-! ## Sampling -/

/-- `sampleCoveredPose`, 1338-1373, without the conversion to a global pose: `rnd` are the values of
`rand() % numVoxels[j]`, one index per round; `none` inside is "Could not find a valid pose". -/
noncomputable def sampleCovered (r : Rep) : List Vox → Option (Option (Fin 6 → ℝ))
  | [] => some none
  | v :: vs => do
    let e ← Workspace.get r.data v
    if e > 0 then return some (centre r v) else sampleCovered r vs

/-! ## Extents and cuts -/

/-- Corner `i` of the box of positions, 1733-1761. -/
noncomputable def corner (r : Rep) (i : Nat) : V3 :=
  ![if i % 2 = 0 then r.lo 0 else r.hi 0, if (i / 2) % 2 = 0 then r.lo 1 else r.hi 1,
    if (i / 4) % 2 = 0 then r.lo 2 else r.hi 2]

/-- `quadPos`, 1730-1766. -/
noncomputable def quadPos (r : Rep) (base : Option Pose3) : List V3 :=
  (List.range 8).map fun i => toGlobalVec base (corner r i)

open Classical in
/-- Loop body of 1771-1785. -/
noncomputable def growBox (box : V3 × V3) (q : V3) : V3 × V3 :=
  (fun i => if q i < box.1 i then q i else box.1 i, fun i => if q i > box.2 i then q i else box.2 i)

/-- `getWorkspaceExtends`, 1728-1788. -/
noncomputable def getWorkspaceExtends (r : Rep) (base : Option Pose3) : V3 × V3 :=
  (quadPos r base).foldl growBox (toGlobalVec base (corner r 0), toGlobalVec base (corner r 0))

/-- `WorkspaceCut2D`, WorkspaceRepresentation.h: `entries` is a matrix of `nX` rows and `nY` columns. -/
structure Cut where
  reference : Pose3
  loX : ℝ
  hiX : ℝ
  loY : ℝ
  hiY : ℝ
  nX : Nat
  nY : Nat
  entries : Nat → Nat → Option Nat

/-- The pose at which cell `(a, b)` of a cut is evaluated, 1638-1642. -/
noncomputable def cellPose (reference : Pose3) (box : V3 × V3) (cellSize : ℝ) (a b : Nat) : Pose3 :=
  ⟨reference.rot, ![box.1 0 + a * cellSize + 1 / 2 * cellSize, box.1 1 + b * cellSize + 1 / 2 * cellSize,
    reference.pos 2]⟩

/-- `createCut(referencePose, cellSize, sumAngles)`, 1607-1662; `none` is an exception. -/
noncomputable def createCut (c : Coords) (base : Option Pose3) (r : Rep) (reference : Pose3)
    (cellSize : ℝ) (sum : Bool) : Option Cut :=
  let box := getWorkspaceExtends r base
  if cellSize ≤ 0 then none
  else some
    { reference := reference, loX := box.1 0, hiX := box.2 0, loY := box.1 1, hiY := box.2 1
      nX := (toInt ((box.2 0 - box.1 0) / cellSize)).toNat
      nY := (toInt ((box.2 1 - box.1 1) / cellSize)).toNat
      entries := fun a b =>
        let x := local6 c base (cellPose reference box cellSize a b)
        if sum then
          match getVoxelFromPose r x with
          | none => some 0
          | some v => sumAngles r v.a v.b v.c
        else getEntry r x }

/-- `createCut(heightPercent, cellSize, sumAngles)`, 1697-1727. -/
noncomputable def createCutHeight (c : Coords) (base : Option Pose3) (r : Rep) (height cellSize : ℝ)
    (sum : Bool) : Option Cut :=
  if cellSize ≤ 0 then none
  else if height < 0 ∨ height > 1 then none
  else
    let box := getWorkspaceExtends r base
    let ref := toGlobal base 1
    createCut c base r ⟨ref.rot, ![ref.pos 0, ref.pos 1, box.1 2 + height * (box.2 2 - box.1 2)]⟩ cellSize sum

/-- The pose in `createCutTransformations` for cell `(x, y)`, 1802-1803 and 1815-1819. -/
noncomputable def cutPose (cut : Cut) (x y : Nat) : Pose3 :=
  let sizeX := (cut.hiX - cut.loX) / cut.nX
  let sizeY := (cut.hiY - cut.loY) / cut.nY
  ⟨cut.reference.rot, ![cut.loX + x * sizeX + 1 / 2 * sizeX, cut.loY + y * sizeY + 1 / 2 * sizeY,
    cut.reference.pos 2]⟩

/-- `createCutTransformations(cut, node)`, 1790-1832: value and pose of every cell with a positive entry;
`node` is the global pose of the reference node. -/
noncomputable def createCutTransformations (cut : Cut) (node : Option Pose3) : List (Nat × Pose3) :=
  (List.range cut.nX).flatMap fun x => (List.range cut.nY).filterMap fun y =>
    match cut.entries x y with
    | none => none
    | some v =>
      if v > 0 then some (v, match node with
        | none => cutPose cut x y
        | some n => n⁻¹ * cutPose cut x y)
      else none

end Simox.Wsr
