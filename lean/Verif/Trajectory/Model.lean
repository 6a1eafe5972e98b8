import Verif.CSpace.Model
import Mathlib.Analysis.Normed.Module.Basic

/-!
# Model of `Trajectory` (VirtualRobot/Trajectory.cpp) and of the length of a `CSpacePath`

Points are elements of a real normed space `E` (the C++ code uses `Eigen::VectorXf` with the
Euclidean norm; all points of a trajectory have the dimension of the node set, which the type
enforces). `float` is `ℝ`.
-/

namespace Simox.Trajectory

open Simox.CSpace

variable {E : Type}

/-! ## Reading -/

/-- `Trajectory::getPoint`, Trajectory.cpp 51-70. -/
def getPoint [Zero E] (path : List E) (nr : Nat) : E :=
  if nr ≥ path.length then
    if path.length > 0 then path[path.length - 1]?.getD 0 else 0
  else path[nr]?.getD 0

/-- `Trajectory::addPoint`, Trajectory.cpp 38-42. -/
def addPoint (path : List E) (c : E) : List E := path ++ [c]

/-- The loop `for (i = s; i <= e; i++) addPoint(getPoint(i))` shared by `clone` (73-83),
`createSubPath` (94-97) and `getPoints` (113-121); `k` is the number of rounds left. -/
def copyLoop [Zero E] (path : List E) : Nat → Nat → List E → List E
  | 0, _, acc => acc
  | k + 1, i, acc => copyLoop path k (i + 1) (addPoint acc (getPoint path i))

/-- `Trajectory::clone`, Trajectory.cpp 73-83. -/
def clone [Zero E] (path : List E) : List E := copyLoop path path.length 0 []

/-- `Trajectory::createSubPath`, Trajectory.cpp 85-101 (`none` = null pointer). -/
def createSubPath [Zero E] (path : List E) (s e : Nat) : Option (List E) :=
  if s ≥ path.length ∨ e ≥ path.length then none
  else some (copyLoop path (e + 1 - s) s [])

/-- `Trajectory::getPoints(start, end, storePosList)`, Trajectory.cpp 105-124: result and the list
after the call. -/
def getPoints [Zero E] (path : List E) (s e : Nat) (store : List E) : Bool × List E :=
  if s > e ∨ e ≥ path.length then (false, store)
  else (true, copyLoop path (e + 1 - s) s store)

/-! ## Editing -/

/-- `std::vector::erase(begin() + pos)` for `pos < size()`. -/
def eraseAt (path : List E) (pos : Nat) : List E := path.take pos ++ path.drop (pos + 1)

/-- `std::vector::insert(begin() + pos, c)` for `pos <= size()`. -/
def insertAt (path : List E) (pos : Nat) (c : E) : List E := path.take pos ++ c :: path.drop pos

/-- `Trajectory::erasePosition`, Trajectory.cpp 127-139. -/
def erasePosition (path : List E) (pos : Nat) : List E :=
  if pos ≥ path.length then path else eraseAt path pos

/-- The loop of `removePositions`, Trajectory.cpp 159-170: the iterator stays at offset `s` while
the vector shrinks; `k` rounds are left. -/
def removeLoop (s : Nat) : Nat → List E → Nat → Nat × List E
  | 0, path, result => (result, path)
  | k + 1, path, result =>
    if s = path.length then (result, path)
    else removeLoop s k (eraseAt path s) (result + 1)

/-- `Trajectory::removePositions`, Trajectory.cpp 142-173: number of removed points, new path. -/
def removePositions (path : List E) (s e : Nat) : Nat × List E :=
  if s ≥ path.length ∨ e ≥ path.length then (0, path)
  else if s > e then (0, path)
  else removeLoop s (e + 1 - s) path 0

/-- `Trajectory::insertPosition(pos, c)`, Trajectory.cpp 176-189. -/
def insertPosition (path : List E) (pos : Nat) (c : E) : List E :=
  if pos > path.length then path else insertAt path pos c

/-- `Trajectory::insertPosition(pos, newConfigurations)`, Trajectory.cpp 191-201. -/
def insertMany (path : List E) (pos : Nat) : List E → List E
  | [] => path
  | c :: cs => insertMany (insertPosition path pos c) (pos + 1) cs

/-- The loop of `insertTrajectory` with a trajectory other than the receiver,
Trajectory.cpp 211-217: `k = i + 1` points are left. -/
def insertTrajLoop [Zero E] (other : List E) (pos : Nat) : Nat → List E → List E
  | 0, path => path
  | k + 1, path => insertTrajLoop other pos k (insertPosition path pos (getPoint other k))

/-- The same loop when the argument is the receiver itself: `getPoint(i)` reads the path that is
being edited. -/
def insertSelfLoop [Zero E] (pos : Nat) : Nat → List E → List E
  | 0, path => path
  | k + 1, path => insertSelfLoop pos k (insertPosition path pos (getPoint path k))

/-- What is passed to `insertTrajectory`. -/
inductive Arg (E : Type) where
  | null
  | self
  | other (path : List E)

/-- `Trajectory::insertTrajectory`, Trajectory.cpp 203-218. -/
def insertTrajectory [Zero E] (path : List E) (pos : Nat) : Arg E → List E
  | .null => path
  | .self => insertSelfLoop pos path.length path
  | .other o => insertTrajLoop o pos o.length path

/-- `Trajectory::reverse`, Trajectory.cpp 322-325 (`std::reverse`). -/
def reverse (path : List E) : List E := path.reverse

/-- `Trajectory::getPointRef(pos) = c`, Trajectory.cpp 351-354: `none` = `std::out_of_range`. -/
def setPointRef (path : List E) (pos : Nat) (c : E) : Option (List E) :=
  if pos < path.length then some (path.set pos c) else none

/-! ## Length and interpolation -/

/-- The loop shared by `Trajectory::getLength` (Trajectory.cpp 327-343) and
`CSpacePath::getLength` (CSpacePath.cpp 132-139): sum of `d path[i] path[i+1]` for `i` from `s`, `k`
rounds. -/
noncomputable def lengthLoop (d : E → E → ℝ) (path : List E) : Nat → Nat → ℝ → ℝ
  | 0, _, acc => acc
  | k + 1, i, acc =>
    match path[i]?, path[i + 1]? with
    | some c1, some c2 => lengthLoop d path k (i + 1) (acc + d c1 c2)
    | _, _ => acc

/-- `Trajectory::getLength`, Trajectory.cpp 327-343. -/
noncomputable def getLength [NormedAddCommGroup E] (path : List E) : ℝ :=
  lengthLoop (fun c1 c2 => ‖c2 - c1‖) path (path.length - 1) 0 0

/-- `CSpacePath::getLength(startIndex, endIndex, useCSpaceWeights)`, CSpacePath.cpp 119-143. -/
noncomputable def cspaceRangeLength {n : Nat} (S : Space n) (path : List (Config n)) (s e : Nat)
    (w : Bool) : ℝ :=
  if e < s ∨ e ≥ path.length then 0
  else lengthLoop (fun c1 c2 => S.calcDist c1 c2 w) path (e - s) s 0

/-- `CSpacePath::getLength(useCSpaceWeights)`, CSpacePath.cpp 112-115; for an empty path the end
index `(unsigned)-1` is out of range. -/
noncomputable def cspaceLength {n : Nat} (S : Space n) (path : List (Config n)) (w : Bool) : ℝ :=
  if path.length = 0 then 0 else cspaceRangeLength S path 0 (path.length - 1) w

section
variable [NormedAddCommGroup E]

open Classical in
/-- The segment search of `interpolate`, Trajectory.cpp 281-289: `startIndex`, `c1`, `c2`,
`actLength`, `lastLength`. -/
noncomputable def segSearch (path : List E) (wanted : ℝ) (i : Nat) (c1 c2 : E) (act last : ℝ) :
    Nat × E × E × ℝ × ℝ :=
  if act < wanted ∧ i < path.length - 1 then
    let p := getPoint path (i + 1)
    segSearch path wanted (i + 1) c2 p (act + ‖p - c2‖) ‖p - c2‖
  else (i, c1, c2, act, last)
  termination_by path.length - i

/-- The clamping of `t`, Trajectory.cpp 226-243. -/
noncomputable def clampT (t : ℝ) : ℝ :=
  if t < 0 ∨ t > 1 then
    let t' := if t < 0 then 0 else t
    if t' > 1 then 1 else t'
  else t

variable [NormedSpace ℝ E]

/-- `Trajectory::interpolate(t, storePathPos, storeIndex)`, Trajectory.cpp 222-320: position and
index; `none` for an empty path (the position is left uninitialised). `startIndex--` wraps around
below zero and is then stored in an `int`, which gives `-1`. -/
noncomputable def interpolate (path : List E) (t : ℝ) : Option (E × Int) :=
  let t := clampT t
  if path.length = 0 then none
  else if t = 0 then some (getPoint path 0, 0)
  else if t = 1 then some (getPoint path (path.length - 1), (path.length : Int) - 1)
  else
    let wanted := getLength path * t
    let r := segSearch path wanted 0 (getPoint path 0) (getPoint path 0) 0 0
    let c1 := r.2.1
    let c2 := r.2.2.1
    let last := r.2.2.2.2
    let act := r.2.2.2.1 - last
    let rest := wanted - act
    let factor := if last > 0 then rest / last else 0
    let factor := if factor > 1 then 1 else factor
    some (c1 + factor • (c2 - c1), (r.1 : Int) - 1)
end

/-! ## Histories of edits -/

/-- The editing calls of the class. -/
inductive Op (E : Type) where
  | add (c : E)
  | insert (pos : Nat) (c : E)
  | insertMany (pos : Nat) (cs : List E)
  | insertTraj (pos : Nat) (a : Arg E)
  | erase (pos : Nat)
  | remove (s e : Nat)
  | reverse
  | reset
  | setRef (pos : Nat) (c : E)

/-- Effect of one editing call on the path (a throwing `getPointRef` changes nothing). -/
def step [Zero E] (path : List E) : Op E → List E
  | .add c => addPoint path c
  | .insert p c => insertPosition path p c
  | .insertMany p cs => Trajectory.insertMany path p cs
  | .insertTraj p a => insertTrajectory path p a
  | .erase p => erasePosition path p
  | .remove s e => (removePositions path s e).2
  | .reverse => Trajectory.reverse path
  | .reset => []
  | .setRef p c => (setPointRef path p c).getD path

/-- A history of edits of a fresh trajectory. -/
def run [Zero E] (ops : List (Op E)) : List E := ops.foldl step []

end Simox.Trajectory
