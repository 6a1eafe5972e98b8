import Mathlib.Algebra.Order.Field.Basic
import Mathlib.Algebra.Order.Floor.Ring
import Verif.Mc.Tables

/-!
# Marching cubes: model

Models `VirtualRobot/math/Array3D.h`, `GridCacheFloat3.cpp`, `MarchingCubes.cpp` and `Triangle::Transform`.

Numbers are elements of an ordered field instead of floats. Indices are integers without overflow. `none` stands for an
exception of `std::vector::at`, for a read of a vertex that was never set, or for a read past a row of a table.
-/

namespace Simox.Mc

/-- Index3.h 33-52 `Index3`. -/
abbrev Index := Int × Int × Int

/-! ## Array3D -/

/-- Array3D.h 31-74. -/
structure Array3D (α : Type) where
  size : Int
  data : List α

variable {α : Type}

/-- Array3D.h 35-40 `Array3D(size)`: all elements have the default value of the type. -/
def Array3D.make (dflt : α) (size : Int) : Array3D α := ⟨size, List.replicate (size * size * size).toNat dflt⟩

/-- Array3D.h 51-53: the position of an element in the vector. -/
def Array3D.offset (a : Array3D α) (i j k : Int) : Int := i + a.size * j + a.size * a.size * k

/-- Array3D.h 49-55 `Get(i, j, k)`. The conversion of a negative number to `size_t` gives one that is too large. -/
def Array3D.get (a : Array3D α) (i j k : Int) : Option α :=
  if a.offset i j k < 0 then none else a.data[(a.offset i j k).toNat]?

/-- Array3D.h 63-68 `Set(i, j, k, value)`. -/
def Array3D.set (a : Array3D α) (i j k : Int) (value : α) : Option (Array3D α) :=
  if a.offset i j k < 0 ∨ a.data.length ≤ (a.offset i j k).toNat then none
  else some ⟨a.size, a.data.set (a.offset i j k).toNat value⟩

/-! ## GridCacheFloat3 -/

/-- GridCacheFloat3.h 33-41; `K` is the type of the values. -/
structure Cache (K : Type) where
  data : Array3D K
  valid : Array3D Bool

/-- GridCacheFloat3.cpp 29-47, the constructor. The loop that sets all `valid` to false is left out: they are false
already. -/
def Cache.make {K : Type} (zero : K) (size : Int) : Cache K := ⟨Array3D.make zero size, Array3D.make false size⟩

/-- GridCacheFloat3.cpp 50-63 `Get(x, y, z)`: the value, the new state and the indices for which `getData` was called. -/
def Cache.get {K : Type} (getData : Index → K) (c : Cache K) (x y z : Int) : Option (K × Cache K × List Index) :=
  match c.valid.get x y z with
  | none => none
  | some true =>
    match c.data.get x y z with
    | none => none
    | some v => some (v, c, [])
  | some false =>
    let val := getData (x, y, z)
    match c.data.set x y z val with
    | none => none
    | some d =>
      match c.valid.set x y z true with
      | none => none
      | some v => some (val, ⟨d, v⟩, [(x, y, z)])

/-! ## MarchingCubes -/

variable {K : Type} [Field K] [LinearOrder K]

/-- A position in space. -/
abbrev Pos (K : Type) := K × K × K

/-- Triangle.h 53-55, the corners. -/
structure Tri (K : Type) where
  p1 : Pos K
  p2 : Pos K
  p3 : Pos K
deriving DecidableEq

/-- MarchingCubes.cpp 154-176 `GetVal(x, y, z, i)`. `g` stands for `Gdata->Get`, see C84. -/
def getVal (g : Index → K) (x y z : Int) : Nat → K
  | 0 => g (x, y, z)
  | 1 => g (x + 1, y, z)
  | 2 => g (x + 1, y + 1, z)
  | 3 => g (x, y + 1, z)
  | 4 => g (x, y, z + 1)
  | 5 => g (x + 1, y, z + 1)
  | 6 => g (x + 1, y + 1, z + 1)
  | 7 => g (x, y + 1, z + 1)
  | _ => 0

/-- MarchingCubes.cpp 178-181 `GetPos(x, y, z, i)` with the positions set in `Init`, 46-58. -/
def getPos (x y z : Int) : Nat → Pos K
  | 0 => (x, y, z)
  | 1 => (x + 1, y, z)
  | 2 => (x + 1, y + 1, z)
  | 3 => (x, y + 1, z)
  | 4 => (x, y, z + 1)
  | 5 => (x + 1, y, z + 1)
  | 6 => (x + 1, y + 1, z + 1)
  | 7 => (x, y + 1, z + 1)
  | _ => (0, 0, 0)

/-- MarchingCubes.cpp 252-266 `VertexInterp(isolevel, p1, p2, valp1, valp2)`. -/
def vertexInterp (iso : K) (p1 p2 : Pos K) (v1 v2 : K) : Pos K :=
  if |iso - v1| < 1 / 100000 then p1
  else if |iso - v2| < 1 / 100000 then p2
  else if |v1 - v2| < 1 / 100000 then p1
  else
    let mu := (iso - v1) / (v2 - v1)
    (p1.1 + mu * (p2.1 - p1.1), p1.2.1 + mu * (p2.2.1 - p1.2.1), p1.2.2 + mu * (p2.2.2 - p1.2.2))

/-- MarchingCubes.cpp 202-209: a bit of the case for each corner above the level. -/
def cubeIndexOf (b0 b1 b2 b3 b4 b5 b6 b7 : Bool) : Nat :=
  let c := 0
  let c := if b0 then c ||| 1 else c
  let c := if b1 then c ||| 2 else c
  let c := if b2 then c ||| 4 else c
  let c := if b3 then c ||| 8 else c
  let c := if b4 then c ||| 16 else c
  let c := if b5 then c ||| 32 else c
  let c := if b6 then c ||| 64 else c
  let c := if b7 then c ||| 128 else c
  c

/-- MarchingCubes.cpp 202-209: is corner `i` of the cell above the level? -/
def above (g : Index → K) (iso : K) (x y z : Int) (i : Nat) : Bool := decide (getVal g x y z i > iso)

/-- MarchingCubes.cpp 202-209: the case of a cell. -/
def cubeIndex (g : Index → K) (iso : K) (x y z : Int) : Nat :=
  cubeIndexOf (above g iso x y z 0) (above g iso x y z 1) (above g iso x y z 2) (above g iso x y z 3)
    (above g iso x y z 4) (above g iso x y z 5) (above g iso x y z 6) (above g iso x y z 7)

/-- MarchingCubes.cpp 216-239: the corners of the twelve edges, in the order in which they are interpolated. -/
def edgeEnds : Nat → Nat × Nat
  | 0 => (0, 1)
  | 1 => (1, 2)
  | 2 => (2, 3)
  | 3 => (3, 0)
  | 4 => (4, 5)
  | 5 => (5, 6)
  | 6 => (6, 7)
  | 7 => (7, 4)
  | 8 => (0, 4)
  | 9 => (1, 5)
  | 10 => (2, 6)
  | _ => (3, 7)

/-- MarchingCubes.cpp 216-239: the interpolated point of edge `e`. -/
def edgePoint (g : Index → K) (iso : K) (x y z : Int) (e : Nat) : Pos K :=
  vertexInterp iso (getPos x y z (edgeEnds e).1) (getPos x y z (edgeEnds e).2)
    (getVal g x y z (edgeEnds e).1) (getVal g x y z (edgeEnds e).2)

/-- MarchingCubes.cpp 216-239 `vertlist[e]`: `none` if it is not set. -/
def vertlist (g : Index → K) (iso : K) (x y z : Int) (mask : Nat) (e : Nat) : Option (Pos K) :=
  if e < 12 ∧ mask &&& (2 ^ e) > 0 then some (edgePoint g iso x y z e) else none

/-- MarchingCubes.cpp 242-248: the loop over a row of the table. -/
def triLoop (vl : Nat → Option (Pos K)) : List Int → Option (List (Tri K))
  | a :: b :: c :: rest =>
    if a = -1 then some []
    else
      match vl a.toNat, vl b.toNat, vl c.toNat with
      | some p, some q, some r => (triLoop vl rest).map (⟨p, q, r⟩ :: ·)
      | _, _, _ => none
  | a :: _ => if a = -1 then some [] else none
  | [] => none

/-- MarchingCubes.cpp 196-250 `Polygonise(x, y, z, isolevel)`: the triangles of a cell. -/
def polygonise (g : Index → K) (iso : K) (x y z : Int) : Option (List (Tri K)) :=
  match edgeTable[cubeIndex g iso x y z]?, triTable[cubeIndex g iso x y z]? with
  | some mask, some row => if mask = 0 then some [] else triLoop (vertlist g iso x y z mask) row
  | _, _ => none

/-- MarchingCubes.cpp 73-75: the order of the cells. -/
def cells (size : Nat) : List Index :=
  (List.range size).flatMap fun (i : Nat) => (List.range size).flatMap fun (j : Nat) =>
    (List.range size).map fun (k : Nat) => ((i : Int), (j : Int), (k : Int))

/-- MarchingCubes.cpp 69-85 `Process(isolevel, primitive)`, 268-274 `Build`. -/
def process (g : Index → K) (iso : K) : List Index → Option (List (Tri K))
  | [] => some []
  | (x, y, z) :: l =>
    match polygonise g iso x y z, process g iso l with
    | some t, some ts => some (t ++ ts)
    | _, _ => none

/-- MarchingCubes.cpp 191-194 `IsValidIndex(x, y, z)`. -/
def isValidIndex (size : Int) (x y z : Int) : Bool :=
  decide (x ≥ 0 ∧ x < size ∧ y ≥ 0 ∧ y < size ∧ z ≥ 0 ∧ z < size)

/-- MarchingCubes.cpp 183-189 `AddAndMark(x, y, z, fringe, marked)`. -/
def addAndMark (size : Int) (x y z : Int) (s : List Index × Array3D Bool) : Option (List Index × Array3D Bool) :=
  if ¬ isValidIndex size x y z then some s
  else
    match s.2.get x y z with
    | none => none
    | some true => some s
    | some false => (s.2.set x y z true).map fun m => (s.1 ++ [(x, y, z)], m)

/-- MarchingCubes.cpp 117-122: the six neighbours. -/
def addNeighbours (size : Int) (i j k : Int) (s : List Index × Array3D Bool) : Option (List Index × Array3D Bool) :=
  (((((addAndMark size (i + 1) j k s).bind (addAndMark size (i - 1) j k)).bind (addAndMark size i (j + 1) k)).bind
    (addAndMark size i (j - 1) k)).bind (addAndMark size i j (k + 1))).bind (addAndMark size i j (k - 1))

/-- MarchingCubes.cpp 97-101: the variables of the search. -/
structure Search (K : Type) where
  fringe : List Index
  marked : Array3D Bool
  found : Bool
  out : List (Tri K)

/-- MarchingCubes.cpp 104-124: one turn of the loop. -/
def searchStep (g : Index → K) (iso : K) (size : Int) (index : Index) (fringe : List Index) (s : Search K) : Option (Search K) :=
  match polygonise g iso index.1 index.2.1 index.2.2 with
  | none => none
  | some t =>
    let found := if t.length > 0 then true else s.found
    if t.length > 0 ∨ found = false then
      (addNeighbours size index.1 index.2.1 index.2.2 (fringe, s.marked)).map fun r => ⟨r.1, r.2, found, s.out ++ t⟩
    else some ⟨fringe, s.marked, found, s.out ++ t⟩

/-- MarchingCubes.cpp 102-125: the loop; `none` also if `fuel` runs out. -/
def searchLoop (g : Index → K) (iso : K) (size : Int) : Nat → Search K → Option (List (Tri K))
  | 0, _ => none
  | fuel + 1, s =>
    match s.fringe with
    | [] => some s.out
    | index :: fringe => (searchStep g iso size index fringe s).bind (searchLoop g iso size fuel)

/-- MarchingCubes.cpp 95-126 `ProcessSingleSurfaceOptimized(isolevel, primitive, start)`. A start that is not a cell makes
the code throw or read the values of other cells: `none`. -/
def singleSurface (g : Index → K) (iso : K) (size : Int) (start : Index) (fuel : Nat) : Option (List (Tri K)) :=
  if ¬ isValidIndex size start.1 start.2.1 start.2.2 then none
  else
    ((Array3D.make false (size + 1)).set start.1 start.2.1 start.2.2 true).bind fun m =>
      searchLoop g iso size fuel ⟨[start], m, false, []⟩

/-- Triangle.cpp 79-85 `Transform(center, unitLength)`. -/
def Tri.transform (t : Tri K) (center : Pos K) (u : K) : Tri K :=
  let f := fun p : Pos K => (p.1 * u + center.1, p.2.1 * u + center.2.1, p.2.2 * u + center.2.2)
  ⟨f t.p1, f t.p2, f t.p3⟩

/-- The conversion of a float to `int`: towards zero. -/
def truncTo [FloorRing K] (x : K) : Int := if x < 0 then ⌈x⌉ else ⌊x⌋

/-- MarchingCubes.cpp 134-141: the value at a grid point. -/
def sampled (center : Pos K) (steps : Nat) (stepLength : K) (model : Pos K → K) (i : Index) : K :=
  model (((i.1 : K) - steps) * stepLength + center.1, ((i.2.1 : K) - steps) * stepLength + center.2.1,
    ((i.2.2 : K) - steps) * stepLength + center.2.2)

/-- MarchingCubes.cpp 131-132: the cell of the start point. -/
def startIndex [FloorRing K] (center start : Pos K) (steps : Nat) (stepLength : K) : Index :=
  (truncTo ((start.1 - center.1) / stepLength) + steps, truncTo ((start.2.1 - center.2.1) / stepLength) + steps,
    truncTo ((start.2.2 - center.2.2) / stepLength) + steps)

/-- MarchingCubes.cpp 128-151 `Calculate(center, start, steps, stepLength, modelPtr, isolevel)`. -/
def calculate [FloorRing K] (center start : Pos K) (steps : Nat) (stepLength : K) (model : Pos K → K) (iso : K) (fuel : Nat) :
    Option (List (Tri K)) :=
  (singleSurface (sampled center steps stepLength model) iso (2 * steps) (startIndex center start steps stepLength) fuel).map
    fun ts => ts.map fun t => t.transform (-1 * stepLength * steps + center.1, -1 * stepLength * steps + center.2.1,
      -1 * stepLength * steps + center.2.2) stepLength

end Simox.Mc
