/-!
# Model of `VirtualRobot/Workspace/WorkspaceDataArray.{h,cpp}` (with `WorkspaceData.h`)

The six-dimensional voxel store of the workspace representations.

* `unsigned int` index computations are done modulo `2^32` (`u32`), exactly as in C++; the same
  truncation is applied to the allocation sizes (`(unsigned int)sizeTr`).  `voxelFilledCount`
  is a `Nat` (its wrap-around after `2^32` voxels is not modelled).
* Entries, `maxEntry`, `minValidValue` are `unsigned char`: `Nat`s, every operation below keeps them
  `≤ 255` if its arguments are.
* `data` is the pointer array; `none` is `nullptr`, `some blk` a block of `allocRot` bytes.
* Accessing the pointer array or a block outside its allocated size, or dereferencing a null block,
  is undefined behaviour: outcome `none`.
* `new` is assumed to succeed.
-/

namespace Simox.Workspace

/-- 32-bit truncation of `unsigned int` arithmetic. -/
def u32 (n : Nat) : Nat := n % 2 ^ 32

/-- Conversion to `int` (two's complement). -/
def i32 (n : Int) : Int := (n + 2 ^ 31) % 2 ^ 32 - 2 ^ 31

/-- `f` with the value at `p` replaced (an array write). -/
def upd {α : Type} (f : Nat → α) (p : Nat) (x : α) : Nat → α := fun q => if q = p then x else f q

/-- A voxel index `x[6]`; also used for the array `sizes[6]`. -/
structure Vox where
  a : Nat
  b : Nat
  c : Nat
  d : Nat
  e : Nat
  f : Nat
  deriving DecidableEq, Repr

/-- Members of `WorkspaceDataArray` / `WorkspaceData` (WorkspaceDataArray.h 141-145,
WorkspaceData.h 135-139). `sizeTr0`... are functions of `sizes`, see below. -/
structure WDA where
  sizes : Vox
  data : Nat → Option (Nat → Nat)
  minValid : Nat
  maxEntry : Nat
  filled : Nat
  adjust : Bool

/-- `sizeTr0 = sizes[1] * sizes[2]`, WorkspaceDataArray.cpp 22. -/
def sizeTr0 (s : Vox) : Nat := u32 (s.b * s.c)
/-- `sizeTr1 = sizes[2]`, WorkspaceDataArray.cpp 23. -/
def sizeTr1 (s : Vox) : Nat := s.c
/-- `sizeRot0 = sizes[4] * sizes[5]`, WorkspaceDataArray.cpp 24. -/
def sizeRot0 (s : Vox) : Nat := u32 (s.e * s.f)
/-- `sizeRot1 = sizes[5]`, WorkspaceDataArray.cpp 25. -/
def sizeRot1 (s : Vox) : Nat := s.f

/-- Number of pointers allocated: `new unsigned char*[(unsigned int)sizeTr]`, 14, 34. -/
def allocTr (s : Vox) : Nat := u32 (s.a * s.b * s.c)
/-- Number of bytes of a block: `new unsigned char[(unsigned int)sizeRot]`, 209-210. -/
def allocRot (s : Vox) : Nat := u32 (s.d * s.e * s.f)

/-- `getPos`, WorkspaceDataArray.h 127-139, translational part. -/
def posTr (s v : Vox) : Nat := u32 (v.a * sizeTr0 s + v.b * sizeTr1 s + v.c)
/-- `getPos`, WorkspaceDataArray.h 127-139, rotational part. -/
def posRot (s v : Vox) : Nat := u32 (v.d * sizeRot0 s + v.e * sizeRot1 s + v.f)

/-- Constructor, WorkspaceDataArray.cpp 11-62 (all pointers null). -/
def new (sizes : Vox) (adjust : Bool) : WDA :=
  { sizes := sizes, data := fun _ => none, minValid := 1, maxEntry := 0, filled := 0,
    adjust := adjust }

/-- `get(x)`, WorkspaceDataArray.cpp 283-311. -/
def get (w : WDA) (v : Vox) : Option Nat :=
  if posTr w.sizes v < allocTr w.sizes then
    match w.data (posTr w.sizes v) with
    | none => some 0
    | some blk =>
      if posRot w.sizes v < allocRot w.sizes then some (blk (posRot w.sizes v)) else none
  else none

/-- `ensureData`, WorkspaceDataArray.cpp 202-212: allocate a zeroed block if there is none. -/
def ensureData (w : WDA) (v : Vox) : Option WDA :=
  if posTr w.sizes v < allocTr w.sizes then
    match w.data (posTr w.sizes v) with
    | some _ => some w
    | none =>
      some { w with data := upd w.data (posTr w.sizes v) (some (fun _ => 0)) }
  else none

/-- The write `data[posTr][posRot] = value`. -/
def poke (w : WDA) (v : Vox) (value : Nat) : Option WDA :=
  if posTr w.sizes v < allocTr w.sizes then
    match w.data (posTr w.sizes v) with
    | none => none
    | some blk =>
      if posRot w.sizes v < allocRot w.sizes then
        some { w with
          data := upd w.data (posTr w.sizes v) (some (upd blk (posRot w.sizes v) value)) }
      else none
  else none

/-- `setDatum(x, value)`, WorkspaceDataArray.cpp 164-200. -/
def setDatum (w : WDA) (v : Vox) (value : Nat) : Option WDA := do
  let w ← ensureData w v
  let old ← get w v
  let w := if old = 0 then { w with filled := w.filled + 1 } else w
  let w ← poke w v value
  return if value ≥ w.maxEntry then { w with maxEntry := value } else w

/-- Loop order of the nested loops over all voxels (`x0` outermost), e.g.
WorkspaceDataArray.cpp 350-355. -/
def voxels (s : Vox) : List Vox :=
  (List.range s.a).flatMap fun a => (List.range s.b).flatMap fun b =>
  (List.range s.c).flatMap fun c => (List.range s.d).flatMap fun d =>
  (List.range s.e).flatMap fun e => (List.range s.f).map fun f => ⟨a, b, c, d, e, f⟩

/-- Loop body of `bisectData`, WorkspaceDataArray.cpp 357-368. -/
def bisectVoxel (w : WDA) (v : Vox) : Option WDA :=
  if posTr w.sizes v < allocTr w.sizes then
    match w.data (posTr w.sizes v) with
    | none => some w
    | some _ => do
      let e ← get w v
      if e > w.minValid then
        let w ← poke w v (e / 2)
        if e / 2 < w.minValid then poke w v w.minValid else some w
      else some w
  else none

/-- Run a loop body over a list, stopping at undefined behaviour. -/
def loop (body : WDA → Vox → Option WDA) : List Vox → WDA → Option WDA
  | [], w => some w
  | v :: vs, w => (body w v).bind (loop body vs)

/-- `bisectData`, WorkspaceDataArray.cpp 346-380. -/
def bisectData (w : WDA) : Option WDA := do
  let w ← loop bisectVoxel (voxels w.sizes) w
  return if w.maxEntry > w.minValid then
    let m := w.maxEntry / 2
    { w with maxEntry := if m < w.minValid then w.minValid else m }
  else w

/-- Loop body of `binarize`, WorkspaceDataArray.cpp 329-335. -/
def binarizeVoxel (w : WDA) (v : Vox) : Option WDA :=
  if posTr w.sizes v < allocTr w.sizes then
    match w.data (posTr w.sizes v) with
    | none => some w
    | some _ => do
      let e ← get w v
      if e > w.minValid then poke w v w.minValid else some w
  else none

/-- `binarize`, WorkspaceDataArray.cpp 313-344. -/
def binarize (w : WDA) : Option WDA := do
  let w ← loop binarizeVoxel (voxels w.sizes) w
  return { w with maxEntry := w.minValid }

/-- `increaseDatum(x)`, WorkspaceDataArray.cpp 435-487. -/
def increaseDatum (w : WDA) (v : Vox) : Option WDA := do
  let w ← ensureData w v
  let e ← get w v
  let w := if e = 0 then { w with filled := w.filled + 1 } else w
  if e < 255 then
    let w ← poke w v (e + 1)
    return if e ≥ w.maxEntry then { w with maxEntry := e + 1 } else w
  else if w.adjust then bisectData w
  else return w

/-- `for (int i = lo; i <= hi; i++)` -/
def irange (lo hi : Int) : List Int :=
  (List.range (hi - lo + 1).toNat).map fun (k : Nat) => lo + (k : Int)

/-- `minX[i]`, WorkspaceDataArray.cpp 396, 399-402. -/
def minX (x n : Nat) : Int :=
  let m := i32 ((x : Int) - n)
  if m < 0 then 0 else m

/-- `maxX[i]`, WorkspaceDataArray.cpp 397, 404-407. -/
def maxX (x n size : Nat) : Int :=
  let m := i32 ((x : Int) + n)
  if m ≥ i32 size then (size : Int) - 1 else m

/-- The nested loops over the neighbourhood, WorkspaceDataArray.cpp 410-415.  The loop variables
are non-negative `int`s, converted to `unsigned int` when used as an index. -/
def neighbours (s v : Vox) (n : Nat) : List Vox :=
  (irange (minX v.a n) (maxX v.a n s.a)).flatMap fun a =>
  (irange (minX v.b n) (maxX v.b n s.b)).flatMap fun b =>
  (irange (minX v.c n) (maxX v.c n s.c)).flatMap fun c =>
  (irange (minX v.d n) (maxX v.d n s.d)).flatMap fun d =>
  (irange (minX v.e n) (maxX v.e n s.e)).flatMap fun e =>
  (irange (minX v.f n) (maxX v.f n s.f)).map fun f =>
    ⟨a.toNat, b.toNat, c.toNat, d.toNat, e.toNat, f.toNat⟩

/-- Loop body of `setDatumCheckNeighbors`, WorkspaceDataArray.cpp 417-420. -/
def neighbourStep (value : Nat) (w : WDA) (v : Vox) : Option WDA := do
  let e ← get w v
  if e < value then setDatum w v value else some w

/-- `setDatumCheckNeighbors`, WorkspaceDataArray.cpp 382-422. -/
def setDatumCheckNeighbors (w : WDA) (v : Vox) (value n : Nat) : Option WDA := do
  let w ← setDatum w v value
  if n = 0 then return w
  else loop (neighbourStep value) (neighbours w.sizes v n) w

/-- Positions of the pointer array visited by the loops over `x, y, z`, e.g.
WorkspaceDataArray.cpp 491-497. -/
def visited (s : Vox) (p : Nat) : Bool :=
  (voxels { s with d := 1, e := 1, f := 1 }).any (fun v => posTr s v = p)

/-- `clear`, WorkspaceDataArray.cpp 489-508: every block reachable through an in-range position is
freed.  (`x*sizeTr0 + y*sizeTr1 + z` runs over all positions of the pointer array when the sizes
fit 32 bits; positions outside the loops are left alone.) -/
def clear (w : WDA) : WDA :=
  { w with
    data := fun p => if visited w.sizes p then none else w.data p
    maxEntry := 0
    filled := 0 }

/-- `hasEntry`, WorkspaceDataArray.cpp 510-518. -/
def hasEntry (w : WDA) (x y z : Nat) : Bool :=
  if x ≥ w.sizes.a ∨ y ≥ w.sizes.b ∨ z ≥ w.sizes.c then false
  else (w.data (posTr w.sizes ⟨x, y, z, 0, 0, 0⟩)).isSome

/-- `setDataRot(data, x, y, z)`, WorkspaceDataArray.cpp 214-218: copies a whole block; neither
`maxEntry` nor `voxelFilledCount` is updated. -/
def setDataRot (w : WDA) (src : Nat → Nat) (x y z : Nat) : Option WDA := do
  let w ← ensureData w ⟨x, y, z, 0, 0, 0⟩
  return { w with data := upd w.data (posTr w.sizes ⟨x, y, z, 0, 0, 0⟩) (some src) }

/-- `getDataRot(x, y, z)`, WorkspaceDataArray.cpp 220-224: allocates the block if necessary. -/
def getDataRot (w : WDA) (x y z : Nat) : Option WDA := ensureData w ⟨x, y, z, 0, 0, 0⟩

/-- `setMinValidValue`, WorkspaceData.h 128-131. -/
def setMinValidValue (w : WDA) (m : Nat) : WDA := { w with minValid := m }

/-- `WorkspaceDataArray(WorkspaceDataArray*)` / `clone`, WorkspaceDataArray.cpp 64-125, 520-523:
a deep copy (blocks are values here, so the copy shares nothing with the original).  Only blocks
visited by the loops are copied. -/
def clone (w : WDA) : WDA :=
  { w with data := fun p => if visited w.sizes p then w.data p else none }

/-- Sum of a list of optional values; `none` if one of them is undefined behaviour. -/
def sumOpt : List (Option Nat) → Option Nat
  | [] => some 0
  | o :: os => do let x ← o; let y ← sumOpt os; return x + y

/-- `sumAngleReachabilities`, WorkspaceDataArray.cpp 260-281. -/
def sumAngleReachabilities (w : WDA) (x y z : Nat) : Option Nat :=
  if hasEntry w x y z then some 0
  else sumOpt ((voxels { w.sizes with a := 1, b := 1, c := 1 }).map
    (fun r => get w ⟨x, y, z, r.d, r.e, r.f⟩))

/-- `getMaxSummedAngleReachablity`, WorkspaceDataArray.cpp 238-259. -/
def getMaxSummedAngleReachablity (w : WDA) : Option Nat :=
  (voxels { w.sizes with d := 1, e := 1, f := 1 }).foldl
    (fun acc v => do
      let m ← acc
      let value ← sumAngleReachabilities w v.a v.b v.c
      return if value ≥ m then value else m) (some 0)

/-- The public mutators as one step function. -/
inductive Op where
  | set (v : Vox) (value : Nat)
  | increase (v : Vox)
  | setNeighbours (v : Vox) (value n : Nat)
  | bisect
  | binarize
  | clear
  | setMinValid (m : Nat)
  | setDataRot (src : Nat → Nat) (x y z : Nat)
  | getDataRot (x y z : Nat)
  | goOnWithClone

/-- One call of a mutator. -/
def step (w : WDA) : Op → Option WDA
  | .set v x => setDatum w v x
  | .increase v => increaseDatum w v
  | .setNeighbours v x n => setDatumCheckNeighbors w v x n
  | .bisect => bisectData w
  | .binarize => binarize w
  | .clear => some (clear w)
  | .setMinValid m => some (setMinValidValue w m)
  | .setDataRot src x y z => setDataRot w src x y z
  | .getDataRot x y z => getDataRot w x y z
  | .goOnWithClone => some (clone w)

/-- A history of calls. -/
def run (w : WDA) : List Op → Option WDA
  | [] => some w
  | op :: ops => (step w op).bind (run · ops)

end Simox.Workspace
