import Mathlib.Algebra.Order.Archimedean.Real.Basic
import Mathlib.LinearAlgebra.Matrix.NonsingularInverse
import Mathlib.Algebra.Order.Floor.Semiring

/-!
# The grid of robot positions from which objects can be grasped

Models `VirtualRobot/Workspace/WorkspaceGrid.cpp`. Real numbers stand for `float`, integers for `int`
(casts of numbers that do not fit into an `int` are not distinguished). A grasp is identified by its
pointer. Results of `rand()` are arguments. The memory of the grid is a list, and an access behind its end
(undefined behaviour) has no result. `data` is never null after the constructor, so that the checks for it
are left out.
-/

namespace Simox.Wsg

/-- The conversion of a floating point number to `int`: towards zero. -/
noncomputable def toInt (x : ℝ) : ℤ := if 0 ≤ x then ⌊x⌋ else ⌈x⌉

/-- WorkspaceGrid.h 136-146: the members. -/
structure Grid (G : Type) where
  minX : ℝ
  maxX : ℝ
  minY : ℝ
  maxY : ℝ
  discretizeSize : ℝ
  sizeX : ℤ
  sizeY : ℤ
  extendX : ℝ
  extendY : ℝ
  data : List ℤ
  links : List (List G)

variable {G : Type}

open Classical in
/-- WorkspaceGrid.cpp 15-46, the constructor; `none` is the exception. -/
noncomputable def Grid.new (minX maxX minY maxY size : ℝ) : Option (Grid G) :=
  if minX ≥ maxX ∨ minY ≥ maxY then none
  else
    let sizeX := toInt ((maxX - minX) / size) + 1
    let sizeY := toInt ((maxY - minY) / size) + 1
    if sizeY ≤ 0 ∨ sizeX ≤ 0 ∨ maxX - minX ≤ 0 ∨ maxY - minY ≤ 0 then none
    else some
      { minX := minX, maxX := maxX, minY := minY, maxY := maxY, discretizeSize := size, sizeX := sizeX, sizeY := sizeY
        extendX := maxX - minX, extendY := maxY - minY
        data := List.replicate (sizeX * sizeY).toNat 0, links := List.replicate (sizeX * sizeY).toNat [] }

/-- WorkspaceGrid.cpp 54-59 `reset()`. -/
def Grid.reset (g : Grid G) : Grid G :=
  { g with data := List.replicate (g.sizeX * g.sizeY).toNat 0, links := List.replicate (g.sizeX * g.sizeY).toNat [] }

/-- WorkspaceGrid.h 132-135 `getDataPos(x, y)`. -/
def Grid.pos (g : Grid G) (x y : ℤ) : ℕ := (x * g.sizeY + y).toNat

/-- WorkspaceGrid.cpp 68, 87, 118, 201, 245: the cell of a coordinate. -/
noncomputable def Grid.cellX (g : Grid G) (x : ℝ) : ℤ := toInt (((x - g.minX) / g.extendX) * g.sizeX)

/-- WorkspaceGrid.cpp 69, 88, 119, 202, 246. -/
noncomputable def Grid.cellY (g : Grid G) (y : ℝ) : ℤ := toInt (((y - g.minY) / g.extendY) * g.sizeY)

/-- "`cellX < 0 || cellY < 0 || cellX >= gridSizeX || cellY >= gridSizeY`", WorkspaceGrid.cpp 71, 90, 121, 139, 155, 183, 213, 248. -/
def Grid.outside (g : Grid G) (x y : ℤ) : Bool :=
  decide (x < 0) || decide (y < 0) || decide (x ≥ g.sizeX) || decide (y ≥ g.sizeY)

/-- WorkspaceGrid.cpp 132-146 `getCellEntry(cellX, cellY)`. -/
def Grid.getCell (g : Grid G) (x y : ℤ) : Option ℤ := if g.outside x y then some 0 else g.data[g.pos x y]?

/-- WorkspaceGrid.cpp 176-192 `getCellEntry(cellX, cellY, storeEntry, storeGrasps)`: the inner `none` is the
result false, which leaves the arguments alone. -/
def Grid.getCellGrasps (g : Grid G) (x y : ℤ) : Option (Option (ℤ × List G)) :=
  if g.outside x y then some none
  else do
    let d ← g.data[g.pos x y]?
    let l ← g.links[g.pos x y]?
    some (some (d, l))

/-- WorkspaceGrid.cpp 148-174 `getCellEntry(cellX, cellY, storeEntry, storeGrasp)`; `r` is the result of `rand()`. -/
def Grid.getCellGrasp (g : Grid G) (x y : ℤ) (r : ℕ) : Option (Option (ℤ × Option G)) :=
  if g.outside x y then some none
  else do
    let d ← g.data[g.pos x y]?
    let l ← g.links[g.pos x y]?
    if l.length > 0 then
      let q ← l[r % l.length]?
      some (some (d, some q))
    else some (some (d, none))

/-- WorkspaceGrid.cpp 61-78 `getEntry(x, y)`. -/
noncomputable def Grid.getEntry (g : Grid G) (x y : ℝ) : Option ℤ := g.getCell (g.cellX x) (g.cellY y)

/-- WorkspaceGrid.cpp 80-109 `getEntry(x, y, storeEntry, storeGrasp)`. -/
noncomputable def Grid.getEntryGrasp (g : Grid G) (x y : ℝ) (r : ℕ) : Option (Option (ℤ × Option G)) :=
  g.getCellGrasp (g.cellX x) (g.cellY y) r

/-- WorkspaceGrid.cpp 111-130 `getEntry(x, y, storeEntry, storeGrasps)`. -/
noncomputable def Grid.getEntryGrasps (g : Grid G) (x y : ℝ) : Option (Option (ℤ × List G)) :=
  g.getCellGrasps (g.cellX x) (g.cellY y)

variable [DecidableEq G]

/-- WorkspaceGrid.cpp 224-227, 231-234: the grasp is added unless it is there. -/
def link (l : List G) : Option G → List G
  | none => l
  | some q => if q ∈ l then l else l ++ [q]

/-- WorkspaceGrid.cpp 206-236 `setCellEntry(cellX, cellY, value, grasp)`. -/
def Grid.setCell (g : Grid G) (x y : ℤ) (value : ℤ) (grasp : Option G) : Option (Grid G) :=
  if g.outside x y then some g
  else do
    let i := g.pos x y
    let d ← g.data[i]?
    let l ← g.links[i]?
    if d ≤ value then some { g with data := g.data.set i value, links := g.links.set i (link l grasp) }
    else if value ≥ 100 then some { g with links := g.links.set i (link l grasp) }
    else some g

/-- WorkspaceGrid.cpp 194-204 `setEntry(x, y, value, grasp)`. -/
noncomputable def Grid.setEntry (g : Grid G) (x y : ℝ) (value : ℤ) (grasp : Option G) : Option (Grid G) :=
  g.setCell (g.cellX x) (g.cellY y) value grasp

/-- WorkspaceGrid.cpp 258-265: the neighbours of a cell, in the order of the calls. -/
def neighbours (x y : ℤ) : List (ℤ × ℤ) :=
  [(x - 1, y), (x - 1, y - 1), (x - 1, y + 1), (x, y - 1), (x, y + 1), (x + 1, y - 1), (x + 1, y), (x + 1, y + 1)]

/-- Several calls of `setCellEntry` with the same value and grasp. -/
def Grid.setCells (value : ℤ) (grasp : Option G) : List (ℤ × ℤ) → Grid G → Option (Grid G)
  | [], g => some g
  | c :: cs, g => (g.setCell c.1 c.2 value grasp).bind (Grid.setCells value grasp cs)

/-- WorkspaceGrid.cpp 238-267 `setEntryCheckNeighbors(x, y, value, grasp)`. -/
noncomputable def Grid.setEntryCheckNeighbors (g : Grid G) (x y : ℝ) (value : ℤ) (grasp : Option G) : Option (Grid G) :=
  let nx := g.cellX x
  let ny := g.cellY y
  if g.outside nx ny then some g
  else
    (g.setCell nx ny value grasp).bind fun g =>
      if nx > 0 ∧ nx < g.sizeX - 1 ∧ ny > 0 ∧ ny < g.sizeY - 1 then g.setCells value grasp (neighbours nx ny) else some g

/-- 4x4 matrices. -/
abbrev M4 := Matrix (Fin 4) (Fin 4) ℝ

/-- WorkspaceGrid.cpp 269-287 `setEntries(wsData, graspGlobal, grasp)`; `wsData` has transformations and values. -/
noncomputable def Grid.setEntries (graspGlobal : M4) (grasp : Option G) : List (M4 × ℤ) → Grid G → Option (Grid G)
  | [], g => some g
  | d :: ds, g =>
      let p := graspGlobal * d.1⁻¹
      (g.setEntryCheckNeighbors (p 0 3) (p 1 3) d.2 grasp).bind (Grid.setEntries graspGlobal grasp ds)

omit [DecidableEq G] in
/-- WorkspaceGrid.cpp 289-306 `getMaxEntry()`: the cells in the order of the loops. -/
def Grid.getMaxEntry (g : Grid G) : Option ℤ :=
  ((List.range g.sizeX.toNat).flatMap fun i : ℕ => (List.range g.sizeY.toNat).map fun j : ℕ => ((i : ℤ), (j : ℤ))).foldlM
    (fun nMax c => (g.data[g.pos c.1 c.2]?).map fun d => if d > nMax then d else nMax) 0

/-- What one attempt of `getRandomPos` draws: two numbers for the cell, one for the grasp. -/
structure Draw where
  x : ℕ
  y : ℕ
  grasp : ℕ

/-- The result of `getRandomPos`: position, grasp (or grasps) and entry. -/
structure Found (A : Type) where
  x : ℝ
  y : ℝ
  grasp : A
  entry : ℤ

omit [DecidableEq G] in
/-- WorkspaceGrid.cpp 383-384, 417-418: the position of a cell. -/
noncomputable def Grid.cellPosition (g : Grid G) (x y : ℤ) : ℝ × ℝ :=
  (g.minX + ((x : ℝ) + 0.5) * g.discretizeSize, g.minY + ((y : ℝ) + 0.5) * g.discretizeSize)

omit [DecidableEq G] in
/-- WorkspaceGrid.cpp 374-391, 408-424: the loop of `getRandomPos`, with `loops` further attempts after this one; the inner `none`
is the result false. `look` is the access to the cell. If it answered false, `nEntry` would be the one of
the attempt before; this does not occur, the cell being in the grid. -/
noncomputable def Grid.randomPosLoop {A : Type} (g : Grid G) (look : ℤ → ℤ → ℕ → Option (Option (ℤ × A))) (minEntry : ℤ) (draws : ℕ → Draw) :
    ℕ → ℕ → Option (Option (Found A))
  | loops, k =>
      let d := draws k
      let x : ℤ := (d.x : ℤ) % g.sizeX
      let y : ℤ := (d.y : ℤ) % g.sizeY
      match look x y d.grasp with
      | none => none
      | some none => none
      | some (some e) =>
          if e.1 ≥ minEntry then some (some ⟨(g.cellPosition x y).1, (g.cellPosition x y).2, e.2, e.1⟩)
          else match loops with
            | 0 => some none
            | loops + 1 => g.randomPosLoop look minEntry draws loops (k + 1)

omit [DecidableEq G] in
/-- WorkspaceGrid.cpp 363-394 `getRandomPos(minEntry, x, y, grasp, maxLoops, entries)`: the loop is left after
`maxLoops` attempts, there is at least one. -/
noncomputable def Grid.getRandomPos (g : Grid G) (minEntry : ℤ) (draws : ℕ → Draw) (maxLoops : ℤ) : Option (Option (Found (Option G))) :=
  g.randomPosLoop g.getCellGrasp minEntry draws (maxLoops - 1).toNat 0

omit [DecidableEq G] in
/-- WorkspaceGrid.cpp 397-427 `getRandomPos(minEntry, x, y, grasps, maxLoops, entries)`. -/
noncomputable def Grid.getRandomPosGrasps (g : Grid G) (minEntry : ℤ) (draws : ℕ → Draw) (maxLoops : ℤ) : Option (Option (Found (List G))) :=
  g.randomPosLoop (fun x y _ => g.getCellGrasps x y) minEntry draws (maxLoops - 1).toNat 0

omit [DecidableEq G] in
/-- WorkspaceGrid.cpp 429-435 `setGridPosition(x, y)`. -/
noncomputable def Grid.setGridPosition (g : Grid G) (x y : ℝ) : Grid G :=
  { g with minX := x - g.extendX / 2, maxX := x + g.extendX / 2, minY := y - g.extendY / 2, maxY := y + g.extendY / 2 }

/-! ## Merging grids -/

/-- `std::numeric_limits<float>::min()`: the smallest normal number, which is positive. -/
noncomputable def fltMin : ℝ := 1 / 2 ^ 126

/-- `std::numeric_limits<float>::max()`. -/
noncomputable def fltMax : ℝ := 2 ^ 128 - 2 ^ 104

/-- `std::numeric_limits<int>::max()`. -/
def intMax : ℤ := 2 ^ 31 - 1

/-- How `MergeWorkspaceGrids` ends: with an exception, by reading a variable that was not set or memory that
does not belong to the grid, not at all, or with a grid. -/
inductive Merged (G : Type) where
  | exception
  | undefined
  | endless
  | done (g : Grid G)

/-- WorkspaceGrid.cpp 524, 526: `for (float x = lo; x < hi; x += d)`, for a positive `d` (without rounding). -/
noncomputable def stepsTo (lo hi d : ℝ) : List ℝ := (List.range ⌈(hi - lo) / d⌉₊).map fun k : ℕ => lo + (k : ℝ) * d

omit [DecidableEq G] in
/-- WorkspaceGrid.cpp 508-519: the common bounds. -/
noncomputable def bounds (grids : List (Grid G)) : (ℝ × ℝ) × (ℝ × ℝ) :=
  ((grids.foldl (fun m g => min g.minX m) fltMax, grids.foldl (fun m g => max g.maxX m) fltMin),
    (grids.foldl (fun m g => min g.minY m) fltMax, grids.foldl (fun m g => max g.maxY m) fltMin))

omit [DecidableEq G] in
/-- WorkspaceGrid.cpp 528-539: the worst value at a position and the grasp; `r` are the results of `rand()` by the
number of the grid. If a grid has no entry, `score` is read although it was not set. -/
noncomputable def worst (x y : ℝ) (r : ℕ → ℕ) : List (Grid G) → ℕ → ℤ → Option G → Option (ℤ × Option G)
  | [], _, m, q => some (m, q)
  | g :: gs, k, m, _ => match g.getEntryGrasp x y (r k) with
      | none => none
      | some none => none
      | some (some e) => worst x y r gs (k + 1) (min e.1 m) e.2

/-- WorkspaceGrid.cpp 524-543: the loops over the positions. -/
noncomputable def mergeAt (grids : List (Grid G)) (r : ℝ → ℝ → ℕ → ℕ) : List (ℝ × ℝ) → Grid G → Option (Grid G)
  | [], g => some g
  | p :: ps, g => match worst p.1 p.2 (r p.1 p.2) grids 0 intMax none with
      | none => none
      | some e => (g.setEntry p.1 p.2 e.1 e.2).bind (mergeAt grids r ps)

open Classical in
/-- WorkspaceGrid.cpp 505-547 `MergeWorkspaceGrids(grids)`. The assertion of 507 is only checked in debug mode; `at(0)` throws
without a grid. -/
noncomputable def merge (grids : List (Grid G)) (r : ℝ → ℝ → ℕ → ℕ) : Merged G :=
  match grids with
  | [] => .exception
  | g₀ :: _ =>
      let b := bounds grids
      match Grid.new b.1.1 b.1.2 b.2.1 b.2.2 g₀.discretizeSize with
      | none => .exception
      | some g =>
          if g.discretizeSize ≤ 0 then .endless
          else
            match mergeAt grids r ((stepsTo b.1.1 b.1.2 g.discretizeSize).flatMap fun x =>
                (stepsTo b.2.1 b.2.2 g.discretizeSize).map fun y => (x, y)) g with
            | none => .undefined
            | some g => .done g

end Simox.Wsg
