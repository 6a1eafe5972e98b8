import Verif.Wsg.Model

/-!
# Specification of the grid of robot positions

The grid is a sheet of cells on which values with grasps are noted.
-/

namespace Simox.Wsg

/-- `x` lies in the cell `i` of the `n` cells the interval from `lo` of length `extent` is divided into. -/
def InCell (lo extent : ℝ) (n i : ℤ) (x : ℝ) : Prop :=
  0 ≤ i ∧ i < n ∧ lo + i * (extent / n) ≤ x ∧ x < lo + (i + 1) * (extent / n)

/-- The positions that are taken for positions in the cell `i`: those in the cell, and for the first cell those
up to one cell below the grid, too. -/
def TakenFor (lo extent : ℝ) (n i : ℤ) (x : ℝ) : Prop :=
  InCell lo extent n i x ∨ (i = 0 ∧ lo - extent / n < x ∧ x < lo)

/-- What was noted in a cell, in this order: values with grasps. -/
abbrev Notes (G : Type) := List (ℤ × Option G)

variable {G : Type}

/-- The largest value that was noted, 0 if there is none. -/
def top (ns : Notes G) : ℤ := ns.foldl (fun m n => max m n.1) 0

/-- A grasp is kept if it was noted with a value of at least 100, or with a value not smaller than all the ones
noted before. -/
def Kept (ns : Notes G) (q : G) : Prop :=
  ∃ before v after, ns = before ++ (v, some q) :: after ∧ (100 ≤ v ∨ top before ≤ v)

/-- The sheet: where its lower left corner is, and the notes of every cell. -/
structure Sheet (G : Type) where
  lowX : ℝ
  lowY : ℝ
  notes : ℤ → ℤ → Notes G

/-- Extent and number of cells in both directions. -/
structure Format where
  extendX : ℝ
  extendY : ℝ
  sizeX : ℤ
  sizeY : ℤ

/-- The cell is on the sheet. -/
def Format.On (f : Format) (i j : ℤ) : Prop := 0 ≤ i ∧ i < f.sizeX ∧ 0 ≤ j ∧ j < f.sizeY

open Classical in
/-- A value is noted in all the cells on the sheet that fulfil `P`. -/
noncomputable def Sheet.note (f : Format) (s : Sheet G) (P : ℤ → ℤ → Prop) (v : ℤ) (q : Option G) : Sheet G :=
  { s with notes := fun i j => if f.On i j ∧ P i j then s.notes i j ++ [(v, q)] else s.notes i j }

/-- The position `(x, y)` is taken for one in the cell `(i, j)`. -/
def Sheet.At (f : Format) (s : Sheet G) (x y : ℝ) (i j : ℤ) : Prop :=
  TakenFor s.lowX f.extendX f.sizeX i x ∧ TakenFor s.lowY f.extendY f.sizeY j y

/-- The cell `(a, b)` is `(i, j)` or, if `(i, j)` is not at the border, one of its eight neighbours. -/
def Format.Around (f : Format) (i j a b : ℤ) : Prop :=
  (a = i ∧ b = j) ∨ (0 < i ∧ i < f.sizeX - 1 ∧ 0 < j ∧ j < f.sizeY - 1 ∧ |a - i| ≤ 1 ∧ |b - j| ≤ 1)

/-- What a user does with a grid. -/
inductive Op (G : Type) where
  | setCell (i j v : ℤ) (q : Option G)
  | setEntry (x y : ℝ) (v : ℤ) (q : Option G)
  | setEntryCheckNeighbors (x y : ℝ) (v : ℤ) (q : Option G)
  | setEntries (graspGlobal : M4) (q : Option G) (ds : List (M4 × ℤ))
  | reset
  | setGridPosition (x y : ℝ)

/-- A value for a position and the cells around it. -/
noncomputable def Sheet.noteAround (f : Format) (s : Sheet G) (x y : ℝ) (v : ℤ) (q : Option G) : Sheet G :=
  s.note f (fun a b => ∃ i j, s.At f x y i j ∧ f.Around i j a b) v q

/-- What it means for the sheet. -/
noncomputable def Sheet.step (f : Format) (s : Sheet G) : Op G → Sheet G
  | .setCell i j v q => s.note f (fun a b => a = i ∧ b = j) v q
  | .setEntry x y v q => s.note f (s.At f x y) v q
  | .setEntryCheckNeighbors x y v q => s.noteAround f x y v q
  | .setEntries p q ds => ds.foldl (fun s d => s.noteAround f ((p * d.1⁻¹) 0 3) ((p * d.1⁻¹) 1 3) d.2 q) s
  | .reset => { s with notes := fun _ _ => [] }
  | .setGridPosition x y => { s with lowX := x - f.extendX / 2, lowY := y - f.extendY / 2 }

variable [DecidableEq G]

/-- What it means for the grid; no result is an access outside of the memory of the grid. -/
noncomputable def Grid.step (g : Grid G) : Op G → Option (Grid G)
  | .setCell i j v q => g.setCell i j v q
  | .setEntry x y v q => g.setEntry x y v q
  | .setEntryCheckNeighbors x y v q => g.setEntryCheckNeighbors x y v q
  | .setEntries p q ds => Grid.setEntries p q ds g
  | .reset => some g.reset
  | .setGridPosition x y => some (g.setGridPosition x y)

/-- A history of calls. -/
noncomputable def Grid.steps (g : Grid G) : List (Op G) → Option (Grid G)
  | [] => some g
  | o :: os => (g.step o).bind fun g => g.steps os

omit [DecidableEq G] in
/-- The grid shows the sheet: its cells have the largest values and the kept grasps, without duplicates. -/
structure Shows (f : Format) (g : Grid G) (s : Sheet G) : Prop where
  posX : 0 < f.sizeX ∧ 0 < f.extendX
  posY : 0 < f.sizeY ∧ 0 < f.extendY
  format : g.sizeX = f.sizeX ∧ g.sizeY = f.sizeY ∧ g.extendX = f.extendX ∧ g.extendY = f.extendY
  low : g.minX = s.lowX ∧ g.minY = s.lowY
  high : g.maxX = s.lowX + f.extendX ∧ g.maxY = s.lowY + f.extendY
  length : g.data.length = (f.sizeX * f.sizeY).toNat ∧ g.links.length = (f.sizeX * f.sizeY).toNat
  cell : ∀ i j, f.On i j → ∃ l : List G, g.data[(i * f.sizeY + j).toNat]? = some (top (s.notes i j)) ∧
    g.links[(i * f.sizeY + j).toNat]? = some l ∧ l.Nodup ∧ ∀ q, q ∈ l ↔ Kept (s.notes i j) q

end Simox.Wsg
