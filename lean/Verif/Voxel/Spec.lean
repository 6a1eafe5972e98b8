/-
Specification vocabulary for the voxel tree: which voxel of a regular grid a position belongs to.
-/
import Mathlib.Data.Rat.Floor

namespace Simox.Vox

variable {N : Nat}

/-- The position lies in the box with lower corner `min` and the given size. -/
def InBox (min size p : Fin N → ℚ) : Prop := ∀ i, min i ≤ p i ∧ p i ≤ min i + size i

/-- Number of the voxel of width `w` containing `x`, counted from `mn`: voxel `k` is the interval
from `mn + k w` (excluded unless `k = 0`) to `mn + (k+1) w` (included). -/
def voxelNr (mn w x : ℚ) : Nat := ⌈(x - mn) / w⌉₊ - 1

/-- Two positions lie in the same voxel. -/
def SameVoxel (min w p q : Fin N → ℚ) : Prop := ∀ i, voxelNr (min i) (w i) (p i) = voxelNr (min i) (w i) (q i)

/-- The value written last to a place, among a sequence of writes. -/
def lastWrite {A B : Type} (hits : A → Prop) [DecidablePred hits] : List (A × B) → Option B
  | [] => none
  | w :: ws =>
    match lastWrite hits ws with
    | some x => some x
    | none => if hits w.1 then some w.2 else none

end Simox.Vox
