import Verif.Workspace.Model

/-!
# Abstract specification of the workspace voxel store

A plain map from voxel indices to numbers, with no blocks, no flattening and no pointers.  It only
uses the record types `Vox` and `Op` of the model.
-/

namespace Simox.Workspace.Spec

/-- `v` lies inside a grid of size `s`. -/
def InRange (s v : Vox) : Prop :=
  v.a < s.a ∧ v.b < s.b ∧ v.c < s.c ∧ v.d < s.d ∧ v.e < s.e ∧ v.f < s.f

instance (s v : Vox) : Decidable (InRange s v) := by unfold InRange; infer_instance

/-- Distance of two indices in one dimension. -/
def near (n x y : Nat) : Prop := y ≤ x + n ∧ x ≤ y + n

instance (n x y : Nat) : Decidable (near n x y) := by unfold near; infer_instance

/-- `u` is in the cube of radius `n` around `v`. -/
def InCube (n : Nat) (v u : Vox) : Prop :=
  near n v.a u.a ∧ near n v.b u.b ∧ near n v.c u.c ∧ near n v.d u.d ∧ near n v.e u.e ∧
    near n v.f u.f

instance (n : Nat) (v u : Vox) : Decidable (InCube n v u) := by unfold InCube; infer_instance

/-- Abstract state: the content and the smallest value that counts as valid. -/
structure S where
  val : Vox → Nat
  minValid : Nat

/-- Halving one entry, never below the minimum valid value. -/
def halve (m x : Nat) : Nat := if x > m then max (x / 2) m else x

/-- Replace one entry. -/
def put (f : Vox → Nat) (v : Vox) (x : Nat) : Vox → Nat := fun u => if u = v then x else f u

/-- Effect of one call. `sz` is the grid size (needed only to address a rotation block). -/
def step (sz : Vox) (adjust : Bool) (s : S) : Op → S
  | .set v x => { s with val := put s.val v x }
  | .increase v =>
    if s.val v < 255 then { s with val := put s.val v (s.val v + 1) }
    else if adjust then { s with val := fun u => halve s.minValid (s.val u) }
    else s
  | .setNeighbours v x n =>
    { s with val := fun u =>
        if u = v then x
        else if InCube n v u then max (s.val u) x
        else s.val u }
  | .bisect => { s with val := fun u => halve s.minValid (s.val u) }
  | .binarize => { s with val := fun u => min (s.val u) s.minValid }
  | .clear => { s with val := fun _ => 0 }
  | .setMinValid m => { s with minValid := m }
  | .setDataRot src x y z =>
    { s with val := fun u =>
        if u.a = x ∧ u.b = y ∧ u.c = z then src ((u.d * sz.e + u.e) * sz.f + u.f) else s.val u }
  | .getDataRot _ _ _ => s
  | .goOnWithClone => s

/-- Effect of a history. -/
def run (sz : Vox) (adjust : Bool) (s : S) : List Op → S
  | [] => s
  | op :: ops => run sz adjust (step sz adjust s op) ops

/-- Initial abstract state. -/
def init : S := { val := fun _ => 0, minValid := 1 }

/-- A call is admissible on a grid `s` if its indices are inside the grid (the C++ code does not
check), values are `unsigned char`s, and the neighbourhood radius does not overflow an `int`. -/
def Admissible (s : Vox) : Op → Prop
  | .set v x => InRange s v ∧ x ≤ 255
  | .increase v => InRange s v
  | .setNeighbours v x n => InRange s v ∧ x ≤ 255 ∧
      s.a + n < 2 ^ 31 ∧ s.b + n < 2 ^ 31 ∧ s.c + n < 2 ^ 31 ∧
      s.d + n < 2 ^ 31 ∧ s.e + n < 2 ^ 31 ∧ s.f + n < 2 ^ 31
  | .setMinValid m => m ≤ 255
  | .setDataRot src x y z => x < s.a ∧ y < s.b ∧ z < s.c ∧ ∀ i, src i ≤ 255
  | .getDataRot x y z => x < s.a ∧ y < s.b ∧ z < s.c
  | .bisect | .binarize | .clear | .goOnWithClone => True

/-- The grid fits the 32-bit index arithmetic (otherwise the constructor only logs an error). -/
def Fits (s : Vox) : Prop := s.a * s.b * s.c < 2 ^ 32 ∧ s.d * s.e * s.f < 2 ^ 32

end Simox.Workspace.Spec

namespace Simox.Workspace.Spec

/-- `n` is the number of in-range voxels whose content (given by `f`) is not zero. -/
def IsCount (s : Vox) (f : Vox → Nat) (n : Nat) : Prop :=
  ∃ l : List Vox, l.Nodup ∧ (∀ v, v ∈ l ↔ InRange s v ∧ f v ≠ 0) ∧ l.length = n

/-- Calls of a history that never stores a zero: no zero is written, the minimum valid value stays
positive, no raw block is copied in. -/
def NonZeroWrite : Op → Prop
  | .set _ x => x ≠ 0
  | .setNeighbours _ x _ => x ≠ 0
  | .setMinValid m => m ≠ 0
  | .setDataRot _ _ _ _ => False
  | .increase _ | .bisect | .binarize | .clear | .getDataRot _ _ _ | .goOnWithClone => True

/-- Every call but the raw block copy. -/
def NoRawCopy : Op → Prop
  | .setDataRot _ _ _ _ => False
  | _ => True

/-- Calls that only update hit statistics. -/
def Statistics : Op → Prop
  | .increase _ | .bisect | .binarize => True
  | _ => False

end Simox.Workspace.Spec
