import Verif.Wsr.Model
import Verif.Workspace.Spec
import Mathlib.Algebra.BigOperators.Group.Finset.Basic

/-!
# Specification of workspace representations

What a voxel is, without reference to how it is computed; what a history of recorded poses amounts to.
-/

namespace Simox.Wsr.Spec

open Workspace

/-- Edge length of a voxel in dimension `i`: the extent divided by the number of voxels. -/
noncomputable def edge (r : Rep) (i : Fin 6) : ℝ := (r.hi i - r.lo i) / r.num i

/-- `x` lies within the bounds of the representation. -/
def Inside (r : Rep) (x : Fin 6 → ℝ) : Prop := ∀ i, r.lo i ≤ x i ∧ x i ≤ r.hi i

/-- `x` lies in voxel `v`: voxels are half open, the last one of a dimension is closed. -/
def InVoxel (r : Rep) (v : Vox) (x : Fin 6 → ℝ) : Prop :=
  ∀ i, r.lo i + at6 v i * edge r i ≤ x i ∧
    (x i < r.lo i + (at6 v i + 1) * edge r i ∨
      ((at6 v i : ℤ) + 1 = r.num i ∧ x i = r.hi i))

/-- `v` is an index of the grid. -/
def IsIndex (r : Rep) (v : Vox) : Prop := ∀ i, (at6 v i : ℤ) < r.num i

/-- The poses that are accepted although they are not within the bounds: up to one and a half voxels below
and half a voxel above. -/
def Accepted (r : Rep) (x : Fin 6 → ℝ) : Prop :=
  ∀ i, r.lo i - 3 / 2 * edge r i < x i ∧ x i < r.hi i + 1 / 2 * edge r i

/-! ## What a history of calls amounts to

`addr` is the address of a pose, `adjust` the flag given to `initialize`, `sz` the numbers of voxels. The
content is a plain map from voxels to numbers. -/

/-- The twelve neighbours of a voxel: one index one less or one more. -/
def around (v : Vox) : List Vox :=
  [{ v with a := v.a - 1 }, { v with a := v.a + 1 }, { v with b := v.b - 1 }, { v with b := v.b + 1 },
   { v with c := v.c - 1 }, { v with c := v.c + 1 }, { v with d := v.d - 1 }, { v with d := v.d + 1 },
   { v with e := v.e - 1 }, { v with e := v.e + 1 }, { v with f := v.f - 1 }, { v with f := v.f + 1 }]

/-- A voxel that is not at the border of the grid. -/
def Inner (sz v : Vox) : Prop :=
  (0 < v.a ∧ v.a + 1 < sz.a) ∧ (0 < v.b ∧ v.b + 1 < sz.b) ∧ (0 < v.c ∧ v.c + 1 < sz.c) ∧
  (0 < v.d ∧ v.d + 1 < sz.d) ∧ (0 < v.e ∧ v.e + 1 < sz.e) ∧ (0 < v.f ∧ v.f + 1 < sz.f)

/-- Number of covered neighbours. -/
def coveredAround (s : Vox → Nat) (v : Vox) : Nat := (around v).countP fun u => decide (s u > 0)

/-- The voxels `fillHoles m` changes. -/
def Smoothed (sz : Vox) (m : Nat) (s : Vox → Nat) (v : Vox) : Prop :=
  Inner sz v ∧ 0 < s v ∧ max m 1 ≤ coveredAround s v

open Classical in
/-- Effect of one call on the content. -/
noncomputable def effect (addr : (Fin 6 → ℝ) → Option Vox) (sz : Vox) (adjust : Bool) (s : Vox → Nat) :
    Call → Vox → Nat
  | .addPose x => match addr x with
    | none => s
    | some v =>
      if s v < 255 then fun u => if u = v then s v + 1 else s u
      else if adjust then fun u => if s u > 1 then s u / 2 else s u
      else s
  | .setIfLower x e => match addr x with
    | none => s
    | some v => fun u => if u = v then max (s v) e else s u
  | .setEntry x e n => match addr x with
    | none => s
    | some v => fun u =>
      if u = v then e else if Workspace.Spec.InCube n v u then max (s u) e else s u
  | .setVoxel v e => fun u => if u = v then e else s u
  | .binarize => fun u => min (s u) 1
  | .fillHoles m => fun u =>
      if Smoothed sz m s u then ((around u).map s).sum / coveredAround s u else s u
  | .clear => fun _ => 0
  | .goOnWithClone => s

/-- Content after a history, starting empty. -/
noncomputable def content (addr : (Fin 6 → ℝ) → Option Vox) (sz : Vox) (adjust : Bool) :
    List Call → Vox → Nat :=
  fun cs => cs.foldl (effect addr sz adjust) fun _ => 0

/-- The calls since the last `clear`. -/
def sinceClear (cs : List Call) : List Call :=
  (cs.reverse.takeWhile fun c => match c with | .clear => false | _ => true).reverse

/-- The pose of a call. -/
def poseOf : Call → Option (Fin 6 → ℝ)
  | .addPose x => some x
  | .setIfLower x _ => some x
  | .setEntry x _ _ => some x
  | _ => none

/-- The poses recorded since the last `clear`. -/
def recorded (cs : List Call) : List (Fin 6 → ℝ) := (sinceClear cs).filterMap poseOf

/-- Does the call count as a build-up loop? -/
def counts : Call → Bool
  | .addPose _ | .setIfLower _ _ | .setEntry _ _ _ | .setVoxel _ _ => true
  | _ => false

/-- Calls with arguments in range: `unsigned char` values, indices of the grid, and radii and numbers of
neighbours that do not overflow an `int`. -/
def Valid (r : Rep) : Call → Prop
  | .setIfLower _ e => e ≤ 255
  | .setEntry _ e n => e ≤ 255 ∧ ∀ i, r.num i + n < 2 ^ 31
  | .setVoxel v e => IsIndex r v ∧ e ≤ 255
  | .fillHoles m => m < 2 ^ 31
  | _ => True

/-- The grid fits the index arithmetic (C04). -/
def FitsGrid (r : Rep) : Prop :=
  r.num 0 * r.num 1 * r.num 2 < 2 ^ 32 ∧ r.num 3 * r.num 4 * r.num 5 < 2 ^ 32 ∧ ∀ i, r.num i < 2 ^ 31

/-- The call makes the voxel covered, or could do so. -/
def Writes (addr : (Fin 6 → ℝ) → Option Vox) (u : Vox) : Call → Prop
  | .addPose x => addr x = some u
  | .setIfLower x e => addr x = some u ∧ 0 < e
  | .setEntry x e n => (∃ v, addr x = some v ∧ Workspace.Spec.InCube n v u) ∧ 0 < e
  | .setVoxel v e => v = u ∧ 0 < e
  | _ => False

/-- The call can make a voxel uncovered. -/
def Erases : Call → Prop
  | .setEntry _ e _ => e = 0
  | .setVoxel _ e => e = 0
  | .clear => True
  | _ => False

/-- The sum over all orientations at a position. -/
def sumAt (sz : Vox) (s : Vox → Nat) (x y z : Nat) : Nat :=
  ∑ d ∈ Finset.range sz.d, ∑ e ∈ Finset.range sz.e, ∑ f ∈ Finset.range sz.f, s ⟨x, y, z, d, e, f⟩

/-- Is the position reachable with some orientation? -/
def ReachableAt (sz : Vox) (s : Vox → Nat) (x y z : Nat) : Prop :=
  ∃ d e f, d < sz.d ∧ e < sz.e ∧ f < sz.f ∧ 0 < s ⟨x, y, z, d, e, f⟩

/-- Is the position at the border of the grid or next to one that is not reachable? -/
def BorderAt (sz : Vox) (s : Vox → Nat) (x y z : Nat) : Prop :=
  x = 0 ∨ y = 0 ∨ z = 0 ∨ x + 1 = sz.a ∨ y + 1 = sz.b ∨ z + 1 = sz.c ∨
  ¬ ReachableAt sz s (x - 1) y z ∨ ¬ ReachableAt sz s (x + 1) y z ∨
  ¬ ReachableAt sz s x (y - 1) z ∨ ¬ ReachableAt sz s x (y + 1) z ∨
  ¬ ReachableAt sz s x y (z - 1) ∨ ¬ ReachableAt sz s x y (z + 1)

open Classical in
/-- Number of positions with a property. -/
noncomputable def countPositions (sz : Vox) (p : Nat → Nat → Nat → Prop) : Nat :=
  ∑ x ∈ Finset.range sz.a, ∑ y ∈ Finset.range sz.b, ∑ z ∈ Finset.range sz.c, if p x y z then 1 else 0

end Simox.Wsr.Spec
