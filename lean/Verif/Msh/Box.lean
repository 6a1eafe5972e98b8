import Verif.Mth.Geo

/-!
# Bounding boxes

Models `VirtualRobot/BoundingBox.cpp`. Numbers are reals or NaN (`none`); there is no rounding.
-/

namespace Simox.Msh

open Matrix Jac Rot

/-- A number; `none` is NaN. -/
abbrev Fl := Option ℝ

/-- `<` of numbers, false for NaN. -/
def Fl.lt : Fl → Fl → Prop
  | some a, some b => a < b
  | _, _ => False

/-- A vector without NaN. -/
def real (p : V3) : Fin 3 → Fl := fun j => some (p j)

/-- BoundingBox.h 115-117: the members. -/
structure BBox where
  min : Fin 3 → Fl
  max : Fin 3 → Fl

/-- BoundingBox.cpp 120-128 `clear()`, and 6-9, the constructor. -/
def BBox.clear : BBox := ⟨fun _ => none, fun _ => none⟩

open Classical in
/-- BoundingBox.cpp 93-107 `addPoint(p)`. -/
noncomputable def BBox.addPoint (b : BBox) (p : Fin 3 → Fl) : BBox :=
  ⟨fun j => if b.min j = none ∨ Fl.lt (p j) (b.min j) then p j else b.min j,
    fun j => if b.max j = none ∨ Fl.lt (b.max j) (p j) then p j else b.max j⟩

/-- BoundingBox.cpp 79-85 `addPoints(p)`. -/
noncomputable def BBox.addPoints (b : BBox) (ps : List (Fin 3 → Fl)) : BBox := ps.foldl BBox.addPoint b

/-- BoundingBox.cpp 37-44, the constructor from points. -/
noncomputable def BBox.ofPoints (ps : List (Fin 3 → Fl)) : BBox := BBox.clear.addPoints ps

/-- BoundingBox.cpp 50-54, 132-136, 181-185: the bounds, unless one of them is NaN. -/
def BBox.values (b : BBox) : Option (V3 × V3) :=
  match b.min 0, b.min 1, b.min 2, b.max 0, b.max 1, b.max 2 with
  | some a, some b, some c, some d, some e, some f => some (![a, b, c], ![d, e, f])
  | _, _, _, _, _, _ => none

/-- BoundingBox.cpp 46-67 `getPoints()`. -/
def BBox.getPoints (b : BBox) : List V3 :=
  match b.values with
  | none => []
  | some (lo, hi) => [![lo 0, lo 1, lo 2], ![lo 0, lo 1, hi 2], ![lo 0, hi 1, lo 2], ![lo 0, hi 1, hi 2],
      ![hi 0, lo 1, lo 2], ![hi 0, lo 1, hi 2], ![hi 0, hi 1, lo 2], ![hi 0, hi 1, hi 2]]

/-- BoundingBox.cpp 87-91 `addPoints(bbox)`. -/
noncomputable def BBox.addBox (b c : BBox) : BBox := b.addPoints (c.getPoints.map real)

/-- `FLT_MAX`. -/
noncomputable def fltMax : ℝ := 2 ^ 128 - 2 ^ 104

open Classical in
/-- BoundingBox.cpp 130-177 `transform(pose)`; of the matrix only the first three rows, `R` and `t`, matter. -/
noncomputable def BBox.transform (b : BBox) (R : Matrix (Fin 3) (Fin 3) ℝ) (t : V3) : BBox :=
  match b.values with
  | none => b
  | some (lo, hi) =>
      let result := [![lo 0, lo 1, lo 2], ![hi 0, lo 1, lo 2], ![lo 0, hi 1, lo 2], ![hi 0, hi 1, lo 2],
        ![lo 0, lo 1, hi 2], ![hi 0, lo 1, hi 2], ![lo 0, hi 1, hi 2], ![hi 0, hi 1, hi 2]]
      let result3 := result.map fun x => R *ᵥ x + t
      ⟨real (result3.foldl (fun m r j => if r j < m j then r j else m j) fun _ => fltMax),
        real (result3.foldl (fun m r j => if r j > m j then r j else m j) fun _ => -fltMax)⟩

/-- BoundingBox.cpp 179-192 `scale(scaleFactor)`. -/
noncomputable def BBox.scale (b : BBox) (f : V3) : BBox :=
  match b.values with
  | none => b
  | some (lo, hi) => ⟨fun i => some (lo i * f i), fun i => some (hi i * f i)⟩

open Classical in
/-- BoundingBox.cpp 235-244 `isBetween(x, a, b)`. -/
noncomputable def isBetween (x a b : ℝ) : Bool := if a ≤ b then decide (a ≤ x ∧ x ≤ b) else decide (b ≤ x ∧ x ≤ a)

/-- BoundingBox.cpp 220-249 `isInside(point)`. With NaN among the bounds a comparison is with NaN, and false. -/
noncomputable def BBox.isInside (b : BBox) (point : Fin 3 → Fl) : Bool :=
  match b.values with
  | none => false
  | some (lo, hi) =>
      let p0 := ![lo 0, lo 1, lo 2]
      let p1 := ![lo 0, lo 1, hi 2]
      let p2 := ![lo 0, hi 1, lo 2]
      let p4 := ![hi 0, lo 1, lo 2]
      let v01 := p0 - p1
      let v02 := p0 - p2
      let v04 := p0 - p4
      let x : V3 := fun j => (point j).getD ((hi j + lo j) / 2)
      isBetween (v01 ⬝ᵥ x) (v01 ⬝ᵥ p0) (v01 ⬝ᵥ p1) && isBetween (v02 ⬝ᵥ x) (v02 ⬝ᵥ p0) (v02 ⬝ᵥ p2) &&
        isBetween (v04 ⬝ᵥ x) (v04 ⬝ᵥ p0) (v04 ⬝ᵥ p4)

open Classical in
/-- BoundingBox.cpp 11-34 `planeGoesThrough(p)`; `none`: without bounds, memory outside of `points` is read. -/
noncomputable def BBox.planeGoesThrough (b : BBox) (p : Rot.Plane) : Option Bool :=
  if b.getPoints.length < 8 then none
  else
    let left := (b.getPoints.take 8).any fun x => decide (Mth.onNormalPointingSide x p)
    let right := (b.getPoints.take 8).any fun x => !decide (Mth.onNormalPointingSide x p)
    some (if !left || !right then false else true)

end Simox.Msh
