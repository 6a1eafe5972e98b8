import Verif.Gpl.Model
import Mathlib.Analysis.Convex.Combination

/-!
# Grasp planning: specification

Mechanics: the wrench of a force, Coulomb's law, the wrenches of a grasp. Geometry: what it means for the
answer of qhull to be right.
-/

namespace Simox.Gpl.Spec

open Matrix Jac

/-- The wrench of the force `f` acting at the position `x`: the force and its torque about the origin,
torques being counted in units of `1 / k`. -/
noncomputable def wrenchAt (k : ℝ) (x f : V3) : Wrench := (f, k • crossProduct x f)

/-- Coulomb's law: a contact with the unit normal `m` and friction coefficient `μ` can transmit the force
`f` (along `m`, not against it): the tangential part is at most `μ` times the normal part. -/
def Coulomb (μ : ℝ) (m f : V3) : Prop :=
  0 ≤ f ⬝ᵥ m ∧ (f - (f ⬝ᵥ m) • m) ⬝ᵥ (f - (f ⬝ᵥ m) • m) ≤ (μ * (f ⬝ᵥ m)) ^ 2

/-- The directions of the cone of a contact, as the generator samples them. -/
def dirs (g : ConeGen) (c : ContactPoint) (f : V3) : Prop := ∃ d ∈ computeConePoints g c [], d.n = f

/-- The wrenches the fingers exert on the object: for each contact, the unit forces of its cone, pressing
against the surface (so opposite to the directions of the cone, which point away from the object), act at
the contact. -/
def graspWrenches (k : ℝ) (cone : ContactPoint → V3 → Prop) (contacts : List ContactPoint) : Set Wrench :=
  { w | ∃ c ∈ contacts, ∃ f, cone c f ∧ w = wrenchAt k c.p (-f) }

/-- The answer of qhull is right: the facets have unit normals, the points of the convex hull are just those
on the inner side of all facets, the reported vertices are among the points and there are some; the
vertices of the facets lie on the facets and are vertices of the hull. -/
structure IsHull (r : QResult) (pts : List Wrench) : Prop where
  unit : ∀ f ∈ r.facets, dot6 f.normal f.normal = 1
  hull : ∀ x, x ∈ convexHull ℝ { w | w ∈ pts } ↔ ∀ f ∈ r.facets, dot6 x f.normal + f.offset ≤ 0
  some_facet : r.facets ≠ []
  some_vertex : r.vertices ≠ []
  vertices : ∀ v ∈ r.vertices, v ∈ pts
  corners : ∀ f ∈ r.facets, ∀ c, f.vertices c ∈ r.vertices ∧ dot6 (f.vertices c) f.normal + f.offset = 0

/-- Every answer of qhull is right (rounding and the joggling of option `QJ` left aside). -/
def Exact (q : Qhull) : Prop := ∀ pts r, q pts = some r → IsHull r pts

/-- The ball of radius `ρ` around `c` lies in `A`. -/
def BallIn (c : Wrench) (ρ : ℝ) (A : Set Wrench) : Prop := ∀ x, dot6 (x - c) (x - c) ≤ ρ ^ 2 → x ∈ A

end Simox.Gpl.Spec
