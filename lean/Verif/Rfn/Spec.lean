import Verif.Rfn.Model

/-!
# Specification: triangles in space and surfaces made of them
-/

namespace Simox.Rfn

/-- A triangle with a normal. -/
structure Tri where
  a : V3
  b : V3
  c : V3
  normal : V3

/-- All indices of the faces are those of vertices. -/
def Valid (m : Mesh) : Prop :=
  ∀ f ∈ m.faces, f.id1 < m.vertices.length ∧ f.id2 < m.vertices.length ∧ f.id3 < m.vertices.length

/-- The triangle of a face. -/
def triOf (vs : List V3) (f : Face) : Tri := ⟨vs.getD f.id1 0, vs.getD f.id2 0, vs.getD f.id3 0, f.normal⟩

/-- The triangles of a mesh. -/
def soup (m : Mesh) : List Tri := m.faces.map (triOf m.vertices)

/-- The points of a triangle. -/
def Tri.points (t : Tri) : Set V3 :=
  {x | ∃ u v w : ℝ, 0 ≤ u ∧ 0 ≤ v ∧ 0 ≤ w ∧ u + v + w = 1 ∧ x = u • t.a + v • t.b + w • t.c}

/-- The vector with the direction given by the orientation of the triangle and twice its area as length. -/
def Tri.area (t : Tri) : V3 := crossProduct (t.b - t.a) (t.c - t.a)

/-- The directed edges. -/
def Tri.edges (t : Tri) : List (V3 × V3) := [(t.a, t.b), (t.b, t.c), (t.c, t.a)]

/-- The distance of two points. -/
noncomputable def dist3 (x y : V3) : ℝ :=
  Real.sqrt ((x 0 - y 0) ^ 2 + (x 1 - y 1) ^ 2 + (x 2 - y 2) ^ 2)

/-- `l` is a partition of the triangle `t` into triangles with edges of length at most `d`: they cover the
triangle and nothing else, their areas sum up to its area, and each has the orientation and the normal of `t`. -/
structure Partition (d : ℝ) (t : Tri) (l : List Tri) : Prop where
  short : ∀ x ∈ l, ∀ e ∈ x.edges, dist3 e.1 e.2 ≤ d
  cover : ∀ p, p ∈ t.points ↔ ∃ x ∈ l, p ∈ x.points
  area : (l.map Tri.area).sum = t.area
  same : ∀ x ∈ l, ∃ k : Nat, x.area = (1 / 2 : ℝ) ^ k • t.area
  normal : ∀ x ∈ l, x.normal = t.normal

/-- A closed surface: every edge is used in one direction as often as in the other. -/
def Closed (l : List Tri) : Prop := (l.flatMap Tri.edges).Perm ((l.flatMap Tri.edges).map Prod.swap)

/-- The scalar product. -/
def dot3 (x y : V3) : ℝ := x 0 * y 0 + x 1 * y 1 + x 2 * y 2

/-- `t'` is the triangle `t`, oriented to the side its normal points to, with the unit normal that belongs to this
orientation. -/
structure Oriented (t t' : Tri) : Prop where
  points : t'.points = t.points
  corners : (t'.a = t.a ∧ t'.b = t.b ∧ t'.c = t.c) ∨ (t'.a = t.c ∧ t'.b = t.b ∧ t'.c = t.a)
  side : dot3 t'.area t.normal = |dot3 t.area t.normal|
  normal : 1 / 10000000000 ≤ dist3 t'.area 0 → t'.area = dist3 t'.area 0 • t'.normal ∧ dist3 t'.normal 0 = 1

end Simox.Rfn
