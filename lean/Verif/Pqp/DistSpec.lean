/-
What the properties of distance and tolerance queries are about.  Nothing here depends on how queries are
answered.
-/
import Verif.Pqp.Spec

namespace Simox.Pqp

/-- `d` is the smallest distance of points of two objects: it occurs, and no smaller one does. -/
def IsDistance (g1 : Pose) (has1 : V3 → Prop) (g2 : Pose) (has2 : V3 → Prop) (d : ℝ) : Prop :=
  (∃ p q, has1 p ∧ has2 q ∧ euclid (g1.at p) (g2.at q) = d) ∧
  ∀ p q, has1 p → has2 q → d ≤ euclid (g1.at p) (g2.at q)

/-- Some triangle of a list has the point. -/
def TrisHave (ts : List Tri) (p : V3) : Prop := ∃ t ∈ ts, t.has p

/-- The triangle is not tiny: the square of twice its area is more than `10^-15`, unless its corners are on
one line. -/
def Tri.sized (t : Tri) : Prop :=
  cross (vsub t.p2 t.p1) (vsub t.p3 t.p1) = zero3 ∨
  1 / 10 ^ 15 < dot (cross (vsub t.p2 t.p1) (vsub t.p3 t.p1)) (cross (vsub t.p2 t.p1) (vsub t.p3 t.p1))

/-- No face of the mesh is tiny. -/
def Mesh.sized (m : Mesh) : Prop :=
  ∀ i j k a b c, (i, j, k) ∈ m.faces → m.vertices[i]? = some a → m.vertices[j]? = some b →
    m.vertices[k]? = some c → cross (vsub b a) (vsub c a) = zero3 ∨
      1 / 10 ^ 15 < dot (cross (vsub b a) (vsub c a)) (cross (vsub b a) (vsub c a))

end Simox.Pqp
