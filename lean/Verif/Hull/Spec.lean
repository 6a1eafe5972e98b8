import Verif.Hull.Model
import Mathlib.Analysis.Convex.Extreme

/-!
# Specification: convex hulls in the plane

Nothing here refers to the functions that compute a hull.
-/

namespace Simox.Hull

/-- The square of the distance of two points. -/
def sqDist (a b : Pt) : ℝ := (a.1 - b.1) ^ 2 + (a.2 - b.2) ^ 2

/-- `kept` are some of the points, any two of them at least 1e-4 apart, such that each of the points is less
than 1e-4 from one of them. -/
structure Thinned (points kept : List Pt) : Prop where
  sub : ∀ k ∈ kept, k ∈ points
  near : ∀ p ∈ points, ∃ k ∈ kept, sqDist k p < (1 / 10 ^ 4) ^ 2
  apart : kept.Pairwise fun a b => (1 / 10 ^ 4) ^ 2 ≤ sqDist a b

/-- The convex hull of the points of a list (Mathlib's notion). -/
def hullSet (S : List Pt) : Set Pt := convexHull ℝ {q | q ∈ S}

/-- `q` is to the left of, or on, the line from `a` to `b`: the determinant of `b - a` and `q - a` is not
negative. -/
def LeftOf (a b q : Pt) : Prop := (b.1 - a.1) * (q.2 - a.2) - (b.2 - a.2) * (q.1 - a.1) ≥ 0

/-- `h` is the convex hull of `S` as a polygon. -/
structure Polygon (S : List Pt) (h : ConvexHull2D) : Prop where
  /-- The vertices are the extreme points of the hull. -/
  corners : ∀ v, v ∈ h.vertices ↔ v ∈ (hullSet S).extremePoints ℝ
  /-- The hull of the vertices is the hull of the points. -/
  span : hullSet h.vertices = hullSet S
  /-- The segments connect each vertex to the next one, the last one to the first. -/
  ring : h.segments = (List.range h.vertices.length).map fun u => (u, (u + 1) % h.vertices.length)
  /-- Counter clockwise: all points are left of all segments. -/
  left : ∀ i j a b, (i, j) ∈ h.segments → h.vertices[i]? = some a → h.vertices[j]? = some b →
    ∀ q ∈ S, LeftOf a b q
  /-- No vertex occurs twice, unless all points are on one vertical line. -/
  once : (∃ p ∈ S, ∃ q ∈ S, p.1 ≠ q.1) → h.vertices.Nodup

end Simox.Hull
