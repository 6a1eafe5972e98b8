import Verif.Mc.CacheProps

/-!
# Marching cubes: specification
-/

namespace Simox.Mc

variable {K : Type} [Field K] [LinearOrder K]

/-- The directed sides of a triangle. -/
def Tri.sides (t : Tri K) : List (Pos K × Pos K) := [(t.p1, t.p2), (t.p2, t.p3), (t.p3, t.p1)]

/-- All directed sides of a mesh. -/
def meshSides (m : List (Tri K)) : List (Pos K × Pos K) := m.flatMap Tri.sides

/-- A mesh without holes and with consistent orientation: every side occurs as often in one direction as in the other. -/
def Closed (m : List (Tri K)) : Prop := ∀ a b, (meshSides m).count (a, b) = (meshSides m).count (b, a)

/-- Grid points (or cells) next to each other. -/
def Neighbour (p q : Index) : Prop :=
  (q.1 = p.1 + 1 ∨ p.1 = q.1 + 1) ∧ q.2.1 = p.2.1 ∧ q.2.2 = p.2.2 ∨
  q.1 = p.1 ∧ (q.2.1 = p.2.1 + 1 ∨ p.2.1 = q.2.1 + 1) ∧ q.2.2 = p.2.2 ∨
  q.1 = p.1 ∧ q.2.1 = p.2.1 ∧ (q.2.2 = p.2.2 + 1 ∨ p.2.2 = q.2.2 + 1)

/-- Grid points on the boundary of the grid of `size` cells in each direction. -/
def OnBoundary (size : Int) (p : Index) : Prop :=
  p.1 = 0 ∨ p.1 = size ∨ p.2.1 = 0 ∨ p.2.1 = size ∨ p.2.2 = 0 ∨ p.2.2 = size

/-- The position of a grid point. -/
def toPos (p : Index) : Pos K := ((p.1 : K), (p.2.1 : K), (p.2.2 : K))

/-- The point at `mu` on the way from p to q. -/
def between (p q : Pos K) (mu : K) : Pos K :=
  (p.1 + mu * (q.1 - p.1), p.2.1 + mu * (q.2.1 - p.2.1), p.2.2 + mu * (q.2.2 - p.2.2))

/-- A corner of the cell. -/
def IsCorner (c p : Index) : Prop :=
  (p.1 = c.1 ∨ p.1 = c.1 + 1) ∧ (p.2.1 = c.2.1 ∨ p.2.1 = c.2.1 + 1) ∧ (p.2.2 = c.2.2 ∨ p.2.2 = c.2.2 + 1)

/-- The surface goes through the cell: it has corners on both sides. -/
def HasSurface (g : Index → K) (iso : K) (c : Index) : Prop :=
  ∃ p q, IsCorner c p ∧ IsCorner c q ∧ iso < g p ∧ g q ≤ iso

/-- No two neighbouring grid points on different sides are both within 1e-5 of the level. -/
def NoTies (g : Index → K) (iso : K) (size : Int) : Prop :=
  ∀ p q, InRange (size + 1) p → InRange (size + 1) q → Neighbour p q → iso < g p → g q ≤ iso →
    1 / 100000 ≤ g p - iso ∨ 1 / 100000 ≤ iso - g q

/-- The corners of a triangle. -/
def Tri.corners (t : Tri K) : List (Pos K) := [t.p1, t.p2, t.p3]

end Simox.Mc
