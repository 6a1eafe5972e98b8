import Verif.Sph.Model

/-!
# Approximations of spheres: what is claimed
-/

namespace Simox.Sph

/-- The corners of a face are vertices. -/
def Graph.Valid (g : Graph) : Prop := ∀ f ∈ g.faces, f.a < g.vertices.length ∧ f.b < g.vertices.length ∧ f.c < g.vertices.length

/-- The number of faces of a base. -/
def Base.count : Base → ℕ
  | .tetrahedron => 4
  | .octahedron => 8
  | .icosahedron => 20

/-- A direction lies between three others. -/
def InCone (d a b c : Vec) : Prop := ∃ α β γ : ℝ, 0 ≤ α ∧ 0 ≤ β ∧ 0 ≤ γ ∧ d = α • a + β • b + γ • c

/-- Seen from the origin, the faces cover every direction. -/
def Covers (vs : List Vec) (fs : List Face) : Prop := ∀ d, ∃ f ∈ fs, ∃ a b c, vs[f.a]? = some a ∧ vs[f.b]? = some b ∧ vs[f.c]? = some c ∧ InCone d a b c

/-- `p` has the same direction as `w`, or is zero. -/
def Along (p w : Vec) : Prop := ∃ k : ℝ, 0 ≤ k ∧ p = k • w

/-- A lookup that finds a vertex finds one in the same direction. -/
def CleanLookup (eps : ℝ) (p : Vec) (vs : List Vec) : Prop := ∀ i w, findVertex p eps vs = some i → vs[i]? = some w → Along p w

/-- When the faces are divided, no two different directions are taken for the same. -/
def Clean (eps : ℝ) : List Vec → List Face → Prop
  | _, [] => True
  | vs, f :: fs => (∀ a b c, vs[f.a]? = some a → vs[f.b]? = some b → vs[f.c]? = some c →
      CleanLookup eps (mid a b) vs ∧ CleanLookup eps (mid b c) (lookup eps (mid a b) vs).1 ∧ CleanLookup eps (mid c a) (lookup eps (mid b c) (lookup eps (mid a b) vs).1).1) ∧
    ∀ vs' new, divideFace eps vs f = some (vs', new) → Clean eps vs' fs

/-- No two different directions are taken for the same, in any of the levels. -/
def CleanLevels (eps radius : ℝ) : ℕ → Graph → Prop
  | 0, _ => True
  | n + 1, g => Clean eps g.vertices g.faces ∧ ∀ g', g.subDivide eps = some g' → CleanLevels eps radius n (g'.project radius)

/-- The angle between two vectors. -/
noncomputable def trueAngle (v w : Vec) : ℝ := Real.arccos (v.dot w / (v.norm * w.norm))

/-- A point of a triangle. -/
def InTriangle (q a b c : Vec) : Prop := ∃ α β γ : ℝ, 0 ≤ α ∧ 0 ≤ β ∧ 0 ≤ γ ∧ α + β + γ = 1 ∧ q = α • a + β • b + γ • c

end Simox.Sph
