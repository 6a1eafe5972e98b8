import Verif.Sph.GeoLemmas

/-!
# Approximations of spheres: the base polyhedra cover all directions
-/

namespace Simox.Sph

theorem InCone.perm213 {d a b c : Vec} : InCone d a b c → InCone d b a c := by
  rintro ⟨α, β, γ, h1, h2, h3, rfl⟩
  exact ⟨β, α, γ, h2, h1, h3, by ext <;> simp <;> ring⟩

theorem InCone.perm132 {d a b c : Vec} : InCone d a b c → InCone d a c b := by
  rintro ⟨α, β, γ, h1, h2, h3, rfl⟩
  exact ⟨α, γ, β, h1, h3, h2, by ext <;> simp <;> ring⟩

theorem InCone.perm231 {d a b c : Vec} (h : InCone d a b c) : InCone d b c a := h.perm213.perm132

theorem InCone.perm312 {d a b c : Vec} (h : InCone d a b c) : InCone d c a b := h.perm132.perm213

theorem InCone.perm321 {d a b c : Vec} (h : InCone d a b c) : InCone d c b a := h.perm231.perm213

/-- The octahedron. -/
theorem octahedron_covers : Covers Base.octahedron.graph.vertices Base.octahedron.graph.faces := by
  intro d
  have key : ∀ sx sy sz x y z : ℝ, 0 ≤ x → 0 ≤ y → 0 ≤ z → d = ⟨sx * x, sy * y, sz * z⟩ → InCone d ⟨sx, 0, 0⟩ ⟨0, sy, 0⟩ ⟨0, 0, sz⟩ := by
    intro sx sy sz x y z hx hy hz e
    exact ⟨x, y, z, hx, hy, hz, by rw [e]; ext <;> simp <;> ring⟩
  rcases le_total 0 d.x with hx | hx <;> rcases le_total 0 d.y with hy | hy <;> rcases le_total 0 d.z with hz | hz
  · exact ⟨face 1 5 3, by simp [Base.graph], _, _, _, rfl, rfl, rfl, (key 1 1 1 d.x d.y d.z hx hy hz (by ext <;> simp)).perm132⟩
  · exact ⟨face 1 3 6, by simp [Base.graph], _, _, _, rfl, rfl, rfl, (key 1 1 (-1) d.x d.y (-d.z) hx hy (neg_nonneg.2 hz) (by ext <;> simp))⟩
  · exact ⟨face 4 5 1, by simp [Base.graph], _, _, _, rfl, rfl, rfl, (key 1 (-1) 1 d.x (-d.y) d.z hx (neg_nonneg.2 hy) hz (by ext <;> simp)).perm231⟩
  · exact ⟨face 4 1 6, by simp [Base.graph], _, _, _, rfl, rfl, rfl, (key 1 (-1) (-1) d.x (-d.y) (-d.z) hx (neg_nonneg.2 hy) (neg_nonneg.2 hz) (by ext <;> simp)).perm213⟩
  · exact ⟨face 3 5 2, by simp [Base.graph], _, _, _, rfl, rfl, rfl, (key (-1) 1 1 (-d.x) d.y d.z (neg_nonneg.2 hx) hy hz (by ext <;> simp)).perm231⟩
  · exact ⟨face 3 2 6, by simp [Base.graph], _, _, _, rfl, rfl, rfl, (key (-1) 1 (-1) (-d.x) d.y (-d.z) (neg_nonneg.2 hx) hy (neg_nonneg.2 hz) (by ext <;> simp)).perm213⟩
  · exact ⟨face 2 5 4, by simp [Base.graph], _, _, _, rfl, rfl, rfl, (key (-1) (-1) 1 (-d.x) (-d.y) d.z (neg_nonneg.2 hx) (neg_nonneg.2 hy) hz (by ext <;> simp)).perm132⟩
  · exact ⟨face 2 4 6, by simp [Base.graph], _, _, _, rfl, rfl, rfl, (key (-1) (-1) (-1) (-d.x) (-d.y) (-d.z) (neg_nonneg.2 hx) (neg_nonneg.2 hy) (neg_nonneg.2 hz) (by ext <;> simp))⟩

/-- Four directions that sum up to zero, and a vector between them. -/
theorem tetra_cone {s c0 c1 c2 c3 : ℝ} (hs : 0 < s) {d : Vec}
    (hd : d = c0 • ⟨s, s, s⟩ + (c1 • ⟨-s, -s, s⟩ + (c2 • ⟨-s, s, -s⟩ + c3 • (⟨s, -s, -s⟩ : Vec)))) :
    (c3 ≤ c0 → c3 ≤ c1 → c3 ≤ c2 → InCone d ⟨s, s, s⟩ ⟨-s, -s, s⟩ ⟨-s, s, -s⟩) ∧ (c2 ≤ c0 → c2 ≤ c1 → c2 ≤ c3 → InCone d ⟨s, s, s⟩ ⟨s, -s, -s⟩ ⟨-s, -s, s⟩) ∧
    (c0 ≤ c1 → c0 ≤ c2 → c0 ≤ c3 → InCone d ⟨-s, s, -s⟩ ⟨-s, -s, s⟩ ⟨s, -s, -s⟩) ∧ (c1 ≤ c0 → c1 ≤ c2 → c1 ≤ c3 → InCone d ⟨s, -s, -s⟩ ⟨s, s, s⟩ ⟨-s, s, -s⟩) := by
  subst hd
  refine ⟨fun h1 h2 h3 => ⟨c0 - c3, c1 - c3, c2 - c3, by linarith, by linarith, by linarith, ?_⟩, fun h1 h2 h3 => ⟨c0 - c2, c3 - c2, c1 - c2, by linarith, by linarith, by linarith, ?_⟩,
    fun h1 h2 h3 => ⟨c2 - c0, c1 - c0, c3 - c0, by linarith, by linarith, by linarith, ?_⟩, fun h1 h2 h3 => ⟨c3 - c1, c0 - c1, c2 - c1, by linarith, by linarith, by linarith, ?_⟩⟩ <;>
  · ext <;> simp <;> ring

/-- The tetrahedron. -/
theorem tetrahedron_covers : Covers Base.tetrahedron.graph.vertices Base.tetrahedron.graph.faces := by
  intro d
  have hs : 0 < √3 := Real.sqrt_pos.2 (by norm_num)
  obtain ⟨h3, h2, h0, h1⟩ := tetra_cone (s := √3) (c0 := (d.x + d.y + d.z) / (4 * √3)) (c1 := (-d.x - d.y + d.z) / (4 * √3)) (c2 := (-d.x + d.y - d.z) / (4 * √3)) (c3 := (d.x - d.y - d.z) / (4 * √3)) (d := d) hs (by
    generalize √3 = s at hs ⊢
    have := hs.ne'
    ext <;> simp <;> field_simp <;> ring)
  generalize (d.x + d.y + d.z) / (4 * √3) = c0 at *
  generalize (-d.x - d.y + d.z) / (4 * √3) = c1 at *
  generalize (-d.x + d.y - d.z) / (4 * √3) = c2 at *
  generalize (d.x - d.y - d.z) / (4 * √3) = c3 at *
  rcases le_total c0 c1 with a | a <;> rcases le_total c2 c3 with b | b
  · rcases le_total c0 c2 with c | c
    · exact ⟨face 3 2 4, by simp [Base.graph], _, _, _, rfl, rfl, rfl, h0 a c (c.trans b)⟩
    · exact ⟨face 1 4 2, by simp [Base.graph], _, _, _, rfl, rfl, rfl, h2 c (c.trans a) b⟩
  · rcases le_total c0 c3 with c | c
    · exact ⟨face 3 2 4, by simp [Base.graph], _, _, _, rfl, rfl, rfl, h0 a (c.trans b) c⟩
    · exact ⟨face 1 2 3, by simp [Base.graph], _, _, _, rfl, rfl, rfl, h3 c (c.trans a) b⟩
  · rcases le_total c1 c2 with c | c
    · exact ⟨face 4 1 3, by simp [Base.graph], _, _, _, rfl, rfl, rfl, h1 a c (c.trans b)⟩
    · exact ⟨face 1 4 2, by simp [Base.graph], _, _, _, rfl, rfl, rfl, h2 (c.trans a) c b⟩
  · rcases le_total c1 c3 with c | c
    · exact ⟨face 4 1 3, by simp [Base.graph], _, _, _, rfl, rfl, rfl, h1 a (c.trans b) c⟩
    · exact ⟨face 1 2 3, by simp [Base.graph], _, _, _, rfl, rfl, rfl, h3 (c.trans a) c b⟩

/-- One eighth of the icosahedron. -/
theorem ico_cone {τ o : ℝ} (hτ : 0 < τ) (ho : 0 < o) {sx sy sz x y z : ℝ} (hx : 0 ≤ x) (hy : 0 ≤ y) (hz : 0 ≤ z) {d : Vec} (e : d = ⟨sx * x, sy * y, sz * z⟩) :
    InCone d ⟨sx * τ, -(sy * o), 0⟩ ⟨sx * τ, sy * o, 0⟩ ⟨sx * o, 0, sz * τ⟩ ∨ InCone d ⟨0, sy * τ, -(sz * o)⟩ ⟨sx * τ, sy * o, 0⟩ ⟨0, sy * τ, sz * o⟩ ∨
    InCone d ⟨-(sx * o), 0, sz * τ⟩ ⟨sx * o, 0, sz * τ⟩ ⟨0, sy * τ, sz * o⟩ ∨ InCone d ⟨sx * τ, sy * o, 0⟩ ⟨sx * o, 0, sz * τ⟩ ⟨0, sy * τ, sz * o⟩ := by
  subst e
  have hτ' := hτ.ne'
  have ho' := ho.ne'
  by_cases h1 : τ * τ * y + o * o * z ≤ τ * o * x
  · left
    have h : 0 ≤ x - τ * y / o - o * z / τ := by
      have : x - τ * y / o - o * z / τ = (τ * o * x - (τ * τ * y + o * o * z)) / (τ * o) := by field_simp; ring
      rw [this]
      exact div_nonneg (by linarith) (by positivity)
    generalize hα : x - τ * y / o - o * z / τ = α at h
    have hx' : x = α + τ * y / o + o * z / τ := by linarith
    refine ⟨α / (2 * τ), α / (2 * τ) + y / o, z / τ, by positivity, by positivity, by positivity, ?_⟩
    rw [hx']
    ext <;> simp <;> field_simp <;> ring
  by_cases h2 : o * o * x + τ * τ * z ≤ τ * o * y
  · right; left
    have h : 0 ≤ y - o * x / τ - τ * z / o := by
      have : y - o * x / τ - τ * z / o = (τ * o * y - (o * o * x + τ * τ * z)) / (τ * o) := by field_simp; ring
      rw [this]
      exact div_nonneg (by linarith) (by positivity)
    generalize hα : y - o * x / τ - τ * z / o = α at h
    have hx' : y = α + o * x / τ + τ * z / o := by linarith
    refine ⟨α / (2 * τ), x / τ, α / (2 * τ) + z / o, by positivity, by positivity, by positivity, ?_⟩
    rw [hx']
    ext <;> simp <;> field_simp <;> ring
  by_cases h3 : τ * τ * x + o * o * y ≤ τ * o * z
  · right; right; left
    have h : 0 ≤ z - τ * x / o - o * y / τ := by
      have : z - τ * x / o - o * y / τ = (τ * o * z - (τ * τ * x + o * o * y)) / (τ * o) := by field_simp; ring
      rw [this]
      exact div_nonneg (by linarith) (by positivity)
    generalize hα : z - τ * x / o - o * y / τ = α at h
    have hx' : z = α + τ * x / o + o * y / τ := by linarith
    refine ⟨α / (2 * τ), α / (2 * τ) + x / o, y / τ, by positivity, by positivity, by positivity, ?_⟩
    rw [hx']
    ext <;> simp <;> field_simp <;> ring
  right; right; right
  push Not at h1 h2 h3
  have hD : 0 < τ ^ 3 + o ^ 3 := by positivity
  have hD' := hD.ne'
  refine ⟨(τ * τ * x + o * o * y - τ * o * z) / (τ ^ 3 + o ^ 3), (o * o * x - τ * o * y + τ * τ * z) / (τ ^ 3 + o ^ 3), (τ * τ * y - o * τ * x + o * o * z) / (τ ^ 3 + o ^ 3),
    div_nonneg (by linarith) hD.le, div_nonneg (by linarith) hD.le, div_nonneg (by linarith) hD.le, ?_⟩
  ext <;> simp <;> field_simp <;> ring

/-- The vertices of the icosahedron. -/
def icoVertices (τ o : ℝ) : List Vec := [⟨τ, o, 0⟩, ⟨-τ, o, 0⟩, ⟨-τ, -o, 0⟩, ⟨τ, -o, 0⟩, ⟨o, 0, τ⟩, ⟨o, 0, -τ⟩, ⟨-o, 0, -τ⟩, ⟨-o, 0, τ⟩, ⟨0, τ, o⟩, ⟨0, -τ, o⟩, ⟨0, -τ, -o⟩, ⟨0, τ, -o⟩]

/-- The icosahedron. -/
theorem icosahedron_covers : Covers Base.icosahedron.graph.vertices Base.icosahedron.graph.faces := by
  have key : ∀ τ o : ℝ, 0 < τ → 0 < o → Covers (icoVertices τ o) Base.icosahedron.graph.faces := by
    intro τ o hτ ho d
    rcases le_total 0 d.x with hx | hx <;> rcases le_total 0 d.y with hy | hy <;> rcases le_total 0 d.z with hz | hz
    · have h := ico_cone hτ ho (sx := 1) (sy := 1) (sz := 1) (x := d.x) (y := d.y) (z := d.z) (d := d) hx hy hz (by ext <;> simp)
      simp only [one_mul, neg_mul, neg_neg] at h
      rcases h with h | h | h | h
      · exact ⟨face 1 4 5, by simp [Base.graph], _, _, _, rfl, rfl, rfl, h.perm213⟩
      · exact ⟨face 9 12 1, by simp [Base.graph], _, _, _, rfl, rfl, rfl, h.perm312⟩
      · exact ⟨face 5 8 9, by simp [Base.graph], _, _, _, rfl, rfl, rfl, h.perm213⟩
      · exact ⟨face 9 1 5, by simp [Base.graph], _, _, _, rfl, rfl, rfl, h.perm312⟩
    · have h := ico_cone hτ ho (sx := 1) (sy := 1) (sz := -1) (x := d.x) (y := d.y) (z := -d.z) (d := d) hx hy (neg_nonneg.2 hz) (by ext <;> simp)
      simp only [one_mul, neg_mul, neg_neg] at h
      rcases h with h | h | h | h
      · exact ⟨face 1 6 4, by simp [Base.graph], _, _, _, rfl, rfl, rfl, h.perm231⟩
      · exact ⟨face 9 12 1, by simp [Base.graph], _, _, _, rfl, rfl, rfl, h.perm132⟩
      · exact ⟨face 6 12 7, by simp [Base.graph], _, _, _, rfl, rfl, rfl, h.perm231⟩
      · exact ⟨face 12 6 1, by simp [Base.graph], _, _, _, rfl, rfl, rfl, h.perm321⟩
    · have h := ico_cone hτ ho (sx := 1) (sy := -1) (sz := 1) (x := d.x) (y := -d.y) (z := d.z) (d := d) hx (neg_nonneg.2 hy) hz (by ext <;> simp)
      simp only [one_mul, neg_mul, neg_neg] at h
      rcases h with h | h | h | h
      · exact ⟨face 1 4 5, by simp [Base.graph], _, _, _, rfl, rfl, rfl, h⟩
      · exact ⟨face 10 4 11, by simp [Base.graph], _, _, _, rfl, rfl, rfl, h.perm321⟩
      · exact ⟨face 5 10 8, by simp [Base.graph], _, _, _, rfl, rfl, rfl, h.perm231⟩
      · exact ⟨face 5 4 10, by simp [Base.graph], _, _, _, rfl, rfl, rfl, h.perm213⟩
    · have h := ico_cone hτ ho (sx := 1) (sy := -1) (sz := -1) (x := d.x) (y := -d.y) (z := -d.z) (d := d) hx (neg_nonneg.2 hy) (neg_nonneg.2 hz) (by ext <;> simp)
      simp only [one_mul, neg_mul, neg_neg] at h
      rcases h with h | h | h | h
      · exact ⟨face 1 6 4, by simp [Base.graph], _, _, _, rfl, rfl, rfl, h.perm132⟩
      · exact ⟨face 10 4 11, by simp [Base.graph], _, _, _, rfl, rfl, rfl, h⟩
      · exact ⟨face 6 7 11, by simp [Base.graph], _, _, _, rfl, rfl, rfl, h.perm213⟩
      · exact ⟨face 6 11 4, by simp [Base.graph], _, _, _, rfl, rfl, rfl, h.perm231⟩
    · have h := ico_cone hτ ho (sx := -1) (sy := 1) (sz := 1) (x := -d.x) (y := d.y) (z := d.z) (d := d) (neg_nonneg.2 hx) hy hz (by ext <;> simp)
      simp only [one_mul, neg_mul, neg_neg] at h
      rcases h with h | h | h | h
      · exact ⟨face 3 2 8, by simp [Base.graph], _, _, _, rfl, rfl, rfl, h⟩
      · exact ⟨face 9 2 12, by simp [Base.graph], _, _, _, rfl, rfl, rfl, h.perm321⟩
      · exact ⟨face 5 8 9, by simp [Base.graph], _, _, _, rfl, rfl, rfl, h⟩
      · exact ⟨face 8 2 9, by simp [Base.graph], _, _, _, rfl, rfl, rfl, h.perm213⟩
    · have h := ico_cone hτ ho (sx := -1) (sy := 1) (sz := -1) (x := -d.x) (y := d.y) (z := -d.z) (d := d) (neg_nonneg.2 hx) hy (neg_nonneg.2 hz) (by ext <;> simp)
      simp only [one_mul, neg_mul, neg_neg] at h
      rcases h with h | h | h | h
      · exact ⟨face 3 7 2, by simp [Base.graph], _, _, _, rfl, rfl, rfl, h.perm132⟩
      · exact ⟨face 9 2 12, by simp [Base.graph], _, _, _, rfl, rfl, rfl, h⟩
      · exact ⟨face 6 12 7, by simp [Base.graph], _, _, _, rfl, rfl, rfl, h.perm132⟩
      · exact ⟨face 7 12 2, by simp [Base.graph], _, _, _, rfl, rfl, rfl, h.perm231⟩
    · have h := ico_cone hτ ho (sx := -1) (sy := -1) (sz := 1) (x := -d.x) (y := -d.y) (z := d.z) (d := d) (neg_nonneg.2 hx) (neg_nonneg.2 hy) hz (by ext <;> simp)
      simp only [one_mul, neg_mul, neg_neg] at h
      rcases h with h | h | h | h
      · exact ⟨face 3 2 8, by simp [Base.graph], _, _, _, rfl, rfl, rfl, h.perm213⟩
      · exact ⟨face 10 11 3, by simp [Base.graph], _, _, _, rfl, rfl, rfl, h.perm312⟩
      · exact ⟨face 5 10 8, by simp [Base.graph], _, _, _, rfl, rfl, rfl, h.perm132⟩
      · exact ⟨face 8 10 3, by simp [Base.graph], _, _, _, rfl, rfl, rfl, h.perm231⟩
    · have h := ico_cone hτ ho (sx := -1) (sy := -1) (sz := -1) (x := -d.x) (y := -d.y) (z := -d.z) (d := d) (neg_nonneg.2 hx) (neg_nonneg.2 hy) (neg_nonneg.2 hz) (by ext <;> simp)
      simp only [one_mul, neg_mul, neg_neg] at h
      rcases h with h | h | h | h
      · exact ⟨face 3 7 2, by simp [Base.graph], _, _, _, rfl, rfl, rfl, h.perm231⟩
      · exact ⟨face 10 11 3, by simp [Base.graph], _, _, _, rfl, rfl, rfl, h.perm132⟩
      · exact ⟨face 6 7 11, by simp [Base.graph], _, _, _, rfl, rfl, rfl, h⟩
      · exact ⟨face 7 3 11, by simp [Base.graph], _, _, _, rfl, rfl, rfl, h.perm213⟩
  exact key _ _ (by norm_num) (by norm_num)

theorem base_covers (b : Base) : Covers b.graph.vertices b.graph.faces := by
  cases b
  · exact tetrahedron_covers
  · exact octahedron_covers
  · exact icosahedron_covers

end Simox.Sph
