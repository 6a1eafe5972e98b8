import Verif.Sph.CleanLemmas

/-!
# C159, C160, C161: approximations of spheres
-/

namespace Simox.Sph

/-- **C159** (the triangles).  For every base, every number of levels, every radius and whatever the result held before, a sphere is generated: it has four times as many faces for each level, the
corners of all faces are vertices, and all vertices are on the sphere. -/
theorem C159_graph (store : Sphere) (base : Base) (n : ℕ) (radius : ℝ) : ∃ s, generate store base n radius = some s ∧ s.faces.length = 4 ^ n * base.count ∧
    (∀ f ∈ s.faces, f.a < s.vertices.length ∧ f.b < s.vertices.length ∧ f.c < s.vertices.length) ∧ ∀ v ∈ s.vertices, v.norm = |radius| := by
  obtain ⟨g, e, hv, hn, hr⟩ := levels_some (eps := 0.01) (radius := radius) n (base.graph.project radius) (project_valid (base_valid base)) (by
    intro v h
    obtain ⟨w, -, rfl⟩ := List.mem_map.1 h
    exact project_norm radius w)
  refine ⟨⟨g.vertices, g.faces, buildIndex g.faces 0 store.index⟩, ?_, ?_, hv, hr⟩
  · unfold generate
    rw [e]
  · rw [← base_count base]
    exact hn

/-- **C159** (projection).  A vertex other than the centre is moved to the sphere in its own direction. -/
theorem C159_project (radius : ℝ) (v : Vec) (hv : v ≠ ⟨0, 0, 0⟩) : project radius v = (radius / v.norm) • v := project_eq radius fun h => hv (norm_eq_zero h)

/-- **C159** (the faces of a vertex).  In a new result, the faces that are listed for a vertex are exactly those it is a corner of. -/
theorem C159_index {base : Base} {n : ℕ} {radius : ℝ} {s : Sphere} (h : generate Sphere.empty base n radius = some s) (v j : ℕ) : j ∈ s.index v ↔ ∃ f, s.faces[j]? = some f ∧ (f.a = v ∨ f.b = v ∨ f.c = v) := by
  unfold generate at h
  split at h
  · cases h
  · rename_i g e
    cases h
    simp only
    rw [mem_buildIndex]
    constructor
    · rintro (h | ⟨k, f, h1, h2, h3⟩)
      · cases h
      · rw [Nat.zero_add] at h2
        exact ⟨f, h2 ▸ h1, h3⟩
    · rintro ⟨f, h1, h2⟩
      exact Or.inr ⟨j, f, h1, (Nat.zero_add j).symm, h2⟩

/-- **C159** (results that are used again).  If the result held another sphere before, the lists are not emptied: after an icosahedron, the faces listed for a vertex of an octahedron need not
exist. -/
theorem C159_reuse_false : ∃ s s' : Sphere, generate Sphere.empty .icosahedron 0 1 = some s ∧ generate s .octahedron 0 1 = some s' ∧ ∃ j ∈ s'.index 0, s'.faces.length ≤ j := by
  obtain ⟨s, e, -, -, -⟩ := C159_graph Sphere.empty .icosahedron 0 1
  obtain ⟨s', e', hn, -, -⟩ := C159_graph s .octahedron 0 1
  have h : 12 ∈ s.index 0 := by
    refine (C159_index e 0 12).2 ⟨face 9 1 5, ?_, Or.inr (Or.inl rfl)⟩
    unfold generate at e
    cases e
    rfl
  refine ⟨s, s', e, e', 12, ?_, ?_⟩
  · unfold generate at e'
    cases e'
    exact (mem_buildIndex _ _ _ _ _).2 (Or.inl h)
  · rw [hn]
    decide

/-- **C160** (all directions).  If no two different directions are taken for the same while dividing, then every direction goes through a face, for all bases and all numbers of levels. -/
theorem C160_cover_partial (store : Sphere) (base : Base) (n : ℕ) {radius : ℝ} (hr : 0 < radius) (hc : CleanLevels 0.01 radius n (base.graph.project radius)) {s : Sphere}
    (h : generate store base n radius = some s) : Covers s.vertices s.faces := by
  unfold generate at h
  split at h
  · cases h
  · rename_i g e
    cases h
    refine levels_covers hr n _ (project_valid (base_valid base)) ?_ hc g e
    intro d
    obtain ⟨f, hf, hd⟩ := base_covers base d
    exact ⟨f, hf, project_has hr hd⟩

/-- **C160** (bases, and the octahedron divided once).  This holds for all bases that are not divided, and for the octahedron that is divided once, if its radius is at least 0.000002. -/
theorem C160_base (store : Sphere) (base : Base) {radius : ℝ} (hr : 0 < radius) {s : Sphere} (h : generate store base 0 radius = some s) : Covers s.vertices s.faces :=
  C160_cover_partial store base 0 hr trivial h

theorem C160_octahedron (store : Sphere) {radius : ℝ} (hr : 2 / 10 ^ 6 ≤ radius) {s : Sphere} (h : generate store .octahedron 1 radius = some s) : Covers s.vertices s.faces :=
  C160_cover_partial store .octahedron 1 (lt_of_lt_of_le (by norm_num) hr) (octahedron_clean hr) h

/-- **C160** (small radii).  With a radius below 0.000001, dividing never adds a vertex: all angles are taken for zero. -/
theorem C160_small_false (store : Sphere) (base : Base) (n : ℕ) {radius : ℝ} (h0 : 0 ≤ radius) (h1 : radius < 1 / 10 ^ 6) {s : Sphere} (h : generate store base n radius = some s) :
    s.vertices.length = base.graph.vertices.length := by
  unfold generate at h
  split at h
  · cases h
  · rename_i g e
    cases h
    have hsq : radius ^ 2 < 1 / 10 ^ 12 := by
      have := mul_lt_mul'' h1 h1 h0 h0
      rw [sq]
      refine this.trans_le ?_
      norm_num
    have := levels_small h0 hsq n (base.graph.project radius) (by
      intro v hv
      obtain ⟨w, -, rfl⟩ := List.mem_map.1 hv
      rw [project_norm, abs_of_nonneg h0]) (by cases base <;> simp [Graph.project, Base.graph]) g e
    simpa [Graph.project] using this

/-- **C161** (looking up a vertex).  If neither the given direction nor the vertices are too short, the vertex with the least angle to the direction is found, the first if there are several; none
is found if all are more than `eps` away. -/
theorem C161_found {p : Vec} {eps : ℝ} {vs : List Vec} (hl : ∀ v ∈ vs, 1 / 10 ^ 12 ≤ p.norm * v.norm) (i : ℕ) : findVertex p eps vs = some i ↔
    ∃ v, vs[i]? = some v ∧ trueAngle p v ≤ eps ∧ (∀ w ∈ vs, trueAngle p v ≤ trueAngle p w) ∧ ∀ j w, j < i → vs[j]? = some w → trueAngle p v < trueAngle p w := by
  have ht : ∀ v ∈ vs, angle p v = trueAngle p v := fun v hv => angle_eq (hl v hv)
  unfold findVertex
  rcases nearest_spec p vs vs 0 none (by simp) (Nat.zero_le _) rfl with ⟨e, e'⟩ | ⟨d, j, e, ⟨v, hv, hd⟩, hall⟩
  · rw [e']
    simp [e]
  · rw [e]
    simp only
    have hdv := hd
    rw [ht v (List.mem_of_getElem? hv)] at hdv
    constructor
    · intro h
      split at h
      · cases h
      · rename_i hle
        cases h
        refine ⟨v, hv, hdv ▸ not_lt.1 hle, fun w hw => ?_, fun k w hk hw => ?_⟩
        · obtain ⟨k, hk⟩ := List.mem_iff_getElem?.1 hw
          rw [← hdv, ← ht w hw]
          exact (hall k w hk).1
        · rw [← hdv, ← ht w (List.mem_of_getElem? hw)]
          exact (hall k w hw).2 hk
    · rintro ⟨w, hw, h1, h2, h3⟩
      have hij : j = i := by
        rcases lt_trichotomy j i with h | h | h
        · have a := h3 j v h hv
          have b := (hall i w hw).1
          rw [hdv, ht w (List.mem_of_getElem? hw)] at b
          exact absurd a (not_lt.2 b)
        · exact h
        · have a := (hall i w hw).2 h
          have b := h2 v (List.mem_of_getElem? hv)
          rw [hdv, ht w (List.mem_of_getElem? hw)] at a
          exact absurd a (not_lt.2 b)
      subst hij
      rw [hv] at hw
      cases hw
      rw [if_neg (not_lt.2 (hdv ▸ h1))]

/-- **C161** (distances).  On a sphere, and with a large `eps`, the vertex that is found for a point is the one nearest to it. -/
theorem C161_closest {p : Vec} {eps r : ℝ} {vs : List Vec} (he : Real.pi ≤ eps) (hne : vs ≠ []) (hr : ∀ v ∈ vs, v.norm = r) (hl : 1 / 10 ^ 12 ≤ p.norm * r) :
    ∃ i v, findVertex p eps vs = some i ∧ vs[i]? = some v ∧ ∀ w ∈ vs, (p - v).norm ≤ (p - w).norm := by
  have hl' : ∀ v ∈ vs, 1 / 10 ^ 12 ≤ p.norm * v.norm := fun v hv => by rw [hr v hv]; exact hl
  rcases nearest_spec p vs vs 0 none (by simp) (Nat.zero_le _) rfl with ⟨e, -⟩ | ⟨d, i, e, ⟨v, hv, hd⟩, hall⟩
  · exact absurd e hne
  · have hvm := List.mem_of_getElem? hv
    refine ⟨i, v, ?_, hv, fun w hw => ?_⟩
    · unfold findVertex
      rw [e]
      simp only
      rw [if_neg]
      rw [hd, angle_eq (hl' v hvm)]
      exact not_lt.2 ((Real.arccos_le_pi _).trans he)
    · obtain ⟨k, hk⟩ := List.mem_iff_getElem?.1 hw
      have h1 := (hall k w hk).1
      rw [hd, angle_le_iff (hl' v hvm) (hl' w hw), hr v hvm, hr w hw] at h1
      have hpos : 0 < p.norm * r := lt_of_lt_of_le (by norm_num) hl
      rw [div_le_div_iff_of_pos_right hpos] at h1
      have n1 := norm_sq v
      have n2 := norm_sq w
      rw [hr v hvm] at n1
      rw [hr w hw] at n2
      unfold Vec.norm
      apply Real.sqrt_le_sqrt
      unfold Vec.dot at h1
      simp
      nlinarith

/-- **C161** (short vectors).  If the product of the lengths is below 10⁻¹², the first vertex is found, whatever the direction. -/
theorem C161_short_false {p : Vec} {eps : ℝ} {vs : List Vec} (he : 0 ≤ eps) (hne : vs ≠ []) (hs : ∀ v ∈ vs, p.norm * v.norm < 1 / 10 ^ 12) : findVertex p eps vs = some 0 := by
  have h0 : ∀ v ∈ vs, angle p v = 0 := by
    intro v hv
    unfold angle
    simp only
    rw [if_pos]
    rw [abs_of_nonneg (mul_nonneg (norm_nonneg p) (norm_nonneg v))]
    exact hs v hv
  unfold findVertex
  rcases nearest_spec p vs vs 0 none (by simp) (Nat.zero_le _) rfl with ⟨e, -⟩ | ⟨d, j, e, ⟨v, hv', hd⟩, hall⟩
  · exact absurd e hne
  · rw [e]
    simp only
    have hd0 : d = 0 := by rw [hd]; exact h0 v (List.mem_of_getElem? hv')
    have hj : j = 0 := by
      by_contra hj
      obtain ⟨w, hw⟩ : ∃ w, vs[0]? = some w := ⟨_, List.getElem?_eq_getElem (List.length_pos_iff.2 hne)⟩
      have := (hall 0 w hw).2 (Nat.pos_of_ne_zero hj)
      rw [h0 w (List.mem_of_getElem? hw), hd0] at this
      exact lt_irrefl _ this
    rw [hd0, hj, if_neg (not_lt.2 he)]

/-- **C161** (rays and triangles).  The test of a ray against a triangle succeeds exactly if the ray comes from the side the normal points to and meets the triangle, and the point it stores is
where they meet. -/
theorem C161_ray (a b c p v q : Vec) : intersect a b c p v = some q ↔ ((b - a).cross (c - a)).dot v < 0 ∧ InTriangle q a b c ∧ ∃ t : ℝ, 0 ≤ t ∧ q = p + t • v := by
  obtain ⟨n, en⟩ : ∃ n, n = (b - a).cross (c - b) := ⟨_, rfl⟩
  have en' : (b - a).cross (c - a) = n := by rw [en]; ext <;> simp [Vec.cross] <;> ring
  rw [en']
  unfold intersect
  simp only
  rw [← en]
  by_cases hd : n.dot v < 0
  · rw [if_pos hd]
    have hn := dot_self_pos hd
    have hne : n.x * v.x + n.y * v.y + n.z * v.z ≠ 0 := hd.ne
    obtain ⟨t, et⟩ : ∃ t, t = -(n.x * (p.x - a.x) + n.y * (p.y - a.y) + n.z * (p.z - a.z)) / (n.x * v.x + n.y * v.y + n.z * v.z) := ⟨_, rfl⟩
    rw [← et]
    have ht : t * (n.x * v.x + n.y * v.y + n.z * v.z) = -(n.x * (p.x - a.x) + n.y * (p.y - a.y) + n.z * (p.z - a.z)) := by rw [et, div_mul_cancel₀ _ hne]
    have hpl : n.dot (p + t • v - a) = 0 := by
      simp [Vec.dot]
      linarith
    have huniq : ∀ s : ℝ, InTriangle (p + s • v) a b c → s = t := by
      rintro s ⟨α, β, γ, -, -, -, hs, e⟩
      have h0 : n.dot (p + s • v - a) = 0 := by
        rw [e, en]
        have hα : α = 1 - β - γ := by linarith
        rw [hα]
        simp [Vec.dot, Vec.cross]
        ring
      simp [Vec.dot] at h0
      apply mul_right_cancel₀ hne
      rw [ht]
      linarith
    by_cases ht0 : t < 0
    · rw [if_pos ht0]
      constructor
      · intro h; cases h
      · rintro ⟨-, hq, s, hs, rfl⟩
        rw [huniq s hq] at hs
        exact absurd ht0 (not_lt.2 hs)
    · rw [if_neg ht0]
      have hi := inTriangle_iff (q := p + t • v) en hn hpl
      constructor
      · intro h
        split at h
        · rename_i hc
          cases h
          exact ⟨hd, hi.1 hc, t, not_lt.1 ht0, rfl⟩
        · cases h
      · rintro ⟨-, hq, s, hs, rfl⟩
        have := huniq s hq
        subst this
        rw [if_pos (hi.2 hq)]
  · rw [if_neg hd]
    exact ⟨fun h => (by cases h), fun h => absurd h.1 hd⟩

/-! Concrete cases. -/

example : ∃ s, generate Sphere.empty .octahedron 1 100 = some s ∧ s.faces.length = 32 ∧ Covers s.vertices s.faces := by
  obtain ⟨s, e, hn, -, -⟩ := C159_graph Sphere.empty .octahedron 1 100
  exact ⟨s, e, hn, C160_octahedron _ (by norm_num) e⟩

example : intersect ⟨1, 0, 0⟩ ⟨0, 0, 1⟩ ⟨0, 1, 0⟩ ⟨0, 0, 0⟩ ⟨1, 1, 1⟩ = some ⟨1 / 3, 1 / 3, 1 / 3⟩ := by
  rw [C161_ray]
  refine ⟨by norm_num [Vec.cross, Vec.dot], ⟨1 / 3, 1 / 3, 1 / 3, by norm_num, by norm_num, by norm_num, by norm_num, by ext <;> simp⟩, 1 / 3, by norm_num, by ext <;> simp⟩

example : ∀ v ∈ [(⟨1, 0, 0⟩ : Vec), ⟨0, 1, 0⟩], 1 / 10 ^ 12 ≤ (⟨1, 0, 0⟩ : Vec).norm * v.norm := by
  simp [Vec.norm]
  norm_num

end Simox.Sph
