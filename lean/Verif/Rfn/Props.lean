import Verif.Rfn.MeshLemmas

/-!
# C186, C187: refining a surface
-/

namespace Simox.Rfn

open Classical

/-- **C186.** The refinement of a mesh whose faces name existing vertices, with a positive maximal edge length, ends,
without a read outside of the vertices: from some depth on, whatever the depth allowed, it gives one and the same
mesh. The faces of this mesh name existing vertices, and they are the triangles of partitions of the given triangles:
every given triangle is covered exactly by its parts, which have its orientation, its normal, in sum its area, and
edges no longer than asked for. -/
theorem C186_refine {maxDist : ℝ} (hd : 0 < maxDist) {tm : Mesh} (hv : Valid tm) :
    ∃ N m', (∀ n ≥ N, refine maxDist n tm = .ok m') ∧ Valid m' ∧
      ∃ ps, List.Forall₂ (Partition maxDist) (soup tm) ps ∧ (soup m').Perm ps.flatten := by
  obtain ⟨N, m', ps, h1, h2, h3, h4⟩ := refine_cut hd hv
  exact ⟨N, m', h1, h2, ps, h3.imp fun _ _ h => cut_partition h, h4⟩

/-- **C186.** Whenever the refinement gives a mesh, at whatever depth, it is that one: no edge is longer than asked
for, the surface consists of the same points, and the vector area is that of the given surface. -/
theorem C186_result {maxDist : ℝ} (hd : 0 < maxDist) {tm : Mesh} (hv : Valid tm) {n : Nat} {m' : Mesh}
    (h : refine maxDist n tm = .ok m') :
    (∀ t ∈ soup m', ∀ e ∈ t.edges, dist3 e.1 e.2 ≤ maxDist) ∧
      (∀ p, (∃ t ∈ soup m', p ∈ t.points) ↔ ∃ t ∈ soup tm, p ∈ t.points) ∧
      ((soup m').map Tri.area).sum = ((soup tm).map Tri.area).sum := by
  obtain ⟨N, m1, ps, h1, h2, h3, h4⟩ := refine_cut hd hv
  have e : m' = m1 := refine_unique h (h1 N (le_refl _))
  subst e
  have h3' : List.Forall₂ (Partition maxDist) (soup tm) ps := h3.imp fun _ _ h => cut_partition h
  have key : ∀ {l : List Tri} {ps : List (List Tri)}, List.Forall₂ (Partition maxDist) l ps →
      (∀ t ∈ ps.flatten, ∀ e ∈ t.edges, dist3 e.1 e.2 ≤ maxDist) ∧
      (∀ p, (∃ t ∈ ps.flatten, p ∈ t.points) ↔ ∃ t ∈ l, p ∈ t.points) ∧
      (ps.flatten.map Tri.area).sum = (l.map Tri.area).sum := by
    intro l ps h
    induction h with
    | nil => simp
    | @cons t q l ps h _ ih =>
      obtain ⟨i1, i2, i3⟩ := ih
      refine ⟨?_, ?_, ?_⟩
      · intro x hx
        rw [List.flatten_cons] at hx
        rcases List.mem_append.mp hx with g | g
        · exact h.short x g
        · exact i1 x g
      · intro p
        rw [List.flatten_cons]
        simp only [List.mem_append, List.mem_cons, or_and_right, exists_or, exists_eq_left]
        rw [h.cover p, i2 p]
      · rw [List.flatten_cons, List.map_append, List.sum_append, h.area, i3, List.map_cons, List.sum_cons]
  obtain ⟨k1, k2, k3⟩ := key h3'
  refine ⟨fun t ht => k1 t (h4.mem_iff.mp ht), fun p => ?_, ?_⟩
  · rw [← k2 p]
    exact ⟨fun ⟨t, a, b⟩ => ⟨t, h4.mem_iff.mp a, b⟩, fun ⟨t, a, b⟩ => ⟨t, h4.mem_iff.mpr a, b⟩⟩
  · rw [← k3]; exact (h4.map _).sum_eq

/-- **C186.** With a maximal length that is not positive the refinement of a mesh with an edge between two different
points never ends: no depth is enough. -/
theorem C186_diverges {maxDist : ℝ} (hd : maxDist ≤ 0) {tm : Mesh} (hv : Valid tm)
    (he : ∃ t ∈ soup tm, ∃ e ∈ t.edges, e.1 ≠ e.2) (n : Nat) : refine maxDist n tm = .loop := by
  obtain ⟨m1, h1, v1, s1⟩ := copy_ok tm tm.faces ⟨[], []⟩ hv (by intro f hf; cases hf)
  have s1' : soup m1 = soup tm := by rw [s1]; simp [soup]
  rw [← s1'] at he
  obtain ⟨t, ht, e, hm, hne⟩ := he
  obtain ⟨f, hf, rfl⟩ := List.mem_map.mp ht
  have hpos : maxDist < dist3 e.1 e.2 := by
    refine lt_of_le_of_lt hd (lt_of_le_of_ne (dist3_nonneg _ _) fun h0 => hne ?_)
    have := dist3_sq e.1 e.2
    rw [← h0] at this
    unfold sq3 at this
    have a0 := sq_nonneg (e.1 0 - e.2 0)
    have a1 := sq_nonneg (e.1 1 - e.2 1)
    have a2 := sq_nonneg (e.1 2 - e.2 2)
    funext i
    have key : ∀ x : ℝ, x ^ 2 ≤ 0 → x = 0 := fun x hx => pow_eq_zero_iff two_ne_zero |>.mp (le_antisymm hx (sq_nonneg x))
    fin_cases i
    · exact sub_eq_zero.mp (key (e.1 0 - e.2 0) (by linarith))
    · exact sub_eq_zero.mp (key (e.1 1 - e.2 1) (by linarith))
    · exact sub_eq_zero.mp (key (e.1 2 - e.2 2) (by linarith))
  have hl : Long maxDist (triOf m1.vertices f) := by
    simp only [Tri.edges, List.mem_cons, List.not_mem_nil, or_false] at hm
    rcases hm with rfl | rfl | rfl
    · exact .inl hpos
    · exact .inr (.inl hpos)
    · exact .inr (.inr (by rw [dist3_symm]; exact hpos))
  unfold refine
  rw [h1]
  exact loop_loop hd n n 0 m1 v1 ⟨f, by simpa using hf, hl⟩

/-- **C186.** A face that names a vertex the mesh does not have is read outside of the vertices, whatever else the mesh
contains: nothing checks the indices. -/
theorem C186_invalid {tm : Mesh} (h : ¬ Valid tm) (maxDist : ℝ) (n : Nat) : refine maxDist n tm = .ub := by
  unfold refine
  have hex : ∃ f ∈ tm.faces, ¬ In tm.vertices f := by
    by_contra hc
    push Not at hc
    exact h hc
  rw [copy_ub tm tm.faces ⟨[], []⟩ hex]

/-- **C187.** Refining a closed surface gives a closed surface: no cracks along the edges of the given triangles,
although each triangle is split on its own. -/
theorem C187_closed {maxDist : ℝ} (hd : 0 < maxDist) {tm : Mesh} (hv : Valid tm) (hc : Closed (soup tm)) {n : Nat}
    {m' : Mesh} (h : refine maxDist n tm = .ok m') : Closed (soup m') := by
  obtain ⟨N, m1, ps, h1, h2, h3, h4⟩ := refine_cut hd hv
  have e : m' = m1 := refine_unique h (h1 N (le_refl _))
  subst e
  rw [closed_iff] at hc ⊢
  intro w hw
  rw [edgeSum_perm w h4, forall_cut_edges hd hw h3]
  exact hc _ fun x y => parts_anti hd hw _ x y (le_refl _)

/-- **C187.** The greatest vertex distance of a mesh whose faces name existing vertices is the length of the longest
edge, and zero for a mesh without faces. -/
theorem C187_max {tm : Mesh} (hv : Valid tm) : ∃ y, getMaxVertexDistance tm = some y ∧ 0 ≤ y ∧
    (∀ t ∈ soup tm, ∀ e ∈ t.edges, dist3 e.1 e.2 ≤ y) ∧
    (y = 0 ∨ ∃ t ∈ soup tm, ∃ e ∈ t.edges, y = dist3 e.1 e.2) :=
  maxLoop_spec tm.vertices tm.faces 0 hv

/-- **C187.** After a refinement the greatest vertex distance is at most the one asked for. -/
theorem C187_refined {maxDist : ℝ} (hd : 0 < maxDist) {tm : Mesh} (hv : Valid tm) {n : Nat} {m' : Mesh}
    (h : refine maxDist n tm = .ok m') : ∃ y, getMaxVertexDistance m' = some y ∧ 0 ≤ y ∧ y ≤ maxDist := by
  obtain ⟨N, m1, h1, v1, _⟩ := C186_refine hd hv
  have e : m' = m1 := refine_unique h (h1 N (le_refl _))
  subst e
  obtain ⟨y, a, b, _, c⟩ := C187_max v1
  refine ⟨y, a, b, ?_⟩
  rcases c with rfl | ⟨t, ht, e, he, rfl⟩
  · exact hd.le
  · exact (C186_result hd hv h).1 t ht e he

/-! ## Concrete cases -/

/-- A tetrahedron. -/
def tetra : Mesh where
  vertices := [![0, 0, 0], ![1, 0, 0], ![0, 1, 0], ![0, 0, 1]]
  faces := [⟨0, 2, 1, 0⟩, ⟨0, 1, 3, 0⟩, ⟨0, 3, 2, 0⟩, ⟨1, 2, 3, 0⟩]

theorem tetra_valid : Valid tetra := by
  intro f hf
  simp only [tetra, List.mem_cons, List.not_mem_nil, or_false] at hf
  rcases hf with rfl | rfl | rfl | rfl <;> simp [tetra]

/-- It is a closed surface. -/
theorem tetra_closed : Closed (soup tetra) := by
  rw [closed_iff]
  intro w hw
  simp only [edgeSum, soup, tetra, triOf, Tri.edges, List.map_cons, List.map_nil, List.flatMap_cons, List.flatMap_nil,
    List.cons_append, List.nil_append, List.sum_cons, List.sum_nil, List.getD_cons_zero, List.getD_cons_succ]
  rw [hw ![0, 0, 0] ![1, 0, 0], hw ![0, 0, 0] ![0, 1, 0], hw ![0, 0, 0] ![0, 0, 1], hw ![1, 0, 0] ![0, 1, 0],
    hw ![1, 0, 0] ![0, 0, 1], hw ![0, 1, 0] ![0, 0, 1]]
  ring

/-- It is refined to a closed surface with edges not longer than 1/10. -/
example : ∃ N m', (∀ n ≥ N, refine (1 / 10) n tetra = .ok m') ∧ Closed (soup m') ∧
    ∀ t ∈ soup m', ∀ e ∈ t.edges, dist3 e.1 e.2 ≤ 1 / 10 := by
  obtain ⟨N, m', h, _⟩ := C186_refine (maxDist := 1 / 10) (by norm_num) tetra_valid
  exact ⟨N, m', h, C187_closed (by norm_num) tetra_valid tetra_closed (h N (le_refl _)),
    (C186_result (by norm_num) tetra_valid (h N (le_refl _))).1⟩

/-- With the length zero its refinement never ends. -/
example (n : Nat) : refine 0 n tetra = .loop := by
  refine C186_diverges (le_refl _) tetra_valid ⟨_, List.mem_cons_self, (_, _), List.mem_cons_self, ?_⟩ n
  intro h
  have := congrFun h 1
  simp [tetra, triOf] at this

end Simox.Rfn
