import Verif.Msh.Spec

/-!
# Triangle meshes: helpers
-/

namespace Simox.Msh

open Matrix Jac Rot

variable {C : Type}

theorem u32_le {n k : ℕ} (hk : 1 ≤ k) (h : k ≤ n) (h2 : n ≤ 2 ^ 32) : u32 n k = n - k := by
  unfold u32
  omega

theorem addVertex_some (m : Mesh C) (v : V3) : (m.addVertex (some v)).1 =
    { m with vertices := m.vertices ++ [v], boundingBox := m.boundingBox.addPoint (real v) } := rfl

theorem addTriangle_vertices (m : Mesh C) (a b c : V3) (n : Vec) (c1 c2 c3 : C) :
    (m.addTriangleWithFace (some a) (some b) (some c) n c1 c2 c3).vertices = m.vertices ++ [a, b, c] := by
  simp [Mesh.addTriangleWithFace, Mesh.addVertex, Mesh.addColor, Mesh.addFace]

theorem addTriangle_colors (m : Mesh C) (a b c : V3) (n : Vec) (c1 c2 c3 : C) :
    (m.addTriangleWithFace (some a) (some b) (some c) n c1 c2 c3).colors = m.colors ++ [c1, c2, c3] := by
  simp [Mesh.addTriangleWithFace, Mesh.addVertex, Mesh.addColor, Mesh.addFace]

theorem addTriangle_normals (m : Mesh C) (a b c : V3) (n : Vec) (c1 c2 c3 : C) :
    (m.addTriangleWithFace (some a) (some b) (some c) n c1 c2 c3).normals = m.normals := by
  simp [Mesh.addTriangleWithFace, Mesh.addVertex, Mesh.addColor, Mesh.addFace]

theorem addTriangle_box (m : Mesh C) (a b c : V3) (n : Vec) (c1 c2 c3 : C) :
    (m.addTriangleWithFace (some a) (some b) (some c) n c1 c2 c3).boundingBox = m.boundingBox.addPoints [real a, real b, real c] := by
  simp [Mesh.addTriangleWithFace, Mesh.addVertex, Mesh.addColor, Mesh.addFace, BBox.addPoints]

open Classical in
/-- The normal a new triangle gets. -/
noncomputable def givenNormal (n : Vec) (a b c : V3) : Vec :=
  match n with
  | none => some (createNormal a b c)
  | some n => if nrm n < 1e-10 then some (createNormal a b c) else some (Rot.normalize n)

theorem addTriangle_faces (m : Mesh C) (a b c : V3) (n : Vec) (c1 c2 c3 : C) :
    (m.addTriangleWithFace (some a) (some b) (some c) n c1 c2 c3).faces = m.faces ++ [⟨![u32 (m.vertices.length + 3) 3, u32 (m.vertices.length + 3) 2,
      u32 (m.vertices.length + 3) 1], ![u32 (m.colors.length + 3) 3, u32 (m.colors.length + 3) 2, u32 (m.colors.length + 3) 1], fun _ => noId, givenNormal n a b c⟩] := by
  have e : (match n with
    | none => createNormalVec (some a) (some b) (some c)
    | some n => @ite _ (nrm n < 1e-10) (Classical.propDecidable _) (createNormalVec (some a) (some b) (some c)) (some (Rot.normalize n))) = givenNormal n a b c := by
    unfold givenNormal createNormalVec
    rcases n with _ | n <;> rfl
  simp [Mesh.addTriangleWithFace, Mesh.addVertex, Mesh.addColor, Mesh.addFace]
  exact e

theorem triple_get {α : Type} (l : List α) (a b c : α) (i : Fin 3) :
    (l ++ [a, b, c])[![l.length, l.length + 1, l.length + 2] i]? = ![some a, some b, some c] i := by
  fin_cases i <;> simp

theorem triangles_append (m m' : Mesh C) (vs : List V3) (f : Face) (hv : m.Valid) (h1 : m'.vertices = m.vertices ++ vs) (h2 : m'.faces = m.faces ++ [f]) :
    m'.triangles = m.triangles ++ [fun c => m'.vertices[f.id c]?] := by
  unfold Mesh.triangles
  rw [h2, List.map_append, List.map_singleton]
  congr 1
  apply List.map_congr_left
  intro g hg
  funext c
  rw [h1, List.getElem?_append_left (hv g hg c)]

theorem paint_append (m m' : Mesh C) (cs : List C) (f : Face) (hv : m.Painted) (h1 : m'.colors = m.colors ++ cs) (h2 : m'.faces = m.faces ++ [f]) :
    m'.paint = m.paint ++ [fun c => m'.colors[f.idColor c]?] := by
  unfold Mesh.paint
  rw [h2, List.map_append, List.map_singleton]
  congr 1
  apply List.map_congr_left
  intro g hg
  funext c
  rw [h1, List.getElem?_append_left (hv g hg c)]

theorem ids_eq {n : ℕ} (h : n + 3 ≤ 2 ^ 32) : (![u32 (n + 3) 3, u32 (n + 3) 2, u32 (n + 3) 1] : Fin 3 → ℕ) = ![n, n + 1, n + 2] := by
  rw [u32_le (by omega) (by omega) h, u32_le (by omega) (by omega) h, u32_le (by omega) (by omega) h]
  have e1 : n + 3 - 3 = n := by omega
  have e2 : n + 3 - 2 = n + 1 := by omega
  have e3 : n + 3 - 1 = n + 2 := by omega
  rw [e1, e2, e3]

theorem addTriangle_valid (m : Mesh C) (hv : m.Valid) (a b c : V3) (n : Vec) (c1 c2 c3 : C) (room : m.vertices.length + 3 ≤ 2 ^ 32) :
    (m.addTriangleWithFace (some a) (some b) (some c) n c1 c2 c3).Valid := by
  intro f hf i
  rw [addTriangle_vertices]
  rw [addTriangle_faces, ids_eq room] at hf
  simp only [List.length_append, List.length_cons, List.length_nil]
  rcases List.mem_append.1 hf with hf | hf
  · have := hv f hf i; omega
  · rw [List.mem_singleton.1 hf]
    fin_cases i <;> simp

theorem addTriangle_painted (m : Mesh C) (hv : m.Painted) (a b c : V3) (n : Vec) (c1 c2 c3 : C) (room : m.colors.length + 3 ≤ 2 ^ 32) :
    (m.addTriangleWithFace (some a) (some b) (some c) n c1 c2 c3).Painted := by
  intro f hf i
  rw [addTriangle_colors]
  rw [addTriangle_faces, ids_eq (n := m.colors.length) room] at hf
  simp only [List.length_append, List.length_cons, List.length_nil]
  rcases List.mem_append.1 hf with hf | hf
  · have := hv f hf i; omega
  · rw [List.mem_singleton.1 hf]
    fin_cases i <;> simp

theorem addTriangle_triangles (m : Mesh C) (hv : m.Valid) (a b c : V3) (n : Vec) (c1 c2 c3 : C) (room : m.vertices.length + 3 ≤ 2 ^ 32) :
    (m.addTriangleWithFace (some a) (some b) (some c) n c1 c2 c3).triangles = m.triangles ++ [tri (a, b, c)] := by
  rw [triangles_append m _ [a, b, c] _ hv (addTriangle_vertices ..) (addTriangle_faces ..)]
  rw [addTriangle_vertices, ids_eq room]
  congr 2
  funext i
  exact triple_get m.vertices a b c i

theorem addTriangle_paint (m : Mesh C) (hv : m.Painted) (a b c : V3) (n : Vec) (c1 c2 c3 : C) (room : m.colors.length + 3 ≤ 2 ^ 32) :
    (m.addTriangleWithFace (some a) (some b) (some c) n c1 c2 c3).paint = m.paint ++ [![some c1, some c2, some c3]] := by
  rw [paint_append m _ [c1, c2, c3] _ hv (addTriangle_colors ..) (addTriangle_faces ..)]
  rw [addTriangle_colors, ids_eq (n := m.colors.length) room]
  congr 2
  funext i
  exact triple_get m.colors c1 c2 c3 i

theorem addTriangle_boxed (m : Mesh C) (hb : m.Boxed) (a b c : V3) (n : Vec) (c1 c2 c3 : C) :
    (m.addTriangleWithFace (some a) (some b) (some c) n c1 c2 c3).Boxed := by
  unfold Mesh.Boxed
  rw [addTriangle_box, addTriangle_vertices, List.map_append]
  exact addPoints_around [real a, real b, real c] hb

/-! ## Removing unused vertices -/

theorem initMap_iff {faces : List Face} {v : ℕ} : (∃ j, initMap faces v j = true) ↔ ∃ f ∈ faces, ∃ c, f.id c = v := by
  have e : ∀ f : Face, (f.id 0 == v || f.id 1 == v || f.id 2 == v) = true ↔ ∃ c, f.id c = v := by
    intro f
    simp only [Bool.or_eq_true, beq_iff_eq]
    constructor
    · rintro ((h | h) | h)
      · exact ⟨0, h⟩
      · exact ⟨1, h⟩
      · exact ⟨2, h⟩
    · rintro ⟨c, h⟩
      fin_cases c
      · exact .inl (.inl h)
      · exact .inl (.inr h)
      · exact .inr h
  constructor
  · rintro ⟨j, h⟩
    unfold initMap at h
    rcases hf : faces[j]? with _ | f
    · rw [hf] at h; simp at h
    · rw [hf] at h
      exact ⟨f, List.mem_of_getElem? hf, (e f).1 h⟩
  · rintro ⟨f, hf, h⟩
    obtain ⟨j, hj⟩ := List.getElem?_of_mem hf
    refine ⟨j, ?_⟩
    unfold initMap
    rw [hj]
    exact (e f).2 h

/-- A vertex is a corner of a face. -/
def Used (faces : List Face) (v : ℕ) : Prop := ∃ f ∈ faces, ∃ c, f.id c = v

theorem newVertices_spec (vertices : List V3) (faces : List Face) : ∀ n, n ≤ vertices.length →
    let s := newVertices vertices faces n
    s.1.Sublist (vertices.take n) ∧ (∀ i < n, Used faces i → s.2 i < s.1.length ∧ s.1[s.2 i]? = vertices[i]?) ∧
      ∀ k < s.1.length, ∃ i < n, Used faces i ∧ s.2 i = k
  | 0, _ => ⟨by simp [newVertices], by simp, by simp [newVertices]⟩
  | n + 1, hn => by
      obtain ⟨h1, h2, h3⟩ := newVertices_spec vertices faces n (by omega)
      have hget : vertices[n]? = some vertices[n] := List.getElem?_eq_getElem (by omega)
      by_cases hu : ∃ j, initMap faces n j = true
      · have e : newVertices vertices faces (n + 1) = ((newVertices vertices faces n).1 ++ [vertices[n]],
            Function.update (newVertices vertices faces n).2 n (newVertices vertices faces n).1.length) := by
          rw [newVertices, if_pos hu, hget]
        rw [e]
        refine ⟨?_, ?_, ?_⟩
        · rw [List.take_add_one, hget]
          exact h1.append (List.Sublist.refl _)
        · intro i hi hui
          by_cases hin : i = n
          · subst hin
            simp
          · have := h2 i (by omega) hui
            dsimp only
            rw [Function.update_of_ne hin]
            refine ⟨by rw [List.length_append]; omega, ?_⟩
            rw [List.getElem?_append_left this.1]
            exact this.2
        · intro k hk
          simp only [List.length_append, List.length_singleton] at hk
          by_cases hkn : k = (newVertices vertices faces n).1.length
          · exact ⟨n, by omega, initMap_iff.1 hu, by simp [hkn]⟩
          · obtain ⟨i, hi, hui, e⟩ := h3 k (by omega)
            exact ⟨i, by omega, hui, by dsimp only; rw [Function.update_of_ne (by omega)]; exact e⟩
      · have e : newVertices vertices faces (n + 1) = newVertices vertices faces n := by
          rw [newVertices, if_neg hu]
        rw [e]
        refine ⟨h1.trans (List.take_sublist_take_left (by omega)), ?_, ?_⟩
        · intro i hi hui
          by_cases hin : i = n
          · subst hin
            exact absurd (initMap_iff.2 hui) hu
          · exact h2 i (by omega) hui
        · intro k hk
          obtain ⟨i, hi, h⟩ := h3 k hk
          exact ⟨i, by omega, h⟩

/-! ## Merging -/

/-- The mesh with other faces. -/
theorem mergeOne_valid {n i k : ℕ} (hi : i < n) (s : List Face × (ℕ → ℕ → Bool)) (h : validIds s.1 n) : validIds (mergeOne i s k).1 n := by
  intro f hf c
  unfold mergeOne at hf
  rw [List.mem_mapIdx] at hf
  obtain ⟨j, hj, rfl⟩ := hf
  have hg := h s.1[j] (List.getElem_mem hj) c
  by_cases h1 : s.2 k j = true
  · rw [if_pos h1]
    dsimp only
    by_cases h2 : s.1[j].id c = k
    · rw [if_pos h2]; exact hi
    · rw [if_neg h2]; exact hg
  · rw [if_neg h1]; exact hg

theorem foldl_inv {α β : Type} (P : β → Prop) (f : β → α → β) : ∀ (l : List α) (b : β), P b → (∀ b, ∀ a ∈ l, P b → P (f b a)) → P (l.foldl f b)
  | [], _, h, _ => h
  | a :: l, b, h, hs => foldl_inv P f l (f b a) (hs b a (by simp) h) fun b a' h' => hs b a' (by simp [h'])

theorem mergeLoop_valid (search : ℕ → List ℕ) (size : ℕ) (faces : List Face) (h : validIds faces size) : validIds (mergeLoop search size faces) size := by
  unfold mergeLoop
  refine foldl_inv (fun s : List Face × (ℕ → ℕ → Bool) => validIds s.1 size) _ _ _ h ?_
  intro s i hi hs
  have hi' := List.mem_range.1 hi
  exact foldl_inv (fun s : List Face × (ℕ → ℕ → Bool) => validIds s.1 size) _ _ _ hs fun s k _ hs => mergeOne_valid hi' s hs

end Simox.Msh
