import Verif.Msh.Lemmas

/-!
# C122: building meshes, unused vertices, histories
-/

namespace Simox.Msh

open Matrix Jac Rot

variable {C : Type}

/-! ## Helpers -/

theorem valid_of_ids {m m' : Mesh C} (h1 : m'.faces.map Face.id = m.faces.map Face.id) (h2 : m'.vertices.length = m.vertices.length) (hv : m.Valid) :
    m'.Valid := by
  intro f hf c
  have : f.id ∈ m'.faces.map Face.id := List.mem_map.2 ⟨f, hf, rfl⟩
  rw [h1] at this
  obtain ⟨g, hg, e⟩ := List.mem_map.1 this
  rw [h2, ← e]
  exact hv g hg c

theorem addMeshLoop_ok (o : Mesh C) : ∀ (fs : List Face) (m : Mesh C), m.Valid → m.Painted →
    m.vertices.length + 3 * fs.length ≤ 2 ^ 32 → m.colors.length + 3 * fs.length ≤ 2 ^ 32 →
    (∀ f ∈ fs, ∀ c, f.id c < o.vertices.length ∧ f.idColor c < o.colors.length) →
    ∃ m', addMeshLoop o fs m = .ok m' ∧ m'.triangles = m.triangles ++ fs.map (fun f c => o.vertices[f.id c]?) ∧
      m'.paint = m.paint ++ fs.map (fun f c => o.colors[f.idColor c]?) ∧ m'.Valid ∧ m'.Painted ∧ (m.Boxed → m'.Boxed) ∧
      m'.normals = m.normals
  | [], m, hv, hp, _, _, _ => ⟨m, rfl, by simp, by simp, hv, hp, id, rfl⟩
  | f :: fs, m, hv, hp, r1, r2, h => by
      simp only [List.length_cons] at r1 r2
      have hf := h f (by simp)
      obtain ⟨v1, e1⟩ := List.getElem?_eq_some_iff.2 ⟨(hf 0).1, rfl⟩ |> fun h => (⟨_, h⟩ : ∃ v, o.vertices[f.id 0]? = some v)
      obtain ⟨v2, e2⟩ := List.getElem?_eq_some_iff.2 ⟨(hf 1).1, rfl⟩ |> fun h => (⟨_, h⟩ : ∃ v, o.vertices[f.id 1]? = some v)
      obtain ⟨v3, e3⟩ := List.getElem?_eq_some_iff.2 ⟨(hf 2).1, rfl⟩ |> fun h => (⟨_, h⟩ : ∃ v, o.vertices[f.id 2]? = some v)
      obtain ⟨c1, d1⟩ := List.getElem?_eq_some_iff.2 ⟨(hf 0).2, rfl⟩ |> fun h => (⟨_, h⟩ : ∃ v, o.colors[f.idColor 0]? = some v)
      obtain ⟨c2, d2⟩ := List.getElem?_eq_some_iff.2 ⟨(hf 1).2, rfl⟩ |> fun h => (⟨_, h⟩ : ∃ v, o.colors[f.idColor 1]? = some v)
      obtain ⟨c3, d3⟩ := List.getElem?_eq_some_iff.2 ⟨(hf 2).2, rfl⟩ |> fun h => (⟨_, h⟩ : ∃ v, o.colors[f.idColor 2]? = some v)
      have ih := addMeshLoop_ok o fs (m.addTriangleWithFace (some v1) (some v2) (some v3) f.normal c1 c2 c3)
        (addTriangle_valid m hv _ _ _ _ _ _ _ (by omega)) (addTriangle_painted m hp _ _ _ _ _ _ _ (by omega))
        (by rw [addTriangle_vertices]; simp; omega) (by rw [addTriangle_colors]; simp; omega) fun g hg => h g (by simp [hg])
      obtain ⟨m', a1, a2, a3, a4, a5, a6, a7⟩ := ih
      refine ⟨m', ?_, ?_, ?_, a4, a5, fun hb => a6 (addTriangle_boxed m hb _ _ _ _ _ _ _), a7.trans (addTriangle_normals ..)⟩
      · rw [addMeshLoop, e1, e2, e3, d1, d2, d3]
        exact a1
      · rw [a2, addTriangle_triangles m hv _ _ _ _ _ _ _ (by omega), List.append_assoc, List.map_cons, List.singleton_append]
        congr 2
        funext i
        fin_cases i
        · exact e1.symm
        · exact e2.symm
        · exact e3.symm
      · rw [a3, addTriangle_paint m hp _ _ _ _ _ _ _ (by omega), List.append_assoc, List.map_cons, List.singleton_append]
        congr 2
        funext i
        fin_cases i
        · exact d1.symm
        · exact d2.symm
        · exact d3.symm

theorem addMeshLoop_bad (o : Mesh C) : ∀ (fs : List Face) (m : Mesh C),
    (∃ f ∈ fs, ∃ c, ¬ (f.id c < o.vertices.length ∧ f.idColor c < o.colors.length)) → addMeshLoop o fs m = .throw
  | [], m, h => by obtain ⟨f, hf, -⟩ := h; simp at hf
  | f :: fs, m, h => by
      rw [addMeshLoop]
      split
      · rename_i e1 e2 e3 d1 d2 d3
        apply addMeshLoop_bad o fs
        obtain ⟨g, hg, c, hc⟩ := h
        rcases List.mem_cons.1 hg with rfl | hg
        · exfalso
          apply hc
          have b1 := (List.getElem?_eq_some_iff.1 e1).1
          have b2 := (List.getElem?_eq_some_iff.1 e2).1
          have b3 := (List.getElem?_eq_some_iff.1 e3).1
          have b4 := (List.getElem?_eq_some_iff.1 d1).1
          have b5 := (List.getElem?_eq_some_iff.1 d2).1
          have b6 := (List.getElem?_eq_some_iff.1 d3).1
          fin_cases c
          · exact ⟨b1, b4⟩
          · exact ⟨b2, b5⟩
          · exact ⟨b3, b6⟩
        · exact ⟨g, hg, c, hc⟩
      · rfl

theorem addMeshLoop_valid (o : Mesh C) : ∀ (fs : List Face) (m m' : Mesh C), m.Valid → m.vertices.length + 3 * fs.length ≤ 2 ^ 32 →
    addMeshLoop o fs m = .ok m' → m'.Valid
  | [], m, m', hv, _, h => by
      rw [addMeshLoop] at h
      cases h
      exact hv
  | f :: fs, m, m', hv, hr, h => by
      simp only [List.length_cons] at hr
      rw [addMeshLoop] at h
      split at h
      · exact addMeshLoop_valid o fs _ m' (addTriangle_valid m hv _ _ _ _ _ _ _ (by omega)) (by rw [addTriangle_vertices]; simp; omega) h
      · cases h

/-! ## Adding -/

/-- **C122** (ids): the number returned for a vertex, a normal or a colour is the place at which it can be found, and all those that were there before keep their
places. A vertex with a coordinate that is no number is refused with -1. -/
theorem C122_ids (m : Mesh C) (hn : m.normals.length + 1 ≤ 2 ^ 32) (hc : m.colors.length + 1 ≤ 2 ^ 32) :
    (∀ v : V3, ∃ k : ℕ, (m.addVertex (some v)).2 = k ∧ (m.addVertex (some v)).1.vertices[k]? = some v ∧ ∀ i < k, (m.addVertex (some v)).1.vertices[i]? = m.vertices[i]?) ∧
    m.addVertex none = (m, -1) ∧
    (∀ n, (m.addNormal n).1.normals[(m.addNormal n).2]? = some n ∧ ∀ i < (m.addNormal n).2, (m.addNormal n).1.normals[i]? = m.normals[i]?) ∧
    ∀ c, (m.addColor c).1.colors[(m.addColor c).2]? = some c ∧ ∀ i < (m.addColor c).2, (m.addColor c).1.colors[i]? = m.colors[i]? := by
  refine ⟨fun v => ⟨m.vertices.length, ?_, ?_, ?_⟩, rfl, fun n => ⟨?_, ?_⟩, fun c => ⟨?_, ?_⟩⟩
  · simp [Mesh.addVertex]
  · simp [Mesh.addVertex]
  · intro i hi; simp [Mesh.addVertex, List.getElem?_append_left hi]
  · change (m.normals ++ [n])[u32 (m.normals.length + 1) 1]? = some n
    rw [u32_le (by omega) (by omega) hn]; simp
  · intro i hi
    change i < u32 (m.normals.length + 1) 1 at hi
    rw [u32_le (by omega) (by omega) hn] at hi
    exact List.getElem?_append_left (by omega)
  · change (m.colors ++ [c])[u32 (m.colors.length + 1) 1]? = some c
    rw [u32_le (by omega) (by omega) hc]; simp
  · intro i hi
    change i < u32 (m.colors.length + 1) 1 at hi
    rw [u32_le (by omega) (by omega) hc] at hi
    exact List.getElem?_append_left (by omega)

example : (Mesh.empty : Mesh ℕ).normals.length + 1 ≤ 2 ^ 32 ∧ (Mesh.empty : Mesh ℕ).colors.length + 1 ≤ 2 ^ 32 := by simp [Mesh.empty]

/-- Adding a triangle keeps everything and appends three vertices, three colours and one face with these corners and colours,
and the given normal with length one (the normal of the triangle, if the given one is not one). The box is kept up to date. -/
theorem C122_add_triangle (m : Mesh C) (a b c : V3) (n : Vec) (c1 c2 c3 : C) (r1 : m.vertices.length + 3 ≤ 2 ^ 32) (r2 : m.colors.length + 3 ≤ 2 ^ 32) :
    let m' := m.addTriangleWithFace (some a) (some b) (some c) n c1 c2 c3
    m'.vertices = m.vertices ++ [a, b, c] ∧ m'.colors = m.colors ++ [c1, c2, c3] ∧ m'.normals = m.normals ∧ (m.Boxed → m'.Boxed) ∧
      ∃ f : Face, m'.faces = m.faces ++ [f] ∧ (fun i => m'.vertices[f.id i]?) = tri (a, b, c) ∧
        (fun i => m'.colors[f.idColor i]?) = ![some c1, some c2, some c3] ∧ (∀ i, f.idNormal i = noId) ∧
        (∀ v, n = some v → nrm v ≥ 1e-10 → f.normal = some ((1 / nrm v) • v)) ∧
        ((∀ v, n = some v → nrm v < 1e-10) → f.normal = some (createNormal a b c)) := by
  intro m'
  refine ⟨addTriangle_vertices .., addTriangle_colors .., addTriangle_normals .., fun h => addTriangle_boxed m h a b c n c1 c2 c3, _, addTriangle_faces .., ?_, ?_,
    fun _ => rfl, ?_, ?_⟩
  · dsimp only
    rw [ids_eq r1]
    simp only [m', addTriangle_vertices]
    funext i
    exact triple_get m.vertices a b c i
  · dsimp only
    rw [ids_eq (n := m.colors.length) r2]
    simp only [m', addTriangle_colors]
    funext i
    exact triple_get m.colors c1 c2 c3 i
  · intro v hn hv
    subst hn
    dsimp only [givenNormal]
    have hpos : v ⬝ᵥ v > 0 := by
      by_contra h
      have h0 : v ⬝ᵥ v ≤ 0 := not_lt.1 h
      have : nrm v = 0 := Real.sqrt_eq_zero_of_nonpos h0
      rw [this] at hv
      norm_num at hv
    rw [if_neg (not_lt.2 hv), Rot.normalize, if_pos hpos]
  · intro hn
    rcases n with _ | v
    · rfl
    · dsimp only [givenNormal]
      rw [if_pos (hn v rfl)]

/-- A mesh made of triangles has exactly these triangles, in their order, and a bounding box around them. -/
theorem C122_triangles (gray : C) (ts : List (V3 × V3 × V3)) (h : 3 * ts.length ≤ 2 ^ 32) :
    let m := Mesh.ofTriangles gray (ts.map fun t => (some t.1, some t.2.1, some t.2.2))
    m.triangles = ts.map tri ∧ m.paint = ts.map (fun _ => ![some gray, some gray, some gray]) ∧ m.Valid ∧ m.Painted ∧ m.Boxed ∧
      m.vertices.length = 3 * ts.length := by
  have key : ∀ (ts : List (V3 × V3 × V3)) (m : Mesh C), m.vertices.length + 3 * ts.length ≤ 2 ^ 32 → m.colors.length + 3 * ts.length ≤ 2 ^ 32 →
      m.Valid → m.Painted → m.Boxed →
      let m' := (ts.map fun t => ((some t.1, some t.2.1, some t.2.2) : Vec × Vec × Vec)).foldl (fun m t => m.addTriangle gray t.1 t.2.1 t.2.2) m
      m'.triangles = m.triangles ++ ts.map tri ∧ m'.paint = m.paint ++ ts.map (fun _ => ![some gray, some gray, some gray]) ∧ m'.Valid ∧ m'.Painted ∧ m'.Boxed ∧
        m'.vertices.length = m.vertices.length + 3 * ts.length := by
    intro ts
    induction ts with
    | nil => intro m _ _ hv hp hb; exact ⟨by simp, by simp, hv, hp, hb, by simp⟩
    | cons t ts ih =>
      intro m r1 r2 hv hp hb
      simp only [List.length_cons] at r1 r2
      simp only [List.map_cons, List.foldl_cons, Mesh.addTriangle]
      obtain ⟨i1, i2, i3, i4, i5, i6⟩ := ih (m.addTriangleWithFace (some t.1) (some t.2.1) (some t.2.2)
          (createNormalVec (some t.1) (some t.2.1) (some t.2.2)) gray gray gray)
        (by rw [addTriangle_vertices]; simp; omega) (by rw [addTriangle_colors]; simp; omega)
        (addTriangle_valid m hv _ _ _ _ _ _ _ (by omega)) (addTriangle_painted m hp _ _ _ _ _ _ _ (by omega)) (addTriangle_boxed m hb _ _ _ _ _ _ _)
      simp only [Mesh.addTriangle] at i1 i2 i3 i4 i5 i6
      refine ⟨?_, ?_, i3, i4, i5, ?_⟩
      · rw [i1, addTriangle_triangles m hv _ _ _ _ _ _ _ (by omega), List.append_assoc]; rfl
      · rw [i2, addTriangle_paint m hp _ _ _ _ _ _ _ (by omega), List.append_assoc]; rfl
      · rw [i6, addTriangle_vertices]; simp; omega
  have hb : (Mesh.empty : Mesh C).Boxed := fun j => .inl ⟨rfl, rfl, rfl⟩
  have := key ts Mesh.empty (by simp [Mesh.empty]; omega) (by simp [Mesh.empty]; omega) (by intro f hf; simp [Mesh.empty] at hf)
    (by intro f hf; simp [Mesh.empty] at hf) hb
  simpa [Mesh.ofTriangles, Mesh.triangles, Mesh.paint, Mesh.empty] using this

/-- The normal of a triangle is orthogonal to it, has length one and is on the side from which the corners are
counterclockwise, unless the triangle is smaller than 5e-11. -/
theorem C122_normal (a b c : V3) (h : 1e-10 ≤ nrm (crossProduct (b - a) (c - a))) :
    nrm (createNormal a b c) = 1 ∧ createNormal a b c ⬝ᵥ (b - a) = 0 ∧ createNormal a b c ⬝ᵥ (c - a) = 0 ∧
      0 < crossProduct (b - a) (c - a) ⬝ᵥ createNormal a b c := by
  have hp : 0 < nrm (crossProduct (b - a) (c - a)) := lt_of_lt_of_le (by norm_num) h
  have e : createNormal a b c = (1 / nrm (crossProduct (b - a) (c - a))) • crossProduct (b - a) (c - a) := by
    unfold createNormal
    dsimp only
    rw [if_neg (not_lt.2 h)]
  have hd : crossProduct (b - a) (c - a) ⬝ᵥ crossProduct (b - a) (c - a) = nrm (crossProduct (b - a) (c - a)) ^ 2 := by
    unfold nrm
    rw [Real.sq_sqrt]
    unfold dotProduct
    exact Finset.sum_nonneg fun i _ => mul_self_nonneg _
  rw [e]
  refine ⟨?_, ?_, ?_, ?_⟩
  · have : nrm ((1 / nrm (crossProduct (b - a) (c - a))) • crossProduct (b - a) (c - a)) = Real.sqrt 1 := by
      conv_lhs => unfold nrm
      congr 1
      rw [smul_dotProduct, dotProduct_smul]
      simp only [smul_eq_mul]
      have : Real.sqrt (crossProduct (b - a) (c - a) ⬝ᵥ crossProduct (b - a) (c - a)) = nrm (crossProduct (b - a) (c - a)) := rfl
      rw [this, hd]
      field_simp
    rw [this, Real.sqrt_one]
  · rw [smul_dotProduct, dotProduct_comm, dot_self_cross]; simp
  · rw [smul_dotProduct, dotProduct_comm, dot_cross_self]; simp
  · rw [dotProduct_smul, hd, smul_eq_mul]
    positivity

example : (1e-10 : ℝ) ≤ nrm (crossProduct ((![1, 0, 0] : V3) - ![0, 0, 0]) (![0, 1, 0] - ![0, 0, 0])) := by
  have : crossProduct ((![1, 0, 0] : V3) - ![0, 0, 0]) (![0, 1, 0] - ![0, 0, 0]) = ![0, 0, 1] := by
    rw [cross_apply]; funext i; fin_cases i <;> simp
  rw [this]
  have : nrm ![0, 0, 1] = 1 := by
    unfold nrm
    have : (![0, 0, 1] : V3) ⬝ᵥ ![0, 0, 1] = 1 := by simp [dotProduct, Fin.sum_univ_three]
    rw [this, Real.sqrt_one]
  rw [this]
  norm_num

/-- Adding a mesh whose faces have existing vertices and colours appends its triangles with their colours; all other meshes
throw. -/
theorem C122_add_mesh (m o : Mesh C) (hv : m.Valid) (hp : m.Painted) (r1 : m.vertices.length + 3 * o.faces.length ≤ 2 ^ 32)
    (r2 : m.colors.length + 3 * o.faces.length ≤ 2 ^ 32) :
    (o.Valid → o.Painted → ∃ m', m.addMesh o = .ok m' ∧ m'.triangles = m.triangles ++ o.triangles ∧ m'.paint = m.paint ++ o.paint ∧
      m'.Valid ∧ m'.Painted ∧ (m.Boxed → m'.Boxed)) ∧
    (¬ (o.Valid ∧ o.Painted) → m.addMesh o = .throw) := by
  constructor
  · intro h1 h2
    obtain ⟨m', a1, a2, a3, a4, a5, a6, -⟩ := addMeshLoop_ok o o.faces m hv hp r1 r2 fun f hf c => ⟨h1 f hf c, h2 f hf c⟩
    exact ⟨m', a1, a2, a3, a4, a5, a6⟩
  · intro h
    apply addMeshLoop_bad
    by_contra hne
    apply h
    constructor
    · intro f hf c
      by_contra hc
      exact hne ⟨f, hf, c, fun h => hc h.1⟩
    · intro f hf c
      by_contra hc
      exact hne ⟨f, hf, c, fun h => hc h.2⟩

/-- A mesh with faces made from ids is valid, but has no colours, and cannot be added to another one. -/
theorem C122_add_uncoloured_false : ∃ o : Mesh ℕ, o.Valid ∧ (Reach o) ∧ Mesh.empty.addMesh o = .throw := by
  let o : Mesh ℕ := Mesh.addFaceIds (((((Mesh.empty : Mesh ℕ).addVertex (some 0)).1.addVertex (some 1)).1.addVertex (some 2)).1) none 0 1 2
  have hv : ∀ c : Fin 3, (![0, 1, 2] : Fin 3 → ℕ) c < 3 := by decide
  have ho : o.Valid := by
    intro f hf c
    simp only [o, Mesh.addFaceIds, Mesh.addFace, Mesh.addVertex, Mesh.empty, List.nil_append, List.mem_singleton] at hf ⊢
    subst hf
    exact hv c
  refine ⟨o, ho, ?_, ?_⟩
  · refine .step (.step (.step (.step .empty (.vertex (some 0))) (.vertex (some 1))) (.vertex (some 2))) (.face _ ?_)
    exact hv
  · refine (C122_add_mesh _ _ ?_ ?_ ?_ ?_).2 ?_
    · intro f hf; simp [Mesh.empty] at hf
    · intro f hf; simp [Mesh.empty] at hf
    · simp [o, Mesh.empty, Mesh.addFaceIds, Mesh.addFace, Mesh.addVertex]
    · simp [o, Mesh.empty, Mesh.addFaceIds, Mesh.addFace, Mesh.addVertex]
    · rintro ⟨-, h⟩
      have := h _ (List.mem_singleton.2 rfl) 0
      simp [o, Mesh.addFaceIds, Mesh.addFace, Mesh.addVertex, Mesh.empty] at this

/-- If one point of a triangle has NaN, a face is added all the same: its corners are other ones than the points given, here
ones of the triangle before. -/
theorem C122_nan_false (a b c d e : V3) (n : Vec) (gray : ℕ) :
    (Mesh.addTriangleWithFace (Mesh.ofTriangles gray [(some a, some b, some c)]) (some d) (some e) none n gray gray gray).triangles =
      [tri (a, b, c), tri (c, d, e)] := by
  have h0 : ∀ x : V3, (Mesh.ofTriangles gray [(some a, some b, some c)]).vertices = [a, b, c] := by
    intro x
    simp [Mesh.ofTriangles, Mesh.addTriangle, addTriangle_vertices, Mesh.empty]
  simp only [Mesh.triangles, Mesh.ofTriangles, Mesh.addTriangle, List.foldl_cons, List.foldl_nil, Mesh.addTriangleWithFace, Mesh.addVertex, Mesh.addColor,
    Mesh.addFace, Mesh.empty, List.nil_append, List.cons_append, List.length_cons, List.length_nil, List.map_cons, List.map_nil]
  have e : ∀ k, u32 3 k = (3 + 2 ^ 32 - k) % 2 ^ 32 := fun _ => rfl
  have e' : ∀ k, u32 5 k = (5 + 2 ^ 32 - k) % 2 ^ 32 := fun _ => rfl
  simp only [Nat.zero_add, Nat.reduceAdd, e, e']
  congr 1
  · funext i; fin_cases i <;> rfl
  · congr 1
    funext i; fin_cases i <;> rfl

/-- Clearing a mesh removes vertices, faces, colours and the box. -/
theorem C122_clear_partial (m : Mesh C) : m.clear.vertices = [] ∧ m.clear.faces = [] ∧ m.clear.colors = [] ∧ m.clear.boundingBox = BBox.clear :=
  ⟨rfl, rfl, rfl, rfl⟩

/-- But not the normals. -/
theorem C122_clear_false : ∃ m : Mesh ℕ, Reach m ∧ m.clear ≠ Mesh.empty :=
  ⟨((Mesh.empty : Mesh ℕ).addNormal (some 0)).1, .step .empty (.normal _), by
    intro h
    have := congrArg Mesh.normals h
    simp [Mesh.clear, Mesh.addNormal, Mesh.empty] at this⟩

/-- `setColor` gives all corners the colour if the faces refer to their colours by numbers below the number of vertices.
Missing: other numbers (`C122_set_color_false`). -/
theorem C122_set_color_partial (m : Mesh C) (c : C) (h : ∀ f ∈ m.faces, ∀ i, f.idColor i < m.vertices.length) :
    (m.setColor c).Painted ∧ (m.setColor c).paint = m.faces.map fun _ _ => some c := by
  constructor
  · intro f hf i
    simpa [Mesh.setColor] using h f hf i
  · unfold Mesh.paint Mesh.setColor
    apply List.map_congr_left
    intro f hf
    funext i
    simp [h f hf i]

/-- `setColor` stores one colour for each vertex, whatever the faces refer to: here a colour was added before a triangle, and
then the last corner of the triangle has a colour that does not exist. -/
theorem C122_set_color_false : ∃ m : Mesh ℕ, Reach m ∧ m.Painted ∧ ¬ (m.setColor 7).Painted := by
  let m : Mesh ℕ := ((Mesh.empty : Mesh ℕ).addColor 0).1.addTriangleWithFace (some 0) (some 1) (some 2) none 1 2 3
  refine ⟨m, .step (.step .empty (.color 0)) (.triangle _ _ _ _ _ _ _ (by simp [Mesh.empty, Mesh.addColor])), ?_, fun h => ?_⟩
  · exact addTriangle_painted _ (by intro f hf; simp [Mesh.empty, Mesh.addColor] at hf) _ _ _ _ _ _ _ (by simp [Mesh.empty, Mesh.addColor])
  · have hf : m.faces = [⟨![0, 1, 2], ![1, 2, 3], fun _ => noId, givenNormal none 0 1 2⟩] := by
      simp only [m, addTriangle_faces, Mesh.empty, Mesh.addColor]
      rfl
    have hn : m.vertices.length = 3 := by
      simp only [m, addTriangle_vertices, Mesh.empty, Mesh.addColor]
      rfl
    have := h ⟨![0, 1, 2], ![1, 2, 3], fun _ => noId, givenNormal none 0 1 2⟩ (by simp [Mesh.setColor, hf]) 2
    simp [Mesh.setColor, hn] at this

/-! ## Unused vertices -/

/-- Removing unused vertices leaves every triangle where it is (with its colours and normals), keeps the order of the vertices,
leaves only vertices that are used, and returns how many were removed. -/
theorem C122_unused (m : Mesh C) (hv : m.Valid) : ∃ (m' : Mesh C) (n : ℕ), m.removeUnusedVertices = .ok (m', n) ∧ m'.triangles = m.triangles ∧ m'.Valid ∧
    m'.vertices.Sublist m.vertices ∧ n + m'.vertices.length = m.vertices.length ∧ (∀ v < m'.vertices.length, ∃ f ∈ m'.faces, ∃ c, f.id c = v) ∧
    m'.colors = m.colors ∧ m'.normals = m.normals ∧ m'.boundingBox = m.boundingBox ∧
    m'.faces.map (fun f => (f.idColor, f.idNormal, f.normal)) = m.faces.map fun f => (f.idColor, f.idNormal, f.normal) := by
  obtain ⟨h1, h2, h3⟩ := newVertices_spec m.vertices m.faces m.vertices.length (le_refl _)
  rw [List.take_length] at h1
  have hv' : validIds m.faces m.vertices.length := hv
  let g : ℕ → ℕ := (newVertices m.vertices m.faces m.vertices.length).2
  refine ⟨⟨m.normals, (newVertices m.vertices m.faces m.vertices.length).1, m.colors,
    m.faces.map fun f => ⟨fun c => g (f.id c), f.idColor, f.idNormal, f.normal⟩, m.boundingBox⟩, _, by rw [Mesh.removeUnusedVertices, if_pos hv'], ?_, ?_, h1, ?_, ?_, rfl, rfl, rfl, ?_⟩
  · unfold Mesh.triangles
    rw [List.map_map]
    apply List.map_congr_left
    intro f hf
    funext c
    exact (h2 _ (hv f hf c) ⟨f, hf, c, rfl⟩).2
  · intro f hf c
    obtain ⟨g, hg, rfl⟩ := List.mem_map.1 hf
    exact (h2 _ (hv g hg c) ⟨g, hg, c, rfl⟩).1
  · have := h1.length_le
    dsimp only
    omega
  · intro v hvl
    obtain ⟨i, -, ⟨f, hf, c, e⟩, e'⟩ := h3 v hvl
    exact ⟨_, List.mem_map.2 ⟨f, hf, rfl⟩, c, by dsimp only; rw [e]; exact e'⟩
  · rw [List.map_map]
    rfl

/-- With a face whose vertex does not exist memory outside of the map is written. -/
theorem C122_unused_invalid_false (m : Mesh C) (h : ¬ m.Valid) : m.removeUnusedVertices = .ub ∧ ∀ search b, m.mergeVertices search b = .ub := by
  have h : ¬ validIds m.faces m.vertices.length := h
  constructor
  · rw [Mesh.removeUnusedVertices, if_neg h]
  · intro search b
    rw [Mesh.mergeVertices, if_neg h]

/-- The bounding box is not updated: after a vertex was removed it is not the smallest one around the others. -/
theorem C122_box_false : ∃ (m m' : Mesh ℕ) (n : ℕ), Reach m ∧ m.Boxed ∧ m.removeUnusedVertices = .ok (m', n) ∧ ¬ m'.Boxed := by
  let m : Mesh ℕ := ((Mesh.empty : Mesh ℕ).addVertex (some 0)).1
  have hv : m.Valid := by intro f hf; simp [m, Mesh.addVertex, Mesh.empty] at hf
  obtain ⟨m', n, h1, -, -, -, -, h6, -, -, h9, h10⟩ := C122_unused m hv
  have hb : m.Boxed := by
    have := addPoints_around [real 0] (ps := []) (b := BBox.clear) fun j => .inl ⟨rfl, rfl, rfl⟩
    simpa [Mesh.Boxed, m, Mesh.addVertex, Mesh.empty, BBox.addPoints] using this
  refine ⟨m, m', n, .step .empty (.vertex _), hb, h1, fun hb' => ?_⟩
  have hf : m'.faces = [] := by
    have := congrArg List.length h10
    simp only [List.length_map] at this
    exact List.length_eq_zero_iff.1 (by rw [this]; rfl)
  have hz : m'.vertices = [] := by
    by_contra hne
    obtain ⟨f, hf', -⟩ := h6 0 (List.length_pos_iff.2 hne)
    rw [hf] at hf'
    simp at hf'
  have := hb' 0
  rw [hz, h9] at this
  have hb0 := hb 0
  rcases this with ⟨-, h, -⟩ | ⟨a, b, -, -, h, -⟩
  · rcases hb0 with ⟨h', -⟩ | ⟨a, b, h', -⟩
    · simp [m, Mesh.addVertex, Mesh.empty, coords, real] at h'
    · rw [h] at h'; cases h'
  · simp [coords] at h

/-- The bounding box stays the smallest one around the vertices when anything is added, colours are set, faces are flipped or
oriented, the mesh is cleared, or scaled with factors that are not negative. Missing: removing, merging and moving vertices
(`C122_box_false`), negative factors (`C121_scale_false`). -/
theorem C122_box_partial (m : Mesh C) (hb : m.Boxed) :
    (∀ v, (m.addVertex v).1.Boxed) ∧ (∀ n, (m.addNormal n).1.Boxed) ∧ (∀ c, (m.addColor c).1.Boxed) ∧ (∀ f, (m.addFace f).Boxed) ∧
    (∀ a b c n c1 c2 c3, (m.addTriangleWithFace (some a) (some b) (some c) n c1 c2 c3).Boxed) ∧ m.clear.Boxed ∧ (∀ c, (m.setColor c).Boxed) ∧
    m.flipVertexOrientations.Boxed ∧ (∀ i r, m.checkAndCorrectNormals i = .ok r → r.1.Boxed) ∧
    (∀ f : V3, (∀ j, 0 ≤ f j) → (m.scale f).Boxed ∧ (m.clone f).Boxed) := by
  have hs : ∀ f : V3, (∀ j, 0 ≤ f j) → (m.scale f).Boxed := by
    intro f hf
    unfold Mesh.scale
    by_cases h1 : f 0 = 1 ∧ f 1 = 1 ∧ f 2 = 1
    · rw [if_pos h1]; exact hb
    · rw [if_neg h1]
      exact C121_scale_partial _ _ hb f hf
  refine ⟨?_, fun _ => hb, fun _ => hb, fun _ => hb, fun a b c n c1 c2 c3 => addTriangle_boxed m hb a b c n c1 c2 c3, fun j => .inl ⟨rfl, rfl, rfl⟩, fun _ => hb, hb, ?_,
    fun f hf => ⟨hs f hf, hs f hf⟩⟩
  · intro v
    rcases v with _ | v
    · exact hb
    · have := addPoint_around hb (real v)
      simpa [Mesh.Boxed, Mesh.addVertex] using this
  · intro i r h
    unfold Mesh.checkAndCorrectNormals at h
    split at h
    · cases h
    · cases h
      exact hb

/-! ## Histories -/

theorem missingFace_id {vs : List V3} {ns : List Vec} {f : Face} {n : ℕ} {r : List Vec × Face × ℕ} (h : missingFace vs ns f n = some r) : r.2.1.id = f.id := by
  have hc : ∀ c s, (missingCorner c s).2.1.id = s.2.1.id := by
    intro c s
    unfold missingCorner
    dsimp only
    split
    · split <;> rfl
    · rfl
  have hf : ∀ s, (missingFirst s).2.1.id = s.2.1.id := by
    intro s
    unfold missingFirst
    dsimp only
    split <;> rfl
  unfold missingFace at h
  split at h
  · cases h; rfl
  · split at h
    · cases h
    · cases h
      dsimp only
      rw [hc, hc, hf]

theorem missingLoop_ids (vs : List V3) : ∀ (fs : List Face) (ns : List Vec) (n : ℕ) (r : List Vec × List Face × ℕ),
    missingLoop vs fs ns n = some r → r.2.1.map Face.id = fs.map Face.id
  | [], ns, n, r, h => by
      rw [missingLoop] at h
      cases h; rfl
  | f :: fs, ns, n, r, h => by
      rw [missingLoop] at h
      split at h
      · cases h
      · rename_i ns' f' n' e
        split at h
        · cases h
        · rename_i e'
          cases h
          have := missingLoop_ids vs fs _ _ _ e'
          simp only [List.map_cons]
          rw [this, missingFace_id e]

theorem missingColor_ids (color : C) (s : Mesh C × ℕ) (jc : ℕ × Fin 3) : (missingColor color s jc).1.faces.map Face.id = s.1.faces.map Face.id ∧
    (missingColor color s jc).1.vertices = s.1.vertices := by
  have hg : ∀ v, (s.1.getColorId color v).1.faces = s.1.faces ∧ (s.1.getColorId color v).1.vertices = s.1.vertices := by
    intro v
    unfold Mesh.getColorId
    split <;> exact ⟨rfl, rfl⟩
  unfold missingColor
  split
  · exact ⟨rfl, rfl⟩
  · rename_i f hf
    split
    · dsimp only
      rw [(hg _).1, (hg _).2]
      refine ⟨?_, rfl⟩
      apply List.ext_getElem?
      intro k
      rw [List.getElem?_map, List.getElem?_map, List.getElem?_set]
      by_cases hk : jc.1 = k
      · subst hk
        rw [if_pos rfl, if_pos (List.getElem?_eq_some_iff.1 hf).1, hf]
        rfl
      · rw [if_neg hk]
    · exact ⟨rfl, rfl⟩

theorem missingColors_valid (m : Mesh C) (hv : m.Valid) (color : C) : (m.missingColors color).1.Valid := by
  unfold Mesh.missingColors
  refine foldl_inv (fun s : Mesh C × ℕ => s.1.Valid) _ _ _ hv ?_
  intro s jc _ hs
  have := missingColor_ids color s jc
  exact valid_of_ids this.1 (by rw [this.2]) hs

theorem storeNormals_ids (avg : ℕ → Vec) : ∀ (fs : List Face) (ns : List Vec), (storeNormals avg fs ns).2.map Face.id = fs.map Face.id
  | [], _ => rfl
  | f :: fs, ns => by simp [storeNormals, storeNormals_ids avg fs]

theorem averageLoop_some (vs : List V3) (ns : List Vec) : ∀ (fs : List Face) (avg : ℕ → Vec), (∀ f ∈ fs, ∀ c, f.id c < vs.length) →
    ∃ r, averageLoop vs ns fs avg = some r
  | [], avg, _ => ⟨avg, rfl⟩
  | f :: fs, avg, h => by
      have h' := h f (by simp)
      rw [averageLoop, List.getElem?_eq_getElem (h' 0), List.getElem?_eq_getElem (h' 1), List.getElem?_eq_getElem (h' 2)]
      exact averageLoop_some vs ns fs _ fun g hg => h g (by simp [hg])

theorem fatten_ok (m : Mesh C) (hv : m.Valid) (offset : ℝ) (b : Bool) : ∃ m', m.fattenShrink offset b = .ok m' ∧ m'.Valid ∧
    m'.vertices.length = m.vertices.length := by
  obtain ⟨r, hr⟩ := averageLoop_some m.vertices m.normals m.faces (fun _ => some 0) hv
  unfold Mesh.fattenShrink
  rw [hr]
  rcases b with _ | _
  · exact ⟨_, rfl, valid_of_ids (m := m) rfl (by simp) hv, by simp⟩
  · exact ⟨_, rfl, valid_of_ids (m := m) (storeNormals_ids _ _ _) (by simp) hv, by simp⟩

theorem faceNormal_some {vs : List V3} {f : Face} (h : ∀ c, f.id c < vs.length) : ∃ n, faceNormal vs f = some n := by
  unfold faceNormal
  have e0 := List.getElem?_eq_getElem (h 0)
  have e1 := List.getElem?_eq_getElem (h 1)
  have e2 := List.getElem?_eq_getElem (h 2)
  rw [e0, e1, e2]
  split
  · split <;> exact ⟨_, rfl⟩
  · exact ⟨_, rfl⟩

theorem missingLoop_some (vs : List V3) : ∀ (fs : List Face) (ns : List Vec) (n : ℕ), (∀ f ∈ fs, ∀ c, f.id c < vs.length) →
    ∃ r, missingLoop vs fs ns n = some r
  | [], ns, n, _ => ⟨_, rfl⟩
  | f :: fs, ns, n, h => by
      obtain ⟨nv, hn⟩ := faceNormal_some (h f (by simp))
      have : ∃ r, missingFace vs ns f n = some r := by
        unfold missingFace
        split
        · exact ⟨_, rfl⟩
        · rw [hn]; exact ⟨_, rfl⟩
      obtain ⟨⟨ns', f', n'⟩, hr⟩ := this
      obtain ⟨r', hr'⟩ := missingLoop_some vs fs ns' n' fun g hg => h g (by simp [hg])
      rw [missingLoop, hr]
      dsimp only
      rw [hr']
      exact ⟨_, rfl⟩

theorem missing_ok (m : Mesh C) (hv : m.Valid) : ∃ r, m.addMissingNormals = .ok r ∧ r.1.Valid := by
  obtain ⟨r, hr⟩ := missingLoop_some m.vertices m.faces m.normals 0 hv
  have := missingLoop_ids _ _ _ _ _ hr
  unfold Mesh.addMissingNormals
  rw [hr]
  exact ⟨_, rfl, valid_of_ids (m := m) this rfl hv⟩

theorem merge_ok (m : Mesh C) (hv : m.Valid) (search : ℕ → List ℕ) (b : Bool) : ∃ m', m.mergeVertices search b = .ok m' ∧ m'.Valid := by
  unfold Mesh.mergeVertices
  rw [if_pos (show validIds m.faces m.vertices.length from hv)]
  have hv' : ({ m with faces := mergeLoop search m.vertices.length m.faces } : Mesh C).Valid := mergeLoop_valid search _ _ hv
  rcases b with _ | _
  · exact ⟨_, rfl, hv'⟩
  · obtain ⟨m', n, h1, -, h3, -⟩ := C122_unused _ hv'
    dsimp only
    rw [h1]
    exact ⟨m', rfl, h3⟩

theorem flip_lt {f : Face} {n : ℕ} (h : ∀ c, f.id c < n) (c : Fin 3) : f.flipOrientation.id c < n := by
  fin_cases c
  · exact h 2
  · exact h 1
  · exact h 0

theorem orient_valid (eq : ℕ → ℕ → Bool) (inverted : Bool) (faces : List Face) (n : ℕ) (h : validIds faces n) : validIds (orientLoop eq inverted faces).1 n := by
  unfold orientLoop
  refine foldl_inv (fun s : List Face × ℕ => validIds s.1 n) _ _ _ h ?_
  intro s ij _ hs
  unfold orientStep
  split
  · exact hs
  · split
    · rename_i f1 f2 h1 h2
      split
      · intro f hf c
        rcases List.mem_or_eq_of_mem_set hf with hf | rfl
        · exact hs f hf c
        · exact flip_lt (hs f2 (List.mem_of_getElem? h2)) c
      · exact hs
    · exact hs

theorem smooth_ok (m : Mesh C) (hv : m.Valid) (search : ℕ → List ℕ) : ∃ m', m.smoothNormalSurface search = .ok m' ∧ m'.Valid := by
  obtain ⟨m1, h1, v1⟩ := merge_ok m hv search true
  obtain ⟨r, h2, v2⟩ := missing_ok m1 v1
  obtain ⟨m3, h3, v3, -⟩ := fatten_ok r.1 v2 0 true
  refine ⟨m3, ?_, v3⟩
  unfold Mesh.smoothNormalSurface
  rw [h1]
  dsimp only
  rw [h2]
  exact h3

theorem correct_ok (m : Mesh C) (hv : m.Valid) (i : Bool) : ∃ r, m.checkAndCorrectNormals i = .ok r ∧ r.1.Valid := by
  unfold Mesh.checkAndCorrectNormals
  rw [if_neg (fun h => h.2 hv)]
  exact ⟨_, rfl, orient_valid _ _ _ _ hv⟩

theorem areas_ok (m : Mesh C) (hv : m.Valid) : ∃ l, m.getFaceAreas = some l ∧ l.length = m.faces.length := by
  unfold Mesh.getFaceAreas
  unfold Mesh.Valid at hv
  revert hv
  generalize m.faces = fs
  induction fs with
  | nil => intro _; exact ⟨[], rfl, rfl⟩
  | cons f fs ih =>
    intro hv
    obtain ⟨l, hl, e⟩ := ih fun g hg => hv g (by simp [hg])
    have h' := hv f (by simp)
    rw [List.mapM_cons, hl, faceArea, List.getElem?_eq_getElem (h' 0), List.getElem?_eq_getElem (h' 1), List.getElem?_eq_getElem (h' 2)]
    exact ⟨_, rfl, by simp [e]⟩

/-- One call keeps the property that all corners of faces are vertices. -/
theorem step_valid {m m' : Mesh C} (s : Step m m') (hv : m.Valid) : m'.Valid := by
  cases s with
  | vertex v =>
    rcases v with _ | v
    · exact hv
    · intro f hf c
      have := hv f hf c
      simp only [Mesh.addVertex, List.length_append, List.length_singleton]
      omega
  | normal n => exact hv
  | color c => exact hv
  | triangle a b c n c1 c2 c3 room => exact addTriangle_valid m hv _ _ _ _ _ _ _ room
  | face f h =>
    intro g hg c
    rcases List.mem_append.1 hg with hg | hg
    · exact hv g hg c
    · rw [List.mem_singleton.1 hg]; exact h c
  | mesh o m' ho h room => exact addMeshLoop_valid o o.faces m m' hv room h
  | clear => intro f hf; simp [Mesh.clear] at hf
  | setColor c => exact hv
  | missingNormals r h =>
    obtain ⟨r', h', v⟩ := missing_ok m hv
    rw [h] at h'
    cases h'
    exact v
  | missingColors search c r h =>
    obtain ⟨m1, h1, v1⟩ := merge_ok m hv search true
    unfold Mesh.addMissingColors at h
    rw [h1] at h
    cases h
    exact missingColors_valid m1 v1 c
  | merge search b m' h =>
    obtain ⟨m1, h1, v1⟩ := merge_ok m hv search b
    rw [h] at h1
    cases h1
    exact v1
  | unused r h =>
    obtain ⟨m1, n, h1, -, v1, -⟩ := C122_unused m hv
    rw [h] at h1
    cases h1
    exact v1
  | flip =>
    intro f hf c
    obtain ⟨g, hg, rfl⟩ := List.mem_map.1 hf
    exact flip_lt (hv g hg) c
  | fatten offset b m' h =>
    obtain ⟨m1, h1, v1, -⟩ := fatten_ok m hv offset b
    rw [h] at h1
    cases h1
    exact v1
  | smooth search m' h =>
    obtain ⟨m1, h1, v1⟩ := smooth_ok m hv search
    rw [h] at h1
    cases h1
    exact v1
  | scale f =>
    unfold Mesh.scale
    split
    · exact hv
    · intro g hg c
      simpa using hv g hg c
  | correct i r h =>
    obtain ⟨r', h', v⟩ := correct_ok m hv i
    rw [h] at h'
    cases h'
    exact v

/-- After any history of calls all corners of all faces are vertices of the mesh, and no function throws or reads or writes
outside of the vectors. -/
theorem C122_history (m : Mesh C) (h : Reach m) : m.Valid ∧ (∃ r, m.addMissingNormals = .ok r) ∧ (∃ r, m.removeUnusedVertices = .ok r) ∧
    (∀ search b, ∃ m', m.mergeVertices search b = .ok m') ∧ (∀ search c, ∃ r, m.addMissingColors search c = .ok r) ∧
    (∀ offset b, ∃ m', m.fattenShrink offset b = .ok m') ∧ (∀ search, ∃ m', m.smoothNormalSurface search = .ok m') ∧
    (∀ i, ∃ r, m.checkAndCorrectNormals i = .ok r) ∧ ∃ l, m.getFaceAreas = some l ∧ l.length = m.faces.length := by
  have hv : m.Valid := by
    induction h with
    | empty => intro f hf; simp [Mesh.empty] at hf
    | step _ s ih => exact step_valid s ih
  refine ⟨hv, ?_, ?_, ?_, ?_, ?_, ?_, ?_, areas_ok m hv⟩
  · obtain ⟨r, h, -⟩ := missing_ok m hv; exact ⟨r, h⟩
  · obtain ⟨m', n, h, -⟩ := C122_unused m hv; exact ⟨(m', n), h⟩
  · intro s b; obtain ⟨m', h, -⟩ := merge_ok m hv s b; exact ⟨m', h⟩
  · intro s c
    obtain ⟨m', h, -⟩ := merge_ok m hv s true
    exact ⟨_, by unfold Mesh.addMissingColors; rw [h]⟩
  · intro o b; obtain ⟨m', h, -⟩ := fatten_ok m hv o b; exact ⟨m', h⟩
  · intro s; obtain ⟨m', h, -⟩ := smooth_ok m hv s; exact ⟨m', h⟩
  · intro i; obtain ⟨r, h, -⟩ := correct_ok m hv i; exact ⟨r, h⟩

example : Reach ((Mesh.empty : Mesh ℕ).addTriangleWithFace (some ![0, 0, 0]) (some ![1, 0, 0]) (some ![0, 1, 0]) none 1 2 3) :=
  .step .empty (.triangle _ _ _ _ _ _ _ (by simp [Mesh.empty]))

end Simox.Msh
