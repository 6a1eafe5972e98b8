import Verif.Msh.MeshProps
import Mathlib.Logic.Relation
import Mathlib.Tactic.IntervalCases

/-!
# C123: merging vertices
-/

namespace Simox.Msh

open Matrix Jac Rot

variable {C : Type}

/-! ## Specification -/

/-- Two vertices (given by their numbers) whose squared distance is below the threshold. -/
def Near (vs : List V3) (t : ℝ) (a b : ℕ) : Prop := ∃ p q, vs[a]? = some p ∧ vs[b]? = some q ∧ (q - p) ⬝ᵥ (q - p) < t

/-- The kd-tree finds the vertices near to vertex `i` (nanoflann's `radiusSearch`), in any order. -/
def Finds (vs : List V3) (t : ℝ) (search : ℕ → List ℕ) : Prop := ∀ i < vs.length, ∀ k, k ∈ search i ↔ Near vs t i k

/-! ## Helpers -/

theorem near_symm {vs : List V3} {t : ℝ} {a b : ℕ} (h : Near vs t a b) : Near vs t b a := by
  obtain ⟨p, q, h1, h2, h3⟩ := h
  refine ⟨q, p, h2, h1, ?_⟩
  have : p - q = -(q - p) := by simp
  rw [this, neg_dotProduct_neg]
  exact h3

theorem near_lt {vs : List V3} {t : ℝ} {a b : ℕ} (h : Near vs t a b) : a < vs.length ∧ b < vs.length := by
  obtain ⟨p, q, h1, h2, -⟩ := h
  exact ⟨(List.getElem?_eq_some_iff.1 h1).1, (List.getElem?_eq_some_iff.1 h2).1⟩

theorem near_refl {vs : List V3} {t : ℝ} (ht : 0 < t) {a : ℕ} (h : a < vs.length) : Near vs t a a :=
  ⟨vs[a], vs[a], List.getElem?_eq_getElem h, List.getElem?_eq_getElem h, by simpa using ht⟩

/-- What happens to a number stored in a face. -/
def track (search : ℕ → List ℕ) (n : ℕ) (c : ℕ) : ℕ := (List.range n).foldl (fun c i => if c ∈ search i then i else c) c

theorem inner_fold (i : ℕ) : ∀ (l : List ℕ) (c : ℕ), l.foldl (fun c k => if c = k then i else c) c = if c ∈ l then i else c
  | [], c => by simp
  | k :: l, c => by
      rw [List.foldl_cons, inner_fold i l]
      by_cases h : c = k
      · subst h
        by_cases h2 : i ∈ l <;> simp [h2]
      · simp [h]

theorem mergeOne_eq (i k : ℕ) (s : List Face × (ℕ → ℕ → Bool)) (h : ∀ v j, initMap s.1 v j = true → s.2 v j = true) :
    (mergeOne i s k).1 = s.1.map (fun f => { f with id := fun c => if f.id c = k then i else f.id c }) ∧
    ∀ v j, initMap (mergeOne i s k).1 v j = true → (mergeOne i s k).2 v j = true := by
  have hc : ∀ (f : Face) (v : ℕ), (f.id 0 == v || f.id 1 == v || f.id 2 == v) = true ↔ ∃ c, f.id c = v := by
    intro f v
    simp only [Bool.or_eq_true, beq_iff_eq]
    constructor
    · rintro ((h | h) | h)
      · exact ⟨0, h⟩
      · exact ⟨1, h⟩
      · exact ⟨2, h⟩
    · rintro ⟨c, h⟩
      fin_cases c
      · exact .inl (.inl h)
      · exact .inl (.inr h)
      · exact .inr h
  have e : (mergeOne i s k).1 = s.1.map (fun f => { f with id := fun c => if f.id c = k then i else f.id c }) := by
    apply List.ext_getElem?
    intro j
    unfold mergeOne
    rw [List.getElem?_mapIdx, List.getElem?_map]
    rcases hj : s.1[j]? with _ | f
    · rfl
    · simp only [Option.map_some]
      by_cases hm : s.2 k j = true
      · rw [if_pos hm]
      · rw [if_neg hm]
        have hno : ¬ ∃ c, f.id c = k := by
          intro hk
          apply hm
          apply h
          unfold initMap
          rw [hj]
          exact (hc f k).2 hk
        congr 1
        have : (fun c => if f.id c = k then i else f.id c) = f.id := by
          funext c
          rw [if_neg fun hk => hno ⟨c, hk⟩]
        rw [this]
  refine ⟨e, fun v j hv => ?_⟩
  rw [e] at hv
  unfold initMap at hv
  rw [List.getElem?_map] at hv
  rcases hj : s.1[j]? with _ | f
  · rw [hj] at hv; simp at hv
  · rw [hj] at hv
    simp only [Option.map_some] at hv
    obtain ⟨c, hcv⟩ := (hc ⟨fun c => if f.id c = k then i else f.id c, f.idColor, f.idNormal, f.normal⟩ v).1 hv
    unfold mergeOne
    dsimp only at hcv ⊢
    rw [Bool.or_eq_true]
    by_cases hk : f.id c = k
    · right
      rw [if_pos hk] at hcv
      have hin : initMap s.1 k j = true := by
        unfold initMap
        rw [hj]
        exact (hc f k).2 ⟨c, hk⟩
      simp [hcv, hin, h k j hin]
    · left
      rw [if_neg hk] at hcv
      apply h
      unfold initMap
      rw [hj]
      exact (hc f v).2 ⟨c, hcv⟩

theorem merge_inner (i : ℕ) : ∀ (l : List ℕ) (s : List Face × (ℕ → ℕ → Bool)), (∀ v j, initMap s.1 v j = true → s.2 v j = true) →
    (l.foldl (mergeOne i) s).1 = s.1.map (fun f => { f with id := fun c => if f.id c ∈ l then i else f.id c }) ∧
    ∀ v j, initMap (l.foldl (mergeOne i) s).1 v j = true → (l.foldl (mergeOne i) s).2 v j = true
  | [], s, h => by
      refine ⟨?_, h⟩
      simp
  | k :: l, s, h => by
      obtain ⟨h1, h2⟩ := mergeOne_eq i k s h
      obtain ⟨h3, h4⟩ := merge_inner i l _ h2
      refine ⟨?_, h4⟩
      rw [List.foldl_cons, h3, h1, List.map_map]
      apply List.map_congr_left
      intro f _
      simp only [Function.comp]
      congr 1
      funext c
      by_cases hk : f.id c = k
      · subst hk
        by_cases hi : i ∈ l <;> simp [hi]
      · rw [if_neg hk]
        by_cases hl : f.id c ∈ l
        · rw [if_pos hl, if_pos (by simp [hl])]
        · rw [if_neg hl, if_neg (by simp [hl, hk])]

theorem merge_outer (search : ℕ → List ℕ) : ∀ (is : List ℕ) (s : List Face × (ℕ → ℕ → Bool)), (∀ v j, initMap s.1 v j = true → s.2 v j = true) →
    (is.foldl (fun s i => (search i).foldl (mergeOne i) s) s).1 =
      s.1.map (fun f => { f with id := fun c => is.foldl (fun c i => if c ∈ search i then i else c) (f.id c) })
  | [], s, h => by simp
  | i :: is, s, h => by
      obtain ⟨h1, h2⟩ := merge_inner i (search i) s h
      rw [List.foldl_cons, merge_outer search is _ h2, h1, List.map_map]
      rfl

theorem mergeLoop_eq (search : ℕ → List ℕ) (n : ℕ) (faces : List Face) :
    mergeLoop search n faces = faces.map (fun f => { f with id := fun c => track search n (f.id c) }) :=
  merge_outer search (List.range n) (faces, initMap faces) fun _ _ h => h

theorem track_succ (search : ℕ → List ℕ) (n c : ℕ) : track search (n + 1) c = if track search n c ∈ search n then n else track search n c := by
  unfold track
  rw [List.range_succ, List.foldl_append]
  rfl

theorem track_chain {vs : List V3} {t : ℝ} {search : ℕ → List ℕ} (hf : Finds vs t search) (c : ℕ) : ∀ n, n ≤ vs.length →
    Relation.ReflTransGen (Near vs t) c (track search n c)
  | 0, _ => .refl
  | n + 1, h => by
      have ih := track_chain hf c n (by omega)
      rw [track_succ]
      by_cases hm : track search n c ∈ search n
      · rw [if_pos hm]
        exact ih.tail (near_symm ((hf n (by omega) _).1 hm))
      · rw [if_neg hm]; exact ih

theorem track_last {vs : List V3} {t : ℝ} (ht : 0 < t) {search : ℕ → List ℕ} (hf : Finds vs t search)
    (htr : ∀ a b c, Near vs t a b → Near vs t b c → Near vs t a c) {c : ℕ} (hc : c < vs.length) : ∀ n, n ≤ vs.length →
    Near vs t c (track search n c) ∧ ∀ j < n, Near vs t c j → j ≤ track search n c
  | 0, _ => ⟨near_refl ht hc, by simp⟩
  | n + 1, h => by
      obtain ⟨h1, h2⟩ := track_last ht hf htr hc n (by omega)
      rw [track_succ]
      by_cases hm : track search n c ∈ search n
      · rw [if_pos hm]
        refine ⟨htr _ _ _ h1 (near_symm ((hf n (by omega) _).1 hm)), fun j hj _ => by omega⟩
      · rw [if_neg hm]
        refine ⟨h1, fun j hj hn => ?_⟩
        by_cases hjn : j = n
        · subst hjn
          exact absurd ((hf j (by omega) _).2 (htr _ _ _ (near_symm hn) h1)) hm
        · exact h2 j (by omega) hn

theorem newVertices_mono (vertices : List V3) (faces : List Face) : ∀ n, n ≤ vertices.length →
    ∀ i j, i < j → j < n → Used faces i → Used faces j → (newVertices vertices faces n).2 i < (newVertices vertices faces n).2 j
  | 0, _, i, j, _, h, _, _ => by omega
  | n + 1, hn, i, j, hij, hj, hi', hj' => by
      have ih := newVertices_mono vertices faces n (by omega)
      have sp := (newVertices_spec vertices faces n (by omega)).2.1
      have hget : vertices[n]? = some vertices[n] := List.getElem?_eq_getElem (by omega)
      by_cases hu : ∃ j, initMap faces n j = true
      · have e : newVertices vertices faces (n + 1) = ((newVertices vertices faces n).1 ++ [vertices[n]],
            Function.update (newVertices vertices faces n).2 n (newVertices vertices faces n).1.length) := by
          rw [newVertices, if_pos hu, hget]
        rw [e]
        dsimp only
        rw [Function.update_of_ne (by omega : i ≠ n)]
        by_cases hjn : j = n
        · subst hjn
          rw [Function.update_self]
          exact (sp i hij hi').1
        · rw [Function.update_of_ne hjn]
          exact ih i j hij (by omega) hi' hj'
      · have e : newVertices vertices faces (n + 1) = newVertices vertices faces n := by
          rw [newVertices, if_neg hu]
        rw [e]
        by_cases hjn : j = n
        · subst hjn
          exact absurd (initMap_iff.2 hj') hu
        · exact ih i j hij (by omega) hi' hj'

/-- A merged mesh, vertices removed or not: the corner of a face is at a vertex of the old mesh, and two corners have the same
vertex exactly if they have the same number after the loop. -/
theorem merge_result (m : Mesh C) (hv : m.Valid) (search : ℕ → List ℕ) (b : Bool) : ∃ (m' : Mesh C) (g : ℕ → ℕ), m.mergeVertices search b = .ok m' ∧
    m'.faces = m.faces.map (fun f => { f with id := fun c => g (track search m.vertices.length (f.id c)) }) ∧
    (∀ f ∈ m.faces, ∀ c, m'.vertices[g (track search m.vertices.length (f.id c))]? = m.vertices[track search m.vertices.length (f.id c)]?) ∧
    (∀ f ∈ m.faces, ∀ c, ∀ f' ∈ m.faces, ∀ c', g (track search m.vertices.length (f.id c)) = g (track search m.vertices.length (f'.id c')) →
      track search m.vertices.length (f.id c) = track search m.vertices.length (f'.id c')) ∧
    m'.vertices.Sublist m.vertices ∧ m'.colors = m.colors ∧ m'.normals = m.normals ∧ m'.boundingBox = m.boundingBox ∧
    (b = false → m'.vertices = m.vertices) ∧ (b = true → ∀ v < m'.vertices.length, ∃ f ∈ m'.faces, ∃ c, f.id c = v) := by
  have hv1 : validIds m.faces m.vertices.length := hv
  unfold Mesh.mergeVertices
  rw [if_pos hv1]
  have hv2 := mergeLoop_valid search m.vertices.length m.faces hv1
  rcases b with _ | _
  · refine ⟨_, id, rfl, mergeLoop_eq .., fun _ _ _ => rfl, fun _ _ _ _ _ _ h => h, List.Sublist.refl _, rfl, rfl, rfl, fun _ => rfl, by simp⟩
  · have hne := mergeLoop_eq search m.vertices.length m.faces
    have hsp := newVertices_spec m.vertices (mergeLoop search m.vertices.length m.faces) m.vertices.length (le_refl _)
    have hmo := newVertices_mono m.vertices (mergeLoop search m.vertices.length m.faces) m.vertices.length (le_refl _)
    dsimp only
    unfold Mesh.removeUnusedVertices
    rw [if_pos (show validIds _ _ from hv2)]
    have hus : ∀ f ∈ m.faces, ∀ c, Used (mergeLoop search m.vertices.length m.faces) (track search m.vertices.length (f.id c)) := by
      intro f hf c
      rw [hne]
      exact ⟨_, List.mem_map.2 ⟨f, hf, rfl⟩, c, rfl⟩
    have hlt : ∀ f ∈ m.faces, ∀ c, track search m.vertices.length (f.id c) < m.vertices.length := by
      intro f hf c
      have := hv2 ⟨fun c => track search m.vertices.length (f.id c), f.idColor, f.idNormal, f.normal⟩
        (by rw [hne]; exact List.mem_map.2 ⟨f, hf, rfl⟩) c
      exact this
    refine ⟨_, (newVertices m.vertices (mergeLoop search m.vertices.length m.faces) m.vertices.length).2, rfl, ?_, ?_, ?_, ?_, rfl, rfl, rfl, by simp, ?_⟩
    · dsimp only
      conv_lhs => rw [hne]
      rw [List.map_map]
      rw [← hne]
      rfl
    · intro f hf c
      exact (hsp.2.1 _ (hlt f hf c) (hus f hf c)).2
    · intro f hf c f' hf' c' h
      rcases lt_trichotomy (track search m.vertices.length (f.id c)) (track search m.vertices.length (f'.id c')) with hl | hl | hl
      · have := hmo _ _ hl (hlt f' hf' c') (hus f hf c) (hus f' hf' c'); omega
      · exact hl
      · have := hmo _ _ hl (hlt f hf c) (hus f' hf' c') (hus f hf c); omega
    · have := hsp.1
      rw [List.take_length] at this
      exact this
    · intro _ v hvl
      obtain ⟨i, -, ⟨f, hf, c, e⟩, e'⟩ := hsp.2.2 v hvl
      exact ⟨_, List.mem_map.2 ⟨f, hf, rfl⟩, c, by dsimp only; rw [e]; exact e'⟩

/-! ## Properties -/

/-- Merging vertices, whatever the mesh: faces keep colours and normals, corners that were one vertex still are, every
corner is moved along a chain of near vertices, no vertex is moved, and with `removeVertices` only used ones are left. -/
theorem C123_merge (m : Mesh C) (hv : m.Valid) (t : ℝ) (search : ℕ → List ℕ) (hf : Finds m.vertices t search) (b : Bool) :
    ∃ m', m.mergeVertices search b = .ok m' ∧ m'.Valid ∧
      m'.faces.map (fun f => (f.idColor, f.idNormal, f.normal)) = m.faces.map (fun f => (f.idColor, f.idNormal, f.normal)) ∧
      m'.colors = m.colors ∧ m'.normals = m.normals ∧ m'.vertices.Sublist m.vertices ∧ (b = false → m'.vertices = m.vertices) ∧
      (b = true → ∀ v < m'.vertices.length, ∃ f ∈ m'.faces, ∃ c, f.id c = v) ∧
      ∃ move : ℕ → ℕ, (∀ v, Relation.ReflTransGen (Near m.vertices t) v (move v)) ∧
        m'.triangles = m.faces.map fun f c => m.vertices[move (f.id c)]? := by
  obtain ⟨m', g, h1, h2, h3, h4, h5, h6, h7, -, h8, h9⟩ := merge_result m hv search b
  obtain ⟨m'', e, v⟩ := merge_ok m hv search b
  rw [h1] at e
  cases e
  refine ⟨m', h1, v, ?_, h6, h7, h5, h8, h9, track search m.vertices.length, fun v => track_chain hf v _ (le_refl _), ?_⟩
  · rw [h2, List.map_map]; rfl
  · unfold Mesh.triangles
    rw [h2, List.map_map]
    apply List.map_congr_left
    intro f hf
    funext c
    exact h3 f hf c

/-- Where the near vertices form clusters (vertices near to one and the same vertex are near to each other), corners become
one vertex exactly if they are near to each other, and every corner is moved to a vertex near to where it was: the last one of
its cluster. Missing: other meshes, for which it is false (`C123_merge_false`). -/
theorem C123_merge_partial (m : Mesh C) (hv : m.Valid) (t : ℝ) (ht : 0 < t) (search : ℕ → List ℕ) (hf : Finds m.vertices t search)
    (htr : ∀ a b c, Near m.vertices t a b → Near m.vertices t b c → Near m.vertices t a c) (b : Bool) :
    ∃ m', m.mergeVertices search b = .ok m' ∧ m'.faces.length = m.faces.length ∧
      (∀ (j : ℕ) (f f' : Face), m.faces[j]? = some f → m'.faces[j]? = some f' → ∀ c, ∃ last, Near m.vertices t (f.id c) last ∧
        (∀ k, Near m.vertices t (f.id c) k → k ≤ last) ∧ m'.vertices[f'.id c]? = m.vertices[last]?) ∧
      ∀ (j : ℕ) (f f' : Face) (k : ℕ) (g g' : Face), m.faces[j]? = some f → m'.faces[j]? = some f' → m.faces[k]? = some g → m'.faces[k]? = some g' → ∀ c d,
        (f'.id c = g'.id d ↔ Near m.vertices t (f.id c) (g.id d)) := by
  obtain ⟨m', g, h1, h2, h3, h4, -⟩ := merge_result m hv search b
  have key : ∀ (j : ℕ) (f f' : Face), m.faces[j]? = some f → m'.faces[j]? = some f' → f'.id = fun c => g (track search m.vertices.length (f.id c)) := by
    intro j f f' e e'
    rw [h2, List.getElem?_map, e] at e'
    simp only [Option.map_some, Option.some.injEq] at e'
    rw [← e']
  have last : ∀ c, c < m.vertices.length → Near m.vertices t c (track search m.vertices.length c) ∧
      ∀ k, Near m.vertices t c k → k ≤ track search m.vertices.length c := by
    intro c hc
    obtain ⟨l1, l2⟩ := track_last ht hf htr hc m.vertices.length (le_refl _)
    exact ⟨l1, fun k hk => l2 k (near_lt hk).2 hk⟩
  refine ⟨m', h1, by rw [h2, List.length_map], ?_, ?_⟩
  · intro j f f' e e' c
    have hm := List.mem_of_getElem? e
    obtain ⟨l1, l2⟩ := last (f.id c) (hv f hm c)
    refine ⟨_, l1, l2, ?_⟩
    rw [key j f f' e e']
    exact h3 f hm c
  · intro j f f' k a a' e e' d d' c c'
    have hm := List.mem_of_getElem? e
    have hm' := List.mem_of_getElem? d
    obtain ⟨l1, l2⟩ := last (f.id c) (hv f hm c)
    obtain ⟨l1', l2'⟩ := last (a.id c') (hv a hm' c')
    rw [key j f f' e e', key k a a' d d']
    dsimp only
    constructor
    · intro h
      have := h4 f hm c a hm' c' h
      rw [this] at l1
      exact htr _ _ _ l1 (near_symm l1')
    · intro h
      congr 1
      exact le_antisymm (l2' _ (htr _ _ _ (near_symm h) l1)) (l2 _ (htr _ _ _ h l1'))

/-- The vertices of the counterexample. -/
noncomputable def lineVertices : List V3 := [![0.9, 0, 0], ![1.8, 0, 0], ![0, 0, 0], ![-0.5, 0, 0]]

/-- What is found near to them. -/
def lineSearch : ℕ → List ℕ
  | 0 => [0, 1, 2]
  | 1 => [0, 1]
  | 2 => [0, 2, 3]
  | _ => [2, 3]

theorem lineFinds : Finds lineVertices 1 lineSearch := by
  intro i hi k
  have hn : ∀ k, 4 ≤ k → lineVertices[k]? = none := by
    intro k hk
    exact List.getElem?_eq_none (by simpa [lineVertices] using hk)
  have e0 : lineVertices[0]? = some (![0.9, 0, 0] : V3) := rfl
  have e1 : lineVertices[1]? = some (![1.8, 0, 0] : V3) := rfl
  have e2 : lineVertices[2]? = some (![0, 0, 0] : V3) := rfl
  have e3 : lineVertices[3]? = some (![-0.5, 0, 0] : V3) := rfl
  have hd : ∀ a b : ℝ, ((![b, 0, 0] : V3) - ![a, 0, 0]) ⬝ᵥ (![b, 0, 0] - ![a, 0, 0]) = (b - a) * (b - a) := by
    intro a b
    simp [dotProduct, Fin.sum_univ_three]
  have hi4 : i < 4 := by simpa [lineVertices] using hi
  by_cases hk : 4 ≤ k
  · constructor
    · intro h
      exfalso
      have : ∀ i k, k ∈ lineSearch i → k < 4 := by
        intro i k h
        rcases i with _ | _ | _ | _ <;> simp [lineSearch] at h <;> omega
      have := this i k h
      omega
    · rintro ⟨p, q, -, h, -⟩
      rw [hn k hk] at h
      cases h
  · have hk4 : k < 4 := by omega
    unfold Near
    interval_cases i <;> interval_cases k <;> simp only [e0, e1, e2, e3, Option.some.injEq, exists_eq_left', exists_and_left, hd] <;>
      simp only [lineSearch, List.mem_cons, List.not_mem_nil] <;> norm_num

/-- Vertices in a row, each near to the next one: a corner at 0 is moved by 1.8, though the threshold is 1, and does not become
one with a corner that was half as far away as the threshold allows. -/
theorem C123_merge_false : ∃ (m m' : Mesh ℕ) (search : ℕ → List ℕ), Reach m ∧ Finds m.vertices 1 search ∧ m.mergeVertices search true = .ok m' ∧
    m.triangles = [![some ![0, 0, 0], some ![-0.5, 0, 0], some ![0.9, 0, 0]]] ∧
    m'.triangles = [![some ![1.8, 0, 0], some ![-0.5, 0, 0], some ![1.8, 0, 0]]] := by
  let m : Mesh ℕ := ((((((Mesh.empty : Mesh ℕ).addVertex (some ![0.9, 0, 0])).1.addVertex (some ![1.8, 0, 0])).1.addVertex (some ![0, 0, 0])).1.addVertex
    (some ![-0.5, 0, 0])).1).addFaceIds none 2 3 0
  have hlt : ∀ c : Fin 3, (![2, 3, 0] : Fin 3 → ℕ) c < 4 := by decide
  have hr : Reach m := by
    refine .step (.step (.step (.step (.step .empty (.vertex (some ![0.9, 0, 0]))) (.vertex (some ![1.8, 0, 0]))) (.vertex (some ![0, 0, 0])))
      (.vertex (some ![-0.5, 0, 0]))) (.face _ ?_)
    exact hlt
  have hvs : m.vertices = lineVertices := rfl
  have hfs : m.faces = [{ Face.new none with id := ![2, 3, 0] }] := rfl
  have hv := (C122_history m hr).1
  obtain ⟨m', g, h1, h2, h3, -⟩ := merge_result m hv lineSearch true
  refine ⟨m, m', lineSearch, hr, by rw [hvs]; exact lineFinds, h1, ?_, ?_⟩
  · unfold Mesh.triangles
    rw [hfs, hvs]
    simp only [List.map_cons, List.map_nil]
    congr 1
    funext c
    fin_cases c <;> rfl
  · have ht : m'.triangles = m.faces.map fun f c => m.vertices[track lineSearch m.vertices.length (f.id c)]? := by
      unfold Mesh.triangles
      rw [h2, List.map_map]
      apply List.map_congr_left
      intro f hf
      funext c
      exact h3 f hf c
    rw [ht, hfs, hvs]
    simp only [List.map_cons, List.map_nil]
    have hl : lineVertices.length = 4 := rfl
    rw [hl]
    have t2 : track lineSearch 4 2 = 1 := by decide
    have t3 : track lineSearch 4 3 = 3 := by decide
    have t0 : track lineSearch 4 0 = 1 := by decide
    congr 1
    funext c
    fin_cases c
    · show lineVertices[track lineSearch 4 2]? = _
      rw [t2]; rfl
    · show lineVertices[track lineSearch 4 3]? = _
      rw [t3]; rfl
    · show lineVertices[track lineSearch 4 0]? = _
      rw [t0]; rfl

/-- A case with two clusters. -/
example : ∃ (m : Mesh ℕ) (search : ℕ → List ℕ), Reach m ∧ Finds m.vertices 1 search ∧ m.faces.length = 1 ∧
    (∀ a b c, Near m.vertices 1 a b → Near m.vertices 1 b c → Near m.vertices 1 a c) := by
  let m : Mesh ℕ := (((((Mesh.empty : Mesh ℕ).addVertex (some ![0, 0, 0])).1.addVertex (some ![5, 0, 0])).1.addVertex (some ![0.5, 0, 0])).1).addFaceIds none 0 1 2
  have hlt : ∀ c : Fin 3, (![0, 1, 2] : Fin 3 → ℕ) c < 3 := by decide
  have hr : Reach m := by
    refine .step (.step (.step (.step .empty (.vertex (some ![0, 0, 0]))) (.vertex (some ![5, 0, 0]))) (.vertex (some ![0.5, 0, 0]))) (.face _ ?_)
    exact hlt
  have hvs : m.vertices = [![0, 0, 0], ![5, 0, 0], ![0.5, 0, 0]] := rfl
  have hd : ∀ a b : ℝ, ((![b, 0, 0] : V3) - ![a, 0, 0]) ⬝ᵥ (![b, 0, 0] - ![a, 0, 0]) = (b - a) * (b - a) := by
    intro a b
    simp [dotProduct, Fin.sum_univ_three]
  have hn : ∀ a b, Near m.vertices 1 a b ↔ a < 3 ∧ b < 3 ∧ (a = 1 ↔ b = 1) := by
    intro a b
    constructor
    · intro h
      have hl := near_lt h
      rw [hvs] at hl
      have ha : a < 3 := hl.1
      have hb : b < 3 := hl.2
      refine ⟨ha, hb, ?_⟩
      obtain ⟨p, q, h1, h2, h3⟩ := h
      rw [hvs] at h1 h2
      interval_cases a <;> interval_cases b <;> simp at h1 h2 <;> subst h1 <;> subst h2 <;> rw [hd] at h3 <;> first | omega | (exfalso; norm_num at h3)
    · rintro ⟨ha, hb, hab⟩
      rw [hvs]
      interval_cases a <;> interval_cases b <;> (try omega) <;> refine ⟨_, _, rfl, rfl, ?_⟩ <;> rw [hd] <;> norm_num
  refine ⟨m, fun i => if i = 1 then [1] else [2, 0], hr, ?_, rfl, ?_⟩
  · intro i hi k
    have hi3 : i < 3 := hi
    rw [hn]
    by_cases h1 : i = 1
    · subst h1
      simp only [if_true, List.mem_singleton]
      constructor
      · rintro rfl; exact ⟨by norm_num, by norm_num, by simp⟩
      · rintro ⟨-, -, h⟩; exact h.1 trivial
    · simp only [if_neg h1, List.mem_cons, List.not_mem_nil, or_false]
      omega
  · intro a b c h1 h2
    rw [hn] at h1 h2 ⊢
    omega

end Simox.Msh
