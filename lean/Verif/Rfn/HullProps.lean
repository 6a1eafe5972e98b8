import Verif.Rfn.HullModel
import Verif.Rfn.MeshLemmas

/-!
# C190: the mesh of a convex hull
-/

namespace Simox.Rfn

open Classical

theorem norm3_eq (x : V3) : norm3 x = dist3 x 0 := by rw [← norm3_sub, sub_zero]

theorem norm3_smul {c : ℝ} (hc : 0 ≤ c) (x : V3) : norm3 (c • x) = c * norm3 x := by
  unfold norm3
  simp only [Pi.smul_apply, smul_eq_mul]
  rw [show c * x 0 * (c * x 0) + c * x 1 * (c * x 1) + c * x 2 * (c * x 2) =
    c ^ 2 * (x 0 * x 0 + x 1 * x 1 + x 2 * x 2) by ring, Real.sqrt_mul (sq_nonneg c), Real.sqrt_sq hc]

theorem createNormal_unit {a b c : V3} (h : 1 / 10000000000 ≤ norm3 (crossProduct (b - a) (c - a))) :
    norm3 (createNormal a b c) = 1 ∧
      crossProduct (b - a) (c - a) = norm3 (crossProduct (b - a) (c - a)) • createNormal a b c := by
  have hpos : 0 < norm3 (crossProduct (b - a) (c - a)) := lt_of_lt_of_le (by norm_num) h
  unfold createNormal
  dsimp only
  rw [if_neg (not_lt.mpr h)]
  constructor
  · rw [norm3_smul (by positivity)]
    field_simp
  · rw [smul_smul, mul_one_div_cancel hpos.ne', one_smul]

theorem flip_area (a b c : V3) : crossProduct (b - c) (a - c) = - crossProduct (b - a) (c - a) := by
  funext i
  fin_cases i <;> simp [crossProduct] <;> ring

theorem orient_iff (a b c n : V3) : checkVerticeOrientation a b c n ↔ dot3 (crossProduct (b - a) (c - a)) n < 0 := by
  unfold checkVerticeOrientation dot3
  have e : ∀ x y : V3, (![x 0 - y 0, x 1 - y 1, x 2 - y 2] : V3) = x - y := by
    intro x y; funext i; fin_cases i <;> rfl
  dsimp only
  rw [e, e]

/-- What adding a triangle does. -/
theorem add_spec (m : Mesh) (a b c : V3) (hv : Valid m) :
    Valid (addTriangleWithFace m a b c) ∧
      ∃ nv, soup (addTriangleWithFace m a b c) = soup m ++ [⟨a, b, c, nv⟩] ∧
        (1 / 10000000000 ≤ norm3 (crossProduct (b - a) (c - a)) →
          norm3 nv = 1 ∧ crossProduct (b - a) (c - a) = norm3 (crossProduct (b - a) (c - a)) • nv) := by
  have hl : (m.vertices ++ [a] ++ [b] ++ [c]).length = m.vertices.length + 3 := by simp
  have ev : m.vertices ++ [a] ++ [b] ++ [c] = m.vertices ++ [a, b, c] := by simp
  unfold addTriangleWithFace
  dsimp only
  rw [hl]
  have s3 : m.vertices.length + 3 - 3 = m.vertices.length := by omega
  have s2 : m.vertices.length + 3 - 2 = m.vertices.length + 1 := by omega
  have s1 : m.vertices.length + 3 - 1 = m.vertices.length + 2 := by omega
  rw [s3, s2, s1, ev]
  refine ⟨?_, ?_⟩
  · intro f hf
    rcases List.mem_append.mp hf with h | h
    · exact In.append (hv f h) _
    · rw [List.mem_singleton.mp h]
      refine ⟨?_, ?_, ?_⟩ <;> simp
  · refine ⟨if norm3 (createNormal a b c) < 1 / 10000000000 then createNormal a b c
      else (1 / norm3 (createNormal a b c)) • createNormal a b c, ?_, ?_⟩
    · unfold soup
      dsimp only
      rw [List.map_append, map_triOf_append hv]
      congr 1
      simp only [List.map_cons, List.map_nil, triOf]
      simp [List.getD]
    · intro h
      obtain ⟨h1, h2⟩ := createNormal_unit h
      rw [if_neg (by rw [h1]; norm_num), h1, div_one, one_smul]
      exact ⟨h1, h2⟩

theorem face_spec {hull res : Mesh} {f : Face} (hf : In hull.vertices f) (hv : Valid res) :
    ∃ m t', hullFace hull res f = some m ∧ Valid m ∧ soup m = soup res ++ [t'] ∧
      Oriented (triOf hull.vertices f) t' := by
  obtain ⟨t, ht⟩ : ∃ t, t = triOf hull.vertices f := ⟨_, rfl⟩
  have en : t.normal = f.normal := by rw [ht]; rfl
  unfold hullFace
  rw [corners_eq hf, ← ht]
  dsimp only
  by_cases c : checkVerticeOrientation t.a t.b t.c f.normal
  · rw [if_pos c]
    obtain ⟨v1, nv, s1, n1⟩ := add_spec res t.c t.b t.a hv
    refine ⟨_, _, rfl, v1, s1, ?_, .inr ⟨rfl, rfl, rfl⟩, ?_, ?_⟩
    · ext p
      constructor
      · rintro ⟨u, v, w, a1, a2, a3, a4, a5⟩
        exact ⟨w, v, u, a3, a2, a1, by linarith, by rw [a5]; dsimp only; abel⟩
      · rintro ⟨u, v, w, a1, a2, a3, a4, a5⟩
        exact ⟨w, v, u, a3, a2, a1, by linarith, by rw [a5]; dsimp only; abel⟩
    · rw [orient_iff, ← en] at c
      unfold Tri.area
      dsimp only
      rw [abs_of_neg c, flip_area]
      unfold dot3
      simp only [Pi.neg_apply]
      ring
    · intro h
      unfold Tri.area at h ⊢
      dsimp only at h ⊢
      rw [← norm3_eq] at h
      obtain ⟨a1, a2⟩ := n1 h
      rw [← norm3_eq, ← norm3_eq]
      exact ⟨a2, a1⟩
  · rw [if_neg c]
    obtain ⟨v1, nv, s1, n1⟩ := add_spec res t.a t.b t.c hv
    refine ⟨_, _, rfl, v1, s1, rfl, .inl ⟨rfl, rfl, rfl⟩, ?_, ?_⟩
    · rw [orient_iff, ← en] at c
      exact (abs_of_nonneg (not_lt.mp c)).symm
    · intro h
      unfold Tri.area at h ⊢
      dsimp only at h ⊢
      rw [← norm3_eq] at h
      obtain ⟨a1, a2⟩ := n1 h
      rw [← norm3_eq, ← norm3_eq]
      exact ⟨a2, a1⟩

theorem hullLoop_spec (hull : Mesh) : ∀ (l : List Face) (res : Mesh), (∀ f ∈ l, In hull.vertices f) → Valid res →
    ∃ m ts, hullLoop hull l res = some m ∧ Valid m ∧ soup m = soup res ++ ts ∧
      List.Forall₂ Oriented (l.map (triOf hull.vertices)) ts := by
  intro l
  induction l with
  | nil => intro res _ hv; exact ⟨res, [], rfl, hv, by simp, List.Forall₂.nil⟩
  | cons f l ih =>
    intro res hl hv
    obtain ⟨m1, t', a1, a2, a3, a4⟩ := face_spec (hl f (by simp)) hv
    obtain ⟨m2, ts, b1, b2, b3, b4⟩ := ih m1 (fun g hg => hl g (List.mem_cons_of_mem _ hg)) a2
    refine ⟨m2, t' :: ts, ?_, b2, ?_, List.Forall₂.cons a4 b4⟩
    · unfold hullLoop
      rw [a1]
      exact b1
    · rw [b3, a3]; simp

/-- **C190.** The mesh of a hull whose faces name existing vertices consists of the triangles of the hull in their
order, each oriented to the side its normal points to, whatever its orientation was, and with the unit normal of that
orientation (unless the triangle is degenerate). -/
theorem C190_mesh {hull : Mesh} (hv : Valid hull) :
    ∃ m, createTriMeshModel hull = some m ∧ Valid m ∧ List.Forall₂ Oriented (soup hull) (soup m) := by
  unfold createTriMeshModel
  by_cases c : hull.vertices.length = 0 ∨ hull.faces.length = 0
  · rw [if_pos c]
    have hn : hull.faces = [] := by
      rcases c with c | c
      · rw [List.eq_nil_iff_forall_not_mem]
        intro f hf
        have := (hv f hf).1
        omega
      · exact List.length_eq_zero_iff.mp c
    refine ⟨_, rfl, (by intro f hf; cases hf), ?_⟩
    unfold soup
    rw [hn]
    exact List.Forall₂.nil
  · rw [if_neg c]
    obtain ⟨m, ts, a1, a2, a3, a4⟩ := hullLoop_spec hull hull.faces ⟨[], []⟩ hv (by intro f hf; cases hf)
    refine ⟨m, a1, a2, ?_⟩
    rw [a3]
    exact a4

/-- **C190.** The surface is the same. -/
theorem C190_points {hull m : Mesh} (hv : Valid hull) (h : createTriMeshModel hull = some m) (p : V3) :
    (∃ t ∈ soup m, p ∈ t.points) ↔ ∃ t ∈ soup hull, p ∈ t.points := by
  obtain ⟨m', h1, _, h2⟩ := C190_mesh hv
  rw [h] at h1
  injection h1 with h1
  subst h1
  have key : ∀ {l k : List Tri}, List.Forall₂ Oriented l k →
      ((∃ t ∈ k, p ∈ t.points) ↔ ∃ t ∈ l, p ∈ t.points) := by
    intro l k hk
    induction hk with
    | nil => simp
    | cons h _ ih =>
      simp only [List.mem_cons, exists_eq_or_imp]
      rw [h.points, ih]
  exact key h2

/-- **C190.** A face that names a vertex the hull does not have makes the conversion throw, if the hull has vertices at
all. -/
theorem C190_throws {hull : Mesh} (hv : ¬ Valid hull) (h0 : hull.vertices ≠ []) : createTriMeshModel hull = none := by
  have hex : ∃ f ∈ hull.faces, ¬ In hull.vertices f := by
    by_contra hc
    push Not at hc
    exact hv hc
  unfold createTriMeshModel
  rw [if_neg]
  · have key : ∀ (l : List Face) (res : Mesh), (∃ f ∈ l, ¬ In hull.vertices f) → hullLoop hull l res = none := by
      intro l
      induction l with
      | nil => rintro res ⟨f, hf, _⟩; cases hf
      | cons f l ih =>
        rintro res ⟨g, hg, hn⟩
        unfold hullLoop
        cases hf : hullFace hull res f with
        | none => rfl
        | some m =>
          rw [Option.bind_some]
          rcases List.mem_cons.mp hg with rfl | hg
          · unfold hullFace at hf
            rw [corners_none hn] at hf
            cases hf
          · exact ih m ⟨g, hg, hn⟩
    exact key _ _ hex
  · rintro (h | h)
    · exact h0 (List.length_eq_zero_iff.mp h)
    · obtain ⟨f, hf, _⟩ := hex
      rw [List.length_eq_zero_iff.mp h] at hf
      cases hf

/-! ## A concrete case -/

/-- A triangle whose normal points to the other side. -/
def lower : Mesh where
  vertices := [![0, 0, 0], ![1, 0, 0], ![0, 1, 0]]
  faces := [⟨0, 1, 2, ![0, 0, -1]⟩]

theorem lower_valid : Valid lower := by
  intro f hf
  simp only [lower, List.mem_cons, List.not_mem_nil, or_false] at hf
  rw [hf]
  simp [lower]

/-- It is turned round: its area now points to the side of the normal. -/
example : ∃ m t, createTriMeshModel lower = some m ∧ soup m = [t] ∧ dot3 t.area ![0, 0, -1] = 1 := by
  obtain ⟨m, h1, _, h2⟩ := C190_mesh lower_valid
  have e : soup lower = [triOf lower.vertices ⟨0, 1, 2, ![0, 0, -1]⟩] := rfl
  rw [e, List.forall₂_cons_left_iff] at h2
  obtain ⟨t, l, h3, h4, h5⟩ := h2
  rw [List.forall₂_nil_left_iff] at h4
  subst h4
  refine ⟨m, t, h1, h5, ?_⟩
  have := h3.side
  rw [show (triOf lower.vertices ⟨0, 1, 2, ![0, 0, -1]⟩).normal = ![0, 0, -1] from rfl] at this
  rw [this]
  simp [triOf, lower, Tri.area, dot3, crossProduct]

end Simox.Rfn
