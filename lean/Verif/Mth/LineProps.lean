import Verif.Mth.PoseProps
import Verif.Mth.VecProps

/-!
# Lines, segments and triangles: properties
-/

namespace Simox.Mth

open Matrix Jac Rot

/-! ## Specification -/

/-- The points of a triangle: the convex combinations of the corners. -/
def InTriangle (t : Triangle) (x : V3) : Prop :=
  ∃ a b c : ℝ, 0 ≤ a ∧ 0 ≤ b ∧ 0 ≤ c ∧ a + b + c = 1 ∧ x = a • t.p1 + b • t.p2 + c • t.p3

/-- The points of a segment. -/
def OnSegment (a b x : V3) : Prop := ∃ s : ℝ, 0 ≤ s ∧ s ≤ 1 ∧ x = (1 - s) • a + s • b

/-! ## Lemmas -/

theorem nrm_le_iff {a b : V3} : nrm a ≤ nrm b ↔ a ⬝ᵥ a ≤ b ⬝ᵥ b := by
  simp only [nrm]; exact Real.sqrt_le_sqrt_iff (dot_nonneg b)

theorem nrm_lt_iff {a b : V3} : nrm a < nrm b ↔ a ⬝ᵥ a < b ⬝ᵥ b := by
  simp only [nrm]; exact Real.sqrt_lt_sqrt_iff (dot_nonneg a)

/-! ## Lines -/

/-- `GetClosestPoint` of a line with a direction: a point of the line, the only one nearest to `p`; `GetT` is
its parameter, and `GetDistanceToPoint` the vector from it to `p`. -/
theorem C79_closest_point {l : Line} (h : l.dir ≠ 0) (p : V3) :
    l.get (l.getT p) = l.getClosestPoint p ∧
      (∀ t, nrm (p - l.getClosestPoint p) ≤ nrm (p - l.get t)) ∧
      (∀ t, l.get t ≠ l.getClosestPoint p → nrm (p - l.getClosestPoint p) < nrm (p - l.get t)) ∧
      (∀ t, l.getT (l.get t) = t) ∧
      l.getDistanceToPoint p = p - l.getClosestPoint p := by
  have hd := dot_pos h
  have hget : l.get (l.getT p) = l.getClosestPoint p := by
    simp only [Line.get, Line.getT, Line.getClosestPoint]
    rw [show l.pos - p = -(p - l.pos) by abel, neg_dotProduct, neg_div, neg_smul, sub_neg_eq_add]
  have hdist : ∀ t, (p - l.get t) ⬝ᵥ (p - l.get t) =
      (p - l.getClosestPoint p) ⬝ᵥ (p - l.getClosestPoint p) + (t - l.getT p) ^ 2 * (l.dir ⬝ᵥ l.dir) := by
    intro t
    rw [← hget]
    have hT : l.getT p * (l.dir ⬝ᵥ l.dir) = (p - l.pos) ⬝ᵥ l.dir := by
      rw [Line.getT, div_mul_cancel₀ _ hd.ne']
    simp only [Line.get]
    generalize l.getT p = s at *
    have e : ∀ k : ℝ, (p - (l.pos + k • l.dir)) ⬝ᵥ (p - (l.pos + k • l.dir)) =
        (p - l.pos) ⬝ᵥ (p - l.pos) - 2 * k * ((p - l.pos) ⬝ᵥ l.dir) + k * k * (l.dir ⬝ᵥ l.dir) := by
      intro k
      simp only [dot3, Pi.sub_apply, Pi.add_apply, Pi.smul_apply, smul_eq_mul]
      ring
    rw [e, e, ← hT]
    ring
  refine ⟨hget, ?_, ?_, ?_, ?_⟩
  · intro t
    rw [nrm_le_iff, hdist t]
    have := mul_nonneg (sq_nonneg (t - l.getT p)) hd.le
    linarith
  · intro t ht
    rw [nrm_lt_iff, hdist t]
    have hne : t - l.getT p ≠ 0 := by
      intro h0
      apply ht
      rw [← hget, sub_eq_zero.1 h0]
    have := mul_pos (pow_pos (abs_pos.2 hne) 2) hd
    rw [sq_abs] at this
    linarith
  · intro t
    simp only [Line.get, Line.getT]
    rw [add_sub_cancel_left, smul_dotProduct, smul_eq_mul, mul_div_cancel_right₀ _ hd.ne']
  · rw [← hget]
    simp only [Line.getDistanceToPoint, Line.get, Line.getT]
    rw [normalize_of_ne h, smul_smul, smul_dotProduct, smul_eq_mul, ← nrm_mul_self l.dir,
      dotProduct_comm l.dir]
    have := (nrm_pos h).ne'
    rw [show 1 / nrm l.dir * ((p - l.pos) ⬝ᵥ l.dir) * (1 / nrm l.dir) =
      ((p - l.pos) ⬝ᵥ l.dir) / (nrm l.dir * nrm l.dir) by field_simp]
    abel

/-- The line through two points passes them at the parameters 0 and 1; a transformed line has the
transformed points. -/
theorem C79_line_points (p1 p2 : V3) (l : Line) {pose : M4} (h : IsPose pose) (t : ℝ) :
    (Line.fromPoints p1 p2).get 0 = p1 ∧ (Line.fromPoints p1 p2).get 1 = p2 ∧
      (l.transform pose).get t = transformPosition pose (l.get t) := by
  refine ⟨by simp [Line.get, Line.fromPoints], by simp [Line.get, Line.fromPoints], ?_⟩
  obtain ⟨p, r, hr, rfl⟩ := pose_cases h
  simp only [Line.get, Line.transform, transformPosition_mkPose, transformDirection, orientation_mkPose]
  rw [Matrix.mulVec_add, Matrix.mulVec_smul]
  abel

/-! ## Rays and triangles -/

theorem det_eq (l : Line) (tri : Triangle) :
    (tri.p2 - tri.p1) ⬝ᵥ crossProduct l.dir (tri.p3 - tri.p1) = -(l.dir ⬝ᵥ tri.normal) := by
  simp only [Triangle.normal, dot3, cross_apply, Matrix.cons_val_zero, Matrix.cons_val_one, Matrix.cons_val]
  ring

/-- Cramer's rule for a vector in the basis d, e1, e2. -/
theorem cramer_eq (d e1 e2 t : V3) (u v s : ℝ)
    (h : t + s • d = u • e1 + v • e2) :
    t ⬝ᵥ crossProduct d e2 = u * (e1 ⬝ᵥ crossProduct d e2) ∧
      d ⬝ᵥ crossProduct t e1 = v * (e1 ⬝ᵥ crossProduct d e2) ∧
      e2 ⬝ᵥ crossProduct t e1 = s * (e1 ⬝ᵥ crossProduct d e2) := by
  have ht : t = u • e1 + v • e2 - s • d := by rw [← h]; abel
  subst ht
  simp only [dot3, cross_apply, Matrix.cons_val_zero, Matrix.cons_val_one, Matrix.cons_val, Pi.sub_apply,
    Pi.add_apply, Pi.smul_apply, smul_eq_mul]
  refine ⟨?_, ?_, ?_⟩ <;> ring

theorem cramer_solve (d e1 e2 t : V3) (hdet : e1 ⬝ᵥ crossProduct d e2 ≠ 0) :
    t + ((e2 ⬝ᵥ crossProduct t e1) * (1 / (e1 ⬝ᵥ crossProduct d e2))) • d =
      ((t ⬝ᵥ crossProduct d e2) * (1 / (e1 ⬝ᵥ crossProduct d e2))) • e1 +
        ((d ⬝ᵥ crossProduct t e1) * (1 / (e1 ⬝ᵥ crossProduct d e2))) • e2 := by
  ext i
  simp only [Pi.add_apply, Pi.smul_apply, smul_eq_mul]
  field_simp
  simp only [dot3, cross_apply, Matrix.cons_val_zero, Matrix.cons_val_one, Matrix.cons_val]
  fin_cases i <;> simp <;> ring

theorem inTriangle_iff (tri : Triangle) (x : V3) :
    InTriangle tri x ↔ ∃ u v : ℝ, 0 ≤ u ∧ 0 ≤ v ∧ u + v ≤ 1 ∧
      x - tri.p1 = u • (tri.p2 - tri.p1) + v • (tri.p3 - tri.p1) := by
  constructor
  · rintro ⟨a, b, c, ha, hb, hc, hs, rfl⟩
    refine ⟨b, c, hb, hc, by linarith, ?_⟩
    have : a = 1 - b - c := by linarith
    subst this
    ext i; simp only [Pi.add_apply, Pi.sub_apply, Pi.smul_apply, smul_eq_mul]; ring
  · rintro ⟨u, v, hu, hv, hs, h⟩
    refine ⟨1 - u - v, u, v, by linarith, hu, hv, by ring, ?_⟩
    have : x = tri.p1 + (x - tri.p1) := by abel
    rw [this, h]
    ext i; simp only [Pi.add_apply, Pi.sub_apply, Pi.smul_apply, smul_eq_mul]; ring

/-- `IntersectsTriangle`, for a ray that is not parallel to the plane of the triangle: it reports `t` exactly
if `t` is positive and the point of the ray at `t` belongs to the triangle. -/
theorem C79_ray_triangle {l : Line} {tri : Triangle} (h : l.dir ⬝ᵥ tri.normal ≠ 0) (t : ℝ) :
    l.intersectsTriangle tri = some t ↔ 0 < t ∧ InTriangle tri (l.get t) := by
  have hdet : (tri.p2 - tri.p1) ⬝ᵥ crossProduct l.dir (tri.p3 - tri.p1) ≠ 0 := by
    rw [det_eq]; exact neg_ne_zero.2 h
  have hsolve := cramer_solve l.dir (tri.p2 - tri.p1) (tri.p3 - tri.p1) (l.pos - tri.p1) hdet
  have huniq := cramer_eq l.dir (tri.p2 - tri.p1) (tri.p3 - tri.p1) (l.pos - tri.p1)
  rw [inTriangle_iff]
  simp only [Line.intersectsTriangle, Line.get]
  have hpos : ∀ s : ℝ, l.pos + s • l.dir - tri.p1 = (l.pos - tri.p1) + s • l.dir := fun s => by abel
  simp only [hpos]
  generalize tri.p2 - tri.p1 = e1 at *
  generalize tri.p3 - tri.p1 = e2 at *
  generalize l.pos - tri.p1 = w at *
  generalize hD : e1 ⬝ᵥ crossProduct l.dir e2 = D at *
  generalize hU : w ⬝ᵥ crossProduct l.dir e2 = U at *
  generalize hV : l.dir ⬝ᵥ crossProduct w e1 = V at *
  generalize hT : e2 ⬝ᵥ crossProduct w e1 = T at *
  constructor
  · intro hh
    split_ifs at hh with h1 h2 h3
    simp only [Option.some.injEq] at hh
    subst hh
    push Not at h1 h2
    exact ⟨h3, U * (1 / D), V * (1 / D), h1.1, h2.1, h2.2, hsolve⟩
  · rintro ⟨ht, u, v, hu, hv, hs, he⟩
    obtain ⟨k1, k2, k3⟩ := huniq u v t he
    subst k1; subst k2; subst k3
    rw [mul_assoc, mul_assoc, mul_assoc, mul_one_div_cancel hdet, mul_one, mul_one, mul_one]
    rw [if_neg (by push Not; constructor <;> linarith), if_neg (by push Not; constructor <;> linarith), if_pos ht]

/-- It reports nothing exactly if the ray misses the triangle. -/
theorem C79_ray_misses {l : Line} {tri : Triangle} (h : l.dir ⬝ᵥ tri.normal ≠ 0) :
    l.intersectsTriangle tri = none ↔ ∀ t, 0 < t → ¬ InTriangle tri (l.get t) := by
  constructor
  · intro hn t ht hi
    rw [(C79_ray_triangle h t).2 ⟨ht, hi⟩] at hn
    exact absurd hn (by simp)
  · intro ha
    cases hh : l.intersectsTriangle tri with
    | none => rfl
    | some t =>
      obtain ⟨h1, h2⟩ := (C79_ray_triangle h t).1 hh
      exact absurd h2 (ha t h1)

theorem primitive_fold (l : Line) (tris : List Triangle) : ∀ best : Option ℝ,
    (l.intersectsPrimitive tris best = none ↔ best = none ∧ ∀ tri ∈ tris, l.intersectsTriangle tri = none) ∧
    (∀ t, l.intersectsPrimitive tris best = some t →
      (best = some t ∨ ∃ tri ∈ tris, l.intersectsTriangle tri = some t) ∧
      (∀ b, best = some b → t ≤ b) ∧ (∀ tri ∈ tris, ∀ s, l.intersectsTriangle tri = some s → t ≤ s)) := by
  induction tris with
  | nil =>
    intro best
    refine ⟨by simp [Line.intersectsPrimitive], ?_⟩
    intro t ht
    simp only [Line.intersectsPrimitive] at ht
    subst ht
    refine ⟨Or.inl rfl, ?_, by simp⟩
    intro b hb; simp at hb; exact hb.le
  | cons tri rest ih =>
    intro best
    rw [Line.intersectsPrimitive]
    cases hh : l.intersectsTriangle tri with
    | none =>
      simp only
      obtain ⟨i1, i2⟩ := ih best
      refine ⟨?_, ?_⟩
      · rw [i1]; simp [hh]
      · intro t ht
        obtain ⟨j1, j2, j3⟩ := i2 t ht
        refine ⟨?_, j2, ?_⟩
        · rcases j1 with j | ⟨tr, m, j⟩
          · exact Or.inl j
          · exact Or.inr ⟨tr, List.mem_cons_of_mem _ m, j⟩
        · intro tr m s hs
          rcases List.mem_cons.1 m with m | m
          · subst m; rw [hh] at hs; exact absurd hs (by simp)
          · exact j3 tr m s hs
    | some t0 =>
      simp only
      cases best with
      | none =>
        simp only
        obtain ⟨i1, i2⟩ := ih (some t0)
        refine ⟨?_, ?_⟩
        · rw [i1]; simp [hh]
        · intro t ht
          obtain ⟨j1, j2, j3⟩ := i2 t ht
          refine ⟨Or.inr ?_, by simp, ?_⟩
          · rcases j1 with j | ⟨tr, m, j⟩
            · exact ⟨tri, List.mem_cons_self, by rw [hh]; exact j⟩
            · exact ⟨tr, List.mem_cons_of_mem _ m, j⟩
          · intro tr m s hs
            rcases List.mem_cons.1 m with m | m
            · subst m; rw [hh] at hs
              exact j2 s hs
            · exact j3 tr m s hs
      | some b =>
        simp only
        by_cases hlt : t0 < b
        · rw [if_pos hlt]
          obtain ⟨i1, i2⟩ := ih (some t0)
          refine ⟨by rw [i1]; simp, ?_⟩
          intro t ht
          obtain ⟨j1, j2, j3⟩ := i2 t ht
          have hle : t ≤ t0 := j2 t0 rfl
          refine ⟨Or.inr ?_, ?_, ?_⟩
          · rcases j1 with j | ⟨tr, m, j⟩
            · exact ⟨tri, List.mem_cons_self, by rw [hh]; exact j⟩
            · exact ⟨tr, List.mem_cons_of_mem _ m, j⟩
          · intro b' hb'
            simp at hb'; subst hb'
            linarith
          · intro tr m s hs
            rcases List.mem_cons.1 m with m | m
            · subst m; rw [hh] at hs
              exact j2 s hs
            · exact j3 tr m s hs
        · rw [if_neg hlt]
          obtain ⟨i1, i2⟩ := ih (some b)
          refine ⟨by rw [i1]; simp, ?_⟩
          intro t ht
          obtain ⟨j1, j2, j3⟩ := i2 t ht
          have hle : t ≤ b := j2 b rfl
          refine ⟨?_, j2, ?_⟩
          · rcases j1 with j | ⟨tr, m, j⟩
            · exact Or.inl j
            · exact Or.inr ⟨tr, List.mem_cons_of_mem _ m, j⟩
          · intro tr m s hs
            rcases List.mem_cons.1 m with m | m
            · subst m; rw [hh] at hs
              simp at hs; subst hs
              linarith
            · exact j3 tr m s hs

/-- `IntersectsPrimitive`, for a ray parallel to none of the triangles: nothing is reported exactly if every
triangle is missed, and what is reported is the first point of the ray that belongs to any of them. -/
theorem C79_ray_primitive {l : Line} {tris : List Triangle} (h : ∀ tri ∈ tris, l.dir ⬝ᵥ tri.normal ≠ 0) :
    (l.intersectsPrimitive tris none = none ↔ ∀ tri ∈ tris, ∀ t, 0 < t → ¬ InTriangle tri (l.get t)) ∧
      (∀ t, l.intersectsPrimitive tris none = some t →
        0 < t ∧ (∃ tri ∈ tris, InTriangle tri (l.get t)) ∧
          ∀ tri ∈ tris, ∀ s, 0 < s → InTriangle tri (l.get s) → t ≤ s) := by
  obtain ⟨i1, i2⟩ := primitive_fold l tris none
  refine ⟨?_, ?_⟩
  · rw [i1]
    constructor
    · rintro ⟨-, hn⟩ tri m
      exact (C79_ray_misses (h tri m)).1 (hn tri m)
    · intro ha
      exact ⟨rfl, fun tri m => (C79_ray_misses (h tri m)).2 (ha tri m)⟩
  · intro t ht
    obtain ⟨j1, -, j3⟩ := i2 t ht
    rcases j1 with j | ⟨tri, m, j⟩
    · exact absurd j (by simp)
    · obtain ⟨k1, k2⟩ := (C79_ray_triangle (h tri m) t).1 j
      refine ⟨k1, ⟨tri, m, k2⟩, ?_⟩
      intro tr mm s hs hi
      exact j3 tr mm s ((C79_ray_triangle (h tr mm) s).2 ⟨hs, hi⟩)

/-! ## Triangles -/

/-- Normal, centroid, flipping and transformation. -/
theorem C79_triangle (t : Triangle) (x center : V3) (k : ℝ) :
    t.normal ⬝ᵥ (t.p2 - t.p1) = 0 ∧ t.normal ⬝ᵥ (t.p3 - t.p1) = 0 ∧ t.flipped.normal = -t.normal ∧
      (InTriangle t.flipped x ↔ InTriangle t x) ∧ InTriangle t t.centroid ∧
      (t.centroid - t.p1) + (t.centroid - t.p2) + (t.centroid - t.p3) = 0 ∧
      (InTriangle t x → InTriangle (t.transform center k) (k • x + center)) ∧
      nrm t.normal / 2 = getTriangleArea t.p1 t.p2 t.p3 := by
  refine ⟨cross_dot_left _ _, cross_dot_right _ _, ?_, ?_, ?_, ?_, ?_, ?_⟩
  · ext i; fin_cases i <;> simp [Triangle.normal, Triangle.flipped, cross_apply] <;> ring
  · constructor
    · rintro ⟨a, b, c, ha, hb, hc, hs, rfl⟩
      exact ⟨b, a, c, hb, ha, hc, by linarith, by simp only [Triangle.flipped]; abel⟩
    · rintro ⟨a, b, c, ha, hb, hc, hs, rfl⟩
      exact ⟨b, a, c, hb, ha, hc, by linarith, by simp only [Triangle.flipped]; abel⟩
  · refine ⟨1 / 3, 1 / 3, 1 / 3, by norm_num, by norm_num, by norm_num, by norm_num, ?_⟩
    simp only [Triangle.centroid, smul_add]
  · ext i; simp [Triangle.centroid]; ring
  · rintro ⟨a, b, c, ha, hb, hc, hs, rfl⟩
    refine ⟨a, b, c, ha, hb, hc, hs, ?_⟩
    ext i
    simp only [Triangle.transform, Pi.add_apply, Pi.smul_apply, smul_eq_mul]
    linear_combination (- center i) * hs
  · rw [(C78_area t.p1 t.p2 t.p3).1, Triangle.normal]

/-- The points of a convex combination of points of a triangle belong to it. -/
theorem inTriangle_mono {t s : Triangle} (h1 : InTriangle t s.p1) (h2 : InTriangle t s.p2) (h3 : InTriangle t s.p3)
    {x : V3} (hx : InTriangle s x) : InTriangle t x := by
  obtain ⟨a1, b1, c1, ha1, hb1, hc1, hs1, e1⟩ := h1
  obtain ⟨a2, b2, c2, ha2, hb2, hc2, hs2, e2⟩ := h2
  obtain ⟨a3, b3, c3, ha3, hb3, hc3, hs3, e3⟩ := h3
  obtain ⟨a, b, c, ha, hb, hc, hs, rfl⟩ := hx
  refine ⟨a * a1 + b * a2 + c * a3, a * b1 + b * b2 + c * b3, a * c1 + b * c2 + c * c3, by positivity,
    by positivity, by positivity, ?_, ?_⟩
  · linear_combination a * hs1 + b * hs2 + c * hs3 + hs
  · rw [e1, e2, e3]
    ext i; simp only [Pi.add_apply, Pi.smul_apply, smul_eq_mul]; ring

theorem corner1 (t : Triangle) : InTriangle t t.p1 := ⟨1, 0, 0, by norm_num, le_refl _, le_refl _, by norm_num, by simp⟩
theorem corner2 (t : Triangle) : InTriangle t t.p2 := ⟨0, 1, 0, le_refl _, by norm_num, le_refl _, by norm_num, by simp⟩
theorem corner3 (t : Triangle) : InTriangle t t.p3 := ⟨0, 0, 1, le_refl _, le_refl _, by norm_num, by norm_num, by simp⟩

/-- `Subdivide(depth)`: 3^depth triangles, all with the orientation of the given one and the 3^depth-th part of
its area vector (so the areas add up); their points are exactly those of the given triangle. -/
theorem C79_subdivide (depth : Nat) : ∀ t : Triangle,
    (t.subdivide depth).length = 3 ^ depth ∧
      (∀ s ∈ t.subdivide depth, s.normal = ((1 : ℝ) / 3 ^ depth) • t.normal) ∧
      (∀ x, InTriangle t x ↔ ∃ s ∈ t.subdivide depth, InTriangle s x) := by
  induction depth with
  | zero => intro t; simp [Triangle.subdivide]
  | succ n ih =>
    intro t
    simp only [Triangle.subdivide]
    have hcen : InTriangle t ((1 / 3 : ℝ) • (t.p1 + t.p2 + t.p3)) := (C79_triangle t 0 0 0).2.2.2.2.1
    obtain ⟨l1, n1, c1⟩ := ih ⟨t.p1, t.p2, (1 / 3 : ℝ) • (t.p1 + t.p2 + t.p3)⟩
    obtain ⟨l2, n2, c2⟩ := ih ⟨t.p2, t.p3, (1 / 3 : ℝ) • (t.p1 + t.p2 + t.p3)⟩
    obtain ⟨l3, n3, c3⟩ := ih ⟨t.p3, t.p1, (1 / 3 : ℝ) • (t.p1 + t.p2 + t.p3)⟩
    have hn1 : (Triangle.normal ⟨t.p1, t.p2, (1 / 3 : ℝ) • (t.p1 + t.p2 + t.p3)⟩) = (1 / 3 : ℝ) • t.normal := by
      ext i; fin_cases i <;> simp [Triangle.normal, cross_apply] <;> ring
    have hn2 : (Triangle.normal ⟨t.p2, t.p3, (1 / 3 : ℝ) • (t.p1 + t.p2 + t.p3)⟩) = (1 / 3 : ℝ) • t.normal := by
      ext i; fin_cases i <;> simp [Triangle.normal, cross_apply] <;> ring
    have hn3 : (Triangle.normal ⟨t.p3, t.p1, (1 / 3 : ℝ) • (t.p1 + t.p2 + t.p3)⟩) = (1 / 3 : ℝ) • t.normal := by
      ext i; fin_cases i <;> simp [Triangle.normal, cross_apply] <;> ring
    have hsc : ∀ v : V3, ((1 : ℝ) / 3 ^ n) • ((1 / 3 : ℝ) • v) = ((1 : ℝ) / 3 ^ (n + 1)) • v := by
      intro v; rw [smul_smul, pow_succ]; congr 1; field_simp
    refine ⟨?_, ?_, ?_⟩
    · rw [List.length_append, List.length_append, l1, l2, l3, pow_succ]; ring
    · intro s hs
      rcases List.mem_append.1 hs with hs | hs
      · rcases List.mem_append.1 hs with hs | hs
        · rw [n1 s hs, hn1, hsc]
        · rw [n2 s hs, hn2, hsc]
      · rw [n3 s hs, hn3, hsc]
    · intro x
      constructor
      · rintro ⟨a, b, c, ha, hb, hc, hs, hx⟩
        have pick : InTriangle ⟨t.p1, t.p2, (1 / 3 : ℝ) • (t.p1 + t.p2 + t.p3)⟩ x ∨
            InTriangle ⟨t.p2, t.p3, (1 / 3 : ℝ) • (t.p1 + t.p2 + t.p3)⟩ x ∨
            InTriangle ⟨t.p3, t.p1, (1 / 3 : ℝ) • (t.p1 + t.p2 + t.p3)⟩ x := by
          by_cases hca : c ≤ a ∧ c ≤ b
          · left
            refine ⟨a - c, b - c, 3 * c, by linarith [hca.1], by linarith [hca.2], by linarith, by linarith, ?_⟩
            rw [hx]; ext i; simp only [Pi.add_apply, Pi.smul_apply, smul_eq_mul]; ring
          · by_cases hab : a ≤ b
            · right; left
              have hac : a ≤ c := by
                by_contra hcon; exact hca ⟨by linarith, by linarith⟩
              refine ⟨b - a, c - a, 3 * a, by linarith, by linarith, by linarith, by linarith, ?_⟩
              rw [hx]; ext i; simp only [Pi.add_apply, Pi.smul_apply, smul_eq_mul]; ring
            · right; right
              have hbc : b ≤ c := by
                by_contra hcon; exact hca ⟨by linarith, by linarith⟩
              refine ⟨c - b, a - b, 3 * b, by linarith, by linarith, by linarith, by linarith, ?_⟩
              rw [hx]; ext i; simp only [Pi.add_apply, Pi.smul_apply, smul_eq_mul]; ring
        rcases pick with p | p | p
        · obtain ⟨s, m, hs⟩ := (c1 x).1 p
          exact ⟨s, List.mem_append.2 (Or.inl (List.mem_append.2 (Or.inl m))), hs⟩
        · obtain ⟨s, m, hs⟩ := (c2 x).1 p
          exact ⟨s, List.mem_append.2 (Or.inl (List.mem_append.2 (Or.inr m))), hs⟩
        · obtain ⟨s, m, hs⟩ := (c3 x).1 p
          exact ⟨s, List.mem_append.2 (Or.inr m), hs⟩
      · rintro ⟨s, m, hs⟩
        rcases List.mem_append.1 m with m | m
        · rcases List.mem_append.1 m with m | m
          · exact inTriangle_mono (s := ⟨t.p1, t.p2, (1 / 3 : ℝ) • (t.p1 + t.p2 + t.p3)⟩)
              (corner1 t) (corner2 t) hcen ((c1 x).2 ⟨s, m, hs⟩)
          · exact inTriangle_mono (s := ⟨t.p2, t.p3, (1 / 3 : ℝ) • (t.p1 + t.p2 + t.p3)⟩)
              (corner2 t) (corner3 t) hcen ((c2 x).2 ⟨s, m, hs⟩)
        · exact inTriangle_mono (s := ⟨t.p3, t.p1, (1 / 3 : ℝ) • (t.p1 + t.p2 + t.p3)⟩)
              (corner3 t) (corner1 t) hcen ((c3 x).2 ⟨s, m, hs⟩)

/-- `randomPointInTriangle`: whatever the two random numbers in [0,1], the point belongs to the triangle, and
every point of the triangle can come out. -/
theorem C79_random_point (t : Triangle) (x : V3) :
    InTriangle t x ↔ ∃ r1 r2 : ℝ, 0 ≤ r1 ∧ r1 ≤ 1 ∧ 0 ≤ r2 ∧ r2 ≤ 1 ∧
      randomPointInTriangle r1 r2 t.p1 t.p2 t.p3 = x := by
  constructor
  · rintro ⟨a, b, c, ha, hb, hc, hs, rfl⟩
    rcases eq_or_lt_of_le (show a ≤ 1 by linarith) with h | h
    · have hb0 : b = 0 := by linarith
      have hc0 : c = 0 := by linarith
      exact ⟨1, 0, by norm_num, le_refl _, le_refl _, by norm_num, by
        subst h; subst hb0; subst hc0; simp [randomPointInTriangle]⟩
    · have h1 : 0 < 1 - a := by linarith
      refine ⟨a, b / (1 - a), ha, h.le, by positivity, by rw [div_le_one h1]; linarith, ?_⟩
      simp only [randomPointInTriangle]
      rw [mul_div_cancel₀ _ h1.ne']
      have : c = 1 - a - b := by linarith
      rw [this]
  · rintro ⟨r1, r2, h1, h2, h3, h4, rfl⟩
    refine ⟨r1, (1 - r1) * r2, 1 - r1 - (1 - r1) * r2, h1, mul_nonneg (by linarith) h3, ?_, by ring, rfl⟩
    nlinarith

/-! ## Segments -/

/-- `nearestPointOnSegment`: a point of the segment with the least distance. -/
theorem C79_nearest_on_segment {a b : V3} (h : a ≠ b) (p : V3) :
    OnSegment a b (nearestPointOnSegment a b p) ∧
      ∀ x, OnSegment a b x → nrm (p - nearestPointOnSegment a b p) ≤ nrm (p - x) := by
  have hne : b - a ≠ 0 := sub_ne_zero.2 (Ne.symm h)
  have hL := nrm_pos hne
  have hLL := nrm_mul_self (b - a)
  have hu : ((1 / nrm (b - a)) • (b - a)) ⬝ᵥ ((1 / nrm (b - a)) • (b - a)) = 1 := by
    rw [smul_dotProduct, dotProduct_smul, ← hLL]; simp only [smul_eq_mul]; field_simp
  have hba : b = a + nrm (b - a) • ((1 / nrm (b - a)) • (b - a)) := by
    rw [smul_smul, mul_one_div_cancel hL.ne', one_smul]; abel
  generalize hd : (1 / nrm (b - a)) • (b - a) = d at *
  have hN : nearestPointOnSegment a b p =
      if d ⬝ᵥ (p - a) < 0 then a else if d ⬝ᵥ (p - a) > nrm (b - a) then b
      else a + (d ⬝ᵥ (p - a)) • d := by
    simp only [nearestPointOnSegment, hd]
    rw [add_sub_cancel_left, smul_dotProduct, hu, smul_eq_mul, mul_one]
  generalize hLn : nrm (b - a) = L at *
  generalize hla : d ⬝ᵥ (p - a) = la at *
  have hseg : ∀ k : ℝ, 0 ≤ k → k ≤ L → OnSegment a b (a + k • d) := by
    intro k h0 h1
    refine ⟨k / L, div_nonneg h0 hL.le, by rw [div_le_one hL]; exact h1, ?_⟩
    rw [hba]
    ext i; simp only [Pi.add_apply, Pi.smul_apply, smul_eq_mul]; field_simp; ring
  have hrev : ∀ x, OnSegment a b x → ∃ k : ℝ, 0 ≤ k ∧ k ≤ L ∧ x = a + k • d := by
    rintro x ⟨s, h0, h1, rfl⟩
    refine ⟨s * L, mul_nonneg h0 hL.le, by nlinarith, ?_⟩
    conv_lhs => rw [hba]
    ext i; simp only [Pi.add_apply, Pi.smul_apply, smul_eq_mul]; ring
  have hdist : ∀ k : ℝ, (p - (a + k • d)) ⬝ᵥ (p - (a + k • d)) = (p - a) ⬝ᵥ (p - a) - la * la + (k - la) * (k - la) := by
    intro k
    have : (p - (a + k • d)) ⬝ᵥ (p - (a + k • d)) =
        (p - a) ⬝ᵥ (p - a) - 2 * k * (d ⬝ᵥ (p - a)) + k * k * (d ⬝ᵥ d) := by
      simp only [dot3, Pi.sub_apply, Pi.add_apply, Pi.smul_apply, smul_eq_mul]
      ring
    rw [this, hla, hu]; ring
  have hmin : ∃ k : ℝ, 0 ≤ k ∧ k ≤ L ∧ nearestPointOnSegment a b p = a + k • d ∧
      ∀ j : ℝ, 0 ≤ j → j ≤ L → (k - la) * (k - la) ≤ (j - la) * (j - la) := by
    rw [hN]
    by_cases c1 : la < 0
    · rw [if_pos c1]
      refine ⟨0, le_refl _, hL.le, by simp, ?_⟩
      intro j h0 _; nlinarith
    · rw [if_neg c1]
      by_cases c2 : la > L
      · rw [if_pos c2]
        refine ⟨L, hL.le, le_refl _, hba, ?_⟩
        intro j _ h1; nlinarith
      · rw [if_neg c2]
        push Not at c1 c2
        refine ⟨la, c1, c2, rfl, ?_⟩
        intro j _ _; nlinarith [mul_self_nonneg (j - la)]
  obtain ⟨k, k0, k1, ke, kmin⟩ := hmin
  refine ⟨by rw [ke]; exact hseg k k0 k1, ?_⟩
  intro x hx
  obtain ⟨j, j0, j1, rfl⟩ := hrev x hx
  rw [ke, nrm_le_iff, hdist, hdist]
  linarith [kmin j j0 j1]

/-- The hypotheses are met: a vertical ray and a triangle of the plane z = 0 that it hits. -/
example : let l : Line := ⟨![1/4, 1/4, -1], ![0, 0, 2]⟩
    let t : Triangle := ⟨![0, 0, 0], ![1, 0, 0], ![0, 1, 0]⟩
    l.dir ⬝ᵥ t.normal ≠ 0 ∧ InTriangle t (l.get (1 / 2)) := by
  intro l t
  refine ⟨?_, 1 / 2, 1 / 4, 1 / 4, by norm_num, by norm_num, by norm_num, by norm_num, ?_⟩
  · simp [l, t, Triangle.normal, cross_apply]
  · ext i; fin_cases i <;> simp [l, t, Line.get]

end Simox.Mth
