import Verif.Gpl.ConeLemmas
import Mathlib.Analysis.Convex.Combination

/-!
# Hulls of wrenches: lemmas
-/

namespace Simox.Gpl

open Matrix Jac Rot Spec

theorem dot6_comm (a b : Wrench) : dot6 a b = dot6 b a := by
  simp [dot6, dotProduct_comm]

theorem dot6_add (a b c : Wrench) : dot6 (a + b) c = dot6 a c + dot6 b c := by
  simp [dot6, add_dotProduct]; ring

theorem dot6_sub (a b c : Wrench) : dot6 (a - b) c = dot6 a c - dot6 b c := by
  simp [dot6, sub_dotProduct]; ring

theorem dot6_smul (t : ℝ) (a c : Wrench) : dot6 (t • a) c = t * dot6 a c := by
  simp [dot6, smul_dotProduct]; ring

theorem dot6_zero (c : Wrench) : dot6 0 c = 0 := by simp [dot6]

theorem dot6_self_nonneg (a : Wrench) : 0 ≤ dot6 a a := add_nonneg (dot_nonneg _) (dot_nonneg _)

/-- Cauchy-Schwarz with a unit vector. -/
theorem dot6_sq_le (a n : Wrench) (hn : dot6 n n = 1) : dot6 a n ^ 2 ≤ dot6 a a := by
  have h := dot6_self_nonneg (a - dot6 a n • n)
  rw [dot6_sub, dot6_smul, dot6_comm a, dot6_comm n (a - _), dot6_sub, dot6_sub, dot6_smul, dot6_smul, hn,
    dot6_comm n a] at h
  nlinarith

theorem dot6_le (a n : Wrench) (hn : dot6 n n = 1) {ρ : ℝ} (hρ : 0 ≤ ρ) (h : dot6 a a ≤ ρ ^ 2) : dot6 a n ≤ ρ :=
  abs_le_of_sq_le_sq' ((dot6_sq_le a n hn).trans h) hρ |>.2

/-- What the faces keep of the facets. -/
theorem addFacets_map {β : Type} (g : Face6D → β) (g' : QFacet → β) (c : Wrench)
    (hg : ∀ vs f, g (face6D c vs f) = g' f) (fs : List QFacet) :
    ∀ acc, (addFacets c fs acc).2.map g = acc.2.map g ++ fs.map g' := by
  induction fs with
  | nil => intro acc; simp [addFacets]
  | cons f fs ih =>
      rintro ⟨vs, gs⟩
      rw [addFacets, ih]
      simp [hg]

theorem addFacets_vertices (c : Wrench) (fs : List QFacet) :
    ∀ acc, (addFacets c fs acc).1 = acc.1 ++ fs.flatMap fun f => List.ofFn f.vertices := by
  induction fs with
  | nil => intro acc; simp [addFacets]
  | cons f fs ih =>
      rintro ⟨vs, gs⟩
      rw [addFacets, ih]
      simp

/-- The hull made of an answer of qhull. -/
noncomputable def hullOf (r : QResult) : ConvexHull6D :=
  { vertices := (addFacets (meanOf r.vertices) r.facets ([], [])).1
    faces := (addFacets (meanOf r.vertices) r.facets ([], [])).2
    volume := some r.totvol
    center := some (meanOf r.vertices) }

theorem createConvexHull_some {q : Qhull} {pts : List Wrench} {r : QResult} (h4 : 4 ≤ pts.length)
    (hr : q pts = some r) : createConvexHull q pts = hullOf r := by
  simp only [createConvexHull, if_neg (not_lt.2 h4), hr, hullOf]

theorem faces_zero (r : QResult) : (hullOf r).faces.map Face6D.distPlaneZero = r.facets.map QFacet.offset := by
  have := addFacets_map Face6D.distPlaneZero QFacet.offset (meanOf r.vertices)
    (fun vs f => by simp [face6D, dist, dot6_zero]) r.facets ([], [])
  simpa [hullOf] using this

theorem faces_center (r : QResult) :
    (hullOf r).faces.map Face6D.distNormCenter = r.facets.map (dist (meanOf r.vertices)) := by
  have := addFacets_map Face6D.distNormCenter (dist (meanOf r.vertices)) (meanOf r.vertices)
    (fun vs f => rfl) r.facets ([], [])
  simpa [hullOf] using this

theorem originInHull_hullOf (r : QResult) :
    originInHull (hullOf r) = true ↔ ∀ f ∈ r.facets, f.offset ≤ 1e-4 := by
  have h1 : originInHull (hullOf r) = ((hullOf r).faces.map Face6D.distPlaneZero).all fun d => !decide (d > 1e-4) := by
    simp [originInHull, List.all_map, Function.comp_def]
  rw [h1, faces_zero]
  simp [List.all_eq_true]

theorem offset_fold (l : List Face6D) : ∀ acc : ℝ, (∀ f ∈ l, f.distNormCenter ≤ 0) →
    ∀ ρ, ρ ≤ l.foldl offsetStep acc ↔ ρ ≤ acc ∧ ∀ f ∈ l, ρ ≤ -f.distNormCenter := by
  induction l with
  | nil => intro acc _ ρ; simp
  | cons f l ih =>
      intro acc h ρ
      rw [List.foldl_cons, ih _ fun g hg => h g (List.mem_cons_of_mem _ hg)]
      have hf := h f (by simp)
      have : ρ ≤ offsetStep acc f ↔ ρ ≤ acc ∧ ρ ≤ -f.distNormCenter := by
        rw [offsetStep, if_neg (not_lt.2 hf)]
        by_cases hlt : -f.distNormCenter < acc
        · rw [if_pos hlt]
          exact ⟨fun h => ⟨h.trans hlt.le, h⟩, fun h => h.2⟩
        · rw [if_neg hlt]
          exact ⟨fun h => ⟨h, h.trans (not_lt.1 hlt)⟩, fun h => h.1⟩
      rw [this]
      simp [and_assoc]

theorem minOffset_hullOf (r : QResult) (h : ∀ f ∈ r.facets, dist (meanOf r.vertices) f ≤ 0) (ρ : ℝ) :
    ρ ≤ minOffset (some (hullOf r)) ↔ ρ ≤ fltMax ∧ ∀ f ∈ r.facets, ρ ≤ -dist (meanOf r.vertices) f := by
  have key : ∀ P : ℝ → Prop, (∀ f ∈ (hullOf r).faces, P f.distNormCenter) ↔
      ∀ f ∈ r.facets, P (dist (meanOf r.vertices) f) := by
    intro P
    have := faces_center r
    constructor
    · intro hP f hf
      have hm : dist (meanOf r.vertices) f ∈ r.facets.map (dist (meanOf r.vertices)) := List.mem_map_of_mem hf
      rw [← this, List.mem_map] at hm
      obtain ⟨g, hg, hge⟩ := hm
      rw [← hge]; exact hP g hg
    · intro hP f hf
      have hm : f.distNormCenter ∈ (hullOf r).faces.map Face6D.distNormCenter := List.mem_map_of_mem hf
      rw [this, List.mem_map] at hm
      obtain ⟨g, hg, hge⟩ := hm
      rw [← hge]; exact hP g hg
  rw [minOffset, offset_fold _ _ ((key (· ≤ 0)).2 h), key (fun d => ρ ≤ -d)]

/-- The mean of the vertices is in the hull. -/
theorem mean_mem {r : QResult} {pts : List Wrench} (h : IsHull r pts) :
    meanOf r.vertices ∈ convexHull ℝ { w | w ∈ pts } := by
  have hl : 0 < r.vertices.length := List.length_pos_iff.2 h.some_vertex
  have hr : (r.vertices.length : ℝ) ≠ 0 := by exact_mod_cast hl.ne'
  rw [meanOf, if_pos hl]
  have hs : r.vertices.sum = ∑ i : Fin r.vertices.length, r.vertices.get i := by
    rw [← List.sum_ofFn, List.ofFn_get]
  rw [hs, Finset.smul_sum]
  apply (convex_convexHull ℝ _).sum_mem
  · intro i _; positivity
  · rw [Finset.sum_const, Finset.card_univ, Fintype.card_fin, nsmul_eq_mul, mul_one_div_cancel hr]
  · intro i _
    exact subset_convexHull ℝ _ (h.vertices _ (List.get_mem _ _))

theorem mean_dist {r : QResult} {pts : List Wrench} (h : IsHull r pts) :
    ∀ f ∈ r.facets, dist (meanOf r.vertices) f ≤ 0 := (h.hull _).1 (mean_mem h)

/-- A ball lies in the hull if and only if its centre has the distance of the radius to each facet. -/
theorem ball_iff {r : QResult} {pts : List Wrench} (h : IsHull r pts) (c : Wrench) {ρ : ℝ} (hρ : 0 ≤ ρ) :
    BallIn c ρ (convexHull ℝ { w | w ∈ pts }) ↔ ∀ f ∈ r.facets, ρ ≤ -dist c f := by
  constructor
  · intro hb f hf
    have hu := h.unit f hf
    have hx := hb (c + ρ • f.normal) (by rw [add_sub_cancel_left, dot6_smul, dot6_comm, dot6_smul, hu]; nlinarith)
    have := (h.hull _).1 hx f hf
    rw [dot6_add, dot6_smul, hu] at this
    rw [dist]; linarith
  · intro hd x hx
    rw [h.hull]
    intro f hf
    have h1 := hd f hf
    have h2 := dot6_le (x - c) f.normal (h.unit f hf) hρ hx
    rw [dot6_sub] at h2
    rw [dist] at h1
    linarith

/-- The reflection of the force part. -/
def flip : Wrench →ₗ[ℝ] Wrench where
  toFun w := (-w.1, w.2)
  map_add' a b := by ext i <;> simp; ring
  map_smul' t a := by ext i <;> simp

theorem flip_flip (w : Wrench) : flip (flip w) = w := by simp [flip]

theorem flip_dot (a b : Wrench) : dot6 (flip a) (flip b) = dot6 a b := by simp [flip, dot6]

theorem flip_hull (A : Set Wrench) (x : Wrench) : x ∈ convexHull ℝ (flip '' A) ↔ flip x ∈ convexHull ℝ A := by
  rw [← LinearMap.image_convexHull]
  constructor
  · rintro ⟨y, hy, rfl⟩; rwa [flip_flip]
  · intro h; exact ⟨_, h, flip_flip x⟩

/-- Scaling of the torque part. -/
def scaleTorque (k : ℝ) : Wrench →ₗ[ℝ] Wrench where
  toFun w := (w.1, k • w.2)
  map_add' a b := by ext i <;> simp; ring
  map_smul' t a := by ext i <;> simp; ring

theorem zero_scale {k : ℝ} (A : Set Wrench) (h : (0 : Wrench) ∈ convexHull ℝ A) :
    (0 : Wrench) ∈ convexHull ℝ (scaleTorque k '' A) := by
  rw [← LinearMap.image_convexHull]
  exact ⟨0, h, map_zero _⟩

theorem torqueFactor_ne (l : ℝ) : torqueFactor l ≠ 0 := by
  rw [torqueFactor]
  split_ifs with h
  · positivity
  · norm_num

theorem torqueFactor_pos {l : ℝ} (hl : 0 ≤ l) : 0 < torqueFactor l := by
  rw [torqueFactor]
  split_ifs with h
  · have := lt_of_le_of_ne hl (Ne.symm h); positivity
  · norm_num

/-- The cone points lie in their direction from the contact. -/
theorem cone_parallel (g : ConeGen) (c d : ContactPoint) (h : d ∈ computeConePoints g c []) :
    ∃ s : ℝ, d.p = s • d.n + c.p := by
  rw [computeConePoints, List.nil_append, List.mem_map] at h
  obtain ⟨rim, -, rfl⟩ := h
  by_cases hz : conePoint c rim = 0
  · exact ⟨0, by simp [coneContact, hz]⟩
  · refine ⟨nrm (conePoint c rim), ?_⟩
    simp only [coneContact]
    rw [smul_normalize hz]

/-- The wrenches of the program are the physical ones with the force part reflected. -/
theorem wrench_set (g : ConeGen) (cs : List ContactPoint) (l : ℝ) :
    { w | w ∈ createWrenchPoints (conesOf g cs) 0 l } = flip '' graspWrenches (torqueFactor l) (dirs g) cs := by
  have key : ∀ c d, d ∈ computeConePoints g c [] → wrenchOf 0 (torqueFactor l) d = flip (wrenchAt (torqueFactor l) c.p (-d.n)) := by
    intro c d hd
    obtain ⟨s, hs⟩ := cone_parallel g c d hd
    simp only [wrenchOf, wrenchAt, flip, LinearMap.coe_mk, AddHom.coe_mk, neg_neg, sub_zero, Prod.mk.injEq, true_and]
    rw [hs]
    congr 1
    simp
  ext w
  simp only [createWrenchPoints, conesOf_eq, Set.mem_ofPred_eq, List.mem_map, List.mem_flatMap, Set.mem_image,
    graspWrenches]
  constructor
  · rintro ⟨d, ⟨c, hc, hd⟩, rfl⟩
    exact ⟨_, ⟨c, hc, d.n, ⟨d, hd, rfl⟩, rfl⟩, (key c d hd).symm⟩
  · rintro ⟨_, ⟨c, hc, f, ⟨d, hd, rfl⟩, rfl⟩, rfl⟩
    exact ⟨d, ⟨c, hc, hd⟩, key c d hd⟩

theorem scale_wrenches (k : ℝ) (D : ContactPoint → V3 → Prop) (cs : List ContactPoint) :
    graspWrenches k D cs = scaleTorque k '' graspWrenches 1 D cs := by
  ext w
  simp only [graspWrenches, Set.mem_ofPred_eq, Set.mem_image]
  constructor
  · rintro ⟨c, hc, f, hf, rfl⟩
    exact ⟨_, ⟨c, hc, f, hf, rfl⟩, by simp [scaleTorque, wrenchAt]⟩
  · rintro ⟨_, ⟨c, hc, f, hf, rfl⟩, rfl⟩
    exact ⟨c, hc, f, hf, by simp [scaleTorque, wrenchAt]⟩

end Simox.Gpl
