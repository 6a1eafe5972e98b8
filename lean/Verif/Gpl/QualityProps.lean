import Verif.Gpl.ClosureProps
import Verif.Gpl.WeylLemmas
import Verif.Gpl.SimplexLemmas

/-!
# C111: hulls and quality
-/

namespace Simox.Gpl

open Matrix Jac Rot Spec

theorem faces_get (c : Wrench) (fs : List QFacet) : ∀ (acc : List Wrench × List Face6D) (i : ℕ) (f : QFacet),
    fs[i]? = some f → (addFacets c fs acc).2[acc.2.length + i]? =
      some (face6D c (acc.1 ++ (fs.take i).flatMap fun f => List.ofFn f.vertices) f) := by
  induction fs with
  | nil => intro acc i f h; simp at h
  | cons g fs ih =>
      rintro ⟨vs, gs⟩ i f h
      rw [addFacets]
      cases i with
      | zero =>
          rw [List.getElem?_cons_zero, Option.some.injEq] at h
          subst h
          have key : ∀ (fs : List QFacet) (acc : List Wrench × List Face6D), ∃ rest,
              (addFacets c fs acc).2 = acc.2 ++ rest := by
            intro fs
            induction fs with
            | nil => intro acc; exact ⟨[], by simp [addFacets]⟩
            | cons g fs ih =>
                rintro ⟨vs, gs⟩
                obtain ⟨rest, hr⟩ := ih (vs ++ List.ofFn g.vertices, gs ++ [face6D c vs g])
                exact ⟨face6D c vs g :: rest, by rw [addFacets, hr]; simp⟩
          obtain ⟨rest, hr⟩ := key fs (vs ++ List.ofFn g.vertices, gs ++ [face6D c vs g])
          rw [hr]
          simp
      | succ i =>
          rw [List.getElem?_cons_succ] at h
          have := ih (vs ++ List.ofFn g.vertices, gs ++ [face6D c vs g]) i f h
          rw [List.length_append, List.length_singleton, add_assoc, add_comm 1 i] at this
          rw [this]
          simp

/-- **C111 (hull).** The hull `CreateConvexHull` builds of an answer of qhull has one face for each facet, in
order, with its normal and offset. The six vertex numbers of a face refer to the six vertices of the facet.
The centre is the mean of the vertices qhull reports, and the four distances are the signed distances of
the centre and of the origin to the hyperplane of the facet. Without an answer, or for fewer than four
points, the hull has neither vertices nor faces. -/
theorem C111_hull (q : Qhull) (pts : List Wrench) :
    (∀ r, 4 ≤ pts.length → q pts = some r →
      (createConvexHull q pts).faces.length = r.facets.length ∧
      (r.vertices ≠ [] → ∃ m, (createConvexHull q pts).center = some m ∧
        (r.vertices.length : ℝ) • m = r.vertices.sum ∧
        ∀ (i : ℕ) (f : QFacet), r.facets[i]? = some f → ∃ g, (createConvexHull q pts).faces[i]? = some g ∧
          g.normal = f.normal ∧ g.offset = f.offset ∧
          (∀ c, (createConvexHull q pts).vertices[g.id c]? = some (f.vertices c)) ∧
          g.distNormCenter = dot6 m f.normal + f.offset ∧ g.distPlaneCenter = dot6 m f.normal + f.offset ∧
          g.distNormZero = f.offset ∧ g.distPlaneZero = f.offset)) ∧
    (pts.length < 4 ∨ q pts = none →
      (createConvexHull q pts).vertices = [] ∧ (createConvexHull q pts).faces = []) := by
  constructor
  · intro r h4 hr
    rw [createConvexHull_some h4 hr]
    refine ⟨?_, ?_⟩
    · have := congrArg List.length (faces_zero r)
      simpa using this
    · intro hv
      have hl : 0 < r.vertices.length := List.length_pos_iff.2 hv
      have hr0 : (r.vertices.length : ℝ) ≠ 0 := by exact_mod_cast hl.ne'
      refine ⟨meanOf r.vertices, rfl, ?_, ?_⟩
      · rw [meanOf, if_pos hl, smul_smul, mul_one_div_cancel hr0, one_smul]
      · intro i f hf
        have hg := faces_get (meanOf r.vertices) r.facets ([], []) i f hf
        rw [List.length_nil, zero_add, List.nil_append] at hg
        refine ⟨_, hg, rfl, rfl, ?_, rfl, rfl, by simp [face6D, dist, dot6_zero], by simp [face6D, dist, dot6_zero]⟩
        intro c
        simp only [hullOf, addFacets_vertices, List.nil_append, face6D]
        have hsplit : r.facets = r.facets.take i ++ f :: r.facets.drop (i + 1) := by
          have hi : i < r.facets.length := (List.getElem?_eq_some_iff.1 hf).1
          have he : r.facets[i] = f := (List.getElem?_eq_some_iff.1 hf).2
          rw [← he, List.getElem_cons_drop, List.take_append_drop]
        conv_lhs => rw [hsplit]
        rw [List.flatMap_append, List.flatMap_cons]
        have htake : (List.take i (r.facets.take i ++ f :: r.facets.drop (i + 1))) = r.facets.take i := by
          rw [← hsplit]
        rw [htake, List.getElem?_append_right (Nat.le_add_right _ _), Nat.add_sub_cancel_left,
          List.getElem?_append_left (by simp), List.getElem?_ofFn]
        simp
  · intro h
    have : createConvexHull q pts = emptyHull := by
      by_cases h4 : pts.length < 4
      · simp only [createConvexHull, if_pos h4]
      · simp only [createConvexHull, if_neg h4, h.resolve_left h4]
    rw [this]
    exact ⟨rfl, rfl⟩

/-- Not vacuous: a right answer for the seven corners of a simplex. -/
example : ∃ q pts r, Exact q ∧ 4 ≤ pts.length ∧ q pts = some r ∧ r.vertices ≠ [] ∧ r.facets.length = 7 :=
  ⟨knows (corners6 0) (simplex 0), corners6 0, simplex 0, knows_exact (simplex_isHull 0), by simp [corners6],
    knows_self _ _, List.cons_ne_nil _ _, by simp [simplex]⟩

/-- **C111 (offset).** With a right answer of qhull, `minOffset` is the radius of the largest ball around the
centre of the hull that lies in the hull, capped by the largest float. -/
theorem C111_offset (q : Qhull) (hq : Exact q) (pts : List Wrench) (h4 : 4 ≤ pts.length) (r : QResult)
    (hr : q pts = some r) :
    ∃ c, (createConvexHull q pts).center = some c ∧ c ∈ convexHull ℝ { w | w ∈ pts } ∧
      0 ≤ minOffset (some (createConvexHull q pts)) ∧
      ∀ ρ, 0 ≤ ρ → (ρ ≤ minOffset (some (createConvexHull q pts)) ↔
        ρ ≤ fltMax ∧ BallIn c ρ (convexHull ℝ { w | w ∈ pts })) := by
  have hh := hq _ _ hr
  rw [createConvexHull_some h4 hr]
  have hm := mean_dist hh
  refine ⟨meanOf r.vertices, rfl, mean_mem hh, ?_, ?_⟩
  · rw [minOffset_hullOf r hm]
    refine ⟨?_, fun f hf => by have := hm f hf; linarith⟩
    rw [fltMax]; norm_num
  · intro ρ hρ
    rw [minOffset_hullOf r hm, ball_iff hh _ hρ]

/-- **C111 (quality).** Let the hand have contacts and let the values of the object wrench space be known:
`m` (offset). If there are at least four sampled forces, qhull answers rightly with a positive volume and
`m` is positive, the quality is the radius of the largest ball around the centre of the hull of the wrenches
that lies in this hull, divided by `m`. In all other cases (no answer, `m` or the volume not positive) it
is 0. -/
theorem C111_quality (cfg : Cfg) (hq : Exact cfg.qhull) (s : St) (infos : List ContactInfo) (hne : infos ≠ [])
    (m v : ℝ) (rnd : List ℕ) (faces : List MeshFace) :
    let quality := (((s.setInfos cfg infos).preCalculatedOWS m v).getGraspQuality cfg rnd faces).2
    (∀ r, 4 ≤ (pointsOf cfg infos).length → cfg.qhull (pointsOf cfg infos) = some r → 0 < r.totvol → 0 < m →
      ∃ c, (createConvexHull cfg.qhull (pointsOf cfg infos)).center = some c ∧
      ∀ ρ, 0 ≤ ρ → (ρ / m ≤ quality ↔
        ρ ≤ fltMax ∧ BallIn c ρ (convexHull ℝ { w | w ∈ pointsOf cfg infos }))) ∧
    ((pointsOf cfg infos).length < 4 ∨ cfg.qhull (pointsOf cfg infos) = none ∨ m ≤ 0 → quality = 0) ∧
    (∀ r, cfg.qhull (pointsOf cfg infos) = some r → r.totvol ≤ 0 → quality = 0) := by
  intro quality
  have he : (setInfos cfg.centerOfModel infos).contactPointsM.isEmpty = false := by
    cases infos with
    | nil => exact absurd rfl hne
    | cons _ _ => rfl
  have hqual : quality = qualityOf (some (createConvexHull cfg.qhull (pointsOf cfg infos))) m := by
    simp only [quality, St.getGraspQuality, St.calculateObjectProperties, St.preCalculatedOWS, if_true,
      St.calculateGraspQuality, St.needGWS, St.setInfos, St.calculateGWS, he, Bool.false_eq_true, if_false,
      calculateConvexHull, pointsOf]
  have hempty : (pointsOf cfg infos).length < 4 ∨ cfg.qhull (pointsOf cfg infos) = none → quality = 0 := by
    intro h
    rw [hqual]
    simp only [qualityOf]
    rw [if_pos]
    rw [((C111_hull cfg.qhull (pointsOf cfg infos)).2 h).1]
    rfl
  refine ⟨?_, ?_, ?_⟩
  · intro r h4 hr hv hm
    have hh := hq _ _ hr
    obtain ⟨c, hc, -, -, hball⟩ := C111_offset cfg.qhull hq _ h4 r hr
    refine ⟨c, hc, ?_⟩
    have hvert : (createConvexHull cfg.qhull (pointsOf cfg infos)).vertices.length ≠ 0 := by
      rw [createConvexHull_some h4 hr]
      simp only [hullOf, addFacets_vertices, List.nil_append]
      obtain ⟨f, hf⟩ := List.exists_mem_of_ne_nil _ hh.some_facet
      intro h0
      rw [List.length_eq_zero_iff, List.flatMap_eq_nil_iff] at h0
      have := h0 f hf
      simp at this
    have hvol : (createConvexHull cfg.qhull (pointsOf cfg infos)).volume = some r.totvol := by
      rw [createConvexHull_some h4 hr]; rfl
    have : quality = minOffset (some (createConvexHull cfg.qhull (pointsOf cfg infos))) / m := by
      rw [hqual]
      simp only [qualityOf]
      rw [if_neg hvert, if_neg, if_pos hm.ne']
      rw [hvol]
      simp only [volumeNotPos]
      push Not
      exact ⟨hm, hv⟩
    intro ρ hρ
    rw [this, div_le_div_iff_of_pos_right hm]
    exact hball ρ hρ
  · intro h
    rcases h with h | h | h
    · exact hempty (Or.inl h)
    · exact hempty (Or.inr h)
    · rw [hqual]
      simp only [qualityOf]
      split_ifs with h1 h2 h3 <;> first | rfl | exact absurd (Or.inl h) h2
  · intro r hr hv
    by_cases h4 : (pointsOf cfg infos).length < 4
    · exact hempty (Or.inl h4)
    · have hvol : (createConvexHull cfg.qhull (pointsOf cfg infos)).volume = some r.totvol := by
        rw [createConvexHull_some (not_lt.1 h4) hr]; rfl
      rw [hqual]
      simp only [qualityOf]
      by_cases h1 : (createConvexHull cfg.qhull (pointsOf cfg infos)).vertices.length = 0
      · rw [if_pos h1]
      · rw [if_neg h1, if_pos]
        right
        rw [hvol]
        exact hv

/-- **C111 (volume).** The volume measure is the volume qhull reports for the wrenches over the volume `v` of the
object wrench space, if both are positive (for values of `v` up to 1e-10 it is the volume itself), and 0
otherwise. -/
theorem C111_volume (cfg : Cfg) (hq : Exact cfg.qhull) (s : St) (infos : List ContactInfo) (hne : infos ≠ [])
    (m v : ℝ) (h4 : 4 ≤ (pointsOf cfg infos).length) :
    let volume := (((s.setInfos cfg infos).preCalculatedOWS m v).getVolumeGraspMeasure cfg).2
    (∀ r, cfg.qhull (pointsOf cfg infos) = some r →
      (1e-10 < v → 0 < r.totvol → volume = r.totvol / v) ∧
      (0 < v → v ≤ 1e-10 → 0 < r.totvol → volume = r.totvol) ∧
      (v ≤ 0 ∨ r.totvol ≤ 0 → volume = 0)) ∧
    (cfg.qhull (pointsOf cfg infos) = none → volume = 0) := by
  intro volume
  have he : (setInfos cfg.centerOfModel infos).contactPointsM.isEmpty = false := by
    cases infos with
    | nil => exact absurd rfl hne
    | cons _ _ => rfl
  have hvol : volume = volumeOf (some (createConvexHull cfg.qhull (pointsOf cfg infos))) (some v) := by
    simp only [volume, St.getVolumeGraspMeasure, St.preCalculatedOWS, St.needGWS, St.setInfos, St.calculateGWS, he,
      Bool.false_eq_true, if_false, calculateConvexHull, pointsOf]
  constructor
  · intro r hr
    have hh := hq _ _ hr
    have hvert : (hullOf r).vertices.length ≠ 0 := by
      simp only [hullOf, addFacets_vertices, List.nil_append]
      obtain ⟨f, hf⟩ := List.exists_mem_of_ne_nil _ hh.some_facet
      intro h0
      rw [List.length_eq_zero_iff, List.flatMap_eq_nil_iff] at h0
      have := h0 f hf
      simp at this
    have hv : volume = if v ≤ 0 ∨ r.totvol ≤ 0 then 0 else if v > 1e-10 then r.totvol / v else r.totvol := by
      rw [hvol, createConvexHull_some h4 hr]
      simp only [volumeOf]
      rw [if_neg hvert]
      rfl
    rw [hv]
    refine ⟨fun h1 h2 => ?_, fun h0 h1 h2 => ?_, fun h => if_pos h⟩
    · have h0 : (0 : ℝ) < v := lt_trans (by norm_num) h1
      rw [if_neg (by push Not; exact ⟨h0, h2⟩), if_pos h1]
    · rw [if_neg (by push Not; exact ⟨h0, h2⟩), if_neg (not_lt.2 h1)]
  · intro h
    rw [hvol]
    simp only [volumeOf]
    rw [if_pos]
    rw [((C111_hull cfg.qhull (pointsOf cfg infos)).2 (Or.inr h)).1]
    rfl

/-- Not vacuous: for every hand with contacts and a cone of four samples there is a qhull that is exact and
answers, with a positive volume. -/
example (com : V3) (len : ℝ) (infos : List ContactInfo) (hne : infos ≠ []) : ∃ cfg : Cfg, cfg.centerOfModel = com ∧
    cfg.objectLength = len ∧ Exact cfg.qhull ∧ 4 ≤ (pointsOf cfg infos).length ∧
    ∃ r, cfg.qhull (pointsOf cfg infos) = some r ∧ 0 < r.totvol := by
  obtain ⟨q, hq, ha⟩ := exists_exact 1
  have h4 : 4 ≤ (pointsOf ⟨com, len, ConeGen.new 4 1 1, q⟩ infos).length := by
    obtain ⟨x, l, rfl⟩ := List.exists_cons_of_ne_nil hne
    simp [pointsOf, createWrenchPoints, conesOf_eq, setInfos, convertMM2M, computeConePoints, ConeGen.new]
  obtain ⟨r, hr, hv⟩ := ha _ (List.ne_nil_of_length_pos (lt_of_lt_of_le (by norm_num) h4))
  exact ⟨⟨com, len, ConeGen.new 4 1 1, q⟩, rfl, rfl, hq, h4, r, hr, by rw [hv]; norm_num⟩

/-- **C111 (not normalised, does not hold).** The measure `GraspQualityMeasureWrenchSpaceNotNormalized` is
documented to return the radius of the largest ball. It returns the largest float for every hull that has
vertices and whose facets are not further away than the largest float; so a small grasp gets the same
quality as a large one. -/
theorem C111_not_normalized_false :
    (∀ h : ConvexHull6D, h.vertices ≠ [] → (∀ f ∈ h.faces, -f.distNormCenter ≤ fltMax) →
      qualityOfNN (some h) = fltMax) ∧
    ¬ ∀ (q : Qhull) (pts : List Wrench) (r : QResult), Exact q → 4 ≤ pts.length → q pts = some r →
      qualityOfNN (some (createConvexHull q pts)) = minOffset (some (createConvexHull q pts)) := by
  have h1 : ∀ h : ConvexHull6D, h.vertices ≠ [] → (∀ f ∈ h.faces, -f.distNormCenter ≤ fltMax) →
      qualityOfNN (some h) = fltMax := by
    intro h hv hf
    simp only [qualityOfNN, minOffsetNN]
    rw [if_neg (by rwa [List.length_eq_zero_iff])]
    generalize h.faces = l at hf
    induction l with
    | nil => rfl
    | cons f l ih =>
        rw [List.foldl_cons]
        have : offsetStepNN fltMax f = fltMax := by
          rw [offsetStepNN]
          split_ifs
          · rfl
          · exact max_eq_left (hf f (by simp))
        rw [this]
        exact ih fun g hg => hf g (List.mem_cons_of_mem _ hg)
  refine ⟨h1, ?_⟩
  intro hall
  have hl : 4 ≤ (corners6 0).length := by simp [corners6]
  have hc := createConvexHull_some hl (knows_self (corners6 0) (simplex 0))
  have := hall _ _ _ (knows_exact (simplex_isHull 0)) hl (knows_self (corners6 0) (simplex 0))
  rw [hc] at this
  have hd : ∀ f ∈ (hullOf (simplex 0)).faces, -f.distNormCenter ≤ 1 := by
    intro f hf
    have hm : f.distNormCenter ∈ (hullOf (simplex 0)).faces.map Face6D.distNormCenter := List.mem_map_of_mem hf
    rw [faces_center, List.mem_map] at hm
    obtain ⟨g, hg, hge⟩ := hm
    rw [← hge]
    revert g
    change ∀ g ∈ topFacet 0 :: List.ofFn (lowFacet 0), dist _ g = _ → _
    have e := simplex_mean 0
    have : ∀ g ∈ topFacet 0 :: List.ofFn (lowFacet 0), -dist (meanOf (simplex 0).vertices) g ≤ 1 := by
      rw [List.forall_mem_cons, List.forall_mem_ofFn_iff]
      constructor
      · rw [dist_top, e, dot6_smul, ones6_ones]
        have h0 : (1 : ℝ) ≤ Real.sqrt 6 := by
          rw [Real.one_le_sqrt]; norm_num
        rw [neg_div', div_le_one (by linarith)]
        linarith
      · intro i
        rw [dist_low, e, dot6_smul, ones6_unit]
        norm_num
    exact fun g hg _ => this g hg
  have hbig : (1 : ℝ) < fltMax := by rw [fltMax]; norm_num
  have hv : (hullOf (simplex 0)).vertices ≠ [] := by
    simp [hullOf, addFacets_vertices, simplex]
  rw [h1 _ hv fun f hf => (hd f hf).trans hbig.le] at this
  have hle := (minOffset_hullOf (simplex 0) (mean_dist (simplex_isHull 0)) (minOffset (some (hullOf (simplex 0))))).1 le_rfl
  have hcon := hle.2 (topFacet 0) List.mem_cons_self
  have e := simplex_mean 0
  rw [dist_top, e, dot6_smul, ones6_ones, ← this] at hcon
  have h0 : (1 : ℝ) ≤ Real.sqrt 6 := by rw [Real.one_le_sqrt]; norm_num
  have : -((1 / 7 * 6 - 1) / Real.sqrt 6) ≤ 1 := by
    rw [neg_div', div_le_one (by linarith)]
    linarith
  linarith

/-- **C111 (quality and closure, does not hold).** The quality is measured around the centre of the hull, not
around the origin. So a positive quality does not mean that the grasp is force closed: there are wrenches,
with a right answer of qhull, whose quality is positive although no convex combination of them is zero. -/
theorem C111_origin_false :
    ¬ ∀ (q : Qhull) (pts : List Wrench) (r : QResult), Exact q → 4 ≤ pts.length → q pts = some r →
      0 < qualityOf (some (createConvexHull q pts)) 1 → (0 : Wrench) ∈ convexHull ℝ { w | w ∈ pts } := by
  intro hall
  have hl : 4 ≤ (corners6 ones6).length := by simp [corners6]
  have hc := createConvexHull_some hl (knows_self (corners6 ones6) (simplex ones6))
  have h0 := hall _ _ _ (knows_exact (simplex_isHull ones6)) hl (knows_self (corners6 ones6) (simplex ones6)) (by
    rw [hc]
    have ho := simplex_offset ones6
    simp only [qualityOf]
    rw [if_neg (by simp [hullOf, addFacets_vertices, simplex]), if_neg, if_pos one_ne_zero]
    · rw [div_one]; linarith
    · simp only [hullOf, volumeNotPos, simplex]
      norm_num)
  rw [(simplex_isHull ones6).hull, simplex_inner] at h0
  have := h0.2 0
  rw [zero_sub, dot6_comm, dot6_neg_right, unit6_ones] at this
  linarith

end Simox.Gpl
