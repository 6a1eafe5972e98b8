import Verif.Hull.HullLemmas

/-!
# Properties C66 and C67: convex hulls in the plane
-/

namespace Simox.Hull

open Classical

/-! ## C66: the polygon -/

/-- C66. Of any list of points `createConvexHull2D` keeps a part in which any two are 1e-4 apart and that comes
within 1e-4 of all points. If fewer than three are kept it throws; otherwise it returns their convex hull as a
polygon: the vertices are the extreme points, each connected to the next, counter clockwise. It never writes
outside of its array. -/
theorem C66_hull (points : List Pt) :
    ∃ kept, Thinned points kept ∧
      (kept.length < 3 → createConvexHull2D points = .throw) ∧
      (3 ≤ kept.length → ∃ H, createConvexHull2D points = .ok H ∧ Polygon kept H) := by
  refine ⟨sortPoints points, thinned points, create_throw, ?_⟩
  intro h
  obtain ⟨H, h1, h2, _⟩ := create_result h
  exact ⟨H, h1, h2⟩

/-- C66, for three or more points of which no two are closer than 1e-4: the polygon is the hull of exactly
these points. -/
theorem C66_exact (points : List Pt) (hn : 3 ≤ points.length)
    (hd : points.Pairwise fun a b => (1 / 10 ^ 4) ^ 2 ≤ sqDist a b) :
    ∃ H, createConvexHull2D points = .ok H ∧ Polygon points H := by
  obtain ⟨H, h1, h2, _⟩ := create_result (points := points) (by rw [sortPoints_length_of_apart hd]; exact hn)
  exact ⟨H, h1, h2.congr (sortPoints_mem_of_apart hd)⟩

/-- A square with a point inside. -/
def sample : List Pt := [(1, 1), (2, 2), (0, 2), (0, 0), (2, 0)]

theorem sample_apart : sample.Pairwise fun a b => (1 / 10 ^ 4) ^ 2 ≤ sqDist a b := by
  simp only [sample, List.pairwise_cons, List.mem_cons, List.not_mem_nil, or_false, forall_eq_or_imp, forall_eq,
    sqDist]
  norm_num

/-- Its hull exists, and (1, 1) is not a vertex. -/
example : ∃ H, createConvexHull2D sample = .ok H ∧ Polygon sample H ∧ (1, 1) ∉ H.vertices := by
  obtain ⟨H, h1, h2⟩ := C66_exact sample (by simp [sample]) sample_apart
  refine ⟨H, h1, h2, fun h => ?_⟩
  have h := (h2.corners _).mp h
  have m1 : ((0 : ℝ), (0 : ℝ)) ∈ hullSet sample := subset_convexHull ℝ _ (by simp [sample])
  have m2 : ((2 : ℝ), (2 : ℝ)) ∈ hullSet sample := subset_convexHull ℝ _ (by simp [sample])
  have := h.2 m1 m2 ⟨1 / 2, 1 / 2, by norm_num, by norm_num, by norm_num, by
    refine Prod.ext ?_ ?_ <;> simp⟩
  simp at this

/-- Three points of which two are too close: refused. -/
example : createConvexHull2D [(0, 0), (1 / 10 ^ 5, 0), (1, 1)] = .throw := by
  refine create_throw ?_
  have h := (removeDoubles_sublist _ [(0, 0), (1 / 10 ^ 5, 0), (1, 1)] rfl)
  have hp := removeDoubles_apart _ [(0, 0), (1 / 10 ^ 5, 0), (1, 1)] rfl
  unfold sortPoints
  rw [List.length_insertionSort]
  by_contra hc
  have := h.eq_of_length_le (by simp only [List.length_cons, List.length_nil]; omega)
  rw [this] at hp
  have := (List.pairwise_cons.mp hp).1 (1 / 10 ^ 5, 0) (by simp)
  exact this (by unfold close; norm_num)

/-! ## C67: the test for a point, and the centre -/

/-- C67. For a hull that `createConvexHull2D` has returned, `isInside` says yes exactly for the points of the
convex hull of the points that were kept (its border included). -/
theorem C67_inside (points : List Pt) (H : ConvexHull2D) (h : createConvexHull2D points = .ok H) :
    ∃ kept, Thinned points kept ∧ Polygon kept H ∧ ∀ p, isInside p (some H) = true ↔ p ∈ hullSet kept := by
  obtain ⟨h1, h2, _⟩ := create_ok h
  exact ⟨sortPoints points, thinned points, h1, h2⟩

/-- C67, for points of which no two are closer than 1e-4: `isInside` decides the convex hull of the points. -/
theorem C67_exact (points : List Pt) (hd : points.Pairwise fun a b => (1 / 10 ^ 4) ^ 2 ≤ sqDist a b)
    (H : ConvexHull2D) (h : createConvexHull2D points = .ok H) (p : Pt) :
    isInside p (some H) = true ↔ p ∈ hullSet points := by
  rw [(create_ok h).2.1 p, hullSet_congr (sortPoints_mem_of_apart hd)]

/-- C67, for any points: `isInside` says yes only inside of the hull of the points, and every point of that hull
is, in both coordinates, less than 1e-4 from a point where it says yes. -/
theorem C67_near (points : List Pt) (H : ConvexHull2D) (h : createConvexHull2D points = .ok H) (p : Pt) :
    (isInside p (some H) = true → p ∈ hullSet points) ∧
    (p ∈ hullSet points →
      ∃ q, isInside q (some H) = true ∧ |p.1 - q.1| < 1 / 10 ^ 4 ∧ |p.2 - q.2| < 1 / 10 ^ 4) := by
  obtain ⟨_, h2, _⟩ := create_ok h
  have ht := thinned points
  constructor
  · intro g
    rw [h2] at g
    exact convexHull_mono (fun q hq => ht.sub q hq) g
  · have hc : Convex ℝ {p : Pt | ∃ q ∈ hullSet (sortPoints points), |p.1 - q.1| < 1 / 10 ^ 4 ∧
        |p.2 - q.2| < 1 / 10 ^ 4} := by
      rintro x ⟨q, hq, q1, q2⟩ y ⟨r, hr, r1, r2⟩ a b ha hb hab
      refine ⟨a • q + b • r, (convex_convexHull ℝ _) hq hr ha hb hab, ?_, ?_⟩
      · have e : (a • x + b • y : Pt).1 - (a • q + b • r : Pt).1 = a * (x.1 - q.1) + b * (y.1 - r.1) := by
          show (a * x.1 + b * y.1) - (a * q.1 + b * r.1) = _
          ring
        rw [e]
        exact abs_combo ha hb hab (by assumption) (by assumption)
      · have e : (a • x + b • y : Pt).2 - (a • q + b • r : Pt).2 = a * (x.2 - q.2) + b * (y.2 - r.2) := by
          show (a * x.2 + b * y.2) - (a * q.2 + b * r.2) = _
          ring
        rw [e]
        exact abs_combo ha hb hab (by assumption) (by assumption)
    intro hp
    have hsub : {q : Pt | q ∈ points} ⊆ {p : Pt | ∃ q ∈ hullSet (sortPoints points), |p.1 - q.1| < 1 / 10 ^ 4 ∧
        |p.2 - q.2| < 1 / 10 ^ 4} := by
      intro q hq
      obtain ⟨k, hk, g⟩ := ht.near q hq
      refine ⟨k, subset_convexHull ℝ _ hk, ?_, ?_⟩
      · refine abs_lt_of_sq_lt_sq ?_ (by norm_num)
        unfold sqDist at g
        have := sq_nonneg (k.2 - q.2)
        have e : (q.1 - k.1) ^ 2 = (k.1 - q.1) ^ 2 := by ring
        rw [e]; linarith
      · refine abs_lt_of_sq_lt_sq ?_ (by norm_num)
        unfold sqDist at g
        have := sq_nonneg (k.1 - q.1)
        have e : (q.2 - k.2) ^ 2 = (k.2 - q.2) ^ 2 := by ring
        rw [e]; linarith
    obtain ⟨q, hq, g1, g2⟩ := convexHull_min hsub hc hp
    exact ⟨q, (h2 q).mpr hq, g1, g2⟩

/-- C67, the centre: `getConvexHullCenter` of a hull that `createConvexHull2D` has returned is the centre of the
bounding box of the hull, and it is inside of the hull. -/
theorem C67_center (points : List Pt) (H : ConvexHull2D) (h : createConvexHull2D points = .ok H) :
    isInside (getConvexHullCenter (some H)) (some H) = true ∧
    ∃ x0 x1 y0 y1, getConvexHullCenter (some H) = ((x0 + x1) / 2, (y0 + y1) / 2) ∧
      IsLeast {x | ∃ p : Pt, isInside p (some H) = true ∧ x = p.1} x0 ∧
      IsGreatest {x | ∃ p : Pt, isInside p (some H) = true ∧ x = p.1} x1 ∧
      IsLeast {y | ∃ p : Pt, isInside p (some H) = true ∧ y = p.2} y0 ∧
      IsGreatest {y | ∃ p : Pt, isInside p (some H) = true ∧ y = p.2} y1 := by
  obtain ⟨h1, h2, h3⟩ := create_ok h
  have hin : ∀ p, isInside p (some H) = true ↔ p ∈ hullSet H.vertices := by
    intro p; rw [h2, h1.span]
  have hne : H.vertices ≠ [] := by
    intro g
    have hs := h1.span
    obtain ⟨q, hq⟩ : ∃ q, q ∈ sortPoints points := by
      cases hx : sortPoints points with
      | nil => rw [hx] at h3; simp at h3
      | cons q l => exact ⟨q, by simp⟩
    have : q ∈ hullSet H.vertices := by rw [hs]; exact subset_convexHull ℝ _ hq
    rw [g] at this
    unfold hullSet at this
    simp at this
  obtain ⟨x0, x1, y0, y1, lx0, lx1, ly0, ly1, e⟩ := center_eq hne
  obtain ⟨⟨L, mL, eL⟩, bx0⟩ := lx0
  obtain ⟨⟨R, mR, eR⟩, bx1⟩ := lx1
  obtain ⟨⟨D, mD, eD⟩, by0⟩ := ly0
  obtain ⟨⟨U, mU, eU⟩, by1⟩ := ly1
  dsimp only at eL eR eD eU bx0 bx1 by0 by1
  have hv : ∀ q ∈ H.vertices, q ∈ hullSet H.vertices := fun q hq => subset_convexHull ℝ _ hq
  have q0 : ∀ q ∈ hullSet H.vertices, x0 ≤ q.1 := by
    intro q hq
    have := least_hull (c := (1, 0, 0)) (m := x0) (fun q hq => by have := bx0 q hq; simp only [aff]; linarith) q hq
    simp only [aff] at this; linarith
  have q1 : ∀ q ∈ hullSet H.vertices, q.1 ≤ x1 := by
    intro q hq
    have := least_hull (c := (-1, 0, 0)) (m := -x1) (fun q hq => by have := bx1 q hq; simp only [aff]; linarith) q hq
    simp only [aff] at this; linarith
  have q2 : ∀ q ∈ hullSet H.vertices, y0 ≤ q.2 := by
    intro q hq
    have := least_hull (c := (0, 1, 0)) (m := y0) (fun q hq => by have := by0 q hq; simp only [aff]; linarith) q hq
    simp only [aff] at this; linarith
  have q3 : ∀ q ∈ hullSet H.vertices, q.2 ≤ y1 := by
    intro q hq
    have := least_hull (c := (0, -1, 0)) (m := -y1) (fun q hq => by have := by1 q hq; simp only [aff]; linarith) q hq
    simp only [aff] at this; linarith
  have hK : Convex ℝ (hullSet H.vertices) := convex_convexHull ℝ _
  have bL := hv L mL
  have bR := hv R mR
  have bD := hv D mD
  have bU := hv U mU
  have hx01 : x0 ≤ x1 := by have := q1 L bL; linarith
  have hy01 : y0 ≤ y1 := by have := q3 D bD; linarith
  refine ⟨?_, x0, x1, y0, y1, e, ?_, ?_, ?_, ?_⟩
  · rw [hin, e]
    obtain ⟨ya, ma, la⟩ := center_below hK (xm := (x0 + x1) / 2) (ym := (y0 + y1) / 2) (w := (x1 - x0) / 2)
      (hh := (y1 - y0) / 2) bL bR bD (by linarith) (by linarith) (by linarith) (by linarith) (by linarith)
      (by have := q0 D bD; linarith) (by have := q1 D bD; linarith) (by have := q3 L bL; linarith)
      (by have := q3 R bR; linarith)
    -- the same upside down
    let K' : Set Pt := {p | (p.1, -p.2) ∈ hullSet H.vertices}
    have hK' : Convex ℝ K' := by
      intro x hx y hy a b ha hb hab
      have := hK hx hy ha hb hab
      show ((a • x + b • y : Pt).1, -(a • x + b • y : Pt).2) ∈ hullSet H.vertices
      convert this using 1
      refine Prod.ext rfl ?_
      show -(a * x.2 + b * y.2) = a * (-x.2) + b * (-y.2)
      ring
    have flip : ∀ q ∈ hullSet H.vertices, ((q.1, -q.2) : Pt) ∈ K' := by
      intro q hq
      show (q.1, - -q.2) ∈ hullSet H.vertices
      rw [neg_neg]; exact hq
    obtain ⟨yb, mb, lb⟩ := center_below hK' (xm := (x0 + x1) / 2) (ym := -((y0 + y1) / 2)) (w := (x1 - x0) / 2)
      (hh := (y1 - y0) / 2) (flip L bL) (flip R bR) (flip U bU) (by linarith) (by linarith)
      (by show L.1 = _; linarith) (by show R.1 = _; linarith) (by show -U.2 = _; linarith)
      (by show _ ≤ U.1; have := q0 U bU; linarith) (by show U.1 ≤ _; have := q1 U bU; linarith)
      (by show -L.2 ≤ _; have := q2 L bL; linarith) (by show -R.2 ≤ _; have := q2 R bR; linarith)
    have mb : ((x0 + x1) / 2, -yb) ∈ hullSet H.vertices := mb
    rcases eq_or_lt_of_le (show ya ≤ -yb by linarith) with g | g
    · have : ya = (y0 + y1) / 2 := by linarith
      rw [← this]; exact ma
    · have hd : 0 < -yb - ya := by linarith
      have := mem_hull_combo ma mb (c := ((y0 + y1) / 2 - ya) / (-yb - ya)) (div_nonneg (by linarith) hd.le)
        ((div_le_one hd).mpr (by linarith))
      dsimp only at this
      rw [div_mul_cancel₀ _ (ne_of_gt hd), sub_self, mul_zero, add_zero] at this
      have e' : ya + ((y0 + y1) / 2 - ya) = (y0 + y1) / 2 := by ring
      rw [e'] at this
      exact this
  · refine ⟨⟨L, (hin L).mpr bL, by linarith⟩, ?_⟩
    rintro x ⟨p, hp, rfl⟩
    exact q0 p ((hin p).mp hp)
  · refine ⟨⟨R, (hin R).mpr bR, by linarith⟩, ?_⟩
    rintro x ⟨p, hp, rfl⟩
    exact q1 p ((hin p).mp hp)
  · refine ⟨⟨D, (hin D).mpr bD, by linarith⟩, ?_⟩
    rintro x ⟨p, hp, rfl⟩
    exact q2 p ((hin p).mp hp)
  · refine ⟨⟨U, (hin U).mpr bU, by linarith⟩, ?_⟩
    rintro x ⟨p, hp, rfl⟩
    exact q3 p ((hin p).mp hp)

/-- For the square: (1, 1) is inside, (3, 1) is not. -/
example : ∃ H, createConvexHull2D sample = .ok H ∧ isInside (1, 1) (some H) = true ∧
    isInside (3, 1) (some H) = false := by
  obtain ⟨H, h1, _⟩ := C66_exact sample (by simp [sample]) sample_apart
  have hi := C67_exact sample sample_apart H h1
  refine ⟨H, h1, (hi _).mpr (subset_convexHull ℝ _ (by simp [sample])), ?_⟩
  rw [← Bool.not_eq_true, hi]
  intro h
  have := least_hull (S := sample) (c := (-1, 0, 0)) (m := -2) (by
    simp only [sample, List.mem_cons, List.not_mem_nil, or_false, forall_eq_or_imp, forall_eq, aff]
    norm_num) _ h
  simp only [aff] at this
  norm_num at this

end Simox.Hull
