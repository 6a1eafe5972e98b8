import Verif.Mth.LineProps

/-!
# Planes: properties
-/

namespace Simox.Mth

open Matrix Jac Rot

/-! ## Specification -/

/-- ImplicitPlane.h 34: the points with `ax + by + cz = d`. -/
def ImplicitPlane.Contains (pl : ImplicitPlane) (x : V3) : Prop := pl.n 0 * x 0 + pl.n 1 * x 1 + pl.n 2 * x 2 = pl.d

/-- The points of a plane given by a point and two directions. -/
def Plane2.Contains (pl : Plane2) (x : V3) : Prop := ∃ u v : ℝ, x = pl.pos + u • pl.dir1 + v • pl.dir2

/-- The points of a plane given by a point and a normal. -/
def planeContains (pl : Rot.Plane) (x : V3) : Prop := (x - pl.p) ⬝ᵥ pl.n = 0

/-! ## Lemmas -/

theorem contains_iff (pl : ImplicitPlane) (x : V3) : pl.Contains x ↔ pl.n ⬝ᵥ x = pl.d := by
  rw [dot3]; rfl

/-! ## Planes with two directions -/

/-- `FromNormal`: the plane through the point, orthogonal to the normal, with orthonormal directions, so that
`GetNormal` is the direction of the normal given. -/
theorem C80_from_normal {pos normal : V3} (h : normal ≠ 0) :
    let pl := Plane2.fromNormal pos normal
    pl.pos = pos ∧ pl.dir1 ⬝ᵥ pl.dir1 = 1 ∧ pl.dir2 ⬝ᵥ pl.dir2 = 1 ∧ pl.dir1 ⬝ᵥ pl.dir2 = 0 ∧
      (∃ k : ℝ, 0 < k ∧ normal = k • pl.getNormal) ∧ pl.getNormal ⬝ᵥ pl.getNormal = 1 ∧
      (∀ x, pl.Contains x ↔ (x - pos) ⬝ᵥ normal = 0) := by
  intro pl
  obtain ⟨n, d1, d2, he, ⟨k, hk, hv⟩, hn, h1, h2, h3, h4, h5, h6, h7, h8⟩ := C78_orthonormal h
  have hpl : pl = ⟨pos, d1, d2⟩ := by simp only [pl, Plane2.fromNormal, he]
  rw [hpl]
  refine ⟨rfl, h1, h2, h5, ⟨k, hk, by rw [Plane2.getNormal, h6, hv]⟩, by rw [Plane2.getNormal, h6, hn], ?_⟩
  intro x
  simp only [Plane2.Contains]
  constructor
  · rintro ⟨u, v, rfl⟩
    rw [hv, dotProduct_smul, add_assoc, add_sub_cancel_left, add_dotProduct, smul_dotProduct, smul_dotProduct,
      dotProduct_comm d1, dotProduct_comm d2, h3, h4]
    simp
  · intro hx
    refine ⟨(x - pos) ⬝ᵥ d1, (x - pos) ⬝ᵥ d2, ?_⟩
    have hxn : (x - pos) ⬝ᵥ n = 0 := by
      rw [hv, dotProduct_smul, smul_eq_mul] at hx
      exact (mul_eq_zero.1 hx).resolve_left hk.ne'
    generalize hy : x - pos = y at *
    have hxy : x = pos + y := by rw [← hy]; abel
    rw [hxy]
    -- the difference is orthogonal to the whole frame
    have hz : y - (y ⬝ᵥ d1) • d1 - (y ⬝ᵥ d2) • d2 = 0 := by
      have e1 : (y - (y ⬝ᵥ d1) • d1 - (y ⬝ᵥ d2) • d2) ⬝ᵥ d1 = 0 := by
        simp only [sub_dotProduct, smul_dotProduct, smul_eq_mul, h1, dotProduct_comm d2 d1, h5]; ring
      have e2 : (y - (y ⬝ᵥ d1) • d1 - (y ⬝ᵥ d2) • d2) ⬝ᵥ d2 = 0 := by
        simp only [sub_dotProduct, smul_dotProduct, smul_eq_mul, h2, h5]; ring
      have e3 : crossProduct d1 d2 ⬝ᵥ (y - (y ⬝ᵥ d1) • d1 - (y ⬝ᵥ d2) • d2) = 0 := by
        rw [dotProduct_sub, dotProduct_sub, dotProduct_smul, dotProduct_smul, cross_dot_left, cross_dot_right, h6,
          dotProduct_comm n, hxn]; simp
      generalize y - (y ⬝ᵥ d1) • d1 - (y ⬝ᵥ d2) • d2 = z at *
      have hl : crossProduct (crossProduct d1 d2) z = 0 := by
        have : crossProduct (crossProduct d1 d2) z = (z ⬝ᵥ d1) • d2 - (z ⬝ᵥ d2) • d1 := by
          ext i; fin_cases i <;> simp [cross_apply, dot3] <;> ring
        rw [this, e1, e2]; simp
      have hla := lagrange (crossProduct d1 d2) z
      rw [hl, e3, h6, hn] at hla
      simp at hla
      exact dot_eq_zero hla.symm
    have : y = (y ⬝ᵥ d1) • d1 + (y ⬝ᵥ d2) • d2 := by
      have := sub_eq_zero.1 (show y - ((y ⬝ᵥ d1) • d1 + (y ⬝ᵥ d2) • d2) = 0 by rw [← hz]; abel)
      exact this
    rw [add_assoc, ← this]

/-- `GetUVW`: no exception for unit directions, and for orthogonal ones the three coordinates of the point, which
are read back: position = pos + u·dir1 + v·dir2 + w·normal. -/
theorem C80_uvw {pl : Plane2} (h1 : pl.dir1 ⬝ᵥ pl.dir1 = 1) (h2 : pl.dir2 ⬝ᵥ pl.dir2 = 1)
    (h12 : pl.dir1 ⬝ᵥ pl.dir2 = 0) (x : V3) :
    ∃ u v w, pl.getUVW x = some ![u, v, w] ∧ pl.getPoint u v + w • pl.getNormal = x ∧
      (w = 0 ↔ pl.Contains x) := by
  have hn : pl.getNormal ⬝ᵥ pl.getNormal = 1 := by
    rw [Plane2.getNormal, lagrange, h1, h2, h12]; norm_num
  refine ⟨pl.dir1 ⬝ᵥ (x - pl.pos), pl.dir2 ⬝ᵥ (x - pl.pos), pl.getNormal ⬝ᵥ (x - pl.pos), ?_, ?_, ?_⟩
  · have a1 : assertNormalized pl.dir1 := by rw [assertNormalized, h1]; norm_num
    have a2 : assertNormalized pl.dir2 := by rw [assertNormalized, h2]; norm_num
    simp only [Plane2.getUVW]
    rw [if_pos ⟨a1, a2⟩]
  · simp only [Plane2.getPoint]
    have key : ∀ y : V3, (pl.dir1 ⬝ᵥ y) • pl.dir1 + (pl.dir2 ⬝ᵥ y) • pl.dir2 + (pl.getNormal ⬝ᵥ y) • pl.getNormal =
        y := by
      intro y
      have e1 : (y - ((pl.dir1 ⬝ᵥ y) • pl.dir1 + (pl.dir2 ⬝ᵥ y) • pl.dir2 + (pl.getNormal ⬝ᵥ y) • pl.getNormal)) ⬝ᵥ
          pl.dir1 = 0 := by
        simp only [sub_dotProduct, add_dotProduct, smul_dotProduct, smul_eq_mul, h1, dotProduct_comm pl.dir2 pl.dir1,
          h12, Plane2.getNormal, cross_dot_left, dotProduct_comm y]; ring
      have e2 : (y - ((pl.dir1 ⬝ᵥ y) • pl.dir1 + (pl.dir2 ⬝ᵥ y) • pl.dir2 + (pl.getNormal ⬝ᵥ y) • pl.getNormal)) ⬝ᵥ
          pl.dir2 = 0 := by
        simp only [sub_dotProduct, add_dotProduct, smul_dotProduct, smul_eq_mul, h2, h12, Plane2.getNormal,
          cross_dot_right, dotProduct_comm y]; ring
      have e3 : pl.getNormal ⬝ᵥ
          (y - ((pl.dir1 ⬝ᵥ y) • pl.dir1 + (pl.dir2 ⬝ᵥ y) • pl.dir2 + (pl.getNormal ⬝ᵥ y) • pl.getNormal)) = 0 := by
        simp only [dotProduct_sub, dotProduct_add, dotProduct_smul, smul_eq_mul, hn]
        simp only [Plane2.getNormal, cross_dot_left, cross_dot_right]; ring
      generalize hz : y - ((pl.dir1 ⬝ᵥ y) • pl.dir1 + (pl.dir2 ⬝ᵥ y) • pl.dir2 +
        (pl.getNormal ⬝ᵥ y) • pl.getNormal) = z at *
      have hl : crossProduct pl.getNormal z = 0 := by
        have : crossProduct (crossProduct pl.dir1 pl.dir2) z = (z ⬝ᵥ pl.dir1) • pl.dir2 - (z ⬝ᵥ pl.dir2) • pl.dir1 := by
          ext i; fin_cases i <;> simp [cross_apply, dot3] <;> ring
        rw [Plane2.getNormal, this, e1, e2]; simp
      have hla := lagrange pl.getNormal z
      rw [hl, e3, hn] at hla
      simp at hla
      have hz0 := dot_eq_zero hla.symm
      rw [hz0] at hz
      exact (sub_eq_zero.1 hz).symm
    have := key (x - pl.pos)
    calc pl.pos + (pl.dir1 ⬝ᵥ (x - pl.pos)) • pl.dir1 + (pl.dir2 ⬝ᵥ (x - pl.pos)) • pl.dir2 +
          (pl.getNormal ⬝ᵥ (x - pl.pos)) • pl.getNormal
        = pl.pos + ((pl.dir1 ⬝ᵥ (x - pl.pos)) • pl.dir1 + (pl.dir2 ⬝ᵥ (x - pl.pos)) • pl.dir2 +
          (pl.getNormal ⬝ᵥ (x - pl.pos)) • pl.getNormal) := by abel
      _ = x := by rw [this]; abel
  · constructor
    · intro hw
      refine ⟨pl.dir1 ⬝ᵥ (x - pl.pos), pl.dir2 ⬝ᵥ (x - pl.pos), ?_⟩
      have hl : crossProduct pl.getNormal (x - pl.pos - (pl.dir1 ⬝ᵥ (x - pl.pos)) • pl.dir1 -
          (pl.dir2 ⬝ᵥ (x - pl.pos)) • pl.dir2) = 0 := by
        have hc : ∀ z, crossProduct (crossProduct pl.dir1 pl.dir2) z =
            (z ⬝ᵥ pl.dir1) • pl.dir2 - (z ⬝ᵥ pl.dir2) • pl.dir1 := by
          intro z; ext i; fin_cases i <;> simp [cross_apply, dot3] <;> ring
        rw [Plane2.getNormal, hc]
        simp only [sub_dotProduct, smul_dotProduct, smul_eq_mul, h1, h2, h12, dotProduct_comm pl.dir2 pl.dir1,
          dotProduct_comm pl.dir1 x, dotProduct_comm pl.dir2 x, dotProduct_sub, dotProduct_comm pl.dir1 pl.pos,
          dotProduct_comm pl.dir2 pl.pos]
        simp
      have hw' : pl.getNormal ⬝ᵥ (x - pl.pos - (pl.dir1 ⬝ᵥ (x - pl.pos)) • pl.dir1 -
          (pl.dir2 ⬝ᵥ (x - pl.pos)) • pl.dir2) = 0 := by
        rw [dotProduct_sub, dotProduct_sub, dotProduct_smul, dotProduct_smul, hw, Plane2.getNormal, cross_dot_left,
          cross_dot_right]; simp
      have hla := lagrange pl.getNormal (x - pl.pos - (pl.dir1 ⬝ᵥ (x - pl.pos)) • pl.dir1 -
          (pl.dir2 ⬝ᵥ (x - pl.pos)) • pl.dir2)
      rw [hl, hw', hn] at hla
      simp only [dotProduct_zero, one_mul] at hla
      have h0 := dot_eq_zero (by linarith :
        (x - pl.pos - (pl.dir1 ⬝ᵥ (x - pl.pos)) • pl.dir1 - (pl.dir2 ⬝ᵥ (x - pl.pos)) • pl.dir2) ⬝ᵥ
        (x - pl.pos - (pl.dir1 ⬝ᵥ (x - pl.pos)) • pl.dir1 - (pl.dir2 ⬝ᵥ (x - pl.pos)) • pl.dir2) = 0)
      generalize pl.dir1 ⬝ᵥ (x - pl.pos) = u at *
      generalize pl.dir2 ⬝ᵥ (x - pl.pos) = v at *
      rw [← sub_eq_zero, ← h0]; abel
    · rintro ⟨u, v, rfl⟩
      rw [add_assoc, add_sub_cancel_left, dotProduct_add, dotProduct_smul, dotProduct_smul, Plane2.getNormal,
        cross_dot_left, cross_dot_right]
      simp

/-! ## Implicit planes -/

/-- `FromPositionNormal`, `Normalize`, `Flipped` and `ToImplicit`: the plane through the point orthogonal to the
normal; normalising and flipping keep the points, and give a unit normal, the opposite one. -/
theorem C80_implicit (pl : ImplicitPlane) (pos normal x : V3) (p2 : Plane2) :
    ((ImplicitPlane.fromPositionNormal pos normal).Contains x ↔ normal ⬝ᵥ (x - pos) = 0) ∧
      (pl.n ≠ 0 → (pl.normalize.Contains x ↔ pl.Contains x) ∧ pl.normalize.n ⬝ᵥ pl.normalize.n = 1 ∧
        ∃ k : ℝ, 0 < k ∧ pl.n = k • pl.normalize.n) ∧
      (pl.flipped.Contains x ↔ pl.Contains x) ∧ pl.flipped.n = -pl.n ∧
      (p2.Contains x → p2.toImplicit.Contains x) := by
  refine ⟨?_, ?_, ?_, rfl, ?_⟩
  · rw [contains_iff, dotProduct_sub, sub_eq_zero]; rfl
  · intro h
    have hp := nrm_pos h
    have hn : pl.normalize.n = (1 / nrm pl.n) • pl.n := by
      ext i; fin_cases i <;> simp [ImplicitPlane.normalize] <;> ring
    have hd : pl.normalize.d = (1 / nrm pl.n) * pl.d := by simp only [ImplicitPlane.normalize]; ring
    refine ⟨?_, ?_, nrm pl.n, hp, ?_⟩
    · rw [contains_iff, contains_iff, hn, hd, smul_dotProduct, smul_eq_mul]
      constructor
      · intro hh; exact mul_left_cancel₀ (one_div_ne_zero hp.ne') hh
      · intro hh; rw [hh]
    · rw [hn, ← normalize_of_ne h]; exact normalize_unit h
    · rw [hn, smul_smul, mul_one_div_cancel hp.ne', one_smul]
  · rw [contains_iff, contains_iff]
    simp only [ImplicitPlane.flipped, neg_dotProduct, neg_inj]
  · rintro ⟨u, v, rfl⟩
    rw [contains_iff]
    simp only [Plane2.toImplicit, ImplicitPlane.fromPositionNormal, Plane2.getNormal]
    rw [dotProduct_add, dotProduct_add, dotProduct_smul, dotProduct_smul, cross_dot_left, cross_dot_right]
    simp

/-- `GetClosestPoint`: the point of the plane with the least distance, and the only one. -/
theorem C80_closest {pl : ImplicitPlane} (h : pl.n ≠ 0) (v : V3) :
    pl.Contains (pl.getClosestPoint v) ∧
      ∀ x, pl.Contains x → x ≠ pl.getClosestPoint v → nrm (v - pl.getClosestPoint v) < nrm (v - x) := by
  have hd := dot_pos h
  refine ⟨?_, ?_⟩
  · rw [contains_iff]
    simp only [ImplicitPlane.getClosestPoint]
    rw [dotProduct_add, dotProduct_smul, smul_eq_mul, div_mul_cancel₀ _ hd.ne', dotProduct_comm pl.n v]
    ring
  · intro x hx hne
    rw [contains_iff] at hx
    rw [nrm_lt_iff]
    simp only [ImplicitPlane.getClosestPoint] at *
    generalize hk : (pl.d - v ⬝ᵥ pl.n) / (pl.n ⬝ᵥ pl.n) = k at *
    have hkd : k * (pl.n ⬝ᵥ pl.n) = pl.d - v ⬝ᵥ pl.n := by rw [← hk, div_mul_cancel₀ _ hd.ne']
    have hne' : x - (k • pl.n + v) ≠ 0 := sub_ne_zero.2 hne
    have hp := dot_pos hne'
    have e : (v - x) ⬝ᵥ (v - x) = (v - (k • pl.n + v)) ⬝ᵥ (v - (k • pl.n + v)) +
        (x - (k • pl.n + v)) ⬝ᵥ (x - (k • pl.n + v)) + 2 * k * (pl.n ⬝ᵥ x - v ⬝ᵥ pl.n - k * (pl.n ⬝ᵥ pl.n)) := by
      simp only [dot3, Pi.sub_apply, Pi.add_apply, Pi.smul_apply, smul_eq_mul]
      ring
    rw [e, hx, hkd]
    linarith

/-- `Get` is the value of the linear form of the plane: 0 on the plane, and for a unit normal the signed distance
to the closest point. -/
theorem C80_get {pl : ImplicitPlane} (h : pl.n ≠ 0) (x : V3) :
    pl.get x = pl.n ⬝ᵥ x - pl.d ∧ (pl.get x = 0 ↔ pl.Contains x) ∧
      (pl.n ⬝ᵥ pl.n = 1 → |pl.get x| = nrm (x - pl.getClosestPoint x)) := by
  have hd := dot_pos h
  have e : pl.get x = pl.n ⬝ᵥ x - pl.d := by
    have := (contains_iff pl _).1 (C80_closest h x).1
    rw [ImplicitPlane.get, dotProduct_sub, this]
  refine ⟨e, ?_, ?_⟩
  · rw [e, contains_iff, sub_eq_zero]
  · intro h1
    have : x - pl.getClosestPoint x = (pl.get x) • pl.n := by
      simp only [ImplicitPlane.getClosestPoint]
      rw [e, h1, div_one, dotProduct_comm x, ← sub_sub, sub_right_comm, sub_self, zero_sub, ← neg_smul, neg_sub]
    rw [this, nrm, smul_dotProduct, dotProduct_smul, h1]
    simp only [smul_eq_mul, mul_one]
    exact (Real.sqrt_mul_self_eq_abs _).symm

/-- `GetSignedDistance` is not the distance: for the plane z = 1 it gives 2 at the point (0,0,1) of the plane. -/
theorem C80_signed_distance_false :
    ∃ (pl : ImplicitPlane) (x : V3), pl = ImplicitPlane.fromPositionNormal ![0, 0, 1] ![0, 0, 1] ∧
      pl.Contains x ∧ pl.getSignedDistance x = 2 := by
  refine ⟨_, ![0, 0, 1], rfl, ?_, ?_⟩
  · rw [contains_iff]; rfl
  · simp [ImplicitPlane.getSignedDistance, ImplicitPlane.fromPositionNormal]; norm_num

/-- It is too large by twice the coefficient d, and so right for planes through the origin only. -/
theorem C80_signed_distance_partial {pl : ImplicitPlane} (h : pl.n ≠ 0) (x : V3) :
    pl.getSignedDistance x = pl.get x + 2 * pl.d ∧
      (pl.getSignedDistance x = pl.get x ↔ pl.Contains 0) := by
  have e := (C80_get h x).1
  have e1 : pl.getSignedDistance x = pl.get x + 2 * pl.d := by rw [e, ImplicitPlane.getSignedDistance]; ring
  refine ⟨e1, ?_⟩
  rw [e1, contains_iff, dotProduct_zero]
  constructor <;> intro hh <;> linarith

/-! ## Intersections -/

/-- `ImplicitPlane::Intersect`: if the planes are not parallel, the line consists of exactly the common points. -/
theorem C80_intersect {pl : ImplicitPlane} {p2 : Plane2} (h : pl.n ⬝ᵥ p2.dir1 ≠ 0 ∨ pl.n ⬝ᵥ p2.dir2 ≠ 0) (x : V3) :
    (pl.Contains x ∧ p2.Contains x) ↔ ∃ t, (pl.intersect p2).get t = x := by
  have key : ∀ u v : V3, pl.n ⬝ᵥ u ≠ 0 →
      ((pl.n ⬝ᵥ x = pl.d ∧ ∃ a b : ℝ, x = p2.pos + a • u + b • v) ↔
        ∃ t : ℝ, p2.pos + ((pl.d - pl.n ⬝ᵥ p2.pos) / (pl.n ⬝ᵥ u)) • u + t • (v - ((pl.n ⬝ᵥ v) / (pl.n ⬝ᵥ u)) • u) = x) := by
    intro u v hu
    constructor
    · rintro ⟨hx, a, b, rfl⟩
      refine ⟨b, ?_⟩
      have ha : a = (pl.d - pl.n ⬝ᵥ p2.pos) / (pl.n ⬝ᵥ u) - b * ((pl.n ⬝ᵥ v) / (pl.n ⬝ᵥ u)) := by
        rw [dotProduct_add, dotProduct_add, dotProduct_smul, dotProduct_smul, smul_eq_mul, smul_eq_mul] at hx
        field_simp
        linarith
      rw [ha]
      ext i; simp only [Pi.add_apply, Pi.sub_apply, Pi.smul_apply, smul_eq_mul]; ring
    · rintro ⟨t, rfl⟩
      refine ⟨?_, (pl.d - pl.n ⬝ᵥ p2.pos) / (pl.n ⬝ᵥ u) - t * ((pl.n ⬝ᵥ v) / (pl.n ⬝ᵥ u)), t, ?_⟩
      · simp only [dotProduct_add, dotProduct_sub, dotProduct_smul, smul_eq_mul]
        field_simp; ring
      · ext i; simp only [Pi.add_apply, Pi.sub_apply, Pi.smul_apply, smul_eq_mul]; ring
  rw [contains_iff]
  simp only [Plane2.Contains, ImplicitPlane.intersect, Line.get]
  by_cases hc : |pl.n ⬝ᵥ p2.dir1| < |pl.n ⬝ᵥ p2.dir2|
  · rw [if_pos hc]
    simp only
    have hne : pl.n ⬝ᵥ p2.dir2 ≠ 0 := by
      intro h0; rw [h0, abs_zero] at hc; exact absurd hc (not_lt.2 (abs_nonneg _))
    rw [← key p2.dir2 p2.dir1 hne]
    constructor
    · rintro ⟨h1, u, v, h2⟩; exact ⟨h1, v, u, by rw [h2]; abel⟩
    · rintro ⟨h1, u, v, h2⟩; exact ⟨h1, v, u, by rw [h2]; abel⟩
  · rw [if_neg hc]
    simp only
    have hne : pl.n ⬝ᵥ p2.dir1 ≠ 0 := by
      intro h0
      rw [h0, abs_zero, not_lt] at hc
      have := abs_nonpos_iff.1 hc
      rcases h with h | h
      · exact h h0
      · exact h this
    exact key p2.dir1 p2.dir2 hne

/-- `intersectSegmentPlane`: a point is reported exactly if the ends are on different sides (the plane itself
counting as the side of the normal) and not nearly parallel; it is then the only point of the segment in the plane. -/
theorem C80_segment_plane {p0 p1 : V3} {pl : Rot.Plane} (hD : 1e-6 ≤ |pl.n ⬝ᵥ (p1 - p0)|) :
    ((∃ x, intersectSegmentPlane p0 p1 pl = some x) ↔
      ((0 ≤ (p0 - pl.p) ⬝ᵥ pl.n ∧ (p1 - pl.p) ⬝ᵥ pl.n < 0) ∨ ((p0 - pl.p) ⬝ᵥ pl.n < 0 ∧ 0 ≤ (p1 - pl.p) ⬝ᵥ pl.n))) ∧
    (∀ x, intersectSegmentPlane p0 p1 pl = some x →
      OnSegment p0 p1 x ∧ planeContains pl x ∧ ∀ y, OnSegment p0 p1 y → planeContains pl y → y = x) := by
  have hne : pl.n ⬝ᵥ (p1 - p0) ≠ 0 := by
    intro h; rw [h, abs_zero] at hD; norm_num at hD
  have e0 : (p0 - pl.p) ⬝ᵥ pl.n = pl.n ⬝ᵥ (p0 - pl.p) := dotProduct_comm _ _
  have e1 : (p1 - pl.p) ⬝ᵥ pl.n = pl.n ⬝ᵥ (p1 - p0) + pl.n ⬝ᵥ (p0 - pl.p) := by
    rw [dotProduct_comm, ← dotProduct_add]; congr 1; abel
  have hpt : ∀ s : ℝ, (p0 + s • (p1 - p0) - pl.p) ⬝ᵥ pl.n = s * (pl.n ⬝ᵥ (p1 - p0)) + pl.n ⬝ᵥ (p0 - pl.p) := by
    intro s
    rw [show p0 + s • (p1 - p0) - pl.p = s • (p1 - p0) + (p0 - pl.p) by abel, add_dotProduct, smul_dotProduct,
      smul_eq_mul, dotProduct_comm (p1 - p0), dotProduct_comm (p0 - pl.p)]
  have hseg : ∀ s : ℝ, (1 - s) • p0 + s • p1 = p0 + s • (p1 - p0) := by
    intro s; ext i; simp only [Pi.add_apply, Pi.sub_apply, Pi.smul_apply, smul_eq_mul]; ring
  simp only [intersectSegmentPlane, onNormalPointingSide, planeContains, OnSegment]
  simp only [hseg]
  rw [e0, e1]
  generalize pl.n ⬝ᵥ (p1 - p0) = D at *
  generalize pl.n ⬝ᵥ (p0 - pl.p) = W at *
  rw [if_neg (not_lt.2 hD)]
  refine ⟨?_, ?_⟩
  · constructor
    · rintro ⟨x, hx⟩
      split_ifs at hx with h1 h2
      by_cases h0 : W ≥ 0
      · left
        refine ⟨h0, ?_⟩
        by_contra hc
        push Not at hc
        exact h1 ⟨fun _ => hc, fun _ => h0⟩
      · right
        push Not at h0
        refine ⟨h0, ?_⟩
        by_contra hc
        exact h1 ⟨fun h => absurd h (not_le.2 h0), fun h => absurd h hc⟩
    · intro hx
      have hsides : ¬ (W ≥ 0 ↔ D + W ≥ 0) := by
        intro hiff
        rcases hx with ⟨a, b⟩ | ⟨a, b⟩
        · have := hiff.1 a; linarith
        · have := hiff.2 b; linarith
      rw [if_neg hsides]
      have hrange : ¬ (-W / D < 0 ∨ -W / D > 1) := by
        push Not
        rcases hx with ⟨a, b⟩ | ⟨a, b⟩
        · have hDn : D < 0 := by linarith
          exact ⟨div_nonneg_of_nonpos (by linarith) hDn.le, by rw [div_le_one_of_neg hDn]; linarith⟩
        · have hDp : 0 < D := by linarith
          exact ⟨div_nonneg (by linarith) hDp.le, by rw [div_le_one hDp]; linarith⟩
      rw [if_neg hrange]
      exact ⟨_, rfl⟩
  · intro x hx
    split_ifs at hx with h1 h2
    push Not at h2
    simp only [Option.some.injEq] at hx
    subst hx
    refine ⟨⟨-W / D, h2.1, h2.2, rfl⟩, ?_, ?_⟩
    · rw [hpt, div_mul_cancel₀ _ hne]; ring
    · rintro y ⟨s, -, -, rfl⟩ hy
      rw [hpt] at hy
      have : s = -W / D := by rw [eq_div_iff hne]; linarith
      rw [this]

theorem nearest_get {l : Line} (h : l.dir ⬝ᵥ l.dir = 1) (p : V3) :
    nearestPointOnLine l p = l.getClosestPoint p := by
  have hn : nrm l.dir = 1 := by rw [nrm, h, Real.sqrt_one]
  rw [nearestPointOnLine, hn, if_pos (by norm_num)]
  simp only [Line.getClosestPoint]
  rw [h, div_one, show l.pos - p = -(p - l.pos) by abel, neg_dotProduct, dotProduct_comm l.dir, neg_smul,
    sub_neg_eq_add]

/-- `intersectPlanes`, for unit normals that are not (nearly) parallel: a line of unit direction, with exactly the
points common to both planes, and the point given for it is its point nearest to the point of the first plane. -/
theorem C80_intersect_planes {p1 p2 : Rot.Plane} (h1 : p1.n ⬝ᵥ p1.n = 1) (h2 : p2.n ⬝ᵥ p2.n = 1)
    (hd : 1e-9 ≤ 1 - (p1.n ⬝ᵥ p2.n) ^ 2) (hd1 : 1e-6 ≤ |p1.n ⬝ᵥ p2.n - 1|) :
    (∀ x, (planeContains p1 x ∧ planeContains p2 x) ↔ ∃ t, (intersectPlanes p1 p2).get t = x) ∧
      (intersectPlanes p1 p2).dir ⬝ᵥ (intersectPlanes p1 p2).dir = 1 ∧
      (∀ t, nrm (p1.p - (intersectPlanes p1 p2).pos) ≤ nrm (p1.p - (intersectPlanes p1 p2).get t)) := by
  have hcc : crossProduct p1.n p2.n ⬝ᵥ crossProduct p1.n p2.n = 1 - (p1.n ⬝ᵥ p2.n) ^ 2 := by
    rw [lagrange, h1, h2]; ring
  have hne : crossProduct p1.n p2.n ≠ 0 := by
    intro h0; rw [h0] at hcc; simp at hcc; rw [← hcc] at hd; norm_num at hd
  have hbig : nrm (crossProduct p1.n p2.n) > 1e-9 := by
    have hp := nrm_pos hne
    have := nrm_mul_self (crossProduct p1.n p2.n)
    rw [hcc] at this
    by_contra hc
    push Not at hc
    have : nrm (crossProduct p1.n p2.n) * nrm (crossProduct p1.n p2.n) ≤ 1e-9 * 1e-9 :=
      mul_le_mul hc hc hp.le (by norm_num)
    norm_num at this hd
    linarith
  have hbase : ∀ q, baseLine q (crossProduct p1.n p2.n) = ⟨q, normalize (crossProduct p1.n p2.n)⟩ := by
    intro q; rw [baseLine, if_pos hbig]
  have hu := normalize_unit hne
  have hk := smul_normalize hne
  have hkn := nrm_pos hne
  set dir := normalize (crossProduct p1.n p2.n) with hdir
  -- the position before it is moved
  obtain ⟨q, hq, hI⟩ : ∃ q : V3, (p1.n ⬝ᵥ q = p1.n ⬝ᵥ p1.p ∧ p2.n ⬝ᵥ q = p2.n ⬝ᵥ p2.p) ∧
      intersectPlanes p1 p2 = ⟨(⟨q, dir⟩ : Line).getClosestPoint p1.p, dir⟩ := by
    have hdet : 1 * 1 - (p1.n ⬝ᵥ p2.n) * (p1.n ⬝ᵥ p2.n) ≠ 0 := by
      intro h0
      have : 1 - (p1.n ⬝ᵥ p2.n) ^ 2 = 0 := by linarith [sq (p1.n ⬝ᵥ p2.n)]
      rw [this] at hd; norm_num at hd
    refine ⟨((p1.n ⬝ᵥ p1.p * 1 - p2.n ⬝ᵥ p2.p * (p1.n ⬝ᵥ p2.n)) / (1 * 1 - (p1.n ⬝ᵥ p2.n) * (p1.n ⬝ᵥ p2.n))) • p1.n +
      ((p2.n ⬝ᵥ p2.p * 1 - p1.n ⬝ᵥ p1.p * (p1.n ⬝ᵥ p2.n)) / (1 * 1 - (p1.n ⬝ᵥ p2.n) * (p1.n ⬝ᵥ p2.n))) • p2.n, ?_, ?_⟩
    · simp only [dotProduct_add, dotProduct_smul, smul_eq_mul, h1, h2, dotProduct_comm p2.n p1.n]
      generalize p1.n ⬝ᵥ p2.n = c at *
      generalize p1.n ⬝ᵥ p1.p = d1 at *
      generalize p2.n ⬝ᵥ p2.p = d2 at *
      constructor
      · field_simp; ring
      · field_simp; ring
    · simp only [intersectPlanes]
      rw [if_neg (not_lt.2 hd1), h1, h2, if_neg, hbase, hbase, nearest_get hu]
      rw [not_lt, abs_of_nonneg]
      · linarith [sq (p1.n ⬝ᵥ p2.n)]
      · have : (0 : ℝ) ≤ 1e-9 := by norm_num
        linarith [sq (p1.n ⬝ᵥ p2.n)]
  have hdir0 : dir ≠ 0 := by intro h0; rw [h0] at hu; simp at hu
  have hcl := C79_closest_point (l := ⟨q, dir⟩) hdir0 p1.p
  have d1 : p1.n ⬝ᵥ dir = 0 := by
    have : p1.n ⬝ᵥ (nrm (crossProduct p1.n p2.n) • dir) = 0 := by rw [hk]; exact dot_self_cross _ _
    rw [dotProduct_smul, smul_eq_mul] at this
    exact (mul_eq_zero.1 this).resolve_left hkn.ne'
  have d2 : p2.n ⬝ᵥ dir = 0 := by
    have : p2.n ⬝ᵥ (nrm (crossProduct p1.n p2.n) • dir) = 0 := by rw [hk]; exact dot_cross_self _ _
    rw [dotProduct_smul, smul_eq_mul] at this
    exact (mul_eq_zero.1 this).resolve_left hkn.ne'
  rw [hI]
  have hget := hcl.1
  generalize (⟨q, dir⟩ : Line).getT p1.p = T at *
  have hgetq : ∀ t, (⟨(⟨q, dir⟩ : Line).getClosestPoint p1.p, dir⟩ : Line).get t = (⟨q, dir⟩ : Line).get (T + t) := by
    intro t
    rw [← hget]
    ext i; simp only [Line.get, Pi.add_apply, Pi.smul_apply, smul_eq_mul]; ring
  refine ⟨?_, hu, ?_⟩
  · intro x
    simp only [planeContains, sub_dotProduct]
    rw [dotProduct_comm x, dotProduct_comm x, dotProduct_comm p1.p, dotProduct_comm p2.p, sub_eq_zero, sub_eq_zero,
      ← hq.1, ← hq.2]
    constructor
    · rintro ⟨a, b⟩
      -- the difference is a multiple of the cross product
      have ea : p1.n ⬝ᵥ (x - q) = 0 := by rw [dotProduct_sub, a, sub_self]
      have eb : p2.n ⬝ᵥ (x - q) = 0 := by rw [dotProduct_sub, b, sub_self]
      have hl : crossProduct dir (x - q) = 0 := by
        have : crossProduct (crossProduct p1.n p2.n) (x - q) =
            (p1.n ⬝ᵥ (x - q)) • p2.n - (p2.n ⬝ᵥ (x - q)) • p1.n := by
          ext i; fin_cases i <;> simp [cross_apply, dot3] <;> ring
        rw [ea, eb, ← hk] at this
        simp only [map_smul, LinearMap.smul_apply, zero_smul, sub_self] at this
        exact (smul_eq_zero.1 this).resolve_left hkn.ne'
      refine ⟨dir ⬝ᵥ (x - q) - T, ?_⟩
      rw [hgetq]
      simp only [Line.get, add_sub_cancel]
      have : x - q - (dir ⬝ᵥ (x - q)) • dir = 0 := by
        apply dot_eq_zero
        have hla := lagrange dir (x - q)
        rw [hl, hu] at hla
        simp only [dotProduct_zero, one_mul] at hla
        simp only [sub_dotProduct (x - q), dotProduct_sub _ (x - q), smul_dotProduct, dotProduct_smul, hu, smul_eq_mul,
          dotProduct_comm (x - q) dir]
        linear_combination -hla
      rw [eq_comm, ← sub_eq_zero, ← this]; abel
    · rintro ⟨t, rfl⟩
      rw [hgetq]
      simp only [Line.get, dotProduct_add, dotProduct_smul, d1, d2]
      simp
  · intro t
    rw [hgetq]
    exact hcl.2.1 (T + t)

/-- The hypotheses are met. -/
example : ∃ p1 p2 : Rot.Plane, p1.n ⬝ᵥ p1.n = 1 ∧ p2.n ⬝ᵥ p2.n = 1 ∧ 1e-9 ≤ 1 - (p1.n ⬝ᵥ p2.n) ^ 2 ∧
    1e-6 ≤ |p1.n ⬝ᵥ p2.n - 1| :=
  ⟨⟨![1, 2, 3], ![0, 0, 1]⟩, ⟨![4, 5, 6], ![1, 0, 0]⟩, by simp, by simp, by simp; norm_num,
    by simp; norm_num⟩

/-! ## Limiting vectors -/

theorem limitScale_of_small : ∀ (l : List (ℝ × ℝ)) (s : ℝ), (∀ p ∈ l, |p.1| ≤ p.2) → limitScale l s = s
  | [], _, _ => rfl
  | (v, m) :: rest, s, h => by
    rw [limitScale, if_neg (by
      intro hc; exact absurd (h (v, m) List.mem_cons_self) (not_le.2 hc.1))]
    exact limitScale_of_small rest s (fun p hp => h p (List.mem_cons_of_mem _ hp))

/-- `LimitVectorLength` does not limit: (2) with the limit 1 becomes (4). -/
theorem C81_limit_false : limitVectorLength [2] [1] = some [4] := by
  simp [limitVectorLength, limitScale]
  norm_num

theorem limitScale_le : ∀ (l : List (ℝ × ℝ)) (s : ℝ), 0 < s → (∀ p ∈ l, 0 < p.2) →
    0 < limitScale l s ∧ limitScale l s ≤ s ∧ ∀ p ∈ l, |p.1| > p.2 → limitScale l s * |p.1| ≤ p.2
  | [], s, hs, _ => ⟨hs, le_refl _, by simp⟩
  | (v, m) :: rest, s, hs, h => by
    rw [limitScale]
    have hm : 0 < m := h (v, m) List.mem_cons_self
    have hr : ∀ p ∈ rest, 0 < p.2 := fun p hp => h p (List.mem_cons_of_mem _ hp)
    by_cases hc : |v| > m ∧ m ≥ 0
    · rw [if_pos hc]
      have hv : 0 < |v| := lt_trans hm hc.1
      obtain ⟨i1, i2, i3⟩ := limitScale_le rest (min s (m / |v|)) (lt_min hs (div_pos hm hv)) hr
      refine ⟨i1, le_trans i2 (min_le_left _ _), ?_⟩
      intro p hp hgt
      rcases List.mem_cons.1 hp with hp | hp
      · subst hp
        have : limitScale rest (min s (m / |v|)) ≤ m / |v| := le_trans i2 (min_le_right _ _)
        rw [le_div_iff₀ hv] at this
        exact this
      · exact i3 p hp hgt
    · rw [if_neg hc]
      obtain ⟨i1, i2, i3⟩ := limitScale_le rest s hs hr
      refine ⟨i1, i2, ?_⟩
      intro p hp hgt
      rcases List.mem_cons.1 hp with hp | hp
      · subst hp; exact absurd ⟨hgt, hm.le⟩ hc
      · exact i3 p hp hgt

/-- For every vector with a component over its (positive) limit the result is the vector divided by a number
below 1, with which a multiplication would have kept the limits: every component but 0 gets larger. -/
theorem C81_limit_grows {vec maxLen : List ℝ} (hl : maxLen.length = vec.length) (h1 : maxLen.length ≠ 1)
    (hm : ∀ p ∈ vec.zip maxLen, 0 < p.2) (hex : ∃ p ∈ vec.zip maxLen, |p.1| > p.2) :
    ∃ scale : ℝ, 0 < scale ∧ scale < 1 ∧ limitVectorLength vec maxLen = some (vec.map (· / scale)) ∧
      (∀ p ∈ vec.zip maxLen, |p.1 * scale| ≤ p.2) ∧ (∀ v ∈ vec, v ≠ 0 → |v| < |v / scale|) := by
  obtain ⟨i1, i2, i3⟩ := limitScale_le (vec.zip maxLen) 1 one_pos hm
  have hlt : limitScale (vec.zip maxLen) 1 < 1 := by
    obtain ⟨p, hp, hgt⟩ := hex
    have := i3 p hp hgt
    have hp0 := hm p hp
    by_contra hc
    push Not at hc
    nlinarith
  refine ⟨limitScale (vec.zip maxLen) 1, i1, hlt, ?_, ?_, ?_⟩
  · rw [limitVectorLength, if_neg (by tauto)]
    simp only [if_neg h1]
  · intro p hp
    rw [abs_mul, abs_of_pos i1]
    by_cases hgt : |p.1| > p.2
    · rw [mul_comm]; exact i3 p hp hgt
    · push Not at hgt
      nlinarith [abs_nonneg p.1]
  · intro v _ hv
    rw [abs_div, abs_of_pos i1, lt_div_iff₀ i1]
    nlinarith [abs_pos.2 hv]

/-- What holds: the exception for lengths that do not match, and vectors within the limits are unchanged. -/
theorem C81_limit_partial (vec maxLen : List ℝ) :
    (limitVectorLength vec maxLen = none ↔ maxLen.length ≠ 1 ∧ maxLen.length ≠ vec.length) ∧
      (maxLen.length = vec.length → maxLen.length ≠ 1 → (∀ p ∈ vec.zip maxLen, |p.1| ≤ p.2) →
        limitVectorLength vec maxLen = some vec) ∧
      (∀ m, maxLen = [m] → (∀ v ∈ vec, |v| ≤ m) → limitVectorLength vec maxLen = some vec) := by
  refine ⟨?_, ?_, ?_⟩
  · rw [limitVectorLength]
    split
    · next h => simp [h]
    · next h => simp; push Not at h; tauto
  · intro h1 h2 h3
    rw [limitVectorLength, if_neg (by tauto)]
    simp only [if_neg h2]
    rw [limitScale_of_small _ _ h3]
    simp
  · rintro m rfl h
    rw [limitVectorLength, if_neg (by simp)]
    simp only [List.length_singleton, if_true, List.headD_cons]
    rw [limitScale_of_small]
    · simp
    · rintro ⟨v, k⟩ hp
      obtain ⟨a, b⟩ := List.of_mem_zip hp
      rw [(List.mem_replicate.1 b).2]
      exact h v a

end Simox.Mth
