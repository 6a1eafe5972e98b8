import Verif.Mth.PoseLemmas
import Verif.Rot.QuatProps

/-!
# Vectors, angles and coordinates: properties
-/

namespace Simox.Mth

open Matrix Jac Rot

theorem nrm_nonneg (v : V3) : 0 ≤ nrm v := Real.sqrt_nonneg _

theorem cross_dot_left (a b : V3) : crossProduct a b ⬝ᵥ a = 0 := by
  rw [dotProduct_comm]; exact dot_self_cross a b

theorem cross_dot_right (a b : V3) : crossProduct a b ⬝ᵥ b = 0 := by
  rw [dotProduct_comm]; exact dot_cross_self a b

/-- The first direction of `GetOrthonormalVectors` before it is normalised does not vanish. -/
theorem ortho_ne {n : V3} (hn : n ⬝ᵥ n = 1) :
    (if nrm (crossProduct n ![0, 0, 1]) < 0.1 then crossProduct n ![0, 1, 0] else crossProduct n ![0, 0, 1]) ≠ 0 := by
  split
  · next h =>
    intro h0
    have e0 := congrFun h0 0
    have e2 := congrFun h0 2
    simp [cross_apply] at e0 e2
    rw [dot3, e0, e2] at hn
    have hh : nrm (crossProduct n ![0, 0, 1]) = 1 := by
      simp only [nrm, dot3, cross_apply]
      simp [e0, e2]
      linarith
    rw [hh] at h
    norm_num at h
  · next h =>
    intro h0
    rw [h0] at h
    simp [nrm] at h
    norm_num at h

/-- `GetOrthonormalVectors`: for every vector but 0 the result is its direction, and with the two directions
it makes a right-handed orthonormal frame. -/
theorem C78_orthonormal {vec : V3} (h : vec ≠ 0) :
    ∃ n d1 d2, getOrthonormalVectors vec = (n, d1, d2) ∧
      (∃ k : ℝ, 0 < k ∧ vec = k • n) ∧
      n ⬝ᵥ n = 1 ∧ d1 ⬝ᵥ d1 = 1 ∧ d2 ⬝ᵥ d2 = 1 ∧ n ⬝ᵥ d1 = 0 ∧ n ⬝ᵥ d2 = 0 ∧ d1 ⬝ᵥ d2 = 0 ∧
      crossProduct d1 d2 = n ∧ crossProduct n d1 = d2 ∧ crossProduct d2 n = d1 := by
  have hn := normalize_unit h
  have hc := ortho_ne hn
  have hk := smul_normalize h
  have hkp := nrm_pos h
  have hdot : normalize vec ⬝ᵥ (if nrm (crossProduct (normalize vec) ![0, 0, 1]) < 0.1 then
      crossProduct (normalize vec) ![0, 1, 0] else crossProduct (normalize vec) ![0, 0, 1]) = 0 := by
    split <;> exact dot_self_cross _ _
  simp only [getOrthonormalVectors]
  generalize normalize vec = n at *
  generalize (if nrm (crossProduct n ![0, 0, 1]) < 0.1 then crossProduct n ![0, 1, 0]
    else crossProduct n ![0, 0, 1]) = c at *
  have hd1 : (-normalize c) ⬝ᵥ (-normalize c) = 1 := by rw [neg_dotProduct_neg]; exact normalize_unit hc
  have hnd : n ⬝ᵥ (-normalize c) = 0 := by
    rw [dotProduct_neg, normalize_of_ne hc, dotProduct_smul, hdot]; simp
  generalize -normalize c = d at *
  have hu : crossProduct n d ⬝ᵥ crossProduct n d = 1 := by rw [lagrange, hn, hd1, hnd]; norm_num
  rw [normalize_of_unit hu]
  refine ⟨n, d, crossProduct n d, rfl, ⟨nrm vec, hkp, hk.symm⟩, hn, hd1, hu, hnd, dot_self_cross n d,
    dot_cross_self n d, ?_, rfl, ?_⟩
  · rw [dot3] at hd1 hnd
    ext i
    fin_cases i <;> simp [cross_apply]
    · linear_combination n 0 * hd1 - d 0 * hnd
    · linear_combination n 1 * hd1 - d 1 * hnd
    · linear_combination n 2 * hd1 - d 2 * hnd
  · rw [dot3] at hn hnd
    ext i
    fin_cases i <;> simp [cross_apply]
    · linear_combination d 0 * hn - n 0 * hnd
    · linear_combination d 1 * hn - n 1 * hnd
    · linear_combination d 2 * hn - n 2 * hnd

theorem cross_norm_sq (a b : V3) : (a ⬝ᵥ b) * (a ⬝ᵥ b) + nrm (crossProduct a b) * nrm (crossProduct a b) =
    (nrm a * nrm b) * (nrm a * nrm b) := by
  rw [nrm_mul_self, lagrange]
  have := nrm_mul_self a
  have h2 := nrm_mul_self b
  linear_combination (- (b ⬝ᵥ b)) * this - nrm a * nrm a * h2

/-- `SmallestAngle` and `getAngle`: the angle θ in [0,π] with a·b = |a||b| cos θ, the same from both
functions, whatever the order and the (positive) length of the arguments. -/
theorem C78_angle {a b : V3} (ha : a ≠ 0) (hb : b ≠ 0) :
    0 ≤ smallestAngle a b ∧ smallestAngle a b ≤ Real.pi ∧
      nrm a * nrm b * Real.cos (smallestAngle a b) = a ⬝ᵥ b ∧
      nrm a * nrm b * Real.sin (smallestAngle a b) = nrm (crossProduct a b) ∧
      getAngleVec a b = smallestAngle a b ∧ smallestAngle b a = smallestAngle a b ∧
      (∀ k : ℝ, 0 < k → smallestAngle (k • a) b = smallestAngle a b) := by
  have key : ∀ {a b : V3}, a ≠ 0 → b ≠ 0 → 0 ≤ smallestAngle a b ∧ smallestAngle a b ≤ Real.pi ∧
      nrm a * nrm b * Real.cos (smallestAngle a b) = a ⬝ᵥ b ∧
      nrm a * nrm b * Real.sin (smallestAngle a b) = nrm (crossProduct a b) := by
    intro a b ha hb
    have hp : 0 < nrm a * nrm b := mul_pos (nrm_pos ha) (nrm_pos hb)
    have hs : Real.sqrt ((a ⬝ᵥ b) * (a ⬝ᵥ b) + nrm (crossProduct a b) * nrm (crossProduct a b)) =
        nrm a * nrm b := by rw [cross_norm_sq]; exact Real.sqrt_mul_self hp.le
    have h1 := cos_atan2 (nrm (crossProduct a b)) (a ⬝ᵥ b)
    have h2 := sin_atan2 (nrm (crossProduct a b)) (a ⬝ᵥ b)
    rw [hs] at h1 h2
    refine ⟨?_, atan2_le _ _, h1, h2⟩
    exact Complex.arg_nonneg_iff.2 (nrm_nonneg _)
  have inj : ∀ {a b a' b' : V3}, a ≠ 0 → b ≠ 0 → a' ≠ 0 → b' ≠ 0 →
      (a ⬝ᵥ b) * (nrm a' * nrm b') = (a' ⬝ᵥ b') * (nrm a * nrm b) → smallestAngle a b = smallestAngle a' b' := by
    intro a b a' b' ha hb ha' hb' h
    obtain ⟨k1, k2, k3, -⟩ := key ha hb
    obtain ⟨l1, l2, l3, -⟩ := key ha' hb'
    apply Real.injOn_cos ⟨k1, k2⟩ ⟨l1, l2⟩
    have hp : 0 < nrm a * nrm b := mul_pos (nrm_pos ha) (nrm_pos hb)
    have hp' : 0 < nrm a' * nrm b' := mul_pos (nrm_pos ha') (nrm_pos hb')
    rw [← k3, ← l3] at h
    have : (nrm a * nrm b) * (nrm a' * nrm b') *
        (Real.cos (smallestAngle a b) - Real.cos (smallestAngle a' b')) = 0 := by linear_combination h
    rcases mul_eq_zero.1 this with h | h
    · exact absurd h (mul_pos hp hp').ne'
    · exact sub_eq_zero.1 h
  obtain ⟨h0, hpi, hcos, hsin⟩ := key ha hb
  have hp : 0 < nrm a * nrm b := mul_pos (nrm_pos ha) (nrm_pos hb)
  refine ⟨h0, hpi, hcos, hsin, ?_, ?_, ?_⟩
  · have hr : (a ⬝ᵥ b) / (nrm a * nrm b) = Real.cos (smallestAngle a b) := by
      rw [← hcos, mul_div_cancel_left₀ _ hp.ne']
    simp only [getAngleVec]
    rw [hr]
    have h1 := Real.neg_one_le_cos (smallestAngle a b)
    have h2 := Real.cos_le_one (smallestAngle a b)
    rw [if_neg (show ¬ Real.cos (smallestAngle a b) < -1 by linarith), if_neg (by linarith)]
    exact Real.arccos_cos h0 hpi
  · apply inj hb ha ha hb
    rw [dotProduct_comm b a]; ring
  · intro k hk
    have hka : k • a ≠ 0 := smul_ne_zero hk.ne' ha
    have hnk : nrm (k • a) = k * nrm a := by
      simp only [nrm, smul_dotProduct, dotProduct_smul, smul_eq_mul]
      rw [show k * (k * (a ⬝ᵥ a)) = (k * k) * (a ⬝ᵥ a) by ring, Real.sqrt_mul (mul_self_nonneg k),
        Real.sqrt_mul_self hk.le]
    apply inj hka hb ha hb
    rw [hnk, smul_dotProduct, smul_eq_mul]; ring

/-- Spherical coordinates of a point not nearer than 1e-8 to the origin: the radius is its distance, the
angles are in [0,π] and (−π,π], and `toPosition` (`CartesianFromSphere`) gives the point back. -/
theorem C78_spherical {pos : V3} (h : 1e-8 ≤ nrm pos) :
    ∃ r theta phi, toSphericalCoords pos = (r, theta, phi) ∧ r = nrm pos ∧ 0 ≤ theta ∧ theta ≤ Real.pi ∧
      -Real.pi < phi ∧ phi ≤ Real.pi ∧ cartesianFromSphere r theta phi = pos := by
  refine ⟨nrm pos, Real.arccos (pos 2 / nrm pos), atan2 (pos 1) (pos 0), ?_, rfl, Real.arccos_nonneg _,
    Real.arccos_le_pi _, atan2_lt _ _, atan2_le _ _, ?_⟩
  · simp only [toSphericalCoords]; rw [if_neg (not_lt.2 h)]
  · have hr : 0 < nrm pos := lt_of_lt_of_le (by norm_num) h
    have hsq := nrm_mul_self pos
    rw [dot3] at hsq
    generalize nrm pos = r at *
    have hx := cos_atan2 (pos 1) (pos 0)
    have hy := sin_atan2 (pos 1) (pos 0)
    have hle : pos 2 * pos 2 ≤ r * r := by nlinarith [mul_self_nonneg (pos 0), mul_self_nonneg (pos 1)]
    have hab := abs_le_of_sq_le_sq' (by nlinarith : pos 2 ^ 2 ≤ r ^ 2) hr.le
    have h1 : -1 ≤ pos 2 / r := by rw [le_div_iff₀ hr]; linarith [hab.1]
    have h2 : pos 2 / r ≤ 1 := by rw [div_le_iff₀ hr]; linarith [hab.2]
    have hs : r * Real.sin (Real.arccos (pos 2 / r)) = Real.sqrt (pos 0 * pos 0 + pos 1 * pos 1) := by
      rw [Real.sin_arccos]
      rw [show pos 0 * pos 0 + pos 1 * pos 1 = (r * r) * (1 - (pos 2 / r) ^ 2) by field_simp; linarith,
        Real.sqrt_mul (mul_self_nonneg r), Real.sqrt_mul_self hr.le]
    ext i
    fin_cases i <;> simp [cartesianFromSphere]
    · rw [hs, hx]
    · rw [hs, hy]
    · rw [Real.cos_arccos h1 h2]; field_simp

/-- The other way round: the coordinates are those the point was made of. -/
theorem C78_spherical_back {r theta phi : ℝ} (hr : 1e-8 ≤ r) (h1 : 0 < theta) (h2 : theta < Real.pi)
    (h3 : -Real.pi < phi) (h4 : phi ≤ Real.pi) :
    toSphericalCoords (cartesianFromSphere r theta phi) = (r, theta, phi) ∧
      nrm (cartesianFromSphere r theta phi) = r := by
  have hr0 : 0 < r := lt_of_lt_of_le (by norm_num) hr
  have hn : nrm (cartesianFromSphere r theta phi) = r := by
    simp only [nrm, dot3, cartesianFromSphere]
    simp
    rw [show r * Real.sin theta * Real.cos phi * (r * Real.sin theta * Real.cos phi) +
      r * Real.sin theta * Real.sin phi * (r * Real.sin theta * Real.sin phi) +
      r * Real.cos theta * (r * Real.cos theta) = r * r by
        have a1 := Real.sin_sq_add_cos_sq theta
        have a2 := Real.sin_sq_add_cos_sq phi
        linear_combination (r ^ 2 * Real.sin theta ^ 2) * a2 + r ^ 2 * a1]
    exact Real.sqrt_mul_self hr0.le
  refine ⟨?_, hn⟩
  simp only [toSphericalCoords]
  rw [hn, if_neg (not_lt.2 hr)]
  have e2 : (cartesianFromSphere r theta phi) 2 / r = Real.cos theta := by
    simp [cartesianFromSphere]; field_simp
  have e1 : (cartesianFromSphere r theta phi) 1 = r * Real.sin theta * Real.sin phi := by simp [cartesianFromSphere]
  have e0 : (cartesianFromSphere r theta phi) 0 = r * Real.sin theta * Real.cos phi := by simp [cartesianFromSphere]
  rw [e2, e1, e0, Real.arccos_cos h1.le h2.le,
    atan2_cos_sin (mul_pos hr0 (Real.sin_pos_of_pos_of_lt_pi h1 h2)) h3 h4]

/-- `CartesianFromCylinder`: the point at the height given, at the distance |radius| from the z axis, and for a
positive radius in the direction of the angle. -/
theorem C78_cylinder (radius angle height : ℝ) :
    (cartesianFromCylinder radius angle height) 2 = height ∧
      Real.sqrt ((cartesianFromCylinder radius angle height) 0 ^ 2 +
        (cartesianFromCylinder radius angle height) 1 ^ 2) = |radius| ∧
      (0 < radius → -Real.pi < angle → angle ≤ Real.pi →
        atan2 ((cartesianFromCylinder radius angle height) 1) ((cartesianFromCylinder radius angle height) 0) =
          angle) := by
  refine ⟨by simp [cartesianFromCylinder], ?_, ?_⟩
  · simp [cartesianFromCylinder]
    rw [show (radius * Real.cos angle) ^ 2 + (radius * Real.sin angle) ^ 2 = radius ^ 2 by
      have := Real.sin_sq_add_cos_sq angle
      linear_combination radius ^ 2 * this]
    exact Real.sqrt_sq_eq_abs radius
  · intro h h1 h2
    simp [cartesianFromCylinder]
    exact atan2_cos_sin h h1 h2

/-- `getTriangleArea` is half the length of the cross product of two sides: for every triangle, collapsed ones
too, and whatever the order of the corners. -/
theorem C78_area (a b c : V3) :
    getTriangleArea a b c = nrm (crossProduct (b - a) (c - a)) / 2 ∧
      getTriangleArea b a c = getTriangleArea a b c ∧ getTriangleArea b c a = getTriangleArea a b c := by
  have key : ∀ a b c : V3, getTriangleArea a b c = nrm (crossProduct (b - a) (c - a)) / 2 := by
    intro a b c
    simp only [getTriangleArea]
    generalize b - a = u
    generalize c - a = v
    by_cases hu : u = 0
    · subst hu; simp [nrm]
    by_cases hv : v = 0
    · subst hv; simp [nrm]
    have hup := nrm_pos hu
    have hvp := nrm_pos hv
    rw [if_neg (by push Not; exact ⟨hup, hvp⟩)]
    have hsq := cross_norm_sq u v
    have hE : 1 - ((1 / nrm u) • u) ⬝ᵥ ((1 / nrm v) • v) * (((1 / nrm u) • u) ⬝ᵥ ((1 / nrm v) • v)) =
        (nrm (crossProduct u v) / (nrm u * nrm v)) ^ 2 := by
      rw [smul_dotProduct, dotProduct_smul]
      simp only [smul_eq_mul]
      field_simp
      linear_combination -hsq
    rw [hE, Real.sqrt_sq (div_nonneg (nrm_nonneg _) (mul_pos hup hvp).le)]
    field_simp
    norm_num
    ring
  refine ⟨key a b c, ?_, ?_⟩
  · rw [key, key]
    have : crossProduct (a - b) (c - b) = - crossProduct (b - a) (c - a) := by
      ext i; fin_cases i <;> simp [cross_apply] <;> ring
    rw [this, nrm_neg]
  · rw [key, key]
    have : crossProduct (c - b) (a - b) = crossProduct (b - a) (c - a) := by
      ext i; fin_cases i <;> simp [cross_apply] <;> ring
    rw [this]

/-- The rotation vector from one orientation to another: its length is at most π, and the rotation made of it
takes the first to the second. The vector is 0 for equal orientations only. -/
theorem C78_rotation_vector {s t : M3} (hs : s ∈ Matrix.specialOrthogonalGroup (Fin 3) ℝ)
    (ht : t ∈ Matrix.specialOrthogonalGroup (Fin 3) ℝ) :
    rotationVectorToOrientation (getRotationVector s t) * s = t ∧ nrm (getRotationVector s t) ≤ Real.pi ∧
      (getRotationVector s t = 0 ↔ s = t) := by
  have hsp := quatOfMatrix_spec (so_mul ht (so_transpose hs))
  obtain ⟨hu, h0, hpi, hrot⟩ := angleAxis_spec hsp.1
  rw [hsp.2] at hrot
  simp only [getRotationVector, getAngleAxisFromTo]
  generalize (angleAxisOfQuat (quatOfMatrix (t * sᵀ))).1 = u at *
  generalize (angleAxisOfQuat (quatOfMatrix (t * sᵀ))).2 = a at *
  have hu' : u ⬝ᵥ u = 1 := by rw [dot3]; exact hu
  have hu0 : u ≠ 0 := by rintro rfl; simp at hu
  have hts : t = axisAngle u a * s := by
    rw [hrot, Matrix.mul_assoc, so_transpose_mul hs, Matrix.mul_one]
  have hz : axisAngle u 0 = 1 := by
    ext i j; fin_cases i <;> fin_cases j <;> simp [axisAngle]
  have hn : nrm (a • u) = a := by
    simp only [nrm, smul_dotProduct, dotProduct_smul, smul_eq_mul, hu', mul_one]
    exact Real.sqrt_mul_self h0
  have hR : rotationVectorToOrientation (a • u) = axisAngle u a := by
    rw [rotationVectorToOrientation]
    rcases h0.eq_or_lt with h | h
    · subst h
      rw [if_pos (by simp), hz]
    · have hne : a • u ≠ 0 := smul_ne_zero h.ne' hu0
      rw [if_neg (dot_pos hne).ne', normalize_of_ne hne, hn, smul_smul, one_div, inv_mul_cancel₀ h.ne', one_smul]
  refine ⟨by rw [hR, ← hts], by rw [hn]; exact hpi, ?_⟩
  constructor
  · intro h
    rcases smul_eq_zero.1 h with h | h
    · rw [hts, h, hz, Matrix.one_mul]
    · exact absurd h hu0
  · intro h
    have htr : Matrix.trace (axisAngle u a) = 1 + 2 * Real.cos a := by
      simp [axisAngle, Matrix.trace, Fin.sum_univ_three]
      linear_combination (1 - Real.cos a) * hu
    rw [hrot, ← h, so_mul_transpose hs] at htr
    simp at htr
    have : a = 0 := by
      apply Real.injOn_cos ⟨h0, hpi⟩ ⟨le_refl 0, Real.pi_pos.le⟩
      rw [Real.cos_zero]; linarith
    rw [this, zero_smul]

theorem axisAngle_vec (u w : V3) (a : ℝ) : axisAngle u a *ᵥ w =
    ((1 - Real.cos a) * (u ⬝ᵥ w)) • u + Real.cos a • w + Real.sin a • crossProduct u w := by
  ext i
  fin_cases i <;> simp only [Matrix.mulVec, dot3] <;> simp [axisAngle, cross_apply] <;> ring

/-- The rotation of a rotation vector `v` keeps `v`, turns by its length, and is a rotation. -/
theorem C78_rotation_of_vector (v : V3) :
    rotationVectorToOrientation v ∈ Matrix.specialOrthogonalGroup (Fin 3) ℝ ∧
      rotationVectorToOrientation v *ᵥ v = v ∧
      Matrix.trace (rotationVectorToOrientation v) = 1 + 2 * Real.cos (nrm v) ∧
      (∀ w : V3, v ⬝ᵥ w = 0 → nrm v • (rotationVectorToOrientation v *ᵥ w) =
        (nrm v * Real.cos (nrm v)) • w + Real.sin (nrm v) • crossProduct v w) := by
  by_cases h : v = 0
  · subst h
    have : rotationVectorToOrientation 0 = 1 := by rw [rotationVectorToOrientation, if_pos (by simp)]
    rw [this]
    refine ⟨one_mem _, by simp, by simp [nrm]; norm_num, fun w _ => by simp [nrm]⟩
  · rw [rotationVectorToOrientation, if_neg (dot_pos h).ne']
    have hu := normalize_unit h
    have hv := smul_normalize h
    generalize normalize v = u at *
    generalize nrm v = a at *
    have hu' := hu
    rw [dot3] at hu'
    have hax : axisAngle u a *ᵥ u = u := by
      rw [axisAngle_vec, hu, cross_self, smul_zero, add_zero, mul_one, ← add_smul, sub_add_cancel, one_smul]
    refine ⟨axisAngle_mem u a hu', ?_, ?_, ?_⟩
    · rw [← hv, Matrix.mulVec_smul, hax]
    · simp [axisAngle, Matrix.trace, Fin.sum_univ_three]
      linear_combination (1 - Real.cos a) * hu'
    · intro w hw
      have ha : a ≠ 0 := by rintro rfl; rw [zero_smul] at hv; exact h hv.symm
      have hw' : u ⬝ᵥ w = 0 := by
        rw [← hv, smul_dotProduct, smul_eq_mul] at hw
        exact (mul_eq_zero.1 hw).resolve_left ha
      rw [axisAngle_vec, hw', mul_zero, zero_smul, zero_add, ← hv]
      simp only [map_smul, LinearMap.smul_apply, smul_add, smul_smul]
      rw [mul_comm a (Real.sin a)]

/-- The hypotheses are met. -/
example : (![1, 2, 3] : V3) ≠ 0 ∧ 1e-8 ≤ nrm ![3, 4, 0] := by
  constructor
  · intro h; have := congrFun h 0; simp at this
  · have : nrm ![3, 4, 0] = 5 := by
      simp only [nrm, dot3]
      rw [show (![3, 4, 0] : V3) 0 * (![3, 4, 0] : V3) 0 + (![3, 4, 0] : V3) 1 * (![3, 4, 0] : V3) 1 +
        (![3, 4, 0] : V3) 2 * (![3, 4, 0] : V3) 2 = 5 * 5 by simp; norm_num]
      exact Real.sqrt_mul_self (by norm_num)
    rw [this]; norm_num

end Simox.Mth
