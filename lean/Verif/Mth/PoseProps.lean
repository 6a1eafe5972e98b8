import Verif.Mth.PoseLemmas
import Verif.Rot.QuatProps

/-!
# Poses: properties
-/

namespace Simox.Mth

open Matrix Jac Rot

/-- The matrix of a pose is determined by position and orientation, and both are read back as they were
given; a pose made of a rotation is a rigid motion. -/
theorem C77_pose_parts (p : V3) (r : M3) (m : M4) :
    position (mkPose p r) = p ∧ orientation (mkPose p r) = r ∧
      (r ∈ Matrix.specialOrthogonalGroup (Fin 3) ℝ → IsPose (mkPose p r)) ∧
      (IsPose m → mkPose (position m) (orientation m) = m ∧
        orientation m ∈ Matrix.specialOrthogonalGroup (Fin 3) ℝ) := by
  refine ⟨position_mkPose p r, orientation_mkPose p r, isPose_mkPose.2, fun h => ?_⟩
  have e := mkPose_eq h.2
  refine ⟨e, ?_⟩
  rw [← e] at h
  exact isPose_mkPose.1 h

theorem pose_cases {m : M4} (h : IsPose m) :
    ∃ p r, r ∈ Matrix.specialOrthogonalGroup (Fin 3) ℝ ∧ m = mkPose p r :=
  ⟨position m, orientation m, ((C77_pose_parts 0 1 m).2.2.2 h).2, ((C77_pose_parts 0 1 m).2.2.2 h).1.symm⟩

/-- `InvertedPose` is the inverse matrix, on both sides, and again a rigid motion. -/
theorem C77_inverse {m : M4} (h : IsPose m) :
    invertedPose m * m = 1 ∧ m * invertedPose m = 1 ∧ IsPose (invertedPose m) ∧
      invertedPose (invertedPose m) = m ∧ invertedPose m = m⁻¹ := by
  obtain ⟨p, r, hr, rfl⟩ := pose_cases h
  have h1 : invertedPose (mkPose p r) * mkPose p r = 1 := by
    rw [invertedPose_mkPose, mkPose_mul, so_transpose_mul hr, add_neg_cancel, mkPose_one]
  refine ⟨h1, ?_, ?_, ?_, ?_⟩
  · rw [invertedPose_mkPose, mkPose_mul, so_mul_transpose hr, Matrix.mulVec_neg, Matrix.mulVec_mulVec,
      so_mul_transpose hr, Matrix.one_mulVec, neg_add_cancel, mkPose_one]
  · rw [invertedPose_mkPose]; exact isPose_mkPose.2 (so_transpose hr)
  · rw [invertedPose_mkPose, invertedPose_mkPose, Matrix.transpose_transpose, Matrix.mulVec_neg,
      Matrix.mulVec_mulVec, so_mul_transpose hr, Matrix.one_mulVec, neg_neg]
  · exact (Matrix.inv_eq_left_inv h1).symm

/-- Transforming points: by a product of poses is one after the other, by the inverse goes back, distances and
differences are kept, and a direction is transformed as the difference of two points. -/
theorem C77_transform {a b : M4} (ha : IsPose a) (hb : IsPose b) (x y : V3) :
    IsPose (a * b) ∧
      transformPosition (a * b) x = transformPosition a (transformPosition b x) ∧
      transformPosition (invertedPose a) (transformPosition a x) = x ∧
      transformPosition a (transformPosition (invertedPose a) x) = x ∧
      nrm (transformPosition a x - transformPosition a y) = nrm (x - y) ∧
      transformDirection a (x - y) = transformPosition a x - transformPosition a y ∧
      transformPosition a 0 = position a ∧
      (∀ r, transformOrientation (a * b) r = transformOrientation a (transformOrientation b r)) ∧
      (∀ p r, a * mkPose p r = mkPose (transformPosition a p) (transformOrientation a r)) := by
  obtain ⟨p, r, hr, rfl⟩ := pose_cases ha
  obtain ⟨q, s, hs, rfl⟩ := pose_cases hb
  rw [mkPose_mul, invertedPose_mkPose]
  simp only [transformPosition_mkPose, transformDirection, transformOrientation, orientation_mkPose,
    position_mkPose]
  refine ⟨isPose_mkPose.2 (so_mul hr hs), ?_, ?_, ?_, ?_, ?_, ?_, ?_, ?_⟩
  · rw [Matrix.mulVec_add, Matrix.mulVec_mulVec, add_assoc]
  · rw [Matrix.mulVec_add, Matrix.mulVec_mulVec, so_transpose_mul hr, Matrix.one_mulVec, add_neg_cancel_right]
  · rw [Matrix.mulVec_add, Matrix.mulVec_mulVec, so_mul_transpose hr, Matrix.one_mulVec, Matrix.mulVec_neg,
      Matrix.mulVec_mulVec, so_mul_transpose hr, Matrix.one_mulVec, neg_add_cancel_right]
  · rw [add_sub_add_right_eq_sub, ← Matrix.mulVec_sub, so_nrm hr]
  · rw [add_sub_add_right_eq_sub, Matrix.mulVec_sub]
  · simp
  · intro t; rw [Matrix.mul_assoc]
  · intro u t; rw [mkPose_mul]

/-- `TranslatePose` moves the position by the offset in world coordinates and keeps the orientation. -/
theorem C77_translate {m : M4} (h : IsPose m) (o x : V3) :
    IsPose (translatePose m o) ∧ position (translatePose m o) = position m + o ∧
      orientation (translatePose m o) = orientation m ∧
      transformPosition (translatePose m o) x = transformPosition m x + o := by
  obtain ⟨p, r, hr, rfl⟩ := pose_cases h
  have e : translatePose (mkPose p r) o = mkPose (p + o) r := by
    rw [translatePose, position_mkPose]
    ext i j
    fin_cases i <;> fin_cases j <;> simp [mkPose, setOrientation, setPosition, setPos]
  rw [e]
  simp only [position_mkPose, orientation_mkPose, transformPosition_mkPose]
  exact ⟨isPose_mkPose.2 hr, trivial, trivial, by rw [add_assoc]⟩

/-- The angle of an axis-angle rotation is fixed by the matrix. -/
theorem trace_axisAngle {u : V3} (hu : u ⬝ᵥ u = 1) (a : ℝ) :
    Matrix.trace (axisAngle u a) = 1 + 2 * Real.cos a := by
  rw [dot3] at hu
  simp [axisAngle, Matrix.trace, Fin.sum_univ_three]
  linear_combination (1 - Real.cos a) * hu

/-- What `getPoseDiff` returns: the distance of the positions, and the angle in [0,π] of the rotation that
takes one orientation to the other. -/
theorem C77_pose_diff {a b : M4} (ha : IsPose a) (hb : IsPose b) :
    (getPoseDiff a b).1 = nrm (position a - position b) ∧
      0 ≤ (getPoseDiff a b).2 ∧ (getPoseDiff a b).2 ≤ Real.pi ∧
      (∃ u : V3, u ⬝ᵥ u = 1 ∧ orientation a * axisAngle u (getPoseDiff a b).2 = orientation b) ∧
      1 + 2 * Real.cos (getPoseDiff a b).2 = Matrix.trace ((orientation a)ᵀ * orientation b) := by
  obtain ⟨p, r, hr, rfl⟩ := pose_cases ha
  obtain ⟨q, s, hs, rfl⟩ := pose_cases hb
  have hm : invertedPose (mkPose p r) * mkPose q s = mkPose (rᵀ *ᵥ q + -(rᵀ *ᵥ p)) (rᵀ * s) := by
    rw [invertedPose_mkPose, mkPose_mul]
  have hsp := quatOfMatrix_spec (so_mul (so_transpose hr) hs)
  have haa := angleAxis_spec hsp.1
  have h2 : (getPoseDiff (mkPose p r) (mkPose q s)).2 = (angleAxisOfQuat (quatOfMatrix (rᵀ * s))).2 := by
    simp only [getPoseDiff, eigen4f2axisangle, eigen4f2quat]
    rw [hm]
    have := orientation_mkPose (rᵀ *ᵥ q + -(rᵀ *ᵥ p)) (rᵀ * s)
    rw [orientation] at this
    rw [this]
  simp only [orientation_mkPose, position_mkPose]
  rw [h2]
  obtain ⟨hu, h0, hpi, hrot⟩ := haa
  have hu' : (angleAxisOfQuat (quatOfMatrix (rᵀ * s))).1 ⬝ᵥ (angleAxisOfQuat (quatOfMatrix (rᵀ * s))).1 = 1 := by
    rw [dot3]; exact hu
  rw [hsp.2] at hrot
  refine ⟨?_, h0, hpi, ⟨_, hu', ?_⟩, ?_⟩
  · simp only [getPoseDiff]
    rw [hm, position_mkPose, ← sub_eq_add_neg, ← Matrix.mulVec_sub, so_nrm (so_transpose hr), ← nrm_neg, neg_sub]
  · rw [hrot, ← Matrix.mul_assoc, so_mul_transpose hr, Matrix.one_mul]
  · rw [← trace_axisAngle hu', hrot]

/-- The difference of two poses is symmetric. -/
theorem C77_pose_diff_symm {a b : M4} (ha : IsPose a) (hb : IsPose b) : getPoseDiff a b = getPoseDiff b a := by
  obtain ⟨h1, h2, h3, -, h5⟩ := C77_pose_diff ha hb
  obtain ⟨k1, k2, k3, -, k5⟩ := C77_pose_diff hb ha
  refine Prod.ext ?_ ?_
  · rw [h1, k1, ← nrm_neg, neg_sub]
  · apply Real.injOn_cos ⟨h2, h3⟩ ⟨k2, k3⟩
    have : Matrix.trace ((orientation a)ᵀ * orientation b) = Matrix.trace ((orientation b)ᵀ * orientation a) := by
      rw [← Matrix.trace_transpose, Matrix.transpose_mul, Matrix.transpose_transpose]
    rw [← h5, ← k5] at this
    linarith

/-- It vanishes for equal poses only. -/
theorem C77_pose_diff_zero {a b : M4} (ha : IsPose a) (hb : IsPose b) : getPoseDiff a b = (0, 0) ↔ a = b := by
  obtain ⟨h1, h2, h3, ⟨u, hu, hr⟩, h5⟩ := C77_pose_diff ha hb
  have ea := ((C77_pose_parts 0 1 a).2.2.2 ha)
  have eb := ((C77_pose_parts 0 1 b).2.2.2 hb)
  constructor
  · intro h
    rw [h] at h1 hr
    simp only at h1 hr
    have hp : position a = position b := sub_eq_zero.1 (nrm_eq_zero.1 h1.symm)
    have hz : axisAngle u 0 = 1 := by
      ext i j; fin_cases i <;> fin_cases j <;> simp [axisAngle]
    rw [hz, Matrix.mul_one] at hr
    rw [← ea.1, ← eb.1, hp, hr]
  · rintro rfl
    refine Prod.ext ?_ ?_
    · rw [h1, sub_self]; simp [nrm]
    · apply Real.injOn_cos ⟨h2, h3⟩ ⟨le_refl 0, Real.pi_pos.le⟩
      rw [so_transpose_mul ea.2] at h5
      simp at h5
      rw [Real.cos_zero]; linarith

/-- The hypotheses are met: a quarter turn about z at (1,2,3). -/
example : IsPose (mkPose ![1, 2, 3] !![0, -1, 0; 1, 0, 0; 0, 0, 1]) := by
  apply isPose_mkPose.2
  rw [Matrix.mem_specialOrthogonalGroup_iff, Matrix.mem_orthogonalGroup_iff]
  constructor
  · ext i j; fin_cases i <;> fin_cases j <;> simp [Matrix.mul_apply, Fin.sum_univ_three]
  · simp [Matrix.det_fin_three]

end Simox.Mth
