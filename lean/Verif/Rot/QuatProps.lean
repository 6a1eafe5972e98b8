import Verif.Rot.QuatLemmas
import Mathlib.Analysis.Real.Pi.Bounds

/-!
# C69: quaternions, C70: conversions of rotations
-/

namespace Simox.Rot

open Matrix Jac
open scoped Quaternion

/-- **C69 (algebra).** The product, the conjugate, the inverse and the scalar product of quaternions are
the mathematical ones (the inverse of zero is zero), and the delta of two quaternions is what has to be
multiplied from the left to get from the first to the second. -/
theorem C69_algebra (p q : Quat) :
    (multiplyQuaternions p q).toH = p.toH * q.toH ∧
    (getConjugated q).toH = star q.toH ∧
    (getInverse q).toH = (q.toH)⁻¹ ∧
    getDot p q = (p.toH * star q.toH).re ∧
    (p.toH ≠ 0 → multiplyQuaternions (getDelta p q) p = q) := by
  have hmul : ∀ p q : Quat, (multiplyQuaternions p q).toH = p.toH * q.toH := by
    intro p q
    apply Quaternion.ext <;> simp [multiplyQuaternions] <;> ring
  have hinj : ∀ p q : Quat, p.toH = q.toH → p = q := by
    intro p q h
    have h1 := congrArg QuaternionAlgebra.re h
    have h2 := congrArg QuaternionAlgebra.imI h
    have h3 := congrArg QuaternionAlgebra.imJ h
    have h4 := congrArg QuaternionAlgebra.imK h
    exact Quat.ext h2 h3 h4 h1
  have hinv : ∀ q : Quat, (getInverse q).toH = (q.toH)⁻¹ := by
    intro q
    by_cases h0 : q.x * q.x + q.y * q.y + q.z * q.z + q.w * q.w = 0
    · have hx : q.x = 0 := by nlinarith [mul_self_nonneg q.x, mul_self_nonneg q.y, mul_self_nonneg q.z, mul_self_nonneg q.w]
      have hy : q.y = 0 := by nlinarith [mul_self_nonneg q.x, mul_self_nonneg q.y, mul_self_nonneg q.z, mul_self_nonneg q.w]
      have hz : q.z = 0 := by nlinarith [mul_self_nonneg q.x, mul_self_nonneg q.y, mul_self_nonneg q.z, mul_self_nonneg q.w]
      have hw : q.w = 0 := by nlinarith [mul_self_nonneg q.x, mul_self_nonneg q.y, mul_self_nonneg q.z, mul_self_nonneg q.w]
      have hq : q.toH = 0 := by apply Quaternion.ext <;> simp [hx, hy, hz, hw]
      rw [hq, _root_.inv_zero]
      apply Quaternion.ext <;> simp [getInverse, getConjugated, hx, hy, hz, hw]
    · have hq : (q.toH) * (getInverse q).toH = 1 := by
        have h0' : q.x ^ 2 + q.y ^ 2 + q.z ^ 2 + q.w ^ 2 ≠ 0 := by
          intro h; apply h0; linarith
        apply Quaternion.ext <;> simp [getInverse, getConjugated, h0] <;> field_simp <;> ring
      exact eq_inv_of_mul_eq_one_right hq
  refine ⟨hmul p q, ?_, hinv q, ?_, ?_⟩
  · apply Quaternion.ext <;> simp [getConjugated]
  · simp [getDot]; ring
  · intro hp
    apply hinj
    rw [hmul, getDelta, hmul, hinv, mul_assoc, inv_mul_cancel₀ hp, mul_one]

/-- **C69 (rotation).** The matrix of a unit quaternion is a rotation, and it turns a vector `v` to the
quaternion product `q v q*`. Products of unit quaternions are unit quaternions and belong to products of
rotations, inverses to inverses, and the delta of two to the rotation from the first to the second. -/
theorem C69_rotation (p q : Quat) (hp : p.Unit) (hq : q.Unit) :
    IsPose (quat2eigen4f q) ∧ posPart (quat2eigen4f q) = 0 ∧
    (∀ v, imH (rotPart (quat2eigen4f q) *ᵥ v) = q.toH * imH v * star q.toH) ∧
    (multiplyQuaternions p q).Unit ∧ quat2eigen4f (multiplyQuaternions p q) = quat2eigen4f p * quat2eigen4f q ∧
    (getInverse q).Unit ∧ quat2eigen4f (getInverse q) * quat2eigen4f q = 1 ∧
    quat2eigen4f (getDelta p q) * quat2eigen4f p = quat2eigen4f q := by
  have hrp : ∀ q, rotPart (quat2eigen4f q) = toRotationMatrix q := by
    intro q
    ext i j
    fin_cases i <;> fin_cases j <;> simp [rotPart, quat2eigen4f, block4]
  have hb : ∀ a b : M3, block4 (a * b) = block4 a * block4 b := by
    intro a b
    ext i j
    fin_cases i <;> fin_cases j <;>
      simp [block4, Matrix.mul_apply, Fin.sum_univ_three, Fin.sum_univ_four]
  have hmm : ∀ p q : Quat, p.Unit → q.Unit → (multiplyQuaternions p q).Unit := by
    intro p q hp hq
    have hp : p.x ^ 2 + p.y ^ 2 + p.z ^ 2 + p.w ^ 2 = 1 := hp
    have hq : q.x ^ 2 + q.y ^ 2 + q.z ^ 2 + q.w ^ 2 = 1 := hq
    simp only [Quat.Unit, multiplyQuaternions]
    linear_combination (q.x ^ 2 + q.y ^ 2 + q.z ^ 2 + q.w ^ 2) * hp + hq
  have hcu : ∀ q : Quat, q.Unit → (getConjugated q).Unit := by
    intro q hq
    have hq : q.x ^ 2 + q.y ^ 2 + q.z ^ 2 + q.w ^ 2 = 1 := hq
    simp only [Quat.Unit, getConjugated]
    linarith
  have hT : ∀ q : Quat, q.Unit → (toRotationMatrix q)ᵀ * toRotationMatrix q = 1 := by
    intro q hq
    have := toRotationMatrix_mem hq
    rw [Matrix.mem_specialOrthogonalGroup_iff, Matrix.mem_orthogonalGroup_iff'] at this
    exact this.1
  have hone : block4 (1 : M3) = 1 := by
    ext i j
    fin_cases i <;> fin_cases j <;> simp [block4]
  refine ⟨⟨?_, ?_⟩, ?_, ?_, hmm p q hp hq, ?_, ?_, ?_, ?_⟩
  · change rotPart (quat2eigen4f q) ∈ _
    rw [hrp]; exact toRotationMatrix_mem hq
  · ext j; fin_cases j <;> simp [quat2eigen4f, block4]
  · ext j; fin_cases j <;> simp [posPart, quat2eigen4f, block4]
  · intro v
    rw [hrp, toRotationMatrix_eq]
    have hq : q.x ^ 2 + q.y ^ 2 + q.z ^ 2 + q.w ^ 2 = 1 := hq
    apply Quaternion.ext <;>
      simp [dotProduct, Fin.sum_univ_three]
    · ring
    · linear_combination (-v 0) * hq
    · linear_combination (-v 1) * hq
    · linear_combination (-v 2) * hq
  · rw [quat2eigen4f, toRotationMatrix_mul hp hq, hb]; rfl
  · rw [inverse_of_unit hq]; exact hcu q hq
  · rw [inverse_of_unit hq, quat2eigen4f, quat2eigen4f, ← hb, toRotationMatrix_conj, hT q hq, hone]
  · rw [getDelta, inverse_of_unit hp, quat2eigen4f, toRotationMatrix_mul hq (hcu p hp), hb, quat2eigen4f,
      Matrix.mul_assoc, ← hb, toRotationMatrix_conj, hT p hp, hone, Matrix.mul_one]; rfl

/-- **C70 (matrix to quaternion).** The quaternion of a pose is a unit quaternion whose matrix is the
rotation of the pose; and from the matrix of a unit quaternion one gets the quaternion or its negative
back. -/
theorem C70_quaternion (m : M4) (hm : IsPose m) :
    (eigen4f2quat m).Unit ∧ rotPart (quat2eigen4f (eigen4f2quat m)) = rotPart m ∧
    posquat2eigen4f (m 0 3) (m 1 3) (m 2 3) (eigen4f2quat m) = m ∧
    (∀ q : Quat, q.Unit → eigen4f2quat (quat2eigen4f q) = q ∨ eigen4f2quat (quat2eigen4f q) = q.neg) := by
  have hr : rot3 m = rotPart m := by
    ext i j
    fin_cases i <;> fin_cases j <;> simp [rotPart, rot3]
  have hs := quatOfMatrix_spec (m := rot3 m) (by rw [hr]; exact hm.1)
  have hrp : ∀ a : M3, rotPart (block4 a) = a := by
    intro q
    ext i j
    fin_cases i <;> fin_cases j <;> simp [rotPart, block4]
  refine ⟨hs.1, ?_, ?_, ?_⟩
  · rw [quat2eigen4f, hrp, eigen4f2quat, hs.2, hr]
  · rw [posquat2eigen4f, quat2eigen4f, eigen4f2quat, hs.2]
    obtain ⟨l0, l1, l2, l3⟩ := hm.last
    ext i j
    fin_cases i <;> fin_cases j <;> simp [setPos, block4, rot3, l0, l1, l2, l3]
  · intro q hq
    have : rot3 (quat2eigen4f q) = toRotationMatrix q := by
      ext i j
      fin_cases i <;> fin_cases j <;> simp [rot3, quat2eigen4f, block4]
    rw [eigen4f2quat, this]
    exact quatOfMatrix_unit hq

/-- The axis and angle of a unit quaternion. -/
theorem angleAxis_spec {q : Quat} (hq : q.Unit) :
    let u := (angleAxisOfQuat q).1
    let a := (angleAxisOfQuat q).2
    u 0 * u 0 + u 1 * u 1 + u 2 * u 2 = 1 ∧ 0 ≤ a ∧ a ≤ Real.pi ∧ axisAngle u a = toRotationMatrix q := by
  have hq' : q.x ^ 2 + q.y ^ 2 + q.z ^ 2 + q.w ^ 2 = 1 := hq
  have hnn := Real.mul_self_sqrt (show 0 ≤ q.x * q.x + q.y * q.y + q.z * q.z from
    add_nonneg (add_nonneg (mul_self_nonneg _) (mul_self_nonneg _)) (mul_self_nonneg _))
  have hn0 := Real.sqrt_nonneg (q.x * q.x + q.y * q.y + q.z * q.z)
  generalize hn : Real.sqrt (q.x * q.x + q.y * q.y + q.z * q.z) = n at *
  by_cases h0 : n = 0
  · have hE : angleAxisOfQuat q = (![1, 0, 0], 0) := by
      simp only [angleAxisOfQuat, hn]
      rw [if_neg (by simpa using h0)]
    rw [hE]
    rw [h0] at hnn
    have hx : q.x = 0 := by nlinarith [mul_self_nonneg q.x, mul_self_nonneg q.y, mul_self_nonneg q.z]
    have hy : q.y = 0 := by nlinarith [mul_self_nonneg q.x, mul_self_nonneg q.y, mul_self_nonneg q.z]
    have hz : q.z = 0 := by nlinarith [mul_self_nonneg q.x, mul_self_nonneg q.y, mul_self_nonneg q.z]
    refine ⟨by simp, le_refl _, Real.pi_pos.le, ?_⟩
    rw [toRotationMatrix_eq]
    ext i j
    fin_cases i <;> fin_cases j <;> simp [axisAngle, hx, hy, hz]
  · have hnp : 0 < n := lt_of_le_of_ne hn0 (Ne.symm h0)
    -- the angle
    have hs1 : |q.w| * |q.w| + n * n = 1 := by rw [abs_mul_abs_self, hnn]; linarith
    have hsin : Real.sin (atan2 n |q.w|) = n := sin_atan2_one hs1
    have hcos : Real.cos (atan2 n |q.w|) = |q.w| := cos_atan2_one hs1
    have ha0 : 0 ≤ atan2 n |q.w| := Complex.arg_nonneg_iff.2 hn0
    have ha1 : atan2 n |q.w| ≤ Real.pi / 2 := by
      have : abs (atan2 n (abs q.w)) ≤ Real.pi / 2 := by
        rw [atan2, Complex.abs_arg_le_pi_div_two_iff]; exact abs_nonneg _
      exact (abs_le.1 this).2
    generalize hN : (if q.w < 0 then -n else n) = N
    have hE : angleAxisOfQuat q = (![q.x / N, q.y / N, q.z / N], 2 * atan2 n |q.w|) := by
      simp only [angleAxisOfQuat, hn]
      rw [if_pos (by simpa using h0), hN]
    rw [hE]
    have hNN : N ≠ 0 ∧ N * N = n * n ∧ N * |q.w| = n * q.w ∧ (n / N = 1 ∨ n / N = -1) := by
      rw [← hN]
      split
      · next hw => exact ⟨by simpa using h0, by ring, by rw [abs_of_neg hw]; ring, Or.inr (by field_simp)⟩
      · next hw => exact ⟨h0, rfl, by rw [abs_of_nonneg (not_lt.1 hw)], Or.inl (by field_simp)⟩
    obtain ⟨hN0, hN2, hNw, hsg⟩ := hNN
    have hu : q.x / N * (q.x / N) + q.y / N * (q.y / N) + q.z / N * (q.z / N) = 1 := by
      field_simp; rw [show N ^ 2 = n * n by rw [sq, hN2], hnn]; ring
    refine ⟨by simpa using hu, by linarith, by linarith, ?_⟩
    have hq2 := axisAngle_quat ![q.x / N, q.y / N, q.z / N] (2 * atan2 n |q.w|)
    rw [show 2 * atan2 n |q.w| / 2 = atan2 n |q.w| by ring, hsin, hcos] at hq2
    simp only [Matrix.cons_val_zero, Matrix.cons_val_one, Matrix.cons_val] at hq2
    rw [hu, sub_self, zero_mul, zero_smul, add_zero] at hq2
    rw [← hq2]
    have hwn : |q.w| = n / N * q.w := by field_simp; linarith
    rw [hwn, toRotationMatrix_eq, toRotationMatrix_eq]
    have hk : (n / N) * (n / N) = 1 := by rcases hsg with h | h <;> rw [h] <;> norm_num
    have e1 : q.x / N * n = n / N * q.x := by ring
    have e2 : q.y / N * n = n / N * q.y := by ring
    have e3 : q.z / N * n = n / N * q.z := by ring
    rw [e1, e2, e3]
    rcases hsg with h | h <;> rw [h] <;> ext i j <;> fin_cases i <;> fin_cases j <;> simp

/-- **C70 (axis and angle).** For a unit axis, the matrix and the quaternion of an axis and an angle are
those of the rotation about that axis by that angle: the quaternion is, up to its sign, the half angle
formula. The variant that writes into a given matrix writes the same nine numbers and nothing else. From
every pose one gets a unit axis and an angle between 0 and pi that give its rotation back. -/
theorem C70_axis_angle (u : V3) (hu : u ⬝ᵥ u = 1) (a : ℝ) (m : M4) (hm : IsPose m) :
    IsPose (axisangle2eigen4f u a) ∧ posPart (axisangle2eigen4f u a) = 0 ∧
    rotPart (axisangle2eigen4f u a) *ᵥ u = u ∧
    (∀ v, rotPart (axisangle2eigen4f u a) *ᵥ v =
      Real.cos a • v + Real.sin a • crossProduct u v + ((1 - Real.cos a) * (u ⬝ᵥ v)) • u) ∧
    rotPart (axisangle2eigen4fStore u a m) = rotPart (axisangle2eigen4f u a) ∧
    posPart (axisangle2eigen4fStore u a m) = posPart m ∧ axisangle2eigen4fStore u a m 3 = m 3 ∧
    (let q : Quat := ⟨u 0 * Real.sin (a / 2), u 1 * Real.sin (a / 2), u 2 * Real.sin (a / 2), Real.cos (a / 2)⟩
     axisangle2quat u a = q ∨ axisangle2quat u a = q.neg) ∧
    (let r := eigen4f2axisangle m
     r.1 ⬝ᵥ r.1 = 1 ∧ 0 ≤ r.2 ∧ r.2 ≤ Real.pi ∧
     rotPart (axisangle2eigen4f r.1 r.2) = rotPart m) := by
  have hu' : u 0 * u 0 + u 1 * u 1 + u 2 * u 2 = 1 := by
    simpa [dotProduct, Fin.sum_univ_three] using hu
  have hrp : ∀ a : M3, rotPart (block4 a) = a := by
    intro q
    ext i j
    fin_cases i <;> fin_cases j <;> simp [rotPart, block4]
  have hr3 : ∀ a : M3, rot3 (block4 a) = a := by
    intro q
    ext i j
    fin_cases i <;> fin_cases j <;> simp [rot3, block4]
  have hvec : ∀ v, rotPart (axisangle2eigen4f u a) *ᵥ v =
      Real.cos a • v + Real.sin a • crossProduct u v + ((1 - Real.cos a) * (u ⬝ᵥ v)) • u := by
    intro v
    rw [axisangle2eigen4f, hrp]
    ext i
    simp only [Pi.add_apply, Pi.smul_apply, smul_eq_mul]
    fin_cases i <;>
      simp [axisAngle, Matrix.mulVec, dotProduct, Fin.sum_univ_three, cross_apply] <;> ring
  refine ⟨⟨?_, ?_⟩, ?_, ?_, hvec, ?_, ?_, ?_, ?_, ?_⟩
  · change rotPart _ ∈ _
    rw [axisangle2eigen4f, hrp]; exact axisAngle_mem u a hu'
  · ext j; fin_cases j <;> simp [axisangle2eigen4f, block4]
  · ext j; fin_cases j <;> simp [posPart, axisangle2eigen4f, block4]
  · rw [hvec, hu, cross_self]
    ext i; simp; ring
  · rw [axisangle2eigen4f, hrp]
    ext i j
    fin_cases i <;> fin_cases j <;> simp [rotPart, axisangle2eigen4fStore, axisAngle] <;> ring
  · ext j; fin_cases j <;> simp [posPart, axisangle2eigen4fStore]
  · ext j; fin_cases j <;> simp [axisangle2eigen4fStore]
  · intro q
    have hq : q.Unit := axisAngle_quat_unit hu' a
    have hm : toRotationMatrix q = axisAngle u a := by
      have := axisAngle_quat u a
      rw [hu', sub_self, zero_mul, zero_smul, add_zero] at this
      exact this
    rw [axisangle2quat, eigen4f2quat, axisangle2eigen4f, hr3, ← hm]
    exact quatOfMatrix_unit hq
  · have hr : rot3 m = rotPart m := by
      ext i j
      fin_cases i <;> fin_cases j <;> simp [rotPart, rot3]
    have hs := quatOfMatrix_spec (m := rot3 m) (by rw [hr]; exact hm.1)
    obtain ⟨h1, h2, h3, h4⟩ := angleAxis_spec hs.1
    refine ⟨?_, h2, h3, ?_⟩
    · simpa [dotProduct, Fin.sum_univ_three, eigen4f2axisangle, eigen4f2quat] using h1
    · rw [axisangle2eigen4f, hrp]
      rw [hs.2, hr] at h4
      exact h4

/-- **C70 (angle of a quaternion).** The angle of a unit quaternion lies between 0 and pi and is the angle
of its rotation: there is an axis about which its matrix turns by just that angle. -/
theorem C70_angle (q : Quat) (hq : q.Unit) :
    0 ≤ getAngle q ∧ getAngle q ≤ Real.pi ∧
    (∃ u : V3, u ⬝ᵥ u = 1 ∧ quat2eigen4f q = axisangle2eigen4f u (getAngle q)) ∧
    2 * Real.cos (getAngle q) + 1 = Matrix.trace (rotPart (quat2eigen4f q)) := by
  obtain ⟨h1, h2, h3, h4⟩ := angleAxis_spec hq
  have hE : getAngle q = (angleAxisOfQuat q).2 := by
    simp only [getAngle]; rw [if_neg (not_lt.2 h3)]
  rw [hE]
  refine ⟨h2, h3, ⟨(angleAxisOfQuat q).1, ?_, ?_⟩, ?_⟩
  · simpa [dotProduct, Fin.sum_univ_three] using h1
  · rw [quat2eigen4f, axisangle2eigen4f, h4]
  · have hrp : rotPart (quat2eigen4f q) = toRotationMatrix q := by
      ext i j
      fin_cases i <;> fin_cases j <;> simp [rotPart, quat2eigen4f, block4]
    rw [hrp, ← h4, Matrix.trace_fin_three]
    simp only [axisAngle, Matrix.of_apply, Matrix.cons_val', Matrix.cons_val_zero, Matrix.cons_val_one,
      Matrix.cons_val]
    linear_combination (-(1 - Real.cos (angleAxisOfQuat q).2)) * h1

/-- Not vacuous: a unit quaternion that is not the identity. -/
example : (⟨0.6, 0, 0, 0.8⟩ : Quat).Unit := by simp [Quat.Unit]; norm_num
example : (![1, 0, 0] : V3) ⬝ᵥ ![1, 0, 0] = 1 := by simp

end Simox.Rot
