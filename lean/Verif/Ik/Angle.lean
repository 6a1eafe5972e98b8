import Verif.Ik.Model
import Verif.Jac.Lemmas
import Mathlib.LinearAlgebra.Matrix.ToLinearEquiv

/-!
# Every rotation has an axis and an angle
-/

namespace Simox.Ik

open Matrix Jac

theorem det_sub_one (R : SO3) : (R.1 - 1).det = 0 := by
  have h1 : R.1 * R.1ᵀ = 1 := by
    have := R.2
    rw [Matrix.mem_specialOrthogonalGroup_iff, Matrix.mem_orthogonalGroup_iff] at this
    exact this.1
  have hd : R.1.det = 1 := by
    have := R.2
    rw [Matrix.mem_specialOrthogonalGroup_iff] at this
    exact this.2
  have h2 : R.1 - 1 = R.1 * (-(R.1 - 1)ᵀ) := by
    rw [Matrix.transpose_sub, Matrix.transpose_one, neg_sub, Matrix.mul_sub, h1, Matrix.mul_one]
  have h3 : (R.1 - 1).det = -(R.1 - 1).det := by
    conv_lhs => rw [h2, Matrix.det_mul, hd, Matrix.det_neg, Matrix.det_transpose]
    norm_num [Fintype.card_fin]
  linarith

/-- A vector the rotation leaves where it is. -/
theorem exists_fixed (R : SO3) : ∃ u : V3, u 0 * u 0 + u 1 * u 1 + u 2 * u 2 = 1 ∧ R.1 *ᵥ u = u := by
  obtain ⟨v, hv, h⟩ := Matrix.exists_mulVec_eq_zero_iff.2 (det_sub_one R)
  rw [Matrix.sub_mulVec, Matrix.one_mulVec, sub_eq_zero] at h
  have hpos : 0 < v 0 * v 0 + v 1 * v 1 + v 2 * v 2 := by
    by_contra hn
    apply hv
    have h0 : v 0 = 0 := by nlinarith [mul_self_nonneg (v 0), mul_self_nonneg (v 1), mul_self_nonneg (v 2)]
    have h1 : v 1 = 0 := by nlinarith [mul_self_nonneg (v 0), mul_self_nonneg (v 1), mul_self_nonneg (v 2)]
    have h2 : v 2 = 0 := by nlinarith [mul_self_nonneg (v 0), mul_self_nonneg (v 1), mul_self_nonneg (v 2)]
    funext i; fin_cases i <;> simp [h0, h1, h2]
  set q := Real.sqrt (v 0 * v 0 + v 1 * v 1 + v 2 * v 2) with hq
  have hq0 : q ≠ 0 := (Real.sqrt_pos.2 hpos).ne'
  have hqq : q * q = v 0 * v 0 + v 1 * v 1 + v 2 * v 2 := Real.mul_self_sqrt hpos.le
  refine ⟨q⁻¹ • v, ?_, by rw [Matrix.mulVec_smul, h]⟩
  simp only [Pi.smul_apply, smul_eq_mul]
  field_simp
  nlinarith

/-- A unit vector orthogonal to a given one. -/
theorem exists_orth (u : V3) :
    ∃ w : V3, w 0 * w 0 + w 1 * w 1 + w 2 * w 2 = 1 ∧ u 0 * w 0 + u 1 * w 1 + u 2 * w 2 = 0 := by
  by_cases h : u 0 * u 0 + u 1 * u 1 = 0
  · have h0 : u 0 = 0 := by nlinarith [mul_self_nonneg (u 0), mul_self_nonneg (u 1)]
    have h1 : u 1 = 0 := by nlinarith [mul_self_nonneg (u 0), mul_self_nonneg (u 1)]
    exact ⟨![1, 0, 0], by simp, by simp [h0]⟩
  · have hpos : 0 < u 0 * u 0 + u 1 * u 1 :=
      lt_of_le_of_ne (add_nonneg (mul_self_nonneg _) (mul_self_nonneg _)) (Ne.symm h)
    set q := Real.sqrt (u 0 * u 0 + u 1 * u 1) with hq
    have hq0 : q ≠ 0 := (Real.sqrt_pos.2 hpos).ne'
    have hqq : q * q = u 0 * u 0 + u 1 * u 1 := Real.mul_self_sqrt hpos.le
    refine ⟨![-(u 1) / q, u 0 / q, 0], ?_, ?_⟩
    · simp; field_simp; nlinarith
    · simp; field_simp; ring

theorem angle_of (R : SO3) (u w : V3) (hu : u 0 * u 0 + u 1 * u 1 + u 2 * u 2 = 1) (hR : R.1 *ᵥ u = u)
    (hw : w 0 * w 0 + w 1 * w 1 + w 2 * w 2 = 1) (huw : u 0 * w 0 + u 1 * w 1 + u 2 * w 2 = 0) :
    ∃ c s : ℝ, c * c + s * s = 1 ∧ ∀ a, Real.cos a = c → Real.sin a = s → axisAngle u a = R.1 := by
  set y := R.1 *ᵥ w with hy
  set z := crossProduct u w with hz
  have hRz : R.1 *ᵥ z = crossProduct u y := by
    have := smul_cross R u w
    rw [smul_def, smul_def, smul_def, hR] at this
    exact this
  have horth : R.1ᵀ * R.1 = 1 := by
    have := R.2
    rw [Matrix.mem_specialOrthogonalGroup_iff, Matrix.mem_orthogonalGroup_iff'] at this
    exact this.1
  have hdot : ∀ a b : V3, (R.1 *ᵥ a) ⬝ᵥ (R.1 *ᵥ b) = a ⬝ᵥ b := by
    intro a b
    rw [Matrix.dotProduct_mulVec, Matrix.vecMul_mulVec, ← Matrix.dotProduct_mulVec, horth,
      Matrix.one_mulVec]
  have hyu : u ⬝ᵥ y = 0 := by
    have := hdot u w
    rw [hR, ← hy] at this
    rw [this]
    simpa [dotProduct, Fin.sum_univ_three] using huw
  have hyy : y ⬝ᵥ y = 1 := by
    have := hdot w w
    rw [← hy] at this
    rw [this]
    simpa [dotProduct, Fin.sum_univ_three] using hw
  have z0 : z 0 = u 1 * w 2 - u 2 * w 1 := by simp [hz, cross_apply]
  have z1 : z 1 = u 2 * w 0 - u 0 * w 2 := by simp [hz, cross_apply]
  have z2 : z 2 = u 0 * w 1 - u 1 * w 0 := by simp [hz, cross_apply]
  have hzu : u 0 * z 0 + u 1 * z 1 + u 2 * z 2 = 0 := by rw [z0, z1, z2]; ring
  have hzw : w 0 * z 0 + w 1 * z 1 + w 2 * z 2 = 0 := by rw [z0, z1, z2]; ring
  have hzz : z 0 * z 0 + z 1 * z 1 + z 2 * z 2 = 1 := by
    rw [z0, z1, z2]
    linear_combination (w 0 * w 0 + w 1 * w 1 + w 2 * w 2) * hu + hw
      - (u 0 * w 0 + u 1 * w 1 + u 2 * w 2) * huw
  let B : Matrix (Fin 3) (Fin 3) ℝ := !![u 0, w 0, z 0; u 1, w 1, z 1; u 2, w 2, z 2]
  have hB : Bᵀ * B = 1 := by
    ext i j
    fin_cases i <;> fin_cases j <;> simp [B, Matrix.mul_apply, Fin.sum_univ_three] <;> linarith
  have hB' : B * Bᵀ = 1 := mul_eq_one_comm.1 hB
  -- orthonormal expansion
  have hexp : ∀ i j : Fin 3, u i * u j + w i * w j + z i * z j = if i = j then 1 else 0 := by
    intro i j
    have := congrFun (congrFun hB' i) j
    rw [Matrix.one_apply] at this
    rw [← this]
    fin_cases i <;> fin_cases j <;> simp [B, Matrix.mul_apply, Fin.sum_univ_three]
  -- cross products of the frame
  have uz0 : u 1 * z 2 - u 2 * z 1 = - w 0 := by
    rw [z1, z2]; linear_combination u 0 * huw - w 0 * hu
  have uz1 : u 2 * z 0 - u 0 * z 2 = - w 1 := by
    rw [z0, z2]; linear_combination u 1 * huw - w 1 * hu
  have uz2 : u 0 * z 1 - u 1 * z 0 = - w 2 := by
    rw [z0, z1]; linear_combination u 2 * huw - w 2 * hu
  have wz0 : w 1 * z 2 - w 2 * z 1 = u 0 := by
    rw [z1, z2]; linear_combination u 0 * hw - w 0 * huw
  have wz1 : w 2 * z 0 - w 0 * z 2 = u 1 := by
    rw [z0, z2]; linear_combination u 1 * hw - w 1 * huw
  have wz2 : w 0 * z 1 - w 1 * z 0 = u 2 := by
    rw [z0, z1]; linear_combination u 2 * hw - w 2 * huw
  have hyu' : u 0 * y 0 + u 1 * y 1 + u 2 * y 2 = 0 := by
    simpa [dotProduct, Fin.sum_univ_three] using hyu
  have hyy' : y 0 * y 0 + y 1 * y 1 + y 2 * y 2 = 1 := by
    simpa [dotProduct, Fin.sum_univ_three] using hyy
  obtain ⟨c, hc⟩ : ∃ c, c = w 0 * y 0 + w 1 * y 1 + w 2 * y 2 := ⟨_, rfl⟩
  obtain ⟨s, hs⟩ : ∃ s, s = z 0 * y 0 + z 1 * y 1 + z 2 * y 2 := ⟨_, rfl⟩
  have hyc : ∀ i : Fin 3, y i = c * w i + s * z i := by
    intro i
    have e0 := hexp i 0
    have e1 := hexp i 1
    have e2 := hexp i 2
    rw [hc, hs]
    fin_cases i <;> simp at e0 e1 e2 ⊢
    · linear_combination (-y 0) * e0 - y 1 * e1 - y 2 * e2 + u 0 * hyu'
    · linear_combination (-y 0) * e0 - y 1 * e1 - y 2 * e2 + u 1 * hyu'
    · linear_combination (-y 0) * e0 - y 1 * e1 - y 2 * e2 + u 2 * hyu'
  have hcs : c * c + s * s = 1 := by
    have h0 := hyc 0
    have h1 := hyc 1
    have h2 := hyc 2
    rw [h0, h1, h2] at hyy'
    linear_combination hyy' - c * c * hw - s * s * hzz - 2 * c * s * hzw
  refine ⟨c, s, hcs, fun a ha hb => ?_⟩
  have hmul : ∀ (v : V3) (i : Fin 3), (R.1 *ᵥ v) i = R.1 i 0 * v 0 + R.1 i 1 * v 1 + R.1 i 2 * v 2 := by
    intro v i; simp [Matrix.mulVec, dotProduct, Fin.sum_univ_three]
  have hent : ∀ i j : Fin 3, R.1 i j = u i * u j + y i * w j + crossProduct u y i * z j := by
    intro i j
    have a1 := hmul u i
    have a2 := hmul w i
    have a3 := hmul z i
    rw [hR] at a1
    rw [← hy] at a2
    rw [hRz] at a3
    rw [a1, a2, a3]
    have e0 := hexp 0 j
    have e1 := hexp 1 j
    have e2 := hexp 2 j
    have : R.1 i j = R.1 i 0 * (if (0 : Fin 3) = j then 1 else 0) + R.1 i 1 * (if (1 : Fin 3) = j then 1 else 0)
        + R.1 i 2 * (if (2 : Fin 3) = j then 1 else 0) := by fin_cases j <;> simp
    rw [this, ← e0, ← e1, ← e2]
    ring
  have hx0 : crossProduct u y 0 = c * z 0 - s * w 0 := by
    have h1 := hyc 1
    have h2 := hyc 2
    have : crossProduct u y 0 = u 1 * y 2 - u 2 * y 1 := by simp [cross_apply]
    rw [this, h1, h2]
    linear_combination s * uz0 - c * z0
  have hx1 : crossProduct u y 1 = c * z 1 - s * w 1 := by
    have h1 := hyc 0
    have h2 := hyc 2
    have : crossProduct u y 1 = u 2 * y 0 - u 0 * y 2 := by simp [cross_apply]
    rw [this, h1, h2]
    linear_combination s * uz1 - c * z1
  have hx2 : crossProduct u y 2 = c * z 2 - s * w 2 := by
    have h1 := hyc 0
    have h2 := hyc 1
    have : crossProduct u y 2 = u 0 * y 1 - u 1 * y 0 := by simp [cross_apply]
    rw [this, h1, h2]
    linear_combination s * uz2 - c * z2
  have hx : ∀ i : Fin 3, crossProduct u y i = c * z i - s * w i := by
    intro i; fin_cases i
    · exact hx0
    · exact hx1
    · exact hx2
  have hR' : ∀ i j : Fin 3, R.1 i j =
      u i * u j + c * ((if i = j then 1 else 0) - u i * u j) + s * (z i * w j - w i * z j) := by
    intro i j
    rw [hent i j, hx i, hyc i, ← hexp i j]
    ring
  ext i j
  rw [hR' i j]
  fin_cases i <;> fin_cases j <;> simp [axisAngle, ha, hb]
  · ring
  · linear_combination s * wz2
  · linear_combination (-s) * wz1
  · linear_combination (-s) * wz2
  · ring
  · linear_combination s * wz0
  · linear_combination s * wz1
  · linear_combination (-s) * wz0
  · ring

theorem axisAngle_neg (u : V3) (a : ℝ) : axisAngle (-u) (-a) = axisAngle u a := by
  ext i j
  fin_cases i <;> fin_cases j <;> simp [axisAngle]

/-- Euler's rotation theorem, with an angle between 0 and pi. -/
theorem exists_axis_angle (R : SO3) : ∃ (u : V3) (a : ℝ), u 0 * u 0 + u 1 * u 1 + u 2 * u 2 = 1 ∧
    0 ≤ a ∧ a ≤ Real.pi ∧ axisAngle u a = R.1 := by
  obtain ⟨u, hu, hR⟩ := exists_fixed R
  obtain ⟨w, hw, huw⟩ := exists_orth u
  obtain ⟨c, s, hcs, h⟩ := angle_of R u w hu hR hw huw
  have hc1 : -1 ≤ c := by nlinarith
  have hc2 : c ≤ 1 := by nlinarith
  have hcos := Real.cos_arccos hc1 hc2
  have hsin : Real.sin (Real.arccos c) = |s| := by
    rw [Real.sin_arccos, ← Real.sqrt_sq_eq_abs]
    congr 1
    nlinarith
  by_cases hs : 0 ≤ s
  · exact ⟨u, Real.arccos c, hu, Real.arccos_nonneg c, Real.arccos_le_pi c,
      h _ hcos (by rw [hsin, abs_of_nonneg hs])⟩
  · refine ⟨-u, Real.arccos c, by simpa using hu, Real.arccos_nonneg c, Real.arccos_le_pi c, ?_⟩
    have := h (-Real.arccos c) (by rw [Real.cos_neg, hcos])
      (by rw [Real.sin_neg, hsin, abs_of_neg (not_le.1 hs), neg_neg])
    rw [← this, ← axisAngle_neg u (-Real.arccos c), neg_neg]

/-- The angle of a rotation can be read from its trace. -/
theorem axisAngle_angle {u : V3} (hu : u 0 * u 0 + u 1 * u 1 + u 2 * u 2 = 1) {a : ℝ} (h0 : 0 ≤ a)
    (h1 : a ≤ Real.pi) : Real.arccos (((axisAngle u a).trace - 1) / 2) = a := by
  have : ((axisAngle u a).trace - 1) / 2 = Real.cos a := by
    simp [axisAngle, Matrix.trace, Fin.sum_univ_three]
    linear_combination (1 - Real.cos a) * hu / 2
  rw [this, Real.arccos_cos h0 h1]

/-- Axes and angles of all rotations. -/
theorem exists_angleAxes : Nonempty AngleAxes := by
  choose u a h using exists_axis_angle
  exact ⟨⟨u, a, fun R => (h R).1, fun R => (h R).2.1, fun R => (h R).2.2.1, fun R => (h R).2.2.2⟩⟩

end Simox.Ik
