import Verif.Rot.RpyLemmas

/-!
# Quaternions: lemmas
-/

namespace Simox.Rot

open Matrix Jac

theorem toRotationMatrix_eq (q : Quat) : toRotationMatrix q =
    !![1 - 2 * (q.y ^ 2 + q.z ^ 2), 2 * (q.x * q.y - q.z * q.w), 2 * (q.x * q.z + q.y * q.w);
       2 * (q.x * q.y + q.z * q.w), 1 - 2 * (q.x ^ 2 + q.z ^ 2), 2 * (q.y * q.z - q.x * q.w);
       2 * (q.x * q.z - q.y * q.w), 2 * (q.y * q.z + q.x * q.w), 1 - 2 * (q.x ^ 2 + q.y ^ 2)] := by
  ext i j
  fin_cases i <;> fin_cases j <;> simp [toRotationMatrix] <;> ring

theorem toRotationMatrix_mem {q : Quat} (h : q.Unit) :
    toRotationMatrix q ∈ Matrix.specialOrthogonalGroup (Fin 3) ℝ := by
  rw [toRotationMatrix_eq, Matrix.mem_specialOrthogonalGroup_iff, Matrix.mem_orthogonalGroup_iff]
  obtain ⟨x, y, z, w⟩ := q
  have h : x ^ 2 + y ^ 2 + z ^ 2 + w ^ 2 = 1 := h
  have hw : w ^ 2 = 1 - x ^ 2 - y ^ 2 - z ^ 2 := by linarith
  constructor
  · ext i j
    fin_cases i <;> fin_cases j <;> simp [Matrix.mul_apply, Fin.sum_univ_three] <;> ring_nf <;>
      simp only [hw] <;> ring
  · rw [Matrix.det_fin_three]
    simp
    ring_nf
    simp only [hw]
    ring

theorem toRotationMatrix_mul {p q : Quat} (hp : p.Unit) (hq : q.Unit) :
    toRotationMatrix (multiplyQuaternions p q) = toRotationMatrix p * toRotationMatrix q := by
  simp only [toRotationMatrix_eq]
  obtain ⟨a, b, c, d⟩ := p
  obtain ⟨x, y, z, w⟩ := q
  have hp : a ^ 2 + b ^ 2 + c ^ 2 + d ^ 2 = 1 := hp
  have hq : x ^ 2 + y ^ 2 + z ^ 2 + w ^ 2 = 1 := hq
  have hd : d ^ 2 = 1 - a ^ 2 - b ^ 2 - c ^ 2 := by linarith
  have hw : w ^ 2 = 1 - x ^ 2 - y ^ 2 - z ^ 2 := by linarith
  ext i j
  fin_cases i <;> fin_cases j <;> simp [multiplyQuaternions, Matrix.mul_apply, Fin.sum_univ_three] <;>
    ring_nf <;> simp only [hd, hw] <;> ring

theorem toRotationMatrix_neg (q : Quat) : toRotationMatrix q.neg = toRotationMatrix q := by
  simp only [toRotationMatrix_eq]
  ext i j
  fin_cases i <;> fin_cases j <;> simp [Quat.neg]

theorem toRotationMatrix_conj (q : Quat) : toRotationMatrix (getConjugated q) = (toRotationMatrix q)ᵀ := by
  simp only [toRotationMatrix_eq]
  ext i j
  fin_cases i <;> fin_cases j <;> simp [getConjugated] <;> ring

theorem inverse_of_unit {q : Quat} (h : q.Unit) : getInverse q = getConjugated q := by
  have h1 : q.x * q.x + q.y * q.y + q.z * q.z + q.w * q.w = 1 := by
    have : q.x ^ 2 + q.y ^ 2 + q.z ^ 2 + q.w ^ 2 = 1 := h
    linarith
  simp [getInverse, h1]

theorem scale_sign {a b : ℝ} (hb : b ≠ 0) : 4 * (a * b) * (0.5 / (2 * |b|)) = a * (b / |b|) := by
  have : |b| ≠ 0 := abs_ne_zero.2 hb
  field_simp; norm_num; ring

theorem half_two_abs (b : ℝ) (hb : b ≠ 0) : 0.5 * (2 * |b|) = b * (b / |b|) := by
  have : |b| ≠ 0 := abs_ne_zero.2 hb
  field_simp; rw [sq_abs]; norm_num

theorem sqrt_four (b : ℝ) : Real.sqrt (4 * b ^ 2) = 2 * |b| := by
  rw [show 4 * b ^ 2 = (2 * b) ^ 2 by ring, Real.sqrt_sq_eq_abs, abs_mul]; norm_num

theorem sign_cases {b : ℝ} (hb : b ≠ 0) : b / |b| = 1 ∨ b / |b| = -1 := by
  rcases lt_or_gt_of_ne hb with h | h
  · right; rw [abs_of_neg h]; field_simp
  · left; rw [abs_of_pos h]; field_simp

/-- Eigen's conversion of the matrix of a unit quaternion gives the quaternion back, or its negative. -/
theorem quatOfMatrix_unit {q : Quat} (h : q.Unit) :
    quatOfMatrix (toRotationMatrix q) = q ∨ quatOfMatrix (toRotationMatrix q) = q.neg := by
  obtain ⟨x, y, z, w⟩ := q
  have h : x ^ 2 + y ^ 2 + z ^ 2 + w ^ 2 = 1 := h
  have fin : ∀ k : ℝ, (k = 1 ∨ k = -1) → ∀ r : Quat, r = ⟨x * k, y * k, z * k, w * k⟩ →
      r = ⟨x, y, z, w⟩ ∨ r = Quat.neg ⟨x, y, z, w⟩ := by
    rintro k (rfl | rfl) r rfl
    · left; simp
    · right; simp [Quat.neg]
  rw [toRotationMatrix_eq]
  simp only [quatOfMatrix]
  simp only [Matrix.of_apply, Matrix.cons_val', Matrix.cons_val_zero, Matrix.cons_val_one, Matrix.cons_val]
  have t1 : 1 - 2 * (y ^ 2 + z ^ 2) + (1 - 2 * (x ^ 2 + z ^ 2)) + (1 - 2 * (x ^ 2 + y ^ 2)) = 4 * w ^ 2 - 1 := by
    linarith
  have s0 : 1 - 2 * (y ^ 2 + z ^ 2) - (1 - 2 * (x ^ 2 + z ^ 2)) - (1 - 2 * (x ^ 2 + y ^ 2)) + 1 = 4 * x ^ 2 := by
    ring
  have s1 : 1 - 2 * (x ^ 2 + z ^ 2) - (1 - 2 * (x ^ 2 + y ^ 2)) - (1 - 2 * (y ^ 2 + z ^ 2)) + 1 = 4 * y ^ 2 := by
    ring
  have s2 : 1 - 2 * (x ^ 2 + y ^ 2) - (1 - 2 * (y ^ 2 + z ^ 2)) - (1 - 2 * (x ^ 2 + z ^ 2)) + 1 = 4 * z ^ 2 := by
    ring
  rw [t1, s0, s1, s2, sqrt_four, sqrt_four, sqrt_four, show 4 * w ^ 2 - 1 + 1 = 4 * w ^ 2 by ring, sqrt_four]
  have e1 : 2 * (y * z + x * w) - 2 * (y * z - x * w) = 4 * (x * w) := by ring
  have e2 : 2 * (x * z + y * w) - 2 * (x * z - y * w) = 4 * (y * w) := by ring
  have e3 : 2 * (x * y + z * w) - 2 * (x * y - z * w) = 4 * (z * w) := by ring
  have e4 : 2 * (x * y + z * w) + 2 * (x * y - z * w) = 4 * (x * y) := by ring
  have e5 : 2 * (x * z - y * w) + 2 * (x * z + y * w) = 4 * (x * z) := by ring
  have e6 : 2 * (x * y - z * w) + 2 * (x * y + z * w) = 4 * (x * y) := by ring
  have e7 : 2 * (y * z + x * w) + 2 * (y * z - x * w) = 4 * (y * z) := by ring
  have e8 : 2 * (x * z + y * w) + 2 * (x * z - y * w) = 4 * (x * z) := by ring
  have e9 : 2 * (y * z - x * w) + 2 * (y * z + x * w) = 4 * (y * z) := by ring
  rw [e1, e2, e3, e4, e5, e6, e7, e8, e9]
  by_cases ht : 4 * w ^ 2 - 1 > 0
  · rw [if_pos ht]
    have hw : w ≠ 0 := by rintro rfl; norm_num at ht
    refine fin (w / |w|) (sign_cases hw) _ ?_
    rw [scale_sign hw, scale_sign hw, scale_sign hw, half_two_abs w hw]
  · rw [if_neg ht]
    have caseX : x ≠ 0 → (⟨0.5 * (2 * |x|), 4 * (x * y) * (0.5 / (2 * |x|)), 4 * (x * z) * (0.5 / (2 * |x|)),
        4 * (x * w) * (0.5 / (2 * |x|))⟩ : Quat) = ⟨x, y, z, w⟩ ∨
        (⟨0.5 * (2 * |x|), 4 * (x * y) * (0.5 / (2 * |x|)), 4 * (x * z) * (0.5 / (2 * |x|)),
        4 * (x * w) * (0.5 / (2 * |x|))⟩ : Quat) = Quat.neg ⟨x, y, z, w⟩ := by
      intro hx
      refine fin (x / |x|) (sign_cases hx) _ ?_
      rw [mul_comm x y, mul_comm x z, mul_comm x w, scale_sign hx, scale_sign hx, scale_sign hx, half_two_abs x hx]
    have caseY : y ≠ 0 → (⟨4 * (x * y) * (0.5 / (2 * |y|)), 0.5 * (2 * |y|), 4 * (y * z) * (0.5 / (2 * |y|)),
        4 * (y * w) * (0.5 / (2 * |y|))⟩ : Quat) = ⟨x, y, z, w⟩ ∨
        (⟨4 * (x * y) * (0.5 / (2 * |y|)), 0.5 * (2 * |y|), 4 * (y * z) * (0.5 / (2 * |y|)),
        4 * (y * w) * (0.5 / (2 * |y|))⟩ : Quat) = Quat.neg ⟨x, y, z, w⟩ := by
      intro hx
      refine fin (y / |y|) (sign_cases hx) _ ?_
      rw [mul_comm y z, mul_comm y w, scale_sign hx, scale_sign hx, scale_sign hx, half_two_abs y hx]
    have caseZ : z ≠ 0 → (⟨4 * (x * z) * (0.5 / (2 * |z|)), 4 * (y * z) * (0.5 / (2 * |z|)), 0.5 * (2 * |z|),
        4 * (z * w) * (0.5 / (2 * |z|))⟩ : Quat) = ⟨x, y, z, w⟩ ∨
        (⟨4 * (x * z) * (0.5 / (2 * |z|)), 4 * (y * z) * (0.5 / (2 * |z|)), 0.5 * (2 * |z|),
        4 * (z * w) * (0.5 / (2 * |z|))⟩ : Quat) = Quat.neg ⟨x, y, z, w⟩ := by
      intro hx
      refine fin (z / |z|) (sign_cases hx) _ ?_
      rw [mul_comm z w, scale_sign hx, scale_sign hx, scale_sign hx, half_two_abs z hx]
    by_cases h1 : 1 - 2 * (x ^ 2 + z ^ 2) > 1 - 2 * (y ^ 2 + z ^ 2)
    · simp only [if_pos h1, if_true]
      by_cases h2 : 1 - 2 * (x ^ 2 + y ^ 2) > 1 - 2 * (x ^ 2 + z ^ 2)
      · simp only [if_pos h2]
        exact caseZ (by rintro rfl; nlinarith [sq_nonneg y])
      · simp only [if_neg h2]
        exact caseY (by rintro rfl; nlinarith [sq_nonneg x])
    · simp only [if_neg h1]
      by_cases h2 : 1 - 2 * (x ^ 2 + y ^ 2) > 1 - 2 * (y ^ 2 + z ^ 2)
      · have : 1 - 2 * (x ^ 2 + y ^ 2) > (if (0 : ℕ) = 1 then 1 - 2 * (x ^ 2 + z ^ 2) else 1 - 2 * (y ^ 2 + z ^ 2)) := by
          rw [if_neg (by decide)]; exact h2
        simp only [if_pos this]
        exact caseZ (by rintro rfl; nlinarith [sq_nonneg x])
      · have : ¬ 1 - 2 * (x ^ 2 + y ^ 2) > (if (0 : ℕ) = 1 then 1 - 2 * (x ^ 2 + z ^ 2) else 1 - 2 * (y ^ 2 + z ^ 2)) := by
          rw [if_neg (by decide)]; exact h2
        simp only [if_neg this, if_true]
        refine caseX ?_
        rintro rfl
        nlinarith [sq_nonneg y, sq_nonneg z]

/-- The quaternion of a rotation about an axis. -/
theorem axisAngle_quat (u : V3) (a : ℝ) :
    toRotationMatrix ⟨u 0 * Real.sin (a / 2), u 1 * Real.sin (a / 2), u 2 * Real.sin (a / 2), Real.cos (a / 2)⟩ =
      axisAngle u a + ((u 0 * u 0 + u 1 * u 1 + u 2 * u 2 - 1) * (Real.cos a - 1)) • (1 : M3) := by
  have hc : Real.cos a = 1 - 2 * Real.sin (a / 2) ^ 2 := by
    have := Real.cos_sq' (a / 2)
    have h2 := Real.cos_two_mul (a / 2)
    rw [show 2 * (a / 2) = a by ring] at h2
    linarith
  have hs : Real.sin a = 2 * Real.sin (a / 2) * Real.cos (a / 2) := by
    have h2 := Real.sin_two_mul (a / 2)
    rwa [show 2 * (a / 2) = a by ring] at h2
  rw [toRotationMatrix_eq]
  ext i j
  fin_cases i <;> fin_cases j <;> simp [axisAngle, hc, hs] <;> ring

theorem axisAngle_quat_unit {u : V3} (hu : u 0 * u 0 + u 1 * u 1 + u 2 * u 2 = 1) (a : ℝ) :
    Quat.Unit ⟨u 0 * Real.sin (a / 2), u 1 * Real.sin (a / 2), u 2 * Real.sin (a / 2), Real.cos (a / 2)⟩ := by
  have := Real.sin_sq_add_cos_sq (a / 2)
  change (u 0 * Real.sin (a / 2)) ^ 2 + (u 1 * Real.sin (a / 2)) ^ 2 + (u 2 * Real.sin (a / 2)) ^ 2 +
    Real.cos (a / 2) ^ 2 = 1
  linear_combination this + Real.sin (a / 2) ^ 2 * hu

/-- Every rotation has a unit quaternion. -/
theorem exists_quat (m : M3) (hm : m ∈ Matrix.specialOrthogonalGroup (Fin 3) ℝ) :
    ∃ q : Quat, q.Unit ∧ toRotationMatrix q = m := by
  obtain ⟨u, a, hu, -, -, h⟩ := Ik.exists_axis_angle ⟨m, hm⟩
  refine ⟨_, axisAngle_quat_unit hu a, ?_⟩
  rw [axisAngle_quat, hu]
  simp only [sub_self, zero_mul, zero_smul, add_zero]
  exact h

theorem neg_unit {q : Quat} (h : q.Unit) : q.neg.Unit := by
  have h : q.x ^ 2 + q.y ^ 2 + q.z ^ 2 + q.w ^ 2 = 1 := h
  change (-q.x) ^ 2 + (-q.y) ^ 2 + (-q.z) ^ 2 + (-q.w) ^ 2 = 1
  linarith

theorem quatOfMatrix_spec {m : M3} (hm : m ∈ Matrix.specialOrthogonalGroup (Fin 3) ℝ) :
    (quatOfMatrix m).Unit ∧ toRotationMatrix (quatOfMatrix m) = m := by
  obtain ⟨q, hq, rfl⟩ := exists_quat m hm
  rcases quatOfMatrix_unit hq with h | h
  · rw [h]; exact ⟨hq, rfl⟩
  · rw [h]; exact ⟨neg_unit hq, toRotationMatrix_neg q⟩

end Simox.Rot
