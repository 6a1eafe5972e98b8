import Verif.Cst.Lemmas
import Mathlib.Analysis.SpecialFunctions.Trigonometric.Bounds

/-!
# The rate of change of the angle of a rotation
-/

namespace Simox.Cst

open Matrix Kin Kin.Spec Jac Jac.Spec Ik Spec

theorem angle_eq (aa : AngleAxes) (R : SO3) : aa.angle R = Real.arccos ((R.1.trace - 1) / 2) := by
  rw [← aa.eq R, axisAngle_angle (aa.unit R) (aa.nonneg R) (aa.le_pi R)]

theorem trace_eq (aa : AngleAxes) (R : SO3) : (R.1.trace - 1) / 2 = Real.cos (aa.angle R) := by
  rw [← aa.eq R]
  have hu := aa.unit R
  rw [aa.eq R]
  rw [← aa.eq R]
  simp [axisAngle, Matrix.trace, Fin.sum_univ_three]
  linear_combination (1 - Real.cos (aa.angle R)) * hu / 2

theorem trace_inv (R : SO3) : (R⁻¹).1.trace = R.1.trace := by
  have : (R⁻¹).1 = R.1ᵀ := rfl
  rw [this, trace_transpose]

theorem angle_inv (aa : AngleAxes) (R : SO3) : aa.angle R⁻¹ = aa.angle R := by rw [angle_eq, angle_eq, trace_inv]

/-- The trace of a rotation that turns with the angular velocity `ω`. -/
theorem trace_deriv {R : ℝ → SO3} {ω : V3} {x : ℝ} (h : ∀ w : V3, HasDerivAt (fun y => R y • w) (crossProduct ω (R x • w)) x) (aa : AngleAxes) :
    HasDerivAt (fun y => ((R y).1.trace - 1) / 2) (-Real.sin (aa.angle (R x)) * (ω ⬝ᵥ aa.axis (R x))) x := by
  have h0 := comp_deriv (h ![1, 0, 0]) 0
  have h1 := comp_deriv (h ![0, 1, 0]) 1
  have h2 := comp_deriv (h ![0, 0, 1]) 2
  have hs := (((h0.add h1).add h2).sub_const 1).div_const 2
  refine (hs.congr_of_eventuallyEq (Filter.Eventually.of_forall fun y => ?_)).congr_deriv ?_
  · simp [smul_def, Matrix.mulVec, dotProduct, Fin.sum_univ_three, Matrix.trace]
  · have e : ∀ w, R x • w = axisAngle (aa.axis (R x)) (aa.angle (R x)) *ᵥ w := fun w => by rw [aa.eq]; rfl
    simp only [e]
    generalize aa.axis (R x) = u
    generalize aa.angle (R x) = a
    simp [axisAngle, dotProduct, Fin.sum_univ_three, cross_apply]
    ring

/-- The square of the angle of a rotation that turns with the angular velocity `ω` changes with twice the angle times the component of `ω` along the
axis, also where the angle is zero; but not at a half turn. -/
theorem angle_deriv {R : ℝ → SO3} {ω : V3} {x : ℝ} (h : ∀ w : V3, HasDerivAt (fun y => R y • w) (crossProduct ω (R x • w)) x) (aa : AngleAxes)
    (hpi : aa.angle (R x) ≠ Real.pi) :
    HasDerivAt (fun y => aa.angle (R y) * aa.angle (R y)) (2 * aa.angle (R x) * (ω ⬝ᵥ aa.axis (R x))) x := by
  have ht := trace_deriv h aa
  have hlt : aa.angle (R x) < Real.pi := lt_of_le_of_ne (aa.le_pi _) hpi
  rcases (aa.nonneg (R x)).eq_or_lt with h0 | h0
  · rw [← h0] at ht ⊢
    simp only [Real.sin_zero, neg_zero, zero_mul, mul_zero] at ht ⊢
    have hb : (fun y => aa.angle (R y) * aa.angle (R y)) =O[nhds x] fun y => ((R y).1.trace - 1) / 2 - ((R x).1.trace - 1) / 2 := by
      refine Asymptotics.IsBigO.of_bound (Real.pi ^ 2 / 2) (Filter.Eventually.of_forall fun y => ?_)
      rw [trace_eq aa, trace_eq aa (R x), ← h0, Real.cos_zero]
      have := Real.cos_le_one_sub_mul_cos_sq (x := aa.angle (R y)) (by rw [abs_of_nonneg (aa.nonneg _)]; exact aa.le_pi _)
      rw [Real.norm_eq_abs, Real.norm_eq_abs, abs_of_nonneg (mul_self_nonneg _), abs_of_nonpos (by linarith [Real.cos_le_one (aa.angle (R y))])]
      have hp := Real.pi_pos
      have : Real.pi ^ 2 / 2 * (2 / Real.pi ^ 2 * aa.angle (R y) ^ 2) ≤ Real.pi ^ 2 / 2 * -(Real.cos (aa.angle (R y)) - 1) :=
        mul_le_mul_of_nonneg_left (by linarith) (by positivity)
      refine le_trans (le_of_eq ?_) this
      field_simp
    rw [hasDerivAt_iff_isLittleO] at ht ⊢
    simp only [smul_zero, sub_zero] at ht ⊢
    refine (hb.trans_isLittleO ht).congr_left fun y => ?_
    rw [← h0]; ring
  · have hs : 0 < Real.sin (aa.angle (R x)) := Real.sin_pos_of_pos_of_lt_pi h0 hlt
    have hc := Real.sin_sq_add_cos_sq (aa.angle (R x))
    have n1 : Real.cos (aa.angle (R x)) ≠ -1 := fun e => by rw [e] at hc; nlinarith
    have n2 : Real.cos (aa.angle (R x)) ≠ 1 := fun e => by rw [e] at hc; nlinarith
    have ha := Real.hasDerivAt_arccos n1 n2
    rw [← trace_eq aa (R x)] at ha
    have := ha.comp x ht
    have ea : ∀ y, (Real.arccos ∘ fun y => ((R y).1.trace - 1) / 2) y = aa.angle (R y) := fun y => (angle_eq aa (R y)).symm
    have hq : HasDerivAt (fun y => aa.angle (R y)) (ω ⬝ᵥ aa.axis (R x)) x := by
      refine (this.congr_of_eventuallyEq (Filter.Eventually.of_forall fun y => (ea y).symm)).congr_deriv ?_
      rw [trace_eq aa (R x)]
      have : Real.sqrt (1 - Real.cos (aa.angle (R x)) ^ 2) = Real.sin (aa.angle (R x)) := by
        rw [show 1 - Real.cos (aa.angle (R x)) ^ 2 = Real.sin (aa.angle (R x)) ^ 2 by linarith, Real.sqrt_sq hs.le]
      rw [this]
      field_simp
    refine (hq.mul hq).congr_deriv ?_
    ring

end Simox.Cst
