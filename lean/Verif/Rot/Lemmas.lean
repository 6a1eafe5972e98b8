import Verif.Rot.Spec
import Verif.Ik.Angle
import Mathlib.LinearAlgebra.Matrix.Adjugate
import Mathlib.Analysis.SpecialFunctions.Trigonometric.Bounds

/-!
# Rotations: lemmas
-/

namespace Simox.Rot

open Matrix Jac

/-- What the entries of a rotation matrix satisfy. -/
structure Entries (a b c d e f g h i : ℝ) : Prop where
  c0 : a * a + d * d + g * g = 1
  c1 : b * b + e * e + h * h = 1
  c2 : c * c + f * f + i * i = 1
  c01 : a * b + d * e + g * h = 0
  c02 : a * c + d * f + g * i = 0
  c12 : b * c + e * f + h * i = 0
  r0 : a * a + b * b + c * c = 1
  r1 : d * d + e * e + f * f = 1
  r2 : g * g + h * h + i * i = 1
  r01 : a * d + b * e + c * f = 0
  r02 : a * g + b * h + c * i = 0
  r12 : d * g + e * h + f * i = 0
  ka : e * i - f * h = a
  kb : f * g - d * i = b
  kc : d * h - e * g = c
  kd : c * h - b * i = d
  ke : a * i - c * g = e
  kf : b * g - a * h = f
  kg : b * f - c * e = g
  kh : c * d - a * f = h
  ki : a * e - b * d = i

theorem entries_of (m : M3) (hm : m ∈ Matrix.specialOrthogonalGroup (Fin 3) ℝ) :
    Entries (m 0 0) (m 0 1) (m 0 2) (m 1 0) (m 1 1) (m 1 2) (m 2 0) (m 2 1) (m 2 2) := by
  rw [Matrix.mem_specialOrthogonalGroup_iff] at hm
  obtain ⟨ho, hd⟩ := hm
  have h1 : m * mᵀ = 1 := by rw [Matrix.mem_orthogonalGroup_iff] at ho; exact ho
  have h2 : mᵀ * m = 1 := by rw [Matrix.mem_orthogonalGroup_iff'] at ho; exact ho
  have h3 : m.adjugate = mᵀ := by
    have := Matrix.mul_adjugate m
    rw [hd, one_smul] at this
    calc m.adjugate = (mᵀ * m) * m.adjugate := by rw [h2, Matrix.one_mul]
      _ = mᵀ * (m * m.adjugate) := Matrix.mul_assoc _ _ _
      _ = mᵀ := by rw [this, Matrix.mul_one]
  have e1 : ∀ i j, m i 0 * m j 0 + m i 1 * m j 1 + m i 2 * m j 2 = (1 : M3) i j := by
    intro i j
    rw [← h1, Matrix.mul_apply, Fin.sum_univ_three]; rfl
  have e2 : ∀ i j, m 0 i * m 0 j + m 1 i * m 1 j + m 2 i * m 2 j = (1 : M3) i j := by
    intro i j
    rw [← h2, Matrix.mul_apply, Fin.sum_univ_three]; rfl
  rw [Matrix.adjugate_fin_three] at h3
  have e3 : ∀ i j, _ = m j i := fun i j => congrFun (congrFun h3 i) j
  constructor
  · simpa using e2 0 0
  · simpa using e2 1 1
  · simpa using e2 2 2
  · simpa using e2 0 1
  · simpa using e2 0 2
  · simpa using e2 1 2
  · simpa using e1 0 0
  · simpa using e1 1 1
  · simpa using e1 2 2
  · simpa using e1 0 1
  · simpa using e1 0 2
  · simpa using e1 1 2
  · have := e3 0 0; simp at this; linarith
  · have := e3 1 0; simp at this; linarith
  · have := e3 2 0; simp at this; linarith
  · have := e3 0 1; simp at this; linarith
  · have := e3 1 1; simp at this; linarith
  · have := e3 2 1; simp at this; linarith
  · have := e3 0 2; simp at this; linarith
  · have := e3 1 2; simp at this; linarith
  · have := e3 2 2; simp at this; linarith

theorem norm_mk (x y : ℝ) : ‖(⟨x, y⟩ : ℂ)‖ = Real.sqrt (x * x + y * y) := by
  rw [Complex.norm_def, Complex.normSq_mk]

theorem sin_atan2 (y x : ℝ) : Real.sqrt (x * x + y * y) * Real.sin (atan2 y x) = y := by
  rw [atan2, Complex.sin_arg, norm_mk]
  by_cases h : Real.sqrt (x * x + y * y) = 0
  · rw [h, zero_mul]
    rw [Real.sqrt_eq_zero (by nlinarith)] at h
    nlinarith
  · exact mul_div_cancel₀ _ h

theorem cos_atan2 (y x : ℝ) : Real.sqrt (x * x + y * y) * Real.cos (atan2 y x) = x := by
  rw [atan2]
  by_cases h : (⟨x, y⟩ : ℂ) = 0
  · have := congrArg Complex.re h
    have := congrArg Complex.im h
    simp_all
  · rw [Complex.cos_arg h, norm_mk]
    refine mul_div_cancel₀ _ ?_
    rw [← norm_mk]
    exact norm_ne_zero_iff.2 h

theorem sin_atan2_one {y x : ℝ} (h : x * x + y * y = 1) : Real.sin (atan2 y x) = y := by
  have := sin_atan2 y x
  rwa [h, Real.sqrt_one, one_mul] at this

theorem cos_atan2_one {y x : ℝ} (h : x * x + y * y = 1) : Real.cos (atan2 y x) = x := by
  have := cos_atan2 y x
  rwa [h, Real.sqrt_one, one_mul] at this

theorem atan2_cos_sin {r a : ℝ} (hr : 0 < r) (h1 : -Real.pi < a) (h2 : a ≤ Real.pi) :
    atan2 (r * Real.sin a) (r * Real.cos a) = a := by
  rw [atan2]
  have : (⟨r * Real.cos a, r * Real.sin a⟩ : ℂ) = r * (Complex.cos a + Complex.sin a * Complex.I) := by
    apply Complex.ext
    · simp [Complex.cos_ofReal_re, Complex.sin_ofReal_re]
    · simp [Complex.cos_ofReal_re, Complex.sin_ofReal_re]
  rw [this, Complex.arg_mul_cos_add_sin_mul_I hr ⟨h1, h2⟩]

theorem atan2_lt (y x : ℝ) : -Real.pi < atan2 y x := Complex.neg_pi_lt_arg _
theorem atan2_le (y x : ℝ) : atan2 y x ≤ Real.pi := Complex.arg_le_pi _

end Simox.Rot
