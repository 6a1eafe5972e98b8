/-
Geometry lemmas: orthonormal matrices, projections, the tests for triangles and oriented boxes.
-/
import Verif.Pqp.Spec
import Mathlib.LinearAlgebra.Matrix.NonsingularInverse
import Mathlib.LinearAlgebra.Matrix.Notation
import Mathlib.Tactic.LinearCombination

namespace Simox.Pqp

/-! ### Orthonormal matrices -/

private def toMat (m : M3) : Matrix (Fin 3) (Fin 3) ℝ :=
  !![m.c0.x, m.c1.x, m.c2.x; m.c0.y, m.c1.y, m.c2.y; m.c0.z, m.c1.z, m.c2.z]

/-- Rows of an orthonormal matrix are orthonormal. -/
theorem Orthonormal.rows {m : M3} (h : Orthonormal m) :
    m.c0.x * m.c0.x + m.c1.x * m.c1.x + m.c2.x * m.c2.x = 1 ∧
    m.c0.y * m.c0.y + m.c1.y * m.c1.y + m.c2.y * m.c2.y = 1 ∧
    m.c0.z * m.c0.z + m.c1.z * m.c1.z + m.c2.z * m.c2.z = 1 ∧
    m.c0.x * m.c0.y + m.c1.x * m.c1.y + m.c2.x * m.c2.y = 0 ∧
    m.c0.x * m.c0.z + m.c1.x * m.c1.z + m.c2.x * m.c2.z = 0 ∧
    m.c0.y * m.c0.z + m.c1.y * m.c1.z + m.c2.y * m.c2.z = 0 := by
  obtain ⟨h00, h11, h22, h01, h02, h12⟩ := h
  simp only [dot] at h00 h11 h22 h01 h02 h12
  have e : (toMat m).transpose * toMat m = 1 := by
    ext i j
    fin_cases i <;> fin_cases j <;>
      simp [toMat, Matrix.mul_apply, Fin.sum_univ_three] <;> linarith
  have e' : toMat m * (toMat m).transpose = 1 := mul_eq_one_comm.mp e
  have g := fun i j => congrFun (congrFun e' i) j
  have g00 := g 0 0
  have g11 := g 1 1
  have g22 := g 2 2
  have g01 := g 0 1
  have g02 := g 0 2
  have g12 := g 1 2
  simp [toMat, Matrix.mul_apply, Fin.sum_univ_three] at g00 g11 g22 g01 g02 g12
  exact ⟨g00, g11, g22, g01, g02, g12⟩

theorem tmulV_mulV {m : M3} (h : Orthonormal m) (v : V3) : tmulV m (mulV m v) = v := by
  obtain ⟨h00, h11, h22, h01, h02, h12⟩ := h
  simp only [dot] at h00 h11 h22 h01 h02 h12
  ext <;> simp only [tmulV, mulV, dot]
  · linear_combination v.x * h00 + v.y * h01 + v.z * h02
  · linear_combination v.x * h01 + v.y * h11 + v.z * h12
  · linear_combination v.x * h02 + v.y * h12 + v.z * h22

theorem mulV_tmulV {m : M3} (h : Orthonormal m) (v : V3) : mulV m (tmulV m v) = v := by
  obtain ⟨r00, r11, r22, r01, r02, r12⟩ := h.rows
  ext <;> simp only [tmulV, mulV, dot]
  · linear_combination v.x * r00 + v.y * r01 + v.z * r02
  · linear_combination v.x * r01 + v.y * r11 + v.z * r12
  · linear_combination v.x * r02 + v.y * r12 + v.z * r22

theorem dot_mulV {m : M3} (h : Orthonormal m) (u v : V3) : dot (mulV m u) (mulV m v) = dot u v := by
  obtain ⟨h00, h11, h22, h01, h02, h12⟩ := h
  simp only [dot] at h00 h11 h22 h01 h02 h12
  simp only [dot, mulV]
  linear_combination u.x * v.x * h00 + u.y * v.y * h11 + u.z * v.z * h22
    + (u.x * v.y + u.y * v.x) * h01 + (u.x * v.z + u.z * v.x) * h02 + (u.y * v.z + u.z * v.y) * h12

theorem dot_tmulV {m : M3} (h : Orthonormal m) (u v : V3) : dot (tmulV m u) (tmulV m v) = dot u v := by
  rw [← dot_mulV h, mulV_tmulV h, mulV_tmulV h]

theorem Orthonormal.mul {a b : M3} (ha : Orthonormal a) (hb : Orthonormal b) :
    Orthonormal (mulM a b) := by
  obtain ⟨h00, h11, h22, h01, h02, h12⟩ := hb
  simp only [Orthonormal, mulM, dot_mulV ha]
  exact ⟨h00, h11, h22, h01, h02, h12⟩

theorem Orthonormal.tmul {a b : M3} (ha : Orthonormal a) (hb : Orthonormal b) :
    Orthonormal (tmulM a b) := by
  obtain ⟨h00, h11, h22, h01, h02, h12⟩ := hb
  simp only [Orthonormal, tmulM, dot_tmulV ha]
  exact ⟨h00, h11, h22, h01, h02, h12⟩

theorem Orthonormal.one : Orthonormal one3 := by
  simp [Orthonormal, one3, dot]

/-- The third column is, up to sign, the cross product of the others. -/
theorem Orthonormal.cross {m : M3} (h : Orthonormal m) :
    ∃ s : ℝ, (s = 1 ∨ s = -1) ∧ cross m.c0 m.c1 = vscale m.c2 s ∧ cross m.c1 m.c2 = vscale m.c0 s ∧
      cross m.c2 m.c0 = vscale m.c1 s := by
  obtain ⟨h00, h11, h22, h01, h02, h12⟩ := h
  obtain ⟨r00, r11, r22, r01, r02, r12⟩ := Orthonormal.rows ⟨h00, h11, h22, h01, h02, h12⟩
  simp only [dot] at h00 h11 h22 h01 h02 h12
  obtain ⟨⟨a, b, c⟩, ⟨d, e, f⟩, ⟨g, i, j⟩⟩ := m
  simp only at *
  have hs : ∃ s : ℝ, s = a * (e * j - f * i) + b * (f * g - d * j) + c * (d * i - e * g) := ⟨_, rfl⟩
  obtain ⟨s, hs⟩ := hs
  have c2x : b * f - c * e = g * s := by
    rw [hs]; linear_combination (-(b * f - c * e)) * r00 - (c * d - a * f) * r01 - (a * e - b * d) * r02
  have c2y : c * d - a * f = i * s := by
    rw [hs]; linear_combination (-(b * f - c * e)) * r01 - (c * d - a * f) * r11 - (a * e - b * d) * r12
  have c2z : a * e - b * d = j * s := by
    rw [hs]; linear_combination (-(b * f - c * e)) * r02 - (c * d - a * f) * r12 - (a * e - b * d) * r22
  have c0x : e * j - f * i = a * s := by
    rw [hs]; linear_combination (-(e * j - f * i)) * r00 - (f * g - d * j) * r01 - (d * i - e * g) * r02
  have c0y : f * g - d * j = b * s := by
    rw [hs]; linear_combination (-(e * j - f * i)) * r01 - (f * g - d * j) * r11 - (d * i - e * g) * r12
  have c0z : d * i - e * g = c * s := by
    rw [hs]; linear_combination (-(e * j - f * i)) * r02 - (f * g - d * j) * r12 - (d * i - e * g) * r22
  have c1x : i * c - j * b = d * s := by
    rw [hs]; linear_combination (-(i * c - j * b)) * r00 - (j * a - g * c) * r01 - (g * b - i * a) * r02
  have c1y : j * a - g * c = e * s := by
    rw [hs]; linear_combination (-(i * c - j * b)) * r01 - (j * a - g * c) * r11 - (g * b - i * a) * r12
  have c1z : g * b - i * a = f * s := by
    rw [hs]; linear_combination (-(i * c - j * b)) * r02 - (j * a - g * c) * r12 - (g * b - i * a) * r22
  have ss : s * s = 1 := by
    have : a * (e * j - f * i) + b * (f * g - d * j) + c * (d * i - e * g) = s := hs.symm
    have key : (e * j - f * i) ^ 2 + (f * g - d * j) ^ 2 + (d * i - e * g) ^ 2 = 1 := by
      linear_combination (g * g + i * i + j * j) * h11 + h22 - (d * g + e * i + f * j) * h12
    rw [c0x, c0y, c0z] at key
    linear_combination key - s ^ 2 * h00
  refine ⟨s, mul_self_eq_one_iff.mp ss, ?_, ?_, ?_⟩
  · ext <;> simp only [Pqp.cross, vscale] <;> assumption
  · ext <;> simp only [Pqp.cross, vscale] <;> assumption
  · ext <;> simp only [Pqp.cross, vscale] <;> assumption

end Simox.Pqp
