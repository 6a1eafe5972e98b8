import Verif.Mth.Geo
import Verif.Rot.RpyLemmas
import Verif.Rot.DirLemmas

/-! # Lemmas about homogeneous matrices built from position and orientation -/

namespace Simox.Mth

open Matrix Jac Rot

theorem position_mkPose (p : V3) (r : M3) : position (mkPose p r) = p := by
  ext i; fin_cases i <;> rfl

theorem orientation_mkPose (p : V3) (r : M3) : orientation (mkPose p r) = r := by
  ext i j; fin_cases i <;> fin_cases j <;> rfl

theorem mkPose_eq {m : M4} (h : m 3 = ![0, 0, 0, 1]) : mkPose (position m) (orientation m) = m := by
  have h0 := congrFun h 0
  have h1 := congrFun h 1
  have h2 := congrFun h 2
  have h3 := congrFun h 3
  simp at h0 h1 h2 h3
  ext i j
  fin_cases i <;> fin_cases j <;>
    simp [mkPose, setOrientation, setPosition, setPos, position, orientation, rot3, h0, h1, h2, h3]

theorem mkPose_last (p : V3) (r : M3) : (mkPose p r) 3 = ![0, 0, 0, 1] := by
  ext j; fin_cases j <;> simp [mkPose, setOrientation, setPosition, setPos]

theorem rotPart_mkPose (p : V3) (r : M3) :
    (mkPose p r).submatrix Fin.castSucc Fin.castSucc = r := by
  ext i j; fin_cases i <;> fin_cases j <;> rfl

theorem isPose_mkPose {p : V3} {r : M3} : IsPose (mkPose p r) ↔ r ∈ Matrix.specialOrthogonalGroup (Fin 3) ℝ := by
  rw [IsPose, rotPart_mkPose]
  exact ⟨fun h => h.1, fun h => ⟨h, mkPose_last p r⟩⟩

theorem mkPose_mul (p q : V3) (r s : M3) : mkPose p r * mkPose q s = mkPose (r *ᵥ q + p) (r * s) := by
  ext i j
  fin_cases i <;> fin_cases j <;>
    simp [mkPose, setOrientation, setPosition, setPos, Matrix.mul_apply, Fin.sum_univ_four, Fin.sum_univ_three,
      Matrix.mulVec, dotProduct]

theorem mkPose_one : mkPose 0 1 = 1 := by
  ext i j
  fin_cases i <;> fin_cases j <;> simp [mkPose, setOrientation, setPosition, setPos]

theorem transformPosition_mkPose (p x : V3) (r : M3) : transformPosition (mkPose p r) x = r *ᵥ x + p := by
  ext i
  fin_cases i <;>
    simp [transformPosition, mkPose, setOrientation, setPosition, setPos, Matrix.mulVec, dotProduct,
      Fin.sum_univ_four, Fin.sum_univ_three]

theorem invertedPose_mkPose (p : V3) (r : M3) : invertedPose (mkPose p r) = mkPose (-(rᵀ *ᵥ p)) rᵀ := by
  ext i j
  fin_cases i <;> fin_cases j <;>
    simp [invertedPose, position, orientation, rot3, mkPose, setOrientation, setPosition, setPos, Matrix.mulVec,
      dotProduct, Fin.sum_univ_three]

theorem so_mul_transpose {r : M3} (h : r ∈ Matrix.specialOrthogonalGroup (Fin 3) ℝ) : r * rᵀ = 1 := by
  rw [Matrix.mem_specialOrthogonalGroup_iff, Matrix.mem_orthogonalGroup_iff] at h
  exact h.1

theorem so_transpose_mul {r : M3} (h : r ∈ Matrix.specialOrthogonalGroup (Fin 3) ℝ) : rᵀ * r = 1 := by
  rw [Matrix.mem_specialOrthogonalGroup_iff, Matrix.mem_orthogonalGroup_iff'] at h
  exact h.1

theorem so_transpose {r : M3} (h : r ∈ Matrix.specialOrthogonalGroup (Fin 3) ℝ) :
    rᵀ ∈ Matrix.specialOrthogonalGroup (Fin 3) ℝ := by
  have h2 := so_transpose_mul h
  rw [Matrix.mem_specialOrthogonalGroup_iff, Matrix.mem_orthogonalGroup_iff] at *
  exact ⟨by simpa using h2, by rw [Matrix.det_transpose]; exact h.2⟩

theorem so_mul {r s : M3} (h : r ∈ Matrix.specialOrthogonalGroup (Fin 3) ℝ)
    (h' : s ∈ Matrix.specialOrthogonalGroup (Fin 3) ℝ) : r * s ∈ Matrix.specialOrthogonalGroup (Fin 3) ℝ :=
  mul_mem h h'

theorem so_dot {r : M3} (h : r ∈ Matrix.specialOrthogonalGroup (Fin 3) ℝ) (v w : V3) :
    (r *ᵥ v) ⬝ᵥ (r *ᵥ w) = v ⬝ᵥ w := by
  rw [Matrix.dotProduct_mulVec, ← Matrix.mulVec_transpose, Matrix.mulVec_mulVec, so_transpose_mul h,
    Matrix.one_mulVec]

theorem so_nrm {r : M3} (h : r ∈ Matrix.specialOrthogonalGroup (Fin 3) ℝ) (v : V3) : nrm (r *ᵥ v) = nrm v := by
  simp only [nrm]; rw [so_dot h]

end Simox.Mth
