import Verif.Inv.Model
import Mathlib.Analysis.Matrix.Spectrum
import Mathlib.LinearAlgebra.Matrix.DotProduct

/-!
# Every matrix has a thin singular value decomposition

So the assumption the model makes about Eigen can be met (`exists_svds`).
-/

namespace Simox.Inv

open Matrix

theorem svd_tall {m n : Nat} (hmn : n ≤ m) (A : Matrix (Fin m) (Fin n) ℝ) :
    ∃ (U : Matrix (Fin m) (Fin n) ℝ) (V : Matrix (Fin n) (Fin n) ℝ) (sv : Fin n → ℝ),
      Uᵀ * U = 1 ∧ Vᵀ * V = 1 ∧ (∀ i, 0 ≤ sv i) ∧ A = U * diagonal sv * Vᵀ := by
  have hA : (Aᵀ * A).IsHermitian := by
    have := Matrix.isHermitian_conjTranspose_mul_self A
    rwa [Matrix.conjTranspose_eq_transpose_of_trivial] at this
  let B := hA.eigenvectorBasis
  let v : Fin n → Fin n → ℝ := fun i => ⇑(B i)
  have hv : ∀ i j, v i ⬝ᵥ v j = if i = j then 1 else 0 := by
    intro i j
    have := orthonormal_iff_ite.1 B.orthonormal j i
    rw [EuclideanSpace.inner_eq_star_dotProduct] at this
    simp only [star_trivial] at this
    rw [show (if i = j then (1:ℝ) else 0) = if j = i then 1 else 0 by simp [eq_comm], ← this]
  have hAv : ∀ i j, (A *ᵥ v i) ⬝ᵥ (A *ᵥ v j) = if i = j then hA.eigenvalues j else 0 := by
    intro i j
    have e : (A *ᵥ v i) ⬝ᵥ (A *ᵥ v j) = v i ⬝ᵥ ((Aᵀ * A) *ᵥ v j) := by
      rw [← Matrix.mulVec_mulVec, Matrix.dotProduct_mulVec (v i), Matrix.vecMul_transpose]
    rw [e]
    have := hA.mulVec_eigenvectorBasis j
    rw [show v j = ⇑(hA.eigenvectorBasis j) from rfl, this, dotProduct_smul]
    have h2 := hv i j
    rw [show v j = ⇑(hA.eigenvectorBasis j) from rfl] at h2
    rw [h2]
    split <;> simp
  have hnn : ∀ i, 0 ≤ hA.eigenvalues i := by
    intro i
    have := hAv i i
    rw [if_pos rfl] at this
    rw [← this]
    exact Finset.sum_nonneg fun k _ => mul_self_nonneg _
  let sv : Fin n → ℝ := fun i => Real.sqrt (hA.eigenvalues i)
  have hsv : ∀ i, sv i * sv i = hA.eigenvalues i := fun i => Real.mul_self_sqrt (hnn i)
  let c : Fin n → Fin m := Fin.castLE hmn
  have hc : Function.Injective c := Fin.castLE_injective hmn
  let w : Fin m → EuclideanSpace ℝ (Fin m) := fun a =>
    if h : a.1 < n then WithLp.toLp 2 ((1 / sv ⟨a.1, h⟩) • (A *ᵥ v ⟨a.1, h⟩)) else 0
  have hw : ∀ i, w (c i) = WithLp.toLp 2 ((1 / sv i) • (A *ᵥ v i)) := by
    intro i
    have : (c i).1 < n := i.2
    simp only [w, this, dif_pos]
    rfl
  let s : Set (Fin m) := {a | ∃ i, a = c i ∧ sv i ≠ 0}
  have hs : Orthonormal ℝ (s.domRestrict w) := by
    classical
    rw [orthonormal_iff_ite]
    rintro ⟨a, i, rfl, hi⟩ ⟨b, j, rfl, hj⟩
    simp only [Set.domRestrict_apply, hw]
    rw [EuclideanSpace.inner_eq_star_dotProduct]
    simp only [star_trivial, smul_dotProduct, dotProduct_smul, hAv]
    by_cases e : i = j
    · subst e
      simp only [if_true, ← hsv, smul_eq_mul]
      field_simp
    · have e1 : ¬ (j = i) := fun h => e h.symm
      have e2 : ¬ (c i = c j) := fun h => e (hc h)
      simp [e1, e2]
  obtain ⟨b, hb⟩ := Orthonormal.exists_orthonormalBasis_extension_of_card_eq
    (by simp : Module.finrank ℝ (EuclideanSpace ℝ (Fin m)) = Fintype.card (Fin m)) hs
  let U : Matrix (Fin m) (Fin n) ℝ := fun a i => (b (c i)) a
  let V : Matrix (Fin n) (Fin n) ℝ := fun k i => v i k
  have hU : Uᵀ * U = 1 := by
    ext i j
    have := orthonormal_iff_ite.1 b.orthonormal (c j) (c i)
    rw [EuclideanSpace.inner_eq_star_dotProduct] at this
    simp only [star_trivial] at this
    rw [Matrix.mul_apply', Matrix.one_apply]
    refine Eq.trans ?_ (this.trans ?_)
    · rfl
    · simp only [hc.eq_iff, eq_comm]
  have hV : Vᵀ * V = 1 := by
    ext i j
    rw [Matrix.mul_apply', Matrix.one_apply, ← hv i j]
    rfl
  refine ⟨U, V, sv, hU, hV, fun i => Real.sqrt_nonneg _, ?_⟩
  have hVV : V * Vᵀ = 1 := mul_eq_one_comm.1 hV
  have key : A * V = U * diagonal sv := by
    ext a i
    rw [Matrix.mul_diagonal]
    show (A *ᵥ v i) a = b (c i) a * sv i
    by_cases h0 : sv i = 0
    · have : (A *ᵥ v i) ⬝ᵥ (A *ᵥ v i) = 0 := by rw [hAv, if_pos rfl, ← hsv, h0, zero_mul]
      rw [dotProduct_self_eq_zero.1 this, h0, mul_zero]
      rfl
    · rw [hb (c i) ⟨i, rfl, h0⟩, hw]
      simp
      field_simp
  calc A = A * V * Vᵀ := by rw [Matrix.mul_assoc, hVV, Matrix.mul_one]
    _ = U * diagonal sv * Vᵀ := by rw [key]

theorem svd_exists {m n : Nat} (A : Matrix (Fin m) (Fin n) ℝ) : Nonempty (Svd A) := by
  suffices h : ∃ k, k = min m n ∧ ∃ (U : Matrix (Fin m) (Fin k) ℝ) (V : Matrix (Fin n) (Fin k) ℝ)
      (sv : Fin k → ℝ), Uᵀ * U = 1 ∧ Vᵀ * V = 1 ∧ (∀ i, 0 ≤ sv i) ∧ A = U * diagonal sv * Vᵀ by
    obtain ⟨k, rfl, U, V, sv, h1, h2, h3, h4⟩ := h
    exact ⟨⟨U, V, sv, h1, h2, h3, h4⟩⟩
  rcases Nat.le_total n m with h | h
  · exact ⟨n, (Nat.min_eq_right h).symm, svd_tall h A⟩
  · obtain ⟨U, V, sv, h1, h2, h3, h4⟩ := svd_tall h Aᵀ
    refine ⟨m, (Nat.min_eq_left h).symm, V, U, sv, h2, h1, h3, ?_⟩
    have := congrArg Matrix.transpose h4
    rw [Matrix.transpose_transpose] at this
    rw [this, Matrix.transpose_mul, Matrix.transpose_mul, Matrix.diagonal_transpose,
      Matrix.transpose_transpose, Matrix.mul_assoc]

theorem exists_svds : Nonempty Svds := ⟨fun _ _ A => (svd_exists A).some⟩

end Simox.Inv
