import Verif.Mnp.Model
import Mathlib.LinearAlgebra.Matrix.NonsingularInverse
import Mathlib.LinearAlgebra.Matrix.Determinant.Basic

/-!
# Specification of the pose qualities

Written without the functions of `Model.lean`, except for the type of joints.
-/

namespace Simox.Mnp.Spec

open Matrix

/-- `sv` is the list of singular values of `A`, as `Eigen::JacobiSVD` promises it: the factors of a thin
singular value decomposition, not negative and in decreasing order. -/
def IsSVD {n : ℕ} (A : Matrix (Fin 6) (Fin n) ℝ) (sv : List ℝ) : Prop :=
  ∃ (m : ℕ) (U : Matrix (Fin 6) (Fin m) ℝ) (V : Matrix (Fin n) (Fin m) ℝ) (s : Fin m → ℝ),
    m = min 6 n ∧ sv = List.ofFn s ∧ Uᵀ * U = 1 ∧ Vᵀ * V = 1 ∧ A = U * diagonal s * Vᵀ ∧
      (∀ i, 0 ≤ s i) ∧ Antitone s

/-- The Jacobian with its last three rows, the rotations, weighted by `w`. -/
def Weighted {n : ℕ} (w : ℝ) (J A : Matrix (Fin 6) (Fin n) ℝ) : Prop :=
  (∀ i j, i.val < 3 → A i j = J i j) ∧ ∀ i j, 3 ≤ i.val → A i j = w * J i j

/-- The chain is singular: with at least six joints there is a direction in which the TCP cannot move; with
at most six joints there is a motion of the joints that does not move the TCP. -/
def Singular {n : ℕ} (J : Matrix (Fin 6) (Fin n) ℝ) : Prop :=
  (6 ≤ n → ∃ d : Fin 6 → ℝ, d ≠ 0 ∧ Jᵀ *ᵥ d = 0) ∧ (n ≤ 6 → ∃ q : Fin n → ℝ, q ≠ 0 ∧ J *ᵥ q = 0)

/-- The same Jacobian seen from a frame that is rotated by `R`: the rotation acts on velocities and on
angular velocities. -/
def Rotated {n : ℕ} (R : Matrix (Fin 3) (Fin 3) ℝ) (J J' : Matrix (Fin 6) (Fin n) ℝ) : Prop :=
  (∀ (i : Fin 3) j, J' ⟨i.val, by omega⟩ j = ∑ k : Fin 3, R i k * J ⟨k.val, by omega⟩ j) ∧
    ∀ (i : Fin 3) j, J' ⟨i.val + 3, by omega⟩ j = ∑ k : Fin 3, R i k * J ⟨k.val + 3, by omega⟩ j

/-- The joint is within its limits. -/
def Within (j : Joint) : Prop := j.lo ≤ j.q ∧ j.q ≤ j.hi

/-- The joint can move and stands at one of its limits. -/
def AtLimit (j : Joint) : Prop := j.lo < j.hi ∧ (j.q = j.lo ∨ j.q = j.hi)

/-- `a` is the best of the values, and at least one of them or 0. -/
def Best (vals : List ℕ) (a : ℕ) : Prop := (∀ x ∈ vals, x ≤ a) ∧ (a = 0 ∨ a ∈ vals)

end Simox.Mnp.Spec
