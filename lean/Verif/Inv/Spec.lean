import Verif.Inv.Model

/-!
# Specification of pseudo inverses and of steps towards several goals
-/

namespace Simox.Inv.Spec

open Matrix

/-- The Euclidean length of a vector. -/
noncomputable def len {m : Nat} (v : Fin m → ℝ) : ℝ := Real.sqrt (∑ i, v i ^ 2)

/-- The cost of a joint motion with a weight for each joint. -/
noncomputable def cost {n : Nat} (w : Fin n → ℝ) (x : Fin n → ℝ) : ℝ := ∑ i, w i * x i ^ 2

/-- The error that is left of `e` after the motion `x`, each row scaled with its factor in `r`. -/
noncomputable def error {m n : Nat} (r : Fin m → ℝ) (A : Matrix (Fin m) (Fin n) ℝ) (e : Fin m → ℝ)
    (x : Fin n → ℝ) : ℝ := len (fun i => r i * ((A *ᵥ x) i - e i))

/-- No task of the matrix depends on others: its rows are linearly independent. -/
def FullRank {m n : Nat} (A : Matrix (Fin m) (Fin n) ℝ) : Prop := ∀ y : Fin m → ℝ, Aᵀ *ᵥ y = 0 → y = 0

/-- `s` is a positive singular value of `A`: `AᵀA` stretches some direction by `s²`. -/
def SingularValue {m n : Nat} (A : Matrix (Fin m) (Fin n) ℝ) (s : ℝ) : Prop :=
  0 < s ∧ ∃ v : Fin n → ℝ, v ≠ 0 ∧ Aᵀ *ᵥ (A *ᵥ v) = s ^ 2 • v

/-- All positive singular values of `A` are above the tolerance. -/
def Regular {m n : Nat} (A : Matrix (Fin m) (Fin n) ℝ) (tol : ℝ) : Prop :=
  ∀ s, SingularValue A s → tol < s

/-- What the motion `x` does to a task with the given rows. -/
def effect {n : Nat} (rows : List (Fin n → ℝ)) (x : Fin n → ℝ) : List ℝ :=
  rows.map fun r => ∑ i, r i * x i

/-- What is left of the error of a task after the motion `x` if the aim is to remove the part `c` of it. -/
def rest {n : Nat} (rows : List (Fin n → ℝ)) (err : List ℝ) (c : ℝ) (x : Fin n → ℝ) : List ℝ :=
  List.zipWith (fun r e => (∑ i, r i * x i) - c * e) rows err

/-- The Euclidean length of a list. -/
noncomputable def euclid (l : List ℝ) : ℝ := Real.sqrt ((l.map (· ^ 2)).sum)

end Simox.Inv.Spec
