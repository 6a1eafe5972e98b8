import Mathlib.LinearAlgebra.Matrix.NonsingularInverse
import Mathlib.Analysis.Real.Sqrt

/-!
# Pseudo inverses of Jacobians and the steps computed from them

Models `VirtualRobot/MathTools.cpp` (`getPseudoInverse`, `getPseudoInverseDamped`),
`VirtualRobot/IK/JacobiProvider.cpp` (`updatePseudoInverseJacobianMatrix` and its double variant),
`VirtualRobot/IK/HierarchicalIK.cpp` (`computeStep`) and `VirtualRobot/IK/StackedIK.cpp` (`computeStep`).

Simplifications: real instead of floating point arithmetic; Eigen's `JacobiSVD` is a parameter (`Svds`)
about which only the definition of a thin singular value decomposition is assumed; Eigen's `inverse()` of a
singular matrix, which is garbage, is Lean's `⁻¹`, and no theorem speaks about it; logging is left out.
-/

namespace Simox.Inv

open Matrix

/-- `Eigen::JacobiSVD` with `ComputeThinU | ComputeThinV` (MathTools.cpp 1810-1813): what it returns for
`A`. -/
structure Svd {m n : Nat} (A : Matrix (Fin m) (Fin n) ℝ) where
  /-- `matrixU()` -/
  U : Matrix (Fin m) (Fin (min m n)) ℝ
  /-- `matrixV()` -/
  V : Matrix (Fin n) (Fin (min m n)) ℝ
  /-- `singularValues()` -/
  sv : Fin (min m n) → ℝ
  hU : Uᵀ * U = 1
  hV : Vᵀ * V = 1
  nonneg : ∀ i, 0 ≤ sv i
  eq : A = U * diagonal sv * Vᵀ

/-- The decomposition Eigen returns for each matrix. -/
abbrev Svds := ∀ (m n : Nat) (A : Matrix (Fin m) (Fin n) ℝ), Svd A

open Classical in
/-- MathTools.cpp 1808-1826 `getPseudoInverse` (1828-1846 for doubles). -/
noncomputable def pseudoInverse (svds : Svds) {m n : Nat} (A : Matrix (Fin m) (Fin n) ℝ) (tol : ℝ) :
    Matrix (Fin n) (Fin m) ℝ :=
  let svd := svds m n A
  let sv := fun i => if svd.sv i > tol then 1 / svd.sv i else 0
  svd.V * diagonal sv * svd.Uᵀ

/-- MathTools.cpp 1849-1862 `getPseudoInverseDamped` (1864-1877 for doubles). -/
noncomputable def pseudoInverseDamped (svds : Svds) {m n : Nat} (A : Matrix (Fin m) (Fin n) ℝ) (lam : ℝ) :
    Matrix (Fin n) (Fin m) ℝ :=
  let svd := svds m n A
  let sv := fun i => svd.sv i / (svd.sv i * svd.sv i + lam * lam)
  svd.V * diagonal sv * svd.Uᵀ

/-- JacobiProvider.h `InverseJacobiMethod`. -/
inductive Method where
  | transpose
  | svd
  | svdDamped
  deriving DecidableEq

/-- The members of a `JacobiProvider` for a node set with `n` joints. `weights` is `jointWeights` if it has
`n` rows and `none` otherwise (JacobiProvider.cpp 170, 193: other weights are ignored). -/
structure Provider (n : Nat) where
  method : Method
  weights : Option (Fin n → ℝ)
  dampedSvdLambda : ℝ

open Classical in
/-- JacobiProvider.cpp 158-237 `updatePseudoInverseJacobianMatrixInternal` (`dbl = false`) and 252-331
`updatePseudoInverseJacobianMatrixDInternal` (`dbl = true`). `none`: an exception is thrown. -/
noncomputable def inverseInternal (svds : Svds) {m n : Nat} (p : Provider n) (dbl : Bool)
    (A : Matrix (Fin m) (Fin n) ℝ) (invParameter : ℝ) : Option (Matrix (Fin n) (Fin m) ℝ) :=
  match p.method with
  | .transpose =>
    match p.weights with
    | some w =>
      let W1 := (diagonal w)⁻¹
      some (W1 * Aᵀ * (A * W1 * Aᵀ)⁻¹)
    | none => some (Aᵀ * (A * Aᵀ)⁻¹)
  | .svd =>
    let pinvtoler : ℝ := if invParameter ≠ 0 then invParameter else 1 / 100000
    match p.weights with
    | some w =>
      if ∃ i, w i ≤ 0 then none
      else
        let W12 := diagonal (fun i => Real.sqrt (1 / w i))
        some (W12 * pseudoInverse svds (A * W12) pinvtoler)
    | none => some (pseudoInverse svds A pinvtoler)
  | .svdDamped =>
    let lam : ℝ := if invParameter ≠ 0 then invParameter else if dbl then 1 else p.dampedSvdLambda
    some (pseudoInverseDamped svds A lam)

/-- JacobiProvider.cpp 144-156 `updatePseudoInverseJacobianMatrix` (239-250 for doubles). `reg` is the
vector passed for the regularization, `none` if it does not have one entry for each row. -/
noncomputable def inverse (svds : Svds) {m n : Nat} (p : Provider n) (dbl : Bool)
    (A : Matrix (Fin m) (Fin n) ℝ) (invParameter : ℝ) (reg : Option (Fin m → ℝ)) :
    Option (Matrix (Fin n) (Fin m) ℝ) :=
  let r := reg.getD (fun _ => 1)
  (inverseInternal svds p dbl (diagonal r * A) invParameter).map (fun X => X * diagonal r)

/-- A Jacobian given by its rows. -/
def mat {n : Nat} (rows : List (Fin n → ℝ)) : Matrix (Fin rows.length) (Fin n) ℝ :=
  Matrix.of fun i => rows[i]

/-- What a `JacobiProvider` returns from `isInitialized`, `getJacobianMatrix` and `getError`, for a node set
with `n` joints. -/
structure Task (n : Nat) where
  init : Bool
  rows : List (Fin n → ℝ)
  err : List ℝ
  prov : Provider n

/-- The error as a vector with as many entries as the Jacobian has rows. -/
def Task.errVec {n : Nat} (t : Task n) : Fin t.rows.length → ℝ := fun i => t.err.getD i 0

/-- HierarchicalIK.cpp 43-73: the tests made for each task. The number of columns is fixed by the type.
`false`: an exception is thrown. -/
noncomputable def Task.ok {n : Nat} (svds : Svds) (t : Task n) : Bool :=
  t.init && (inverse svds t.prov true (mat t.rows) 0 none).isSome && t.rows.length == t.err.length

/-- HierarchicalIK.cpp 122-135, 160-173: the inverse used for the null space and for the projected
Jacobian. -/
noncomputable def innerInverse (svds : Svds) (method : Method) {m n : Nat} (A : Matrix (Fin m) (Fin n) ℝ) :
    Matrix (Fin n) (Fin m) ℝ :=
  match method with
  | .transpose => Aᵀ
  | .svd => pseudoInverse svds A (1 / 100000)
  | .svdDamped => pseudoInverseDamped svds A 10

/-- HierarchicalIK.cpp 101-195: the loop over the tasks after the first one; `JA` are the rows of the
Jacobians of the tasks before, `res` is `result_i_min1`. -/
noncomputable def descend (svds : Svds) (method : Method) {n : Nat} (stepSize : ℝ) :
    List (Fin n → ℝ) → (Fin n → ℝ) → List (Task n) → (Fin n → ℝ)
  | _, res, [] => res
  | JA, res, t :: ts =>
    let P := 1 - innerInverse svds method (mat JA) * mat JA
    let X := innerInverse svds method (mat t.rows * P)
    descend svds method stepSize (JA ++ t.rows)
      (res + X *ᵥ (stepSize • t.errVec - mat t.rows *ᵥ res)) ts

/-- HierarchicalIK.cpp 25-199 `computeStep`. `none`: an exception is thrown (or there is no task, which is
asserted). -/
noncomputable def hierarchicalStep (svds : Svds) (method : Method) {n : Nat} (tasks : List (Task n))
    (stepSize : ℝ) : Option (Fin n → ℝ) :=
  if tasks.all (Task.ok svds) then
    match tasks with
    | [] => none
    | t :: ts =>
      (inverse svds t.prov true (mat t.rows) 0 none).map fun X =>
        descend svds method stepSize t.rows (stepSize • (X *ᵥ t.errVec)) ts
  else none

/-- StackedIK.cpp 54-65: the tests made for each task; the test for initialization looks at the first
task each time. -/
def stackedOk {n : Nat} (first t : Task n) : Bool := first.init && t.rows.length == t.err.length

/-- StackedIK.cpp 46-102 `computeStep`. -/
noncomputable def stackedStep (svds : Svds) (method : Method) {n : Nat} (tasks : List (Task n))
    (stepSize : ℝ) : Option (Fin n → ℝ) :=
  match tasks with
  | [] => none
  | t :: ts =>
    if (t :: ts).all (stackedOk t) then
      let J := mat ((t :: ts).flatMap Task.rows)
      let error := fun i : Fin ((t :: ts).flatMap Task.rows).length => ((t :: ts).flatMap Task.err).getD i 0
      let Jinv := match method with
        | .transpose => Jᵀ
        | .svd => pseudoInverse svds J (1 / 100000)
        | .svdDamped => pseudoInverseDamped svds J 1
      some (stepSize • (Jinv *ᵥ error))
    else none

end Simox.Inv
