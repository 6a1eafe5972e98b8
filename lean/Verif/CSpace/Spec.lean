import Verif.CSpace.Model
import Mathlib.Data.List.Chain

/-!
# Specification vocabulary for local paths
-/

namespace Simox.CSpace.Spec

variable {Q : Type}

/-- `a :: l` is a way from `a` to `b` in steps of length at most `δ`, and every point reached is
valid. -/
structure ValidWay (dist : Q → Q → ℝ) (valid : Q → Prop) (δ : ℝ) (a b : Q) (l : List Q) : Prop where
  last : l.getLast? = some b
  spaced : (a :: l).IsChain fun u v => dist u v ≤ δ
  valid : ∀ c ∈ l, valid c

/-- Configurations tested by repeated bisection of the way from `a` to `b`: the end, and the
configurations tested on the two halves. -/
inductive Tested (mid : Q → Q → Q) : Q → Q → Q → Prop
  | endpoint (a b) : Tested mid a b b
  | left {a b c} : Tested mid a (mid a b) c → Tested mid a b c
  | right {a b c} : Tested mid (mid a b) b c → Tested mid a b c

/-- Sum of consecutive distances. -/
def polylineLength (dist : Q → Q → ℝ) : List Q → ℝ
  | [] => 0
  | [_] => 0
  | a :: b :: l => dist a b + polylineLength dist (b :: l)

variable {n : Nat}

/-- Weighted Euclidean norm of a difference. -/
noncomputable def wnorm (w δ : Fin n → ℝ) : ℝ := √(∑ i, (w i * δ i) ^ 2)

/-- The length `getLength(useCSpaceWeights)` is documented to return: weighted exactly when asked for
(and the C-space has weights enabled). -/
noncomputable def intendedLength (S : Space n) (useCSpaceWeights : Bool) (l : List (Config n)) : ℝ :=
  polylineLength (fun a b =>
    wnorm (if S.useMetricWeights = true ∧ useCSpaceWeights = true then S.metricWeights else fun _ => 1)
      (S.distDim a b)) l

end Simox.CSpace.Spec
