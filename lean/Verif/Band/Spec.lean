import Mathlib.Analysis.Normed.Module.Basic

/-!
# Vocabulary for paths
-/

namespace Simox.Band.Spec

variable {E : Type*} [NormedAddCommGroup E] [NormedSpace ℝ E]

/-- The length of a path. -/
noncomputable def pathLength : List E → ℝ
  | a :: b :: rest => ‖b - a‖ + pathLength (b :: rest)
  | _ => 0

/-- Every inner point is halfway between its neighbours. -/
def Even : List E → Prop
  | a :: b :: c :: rest => b - a = c - b ∧ Even (b :: c :: rest)
  | _ => True

end Simox.Band.Spec
