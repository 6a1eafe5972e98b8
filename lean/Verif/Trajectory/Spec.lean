import Mathlib.Analysis.Normed.Module.Basic

/-!
# Specification vocabulary for trajectories (independent of the model)
-/

namespace Simox.Trajectory.Spec

/-- `new` is `old` with the points `ins` put in front of the point that had index `pos`. -/
def Inserted {E : Type} (old : List E) (pos : Nat) (ins : List E) (new : List E) : Prop :=
  new.length = old.length + ins.length ∧
  (∀ j, j < pos → new[j]? = old[j]?) ∧
  (∀ j, j < ins.length → new[pos + j]? = ins[j]?) ∧
  (∀ j, pos ≤ j → new[j + ins.length]? = old[j]?)

/-- `new` is `old` without the points with index in `[s, s + k)`. -/
def Removed {E : Type} (old : List E) (s k : Nat) (new : List E) : Prop :=
  new.length + k = old.length ∧
  (∀ j, j < s → new[j]? = old[j]?) ∧
  (∀ j, s ≤ j → new[j]? = old[j + k]?)

/-- `sub` consists of the points `s, …, e` of `old`. -/
def Slice {E : Type} (old : List E) (s e : Nat) (sub : List E) : Prop :=
  sub.length = e + 1 - s ∧ ∀ j, s + j ≤ e → sub[j]? = old[s + j]?

/-- Length of a polygonal path: sum of the distances of consecutive points. -/
noncomputable def polyLength {E : Type} (d : E → E → ℝ) : List E → ℝ
  | [] => 0
  | [_] => 0
  | a :: b :: l => d a b + polyLength d (b :: l)

/-- `p` is the point of the polygonal path at arc length `s`, on the segment from point `i` to point
`i + 1`. -/
def OnSegment {E : Type} [NormedAddCommGroup E] [NormedSpace ℝ E] (path : List E) (s : ℝ) (i : Nat)
    (p : E) : Prop :=
  ∃ a b : E, path[i]? = some a ∧ path[i + 1]? = some b ∧
    ∃ f : ℝ, 0 ≤ f ∧ f ≤ 1 ∧ p = a + f • (b - a) ∧
      polyLength dist (path.take (i + 1)) + dist a p = s

/-- `p` is a point of the path at arc length `s`. -/
def OnPath {E : Type} [NormedAddCommGroup E] [NormedSpace ℝ E] (path : List E) (s : ℝ) (p : E) :
    Prop := ∃ i, OnSegment path s i p

end Simox.Trajectory.Spec
