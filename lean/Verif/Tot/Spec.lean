import Verif.Tot.Model
import Mathlib.Analysis.Convex.Segment

/-!
# What is said about paths
-/

namespace Simox.Tot

variable {n : ℕ}

/-- `a` and `b` are neighbours in the list, in this order. -/
def Next (l : List (Cfg n)) (a b : Cfg n) : Prop := ∃ pre post, l = pre ++ a :: b :: post

/-- `q` is on the polyline through the waypoints. -/
def OnPolyline (l : List (Cfg n)) (q : Cfg n) : Prop := ∃ a b, Next l a b ∧ q ∈ segment ℝ a b

/-- At no waypoint the direction is reversed exactly. -/
def NoReversal (l : List (Cfg n)) : Prop :=
  ∀ pre a b c post, l = pre ++ a :: b :: c :: post → ¬ SameRay ℝ (b - a) (-(c - b)) ∨ a = b ∨ b = c

/-- The last two waypoints are different. -/
def EndsMoving (l : List (Cfg n)) : Prop := ∃ pre a b, l = pre ++ [a, b] ∧ a ≠ b

/-- Neighbouring waypoints are more than two millionths apart. -/
def Apart (l : List (Cfg n)) : Prop := ∀ a b, Next l a b → 0.000002 < ‖b - a‖

/-- The length of the polyline. -/
noncomputable def polyLength : List (Cfg n) → ℝ
  | a :: b :: l => dist a b + polyLength (b :: l)
  | _ => 0

/-- The sum of the lengths of segments. -/
noncomputable def total (segs : List (Seg n)) : ℝ := (segs.map Seg.length).sum

/-- Segment `b` continues segment `a`, apart from millionths in place and direction. -/
def Continues (a b : Seg n) : Prop :=
  ‖b.config 0 - a.config a.length‖ ≤ 0.000001 ∧ ‖b.tangent 0 - a.tangent a.length‖ < 0.000001

end Simox.Tot
