import Verif.Gaz.Model

/-!
# Specification: solutions, limits and plain descents
-/

namespace Simox.Gaz

variable {n : Nat}

/-- The limits of all joints are in order. -/
def Gaze.Proper (g : Gaze n) : Prop := ∀ i, g.lo i ≤ g.hi i

/-- All joints are within their limits. -/
def Gaze.Inside (g : Gaze n) (q : Config n) : Prop := ∀ i, g.lo i ≤ q i ∧ q i ≤ g.hi i

/-- The gaze is close enough to the goal. -/
def Gaze.Solved (g : Gaze n) (q : Config n) : Prop := g.error q ≤ g.maxPosError

/-- The joint values after one step, brought into the limits. -/
def Gaze.move (g : Gaze n) (q : Config n) : Config n :=
  fun i => max (g.lo i) (min (g.hi i) (q i + ((g.step q).getD 0) i))

/-- Steps are numbers. -/
def Gaze.Numbers (g : Gaze n) : Prop := ∀ q, g.step q ≠ none

/-- The step from `q` is too small to go on. -/
def Gaze.Small (g : Gaze n) (q : Config n) : Prop := ∑ i, ((g.step q).getD 0) i ^ 2 < (1 / 100000 : ℝ) ^ 2

end Simox.Gaz
