import Verif.Shortcut.Model
import Verif.Trajectory.Spec
import Verif.Rrt.Spec

/-!
# What may happen to a solution path when it is shortened
-/

namespace Simox.Shortcut.Spec

open Simox.Trajectory.Spec Simox.Rrt.Spec

variable {Q : Type} [Zero Q]

/-- The points of a local path strictly between its ends. -/
def innerPoints (q : List Q) : List Q := q.dropLast.tail

/-- A segment of the shortened path is a segment of the original one, or a piece of a local path between
two configurations for which the C-space's path check said yes. -/
def SegmentOK (env : Env Q) (orig : List Q) (u v : Q) : Prop :=
  Consecutive orig u v ∨
  ∃ a b, env.pathValid a b = true ∧ Consecutive (a :: innerPoints (env.path a b) ++ [b]) u v

/-- `new` keeps the ends of `orig`. -/
def SameEnds (orig new : List Q) : Prop :=
  new.head? = orig.head? ∧ new.getLast? = orig.getLast?

/-- Local paths are straight with respect to `d`: they are as long as the distance of their ends. -/
def Straight (env : Env Q) (d : Q → Q → ℝ) : Prop :=
  ∀ a b, polyLength d (a :: innerPoints (env.path a b) ++ [b]) = d a b

end Simox.Shortcut.Spec
