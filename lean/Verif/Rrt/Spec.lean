import Verif.Rrt.Model
import Mathlib.Data.List.Chain

/-!
# What a solution of a planner is

Independent of the planners: which segments count as checked by the C-space, and what the user asked for.
-/

namespace Simox.Rrt.Spec

open Simox.Rrt

variable {Q K : Type}

/-- `u` and `v` follow one another in `l`. -/
def Consecutive (l : List Q) (u v : Q) : Prop := ∃ l1 l2, l = l1 ++ u :: v :: l2

/-- `u → v` is a segment the C-space vouches for: a piece of a local path between two configurations
for which `isPathValid` said yes, or a piece of the valid part that `createPathUntilInvalid` returned. -/
def Checked (env : Env Q K) (u v : Q) : Prop :=
  (∃ a b, env.pathValid a b = true ∧ Consecutive (env.path a b) u v) ∨
  ∃ a b, Consecutive (env.pathUntil a b).1 u v

/-- What is required of the C-space: local paths begin where asked to; they end close to (`Near`) the
target, if they have more than one point (and, for `createPathUntilInvalid`, if the target is reported
as reached). -/
structure EnvOK (env : Env Q K) (Near : Q → Q → Prop) : Prop where
  pathHead : ∀ u v, (env.path u v).head? = some u
  pathLast : ∀ u v e, 1 < (env.path u v).length → (env.path u v).getLast? = some e → Near e v
  untilHead : ∀ u v, (env.pathUntil u v).1.head? = some u
  untilLast : ∀ u v e, (env.pathUntil u v).2 = true → 1 < (env.pathUntil u v).1.length →
    (env.pathUntil u v).1.getLast? = some e → Near e v

/-- A path of two halves: checked segments from `a` on to `m1`; segments checked in the opposite direction
from `m2` on to `b`; `m2` itself is left out and is close to `m1`. -/
def BiPath (env : Env Q K) (Near : Q → Q → Prop) (a b : Q) (l : List Q) : Prop :=
  ∃ l1 l2 m1 m2, l = l1 ++ l2 ∧ l1.head? = some a ∧ l1.getLast? = some m1 ∧ l1.IsChain (Checked env) ∧
    (Near m1 m2 ∨ Near m2 m1) ∧ (m2 :: l2).getLast? = some b ∧
    (m2 :: l2).IsChain fun u v => Checked env v u

/-- The last start configuration passed to the planner since it was created or reset. -/
def lastStart (h : List (Op Q)) : Option Q :=
  h.foldl (fun r op => match op with | .setStart c => some c | .reset => none | _ => r) none

/-- The last goal configuration passed to the planner since it was created or reset. -/
def lastGoal (h : List (Op Q)) : Option Q :=
  h.foldl (fun r op => match op with | .setGoal c => some c | .reset => none | _ => r) none

/-- No goal is set after a planning attempt, unless the planner is reset in between. -/
def goalsBeforePlans : Bool → List (Op Q) → Prop
  | _, [] => True
  | planned, .setGoal _ :: ops => planned = false ∧ goalsBeforePlans planned ops
  | _, .plan _ :: ops => goalsBeforePlans true ops
  | _, .reset :: ops => goalsBeforePlans false ops
  | planned, .setStart _ :: ops => goalsBeforePlans planned ops
  | planned, .getSolution :: ops => goalsBeforePlans planned ops

end Simox.Rrt.Spec
