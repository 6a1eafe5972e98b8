import Verif.Hull.Spec
import Verif.Stb.Model

/-!
# Specification: safety margins and sequences of steps
-/

namespace Simox.Stb

open Simox.Hull

/-- The points below (or above) the contacts on the floor: the height is dropped. -/
def shadow (contacts : List (List (Fin 3 → ℝ))) : List Pt := contacts.flatten.map fun p => (p 0, p 1)

/-- The open disc of radius `r` around `p` is in `K`. -/
def DiscIn (K : Set Pt) (p : Pt) (r : ℝ) : Prop := ∀ q, sqDist p q < r ^ 2 → q ∈ K

/-- `r` is the radius of the largest disc around `p` in `K`. -/
def Margin (K : Set Pt) (p : Pt) (r : ℝ) : Prop := IsGreatest {r | 0 ≤ r ∧ DiscIn K p r} r

/-- The centre of the bounding box of a set. -/
def BoxCentre (K : Set Pt) (c : Pt) : Prop :=
  ∃ x0 x1 y0 y1, c = ((x0 + x1) / 2, (y0 + y1) / 2) ∧
    IsLeast {x | ∃ p ∈ K, x = p.1} x0 ∧ IsGreatest {x | ∃ p ∈ K, x = p.1} x1 ∧
    IsLeast {y | ∃ p ∈ K, y = p.2} y0 ∧ IsGreatest {y | ∃ p ∈ K, y = p.2} y1

/-- The robot after `k` steps of a solver. -/
def after {S D : Type} (v : Solver S D) (s : S) : Nat → S
  | 0 => s
  | k + 1 => v.move (after v s k) (v.step (after v s k))

/-- The step that follows the first `k` ones. -/
def stepAt {S D : Type} (v : Solver S D) (s : S) (k : Nat) : D := v.step (after v s k)

/-- The first `k` steps can all be taken and the loop is not left in between: all steps have valid entries, none
of the states between is a solution, none of the steps before the last is smaller than `minChange`, and (if
wanted) none of them is larger than the step before. -/
structure Runs {S D : Type} (v : Solver S D) (improve : Bool) (minChange : ℝ) (s : S) (k : Nat) : Prop where
  valid : ∀ j < k, v.valid (stepAt v s j) = true
  open' : ∀ j, 0 < j → j < k → v.ok (after v s j) = false
  large : ∀ j, j + 1 < k → minChange ≤ v.norm (stepAt v s j)
  shrink : improve = true → ∀ j, j + 2 < k → v.norm (stepAt v s (j + 1)) ≤ v.norm (stepAt v s j)

/-- Why a loop of at most `n` steps gives up after `k` steps. -/
def GivesUp {S D : Type} (v : Solver S D) (improve : Bool) (minChange : ℝ) (s : S) (n k : Nat) : Prop :=
  k = n ∨ v.valid (stepAt v s k) = false ∨ (∃ i, k = i + 1 ∧ v.norm (stepAt v s i) < minChange) ∨
    ∃ i, k = i + 2 ∧ improve = true ∧ v.norm (stepAt v s i) < v.norm (stepAt v s (i + 1))

/-- The middle of the range of a joint. -/
noncomputable def Joint.middle (j : Joint) : ℝ := (j.lo + j.hi) / 2

end Simox.Stb
