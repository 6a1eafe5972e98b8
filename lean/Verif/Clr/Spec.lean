import Mathlib.Data.List.Sort
import Mathlib.Data.Rat.Floor
import Verif.Clr.Model

/-!
# Colour maps: what is claimed
-/

namespace Simox.Clr

section
variable {K : Type} [Field K] [LinearOrder K] [IsStrictOrderedRing K]

/-- What is expected of `std::sort`: the same keys, in the order of their positions. -/
def Sorts (sort : List (Key K) → List (Key K)) : Prop := ∀ l, (sort l).Perm l ∧ (sort l).Pairwise fun a b => a.pos ≤ b.pos

/-- The keys that are accepted. -/
def accepted (ks : List (Key K)) : List (Key K) := ks.filter fun k => decide (0 ≤ k.pos ∧ k.pos ≤ 1)

/-- The colour of a key. -/
def Key.color (k : Key K) : Color K := ⟨k.r / 255, k.g / 255, k.b / 255, 1 - k.a / 255⟩

/-- A part `t` of the way from one colour to another. -/
def Color.blend (t : K) (c d : Color K) : Color K := ⟨c.r + t * (d.r - c.r), c.g + t * (d.g - c.g), c.b + t * (d.b - c.b), c.transparency + t * (d.transparency - c.transparency)⟩

/-- All components are numbers from 0 to 1. -/
def Color.Proper (c : Color K) : Prop := (0 ≤ c.r ∧ c.r ≤ 1) ∧ (0 ≤ c.g ∧ c.g ≤ 1) ∧ (0 ≤ c.b ∧ c.b ≤ 1) ∧ (0 ≤ c.transparency ∧ c.transparency ≤ 1)

/-- No component differs by more than `e`. -/
def Color.Near (e : K) (c d : Color K) : Prop := |c.r - d.r| ≤ e ∧ |c.g - d.g| ≤ e ∧ |c.b - d.b| ≤ e ∧ |c.transparency - d.transparency| ≤ e

/-- The numbers of a key are bytes. -/
def Key.Bytes (k : Key K) : Prop := k.r ≤ 255 ∧ k.g ≤ 255 ∧ k.b ≤ 255 ∧ k.a ≤ 255

end

/-- Rounding to a whole number, to the even one if there are two. -/
def roundEven (q : ℚ) : ℤ :=
  let f := ⌊q⌋
  if q - f < 1 / 2 then f else if q - f > 1 / 2 then f + 1 else if f % 2 = 0 then f else f + 1

/-- Rounding of a positive number below `2 ^ 24` to 24 binary digits, as for numbers of single precision. -/
def round24 : ℕ → ℚ → ℚ
  | 0, q => q
  | k + 1, q => if q < 2 ^ 23 then round24 k (2 * q) / 2 else roundEven q

end Simox.Clr
