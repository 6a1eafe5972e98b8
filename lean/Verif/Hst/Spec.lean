import Verif.Hst.Model

/-!
# Histograms: what is claimed
-/

namespace Simox.Hst

section
variable {K : Type} [Field K] [LinearOrder K] [IsStrictOrderedRing K]

/-- The left end of the `i`th of `n` intervals of the same length from `min` to `max`. -/
def edge (min max : K) (n i : ℕ) : K := min + (max - min) * i / n

/-- The value is in the `i`th interval: the last one contains its right end. -/
def InBin (min max : K) (n i : ℕ) (v : K) : Prop := edge min max n i ≤ v ∧ (v < edge min max n (i + 1) ∨ i + 1 = n ∧ v ≤ max)

instance (min max : K) (n i : ℕ) (v : K) : Decidable (InBin min max n i v) := by unfold InBin; infer_instance

end

end Simox.Hst
