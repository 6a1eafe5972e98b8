import Verif.Gpn.Uncertain
import Verif.Rot.Spec

/-!
# Specification for pose uncertainty
-/

namespace Simox.Gpn

open Matrix Jac Rot Mth

open Classical in
/-- How many values there are from `start` on, with the given step, up to `stop`. -/
noncomputable def Dim.count (d : Dim) : ℕ := if d.start ≤ d.stop then ⌊(d.stop - d.start) / d.step⌋₊ + 1 else 0

/-- These values. -/
noncomputable def Dim.values (d : Dim) : List ℝ := (List.range d.count).map fun k : ℕ => d.start + (k : ℝ) * d.step

/-- All the tuples with components from the given lists, in lexicographic order. -/
def tuples : List (List ℝ) → List (List ℝ)
  | [] => [[]]
  | l :: ls => l.flatMap fun a => (tuples ls).map (a :: ·)

/-- The disturbed pose `p` of the object: the grasp centre, which is fixed to the object, has been moved to
`center`. -/
def Carries (objectGP graspCenterGP center p : M4) : Prop := p * (objectGP⁻¹ * graspCenterGP) = center

end Simox.Gpn
