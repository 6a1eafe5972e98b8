import Verif.Rio.Model

/-!
# Units, stated independently
-/

namespace Simox.Rio

/-- Kinds of physical quantities. -/
inductive Dim where
  | angle
  | length
  | weight
  | time
  deriving DecidableEq

/-- The units a definition can use: name, kind, and how many radians, meters, kilograms or seconds one of it is. -/
noncomputable def unitTable : List (String × Dim × ℝ) :=
  [("rad", .angle, 1), ("radian", .angle, 1), ("deg", .angle, Real.pi / 180), ("degree", .angle, Real.pi / 180),
   ("m", .length, 1), ("meter", .length, 1), ("mm", .length, 1 / 1000), ("millimeter", .length, 1 / 1000),
   ("kg", .weight, 1), ("kilogram", .weight, 1), ("g", .weight, 1 / 1000), ("gram", .weight, 1 / 1000), ("t", .weight, 1000), ("ton", .weight, 1000),
   ("s", .time, 1), ("sec", .time, 1), ("second", .time, 1), ("min", .time, 60), ("minute", .time, 60), ("h", .time, 3600), ("hour", .time, 3600)]

/-- `u` is a unit of the kind `d`, and one `u` is `size` radians, meters, kilograms or seconds. -/
def IsUnit (u : Units) (d : Dim) (size : ℝ) : Prop := (u, d, size) ∈ unitTable

/-- Two elements that differ only in upper and lower case, in the names and values of the attributes. -/
def SameAttrs (n n' : Xml) : Prop :=
  List.Forall₂ (fun p q : String × String => lower p.1 = lower q.1 ∧ lower p.2 = lower q.2) n.attrs n'.attrs

end Simox.Rio
