import Mathlib.Algebra.Order.Floor.Semiring
import Mathlib.Algebra.Order.Field.Basic
import Mathlib.Data.List.Basic

/-!
# Colour maps

Models `VirtualRobot/Visualization/ColorMap.cpp` over an arbitrary ordered field with a floor. `std::sort` is an arbitrary function that sorts. Rounding of single precision is
modelled only where positions are added up, as an arbitrary function.
-/

namespace Simox.Clr

/-- ColorMap.h 62-67 `ColorKey`, without the index, which is never read: the bytes of the colour, where the last one is opaqueness, and the position. -/
structure Key (K : Type) where
  r : ℕ
  g : ℕ
  b : ℕ
  a : ℕ
  pos : K

/-- VisualizationFactory.h 43-81 `Color`. -/
structure Color (K : Type) where
  r : K
  g : K
  b : K
  transparency : K
deriving DecidableEq

/-- ColorMap.h 71-72: the members. -/
structure Map (K : Type) where
  keys : List (Key K)
  intervals : List K

section
variable {K : Type} [Field K] [LinearOrder K] [IsStrictOrderedRing K]

/-- ColorMap.cpp 158-173 `sort`. -/
def Map.sort (sort : List (Key K) → List (Key K)) (m : Map K) : Map K := if m.keys.length > 1 then ⟨sort m.keys, (sort m.keys).map (·.pos)⟩ else m

/-- ColorMap.cpp 140-156 `addColorKey`. -/
def Map.add (sort : List (Key K) → List (Key K)) (m : Map K) (k : Key K) : Map K :=
  if k.pos < 0 ∨ k.pos > 1 then m else (⟨m.keys ++ [k], m.intervals⟩ : Map K).sort sort

/-- Several keys, one after the other. -/
def Map.addAll (sort : List (Key K) → List (Key K)) (m : Map K) (ks : List (Key K)) : Map K := ks.foldl (Map.add sort) m

/-- ColorMap.cpp 197-213: the colour between two keys at `x` and `y`. -/
def mix (p x y : K) (a b : Key K) : Color K :=
  let fa := |x - p|
  let fb := |y - p|
  let ft := fa + fb
  let fa' := if ft ≠ 0 then fa / ft else fa
  let fb' := if ft ≠ 0 then fb / ft else fb
  ⟨((a.r : K) * fb' + (b.r : K) * fa') / 255, ((a.g : K) * fb' + (b.g : K) * fa') / 255, ((a.b : K) * fb' + (b.b : K) * fa') / 255, 1 - ((a.a : K) * fb' + (b.a : K) * fa') / 255⟩

/-- ColorMap.cpp 194-215: the loop over neighbouring keys. -/
def find (p : K) : List (Key K) → List K → Option (Color K)
  | a :: b :: ks, x :: y :: xs => if x ≤ p ∧ p ≤ y then some (mix p x y a b) else find p (b :: ks) (y :: xs)
  | _, _ => none

/-- ColorMap.cpp 187-220 `getColor`; `none` if it returns false. -/
def Map.getColor (m : Map K) (p : K) : Option (Color K) := if 0 ≤ p ∧ p ≤ 1 then find p m.keys m.intervals else none

variable [FloorSemiring K]

/-- ColorMap.cpp 227, 231, 241: the conversion to a byte, for numbers from 0 to 1. -/
def byte (x : K) : ℕ := ⌊x * 255 + 1 / 2⌋₊

/-- ColorMap.cpp 227, 231, 241: the key of a colour at a position. -/
def Color.key (c : Color K) (p : K) : Key K := ⟨byte c.r, byte c.g, byte c.b, 255 - byte c.transparency, p⟩

/-- ColorMap.cpp 235-242: the keys of the remaining colours, where positions are added up and rounded. -/
def steps (rnd : K → K) (step : K) : K → List (Color K) → List (Key K)
  | _, [] => []
  | act, c :: cs => c.key (rnd (act + step)) :: steps rnd step (rnd (act + step)) cs

/-- ColorMap.cpp 222-245 `customColorMap`; `none` without colours. -/
def customMap (sort : List (Key K) → List (Key K)) (rnd : K → K) : List (Color K) → Option (Map K)
  | [] => none
  | c :: cs =>
    let m := (⟨[], []⟩ : Map K).add sort (c.key 0)
    if cs = [] then some (m.add sort (c.key 1)) else some (m.addAll sort (steps rnd (rnd (1 / cs.length)) 0 cs))

/-- ColorMap.h 37-40. -/
inductive Kind
  | intensity | hot | red | green | blue | hotAlpha | redAlpha | blueAlpha | greenAlpha

/-- ColorMap.cpp 40-98: the colours of the hot maps. -/
def hotColors : List (ℕ × ℕ × ℕ) :=
  [(0, 0, 189), (0, 0, 255), (0, 66, 255), (0, 132, 255), (0, 189, 255), (0, 255, 255), (66, 255, 189), (132, 255, 132), (189, 255, 66), (255, 255, 0), (255, 189, 0), (255, 132, 0), (255, 66, 0),
    (255, 0, 0), (189, 0, 0), (132, 0, 0), (128, 0, 0)]

/-- ColorMap.cpp 26-136 `create`: the keys in the order in which they are added. -/
def Kind.keys : Kind → List (Key K)
  | .intensity => [⟨0, 0, 0, 255, 0⟩, ⟨255, 255, 255, 255, 1⟩]
  | .hot => hotColors.zipIdx.map fun c => ⟨c.1.1, c.1.2.1, c.1.2.2, 255, (c.2 : K) / 16⟩
  | .hotAlpha => hotColors.zipIdx.map fun c => ⟨c.1.1, c.1.2.1, c.1.2.2, 255 * c.2 / 16, (c.2 : K) / 16⟩
  | .red => [⟨0, 0, 0, 255, 0⟩, ⟨255, 0, 0, 255, 1⟩]
  | .redAlpha => [⟨0, 0, 0, 0, 0⟩, ⟨255, 0, 0, 255, 1⟩]
  | .green => [⟨0, 0, 0, 255, 0⟩, ⟨0, 255, 0, 255, 1⟩]
  | .greenAlpha => [⟨0, 0, 0, 0, 0⟩, ⟨0, 255, 0, 255, 1⟩]
  | .blue => [⟨0, 0, 0, 255, 0⟩, ⟨0, 0, 255, 255, 1⟩]
  | .blueAlpha => [⟨0, 0, 0, 0, 0⟩, ⟨0, 0, 255, 255, 1⟩]

/-- ColorMap.cpp 16-19, 26-136: a map of a type. -/
def Kind.map (sort : List (Key K) → List (Key K)) (t : Kind) : Map K := (⟨[], []⟩ : Map K).addAll sort t.keys

end

end Simox.Clr
