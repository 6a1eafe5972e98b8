import Mathlib.Algebra.Order.Floor.Semiring
import Mathlib.Algebra.Order.Field.Basic
import Mathlib.Data.List.Sort

/-!
# Histograms

Models `VirtualRobot/math/Histogram.cpp` over an arbitrary ordered field with a floor: numbers are exact. `none` is undefined behaviour: an element that is not there, or the
conversion of a number to an index that does not fit. Counts do not overflow. The output to a stream is left out.
-/

namespace Simox.Hst

/-- Histogram.h 86-94: the members. -/
structure Histogram (K : Type) where
  min : K
  max : K
  bins : List ℕ

section
variable {K : Type} [Field K] [LinearOrder K] [IsStrictOrderedRing K] [FloorSemiring K]

/-- Histogram.cpp 26-29 `resetBins`. -/
def Histogram.resetBins (h : Histogram K) (n : ℕ) : Histogram K := { h with bins := List.replicate n 0 }

/-- The number of bins less one, as an unsigned number. -/
def Histogram.lastBin (h : Histogram K) : ℕ := (h.bins.length + 2 ^ 64 - 1) % 2 ^ 64

/-- Histogram.cpp 31-40 `valueToIndex`. The conversion cuts the fraction off: it is defined for numbers above -1. -/
def Histogram.valueToIndex (h : Histogram K) (value : K) : Option ℕ :=
  if h.max = h.min then none else
  let x := (value - h.min) / (h.max - h.min) * h.bins.length
  if x ≤ -1 ∨ 2 ^ 64 ≤ x then none else some (Nat.max 0 (Nat.min h.lastBin ⌊x⌋₊))

/-- Histogram.cpp 42-47 `indexToValue`. -/
def Histogram.indexToValue (h : Histogram K) (i : ℕ) : K := (i : K) / h.bins.length * (h.max - h.min) + h.min

/-- Histogram.cpp 49-52 `insert`. -/
def Histogram.insert (h : Histogram K) (value : K) : Option (Histogram K) :=
  match h.valueToIndex value with
  | none => none
  | some i => if i < h.bins.length then some { h with bins := h.bins.modify i (· + 1) } else none

/-- Histogram.cpp 54-60 `insert` for a vector. -/
def Histogram.insertAll (h : Histogram K) : List K → Option (Histogram K)
  | [] => some h
  | v :: vs =>
    match h.insert v with
    | none => none
    | some h' => h'.insertAll vs

/-- Histogram.cpp 68-79 `setMinMax` from data: the limits. -/
def limits : List K → Option (K × K)
  | [] => none
  | d :: ds => some ((d :: ds).foldl (fun m x => (Min.min m.1 x, Max.max m.2 x)) (d, d))

/-- Histogram.cpp 19-24: the constructor with limits. -/
def Histogram.ofLimits (data : List K) (min max : K) (n : ℕ) : Option (Histogram K) := ((⟨min, max, []⟩ : Histogram K).resetBins n).insertAll data

/-- Histogram.cpp 12-17: the constructor from data. -/
def Histogram.ofData (data : List K) (n : ℕ) : Option (Histogram K) := (limits data).bind fun m => Histogram.ofLimits data m.1 m.2 n

/-- The first position of an element that is less than all before and not more than all behind, `std::min_element`: the position, the element there, and the position of the next one. -/
def minStep (less : ℕ → ℕ → Bool) (s : ℕ × ℕ × ℕ) (x : ℕ) : ℕ × ℕ × ℕ := if less x s.2.1 then (s.2.2, x, s.2.2 + 1) else (s.1, s.2.1, s.2.2 + 1)

/-- `std::min_element` as an index; the end for an empty vector. -/
def minElement (less : ℕ → ℕ → Bool) : List ℕ → ℕ
  | [] => 0
  | b :: bs => (bs.foldl (minStep less) (0, b, 1)).1

/-- Histogram.cpp 101-105 `getMinBinIndex`. -/
def Histogram.minBinIndex (h : Histogram K) : ℕ := minElement (fun a b => decide (a < b)) h.bins

/-- Histogram.cpp 112-116 `getMaxBinIndex`: `std::max_element` is the first one that no other is greater than. -/
def Histogram.maxBinIndex (h : Histogram K) : ℕ := minElement (fun a b => decide (b < a)) h.bins

/-- Histogram.cpp 107-110 `getMinBinValue`. -/
def Histogram.minBinValue (h : Histogram K) : K := h.indexToValue h.maxBinIndex

/-- Histogram.cpp 118-121 `getMaxBinValue`. -/
def Histogram.maxBinValue (h : Histogram K) : K := h.indexToValue h.maxBinIndex

/-- The difference of two `size_t`. -/
def subWrap (a b : ℕ) : ℕ := (a + 2 ^ 64 - b) % 2 ^ 64

/-- Histogram.cpp 128-143: the new value of one bin. -/
def median (bins : List ℕ) (size index : ℕ) : Option ℕ :=
  let b := Nat.max (subWrap index size) 0
  let e := Nat.min ((index + size + 1) % 2 ^ 64) bins.length
  if b ≤ e then (((bins.drop b).take (e - b)).insertionSort (· ≤ ·))[(e - b) / 2]? else none

/-- Histogram.cpp 123-148 `applyMedianFilter`. -/
def Histogram.applyMedianFilter (h : Histogram K) (size : ℕ) : Option (Histogram K) :=
  ((List.range h.bins.length).mapM (median h.bins size)).map fun b => { h with bins := b }

end

end Simox.Hst
