import Mathlib.Analysis.InnerProductSpace.PiL2
import Mathlib.Analysis.SpecialFunctions.Trigonometric.Inverse
import Mathlib.Analysis.SpecialFunctions.Complex.Arg

/-!
# Paths with rounded corners

Models `VirtualRobot/TimeOptimalTrajectory/Path.cpp`. Numbers are reals; there is no rounding. Configurations have `n`
components, the same number for all of them.
-/

namespace Simox.Tot

/-- `Eigen::VectorXd` of size `n`, with its norm and scalar product. -/
abbrev Cfg (n : ℕ) := EuclideanSpace ℝ (Fin n)

variable {n : ℕ}

/-- Eigen's `normalized()`: the zero vector stays as it is. -/
noncomputable def normalized (v : Cfg n) : Cfg n := ‖v‖⁻¹ • v

/-- Path.cpp 52-87 `LinearPathSegment` and 90-172 `CircularPathSegment`: their members (Path.h 66-68, Path.cpp 85-86, 168-171). -/
inductive Seg (n : ℕ) where
  | line (start stop : Cfg n)
  | arc (length radius : ℝ) (center x y : Cfg n)

/-- Path.h 57-59 `getLength()`; Path.cpp 58: the length of a line. -/
noncomputable def Seg.length : Seg n → ℝ
  | .line start stop => ‖stop - start‖
  | .arc length _ _ _ _ => length

/-- Path.cpp 62-66, 131-134 `getConfig(s)`. For a line of length zero the program divides by zero. -/
noncomputable def Seg.config : Seg n → ℝ → Cfg n
  | .line start stop, s =>
      let s := s / ‖stop - start‖
      let s := max 0 (min 1 s)
      (1 - s) • start + s • stop
  | .arc _ radius center x y, s =>
      let angle := s / radius
      center + radius • (Real.cos angle • x + Real.sin angle • y)

/-- Path.cpp 68-70, 136-139 `getTangent(s)`. For a line of length zero the program divides by zero. -/
noncomputable def Seg.tangent : Seg n → ℝ → Cfg n
  | .line start stop, _ => ‖stop - start‖⁻¹ • (stop - start)
  | .arc _ radius _ x y, s =>
      let angle := s / radius
      (-Real.sin angle) • x + Real.cos angle • y

/-- Path.cpp 72-74, 141-144 `getCurvature(s)`. -/
noncomputable def Seg.curvature : Seg n → ℝ → Cfg n
  | .line _ _, _ => 0
  | .arc _ radius _ x y, s =>
      let angle := s / radius
      (-1 / radius) • (Real.cos angle • x + Real.sin angle • y)

/-- `atan2(y, x)`, in `(-π, π]`; zero for two zeros (positive ones). -/
noncomputable def atan2 (y x : ℝ) : ℝ := Complex.arg ⟨x, y⟩

/-- Path.cpp 150-153: the angle at which the tangent has no component `i`. -/
noncomputable def switchingAngle (y x : ℝ) : ℝ := if atan2 y x < 0 then atan2 y x + Real.pi else atan2 y x

open Classical in
/-- Path.cpp 76-78, 146-161 `getSwitchingPoints()`. -/
noncomputable def Seg.switchingPoints : Seg n → List ℝ
  | .line _ _ => []
  | .arc length radius _ x y =>
      (((List.finRange n).map fun i => switchingAngle (y i) (x i) * radius).filter fun s => decide (s < length)).mergeSort

open Classical in
/-- Path.cpp 93-129: the constructor of `CircularPathSegment`. If the direction is reversed exactly, the program divides
zero by zero (or by the rounding error of `cos(π/2)`). -/
noncomputable def circular (start intersection stop : Cfg n) (maxDeviation : ℝ) : Seg n :=
  if ‖intersection - start‖ < 0.000001 ∨ ‖stop - intersection‖ < 0.000001 then .arc 0 1 intersection 0 0
  else
    let startDirection := normalized (intersection - start)
    let endDirection := normalized (stop - intersection)
    if ‖startDirection - endDirection‖ < 0.000001 then .arc 0 1 intersection 0 0
    else
      let distance := min ‖start - intersection‖ ‖stop - intersection‖
      let angle := Real.arccos (inner ℝ startDirection endDirection)
      let distance := min distance (maxDeviation * Real.sin (0.5 * angle) / (1 - Real.cos (0.5 * angle)))
      let radius := distance / Real.tan (0.5 * angle)
      let center := intersection + (radius / Real.cos (0.5 * angle)) • normalized (endDirection - startDirection)
      .arc (angle * radius) radius center (normalized (intersection - distance • startDirection - center)) startDirection

/-- The point between two others (Path.cpp 190). -/
noncomputable def mid (a b : Cfg n) : Cfg n := (0.5 : ℝ) • (a + b)

open Classical in
/-- Path.cpp 186-205: the loop over the waypoints. `start` is `startConfig`, `c1` is `*config1`, the list is what begins
at `config2`. -/
noncomputable def buildSegments (maxDeviation : ℝ) (start c1 : Cfg n) : List (Cfg n) → List (Seg n)
  | [] => []
  | [c2] => [.line start c2]
  | c2 :: c3 :: rest =>
      if 0 < maxDeviation then
        let blend := circular (mid c1 c2) c2 (mid c2 c3) maxDeviation
        let stop := blend.config 0
        (if 0.000001 < ‖stop - start‖ then [.line start stop] else []) ++
          blend :: buildSegments maxDeviation (blend.config blend.length) c2 (c3 :: rest)
      else .line start c2 :: buildSegments maxDeviation c2 c2 (c3 :: rest)

/-- Path.cpp 181-205: the segments of a path. -/
noncomputable def segmentsOf (maxDeviation : ℝ) : List (Cfg n) → List (Seg n)
  | [] => []
  | c1 :: rest => buildSegments maxDeviation c1 c1 rest

open Classical in
/-- Path.cpp 215-216: switching points that are not below `length` are removed from the end of the list. -/
noncomputable def popBack (length : ℝ) (l : List (ℝ × Bool)) : List (ℝ × Bool) :=
  (l.reverse.dropWhile fun p => decide (length ≤ p.1)).reverse

/-- Path.h 87-89: the members; a segment with its `position`. -/
structure Path (n : ℕ) where
  length : ℝ
  switchingPoints : List (ℝ × Bool)
  segments : List (Seg n × ℝ)

/-- Path.cpp 208-218: one round of the second loop. -/
noncomputable def Path.push (p : Path n) (seg : Seg n) : Path n :=
  let length := p.length + seg.length
  ⟨length, popBack length (p.switchingPoints ++ seg.switchingPoints.map fun s => (p.length + s, false)) ++ [(length, true)],
    p.segments ++ [(seg, p.length)]⟩

/-- Path.cpp 176-220: the constructor. -/
noncomputable def Path.new (waypoints : List (Cfg n)) (maxDeviation : ℝ) : Path n :=
  if waypoints.length < 2 then ⟨0, [], []⟩
  else
    let p := (segmentsOf maxDeviation waypoints).foldl Path.push ⟨0, [], []⟩
    { p with switchingPoints := p.switchingPoints.dropLast }

open Classical in
/-- Path.cpp 242-248: the loop of `getPathSegment`; `it` is the current segment, the list is what follows. -/
noncomputable def findSegment (s : ℝ) (it : Seg n × ℝ) : List (Seg n × ℝ) → Seg n × ℝ
  | [] => it
  | next :: rest => if next.2 ≤ s then findSegment s next rest else it

/-- Path.cpp 241-251 `getPathSegment(s)`: the segment and the new `s`; `none`: undefined behaviour, there is no segment. -/
noncomputable def Path.getPathSegment (p : Path n) (s : ℝ) : Option (Seg n × ℝ) :=
  match p.segments with
  | [] => none
  | it :: rest => some ((findSegment s it rest).1, s - (findSegment s it rest).2)

/-- Path.cpp 253-256 `getConfig(s)`. -/
noncomputable def Path.getConfig (p : Path n) (s : ℝ) : Option (Cfg n) := (p.getPathSegment s).map fun q => q.1.config q.2

/-- Path.cpp 258-261 `getTangent(s)`. -/
noncomputable def Path.getTangent (p : Path n) (s : ℝ) : Option (Cfg n) := (p.getPathSegment s).map fun q => q.1.tangent q.2

/-- Path.cpp 263-266 `getCurvature(s)`. -/
noncomputable def Path.getCurvature (p : Path n) (s : ℝ) : Option (Cfg n) := (p.getPathSegment s).map fun q => q.1.curvature q.2

open Classical in
/-- Path.cpp 268-281 `getNextSwitchingPoint(s, discontinuity)`: the point and `discontinuity`. -/
noncomputable def Path.getNextSwitchingPoint (p : Path n) (s : ℝ) : ℝ × Bool :=
  match p.switchingPoints.dropWhile fun q => decide (q.1 ≤ s) with
  | [] => (p.length, true)
  | q :: _ => q

end Simox.Tot
