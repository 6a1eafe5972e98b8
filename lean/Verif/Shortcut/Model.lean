import Verif.Trajectory.Model

/-!
# Model of `ShortcutProcessor` (MotionPlanning/PostProcessing/ShortcutProcessor.cpp)

The C-space is a record of the calls the processor makes. Console output (`verbose`) and clock readings
are left out. `optimizedPath` is the list of points.
-/

namespace Simox.Shortcut

open Simox.Trajectory

/-- What the processor calls: `CSpaceSampled::isPathValid`, `CSpaceSampled::createPath` (the points of the
path), `calcDist` as used by `CSpacePath::getLength(a, b)` and the Euclidean norm of a difference. -/
structure Env (Q : Type) where
  pathValid : Q → Q → Bool
  path : Q → Q → List Q
  dist : Q → Q → ℝ
  norm : Q → Q → ℝ

variable {Q : Type} [Zero Q]

/-- The loop `for (i = endIndex - 1; i >= startIndex + 1; i--) erasePosition(i)`,
ShortcutProcessor.cpp 75-79; `k` rounds are left. -/
def eraseDown (s : Nat) : Nat → List Q → List Q
  | 0, p => p
  | k + 1, p => eraseDown s k (erasePosition p (s + k + 1))

/-- `ShortcutProcessor::doShortcut`, ShortcutProcessor.cpp 62-134: return value and path. -/
def doShortcut (env : Env Q) (p : List Q) (startIndex endIndex : Int) : Int × List Q :=
  if startIndex < 0 ∨ endIndex < 0 ∨ startIndex ≥ p.length ∨ endIndex ≥ p.length then (0, p)
  else
    let s := startIndex.toNat
    let p := eraseDown s (endIndex - 1 - startIndex).toNat p
    let u := getPoint p s
    let v := getPoint p (s + 1)
    let q := env.path u v
    if q.length > 2 then
      let inner := erasePosition (erasePosition q (q.length - 1)) 0
      (endIndex - startIndex - 1 + (q.length - 2 : Nat), insertTrajectory p (s + 1) (.other inner))
    else (endIndex - startIndex - 1, p)

/-- `CSpacePath::getLength(startIndex, endIndex)`, CSpacePath.cpp 119-143, over `env.dist`. -/
noncomputable def pathLen (env : Env Q) (p : List Q) (s e : Nat) : ℝ :=
  if e < s ∨ e ≥ p.length then 0 else lengthLoop env.dist p (e - s) s 0

open Classical in
/-- `ShortcutProcessor::validShortcut`, ShortcutProcessor.cpp 284-329. -/
noncomputable def validShortcut (env : Env Q) (p : List Q) (s e : Int) : Bool :=
  let u := getPoint p s.toNat
  let v := getPoint p e.toNat
  if env.norm u v ≥ pathLen env p s.toNat e.toNat * 0.99 then false else env.pathValid u v

/-- `ShortcutProcessor::selectCandidatesRandom`, ShortcutProcessor.cpp 226-282; `r1`, `r2` are the values
of the two calls of `rand()`. `none` = no candidates. -/
def selectCandidates (p : List Q) (maxDist : Int) (r1 r2 : Nat) : Option (Int × Int) :=
  if p.length ≤ 2 then none
  else
    let maxDist := if maxDist < 2 then 2 else maxDist
    let s : Int := (r1 % (p.length - 2) : Nat)
    let remaining : Int := p.length - 2 - s
    let remaining := if remaining > maxDist then maxDist else remaining
    if remaining ≤ 0 then none
    else
      let dist : Int := 2 + (r2 % remaining.toNat : Nat)
      let e := s + dist
      if s < 0 ∨ e < 0 then none
      else if e > (p.length : Int) - 1 then none
      else if s > (p.length : Int) - 1 then none
      else if e - s ≤ 1 then none
      else some (s, e)

/-- `ShortcutProcessor::tryRandomShortcut`, ShortcutProcessor.cpp 21-60. -/
noncomputable def tryRandomShortcut (env : Env Q) (p : List Q) (maxDist : Int) (r1 r2 : Nat) :
    Int × List Q :=
  match selectCandidates p maxDist r1 r2 with
  | none => (0, p)
  | some (s, e) => if !validShortcut env p s e then (0, p) else doShortcut env p s e

/-- One evaluation of the loop condition and body of `shortenSolutionRandom`: is `stopOptimization` set
(by another thread), and the values `rand()` returns. -/
structure Round where
  stop : Bool
  r1 : Nat
  r2 : Nat

/-- The loop of `shortenSolutionRandom`, ShortcutProcessor.cpp 170-177; the list has `shortenLoops`
rounds. -/
noncomputable def shortenLoop (env : Env Q) (maxDist : Int) : List Round → List Q → List Q
  | [], p => p
  | r :: rs, p =>
    if r.stop then p else shortenLoop env maxDist rs (tryRandomShortcut env p maxDist r.r1 r.r2).2

/-- `ShortcutProcessor::shortenSolutionRandom`, ShortcutProcessor.cpp 142-197 (and `optimize`, 137-140):
works on a clone of the path. -/
noncomputable def shortenSolutionRandom (env : Env Q) (path : List Q) (maxDist : Int)
    (rounds : List Round) : List Q :=
  let p := clone path
  if p.length ≤ 2 then p else shortenLoop env maxDist rounds p

/-- `getNrOfPoints() - 2` as `unsigned int`. -/
def lenMinus2 (n : Nat) : Nat := if n ≥ 2 then n - 2 else n + 2 ^ 32 - 2

/-- The loop of `ShortcutProcessor::doPathPruning`, ShortcutProcessor.cpp 205-223; `none` = still running
after `fuel` rounds. -/
def pruneLoop (env : Env Q) : Nat → Nat → List Q → Option (List Q)
  | 0, _, _ => none
  | fuel + 1, i, p =>
    if i < lenMinus2 p.length then
      if env.pathValid (getPoint p i) (getPoint p (i + 2)) then
        pruneLoop env fuel (if i > 0 then i - 1 else i) (erasePosition p (i + 1))
      else pruneLoop env fuel (i + 1) p
    else some p

/-- `ShortcutProcessor::doPathPruning`, ShortcutProcessor.cpp 199-224. -/
def doPathPruning (env : Env Q) (path : List Q) (fuel : Nat) : Option (List Q) :=
  pruneLoop env fuel 0 (clone path)

end Simox.Shortcut
