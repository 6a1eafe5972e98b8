import Mathlib.Analysis.SpecialFunctions.Sqrt
import Mathlib.Analysis.SpecialFunctions.Exp
import Mathlib.LinearAlgebra.Matrix.NonsingularInverse

/-!
# Kernels and Gaussian implicit surfaces

Models VirtualRobot/math/Kernels, VirtualRobot/math/GaussianImplicitSurface3D, VirtualRobot/math/GaussianImplicitSurface3DNormals and
VirtualRobot/math/GaussianImplicitSurface3DCombined, with real numbers instead of float and double. An exception is `none`. An index
is a natural number: negative ones throw as those that are too large do.
-/

namespace Simox.Krn

/-- `Eigen::Vector3f`. -/
abbrev V := Fin 3 → ℝ

/-- `(p - q).squaredNorm()`. -/
def sqd (p q : V) : ℝ := (p 0 - q 0) ^ 2 + (p 1 - q 1) ^ 2 + (p 2 - q 2) ^ 2

/-- `(p - q).norm()`. -/
noncomputable def dist (p q : V) : ℝ := Real.sqrt (sqd p q)

/-! ## Kernels -/

/-- A class derived from KernelWithDerivatives: its four virtual functions (Kernels.h 31-37). -/
structure Kernel where
  k : V → V → ℝ → ℝ
  dx : ℝ → ℝ → ℝ → ℝ → ℝ → Option ℝ
  ddx : ℝ → ℝ → ℝ → ℝ → ℝ → Option ℝ
  dxdy : ℝ → ℝ → ℝ → ℝ → ℝ → Option ℝ

/-- `KernelWithDerivatives::swap` (Kernels.cpp 79-88). -/
def swap (x y z : ℝ) : Nat → Option (ℝ × ℝ × ℝ)
  | 0 => some (x, y, z)
  | 1 => some (y, x, z)
  | 2 => some (z, y, x)
  | _ => none

/-- `KernelWithDerivatives::Kernel_di` (Kernels.cpp 37-45). -/
noncomputable def Kernel.di (K : Kernel) (p1 p2 : V) (R : ℝ) (i : Nat) : Option ℝ :=
  (swap (p1 0 - p2 0) (p1 1 - p2 1) (p1 2 - p2 2) i).bind fun s => K.dx s.1 s.2.1 s.2.2 (dist p1 p2) R

/-- `KernelWithDerivatives::Kernel_dj` (Kernels.cpp 46-54). -/
noncomputable def Kernel.dj (K : Kernel) (p1 p2 : V) (R : ℝ) (j : Nat) : Option ℝ :=
  (swap (p1 0 - p2 0) (p1 1 - p2 1) (p1 2 - p2 2) j).bind fun s => (K.dx s.1 s.2.1 s.2.2 (dist p1 p2) R).map fun v => -v

/-- `KernelWithDerivatives::Kernel_didj` (Kernels.cpp 56-77): `at` throws if there is no such element. -/
noncomputable def Kernel.didj (K : Kernel) (p1 p2 : V) (R : ℝ) (i j : Nat) : Option ℝ :=
  if i = j then
    (swap (p1 0 - p2 0) (p1 1 - p2 1) (p1 2 - p2 2) i).bind fun s => (K.ddx s.1 s.2.1 s.2.2 (dist p1 p2) R).map fun v => -v
  else
    let a := [p1 0 - p2 0, p1 1 - p2 1, p1 2 - p2 2]
    a[i]?.bind fun x => a[j]?.bind fun y => a[3 - i - j]?.bind fun z => (K.dxdy x y z (dist p1 p2) R).map fun v => -v

/-- `KernelWithDerivatives::Kernel` with two indices: 0 for the value, 1 to 3 for the derivatives (Kernels.cpp 29-35). -/
noncomputable def Kernel.ij (K : Kernel) (p1 p2 : V) (R : ℝ) (i j : Nat) : Option ℝ :=
  if i = 0 ∧ j = 0 then some (K.k p1 p2 R)
  else if i = 0 then K.dj p1 p2 R (j - 1)
  else if j = 0 then K.di p1 p2 R (i - 1)
  else K.didj p1 p2 R (i - 1) (j - 1)

/-- `GaussianKernel` (Kernels.cpp 90-113): the derivatives throw. -/
noncomputable def gaussian (lengthScale : ℝ) : Kernel where
  k p1 p2 _ := Real.exp (-(sqd p1 p2 / (2 * lengthScale * lengthScale)))
  dx _ _ _ _ _ := none
  ddx _ _ _ _ _ := none
  dxdy _ _ _ _ _ := none

/-- `WilliamsPlusKernel` (Kernels.cpp 116-137). -/
noncomputable def williamsPlus : Kernel where
  k p1 p2 R := 2 * dist p1 p2 * dist p1 p2 * dist p1 p2 + 3 * R * dist p1 p2 * dist p1 p2 + R * R * R
  dx x _ _ r R := some (6 * x * (r + R))
  ddx x _ _ r R := some (if r = 0 then 6 * R else 6 * (R + r) + 6 * x * x / r)
  dxdy x y _ r _ := some (if r = 0 then 0 else 6 * x * y / r)

/-- `WilliamsMinusKernel` (Kernels.cpp 139-160). -/
noncomputable def williamsMinus : Kernel where
  k p1 p2 R := 2 * dist p1 p2 * dist p1 p2 * dist p1 p2 - 3 * R * dist p1 p2 * dist p1 p2 + R * R * R
  dx x _ _ r R := some (6 * x * (r - R))
  ddx x _ _ r R := some (if r = 0 then 6 * R else -6 * (r - R) + 6 * x * x / r)
  dxdy x y _ r _ := some (if r = 0 then 0 else -6 * x * y / r)

/-! ## Surfaces -/

/-- The loops that look for the largest distance (GaussianImplicitSurface3D.cpp 57-64, GaussianImplicitSurface3DNormals.cpp 43-50,
GaussianImplicitSurface3DCombined.cpp 68-76). -/
noncomputable def maxDist {n : Nat} (p : Fin n → V) : ℝ :=
  Real.sqrt ((List.finRange n).foldl (fun R i => (List.finRange n).foldl (fun R j => max R (sqd (p i) (p j))) R) 0)

/-- The entry of the covariance for two features, each a position and 0 for the value there or 1 to 3 for a derivative, before the
noise is added: the loop runs over `j` from `i` and writes both entries (GaussianImplicitSurface3D.cpp 103-111,
GaussianImplicitSurface3DNormals.cpp 103-111, GaussianImplicitSurface3DCombined.cpp 146-176). -/
noncomputable def gramAt (K : Kernel) (R : ℝ) {N : Nat} (feat : Fin N → V × Nat) (i j : Fin N) : Option ℝ :=
  if i ≤ j then K.ij (feat i).1 (feat j).1 R (feat i).2 (feat j).2 else K.ij (feat j).1 (feat i).1 R (feat j).2 (feat i).2

/-- All entries; an exception if one of them throws. -/
noncomputable def gram (K : Kernel) (R : ℝ) {N : Nat} (feat : Fin N → V × Nat) : Option (Matrix (Fin N) (Fin N) ℝ) :=
  open Classical in
  if ∀ i j, (gramAt K R feat i j).isSome then some (fun i j => (gramAt K R feat i j).getD 0) else none

/-- A surface after `Calculate`: the samples as features, `R`, `covariance_inv` and `alpha`. -/
structure Surface (N : Nat) where
  feat : Fin N → V × Nat
  R : ℝ
  cov : Matrix (Fin N) (Fin N) ℝ
  inv : Matrix (Fin N) (Fin N) ℝ
  alpha : Fin N → ℝ

/-- `MatrixInvert` (GaussianImplicitSurface3D.cpp 118-123, GaussianImplicitSurface3DNormals.cpp 119-124,
GaussianImplicitSurface3DCombined.cpp 199-204). The QR decomposition of Eigen gives the inverse if there is one. If there is none, what
it gives is not specified; here it is zero, and the theorems ask for an inverse. -/
noncomputable def solve {N : Nat} (feat : Fin N → V × Nat) (R : ℝ) (cov : Matrix (Fin N) (Fin N) ℝ) (b : Fin N → ℝ) : Surface N :=
  ⟨feat, R, cov, cov⁻¹, cov⁻¹.mulVec b⟩

/-- `GaussianImplicitSurface3D::Calculate` with a noise for each sample (GaussianImplicitSurface3D.cpp 41-67, 99-116). -/
noncomputable def calculate (K : Kernel) {n : Nat} (pos : Fin n → V) (value noise : Fin n → ℝ) : Option (Surface n) :=
  let feat := fun i => (pos i, 0)
  (gram K (maxDist pos) feat).map fun c => solve feat (maxDist pos) (c + Matrix.diagonal fun i => noise i * noise i) value

/-- The features of `n` samples followed by four for each of `m` samples with normals (GaussianImplicitSurface3DNormals.cpp 82-93, 107;
GaussianImplicitSurface3DCombined.cpp 112-128, 150-173). -/
def feats {n m : Nat} (pos : Fin n → V) (npos : Fin m → V) (i : Fin (n + 4 * m)) : V × Nat :=
  if h : i.1 < n then (pos ⟨i.1, h⟩, 0) else (npos ⟨(i.1 - n) / 4, by omega⟩, (i.1 - n) % 4)

/-- The values that the features should have: zero at a sample with a normal, and the normal (GaussianImplicitSurface3DNormals.cpp 54-61,
GaussianImplicitSurface3DCombined.cpp 80-92). -/
def targets {n m : Nat} (value : Fin n → ℝ) (normal : Fin m → V) (i : Fin (n + 4 * m)) : ℝ :=
  if h : i.1 < n then value ⟨i.1, h⟩
  else if hc : (i.1 - n) % 4 = 0 then 0 else normal ⟨(i.1 - n) / 4, by omega⟩ ⟨(i.1 - n) % 4 - 1, by omega⟩

/-- The positions of all samples: those with normals come first (GaussianImplicitSurface3DCombined.cpp 50-66). -/
def allPos {n m : Nat} (pos : Fin n → V) (npos : Fin m → V) (i : Fin (m + n)) : V :=
  if h : i.1 < m then npos ⟨i.1, h⟩ else pos ⟨i.1 - m, by omega⟩

/-- The noise of `GaussianImplicitSurface3DNormals::CalculateCovariance` (GaussianImplicitSurface3DNormals.cpp 113-116): the loop runs over
the number of points, not of features. -/
def noiseN {m : Nat} (noise normalNoise : ℝ) (i : Fin (0 + 4 * m)) : ℝ :=
  if i.1 < m then (if i.1 % 4 = 0 then noise * noise else normalNoise * normalNoise) else 0

/-- `GaussianImplicitSurface3DNormals::Calculate` (GaussianImplicitSurface3DNormals.cpp 30-65). The normals are scaled only in the copies of the
samples, which are not used: `normalScale` has no effect. -/
noncomputable def calculateNormals (K : Kernel) {m : Nat} (npos normal : Fin m → V) (noise normalNoise _normalScale : ℝ) :
    Option (Surface (0 + 4 * m)) :=
  let feat := feats (n := 0) (fun i => i.elim0) npos
  (gram K (maxDist npos) feat).map fun c =>
    solve feat (maxDist npos) (c + Matrix.diagonal (noiseN noise normalNoise)) (targets (fun i => i.elim0) normal)

/-- The noise of `GaussianImplicitSurface3DCombined::CalculateCovariance` (GaussianImplicitSurface3DCombined.cpp 178-189): the second loop
runs over the number of points with normals, not of their features. -/
def noiseC {n m : Nat} (noise : Fin n → ℝ) (normalNoise : ℝ) (i : Fin (n + 4 * m)) : ℝ :=
  if h : i.1 < n then noise ⟨i.1, h⟩ * noise ⟨i.1, h⟩ else if i.1 - n < m then normalNoise * normalNoise else 0

/-- `GaussianImplicitSurface3DCombined::Calculate` (GaussianImplicitSurface3DCombined.cpp 39-99). -/
noncomputable def calculateCombined (K : Kernel) {n m : Nat} (npos normal : Fin m → V) (pos : Fin n → V) (value noise : Fin n → ℝ)
    (normalNoise _normalScale : ℝ) : Option (Surface (n + 4 * m)) :=
  let feat := feats pos npos
  (gram K (maxDist (allPos pos npos)) feat).map fun c =>
    solve feat (maxDist (allPos pos npos)) (c + Matrix.diagonal (noiseC noise normalNoise)) (targets value normal)

/-- `getCux` (GaussianImplicitSurface3D.cpp 76-81, GaussianImplicitSurface3DNormals.cpp 73-84, GaussianImplicitSurface3DCombined.cpp 107-124):
an element; it throws only if `Calculate` did. -/
noncomputable def Surface.cux {N : Nat} (K : Kernel) (s : Surface N) (p : V) (i : Fin N) : ℝ :=
  (K.ij p (s.feat i).1 s.R 0 (s.feat i).2).getD 0

/-- `Predict`, `Get` (GaussianImplicitSurface3D.cpp 69-72, 87-96, GaussianImplicitSurface3DNormals.cpp 68-71, 85-90,
GaussianImplicitSurface3DCombined.cpp 102-105, 126-131). -/
noncomputable def Surface.predict {N : Nat} (K : Kernel) (s : Surface N) (p : V) : ℝ := ∑ i, s.cux K p i * s.alpha i

/-- `GetVariance` (GaussianImplicitSurface3D.cpp 74-85, GaussianImplicitSurface3DNormals.cpp 92-98,
GaussianImplicitSurface3DCombined.cpp 191-197). -/
noncomputable def Surface.variance {N : Nat} (K : Kernel) (s : Surface N) (p : V) : ℝ :=
  K.k p p s.R - ∑ i, s.cux K p i * s.inv.mulVec (s.cux K p) i

end Simox.Krn
