import Verif.Gpl.Spec
import Verif.Rot.PlaneProps

/-!
# Friction cones: lemmas
-/

namespace Simox.Gpl

open Matrix Jac Rot

/-- The directions of the rim for the height 1. -/
noncomputable def rimDir (θ : ℝ) : V3 := ![Real.cos θ, Real.sin θ, 1]

theorem rimPoint_eq (u a : ℝ) (k : ℤ) (i : ℕ) :
    rimPoint u a (u * Real.cos a) k i = (u * Real.cos a) • rimDir (i * 2 * Real.pi / k) := by
  ext j
  fin_cases j <;> simp [rimPoint, rimDir] <;> ring

theorem rimDir_dot (s t : ℝ) : rimDir s ⬝ᵥ rimDir t = Real.cos (s - t) + 1 := by
  rw [dot3, Real.cos_sub]
  simp [rimDir]

/-- The rotation of the cone. -/
noncomputable def coneRot (n : V3) : M3 := toRotationMatrix (rotUnit ![0, 0, 1] (normalize n))

theorem transform_quat (v : V3) (q : Quat) : transformPosition v (quat2eigen4f q) = toRotationMatrix q *ᵥ v := by
  ext i
  fin_cases i <;>
    simp [transformPosition, quat2eigen4f, block4, Matrix.mulVec, dotProduct, Fin.sum_univ_three, Fin.sum_univ_four]

theorem conePoint_eq (c : ContactPoint) (rim : V3) : conePoint c rim = c.force • (coneRot c.n *ᵥ rim) := by
  rw [conePoint, transform_quat, getRotation_eq, normalize_of_unit up_unit, mulVec_smul]
  rfl

theorem coneRot_spec {n : V3} (h : n ≠ 0) :
    coneRot n ∈ Matrix.specialOrthogonalGroup (Fin 3) ℝ ∧ coneRot n *ᵥ ![0, 0, 1] = normalize n := by
  obtain ⟨h1, h2, -, -⟩ := rotUnit_spec up_unit (normalize_unit h)
  exact ⟨toRotationMatrix_mem h1, h2⟩

theorem nrm_smul (s : ℝ) (v : V3) : nrm (s • v) = |s| * nrm v := by
  rw [nrm, nrm, smul_dotProduct, dotProduct_smul, smul_eq_mul, smul_eq_mul, ← mul_assoc,
    Real.sqrt_mul (mul_self_nonneg s), Real.sqrt_mul_self_eq_abs]

theorem normalize_smul {s : ℝ} (hs : 0 < s) (v : V3) : normalize (s • v) = normalize v := by
  by_cases hv : v = 0
  · simp [hv]
  have hsv : s • v ≠ 0 := smul_ne_zero hs.ne' hv
  rw [normalize_of_ne hsv, normalize_of_ne hv, nrm_smul, abs_of_pos hs, smul_smul]
  congr 1
  have := (nrm_pos hv).ne'
  field_simp

/-- The unit vectors of the cone around `n`. -/
noncomputable def coneDir (n : V3) (θ : ℝ) : V3 := (1 / Real.sqrt 2) • (coneRot n *ᵥ rimDir θ)

theorem sqrt2_sq : (1 / Real.sqrt 2) * (1 / Real.sqrt 2) = 1 / 2 := by
  rw [div_mul_div_comm, Real.mul_self_sqrt (by norm_num)]; norm_num

theorem coneDir_dot {n : V3} (h : n ≠ 0) (s t : ℝ) :
    coneDir n s ⬝ᵥ coneDir n t = 1 / 2 + 1 / 2 * Real.cos (s - t) := by
  rw [coneDir, coneDir, smul_dotProduct, dotProduct_smul, rot_dot (coneRot_spec h).1, rimDir_dot, smul_eq_mul,
    smul_eq_mul, ← mul_assoc, sqrt2_sq]
  ring

theorem coneDir_unit {n : V3} (h : n ≠ 0) (s : ℝ) : coneDir n s ⬝ᵥ coneDir n s = 1 := by
  rw [coneDir_dot h, sub_self, Real.cos_zero]; norm_num

theorem coneDir_normal {n : V3} (h : n ≠ 0) (s : ℝ) : coneDir n s ⬝ᵥ normalize n = 1 / Real.sqrt 2 := by
  rw [coneDir, smul_dotProduct, ← (coneRot_spec h).2, rot_dot (coneRot_spec h).1, dot3]
  simp [rimDir]

theorem coneRot_rim_ne {n : V3} (h : n ≠ 0) (s : ℝ) : coneRot n *ᵥ rimDir s ≠ 0 := by
  intro h0
  have := coneDir_unit h s
  rw [coneDir, h0] at this
  simp at this

theorem nrm_coneRot {n : V3} (h : n ≠ 0) (s : ℝ) : nrm (coneRot n *ᵥ rimDir s) = Real.sqrt 2 := by
  rw [nrm, rot_dot (coneRot_spec h).1, rimDir_dot, sub_self, Real.cos_zero]
  norm_num

/-- A point of the cone. -/
theorem coneContact_eq {c : ContactPoint} (hn : c.n ≠ 0) (hf : 0 < c.force) {u : ℝ} (hu : 0 < u) (μ : ℝ) (θ : ℝ) :
    coneContact c ((u * Real.cos (Real.arctan μ)) • rimDir θ) =
      { p := (Real.sqrt 2 * Real.cos (Real.arctan μ) * u * c.force) • coneDir c.n θ + c.p
        n := coneDir c.n θ
        force := c.force } := by
  have hc : 0 < Real.cos (Real.arctan μ) := Real.cos_arctan_pos μ
  have h2 : Real.sqrt 2 ≠ 0 := by positivity
  have hp : conePoint c ((u * Real.cos (Real.arctan μ)) • rimDir θ) =
      (c.force * (u * Real.cos (Real.arctan μ))) • (coneRot c.n *ᵥ rimDir θ) := by
    rw [conePoint_eq, mulVec_smul, smul_smul]
  have hpos : 0 < c.force * (u * Real.cos (Real.arctan μ)) := mul_pos hf (mul_pos hu hc)
  simp only [coneContact, hp, ContactPoint.mk.injEq, and_true]
  constructor
  · rw [coneDir, smul_smul]
    congr 2
    field_simp
  · rw [normalize_smul hpos, normalize_of_ne (coneRot_rim_ne hn θ), nrm_coneRot hn]
    rfl

theorem rim_eq (k : ℤ) (μ u : ℝ) :
    (ConeGen.new k μ u).frictionConeRimPoints = (List.range k.toNat).map fun (i : ℕ) =>
      (u * Real.cos (Real.arctan μ)) • rimDir (i * 2 * Real.pi / k) := by
  simp only [ConeGen.new]
  apply List.map_congr_left
  intro i _
  rw [rimPoint_eq]

/-- The cone of a contact. -/
theorem cone_eq (k : ℤ) (μ : ℝ) {u : ℝ} (hu : 0 < u) {c : ContactPoint} (hn : c.n ≠ 0) (hf : 0 < c.force)
    (store : List ContactPoint) :
    computeConePoints (ConeGen.new k μ u) c store = store ++ (List.range k.toNat).map fun (i : ℕ) =>
      { p := (Real.sqrt 2 * Real.cos (Real.arctan μ) * u * c.force) • coneDir c.n (i * 2 * Real.pi / k) + c.p
        n := coneDir c.n (i * 2 * Real.pi / k)
        force := c.force } := by
  rw [computeConePoints, rim_eq, List.map_map]
  congr 1
  apply List.map_congr_left
  intro i _
  exact coneContact_eq hn hf hu μ _

theorem positions_eq (g : ConeGen) (c : ContactPoint) (store : List ContactPoint) :
    computeConePositions g c (store.map (·.p)) = (computeConePoints g c store).map (·.p) := by
  simp [computeConePositions, computeConePoints, coneContact, Function.comp_def]

theorem conesOf_eq (g : ConeGen) (cs : List ContactPoint) :
    conesOf g cs = cs.flatMap fun c => computeConePoints g c [] := by
  have : ∀ acc, cs.foldl (fun conePoints c => computeConePoints g c conePoints) acc =
      acc ++ cs.flatMap fun c => computeConePoints g c [] := by
    induction cs with
    | nil => intro acc; simp
    | cons c cs ih => intro acc; rw [List.foldl_cons, ih]; simp [computeConePoints]
  rw [conesOf, this]; simp

end Simox.Gpl
