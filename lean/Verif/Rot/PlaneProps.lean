import Verif.Rot.DirLemmas
import Verif.Rot.QuatProps

/-!
# C72: the rotation between two directions; C73: planes
-/

namespace Simox.Rot

open Matrix Jac

theorem rotPart_quat (q : Quat) : rotPart (quat2eigen4f q) = toRotationMatrix q := by
  ext i j
  fin_cases i <;> fin_cases j <;> simp [rotPart, quat2eigen4f, block4]

/-- **C72 (direction to direction).** For two vectors other than zero, `getRotation` gives a unit quaternion
whose rotation turns the first into the direction of the second, by just the angle between the two.
Directions at right angles to both stay as they are (unless the two are parallel). The rotation from the
second to the first is the inverse. -/
theorem C72_direction (f t : V3) (hf : f ≠ 0) (ht : t ≠ 0) :
    (getRotation f t).Unit ∧
    (∃ k : ℝ, 0 < k ∧ rotPart (quat2eigen4f (getRotation f t)) *ᵥ f = k • t) ∧
    Real.cos (getAngle (getRotation f t)) * (Real.sqrt (f ⬝ᵥ f) * Real.sqrt (t ⬝ᵥ t)) = f ⬝ᵥ t ∧
    (crossProduct f t ≠ 0 → ∀ v, v ⬝ᵥ f = 0 → v ⬝ᵥ t = 0 →
      rotPart (quat2eigen4f (getRotation f t)) *ᵥ v = v) ∧
    quat2eigen4f (getRotation t f) * quat2eigen4f (getRotation f t) = 1 := by
  have ha := normalize_unit hf
  have hb := normalize_unit ht
  obtain ⟨h1, h2, h3, h4⟩ := rotUnit_spec ha hb
  have hfn := smul_normalize hf
  have htn := smul_normalize ht
  have pf := nrm_pos hf
  have pt := nrm_pos ht
  have hE := getRotation_eq f t
  have hE' := getRotation_eq t f
  have hconj := rotUnit_conj ha hb
  generalize normalize f = a at *
  generalize normalize t = b at *
  rw [hE, hE', rotPart_quat]
  refine ⟨h1, ⟨nrm f / nrm t, div_pos pf pt, ?_⟩, ?_, ?_, ?_⟩
  · have e1 : toRotationMatrix (rotUnit a b) *ᵥ f = nrm f • b := by
      conv_lhs => rw [← hfn]
      rw [mulVec_smul, h2]
    have e2 : (nrm f / nrm t) • t = nrm f • b := by
      calc (nrm f / nrm t) • t = (nrm f / nrm t) • (nrm t • b) := by rw [htn]
        _ = nrm f • b := by rw [smul_smul, div_mul_cancel₀ _ pt.ne']
    rw [e1, e2]
  · obtain ⟨-, -, -, htr⟩ := C70_angle _ h1
    rw [rotPart_quat, toRotationMatrix_eq, Matrix.trace_fin_three] at htr
    simp only [Matrix.of_apply, Matrix.cons_val', Matrix.cons_val_zero, Matrix.cons_val_one,
      Matrix.cons_val] at htr
    have h1' : (rotUnit a b).x ^ 2 + (rotUnit a b).y ^ 2 + (rotUnit a b).z ^ 2 + (rotUnit a b).w ^ 2 = 1 := h1
    have hc : Real.cos (getAngle (rotUnit a b)) = a ⬝ᵥ b := by linarith
    rw [hc]
    change a ⬝ᵥ b * (nrm f * nrm t) = _
    have : f ⬝ᵥ t = (nrm f • a) ⬝ᵥ (nrm t • b) := by rw [hfn, htn]
    rw [this, smul_dotProduct, dotProduct_smul]
    simp only [smul_eq_mul]; ring
  · intro hc v hva hvb
    rw [← hfn, dotProduct_smul, smul_eq_mul] at hva
    rw [← htn, dotProduct_smul, smul_eq_mul] at hvb
    refine h4 v ((mul_eq_zero.1 hva).resolve_left pf.ne') ((mul_eq_zero.1 hvb).resolve_left pt.ne') ?_
    intro h0
    apply hc
    rw [← hfn, ← htn]
    simp [h0]
  · rw [hconj, ← inverse_of_unit h1]
    exact (C69_rotation _ _ h1 h1).2.2.2.2.2.2.1

/-- Not vacuous: opposite directions. -/
example : (![0, 0, 1] : V3) ≠ 0 ∧ (![0, 0, -2] : V3) ≠ 0 := by
  constructor <;> intro h <;> have := congrFun h 2 <;> simp at this

/-! ## Planes -/

/-- The points of a plane. -/
def Plane.On (pl : Plane) (x : V3) : Prop := pl.n ⬝ᵥ (x - pl.p) = 0

theorem mk'_unit (point normal : V3) (h : normal ≠ 0) : (Plane.mk' point normal).n ⬝ᵥ (Plane.mk' point normal).n = 1 :=
  normalize_unit h

/-- **C73 (projection).** For a plane with a unit normal (every plane made by its constructor from a
normal other than zero has one), the projection of a point lies on the plane, differs from the point by
the signed distance along the normal, is the nearest point of the plane, and projecting again changes
nothing. -/
theorem C73_project (pl : Plane) (hn : pl.n ⬝ᵥ pl.n = 1) (x : V3) :
    pl.On (projectPointToPlane x pl) ∧
    x - projectPointToPlane x pl = getDistancePointPlane x pl • pl.n ∧
    (∀ y, pl.On y → (x - projectPointToPlane x pl) ⬝ᵥ (x - projectPointToPlane x pl) ≤ (x - y) ⬝ᵥ (x - y)) ∧
    (pl.On x → projectPointToPlane x pl = x) ∧
    (getDistancePointPlane x pl) ^ 2 =
      (x - projectPointToPlane x pl) ⬝ᵥ (x - projectPointToPlane x pl) := by
  have h2 : x - projectPointToPlane x pl = getDistancePointPlane x pl • pl.n := by
    simp [projectPointToPlane]
  have hsq : (x - projectPointToPlane x pl) ⬝ᵥ (x - projectPointToPlane x pl) = getDistancePointPlane x pl ^ 2 := by
    rw [h2, smul_dotProduct, dotProduct_smul, hn]; simp [sq]
  refine ⟨?_, h2, ?_, ?_, hsq.symm⟩
  · simp only [Plane.On, projectPointToPlane]
    rw [show x - getDistancePointPlane x pl • pl.n - pl.p = (x - pl.p) - getDistancePointPlane x pl • pl.n by abel,
      dotProduct_sub, dotProduct_smul, hn]
    simp [getDistancePointPlane]
  · intro y hy
    have hy : pl.n ⬝ᵥ (y - pl.p) = 0 := hy
    rw [hsq]
    have hd : getDistancePointPlane x pl = pl.n ⬝ᵥ (x - y) := by
      rw [getDistancePointPlane, show x - pl.p = (x - y) + (y - pl.p) by abel, dotProduct_add, hy, add_zero]
    rw [hd]
    have hl := lagrange pl.n (x - y)
    rw [hn, one_mul] at hl
    have := dot_nonneg (crossProduct pl.n (x - y))
    linarith
  · intro hx
    have hx : pl.n ⬝ᵥ (x - pl.p) = 0 := hx
    simp [projectPointToPlane, getDistancePointPlane, hx]

theorem up_unit : (![0, 0, 1] : V3) ⬝ᵥ ![0, 0, 1] = 1 := by simp

theorem planePoint_eq (l : Fin 2 → ℝ) (pl : Plane) (hn : pl.n ⬝ᵥ pl.n = 1) :
    planePoint3D l pl = toRotationMatrix (rotUnit ![0, 0, 1] pl.n) *ᵥ ![l 0, l 1, 0] + pl.p := by
  simp only [planePoint3D]
  rw [getRotation_eq, normalize_of_unit up_unit, normalize_of_unit hn]
  ext i
  fin_cases i <;>
    simp [setPos, quat2eigen4f, block4, Matrix.mulVec, dotProduct, Fin.sum_univ_three, Fin.sum_univ_four]

theorem project2D_eq (x : V3) (pl : Plane) (hn : pl.n ⬝ᵥ pl.n = 1) :
    projectPointToPlane2D x pl =
      let v := (toRotationMatrix (rotUnit ![0, 0, 1] pl.n))ᵀ *ᵥ projectPointToPlane x pl - pl.p
      ![v 0, v 1] := by
  simp only [projectPointToPlane2D]
  rw [getRotation_eq, normalize_of_unit up_unit, normalize_of_unit hn, quat2eigen4f, rotUnit_back up_unit hn]
  ext i
  fin_cases i <;>
    simp [setPos, block4, Matrix.mulVec, dotProduct, Fin.sum_univ_three, Fin.sum_univ_four] <;> ring

theorem rot_dot {R : M3} (hR : R ∈ Matrix.specialOrthogonalGroup (Fin 3) ℝ) (v w : V3) :
    (R *ᵥ v) ⬝ᵥ (R *ᵥ w) = v ⬝ᵥ w := by
  rw [Matrix.mem_specialOrthogonalGroup_iff, Matrix.mem_orthogonalGroup_iff'] at hR
  rw [Matrix.dotProduct_mulVec, Matrix.vecMul_mulVec, ← Matrix.dotProduct_mulVec]
  change v ⬝ᵥ ((Rᵀ * R) *ᵥ w) = _
  rw [show Rᵀ * R = 1 from hR.1, Matrix.one_mulVec]

/-- **C73 (points of a plane).** `planePoint3D` maps the plane's local coordinates to points of the plane,
preserving distances, with the plane's point as origin; every point of the plane is hit. -/
theorem C73_plane_point (pl : Plane) (hn : pl.n ⬝ᵥ pl.n = 1) :
    (∀ l, pl.On (planePoint3D l pl)) ∧
    (∀ l k, (planePoint3D l pl - planePoint3D k pl) ⬝ᵥ (planePoint3D l pl - planePoint3D k pl) =
      (l - k) ⬝ᵥ (l - k)) ∧
    planePoint3D 0 pl = pl.p ∧
    (∀ x, pl.On x → ∃ l, planePoint3D l pl = x) := by
  obtain ⟨h1, h2, -, -⟩ := rotUnit_spec up_unit hn
  have hR := toRotationMatrix_mem h1
  have hRR : toRotationMatrix (rotUnit ![0, 0, 1] pl.n) * (toRotationMatrix (rotUnit ![0, 0, 1] pl.n))ᵀ = 1 := by
    rw [Matrix.mem_specialOrthogonalGroup_iff, Matrix.mem_orthogonalGroup_iff] at hR
    exact hR.1
  have hp : ∀ l, planePoint3D l pl = _ := fun l => planePoint_eq l pl hn
  generalize toRotationMatrix (rotUnit ![0, 0, 1] pl.n) = R at *
  refine ⟨?_, ?_, ?_, ?_⟩
  · intro l
    rw [Plane.On, hp, add_sub_cancel_right, ← h2, rot_dot hR]
    simp
  · intro l k
    rw [hp, hp, add_sub_add_right_eq_sub, ← Matrix.mulVec_sub, rot_dot hR]
    simp [dotProduct, Fin.sum_univ_three, Fin.sum_univ_two]
  · rw [hp]
    have : (![(0 : Fin 2 → ℝ) 0, (0 : Fin 2 → ℝ) 1, 0] : V3) = 0 := by ext i; fin_cases i <;> simp
    rw [this, Matrix.mulVec_zero, zero_add]
  · intro x hx
    have hx : pl.n ⬝ᵥ (x - pl.p) = 0 := hx
    have hxv : R *ᵥ (Rᵀ *ᵥ (x - pl.p)) = x - pl.p := by rw [Matrix.mulVec_mulVec, hRR, Matrix.one_mulVec]
    refine ⟨![(Rᵀ *ᵥ (x - pl.p)) 0, (Rᵀ *ᵥ (x - pl.p)) 1], ?_⟩
    have hz : (Rᵀ *ᵥ (x - pl.p)) 2 = 0 := by
      have h3 : (R *ᵥ ![0, 0, 1]) ⬝ᵥ (R *ᵥ (Rᵀ *ᵥ (x - pl.p))) = ![0, 0, 1] ⬝ᵥ (Rᵀ *ᵥ (x - pl.p)) :=
        rot_dot hR _ _
      rw [hxv, h2, hx, dot3] at h3
      simpa using h3.symm
    have hv : (![(Rᵀ *ᵥ (x - pl.p)) 0, (Rᵀ *ᵥ (x - pl.p)) 1, 0] : V3) = Rᵀ *ᵥ (x - pl.p) := by
      ext i; fin_cases i
      · rfl
      · rfl
      · exact hz.symm
    rw [hp]
    simp only [Matrix.cons_val_zero, Matrix.cons_val_one]
    rw [hv, hxv, sub_add_cancel]

/-- **C73 (local coordinates, partial).** The local coordinates that `projectPointToPlane2D` computes are
those of `planePoint3D`, shifted by an amount that depends on the plane only. So distances between points
of the plane are preserved; and for a plane whose point is the origin or whose normal points up, the two
functions are inverse to each other: the 2D point is mapped back to the projection of the 3D point.
Missing: the same for every plane, which is false (`C73_local_false`). -/
theorem C73_local_partial (pl : Plane) (hn : pl.n ⬝ᵥ pl.n = 1) :
    (∃ shift : Fin 2 → ℝ, (pl.p = 0 ∨ pl.n = ![0, 0, 1] → shift = 0) ∧
      ∀ l, projectPointToPlane2D (planePoint3D l pl) pl = l + shift) ∧
    (∀ x y, pl.On x → pl.On y →
      (projectPointToPlane2D x pl - projectPointToPlane2D y pl) ⬝ᵥ
        (projectPointToPlane2D x pl - projectPointToPlane2D y pl) = (x - y) ⬝ᵥ (x - y)) ∧
    (pl.p = 0 ∨ pl.n = ![0, 0, 1] → ∀ x,
      planePoint3D (projectPointToPlane2D x pl) pl = projectPointToPlane x pl) := by
  have hshift : ∃ shift : Fin 2 → ℝ, (pl.p = 0 ∨ pl.n = ![0, 0, 1] → shift = 0) ∧
      ∀ l, projectPointToPlane2D (planePoint3D l pl) pl = l + shift := by
    have hon := (C73_plane_point pl hn).1
    have hid : ∀ l, projectPointToPlane (planePoint3D l pl) pl = planePoint3D l pl :=
      fun l => (C73_project pl hn _).2.2.2.1 (hon l)
    obtain ⟨h1, h2, -, -⟩ := rotUnit_spec up_unit hn
    have hup : pl.n = ![0, 0, 1] → toRotationMatrix (rotUnit ![0, 0, 1] pl.n) = 1 := by
      intro h
      rw [h]
      have : rotUnit ![0, 0, 1] ![0, 0, 1] = Quat.one := by
        simp only [rotUnit]
        rw [if_pos (cross_self _), if_pos (by rw [up_unit]; norm_num)]
      rw [this, toRotationMatrix_eq]
      ext i j; fin_cases i <;> fin_cases j <;> simp [Quat.one]
    have hR := toRotationMatrix_mem h1
    have hRR : (toRotationMatrix (rotUnit ![0, 0, 1] pl.n))ᵀ * toRotationMatrix (rotUnit ![0, 0, 1] pl.n) = 1 := by
      rw [Matrix.mem_specialOrthogonalGroup_iff, Matrix.mem_orthogonalGroup_iff'] at hR
      exact hR.1
    have hp : ∀ l, planePoint3D l pl = _ := fun l => planePoint_eq l pl hn
    have hq : ∀ l, projectPointToPlane2D l pl = _ := fun l => project2D_eq l pl hn
    generalize toRotationMatrix (rotUnit ![0, 0, 1] pl.n) = R at *
    refine ⟨![(Rᵀ *ᵥ pl.p - pl.p) 0, (Rᵀ *ᵥ pl.p - pl.p) 1], ?_, ?_⟩
    · rintro (h | h)
      · rw [h]; ext i; fin_cases i <;> simp
      · rw [hup h]; ext i; fin_cases i <;> simp
    · intro l
      rw [hq, hid, hp, Matrix.mulVec_add, Matrix.mulVec_mulVec, hRR, Matrix.one_mulVec]
      ext i; fin_cases i
      · simp only [Pi.add_apply, Pi.sub_apply, Fin.zero_eta, Matrix.cons_val_zero]; ring
      · simp only [Pi.add_apply, Pi.sub_apply, Fin.mk_one, Matrix.cons_val_one, Matrix.cons_val_zero]; ring
  refine ⟨hshift, ?_, ?_⟩
  · intro x y hx hy
    obtain ⟨shift, -, hs⟩ := hshift
    obtain ⟨-, hiso, -, hsurj⟩ := C73_plane_point pl hn
    obtain ⟨l, rfl⟩ := hsurj x hx
    obtain ⟨k, rfl⟩ := hsurj y hy
    rw [hs, hs, hiso, add_sub_add_right_eq_sub]
  · intro hc x
    obtain ⟨shift, h0, hs⟩ := hshift
    obtain ⟨-, -, -, hsurj⟩ := C73_plane_point pl hn
    obtain ⟨hon, -, -, -, -⟩ := C73_project pl hn x
    obtain ⟨l, hl⟩ := hsurj _ hon
    have hpp : projectPointToPlane2D x pl = projectPointToPlane2D (projectPointToPlane x pl) pl := by
      rw [project2D_eq x pl hn, project2D_eq (projectPointToPlane x pl) pl hn,
        (C73_project pl hn _).2.2.2.1 hon]
    rw [hpp, ← hl, hs, h0 hc, add_zero]

/-- **C73 (local coordinates are wrong).** The plane through (1,0,0) with normal (1,0,0): its point, which
is the origin of its local coordinates, gets the local coordinates (-1,0). -/
theorem C73_local_false :
    ∃ pl : Plane, pl.n ⬝ᵥ pl.n = 1 ∧ projectPointToPlane2D (planePoint3D 0 pl) pl = ![-1, 0] := by
  refine ⟨⟨![1, 0, 0], ![1, 0, 0]⟩, by simp, ?_⟩
  set pl : Plane := ⟨![1, 0, 0], ![1, 0, 0]⟩ with hpl
  have hn : pl.n ⬝ᵥ pl.n = 1 := by simp [hpl]
  obtain ⟨h1, h2, -, -⟩ := rotUnit_spec up_unit hn
  have hR := toRotationMatrix_mem h1
  rw [(C73_plane_point pl hn).2.2.1, project2D_eq _ _ hn,
    (C73_project pl hn _).2.2.2.1 (by simp [Plane.On])]
  have : (toRotationMatrix (rotUnit ![0, 0, 1] pl.n))ᵀ *ᵥ pl.p = ![0, 0, 1] := by
    have e : pl.p = pl.n := rfl
    rw [e]
    nth_rewrite 2 [← h2]
    rw [Matrix.mem_specialOrthogonalGroup_iff, Matrix.mem_orthogonalGroup_iff'] at hR
    rw [Matrix.mulVec_mulVec]
    rw [show (toRotationMatrix (rotUnit ![0, 0, 1] pl.n))ᵀ * toRotationMatrix (rotUnit ![0, 0, 1] pl.n) = 1
      from hR.1, Matrix.one_mulVec]
  rw [this]
  ext i; fin_cases i <;> simp [hpl]

end Simox.Rot
