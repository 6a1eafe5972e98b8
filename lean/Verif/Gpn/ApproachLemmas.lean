import Verif.Gpn.Spec
import Verif.Rot.DirLemmas
import Mathlib.Tactic.Linarith

namespace Simox.Gpn

open Matrix Jac Rot Kin

variable {H : Type}

theorem dot_lit (a b c d e f : ℝ) : ![a, b, c] ⬝ᵥ ![d, e, f] = a * d + b * e + c * f := by
  rw [dot3]; simp

theorem cross_lit (a b c d e f : ℝ) :
    crossProduct ![a, b, c] ![d, e, f] = ![b * f - c * e, c * d - a * f, a * e - b * d] := by
  rw [cross_apply]; simp

theorem nrm_lit {a b c r : ℝ} (hr : 0 ≤ r) (h : a * a + b * b + c * c = r * r) : nrm ![a, b, c] = r := by
  unfold nrm
  rw [dot_lit, h]
  exact Real.sqrt_mul_self hr

theorem cross_unit {a b : V3} (ha : a ⬝ᵥ a = 1) (hb : b ⬝ᵥ b = 1) (hab : a ⬝ᵥ b = 0) :
    crossProduct a b ⬝ᵥ crossProduct a b = 1 := by
  rw [lagrange, ha, hb, hab]; norm_num

/-- A third vector that completes a right-handed basis. -/
theorem columns_mem {x z : V3} (hx : x ⬝ᵥ x = 1) (hz : z ⬝ᵥ z = 1) (hxz : x ⬝ᵥ z = 0) :
    columns x (crossProduct z x) z ∈ Matrix.specialOrthogonalGroup (Fin 3) ℝ := by
  have hzx : z ⬝ᵥ x = 0 := by rw [dotProduct_comm]; exact hxz
  have hy := cross_unit hz hx hzx
  rw [Matrix.mem_specialOrthogonalGroup_iff, Matrix.mem_orthogonalGroup_iff']
  rw [dot3] at hx hz hxz hy
  simp only [cross_apply, Matrix.cons_val_zero, Matrix.cons_val_one, Matrix.cons_val] at hy
  refine ⟨?_, ?_⟩
  · ext i j
    fin_cases i <;> fin_cases j <;>
      simp [columns, Matrix.mul_apply, Fin.sum_univ_three, cross_apply] <;> linarith
  · rw [Matrix.det_fin_three]
    simp [columns, cross_apply]
    linarith

theorem tryBasis_spec {z y x y' : V3} (hz : z ⬝ᵥ z = 1) (h : tryBasis z y = some (x, y')) :
    x ⬝ᵥ x = 1 ∧ x ⬝ᵥ z = 0 ∧ y' = crossProduct z x := by
  unfold tryBasis at h
  by_cases h1 : nrm y < 1e-8
  · rw [if_pos h1] at h; cases h
  · rw [if_neg h1] at h
    dsimp only at h
    by_cases h2 : nrm (crossProduct (Rot.normalize y) z) < 1e-8
    · rw [if_pos h2] at h; cases h
    · rw [if_neg h2] at h
      by_cases h3 : nrm (crossProduct z (Rot.normalize (crossProduct (Rot.normalize y) z))) < 1e-8
      · rw [if_pos h3] at h; cases h
      · rw [if_neg h3] at h
        have hne : crossProduct (Rot.normalize y) z ≠ 0 := by
          intro h0
          rw [h0, nrm_eq_zero.2 rfl] at h2
          norm_num at h2
        have hu := normalize_unit hne
        have hp : Rot.normalize (crossProduct (Rot.normalize y) z) ⬝ᵥ z = 0 := by
          rw [normalize_of_ne hne, smul_dotProduct, dotProduct_comm, dot_cross_self, smul_zero]
        simp only [Option.some.injEq, Prod.mk.injEq] at h
        obtain ⟨rfl, rfl⟩ := h
        refine ⟨hu, hp, normalize_of_unit (cross_unit hz hu (by rw [dotProduct_comm]; exact hp))⟩

theorem basisLoop_spec {z : V3} (hz : z ⬝ᵥ z = 1) {x y : V3} :
    ∀ (n : ℕ) (ys : List V3), basisLoop z n ys = .found x y → x ⬝ᵥ x = 1 ∧ x ⬝ᵥ z = 0 ∧ y = crossProduct z x
  | 0, _, h => by cases h
  | n + 1, [], h => by cases h
  | n + 1, y' :: ys, h => by
      unfold basisLoop at h
      cases ht : tryBasis z y' with
      | none => rw [ht] at h; exact basisLoop_spec hz n ys h
      | some p =>
          obtain ⟨a, b⟩ := p
          rw [ht] at h
          simp only [Basis.found.injEq] at h
          obtain ⟨rfl, rfl⟩ := h
          exact tryBasis_spec hz ht

theorem rotOf_val {x z : V3} (hx : x ⬝ᵥ x = 1) (hz : z ⬝ᵥ z = 1) (hxz : x ⬝ᵥ z = 0) :
    (rotOf x (crossProduct z x) z).1 = columns x (crossProduct z x) z := by
  unfold rotOf
  rw [dif_pos (columns_mem hx hz hxz)]

theorem axisZ_columns {x y z : V3} {R : SO3} (h : R.1 = columns x y z) : axisZ R = z := by
  funext i
  unfold axisZ
  rw [h]
  fin_cases i <;> simp [columns]

theorem axisZ_one : axisZ 1 = ![0, 0, 1] := by
  funext i
  fin_cases i <;> simp [axisZ]

/-- Setting the pose of a node of the hand works. -/
theorem set_pose {base node T : Pose3} (h : T.rot ≠ 1) : getGlobalPoseForRobotNode base node T = T * node⁻¹ * base := by
  unfold getGlobalPoseForRobotNode
  rw [if_neg h]

theorem getPose_setPose (e : Eef H) (T : Pose3) (h : Hand H) (hT : T.rot ≠ 1) : e.getPose (e.setPose T h) = T := by
  unfold Eef.getPose Eef.setPose
  rw [set_pose hT]
  group

/-- The pose of the hand only depends on where the node is. -/
theorem setPose_of_getPose (e : Eef H) (h h' : Hand H) (hc : h.cfg = h'.cfg) (hT : (e.getPose h').rot ≠ 1) :
    e.setPose (e.getPose h') h = h' := by
  unfold Eef.setPose
  rw [set_pose hT]
  unfold Eef.getPose
  obtain ⟨r, c⟩ := h
  obtain ⟨r', c'⟩ := h'
  dsimp only at hc ⊢
  subst hc
  congr 1
  group

theorem update_shift (e : Eef H) (d : V3) (h : Hand H) (hm : e.preshapeTcp = none)
    (hs : Settable h (h.root * e.gcp h.cfg)) : e.update d h = h.shift d := by
  have hmain : e.main = e.gcp := by simp [Eef.main, hm]
  unfold Eef.update Eef.setPose Hand.shift
  rw [hmain]
  dsimp only
  congr 1
  by_cases hr : (h.root * e.gcp h.cfg).rot = 1
  · have hb : h.root.rot = 1 := by
      rcases hs with hs | hs
      · exact absurd hr hs
      · exact hs
    unfold getGlobalPoseForRobotNode getGlobalPositionForRobotNode
    rw [if_pos hr, hb]
    congr 1
    simp
  · rw [set_pose (T := ⟨(h.root * e.gcp h.cfg).rot, (h.root * e.gcp h.cfg).pos + d⟩) hr]
    have : (⟨(h.root * e.gcp h.cfg).rot, (h.root * e.gcp h.cfg).pos + d⟩ : Pose3) =
        (⟨1, d⟩ : Pose3) * (h.root * e.gcp h.cfg) := by
      simp [mul_def, add_comm]
    rw [this]
    have h2 : (⟨1, d⟩ : Pose3) * (h.root * e.gcp h.cfg) * (h.root * e.gcp h.cfg)⁻¹ * h.root = ⟨1, d⟩ * h.root := by group
    rw [h2]
    simp [mul_def, add_comm]

theorem shift_zero (h : Hand H) : h.shift 0 = h := by simp [Hand.shift]

theorem shift_shift (h : Hand H) (a b : V3) : (h.shift a).shift b = h.shift (a + b) := by
  simp [Hand.shift, add_assoc]

theorem settable_shift (e : Eef H) (h : Hand H) (d : V3) (hs : Settable h (h.root * e.gcp h.cfg)) :
    Settable (h.shift d) ((h.shift d).root * e.gcp (h.shift d).cfg) := hs

theorem moveAway_spec (e : Eef H) (d : V3) (hm : e.preshapeTcp = none) :
    ∀ (n : ℕ) (h : Hand H), Settable h (h.root * e.gcp h.cfg) →
      ∃ k ≤ n, e.moveAway d n h = h.shift ((k : ℝ) • d) ∧ (∀ j < k, ¬ Free e (h.shift ((j : ℝ) • d))) ∧
        (k < n → Free e (h.shift ((k : ℝ) • d)))
  | 0, h, _ => ⟨0, le_refl _, by simp [Eef.moveAway, shift_zero], by omega, by omega⟩
  | n + 1, h, hs => by
      unfold Eef.moveAway
      by_cases hh : e.hits h.root h.cfg = true
      · rw [if_pos hh, update_shift e d h hm hs]
        obtain ⟨k, hk, h1, h2, h3⟩ := moveAway_spec e d hm n (h.shift d) (settable_shift e h d hs)
        have key (j : ℕ) : (h.shift d).shift ((j : ℝ) • d) = h.shift (((j + 1 : ℕ) : ℝ) • d) := by
          rw [shift_shift]; congr 1; push_cast; rw [add_smul, one_smul, add_comm]
        refine ⟨k + 1, by omega, by rw [h1, key], ?_, ?_⟩
        · intro j hj
          rcases j with _ | j
          · simp [shift_zero, Free, hh]
          · rw [← key]; exact h2 j (by omega)
        · intro hk'
          rw [← key]
          exact h3 (by omega)
      · rw [if_neg hh]
        refine ⟨0, by omega, by simp [shift_zero], by omega, ?_⟩
        intro _
        simp only [Nat.cast_zero, zero_smul, shift_zero]
        simpa [Free] using hh

end Simox.Gpn
