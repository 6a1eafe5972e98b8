import Verif.Rot.RpyLemmas
import Mathlib.Analysis.Real.Pi.Bounds

/-!
# C68: poses and roll, pitch, yaw
-/

namespace Simox.Rot

open Matrix Jac

theorem castSucc3 : (Fin.castSucc (2 : Fin 3) : Fin 4) = 2 := rfl
theorem castSucc2 : (Fin.castSucc (1 : Fin 3) : Fin 4) = 1 := rfl
theorem castSucc1 : (Fin.castSucc (0 : Fin 3) : Fin 4) = 0 := rfl

theorem rotZYX (r p y : ℝ) : rotZ y * rotY p * rotX r = rpy2eigen3f r p y := by
  ext i j
  fin_cases i <;> fin_cases j <;>
    simp [rotX, rotY, rotZ, rpy2eigen3f, Matrix.mul_apply, Fin.sum_univ_three] <;> ring

theorem rpy3_mem (r p y : ℝ) : rpy2eigen3f r p y ∈ Matrix.specialOrthogonalGroup (Fin 3) ℝ := by
  have e : ∀ a, rotX a ∈ Matrix.specialOrthogonalGroup (Fin 3) ℝ ∧
      rotY a ∈ Matrix.specialOrthogonalGroup (Fin 3) ℝ ∧ rotZ a ∈ Matrix.specialOrthogonalGroup (Fin 3) ℝ := by
    intro a
    have h := Real.sin_sq_add_cos_sq a
    refine ⟨?_, ?_, ?_⟩ <;>
    · rw [Matrix.mem_specialOrthogonalGroup_iff, Matrix.mem_orthogonalGroup_iff]
      constructor
      · ext i j
        fin_cases i <;> fin_cases j <;>
          simp [rotX, rotY, rotZ, Matrix.mul_apply, Fin.sum_univ_three] <;> linarith
      · rw [Matrix.det_fin_three]
        simp [rotX, rotY, rotZ]
        linarith
  rw [← rotZYX]
  exact mul_mem (mul_mem (e y).2.2 (e p).2.1) (e r).1

/-- **C68 (six numbers make a pose).** Whatever six numbers are given, `posrpy2eigen4f` makes a pose. Its
position is the first three; its rotation turns by the roll about the x axis first, then by the pitch
about the y axis, then by the yaw about the z axis. `rpy2eigen4f` is the same with position zero,
`rpy2eigen3f` the rotation alone. -/
theorem C68_from_rpy (v : PosRpy) :
    IsPose (posrpy2eigen4f v) ∧
    posPart (posrpy2eigen4f v) = ![v.x, v.y, v.z] ∧
    rotPart (posrpy2eigen4f v) = rotZ v.yaw * rotY v.pitch * rotX v.roll ∧
    rpy2eigen4f v.roll v.pitch v.yaw = posrpy2eigen4f ⟨0, 0, 0, v.roll, v.pitch, v.yaw⟩ ∧
    rpy2eigen3f v.roll v.pitch v.yaw = rotPart (posrpy2eigen4f v) := by
  have hr : rotPart (posrpy2eigen4f v) = rpy2eigen3f v.roll v.pitch v.yaw := by
    rw [posrpy_eq]
    ext i j
    fin_cases i <;> fin_cases j <;> simp [rotPart, rpy2eigen3f]
  refine ⟨⟨?_, ?_⟩, ?_, ?_, ?_, hr.symm⟩
  · change rotPart (posrpy2eigen4f v) ∈ _
    rw [hr]; exact rpy3_mem _ _ _
  · rw [posrpy_eq]; ext j; fin_cases j <;> simp
  · rw [posrpy_eq]; ext j; fin_cases j <;> simp [posPart]
  · rw [hr, rotZYX]
  · ext i j
    fin_cases i <;> fin_cases j <;> simp [posrpy2eigen4f, setPos, rpy2eigen4f]

theorem cos_small {m : M4} (h : IsPose m) (hb : |rpyBeta m - Real.pi * 0.5| < 1e-10 ∨
    |rpyBeta m + Real.pi * 0.5| < 1e-10) :
    Real.sqrt (m 0 0 * m 0 0 + m 1 0 * m 1 0) < 1e-10 := by
  rw [← (rpyBeta_spec h).2]
  rcases hb with hb | hb
  · have h1 : Real.cos (rpyBeta m) = Real.sin (Real.pi / 2 - rpyBeta m) := (Real.sin_pi_div_two_sub _).symm
    rw [h1]
    have := (rpyBeta_range m).2
    have h2 := Real.sin_le (x := Real.pi / 2 - rpyBeta m) (by linarith)
    rw [abs_lt] at hb
    norm_num at hb ⊢
    linarith [hb.1]
  · have h1 : Real.cos (rpyBeta m) = Real.sin (rpyBeta m + Real.pi / 2) := (Real.sin_add_pi_div_two _).symm
    rw [h1]
    have := (rpyBeta_range m).1
    have h2 := Real.sin_le (x := rpyBeta m + Real.pi / 2) (by linarith)
    rw [abs_lt] at hb
    norm_num at hb ⊢
    linarith [hb.2]

theorem sub_one_le {c s : ℝ} (h : c * c + s * s = 1) (hs : 0 ≤ s) : |s - 1| ≤ c * c := by
  have h1 : s ≤ 1 := by nlinarith [mul_self_nonneg c]
  rw [abs_le]; constructor <;> nlinarith

theorem back_near1 {m : M4} (h : IsPose m) {c : ℝ} (hc0 : 0 ≤ c) (hsm : c < 1e-10)
    (hcc : c * c = m 0 0 * m 0 0 + m 1 0 * m 1 0)
    (hs : Real.sin (rpyBeta m) = - m 2 0) (hc : Real.cos (rpyBeta m) = c)
    (h1 : |rpyBeta m - Real.pi * 0.5| < 1e-10) (i j : Fin 4) :
    |posrpy2eigen4f (eigen4f2rpy m) i j - m i j| ≤ 3 * c := by
  have e := h.entries
  have hcs : c * c + Real.sin (rpyBeta m) * Real.sin (rpyBeta m) = 1 := by
    rw [hs, hcc]; linarith [e.c0]
  have hE : eigen4f2rpy m = ⟨m 0 3, m 1 3, m 2 3, atan2 (m 0 1) (m 1 1), rpyBeta m, 0⟩ := by
    simp only [eigen4f2rpy]; rw [if_pos h1]
  rw [hE]
  have hpos : 0 ≤ Real.sin (rpyBeta m) := by
    apply Real.sin_nonneg_of_nonneg_of_le_pi
    · rw [abs_lt] at h1; norm_num at h1; linarith [h1.1, Real.pi_gt_three]
    · linarith [(rpyBeta_range m).2, Real.pi_pos]
  have hc3 : c ≤ 1 / 3 := by norm_num at hsm ⊢; linarith
  refine near h ⟨m 0 3, m 1 3, m 2 3, atan2 (m 0 1) (m 1 1), rpyBeta m, 0⟩ (c := c)
    (s := Real.sin (rpyBeta m)) (k := 1) hc0 hc3 hcc rfl rfl rfl hs (Or.inl rfl)
    (sub_one_le hcs hpos) rfl hc ?_ rfl Real.sin_zero Real.cos_zero i j
  rw [one_mul]

theorem back_near2 {m : M4} (h : IsPose m) {c : ℝ} (hc0 : 0 ≤ c) (hsm : c < 1e-10)
    (hcc : c * c = m 0 0 * m 0 0 + m 1 0 * m 1 0)
    (hs : Real.sin (rpyBeta m) = - m 2 0) (hc : Real.cos (rpyBeta m) = c)
    (h1 : ¬ |rpyBeta m - Real.pi * 0.5| < 1e-10)
    (h2 : |rpyBeta m + Real.pi * 0.5| < 1e-10) (i j : Fin 4) :
    |posrpy2eigen4f (eigen4f2rpy m) i j - m i j| ≤ 3 * c := by
  have e := h.entries
  have hcs : c * c + -Real.sin (rpyBeta m) * -Real.sin (rpyBeta m) = 1 := by
    rw [hs, hcc]; linarith [e.c0]
  have hE : eigen4f2rpy m = ⟨m 0 3, m 1 3, m 2 3, -atan2 (m 0 1) (m 1 1), rpyBeta m, 0⟩ := by
    simp only [eigen4f2rpy]; rw [if_neg h1, if_pos h2]
  rw [hE]
  have hneg : 0 ≤ - Real.sin (rpyBeta m) := by
    have : Real.sin (rpyBeta m) ≤ 0 := by
      apply Real.sin_nonpos_of_nonpos_of_neg_pi_le
      · rw [abs_lt] at h2; norm_num at h2; linarith [h2.2, Real.pi_gt_three]
      · linarith [(rpyBeta_range m).1, Real.pi_pos]
    linarith
  have hk : |Real.sin (rpyBeta m) - -1| ≤ c * c := by
    have := sub_one_le (c := c) (s := - Real.sin (rpyBeta m)) hcs hneg
    rw [← abs_neg]
    convert this using 2
    ring
  have hc3 : c ≤ 1 / 3 := by norm_num at hsm ⊢; linarith
  refine near h ⟨m 0 3, m 1 3, m 2 3, -atan2 (m 0 1) (m 1 1), rpyBeta m, 0⟩ (c := c)
    (s := Real.sin (rpyBeta m)) (k := -1) hc0 hc3 hcc rfl rfl rfl hs (Or.inr rfl)
    hk rfl hc ?_ ?_ Real.sin_zero Real.cos_zero i j
  · rw [Real.sin_neg]; ring
  · rw [Real.cos_neg]

theorem back_regular {m : M4} (h : IsPose m) {c : ℝ} (hc0 : 0 ≤ c)
    (hcc : c * c = m 0 0 * m 0 0 + m 1 0 * m 1 0)
    (hs : Real.sin (rpyBeta m) = - m 2 0) (hc : Real.cos (rpyBeta m) = c)
    (h1 : ¬ |rpyBeta m - Real.pi * 0.5| < 1e-10)
    (h2 : ¬ |rpyBeta m + Real.pi * 0.5| < 1e-10) :
    posrpy2eigen4f (eigen4f2rpy m) = m := by
  have e := h.entries
  have hcs : c * c + Real.sin (rpyBeta m) * Real.sin (rpyBeta m) = 1 := by
    rw [hs, hcc]; linarith [e.c0]
  have hrange := rpyBeta_range m
  have hE : eigen4f2rpy m =
      ⟨m 0 3, m 1 3, m 2 3, atan2 (m 2 1 * (1 / c)) (m 2 2 * (1 / c)), rpyBeta m,
        atan2 (m 1 0 * (1 / c)) (m 0 0 * (1 / c))⟩ := by
    simp only [eigen4f2rpy]; rw [if_neg h1, if_neg h2, hc]
  have hcp : 0 < c := by
    rcases hc0.lt_or_eq with hlt | heq
    · exact hlt
    · exfalso
      rw [← heq] at hcs
      have : Real.sin (rpyBeta m) * Real.sin (rpyBeta m) = 1 := by linarith
      rcases mul_self_eq_one_iff.1 this with hh | hh
      · apply h1
        have hb : rpyBeta m = Real.pi / 2 := by
          rw [← Real.arcsin_sin hrange.1 hrange.2, hh, Real.arcsin_one]
        rw [hb, show Real.pi / 2 - Real.pi * 0.5 = 0 by norm_num; ring]; norm_num
      · apply h2
        have hb : rpyBeta m = -(Real.pi / 2) := by
          rw [← Real.arcsin_sin hrange.1 hrange.2, hh, Real.arcsin_neg_one]
        rw [hb, show -(Real.pi / 2) + Real.pi * 0.5 = 0 by norm_num; ring]; norm_num
  have hc' := hcp.ne'
  have hra : m 0 0 * (1 / c) * (m 0 0 * (1 / c)) + m 1 0 * (1 / c) * (m 1 0 * (1 / c)) = 1 := by
    field_simp; linarith
  have hrg : m 2 2 * (1 / c) * (m 2 2 * (1 / c)) + m 2 1 * (1 / c) * (m 2 1 * (1 / c)) = 1 := by
    field_simp; linarith [e.r2, e.c0]
  rw [hE]
  refine rebuild h _ hcp hcc rfl rfl rfl hs hc ?_ ?_ ?_ ?_
  · rw [show m 2 1 / c = m 2 1 * (1 / c) by ring]; exact sin_atan2_one hrg
  · rw [show m 2 2 / c = m 2 2 * (1 / c) by ring]; exact cos_atan2_one hrg
  · rw [show m 1 0 / c = m 1 0 * (1 / c) by ring]; exact sin_atan2_one hra
  · rw [show m 0 0 / c = m 0 0 * (1 / c) by ring]; exact cos_atan2_one hra

/-- What the conversion to numbers and back does to any pose. -/
theorem back_near {m : M4} (h : IsPose m) (i j : Fin 4) :
    |posrpy2eigen4f (eigen4f2rpy m) i j - m i j| ≤
      if Real.sqrt (m 0 0 * m 0 0 + m 1 0 * m 1 0) < 1e-10 then
        3 * Real.sqrt (m 0 0 * m 0 0 + m 1 0 * m 1 0) else 0 := by
  obtain ⟨hs, hc⟩ := rpyBeta_spec h
  have hc0 := Real.sqrt_nonneg (m 0 0 * m 0 0 + m 1 0 * m 1 0)
  have hcc := Real.mul_self_sqrt (add_nonneg (mul_self_nonneg (m 0 0)) (mul_self_nonneg (m 1 0)))
  by_cases h1 : |rpyBeta m - Real.pi * 0.5| < 1e-10
  · have hsm := cos_small h (Or.inl h1)
    rw [if_pos hsm]
    exact back_near1 h hc0 hsm hcc hs hc h1 i j
  · by_cases h2 : |rpyBeta m + Real.pi * 0.5| < 1e-10
    · have hsm := cos_small h (Or.inr h2)
      rw [if_pos hsm]
      exact back_near2 h hc0 hsm hcc hs hc h1 h2 i j
    · rw [back_regular h hc0 hcc hs hc h1 h2, sub_self, abs_zero]
      split
      · linarith
      · exact le_refl _

/-- **C68 (there and back).** Converting a pose to six numbers and back gives the pose again: exactly
when the x axis of the pose is vertical (the singular case) or at least 1e-10 away from being so, and up
to 3e-10 in every entry in between. -/
theorem C68_to_rpy_and_back (m : M4) (h : IsPose m) :
    ((m 0 0 ^ 2 + m 1 0 ^ 2 = 0 ∨ 1e-20 ≤ m 0 0 ^ 2 + m 1 0 ^ 2) →
      posrpy2eigen4f (eigen4f2rpy m) = m) ∧
    (∀ i j, |posrpy2eigen4f (eigen4f2rpy m) i j - m i j| ≤ 3e-10) := by
  have key := back_near h
  have hsq : m 0 0 * m 0 0 + m 1 0 * m 1 0 = m 0 0 ^ 2 + m 1 0 ^ 2 := by ring
  rw [hsq] at key
  constructor
  · intro hc
    ext i j
    have := key i j
    have hle : |posrpy2eigen4f (eigen4f2rpy m) i j - m i j| ≤ 0 := by
      refine this.trans ?_
      rcases hc with hc | hc
      · rw [hc]; simp
      · rw [if_neg]
        rw [not_lt]
        apply Real.le_sqrt_of_sq_le
        norm_num at hc ⊢
        linarith
    have h0 := abs_eq_zero.1 (le_antisymm hle (abs_nonneg _))
    linarith
  · intro i j
    refine (key i j).trans ?_
    split
    · next hlt => norm_num at hlt ⊢; linarith
    · norm_num

/-- **C68 (angles come back).** Roll and yaw in (-pi,pi] and a pitch at least 1e-10 away from the two
right angles come back unchanged from the pose made of them. -/
theorem C68_rpy_roundtrip (v : PosRpy)
    (hr : v.roll ∈ Set.Ioc (-Real.pi) Real.pi) (hy : v.yaw ∈ Set.Ioc (-Real.pi) Real.pi)
    (hp : |v.pitch| ≤ Real.pi / 2 - 1e-10) :
    eigen4f2rpy (posrpy2eigen4f v) = v ∧
    eigen3f2rpy (rpy2eigen3f v.roll v.pitch v.yaw) = ![v.roll, v.pitch, v.yaw] := by
  rw [abs_le] at hp
  have hp1 : -(Real.pi / 2) < v.pitch := by
    have := hp.1; norm_num at this; linarith
  have hp2 : v.pitch < Real.pi / 2 := by
    have := hp.2; norm_num at this; linarith
  have hcos : 0 < Real.cos v.pitch := Real.cos_pos_of_mem_Ioo ⟨hp1, hp2⟩
  have main : ∀ m : M4, m 0 0 = Real.cos v.yaw * Real.cos v.pitch → m 1 0 = Real.sin v.yaw * Real.cos v.pitch →
      m 2 0 = - Real.sin v.pitch → m 2 1 = Real.cos v.pitch * Real.sin v.roll →
      m 2 2 = Real.cos v.pitch * Real.cos v.roll →
      eigen4f2rpy m = ⟨m 0 3, m 1 3, m 2 3, v.roll, v.pitch, v.yaw⟩ := by
    intro m e00 e10 e20 e21 e22
    have hb : rpyBeta m = v.pitch := by
      rw [rpyBeta, e00, e10, e20, neg_neg]
      have : Real.cos v.yaw * Real.cos v.pitch * (Real.cos v.yaw * Real.cos v.pitch) +
          Real.sin v.yaw * Real.cos v.pitch * (Real.sin v.yaw * Real.cos v.pitch) =
          Real.cos v.pitch * Real.cos v.pitch := by
        linear_combination (Real.cos v.pitch) ^ 2 * Real.sin_sq_add_cos_sq v.yaw
      rw [this, Real.sqrt_mul_self hcos.le]
      have := atan2_cos_sin (a := v.pitch) one_pos (by linarith [Real.pi_pos]) (by linarith [Real.pi_pos])
      simpa using this
    have n1 : ¬ |v.pitch - Real.pi * 0.5| < 1e-10 := by
      intro hh
      rw [abs_lt] at hh
      have := hp.2
      norm_num at hh this
      linarith [hh.1]
    have n2 : ¬ |v.pitch + Real.pi * 0.5| < 1e-10 := by
      intro hh
      rw [abs_lt] at hh
      have := hp.1
      norm_num at hh this
      linarith [hh.2]
    simp only [eigen4f2rpy]
    rw [hb, if_neg n1, if_neg n2, e21, e22, e10, e00]
    have hc' := hcos.ne'
    have a1 : Real.cos v.pitch * Real.sin v.roll * (1 / Real.cos v.pitch) = 1 * Real.sin v.roll := by field_simp
    have a2 : Real.cos v.pitch * Real.cos v.roll * (1 / Real.cos v.pitch) = 1 * Real.cos v.roll := by field_simp
    have a3 : Real.sin v.yaw * Real.cos v.pitch * (1 / Real.cos v.pitch) = 1 * Real.sin v.yaw := by field_simp
    have a4 : Real.cos v.yaw * Real.cos v.pitch * (1 / Real.cos v.pitch) = 1 * Real.cos v.yaw := by field_simp
    rw [a1, a2, a3, a4, atan2_cos_sin one_pos hr.1 hr.2, atan2_cos_sin one_pos hy.1 hy.2]
  constructor
  · rw [main (posrpy2eigen4f v)] <;> rw [posrpy_eq] <;> simp
  · rw [eigen3f2rpy, main] <;> simp [block4, rpy2eigen3f]

/-- Not vacuous: the conditions of the theorems hold of the identity, and of a pose whose x axis is
vertical, which is the singular case. -/
example : IsPose (1 : M4) ∧ (1 : M4) 0 0 ^ 2 + (1 : M4) 1 0 ^ 2 = 1 := by
  refine ⟨⟨?_, ?_⟩, by simp⟩
  · have : (1 : M4).submatrix Fin.castSucc Fin.castSucc = (1 : M3) :=
      Matrix.submatrix_one _ (Fin.castSucc_injective 3)
    rw [this]; exact one_mem _
  · ext j; fin_cases j <;> simp [Matrix.one_apply]

example : IsPose (posrpy2eigen4f ⟨1, 2, 3, 0.5, Real.pi / 2, 0.25⟩) ∧
    (posrpy2eigen4f ⟨1, 2, 3, 0.5, Real.pi / 2, 0.25⟩) 0 0 ^ 2 +
    (posrpy2eigen4f ⟨1, 2, 3, 0.5, Real.pi / 2, 0.25⟩) 1 0 ^ 2 = 0 := by
  refine ⟨(C68_from_rpy _).1, ?_⟩
  rw [posrpy_eq]; simp

example : |(1 : ℝ)| ≤ Real.pi / 2 - 1e-10 := by
  have := Real.pi_gt_three
  norm_num; linarith

end Simox.Rot
