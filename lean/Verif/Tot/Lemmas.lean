import Verif.Tot.Model
import Mathlib.Analysis.SpecialFunctions.Trigonometric.Deriv
import Mathlib.Analysis.Calculus.Deriv.Add
import Mathlib.Analysis.Calculus.Deriv.Mul
import Mathlib.Analysis.InnerProductSpace.Calculus

/-!
# Lemmas about segments
-/

namespace Simox.Tot

variable {n : ℕ}

/-- What a rounded corner between two unit vectors is about. -/
structure Corner (u w : Cfg n) (a : ℝ) : Prop where
  hu : ‖u‖ = 1
  hw : ‖w‖ = 1
  ha : a = Real.arccos (inner ℝ u w)
  ne : u ≠ w
  neg : u ≠ -w

namespace Corner

variable {u w : Cfg n} {a : ℝ}

theorem inner_lt (h : Corner u w a) : inner ℝ u w < 1 := by
  rcases lt_or_eq_of_le (real_inner_le_norm u w) with h1 | h1
  · rwa [h.hu, h.hw, mul_one] at h1
  · exact absurd ((inner_eq_one_iff_of_norm_eq_one (𝕜 := ℝ) h.hu h.hw).1 (by rw [h1, h.hu, h.hw, mul_one])) h.ne

theorem lt_inner (h : Corner u w a) : -1 < inner ℝ u w := by
  have hw : ‖-w‖ = 1 := by rw [norm_neg, h.hw]
  have h1 : inner ℝ u (-w) < 1 := by
    rcases lt_or_eq_of_le (real_inner_le_norm u (-w)) with h1 | h1
    · rwa [h.hu, hw, mul_one] at h1
    · exact absurd ((inner_eq_one_iff_of_norm_eq_one (𝕜 := ℝ) h.hu hw).1 (by rw [h1, h.hu, hw, mul_one])) h.neg
  rw [inner_neg_right] at h1; linarith

theorem cos_eq (h : Corner u w a) : Real.cos a = inner ℝ u w := by
  rw [h.ha, Real.cos_arccos h.lt_inner.le h.inner_lt.le]

theorem pos (h : Corner u w a) : 0 < a := by rw [h.ha]; exact Real.arccos_pos.2 h.inner_lt

theorem lt_pi (h : Corner u w a) : a < Real.pi := by
  rw [h.ha]
  rcases lt_or_eq_of_le (Real.arccos_le_pi (inner ℝ u w)) with h1 | h1
  · exact h1
  · exact absurd (Real.arccos_eq_pi.1 h1) (not_le.2 h.lt_inner)

theorem sin_pos (h : Corner u w a) : 0 < Real.sin (a / 2) :=
  Real.sin_pos_of_pos_of_lt_pi (by linarith [h.pos]) (by linarith [h.lt_pi, Real.pi_pos])

theorem cos_pos (h : Corner u w a) : 0 < Real.cos (a / 2) :=
  Real.cos_pos_of_mem_Ioo ⟨by linarith [h.pos, Real.pi_pos], by linarith [h.lt_pi]⟩

theorem cos_lt (h : Corner u w a) : Real.cos (a / 2) < 1 := by
  have := Real.sin_sq_add_cos_sq (a / 2); nlinarith [h.sin_pos, h.cos_pos]

theorem cos_half (h : Corner u w a) : inner ℝ u w = 1 - 2 * Real.sin (a / 2) ^ 2 := by
  have h1 := Real.cos_two_mul (a / 2)
  have h2 := Real.sin_sq_add_cos_sq (a / 2)
  rw [show 2 * (a / 2) = a by ring, h.cos_eq] at h1
  linarith

theorem sin_eq (_ : Corner u w a) : Real.sin a = 2 * Real.sin (a / 2) * Real.cos (a / 2) := by
  rw [← Real.sin_two_mul, show 2 * (a / 2) = a by ring]

theorem norm_sub (h : Corner u w a) : ‖w - u‖ = 2 * Real.sin (a / 2) := by
  have h1 : ‖w - u‖ ^ 2 = (2 * Real.sin (a / 2)) ^ 2 := by
    rw [norm_sub_sq_real, h.hu, h.hw, real_inner_comm, h.cos_half]; ring
  exact (sq_eq_sq₀ (norm_nonneg _) (by linarith [h.sin_pos])).1 h1

/-- The vector from the centre to the start of the arc, in units of the distance from the corner. -/
theorem norm_start (h : Corner u w a) : ‖-u - (2 * Real.sin (a / 2) ^ 2)⁻¹ • (w - u)‖ = Real.cos (a / 2) / Real.sin (a / 2) := by
  have hs := h.sin_pos
  have h1 : ‖-u - (2 * Real.sin (a / 2) ^ 2)⁻¹ • (w - u)‖ ^ 2 = (Real.cos (a / 2) / Real.sin (a / 2)) ^ 2 := by
    rw [norm_sub_sq_real, norm_neg, norm_smul, h.hu, h.norm_sub, inner_neg_left, real_inner_smul_right, inner_sub_right,
      real_inner_self_eq_norm_sq, h.hu, h.cos_half, Real.norm_of_nonneg (by positivity), div_pow, Real.cos_sq']
    field_simp; ring
  exact (sq_eq_sq₀ (norm_nonneg _) (div_pos h.cos_pos hs).le).1 h1

theorem inner_start (h : Corner u w a) : inner ℝ (-u - (2 * Real.sin (a / 2) ^ 2)⁻¹ • (w - u)) u = 0 := by
  have hs := h.sin_pos
  rw [inner_sub_left, inner_neg_left, real_inner_smul_left, inner_sub_left, real_inner_self_eq_norm_sq, h.hu, real_inner_comm,
    h.cos_half]
  field_simp; ring

/-- The direction from the centre to the start of the arc. -/
noncomputable def out (u w : Cfg n) (a : ℝ) : Cfg n :=
  (Real.sin (a / 2) / Real.cos (a / 2)) • (-u - (2 * Real.sin (a / 2) ^ 2)⁻¹ • (w - u))

theorem norm_out (h : Corner u w a) : ‖out u w a‖ = 1 := by
  have hs := h.sin_pos; have hc := h.cos_pos
  rw [out, norm_smul, h.norm_start, Real.norm_of_nonneg (by positivity)]
  field_simp

theorem inner_out (h : Corner u w a) : inner ℝ (out u w a) u = 0 := by
  rw [out, real_inner_smul_left, h.inner_start, mul_zero]

/-- The direction at the end of the arc. -/
theorem turn (h : Corner u w a) : (-Real.sin a) • out u w a + Real.cos a • u = w := by
  have hs := h.sin_pos; have hc := h.cos_pos
  have h1 : -Real.sin a * (Real.sin (a / 2) / Real.cos (a / 2)) = -(2 * Real.sin (a / 2) ^ 2) := by
    rw [h.sin_eq]; field_simp
  have h2 : -(2 * Real.sin (a / 2) ^ 2) * (2 * Real.sin (a / 2) ^ 2)⁻¹ = -1 := by field_simp
  rw [out, smul_smul, h1, smul_sub, smul_smul, h2, h.cos_eq, h.cos_half]
  module

/-- The end of the arc. -/
theorem stop (h : Corner u w a) {d : ℝ} :
    -(d • u) - (d * Real.cos (a / 2) / Real.sin (a / 2)) • out u w a +
      (d * Real.cos (a / 2) / Real.sin (a / 2)) • (Real.cos a • out u w a + Real.sin a • u) = d • w := by
  have hs := h.sin_pos; have hc := h.cos_pos
  have h1 : (d * Real.cos (a / 2) / Real.sin (a / 2)) * Real.sin a = 2 * d * Real.cos (a / 2) ^ 2 := by
    rw [h.sin_eq]; field_simp
  have h2 : Real.cos a = 1 - 2 * Real.sin (a / 2) ^ 2 := by rw [h.cos_eq, h.cos_half]
  have h3 : (d * Real.cos (a / 2) / Real.sin (a / 2)) * (Real.cos a - 1) * (Real.sin (a / 2) / Real.cos (a / 2)) = -(2 * d * Real.sin (a / 2) ^ 2) := by
    rw [h2]; field_simp; ring
  have h4 : -(2 * d * Real.sin (a / 2) ^ 2) * (2 * Real.sin (a / 2) ^ 2)⁻¹ = -d := by field_simp
  have h5 : -(d • u) - (d * Real.cos (a / 2) / Real.sin (a / 2)) • out u w a +
      (d * Real.cos (a / 2) / Real.sin (a / 2)) • (Real.cos a • out u w a + Real.sin a • u) =
      ((d * Real.cos (a / 2) / Real.sin (a / 2)) * Real.sin a - d) • u +
        ((d * Real.cos (a / 2) / Real.sin (a / 2)) * (Real.cos a - 1)) • out u w a := by module
  rw [h5, h1, out, smul_smul, h3, smul_sub, smul_smul, h4, Real.cos_sq']
  module

end Corner

theorem norm_normalized {v : Cfg n} (h : v ≠ 0) : ‖normalized v‖ = 1 := by
  rw [normalized, norm_smul, norm_inv, norm_norm, inv_mul_cancel₀ (norm_ne_zero_iff.2 h)]

/-- The distance of the ends of the arc from the corner. -/
noncomputable def blendDistance (start intersection stop : Cfg n) (m a : ℝ) : ℝ :=
  min (min ‖start - intersection‖ ‖stop - intersection‖) (m * Real.sin (a / 2) / (1 - Real.cos (a / 2)))

/-- The corner is rounded. -/
structure Rounded (start intersection stop : Cfg n) : Prop where
  h1 : 0.000001 ≤ ‖intersection - start‖
  h2 : 0.000001 ≤ ‖stop - intersection‖
  h3 : 0.000001 ≤ ‖normalized (intersection - start) - normalized (stop - intersection)‖
  h4 : normalized (intersection - start) ≠ -normalized (stop - intersection)

variable {start intersection stop : Cfg n} {m : ℝ}

/-- The angle of a corner. -/
noncomputable def cornerAngle (start intersection stop : Cfg n) : ℝ :=
  Real.arccos (inner ℝ (normalized (intersection - start)) (normalized (stop - intersection)))

theorem Rounded.corner (h : Rounded start intersection stop) :
    Corner (normalized (intersection - start)) (normalized (stop - intersection)) (cornerAngle start intersection stop) where
  hu := norm_normalized (norm_ne_zero_iff.1 (by linarith [h.h1]))
  hw := norm_normalized (norm_ne_zero_iff.1 (by linarith [h.h2]))
  ha := rfl
  ne := by
    intro e
    have := h.h3
    rw [e, sub_self, norm_zero] at this
    norm_num at this
  neg := h.h4

theorem Rounded.distance_pos (h : Rounded start intersection stop) (hm : 0 < m) :
    0 < blendDistance start intersection stop m (cornerAngle start intersection stop) := by
  have hc := h.corner
  refine lt_min (lt_min ?_ ?_) ?_
  · rw [norm_sub_rev]; linarith [h.h1]
  · linarith [h.h2]
  · exact div_pos (mul_pos hm hc.sin_pos) (by linarith [hc.cos_lt])

theorem circular_eq (h : Rounded start intersection stop) (hm : 0 < m) :
    circular start intersection stop m =
      let u := normalized (intersection - start)
      let w := normalized (stop - intersection)
      let a := cornerAngle start intersection stop
      let d := blendDistance start intersection stop m a
      let r := d * Real.cos (a / 2) / Real.sin (a / 2)
      .arc (a * r) r (intersection - d • u - r • Corner.out u w a) (Corner.out u w a) u := by
  have hc := h.corner
  have hd := h.distance_pos hm
  have hsin := hc.sin_pos; have hcos := hc.cos_pos
  unfold circular
  rw [if_neg (by push Not; exact ⟨h.h1, h.h2⟩)]
  simp only
  rw [if_neg (not_lt.2 h.h3)]
  change Seg.arc _ _ _ _ _ = _
  simp only [show (0.5 : ℝ) * Real.arccos (inner ℝ (normalized (intersection - start)) (normalized (stop - intersection)))
    = cornerAngle start intersection stop / 2 by rw [cornerAngle]; ring]
  change Seg.arc (cornerAngle start intersection stop * (blendDistance start intersection stop m (cornerAngle start intersection stop) / Real.tan _)) _ _ _ _ = _
  generalize hD : blendDistance start intersection stop m (cornerAngle start intersection stop) = d at hd
  rw [show min (min ‖start - intersection‖ ‖stop - intersection‖) (m * Real.sin (cornerAngle start intersection stop / 2) / (1 - Real.cos (cornerAngle start intersection stop / 2))) = d from hD]
  generalize cornerAngle start intersection stop = a at hc hsin hcos hD
  generalize normalized (intersection - start) = u at hc
  generalize normalized (stop - intersection) = w at hc
  have hr : d / Real.tan (a / 2) = d * Real.cos (a / 2) / Real.sin (a / 2) := by
    rw [Real.tan_eq_sin_div_cos]; field_simp
  have hctr : intersection + (d * Real.cos (a / 2) / Real.sin (a / 2) / Real.cos (a / 2)) • normalized (w - u) =
      intersection - d • u - (d * Real.cos (a / 2) / Real.sin (a / 2)) • Corner.out u w a := by
    have e1 : d * Real.cos (a / 2) / Real.sin (a / 2) / Real.cos (a / 2) * (2 * Real.sin (a / 2))⁻¹ = d * (2 * Real.sin (a / 2) ^ 2)⁻¹ := by
      field_simp
    have e2 : d * Real.cos (a / 2) / Real.sin (a / 2) * (Real.sin (a / 2) / Real.cos (a / 2)) = d := by field_simp
    rw [normalized, hc.norm_sub, smul_smul, e1, Corner.out, smul_smul, e2]
    module
  rw [hr, hctr]
  have hx : normalized (intersection - d • u - (intersection - d • u - (d * Real.cos (a / 2) / Real.sin (a / 2)) • Corner.out u w a)) = Corner.out u w a := by
    rw [sub_sub_cancel, normalized, norm_smul, hc.norm_out, mul_one, Real.norm_of_nonneg (by positivity), smul_smul, inv_mul_cancel₀ (by positivity), one_smul]
  rw [hx]

end Simox.Tot
