import Verif.Rot.Lemmas
import Mathlib.Analysis.Real.Pi.Bounds

/-!
# C71: Hopf coordinates of quaternions
-/

namespace Simox.Rot

open Matrix Jac

/-- The two angles come out with both signs right, or both wrong. -/
theorem hopf_angles (a b : ℝ) :
    let r0 := if b - a < 0 then 2 * Real.pi + (b - a) else b - a
    let r1 := if a + b < 0 then 2 * Real.pi + (a + b) else a + b
    ∃ k : ℝ, (k = 1 ∨ k = -1) ∧
      Real.cos ((r0 + r1) * 0.5) = k * Real.cos b ∧ Real.sin ((r0 + r1) * 0.5) = k * Real.sin b ∧
      Real.sin ((r1 - r0) * 0.5) = k * Real.sin a ∧ Real.cos ((r1 - r0) * 0.5) = k * Real.cos a := by
  intro r0 r1
  have n : (0.5 : ℝ) = 1 / 2 := by norm_num
  simp only [r0, r1]
  by_cases h0 : b - a < 0 <;> by_cases h1 : a + b < 0 <;>
    simp only [h0, h1, if_true, if_false]
  · refine ⟨1, Or.inl rfl, ?_⟩
    rw [show (2 * Real.pi + (b - a) + (2 * Real.pi + (a + b))) * 0.5 = b + 2 * Real.pi by rw [n]; ring,
      show (2 * Real.pi + (a + b) - (2 * Real.pi + (b - a))) * 0.5 = a by rw [n]; ring]
    simp [Real.cos_add_two_pi, Real.sin_add_two_pi]
  · refine ⟨-1, Or.inr rfl, ?_⟩
    rw [show (2 * Real.pi + (b - a) + (a + b)) * 0.5 = b + Real.pi by rw [n]; ring,
      show (a + b - (2 * Real.pi + (b - a))) * 0.5 = a - Real.pi by rw [n]; ring]
    simp [Real.cos_add_pi, Real.sin_add_pi, Real.cos_sub_pi, Real.sin_sub_pi]
  · refine ⟨-1, Or.inr rfl, ?_⟩
    rw [show (b - a + (2 * Real.pi + (a + b))) * 0.5 = b + Real.pi by rw [n]; ring,
      show (2 * Real.pi + (a + b) - (b - a)) * 0.5 = a + Real.pi by rw [n]; ring]
    simp [Real.cos_add_pi, Real.sin_add_pi]
  · refine ⟨1, Or.inl rfl, ?_⟩
    rw [show (b - a + (a + b)) * 0.5 = b by rw [n]; ring,
      show (a + b - (b - a)) * 0.5 = a by rw [n]; ring]
    simp

/-- The third coordinate. -/
theorem hopf_third {p o : ℝ} (hp0 : 0 ≤ p) (ho0 : 0 ≤ o) (hpo : p * p + o * o = 1) {r : ℝ}
    (hr : r = if |p - 1| < 1e-6 then Real.pi * 0.5
            else if |p + 1| < 1e-6 then - Real.pi * 0.5 else Real.arcsin p) :
    ((p ≤ 1 - 1e-6 ∨ p = 1) → Real.sin r = p ∧ Real.cos r = o) ∧ |Real.sin r - p| ≤ 1e-6 ∧
      |Real.cos r - o| ≤ 0.002 ∧ (0 ≤ r ∧ r ≤ Real.pi / 2) := by
  have hp1 : p ≤ 1 := by nlinarith [mul_self_nonneg o]
  have hn2 : ¬ |p + 1| < 1e-6 := by
    rw [abs_of_nonneg (by linarith)]; norm_num; linarith
  rw [if_neg hn2] at hr
  have hpi := Real.pi_pos
  by_cases h1 : |p - 1| < 1e-6
  · rw [if_pos h1, show Real.pi * 0.5 = Real.pi / 2 by norm_num; ring] at hr
    rw [hr, Real.sin_pi_div_two, Real.cos_pi_div_two]
    have h1' := abs_lt.1 h1
    refine ⟨?_, ?_, ?_, by linarith, le_refl _⟩
    · rintro (h | h)
      · exfalso; linarith [h1'.1]
      · refine ⟨h.symm, ?_⟩
        rw [h] at hpo
        have : o * o = 0 := by linarith
        exact (mul_self_eq_zero.1 this).symm
    · rw [abs_sub_comm]; exact h1.le
    · rw [zero_sub, abs_neg, abs_of_nonneg ho0]
      by_contra hc
      have hc := not_le.1 hc
      have h3 := h1'.1
      norm_num at h3 hc
      have hoo : 1 / 500 * (1 / 500) < o * o := mul_lt_mul'' hc hc (by norm_num) (by norm_num)
      have h4 : 999999 / 1000000 < p := by linarith
      have : 999999 / 1000000 * (999999 / 1000000) < p * p := mul_lt_mul'' h4 h4 (by norm_num) (by norm_num)
      linarith
  · rw [if_neg h1] at hr
    have hs := Real.sin_arcsin (x := p) (by linarith) hp1
    have hc : Real.cos (Real.arcsin p) = o := by
      rw [Real.cos_arcsin, show 1 - p ^ 2 = o ^ 2 by linarith, Real.sqrt_sq ho0]
    rw [hr, hs, hc]
    refine ⟨fun _ => ⟨rfl, rfl⟩, by simp; norm_num, by simp; norm_num, Real.arcsin_nonneg.2 hp0,
      Real.arcsin_le_pi_div_two _⟩

/-- **C71 (back from Hopf coordinates).** Any three numbers give a unit quaternion. -/
theorem C71_unit (h : V3) : (hopf2quat h).Unit := by
  have h1 := Real.sin_sq_add_cos_sq ((h 0 + h 1) * 0.5)
  have h2 := Real.sin_sq_add_cos_sq ((h 1 - h 0) * 0.5)
  have h3 := Real.sin_sq_add_cos_sq (h 2)
  simp only [Quat.Unit, hopf2quat]
  linear_combination Real.sin (h 2) ^ 2 * h1 + Real.cos (h 2) ^ 2 * h2 + h3

/-- **C71 (Hopf coordinates).** The three coordinates of a unit quaternion lie in [0,2pi], [0,2pi] and
[0,pi/2]. Converting back gives the quaternion or its negative (the same rotation): exactly, unless the
share of x and y in the quaternion is less than a millionth from 1 without being 1, where every component
is off by at most 0.002. -/
theorem C71_hopf (q : Quat) (hq : q.Unit) :
    (0 ≤ quat2hopf q 0 ∧ quat2hopf q 0 < 2 * Real.pi) ∧ (0 ≤ quat2hopf q 1 ∧ quat2hopf q 1 ≤ 2 * Real.pi) ∧
    (0 ≤ quat2hopf q 2 ∧ quat2hopf q 2 ≤ Real.pi / 2) ∧
    ((Real.sqrt (q.x ^ 2 + q.y ^ 2) ≤ 1 - 1e-6 ∨ q.x ^ 2 + q.y ^ 2 = 1) →
      hopf2quat (quat2hopf q) = q ∨ hopf2quat (quat2hopf q) = q.neg) ∧
    (∃ r : Quat, (r = q ∨ r = q.neg) ∧
      let s := hopf2quat (quat2hopf q)
      |s.x - r.x| ≤ 0.002 ∧ |s.y - r.y| ≤ 0.002 ∧ |s.z - r.z| ≤ 0.002 ∧ |s.w - r.w| ≤ 0.002) := by
  have hq' : q.x ^ 2 + q.y ^ 2 + q.z ^ 2 + q.w ^ 2 = 1 := hq
  have hxy : q.x ^ 2 + q.y ^ 2 = q.x * q.x + q.y * q.y := by ring
  have hyx : q.y * q.y + q.x * q.x = q.x * q.x + q.y * q.y := by ring
  -- polar coordinates of both pairs
  have pc := cos_atan2 q.y q.x
  have ps := sin_atan2 q.y q.x
  have wc := cos_atan2 q.z q.w
  have ws := sin_atan2 q.z q.w
  have hp0 := Real.sqrt_nonneg (q.x * q.x + q.y * q.y)
  have hpp := Real.mul_self_sqrt (show 0 ≤ q.x * q.x + q.y * q.y from
    add_nonneg (mul_self_nonneg _) (mul_self_nonneg _))
  have ho0 := Real.sqrt_nonneg (q.w * q.w + q.z * q.z)
  have hoo := Real.mul_self_sqrt (show 0 ≤ q.w * q.w + q.z * q.z from
    add_nonneg (mul_self_nonneg _) (mul_self_nonneg _))
  have hb1 := atan2_lt q.y q.x
  have hb2 := atan2_le q.y q.x
  have ha1 := atan2_lt q.z q.w
  have ha2 := atan2_le q.z q.w
  have scb := Real.sin_sq_add_cos_sq (atan2 q.y q.x)
  have sca := Real.sin_sq_add_cos_sq (atan2 q.z q.w)
  have key := hopf_angles (atan2 q.z q.w) (atan2 q.y q.x)
  have hE : quat2hopf q = ![if atan2 q.y q.x - atan2 q.z q.w < 0 then
      2 * Real.pi + (atan2 q.y q.x - atan2 q.z q.w) else atan2 q.y q.x - atan2 q.z q.w,
      if atan2 q.z q.w + atan2 q.y q.x < 0 then 2 * Real.pi + (atan2 q.z q.w + atan2 q.y q.x)
        else atan2 q.z q.w + atan2 q.y q.x,
      if |Real.sqrt (q.x * q.x + q.y * q.y) - 1| < 1e-6 then Real.pi * 0.5
            else if |Real.sqrt (q.x * q.x + q.y * q.y) + 1| < 1e-6 then - Real.pi * 0.5
            else Real.arcsin (Real.sqrt (q.x * q.x + q.y * q.y))] := by
    simp only [quat2hopf, hyx]
  rw [hxy]
  generalize atan2 q.y q.x = b at *
  generalize atan2 q.z q.w = a at *
  generalize Real.sqrt (q.x * q.x + q.y * q.y) = p at *
  generalize Real.sqrt (q.w * q.w + q.z * q.z) = o at *
  have hpo : p * p + o * o = 1 := by rw [hpp, hoo]; linarith
  have hpi := Real.pi_pos
  have hcb : |Real.cos b| ≤ 1 := Real.abs_cos_le_one b
  have hsb : |Real.sin b| ≤ 1 := Real.abs_sin_le_one b
  -- the quaternion that comes back
  obtain ⟨k, hk, k1, k2, k3, k4⟩ := key
  obtain ⟨hex, hSe, hCe, hrange⟩ := hopf_third (r := quat2hopf q 2) hp0 ho0 hpo
    (by rw [hE]; simp only [Matrix.cons_val])
  generalize hS1 : Real.sin (quat2hopf q 2) = S at *
  generalize hC1 : Real.cos (quat2hopf q 2) = C at *
  have hback : hopf2quat (quat2hopf q) =
      ⟨k * Real.cos b * S, k * Real.sin b * S, k * Real.sin a * C, k * Real.cos a * C⟩ := by
    simp only [hopf2quat]
    rw [hS1, hC1, hE]
    simp only [Matrix.cons_val_zero, Matrix.cons_val_one]
    rw [k1, k2, k3, k4]
  refine ⟨?_, ?_, hrange, ?_, ?_⟩
  · rw [hE]; simp only [Matrix.cons_val_zero]
    split <;> constructor <;> linarith
  · rw [hE]; simp only [Matrix.cons_val_one, Matrix.cons_val_zero]
    split <;> constructor <;> linarith
  · intro hc
    have hc' : p ≤ 1 - 1e-6 ∨ p = 1 := by
      rcases hc with hc | hc
      · exact Or.inl hc
      · right; rw [hc] at hpp; exact (mul_self_eq_one_iff.1 hpp).resolve_right (by linarith)
    obtain ⟨e1, e2⟩ := hex hc'
    rw [hback, e1, e2]
    rcases hk with hk | hk
    · left; rw [hk]; ext <;> simp only [] <;> linarith
    · right; rw [hk]; ext <;> simp only [Quat.neg] <;> linarith
  · refine ⟨⟨k * q.x, k * q.y, k * q.z, k * q.w⟩, ?_, ?_⟩
    · rcases hk with hk | hk
      · left; rw [hk]; ext <;> simp
      · right; rw [hk]; ext <;> simp [Quat.neg]
    · rw [hback]
      have hkk : |k| = 1 := by rcases hk with hk | hk <;> rw [hk] <;> norm_num
      have bound : ∀ {t d e : ℝ}, |t| ≤ 1 → |d| ≤ e → |k * (t * d)| ≤ e := by
        intro t d e ht hd
        rw [abs_mul, hkk, one_mul, abs_mul]
        calc |t| * |d| ≤ 1 * |d| := mul_le_mul_of_nonneg_right ht (abs_nonneg _)
          _ ≤ e := by rw [one_mul]; exact hd
      have hSe' : |S - p| ≤ 0.002 := hSe.trans (by norm_num)
      refine ⟨?_, ?_, ?_, ?_⟩
      · have : k * Real.cos b * S - k * q.x = k * (Real.cos b * (S - p)) := by rw [← pc]; ring
        simp only [this]; exact bound hcb hSe'
      · have : k * Real.sin b * S - k * q.y = k * (Real.sin b * (S - p)) := by rw [← ps]; ring
        simp only [this]; exact bound hsb hSe'
      · have : k * Real.sin a * C - k * q.z = k * (Real.sin a * (C - o)) := by rw [← ws]; ring
        simp only [this]; exact bound (Real.abs_sin_le_one a) hCe
      · have : k * Real.cos a * C - k * q.w = k * (Real.cos a * (C - o)) := by rw [← wc]; ring
        simp only [this]; exact bound (Real.abs_cos_le_one a) hCe

/-- Not vacuous. -/
example : (⟨0.6, 0, 0, 0.8⟩ : Quat).Unit ∧ Real.sqrt ((0.6 : ℝ) ^ 2 + 0 ^ 2) ≤ 1 - 1e-6 := by
  constructor
  · simp [Quat.Unit]; norm_num
  · rw [show (0.6 : ℝ) ^ 2 + 0 ^ 2 = 0.6 ^ 2 by norm_num, Real.sqrt_sq (by norm_num)]; norm_num

end Simox.Rot
