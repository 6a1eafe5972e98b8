import Verif.Rot.Lemmas

/-!
# Roll, pitch, yaw: lemmas
-/

namespace Simox.Rot

open Matrix Jac

theorem IsPose.entries {m : M4} (h : IsPose m) :
    Entries (m 0 0) (m 0 1) (m 0 2) (m 1 0) (m 1 1) (m 1 2) (m 2 0) (m 2 1) (m 2 2) :=
  entries_of _ h.1

theorem IsPose.last {m : M4} (h : IsPose m) : m 3 0 = 0 ∧ m 3 1 = 0 ∧ m 3 2 = 0 ∧ m 3 3 = 1 := by
  rw [h.2]; simp

theorem rpyBeta_spec {m : M4} (h : IsPose m) :
    Real.sin (rpyBeta m) = - m 2 0 ∧
    Real.cos (rpyBeta m) = Real.sqrt (m 0 0 * m 0 0 + m 1 0 * m 1 0) := by
  have e := h.entries
  have hs : Real.sqrt (m 0 0 * m 0 0 + m 1 0 * m 1 0) * Real.sqrt (m 0 0 * m 0 0 + m 1 0 * m 1 0) +
      -m 2 0 * -m 2 0 = 1 := by
    rw [Real.mul_self_sqrt (by nlinarith)]
    linarith [e.c0]
  exact ⟨sin_atan2_one hs, cos_atan2_one hs⟩

theorem rpyBeta_range (m : M4) : -(Real.pi / 2) ≤ rpyBeta m ∧ rpyBeta m ≤ Real.pi / 2 := by
  have : |rpyBeta m| ≤ Real.pi / 2 := by
    rw [rpyBeta, atan2, Complex.abs_arg_le_pi_div_two_iff]
    exact Real.sqrt_nonneg _
  exact abs_le.1 this

/-- The matrix that belongs to six numbers, written with sines and cosines. -/
theorem posrpy_eq (v : PosRpy) : posrpy2eigen4f v =
    !![Real.cos v.yaw * Real.cos v.pitch,
       Real.cos v.yaw * Real.sin v.pitch * Real.sin v.roll - Real.sin v.yaw * Real.cos v.roll,
       Real.cos v.yaw * Real.sin v.pitch * Real.cos v.roll + Real.sin v.yaw * Real.sin v.roll, v.x;
       Real.sin v.yaw * Real.cos v.pitch,
       Real.sin v.yaw * Real.sin v.pitch * Real.sin v.roll + Real.cos v.yaw * Real.cos v.roll,
       Real.sin v.yaw * Real.sin v.pitch * Real.cos v.roll - Real.cos v.yaw * Real.sin v.roll, v.y;
       - Real.sin v.pitch, Real.cos v.pitch * Real.sin v.roll, Real.cos v.pitch * Real.cos v.roll, v.z;
       0, 0, 0, 1] := by
  ext i j
  fin_cases i <;> fin_cases j <;> simp [posrpy2eigen4f, setPos, rpy2eigen4f]

/-- The matrix is recovered from angles with the right sines and cosines. -/
theorem rebuild {m : M4} (h : IsPose m) (v : PosRpy) {c : ℝ} (hc : 0 < c)
    (hcc : c * c = m 0 0 * m 0 0 + m 1 0 * m 1 0) (hx : v.x = m 0 3) (hy : v.y = m 1 3) (hz : v.z = m 2 3)
    (sp : Real.sin v.pitch = - m 2 0) (cp : Real.cos v.pitch = c)
    (sr : Real.sin v.roll = m 2 1 / c) (cr : Real.cos v.roll = m 2 2 / c)
    (sy : Real.sin v.yaw = m 1 0 / c) (cy : Real.cos v.yaw = m 0 0 / c) :
    posrpy2eigen4f v = m := by
  obtain ⟨l0, l1, l2, l3⟩ := h.last
  have e := h.entries
  have hc' := hc.ne'
  have hcc2 : c ^ 2 = m 0 0 * m 0 0 + m 1 0 * m 1 0 := by rw [sq]; exact hcc
  rw [posrpy_eq]
  ext i j
  fin_cases i <;> fin_cases j <;>
    simp [sp, cp, sr, cr, sy, cy, hx, hy, hz, l0, l1, l2, l3] <;> field_simp
  · rw [hcc2]
    linear_combination (-m 0 0) * e.c01 + m 1 0 * e.ki
  · rw [hcc2]
    linear_combination (-m 0 0) * e.c02 - m 1 0 * e.kh
  · rw [hcc2]
    linear_combination (-m 1 0) * e.c01 - m 0 0 * e.ki
  · rw [hcc2]
    linear_combination (-m 1 0) * e.c02 + m 0 0 * e.kh

theorem abs_le_of_sq {x c : ℝ} (hc : 0 ≤ c) (h : x * x ≤ c * c) : |x| ≤ c := by
  rw [abs_le]; constructor <;> nlinarith

theorem abs_mul_le_left {x y e : ℝ} (hx : |x| ≤ e) (hy : |y| ≤ 1) : |x * y| ≤ e := by
  rw [abs_mul]
  calc |x| * |y| ≤ |x| * 1 := mul_le_mul_of_nonneg_left hy (abs_nonneg _)
    _ = |x| := mul_one _
    _ ≤ e := hx

theorem one_sub_le {r c t : ℝ} (h0 : 0 ≤ r) (h : r * r + t = 1) (ht : t ≤ c) (ht0 : 0 ≤ t) :
    0 ≤ 1 - r ∧ 1 - r ≤ c := by constructor <;> nlinarith

/-- Near the two singular pitches, forgetting the yaw changes the matrix by little. -/
theorem near {m : M4} (h : IsPose m) (v : PosRpy) {c s k : ℝ} (hc : 0 ≤ c) (hc1 : c ≤ 1 / 3)
    (hcc : c * c = m 0 0 * m 0 0 + m 1 0 * m 1 0) (hx : v.x = m 0 3) (hy : v.y = m 1 3) (hz : v.z = m 2 3)
    (hs : s = - m 2 0) (hk : k = 1 ∨ k = -1) (hsk : |s - k| ≤ c * c)
    (sp : Real.sin v.pitch = s) (cp : Real.cos v.pitch = c)
    (sr : Real.sin v.roll = k * Real.sin (atan2 (m 0 1) (m 1 1)))
    (cr : Real.cos v.roll = Real.cos (atan2 (m 0 1) (m 1 1)))
    (sy : Real.sin v.yaw = 0) (cy : Real.cos v.yaw = 1) (i j : Fin 4) :
    |posrpy2eigen4f v i j - m i j| ≤ 3 * c := by
  obtain ⟨l0, l1, l2, l3⟩ := h.last
  have e := h.entries
  have s1 := sin_atan2 (m 0 1) (m 1 1)
  have c1 := cos_atan2 (m 0 1) (m 1 1)
  have hsc := Real.sin_sq_add_cos_sq (atan2 (m 0 1) (m 1 1))
  generalize Real.sin (atan2 (m 0 1) (m 1 1)) = S at *
  generalize Real.cos (atan2 (m 0 1) (m 1 1)) = C at *
  have hS : |S| ≤ 1 := abs_le_of_sq one_pos.le (by linarith [sq_nonneg C])
  have hC : |C| ≤ 1 := abs_le_of_sq one_pos.le (by linarith [sq_nonneg S])
  have hr0 : 0 ≤ Real.sqrt (m 1 1 * m 1 1 + m 0 1 * m 0 1) := Real.sqrt_nonneg _
  have hrr : Real.sqrt (m 1 1 * m 1 1 + m 0 1 * m 0 1) * Real.sqrt (m 1 1 * m 1 1 + m 0 1 * m 0 1) =
      m 1 1 * m 1 1 + m 0 1 * m 0 1 := Real.mul_self_sqrt (add_nonneg (mul_self_nonneg _) (mul_self_nonneg _))
  generalize Real.sqrt (m 1 1 * m 1 1 + m 0 1 * m 0 1) = r at *
  have h21 : |m 2 1| ≤ c := abs_le_of_sq hc (by linarith [e.r2, e.c0, mul_self_nonneg (m 2 2)])
  have h22 : |m 2 2| ≤ c := abs_le_of_sq hc (by linarith [e.r2, e.c0, mul_self_nonneg (m 2 1)])
  have h00 : |m 0 0| ≤ c := abs_le_of_sq hc (by linarith [mul_self_nonneg (m 1 0)])
  have h10 : |m 1 0| ≤ c := abs_le_of_sq hc (by linarith [mul_self_nonneg (m 0 0)])
  have h01 : |m 0 1| ≤ 1 := abs_le_of_sq one_pos.le
    (by linarith [e.c1, mul_self_nonneg (m 1 1), mul_self_nonneg (m 2 1)])
  have hsb : |s| ≤ 1 := abs_le_of_sq one_pos.le
    (by rw [hs]; linarith [e.c0, mul_self_nonneg (m 0 0), mul_self_nonneg (m 1 0)])
  have hm21 : m 2 1 * m 2 1 ≤ c * c := by linarith [e.r2, e.c0, mul_self_nonneg (m 2 2)]
  have h31 : 0 ≤ 1 - r ∧ 1 - r ≤ c * c :=
    one_sub_le (t := m 2 1 * m 2 1) hr0 (by rw [hrr]; linarith [e.c1]) hm21 (mul_self_nonneg _)
  have hr3 : |1 - r| ≤ c * c := by rw [abs_of_nonneg h31.1]; exact h31.2
  have hS1 : |S - m 0 1| ≤ c * c := by
    have : S - m 0 1 = (1 - r) * S := by linarith
    rw [this]; exact abs_mul_le_left hr3 hS
  have hC1 : |C - m 1 1| ≤ c * c := by
    have : C - m 1 1 = (1 - r) * C := by linarith
    rw [this]; exact abs_mul_le_left hr3 hC
  have hkk : k * k = 1 := by rcases hk with hk | hk <;> rw [hk] <;> norm_num
  have hka : |k| = 1 := by rcases hk with hk | hk <;> rw [hk] <;> norm_num
  have hc3 : c * c ≤ c / 3 := by
    have := mul_le_mul_of_nonneg_left hc1 hc
    linarith
  have hmm : ∀ {x y : ℝ}, |x| ≤ c → |y| ≤ c → |x * y| ≤ c * c := by
    intro x y hx hy
    rw [abs_mul]; exact mul_le_mul hx hy (abs_nonneg _) hc
  have hp1 : |m 1 0 * m 2 1| ≤ c * c := hmm h10 h21
  have hp2 : |m 0 0 * m 2 1| ≤ c * c := hmm h00 h21
  have hkS : |k * S| ≤ 1 := by rw [abs_mul, hka, one_mul]; exact hS
  have hq1 : |(s - k) * (k * S)| ≤ c * c := abs_mul_le_left hsk hkS
  have hq2 : |s * (C - m 1 1)| ≤ c * c := by rw [mul_comm]; exact abs_mul_le_left hC1 hsb
  have hq3 : |(s - k) * m 0 1| ≤ c * c := abs_mul_le_left hsk h01
  have hq4 : |k * (S - m 0 1)| ≤ c * c := by
    rw [abs_mul, hka, one_mul]; exact hS1
  have hca : |c| ≤ c := (abs_of_nonneg hc).le
  have hq5 : |c * (k * S)| ≤ c := abs_mul_le_left hca hkS
  have hq6 : |c * C| ≤ c := abs_mul_le_left hca hC
  have e02 : m 0 2 = m 1 0 * m 2 1 + m 1 1 * s := by rw [hs]; linarith [e.kc]
  have e12 : m 1 2 = - m 0 1 * s - m 0 0 * m 2 1 := by rw [hs]; linarith [e.kf]
  rw [posrpy_eq]
  fin_cases i <;> fin_cases j <;>
    simp [sp, cp, sr, cr, sy, cy, hx, hy, hz, l0, l1, l2, l3]
  · rw [abs_le] at h00 ⊢; constructor <;> linarith
  · have : s * (k * S) - m 0 1 = (s - k) * (k * S) + (S - m 0 1) := by linear_combination S * hkk
    rw [this, abs_le]
    rw [abs_le] at hq1 hS1
    constructor <;> linarith
  · have : s * C - m 0 2 = s * (C - m 1 1) - m 1 0 * m 2 1 := by rw [e02]; ring
    rw [this, abs_le]
    rw [abs_le] at hq2 hp1
    constructor <;> linarith
  · exact hc
  · linarith
  · rw [abs_le] at hC1 ⊢
    constructor <;> linarith
  · have : -(k * S) - m 1 2 = (s - k) * m 0 1 - k * (S - m 0 1) + m 0 0 * m 2 1 := by
      rw [e12]; ring
    rw [this, abs_le]
    rw [abs_le] at hq3 hq4 hp2
    constructor <;> linarith
  · exact hc
  · rw [hs]; simp [hc]
  · rw [abs_le] at hq5 h21 ⊢
    constructor <;> linarith
  · rw [abs_le] at hq6 h22 ⊢
    constructor <;> linarith
  all_goals exact hc

end Simox.Rot
