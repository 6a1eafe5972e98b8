import Verif.Rot.QuatLemmas

/-!
# The rotation between two directions: lemmas
-/

namespace Simox.Rot

open Matrix Jac

theorem dot3 (a b : V3) : a ⬝ᵥ b = a 0 * b 0 + a 1 * b 1 + a 2 * b 2 := by
  simp [dotProduct, Fin.sum_univ_three]

theorem dot_nonneg (a : V3) : 0 ≤ a ⬝ᵥ a := by
  rw [dot3]; nlinarith [mul_self_nonneg (a 0), mul_self_nonneg (a 1), mul_self_nonneg (a 2)]

theorem dot_eq_zero {a : V3} (h : a ⬝ᵥ a = 0) : a = 0 := by
  rw [dot3] at h
  have h0 : a 0 = 0 := by nlinarith [mul_self_nonneg (a 0), mul_self_nonneg (a 1), mul_self_nonneg (a 2)]
  have h1 : a 1 = 0 := by nlinarith [mul_self_nonneg (a 0), mul_self_nonneg (a 1), mul_self_nonneg (a 2)]
  have h2 : a 2 = 0 := by nlinarith [mul_self_nonneg (a 0), mul_self_nonneg (a 1), mul_self_nonneg (a 2)]
  funext i; fin_cases i
  · exact h0
  · exact h1
  · exact h2

theorem dot_pos {a : V3} (h : a ≠ 0) : 0 < a ⬝ᵥ a :=
  lt_of_le_of_ne (dot_nonneg a) (fun h' => h (dot_eq_zero h'.symm))

theorem nrm_pos {a : V3} (h : a ≠ 0) : 0 < nrm a := Real.sqrt_pos.2 (dot_pos h)

theorem nrm_mul_self (a : V3) : nrm a * nrm a = a ⬝ᵥ a := Real.mul_self_sqrt (dot_nonneg a)

theorem nrm_eq_zero {a : V3} : nrm a = 0 ↔ a = 0 := by
  constructor
  · intro h; apply dot_eq_zero; rw [← nrm_mul_self, h, zero_mul]
  · rintro rfl; simp [nrm]

theorem normalize_of_ne {a : V3} (h : a ≠ 0) : normalize a = (1 / nrm a) • a := by
  rw [normalize, if_pos (dot_pos h)]

theorem normalize_unit {a : V3} (h : a ≠ 0) : normalize a ⬝ᵥ normalize a = 1 := by
  rw [normalize_of_ne h]
  have := (nrm_pos h).ne'
  rw [smul_dotProduct, dotProduct_smul, ← nrm_mul_self]
  simp only [smul_eq_mul]
  field_simp

theorem smul_normalize {a : V3} (h : a ≠ 0) : nrm a • normalize a = a := by
  rw [normalize_of_ne h, smul_smul, mul_one_div_cancel (nrm_pos h).ne', one_smul]

theorem normalize_of_unit {a : V3} (h : a ⬝ᵥ a = 1) : normalize a = a := by
  rw [normalize, if_pos (by rw [h]; norm_num), nrm, h, Real.sqrt_one]; simp

/-- `getRotation` for unit vectors. -/
noncomputable def rotUnit (a b : V3) : Quat :=
  if crossProduct a b = 0 then
    if a ⬝ᵥ b > 0 then Quat.one
    else
      let t := if crossProduct a ![1, 0, 0] = 0 then crossProduct a ![0, 1, 0] else crossProduct a ![1, 0, 0]
      let t := normalize t
      ⟨t 0, t 1, t 2, 0⟩
  else
    let c := Real.sqrt (0.5 * |1 - a ⬝ᵥ b|) • normalize (crossProduct a b)
    ⟨c 0, c 1, c 2, Real.sqrt (0.5 * |1 + a ⬝ᵥ b|)⟩

theorem getRotation_eq (f t : V3) : getRotation f t = rotUnit (normalize f) (normalize t) := by
  simp only [getRotation, rotUnit, nrm_eq_zero]

theorem lagrange (a b : V3) : crossProduct a b ⬝ᵥ crossProduct a b = (a ⬝ᵥ a) * (b ⬝ᵥ b) - (a ⬝ᵥ b) ^ 2 := by
  simp only [dot3, cross_apply, Matrix.cons_val_zero, Matrix.cons_val_one, Matrix.cons_val]
  ring

/-- Parallel unit vectors are equal or opposite. -/
theorem parallel_cases {a b : V3} (ha : a ⬝ᵥ a = 1) (hb : b ⬝ᵥ b = 1) (h : crossProduct a b = 0) :
    (a ⬝ᵥ b = 1 ∧ b = a) ∨ (a ⬝ᵥ b = -1 ∧ b = -a) := by
  have hl := lagrange a b
  rw [h, ha, hb] at hl
  simp only [dotProduct_zero, mul_one] at hl
  have hd : (a ⬝ᵥ b) * (a ⬝ᵥ b) = 1 := by nlinarith
  rcases mul_self_eq_one_iff.1 hd with hd | hd
  · left
    refine ⟨hd, ?_⟩
    have : (b - a) ⬝ᵥ (b - a) = 0 := by
      rw [sub_dotProduct, dotProduct_sub, dotProduct_sub, ha, hb, hd, dotProduct_comm b a, hd]; norm_num
    exact sub_eq_zero.1 (dot_eq_zero this)
  · right
    refine ⟨hd, ?_⟩
    have : (b + a) ⬝ᵥ (b + a) = 0 := by
      rw [add_dotProduct, dotProduct_add, dotProduct_add, ha, hb, hd, dotProduct_comm b a, hd]; norm_num
    exact eq_neg_of_add_eq_zero_left (dot_eq_zero this)

/-- The scaled axis in the general case. -/
theorem general_case {a b : V3} (ha : a ⬝ᵥ a = 1) (hb : b ⬝ᵥ b = 1) (h : crossProduct a b ≠ 0) :
    ∃ k w : ℝ, rotUnit a b = ⟨k * crossProduct a b 0, k * crossProduct a b 1, k * crossProduct a b 2, w⟩ ∧
      2 * k * w = 1 ∧ 2 * (k * k) * (1 + a ⬝ᵥ b) = 1 ∧ w * w = (1 + a ⬝ᵥ b) / 2 ∧
      k = Real.sqrt (0.5 * |1 - a ⬝ᵥ b|) * (1 / nrm (crossProduct a b)) ∧ w = Real.sqrt (0.5 * |1 + a ⬝ᵥ b|) := by
  have hl := lagrange a b
  rw [ha, hb, one_mul] at hl
  have hpos := dot_pos h
  have hd1 : a ⬝ᵥ b < 1 := by nlinarith
  have hd2 : -1 < a ⬝ᵥ b := by nlinarith
  have hn := nrm_pos h
  have hnn := nrm_mul_self (crossProduct a b)
  rw [hl] at hnn
  generalize hd : a ⬝ᵥ b = d at *
  generalize hN : nrm (crossProduct a b) = N at *
  refine ⟨Real.sqrt (0.5 * |1 - d|) * (1 / N), Real.sqrt (0.5 * |1 + d|), ?_, ?_, ?_, ?_, rfl, rfl⟩
  · simp only [rotUnit]
    rw [if_neg h, normalize_of_ne h, hd, hN]
    simp only [Pi.smul_apply, smul_eq_mul]
    ext <;> simp only [] <;> ring
  · have h1 : Real.sqrt (0.5 * |1 - d|) * Real.sqrt (0.5 * |1 + d|) = N / 2 := by
      rw [← Real.sqrt_mul (by positivity), abs_of_pos (by linarith), abs_of_pos (by linarith)]
      rw [show (0.5 : ℝ) * (1 - d) * (0.5 * (1 + d)) = (N / 2) ^ 2 by
        rw [div_pow, sq N, hnn]; norm_num; ring]
      exact Real.sqrt_sq (by linarith)
    have : 2 * (Real.sqrt (0.5 * |1 - d|) * (1 / N)) * Real.sqrt (0.5 * |1 + d|) =
        2 * (1 / N) * (Real.sqrt (0.5 * |1 - d|) * Real.sqrt (0.5 * |1 + d|)) := by ring
    rw [this, h1]
    field_simp
  · have h1 : Real.sqrt (0.5 * |1 - d|) * Real.sqrt (0.5 * |1 - d|) = (1 - d) / 2 := by
      rw [Real.mul_self_sqrt (by positivity), abs_of_pos (by linarith)]; norm_num; ring
    have : 2 * (Real.sqrt (0.5 * |1 - d|) * (1 / N) * (Real.sqrt (0.5 * |1 - d|) * (1 / N))) * (1 + d) =
        2 * (Real.sqrt (0.5 * |1 - d|) * Real.sqrt (0.5 * |1 - d|)) * (1 + d) / (N * N) := by
      field_simp
    rw [this, h1, hnn]
    have : 1 - d ^ 2 ≠ 0 := by rw [← hnn]; exact mul_ne_zero hn.ne' hn.ne'
    field_simp; ring
  · rw [Real.mul_self_sqrt (by positivity), abs_of_pos (by linarith)]; norm_num; ring

theorem flip_axis {a : V3} (ha : a ⬝ᵥ a = 1) :
    let t := normalize (if crossProduct a ![1, 0, 0] = 0 then crossProduct a ![0, 1, 0]
      else crossProduct a ![1, 0, 0])
    t ⬝ᵥ t = 1 ∧ t ⬝ᵥ a = 0 := by
  intro t
  have horth : ∀ u : V3, crossProduct a u ⬝ᵥ a = 0 := by
    intro u
    rw [dotProduct_comm]; exact dot_self_cross a u
  have hne : (if crossProduct a ![1, 0, 0] = 0 then crossProduct a ![0, 1, 0]
      else crossProduct a ![1, 0, 0]) ≠ 0 := by
    split
    · next h =>
      intro h2
      have e1 := congrFun h 1
      have e2 := congrFun h 2
      have e3 := congrFun h2 2
      simp [cross_apply] at e1 e2 e3
      rw [dot3, e1, e2, e3] at ha
      norm_num at ha
    · next h => exact h
  refine ⟨normalize_unit hne, ?_⟩
  simp only [t]
  rw [normalize_of_ne hne, smul_dotProduct]
  split <;> rw [horth, smul_zero]

theorem rotate_vec (q : Quat) (v : V3) : toRotationMatrix q *ᵥ v =
    ![(1 - 2 * (q.y ^ 2 + q.z ^ 2)) * v 0 + 2 * (q.x * q.y - q.z * q.w) * v 1 + 2 * (q.x * q.z + q.y * q.w) * v 2,
      2 * (q.x * q.y + q.z * q.w) * v 0 + (1 - 2 * (q.x ^ 2 + q.z ^ 2)) * v 1 + 2 * (q.y * q.z - q.x * q.w) * v 2,
      2 * (q.x * q.z - q.y * q.w) * v 0 + 2 * (q.y * q.z + q.x * q.w) * v 1 +
        (1 - 2 * (q.x ^ 2 + q.y ^ 2)) * v 2] := by
  rw [toRotationMatrix_eq]
  ext i
  fin_cases i <;> simp only [Matrix.mulVec, dot3] <;> simp

theorem rotUnit_spec {a b : V3} (ha : a ⬝ᵥ a = 1) (hb : b ⬝ᵥ b = 1) :
    (rotUnit a b).Unit ∧ toRotationMatrix (rotUnit a b) *ᵥ a = b ∧
      4 * (rotUnit a b).w ^ 2 - 1 = 1 + 2 * (a ⬝ᵥ b) ∧
      (∀ v, v ⬝ᵥ a = 0 → v ⬝ᵥ b = 0 → crossProduct a b ≠ 0 → toRotationMatrix (rotUnit a b) *ᵥ v = v) := by
  by_cases h : crossProduct a b = 0
  · rcases parallel_cases ha hb h with ⟨hd, rfl⟩ | ⟨hd, hba⟩
    · have hE : rotUnit b b = Quat.one := by
        simp only [rotUnit]; rw [if_pos h, if_pos (by rw [hd]; norm_num)]
      rw [hE, hd]
      simp only [rotate_vec]
      refine ⟨by simp [Quat.Unit, Quat.one], ?_, by simp [Quat.one]; norm_num, fun _ _ _ hc => absurd h hc⟩
      ext i; fin_cases i <;> simp [Quat.one]
    · obtain ⟨ht1, ht2⟩ := flip_axis ha
      generalize hte : normalize (if crossProduct a ![1, 0, 0] = 0 then crossProduct a ![0, 1, 0]
        else crossProduct a ![1, 0, 0]) = t at ht1 ht2
      have hE : rotUnit a b = ⟨t 0, t 1, t 2, 0⟩ := by
        simp only [rotUnit]; rw [if_pos h, if_neg (by rw [hd]; norm_num), hte]
      rw [hE, hd]
      simp only [rotate_vec]
      rw [dot3] at ht1 ht2
      refine ⟨?_, ?_, by norm_num, fun _ _ _ hc => absurd h hc⟩
      · simp only [Quat.Unit]; linarith
      · rw [hba]
        ext i; fin_cases i <;> simp
        · linear_combination (-2 * a 0) * ht1 + 2 * t 0 * ht2
        · linear_combination (-2 * a 1) * ht1 + 2 * t 1 * ht2
        · linear_combination (-2 * a 2) * ht1 + 2 * t 2 * ht2
  · obtain ⟨k, w, hE, hkw, hkd, hww, -, -⟩ := general_case ha hb h
    rw [hE]
    simp only [rotate_vec]
    rw [dot3] at ha hb hkd hww
    simp only [cross_apply, Matrix.cons_val_zero, Matrix.cons_val_one, Matrix.cons_val]
    refine ⟨?_, ?_, ?_, ?_⟩
    · simp only [Quat.Unit]
      generalize a 0 = x at *
      generalize a 1 = y at *
      generalize a 2 = z at *
      generalize b 0 = p at *
      generalize b 1 = q at *
      generalize b 2 = r at *
      have hc : (y * r - z * q) ^ 2 + (z * p - x * r) ^ 2 + (x * q - y * p) ^ 2 =
          1 - (x * p + y * q + z * r) ^ 2 := by
        linear_combination (p * p + q * q + r * r) * ha + hb
      linear_combination (k * k) * hc + hww + (1 - (x * p + y * q + z * r)) / 2 * hkd
    · ext i
      generalize hx : a 0 = x at *
      generalize hy : a 1 = y at *
      generalize hz : a 2 = z at *
      generalize hp : b 0 = p at *
      generalize hq : b 1 = q at *
      generalize hr : b 2 = r at *
      have hc : (y * r - z * q) ^ 2 + (z * p - x * r) ^ 2 + (x * q - y * p) ^ 2 =
          1 - (x * p + y * q + z * r) ^ 2 := by
        linear_combination (p * p + q * q + r * r) * ha + hb
      fin_cases i <;> simp [*]
      · linear_combination (p - x * (x * p + y * q + z * r)) * hkw - 2 * k * k * x * hc -
          x * (1 - (x * p + y * q + z * r)) * hkd + 2 * k * w * p * ha
      · linear_combination (q - y * (x * p + y * q + z * r)) * hkw - 2 * k * k * y * hc -
          y * (1 - (x * p + y * q + z * r)) * hkd + 2 * k * w * q * ha
      · linear_combination (r - z * (x * p + y * q + z * r)) * hkw - 2 * k * k * z * hc -
          z * (1 - (x * p + y * q + z * r)) * hkd + 2 * k * w * r * ha
    · rw [dot3]; linear_combination 4 * hww
    · intro v hva hvb _
      rw [dot3] at hva hvb
      ext i
      generalize hx : a 0 = x at *
      generalize hy : a 1 = y at *
      generalize hz : a 2 = z at *
      generalize hp : b 0 = p at *
      generalize hq : b 1 = q at *
      generalize hr : b 2 = r at *
      have c0 : (z * p - x * r) * v 2 - (x * q - y * p) * v 1 = 0 := by linear_combination p * hva - x * hvb
      have c1 : (x * q - y * p) * v 0 - (y * r - z * q) * v 2 = 0 := by linear_combination q * hva - y * hvb
      have c2 : (y * r - z * q) * v 1 - (z * p - x * r) * v 0 = 0 := by linear_combination r * hva - z * hvb
      fin_cases i <;> simp
      · linear_combination 2 * k * w * c0 + 2 * k ^ 2 * ((z * p - x * r) * c2 - (x * q - y * p) * c1)
      · linear_combination 2 * k * w * c1 + 2 * k ^ 2 * ((x * q - y * p) * c0 - (y * r - z * q) * c2)
      · linear_combination 2 * k * w * c2 + 2 * k ^ 2 * ((y * r - z * q) * c1 - (z * p - x * r) * c0)

theorem nrm_neg (a : V3) : nrm (-a) = nrm a := by simp [nrm]

theorem normalize_neg (a : V3) : normalize (-a) = - normalize a := by
  simp only [normalize, nrm_neg, neg_dotProduct_neg]
  split <;> simp

/-- The quaternion of the rotation back is the conjugate. -/
theorem rotUnit_conj {a b : V3} (ha : a ⬝ᵥ a = 1) (hb : b ⬝ᵥ b = 1) :
    rotUnit b a = getConjugated (rotUnit a b) := by
  have hcr : crossProduct b a = - crossProduct a b := (cross_anticomm a b).symm
  have hdc : b ⬝ᵥ a = a ⬝ᵥ b := dotProduct_comm b a
  by_cases h : crossProduct a b = 0
  · have h' : crossProduct b a = 0 := by rw [hcr, h, neg_zero]
    rcases parallel_cases ha hb h with ⟨hd, hba⟩ | ⟨hd, hba⟩
    · have e1 : rotUnit a b = Quat.one := by
        simp only [rotUnit]; rw [if_pos h, if_pos (by rw [hd]; norm_num)]
      have e2 : rotUnit b a = Quat.one := by
        simp only [rotUnit]; rw [if_pos h', hdc, if_pos (by rw [hd]; norm_num)]
      rw [e1, e2]
      simp [Quat.one, getConjugated]
    · have hnp : ¬ a ⬝ᵥ b > 0 := by rw [hd]; norm_num
      simp only [rotUnit, if_pos h, if_pos h', hdc, if_neg hnp]
      rw [hba]
      have hn : ∀ u : V3, crossProduct (-a) u = - crossProduct a u := by intro u; simp
      rw [hn, hn]
      simp only [neg_eq_zero]
      split <;> rw [normalize_neg] <;> simp [getConjugated]
  · have h' : ¬ crossProduct b a = 0 := by rw [hcr, neg_eq_zero]; exact h
    simp only [rotUnit, if_neg h, if_neg h', hdc]
    rw [hcr, normalize_neg]
    simp [getConjugated]

/-- The rotation back is the inverse. -/
theorem rotUnit_back {a b : V3} (ha : a ⬝ᵥ a = 1) (hb : b ⬝ᵥ b = 1) :
    toRotationMatrix (rotUnit b a) = (toRotationMatrix (rotUnit a b))ᵀ := by
  rw [rotUnit_conj ha hb, toRotationMatrix_conj]

end Simox.Rot
