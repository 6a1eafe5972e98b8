import Verif.Mth.CurveProps

/-!
# Interpolated orientations: properties
-/

namespace Simox.Mth

open Matrix Jac Rot

theorem qaa_rotation {u : V3} (hu : u 0 * u 0 + u 1 * u 1 + u 2 * u 2 = 1) (a : ℝ) :
    toRotationMatrix (quatOfAngleAxis a u) = axisAngle u a := by
  rw [quatOfAngleAxis, axisAngle_quat, hu]; simp

theorem qaa_unit {u : V3} (hu : u 0 * u 0 + u 1 * u 1 + u 2 * u 2 = 1) (a : ℝ) : (quatOfAngleAxis a u).Unit :=
  axisAngle_quat_unit hu a

theorem qaa_mul {u : V3} (hu : u 0 * u 0 + u 1 * u 1 + u 2 * u 2 = 1) (a b : ℝ) :
    multiplyQuaternions (quatOfAngleAxis a u) (quatOfAngleAxis b u) = quatOfAngleAxis (a + b) u := by
  have h : (a + b) / 2 = a / 2 + b / 2 := by ring
  simp only [quatOfAngleAxis, h, Real.sin_add, Real.cos_add]
  apply Quat.ext
  · simp only [multiplyQuaternions]; ring
  · simp only [multiplyQuaternions]; ring
  · simp only [multiplyQuaternions]; ring
  · simp only [multiplyQuaternions]
    linear_combination (-Real.sin (a / 2) * Real.sin (b / 2)) * hu

theorem qaa_zero (u : V3) (q : Quat) : multiplyQuaternions (quatOfAngleAxis 0 u) q = q := by
  apply Quat.ext <;> simp [multiplyQuaternions, quatOfAngleAxis]

/-- Turns about the same axis add up. -/
theorem axisAngle_add {u : V3} (hu : u 0 * u 0 + u 1 * u 1 + u 2 * u 2 = 1) (a b : ℝ) :
    axisAngle u a * axisAngle u b = axisAngle u (a + b) := by
  rw [← qaa_rotation hu, ← qaa_rotation hu, ← qaa_rotation hu, ← toRotationMatrix_mul (qaa_unit hu a) (qaa_unit hu b),
    qaa_mul hu]

theorem modPI_of_mem {a : ℝ} (h0 : 0 ≤ a) (h1 : a ≤ Real.pi) : (helpersAngleModPI 1 a).getD 0 = a := by
  have hpi := Real.pi_pos
  simp only [helpersAngleModPI, shiftAngle, addTurns]
  rw [if_neg (by linarith)]
  simp only [Option.bind_some, subTurns]
  rw [if_neg (by linarith)]
  simp

theorem unit_mul {p q : Quat} (hp : p.Unit) (hq : q.Unit) : (multiplyQuaternions p q).Unit := by
  have h1 : p.x ^ 2 + p.y ^ 2 + p.z ^ 2 + p.w ^ 2 = 1 := hp
  have h2 : q.x ^ 2 + q.y ^ 2 + q.z ^ 2 + q.w ^ 2 = 1 := hq
  change (multiplyQuaternions p q).x ^ 2 + (multiplyQuaternions p q).y ^ 2 + (multiplyQuaternions p q).z ^ 2 +
    (multiplyQuaternions p q).w ^ 2 = 1
  simp only [multiplyQuaternions]
  linear_combination h1 * (q.x ^ 2 + q.y ^ 2 + q.z ^ 2 + q.w ^ 2) + h2

theorem conj_unit {q : Quat} (hq : q.Unit) : (getConjugated q).Unit := by
  have h2 : q.x ^ 2 + q.y ^ 2 + q.z ^ 2 + q.w ^ 2 = 1 := hq
  change (getConjugated q).x ^ 2 + (getConjugated q).y ^ 2 + (getConjugated q).z ^ 2 + (getConjugated q).w ^ 2 = 1
  simp only [getConjugated]
  linear_combination h2

/-- The fields of the constructed function. -/
theorem make_spec {s e : Quat} (hs : s.Unit) (he : e.Unit) (t0 t1 : ℝ) (c : Bool) :
    let o := LinOri.make s e t0 t1 c
    o.startOri = s ∧ o.startT = t0 ∧ o.endT = t1 ∧ o.clamp = c ∧
      o.axis 0 * o.axis 0 + o.axis 1 * o.axis 1 + o.axis 2 * o.axis 2 = 1 ∧ 0 ≤ o.angle ∧ o.angle ≤ Real.pi ∧
      axisAngle o.axis o.angle * toRotationMatrix s = toRotationMatrix e ∧
      o.derivative = if |o.angle| < 0.01 then 0 else (o.angle / (t1 - t0)) • o.axis := by
  intro o
  have hq : (multiplyQuaternions e (getInverse s)).Unit := by
    rw [inverse_of_unit hs]; exact unit_mul he (conj_unit hs)
  obtain ⟨h1, h2, h3, h4⟩ := angleAxis_spec hq
  have hang : o.angle = (angleAxisOfQuat (multiplyQuaternions e (getInverse s))).2 := modPI_of_mem h2 h3
  have hax : o.axis = (angleAxisOfQuat (multiplyQuaternions e (getInverse s))).1 := rfl
  refine ⟨rfl, rfl, rfl, rfl, hax ▸ h1, hang ▸ h2, hang ▸ h3, ?_, ?_⟩
  · rw [hang, hax, h4, inverse_of_unit hs, toRotationMatrix_mul he (conj_unit hs), toRotationMatrix_conj,
      Matrix.mul_assoc, so_transpose_mul (toRotationMatrix_mem hs), Matrix.mul_one]
  · have : o.derivative = (1 / (t1 - t0)) • (if |o.angle| < 0.01 then (0 : V3) else o.angle • o.axis) := rfl
    rw [this]
    by_cases h : |o.angle| < 0.01
    · rw [if_pos h, if_pos h, smul_zero]
    · rw [if_neg h, if_neg h, smul_smul]; congr 1; ring

/-- The turn between two orientations: an axis and an angle up to π that turn the first into the second. -/
def IsTurn (u : V3) (a : ℝ) (s e : Quat) : Prop :=
  u ⬝ᵥ u = 1 ∧ 0 ≤ a ∧ a ≤ Real.pi ∧ axisAngle u a * toRotationMatrix s = toRotationMatrix e

/-- The angle of that turn is determined by the two orientations. -/
theorem isTurn_angle {u v : V3} {a b : ℝ} {s e : Quat} (hs : s.Unit) (h1 : IsTurn u a s e) (h2 : IsTurn v b s e) :
    a = b := by
  have h := h1.2.2.2.trans h2.2.2.2.symm
  have h' := congrArg (· * (toRotationMatrix s)ᵀ) h
  simp only [Matrix.mul_assoc, so_mul_transpose (toRotationMatrix_mem hs), Matrix.mul_one] at h'
  have ht := trace_axisAngle h1.1 a
  rw [h', trace_axisAngle h2.1 b] at ht
  exact Real.injOn_cos ⟨h1.2.1, h1.2.2.1⟩ ⟨h2.2.1, h2.2.2.1⟩ (by linarith)

theorem get_eq {s e : Quat} {t0 t1 : ℝ} {c : Bool} {a : ℝ} (hang : (LinOri.make s e t0 t1 c).angle = a)
    (hd : ¬ (LinOri.make s e t0 t1 c).derivative ⬝ᵥ (LinOri.make s e t0 t1 c).derivative < 0.001) (t : ℝ) :
    (LinOri.make s e t0 t1 c).get t = multiplyQuaternions (quatOfAngleAxis
      ((if c then clampTo 0 1 (iLerp t0 t1 t) else iLerp t0 t1 t) * a) (LinOri.make s e t0 t1 c).axis) s := by
  rw [LinOri.get, if_neg hd, hang]
  rfl

/-- `LinearInterpolatedOrientation`, when the turn between the two unit quaternions is at least 0.01 and its rate
is at least √0.001: `Get` is the start orientation at the start time and the end orientation at the end time; in
between, and without clamping everywhere, it turns at a constant rate about a fixed axis, and `GetDerivative` is that
rate times the axis; with clamping it rests outside. -/
theorem C83_orientation_partial {s e : Quat} (hs : s.Unit) (he : e.Unit) {t0 t1 : ℝ} (ht : t0 < t1) (c : Bool)
    {v : V3} {a : ℝ} (hturn : IsTurn v a s e) (ha : 0.01 ≤ a) (hrate : 0.001 ≤ (a / (t1 - t0)) ^ 2) :
    let o := LinOri.make s e t0 t1 c
    o.get t0 = s ∧ toRotationMatrix (o.get t1) = toRotationMatrix e ∧
      (∃ u, IsTurn u a s e ∧
        (∀ t, (c = false ∨ t0 ≤ t ∧ t ≤ t1) → o.getDerivative t = (a / (t1 - t0)) • u ∧ (o.get t).Unit) ∧
        (∀ t t', (c = false ∨ t0 ≤ t ∧ t ≤ t1) → (c = false ∨ t0 ≤ t' ∧ t' ≤ t1) →
          toRotationMatrix (o.get t') = axisAngle u ((t' - t) * (a / (t1 - t0))) * toRotationMatrix (o.get t))) ∧
      (c = true → (∀ t ≤ t0, o.get t = s) ∧ (∀ t ≥ t1, toRotationMatrix (o.get t) = toRotationMatrix e) ∧
        ∀ t, (t < t0 ∨ t1 < t) → o.getDerivative t = 0) := by
  intro o
  have hd : 0 < t1 - t0 := by linarith
  obtain ⟨-, -, -, -, hu, h0, h1, hrot, hder⟩ := make_spec hs he t0 t1 c
  have hu' : o.axis ⬝ᵥ o.axis = 1 := by rw [dot3]; exact hu
  have hT : IsTurn o.axis o.angle s e := ⟨hu', h0, h1, hrot⟩
  have hang : o.angle = a := isTurn_angle hs hT hturn
  rw [hang] at hT
  have hder' : o.derivative = (a / (t1 - t0)) • o.axis := by
    have hder : o.derivative = if |o.angle| < 0.01 then 0 else (o.angle / (t1 - t0)) • o.axis := hder
    rw [hder, if_neg, hang]
    rw [hang, abs_of_nonneg (by linarith)]; linarith
  have hnd : ¬ o.derivative ⬝ᵥ o.derivative < 0.001 := by
    rw [hder', smul_dotProduct, dotProduct_smul, hu']
    simp only [smul_eq_mul, mul_one, not_lt]
    linarith [sq (a / (t1 - t0))]
  have hget := get_eq (c := c) hang hnd
  have hget : ∀ t, o.get t = multiplyQuaternions (quatOfAngleAxis
      ((if c then clampTo 0 1 (iLerp t0 t1 t) else iLerp t0 t1 t) * a) o.axis) s := hget
  have hin : ∀ t, (c = false ∨ t0 ≤ t ∧ t ≤ t1) → o.get t = multiplyQuaternions (quatOfAngleAxis
      ((t - t0) * (a / (t1 - t0))) o.axis) s := by
    intro t h
    rw [hget]
    have e1 : iLerp t0 t1 t * a = (t - t0) * (a / (t1 - t0)) := by simp only [iLerp]; ring
    rcases h with h | ⟨h2, h3⟩
    · rw [h]; simp only [Bool.false_eq_true, if_false]; rw [e1]
    · have : clampTo 0 1 (iLerp t0 t1 t) = iLerp t0 t1 t := by
        rw [clampTo, if_neg, if_neg]
        · simp only [iLerp, gt_iff_lt, not_lt]; rw [div_le_one hd]; linarith
        · simp only [iLerp, not_lt]; exact div_nonneg (by linarith) hd.le
      rw [this, ite_self, e1]
  have hR : ∀ t, (c = false ∨ t0 ≤ t ∧ t ≤ t1) → toRotationMatrix (o.get t) =
      axisAngle o.axis ((t - t0) * (a / (t1 - t0))) * toRotationMatrix s := by
    intro t h
    rw [hin t h, toRotationMatrix_mul (qaa_unit hu _) hs, qaa_rotation hu]
  have hstart : o.get t0 = s := by
    rw [hin t0 (Or.inr ⟨le_refl _, ht.le⟩), sub_self, zero_mul, qaa_zero]
  have hend : toRotationMatrix (o.get t1) = toRotationMatrix e := by
    rw [hR t1 (Or.inr ⟨ht.le, le_refl _⟩), mul_div_cancel₀ _ hd.ne']
    exact hT.2.2.2
  refine ⟨hstart, hend, ⟨o.axis, hT, ?_, ?_⟩, ?_⟩
  · intro t h
    refine ⟨?_, ?_⟩
    · rw [LinOri.getDerivative, if_neg, hder']
      rintro ⟨hc, h'⟩
      have hc : c = true := hc
      have h' : t < t0 ∨ t > t1 := h'
      rcases h with h | ⟨h2, h3⟩
      · rw [h] at hc; exact absurd hc (by decide)
      · rcases h' with h' | h' <;> linarith
    · rw [hin t h]; exact unit_mul (qaa_unit hu _) hs
  · intro t t' h h'
    rw [hR t h, hR t' h', ← Matrix.mul_assoc, axisAngle_add hu]
    congr 2; ring
  · intro hc
    refine ⟨?_, ?_, ?_⟩
    · intro t h
      have : clampTo 0 1 (iLerp t0 t1 t) = 0 := by
        rcases h.eq_or_lt with h | h
        · subst h; rw [clampTo]; simp [iLerp]
        · rw [clampTo, if_pos]; simp only [iLerp]; exact div_neg_of_neg_of_pos (by linarith) hd
      rw [hget, hc]
      simp only [if_true]
      rw [this, zero_mul, qaa_zero]
    · intro t h
      have : clampTo 0 1 (iLerp t0 t1 t) = 1 := by
        have h1 : 1 ≤ iLerp t0 t1 t := by simp only [iLerp]; rw [le_div_iff₀ hd]; linarith
        rw [clampTo, if_neg (by linarith)]
        split
        · rfl
        · rename_i h2; simp only [gt_iff_lt, not_lt] at h2; linarith
      rw [hget, hc]
      simp only [if_true]
      rw [this, one_mul, toRotationMatrix_mul (qaa_unit hu _) hs, qaa_rotation hu]
      exact hT.2.2.2
    · intro t h
      have : o.getDerivative t = if c = true ∧ (t < t0 ∨ t > t1) then 0 else o.derivative := rfl
      rw [this, if_pos ⟨hc, h⟩]

/-- Otherwise, when the angle is less than 0.01 or the rate less than √0.001, `Get` is the start orientation at all
times, the end time too. -/
theorem C83_orientation_slow {s e : Quat} (hs : s.Unit) (he : e.Unit) {t0 t1 : ℝ} (c : Bool)
    {v : V3} {a : ℝ} (hturn : IsTurn v a s e) (h : a < 0.01 ∨ (a / (t1 - t0)) ^ 2 < 0.001) (t : ℝ) :
    (LinOri.make s e t0 t1 c).get t = s := by
  obtain ⟨-, -, -, -, hu, h0, h1, hrot, hder⟩ := make_spec hs he t0 t1 c
  set o := LinOri.make s e t0 t1 c with ho
  have hu' : o.axis ⬝ᵥ o.axis = 1 := by rw [dot3]; exact hu
  have hang : o.angle = a := isTurn_angle hs ⟨hu', h0, h1, hrot⟩ hturn
  have : o.derivative ⬝ᵥ o.derivative < 0.001 := by
    rw [hder]
    by_cases hc : |o.angle| < 0.01
    · rw [if_pos hc]; simp; norm_num
    · rw [if_neg hc, smul_dotProduct, dotProduct_smul, hu', hang]
      simp only [smul_eq_mul, mul_one]
      rcases h with h | h
      · rw [hang, abs_of_nonneg (hang ▸ h0)] at hc; exact absurd h hc
      · linarith [sq (a / (t1 - t0))]
  rw [LinOri.get, if_pos this]
  rfl

/-- A half turn about z. -/
def halfTurn : Quat := ⟨0, 0, 1, 0⟩

theorem halfTurn_turn : IsTurn ![0, 0, 1] Real.pi Quat.one halfTurn := by
  refine ⟨by simp, Real.pi_pos.le, le_refl _, ?_⟩
  rw [← qaa_rotation (by simp), quatOfAngleAxis]
  simp [toRotationMatrix_eq, Quat.one, halfTurn]

/-- So the end orientation is not reached by a half turn in 100 seconds. -/
theorem C83_orientation_end_false :
    (LinOri.make Quat.one halfTurn 0 100 true).get 100 = Quat.one ∧
      toRotationMatrix Quat.one ≠ toRotationMatrix halfTurn := by
  refine ⟨C83_orientation_slow (by simp [Quat.Unit, Quat.one]) (by simp [Quat.Unit, halfTurn]) true halfTurn_turn (Or.inr ?_) _, ?_⟩
  · have := Real.pi_lt_four
    have h2 := Real.pi_pos
    rw [sub_zero, div_pow]
    rw [div_lt_iff₀ (by norm_num)]
    norm_num
    nlinarith [Real.pi_lt_d2]
  · intro h
    have := congrFun (congrFun h 0) 0
    simp [toRotationMatrix_eq, Quat.one, halfTurn] at this
    norm_num at this

/-- The hypotheses are met: a half turn in one second. -/
example : toRotationMatrix ((LinOri.make Quat.one halfTurn 0 1 true).get 1) = toRotationMatrix halfTurn := by
  have := Real.pi_gt_three
  refine (C83_orientation_partial (by simp [Quat.Unit, Quat.one]) (by simp [Quat.Unit, halfTurn]) one_pos true halfTurn_turn
    (by linarith) ?_).2.1
  rw [sub_zero, div_one]; nlinarith

end Simox.Mth
