import Verif.Rot.Lemmas

/-!
# C74, C75: mean and interpolation of quaternions
-/

namespace Simox.Rot

open Matrix Jac

/-- Square of the length of a quaternion. -/
def Quat.sq (q : Quat) : ℝ := q.x ^ 2 + q.y ^ 2 + q.z ^ 2 + q.w ^ 2

/-- The quaternion multiplied with a number. -/
def Quat.scale (k : ℝ) (q : Quat) : Quat := ⟨k * q.x, k * q.y, k * q.z, k * q.w⟩

/-- Sum of quaternions, each with its own factor. -/
def weightedSum : List (ℝ × Quat) → Quat
  | [] => ⟨0, 0, 0, 0⟩
  | (k, q) :: rest =>
    let s := weightedSum rest
    ⟨k * q.x + s.x, k * q.y + s.y, k * q.z + s.z, k * q.w + s.w⟩

theorem sq_meanStep (res : Quat) {q : Quat} (hq : q.Unit) : res.sq + 1 ≤ (meanStep res q).sq := by
  have hq : q.x ^ 2 + q.y ^ 2 + q.z ^ 2 + q.w ^ 2 = 1 := hq
  simp only [meanStep]
  split
  · next h =>
    simp only [getDot] at h
    simp only [Quat.sq]
    nlinarith
  · next h =>
    simp only [getDot] at h
    simp only [Quat.sq]
    nlinarith

theorem sq_fold (qs : List Quat) (h : ∀ q ∈ qs, q.Unit) (res : Quat) :
    res.sq + qs.length ≤ (qs.foldl meanStep res).sq := by
  induction qs generalizing res with
  | nil => simp
  | cons q qs ih =>
    have h1 := sq_meanStep res (h q (by simp))
    have h2 := ih (fun x hx => h x (by simp [hx])) (meanStep res q)
    simp only [List.foldl_cons, List.length_cons]
    push_cast
    linarith

theorem fold_sum (qs : List Quat) (res : Quat) :
    ∃ ks : List ℝ, ks.length = qs.length ∧ (∀ k ∈ ks, k = 1 ∨ k = -1) ∧
      qs.foldl meanStep res = ⟨res.x + (weightedSum (ks.zip qs)).x, res.y + (weightedSum (ks.zip qs)).y,
        res.z + (weightedSum (ks.zip qs)).z, res.w + (weightedSum (ks.zip qs)).w⟩ := by
  induction qs generalizing res with
  | nil => exact ⟨[], rfl, by simp, by simp [weightedSum]⟩
  | cons q qs ih =>
    obtain ⟨ks, hl, hk, he⟩ := ih (meanStep res q)
    by_cases h : getDot res q > 0
    · refine ⟨1 :: ks, by simp [hl], ?_, ?_⟩
      · intro k hk'
        rcases List.mem_cons.1 hk' with rfl | hk'
        · exact Or.inl rfl
        · exact hk k hk'
      · rw [List.foldl_cons, he]
        simp only [meanStep, if_pos h, List.zip_cons_cons, weightedSum]
        ext <;> simp only [] <;> ring
    · refine ⟨-1 :: ks, by simp [hl], ?_, ?_⟩
      · intro k hk'
        rcases List.mem_cons.1 hk' with rfl | hk'
        · exact Or.inr rfl
        · exact hk k hk'
      · rw [List.foldl_cons, he]
        simp only [meanStep, if_neg h, List.zip_cons_cons, weightedSum]
        ext <;> simp only [] <;> ring

theorem getMean_eq {q0 : Quat} {qs : List Quat} (h : ∀ q ∈ q0 :: qs, q.Unit) :
    let s := (q0 :: qs).foldl meanStep ⟨0, 0, 0, 0⟩
    0 < Real.sqrt s.sq ∧ getMean (q0 :: qs) = s.scale (1 / Real.sqrt s.sq) := by
  intro s
  have h1 := sq_fold (q0 :: qs) h ⟨0, 0, 0, 0⟩
  have h0 : (⟨0, 0, 0, 0⟩ : Quat).sq = 0 := by simp [Quat.sq]
  have h2 : 1 ≤ s.sq := by
    have h3 : (1 : ℝ) ≤ ((q0 :: qs).length : ℝ) := by simp
    rw [h0] at h1
    linarith
  have h3 : 1 ≤ Real.sqrt s.sq := by
    rw [show (1 : ℝ) = Real.sqrt 1 by simp]
    exact Real.sqrt_le_sqrt h2
  refine ⟨by linarith, ?_⟩
  have he : Real.sqrt (s.x * s.x + s.y * s.y + s.z * s.z + s.w * s.w) = Real.sqrt s.sq := by
    congr 1; simp only [Quat.sq]; ring
  have hm : getMean (q0 :: qs) = if Real.sqrt (s.x * s.x + s.y * s.y + s.z * s.z + s.w * s.w) > 0.0001 then
      ⟨s.x / Real.sqrt (s.x * s.x + s.y * s.y + s.z * s.z + s.w * s.w),
       s.y / Real.sqrt (s.x * s.x + s.y * s.y + s.z * s.z + s.w * s.w),
       s.z / Real.sqrt (s.x * s.x + s.y * s.y + s.z * s.z + s.w * s.w),
       s.w / Real.sqrt (s.x * s.x + s.y * s.y + s.z * s.z + s.w * s.w)⟩ else q0 := rfl
  rw [hm, he, if_pos (by norm_num; linarith)]
  ext <;> simp only [Quat.scale] <;> ring

/-- **C74 (mean).** The mean of no quaternions is the identity. The mean of unit quaternions is a unit
quaternion: their sum, each with a sign of its own, divided by its length, which is at least the square
root of their number. If all of them stand for the same rotation, so does the mean. -/
theorem C74_mean (qs : List Quat) (h : ∀ q ∈ qs, q.Unit) :
    (qs = [] → getMean qs = ⟨0, 0, 0, 1⟩) ∧ (getMean qs).Unit ∧
    (qs ≠ [] → ∃ ks : List ℝ, ks.length = qs.length ∧ (∀ k ∈ ks, k = 1 ∨ k = -1) ∧
      (qs.length : ℝ) ≤ (weightedSum (ks.zip qs)).sq ∧
      getMean qs = (weightedSum (ks.zip qs)).scale (1 / Real.sqrt (weightedSum (ks.zip qs)).sq)) ∧
    (∀ r : Quat, qs ≠ [] → (∀ q ∈ qs, q = r ∨ q = r.neg) → getMean qs = r ∨ getMean qs = r.neg) := by
  cases qs with
  | nil =>
    refine ⟨fun _ => rfl, by simp [getMean, Quat.Unit, Quat.one], fun h => absurd rfl h, fun _ h => absurd rfl h⟩
  | cons q0 qs =>
    obtain ⟨hpos, hm⟩ := getMean_eq h
    have hsq : Real.sqrt ((q0 :: qs).foldl meanStep ⟨0, 0, 0, 0⟩).sq ^ 2 =
        ((q0 :: qs).foldl meanStep ⟨0, 0, 0, 0⟩).sq :=
      Real.sq_sqrt (by simp only [Quat.sq]; positivity)
    refine ⟨fun h => by simp at h, ?_, ?_, ?_⟩
    · rw [hm]
      have hne := hpos.ne'
      generalize hs : (q0 :: qs).foldl meanStep ⟨0, 0, 0, 0⟩ = s at *
      simp only [Quat.Unit, Quat.scale]
      have : (1 / Real.sqrt s.sq * s.x) ^ 2 + (1 / Real.sqrt s.sq * s.y) ^ 2 + (1 / Real.sqrt s.sq * s.z) ^ 2 +
          (1 / Real.sqrt s.sq * s.w) ^ 2 = s.sq / (Real.sqrt s.sq ^ 2) := by
        simp only [Quat.sq]; ring
      rw [this, hsq]
      rw [← hsq]
      exact div_self (pow_ne_zero 2 hne)
    · intro _
      obtain ⟨ks, hl, hk, he⟩ := fold_sum (q0 :: qs) ⟨0, 0, 0, 0⟩
      simp only [zero_add] at he
      have he : (q0 :: qs).foldl meanStep ⟨0, 0, 0, 0⟩ = weightedSum (ks.zip (q0 :: qs)) := he
      refine ⟨ks, hl, hk, ?_, ?_⟩
      · have := sq_fold (q0 :: qs) h ⟨0, 0, 0, 0⟩
        rw [he] at this
        simpa [Quat.sq] using this
      · rw [hm, he]
    · intro r _ hr
      have hru : r.x ^ 2 + r.y ^ 2 + r.z ^ 2 + r.w ^ 2 = 1 := by
        have h0 := h q0 (by simp)
        have h0 : q0.x ^ 2 + q0.y ^ 2 + q0.z ^ 2 + q0.w ^ 2 = 1 := h0
        rcases hr q0 (by simp) with e | e <;> rw [e] at h0
        · exact h0
        · simp only [Quat.neg] at h0; linarith
      have hfold : ∀ (l : List Quat) (c : ℝ), (∀ q ∈ l, q = r ∨ q = r.neg) →
          ∃ d : ℝ, l.foldl meanStep (r.scale c) = r.scale d := by
        intro l
        induction l with
        | nil => intro c _; exact ⟨c, rfl⟩
        | cons q l ih =>
          intro c hl
          have : ∃ e, meanStep (r.scale c) q = r.scale e := by
            rcases hl q (by simp) with e | e <;> rw [e] <;> simp only [meanStep] <;> split
            · exact ⟨c + 1, by ext <;> simp only [Quat.scale] <;> ring⟩
            · exact ⟨c - 1, by ext <;> simp only [Quat.scale] <;> ring⟩
            · exact ⟨c - 1, by ext <;> simp only [Quat.scale, Quat.neg] <;> ring⟩
            · exact ⟨c + 1, by ext <;> simp only [Quat.scale, Quat.neg] <;> ring⟩
          obtain ⟨e, he⟩ := this
          obtain ⟨d, hd⟩ := ih e (fun x hx => hl x (by simp [hx]))
          exact ⟨d, by rw [List.foldl_cons, he, hd]⟩
      obtain ⟨d, hd⟩ := hfold (q0 :: qs) 0 hr
      have hz : r.scale 0 = ⟨0, 0, 0, 0⟩ := by simp [Quat.scale]
      rw [hz] at hd
      have hds : (r.scale d).sq = d ^ 2 := by
        simp only [Quat.sq, Quat.scale]; linear_combination d ^ 2 * hru
      rw [hm, hd, hds, Real.sqrt_sq_eq_abs]
      rw [hd, hds, Real.sqrt_sq_eq_abs] at hpos
      rcases lt_or_gt_of_ne (abs_pos.1 hpos) with hneg | hp
      · right
        have hne := hneg.ne
        rw [abs_of_neg hneg]
        ext <;> simp only [Quat.scale, Quat.neg] <;> field_simp
      · left
        rw [abs_of_pos hp]
        ext <;> simp only [Quat.scale] <;> field_simp

/-- **C75 (interpolation, partial).** `slerp` throws exactly for a parameter outside [0,1]. For
quaternions whose first three components are equal (rotations about the space diagonal) it begins with
the first quaternion and ends with the second or its negative. Missing: the same for all unit
quaternions, which is false (`C75_slerp_false`): the components y and z of the result are taken from the
wrong places. -/
theorem C75_slerp_partial (eps : ℝ) (he0 : 0 < eps) (p q : Quat) (hq : q.y = q.x ∧ q.z = q.x)
    (hp : p.y = p.x ∧ p.z = p.x) (t : ℝ) :
    (slerp eps p q t = none ↔ t ∉ Set.Icc (0 : ℝ) 1) ∧
    slerp eps p q 0 = some p ∧ (slerp eps p q 1 = some q ∨ slerp eps p q 1 = some q.neg) := by
  have hs : ¬ |getDot p q| ≥ 1 - eps → Real.sin (Real.arccos |getDot p q|) ≠ 0 := by
    intro h
    rw [ge_iff_le, not_le] at h
    have h0 := abs_nonneg (getDot p q)
    have h1 : |getDot p q| < 1 := by linarith
    apply ne_of_gt
    apply Real.sin_pos_of_pos_of_lt_pi
    · exact Real.arccos_pos.2 h1
    · have := Real.arccos_le_pi_div_two.2 h0
      linarith [Real.pi_pos]
  have e0 : eigenSlerp eps p q 0 = p := by
    simp only [eigenSlerp]
    by_cases h : |getDot p q| ≥ 1 - eps
    · simp [h]
    · have := hs h
      simp only [if_neg h]
      ext <;> simp [this]
  have e1 : eigenSlerp eps p q 1 = q ∨ eigenSlerp eps p q 1 = q.neg := by
    simp only [eigenSlerp]
    by_cases h : |getDot p q| ≥ 1 - eps
    · by_cases hd : getDot p q < 0
      · right; simp [h, hd, Quat.neg]
      · left; simp [h, hd]
    · have := hs h
      by_cases hd : getDot p q < 0
      · right; simp only [if_neg h, if_pos hd]; ext <;> simp [this, Quat.neg]
      · left; simp only [if_neg h, if_neg hd]; ext <;> simp [this]
  refine ⟨?_, ?_, ?_⟩
  · simp only [slerp]
    constructor
    · intro h
      by_contra hc
      rw [if_neg (by rw [not_or, not_lt, not_lt]; exact hc)] at h
      simp at h
    · intro h
      rw [if_pos]
      by_contra hc
      rw [not_or, not_lt, not_lt] at hc
      exact h hc
  · simp only [slerp]
    rw [if_neg (by norm_num), e0]
    congr 1
    ext
    · rfl
    · simp only []; rw [hp.1, hp.2]
    · simp only []; rw [hp.2]
    · rfl
  · simp only [slerp]
    rw [if_neg (by norm_num)]
    rcases e1 with e1 | e1
    · left; rw [e1]; congr 1
      ext
      · rfl
      · simp only []; rw [hq.1, hq.2]
      · simp only []; rw [hq.2]
      · rfl
    · right; rw [e1]; congr 1
      ext
      · rfl
      · simp only [Quat.neg]; rw [hq.1, hq.2]
      · simp only [Quat.neg]; rw [hq.2]
      · rfl

/-- **C75 (interpolation is wrong).** Interpolating between a half turn about the y axis and itself gives
the zero quaternion, whatever the parameter. -/
theorem C75_slerp_false (eps : ℝ) :
    ∃ q : Quat, q.Unit ∧ ∀ t ∈ Set.Icc (0 : ℝ) 1, slerp eps q q t = some ⟨0, 0, 0, 0⟩ := by
  refine ⟨⟨0, 1, 0, 0⟩, by simp [Quat.Unit], ?_⟩
  intro t ht
  simp only [slerp, eigenSlerp]
  rw [if_neg (by rw [not_or, not_lt, not_lt]; exact ht)]
  simp

/-- Not vacuous. -/
example : ∀ q ∈ [(⟨0.6, 0, 0, 0.8⟩ : Quat), ⟨0, 0, 0, -1⟩], q.Unit := by
  intro q hq
  simp at hq
  rcases hq with rfl | rfl <;> simp [Quat.Unit] <;> norm_num

/-- Not vacuous: a turn about the space diagonal. -/
example : (⟨0.5, 0.5, 0.5, 0.5⟩ : Quat).Unit ∧ (⟨0.5, 0.5, 0.5, 0.5⟩ : Quat).y = (⟨0.5, 0.5, 0.5, 0.5⟩ : Quat).x := by
  simp [Quat.Unit]; norm_num

end Simox.Rot
