import Verif.Gpl.ConeLemmas

/-!
# C108: the contacts of a grasp quality measure
-/

namespace Simox.Gpl

open Matrix Jac Rot

/-- **C108 (contacts of a hand).** After `setContactPoints` with the contacts an end effector reports, the
measure holds one contact for each of them, in the same order. Its position is the point on the object
relative to the centre of mass; its normal has unit length and points from the object to the finger (if the
two points differ); its force is the component of the approach direction along the line from the finger to
the object, and 0 if the points are closer than 1e-10. The copy in metres differs in the position only. -/
theorem C108_infos (com : V3) (infos : List ContactInfo) :
    let c := setInfos com infos
    c.contactPoints.length = infos.length ∧ c.contactPointsM.length = infos.length ∧
    ∀ (i : ℕ) (x : ContactInfo), infos[i]? = some x → ∃ a b, c.contactPoints[i]? = some a ∧
      c.contactPointsM[i]? = some b ∧
      a.p = x.contactPointObstacleLocal - com ∧
      (x.contactPointFingerLocal ≠ x.contactPointObstacleLocal → a.n ⬝ᵥ a.n = 1 ∧
        ∃ t : ℝ, 0 < t ∧ x.contactPointFingerLocal = x.contactPointObstacleLocal + t • a.n) ∧
      (let l := x.contactPointObstacleGlobal - x.contactPointFingerGlobal
       (Real.sqrt (l ⬝ᵥ l) > 1e-10 → a.force * Real.sqrt (l ⬝ᵥ l) = l ⬝ᵥ x.approachDirectionGlobal) ∧
       (Real.sqrt (l ⬝ᵥ l) ≤ 1e-10 → a.force = 0)) ∧
      (1000 : ℝ) • b.p = a.p ∧ b.n = a.n ∧ b.force = a.force := by
  refine ⟨by simp [setInfos], by simp [setInfos, convertMM2M], ?_⟩
  intro i x hx
  refine ⟨contactOfInfo com x, { contactOfInfo com x with p := (1 / 1000 : ℝ) • (contactOfInfo com x).p }, ?_, ?_,
    rfl, ?_, ⟨?_, ?_⟩, ?_, rfl, rfl⟩
  · simp [setInfos, hx]
  · simp [setInfos, convertMM2M, hx]
  · intro hne
    have hd : x.contactPointFingerLocal - x.contactPointObstacleLocal ≠ 0 := sub_ne_zero.2 hne
    refine ⟨normalize_unit hd, _, nrm_pos hd, ?_⟩
    change _ = _ + nrm _ • normalize _
    rw [smul_normalize hd]; abel
  · intro h
    change nrm _ > _ at h
    change (if nrm _ > 1e-10 then _ else _) * nrm _ = _
    rw [if_pos h, div_mul_cancel₀]
    have : (0 : ℝ) < 1e-10 := by norm_num
    exact (this.trans h).ne'
  · intro h
    change (if nrm _ > 1e-10 then _ else _) = (0 : ℝ)
    exact if_neg (not_lt.2 h)
  · ext j; simp

/-- Not vacuous: a finger 2 mm above the point (0,0,5) of an object with centre of mass (0,0,1). -/
example : ∃ x : ContactInfo, x.contactPointFingerLocal ≠ x.contactPointObstacleLocal ∧
    (contactOfInfo ![0, 0, 1] x).p = ![0, 0, 4] := by
  refine ⟨⟨![0, 0, 5], ![0, 0, 7], ![0, 0, 5], ![0, 0, 7], ![0, 0, -1]⟩, ?_, ?_⟩
  · intro h
    have : (7 : ℝ) = 5 := congrFun h 2
    norm_num at this
  · ext j; fin_cases j <;> simp [contactOfInfo]; norm_num

/-- **C108 (basic measure).** The basic quality is the share of five contacts that are there, at most 1; so it
lies between 0 and 1, never falls when contacts are added, and reaches 1 with five. The grasp is valid from
two contacts on. The centre of the contacts is the mean of the positions and of the normals. -/
theorem C108_basic (c : Contacts) :
    basicQuality c = min 1 ((c.contactPoints.length : ℝ) / 5) ∧
    (basicQuality c = 1 ↔ 5 ≤ c.contactPoints.length) ∧
    (∀ d : Contacts, c.contactPoints.length ≤ d.contactPoints.length → basicQuality c ≤ basicQuality d) ∧
    (basicValid c = true ↔ 2 ≤ c.contactPoints.length) ∧
    (c.contactPoints ≠ [] →
      (c.contactPoints.length : ℝ) • (center c.contactPoints).1 = (c.contactPoints.map (·.p)).sum ∧
      (c.contactPoints.length : ℝ) • (center c.contactPoints).2 = (c.contactPoints.map (·.n)).sum) := by
  have hq : ∀ c : Contacts, basicQuality c = min 1 ((c.contactPoints.length : ℝ) / 5) := by
    intro c
    simp only [basicQuality]
    by_cases h : (c.contactPoints.length : ℝ) / 5 > 1
    · rw [if_pos h, min_eq_left h.le]
    · rw [if_neg h, min_eq_right (not_lt.1 h)]
  refine ⟨hq c, ?_, ?_, by simp [basicValid], ?_⟩
  · rw [hq, min_eq_left_iff, le_div_iff₀ (by norm_num)]
    constructor
    · intro h; have : (5 : ℝ) ≤ c.contactPoints.length := by linarith
      exact_mod_cast this
    · intro h; have : (5 : ℝ) ≤ c.contactPoints.length := by exact_mod_cast h
      linarith
  · intro d h
    rw [hq, hq]
    apply min_le_min_left
    have : (c.contactPoints.length : ℝ) ≤ d.contactPoints.length := by exact_mod_cast h
    exact div_le_div_of_nonneg_right this (by norm_num)
  · intro h
    have hl : c.contactPoints.length ≠ 0 := by rwa [Ne, List.length_eq_zero_iff]
    have hr : (c.contactPoints.length : ℝ) ≠ 0 := by exact_mod_cast hl
    simp only [center, if_neg hl, smul_smul]
    rw [mul_one_div_cancel hr, one_smul, one_smul]
    exact ⟨rfl, rfl⟩

/-- **C108 (contact points, does not hold).** The overload of `setContactPoints` for a list of contact points
is documented to take these over. It takes none: whatever the points, the measure holds no contacts
afterwards, its quality is 0 and the grasp is not valid. -/
theorem C108_points_false :
    (∀ (com : V3) (points : List ContactPoint), (setPoints com points).contactPoints = [] ∧
      (setPoints com points).contactPointsM = [] ∧ basicQuality (setPoints com points) = 0 ∧
      basicValid (setPoints com points) = false) ∧
    ¬ ∀ (com : V3) (points : List ContactPoint), (setPoints com points).contactPoints.length = points.length := by
  refine ⟨fun com points => ⟨rfl, rfl, ?_, rfl⟩, ?_⟩
  · simp [basicQuality, setPoints]
  · intro h
    have := h 0 [⟨0, 0, 1⟩]
    simp [setPoints] at this

/-- **C108 (size).** `objectLength` is the longest of the three sides of the bounding box. -/
theorem C108_length (lo hi : V3) :
    (∀ i, hi i - lo i ≤ objectLengthOf lo hi) ∧ ∃ i, objectLengthOf lo hi = hi i - lo i := by
  simp only [objectLengthOf, Pi.sub_apply]
  constructor
  · intro i
    fin_cases i <;> simp <;> split_ifs <;> linarith
  · by_cases h1 : hi 1 - lo 1 > hi 0 - lo 0
    · rw [if_pos h1]
      by_cases h2 : hi 2 - lo 2 > hi 1 - lo 1
      · exact ⟨2, if_pos h2⟩
      · exact ⟨1, if_neg h2⟩
    · rw [if_neg h1]
      by_cases h2 : hi 2 - lo 2 > hi 0 - lo 0
      · exact ⟨2, if_pos h2⟩
      · exact ⟨0, if_neg h2⟩

end Simox.Gpl
