import Verif.Gpl.HullLemmas

/-!
# C110: wrenches and force closure
-/

namespace Simox.Gpl

open Matrix Jac Rot Spec

/-- **C110 (wrenches).** `createWrenchPoints` gives one wrench for each contact point, in order: the normal as
force and, as torque, the cross product of the position relative to the centre with the opposite normal,
divided by half the length of the object in metres. This is the physical wrench of the opposite normal with
the force reflected. `crossProductPosNormalInv` computes the same cross product. -/
theorem C110_wrenches (points : List ContactPoint) (com : V3) (l : ℝ) (hl : 0 < l) :
    (createWrenchPoints points com l).length = points.length ∧
    ∀ (i : ℕ) (c : ContactPoint), points[i]? = some c → ∃ w, (createWrenchPoints points com l)[i]? = some w ∧
      w.1 = c.n ∧ (-w.1, w.2) = wrenchAt (1 / (l / 1000 / 2)) (c.p - com) (-c.n) ∧
      (com = 0 → w.2 = (1 / (l / 1000 / 2)) • crossProductPosNormalInv c) := by
  refine ⟨by simp [createWrenchPoints], ?_⟩
  intro i c hc
  have hf : torqueFactor l = 1 / (l / 1000 / 2) := by
    rw [torqueFactor, if_pos hl.ne']
    field_simp
  refine ⟨wrenchOf com (torqueFactor l) c, by simp [createWrenchPoints, hc], rfl, ?_, ?_⟩
  · simp [wrenchOf, wrenchAt, hf]
  · rintro rfl
    rw [← hf]
    simp only [wrenchOf, sub_zero]
    congr 1

/-- The points handed to qhull for the contacts of a measure. -/
noncomputable def pointsOf (cfg : Cfg) (infos : List ContactInfo) : List Wrench :=
  createWrenchPoints (conesOf cfg.cone (setInfos cfg.centerOfModel infos).contactPointsM) 0 cfg.objectLength

theorem answer_eq (cfg : Cfg) (s : St) (infos : List ContactInfo) (hne : infos ≠ []) :
    ((s.setInfos cfg infos).isGraspForceClosure cfg).2 =
      originInHull (createConvexHull cfg.qhull (pointsOf cfg infos)) := by
  have he : (setInfos cfg.centerOfModel infos).contactPointsM.isEmpty = false := by
    cases infos with
    | nil => exact absurd rfl hne
    | cons _ _ => rfl
  simp only [St.isGraspForceClosure, St.needGWS, St.setInfos, St.calculateGWS, he, Bool.false_eq_true, if_false,
    calculateConvexHull, pointsOf]

/-- **C110 (force closure).** Let the hand have contacts, let there be at least four sampled forces in all, and
let qhull answer rightly.

If the wrenches that the sampled contact forces exert on the object have a convex combination that is zero,
then the grasp is reported to be force closed.

If it is reported to be force closed, then the wrenches have a convex combination that is nearly zero: if
the hull contains a ball of radius `ρ` around `w`, one of size at most `‖w‖ · 1e-4/(ρ + 1e-4)` (torques
divided by half the length of the object). -/
theorem C110_closure (cfg : Cfg) (hq : Exact cfg.qhull) (s : St) (infos : List ContactInfo) (hne : infos ≠ [])
    (h4 : 4 ≤ (pointsOf cfg infos).length) (r : QResult) (hr : cfg.qhull (pointsOf cfg infos) = some r) :
    let contacts := (setInfos cfg.centerOfModel infos).contactPointsM
    let answer := ((s.setInfos cfg infos).isGraspForceClosure cfg).2
    let k := torqueFactor cfg.objectLength
    ((0 : Wrench) ∈ convexHull ℝ (graspWrenches 1 (dirs cfg.cone) contacts) → answer = true) ∧
    (answer = true → ∀ (w : Wrench) (ρ : ℝ), 0 < ρ →
      BallIn w ρ (convexHull ℝ (graspWrenches k (dirs cfg.cone) contacts)) →
      ∃ x ∈ convexHull ℝ (graspWrenches k (dirs cfg.cone) contacts),
        dot6 x x ≤ (1e-4 / (ρ + 1e-4)) ^ 2 * dot6 w w) := by
  intro contacts answer k
  have hh := hq _ _ hr
  have ha : answer = originInHull (hullOf r) := by
    rw [← createConvexHull_some h4 hr]; exact answer_eq cfg s infos hne
  have hset : { w | w ∈ pointsOf cfg infos } = flip '' graspWrenches k (dirs cfg.cone) contacts :=
    wrench_set cfg.cone contacts cfg.objectLength
  constructor
  · intro h0
    rw [ha, originInHull_hullOf]
    have h1 : (0 : Wrench) ∈ convexHull ℝ { w | w ∈ pointsOf cfg infos } := by
      rw [hset, flip_hull, map_zero, scale_wrenches]
      exact zero_scale _ h0
    intro f hf
    have := (hh.hull 0).1 h1 f hf
    rw [dot6_zero, zero_add] at this
    exact this.trans (by norm_num)
  · intro hans w ρ hρ hball
    rw [ha, originInHull_hullOf] at hans
    have hb : BallIn (flip w) ρ (convexHull ℝ { w | w ∈ pointsOf cfg infos }) := by
      intro x hx
      rw [hset, flip_hull]
      apply hball
      rw [← flip_dot, map_sub, flip_flip]
      exact hx
    rw [ball_iff hh _ hρ.le] at hb
    have he : (0 : ℝ) < 1e-4 := by norm_num
    set t : ℝ := 1e-4 / (ρ + 1e-4) with ht
    have hs : 0 < ρ + 1e-4 := by positivity
    have ht0 : 0 ≤ t := by positivity
    have ht1 : (1 - t) * (ρ + 1e-4) = ρ := by rw [ht]; field_simp; ring
    have htm : t * (ρ + 1e-4) = 1e-4 := by rw [ht]; field_simp
    refine ⟨t • w, ?_, ?_⟩
    · have : t • flip w ∈ convexHull ℝ { w | w ∈ pointsOf cfg infos } := by
        rw [hh.hull]
        intro f hf
        have h1 := hb f hf
        have h2 := hans f hf
        rw [dist] at h1
        rw [dot6_smul]
        have e1 : t * (dot6 (flip w) f.normal + f.offset) ≤ t * (-ρ) := mul_le_mul_of_nonneg_left (by linarith) ht0
        have h1t : 0 ≤ 1 - t := by
          by_contra hneg
          push Not at hneg
          nlinarith
        have e2 : (1 - t) * f.offset ≤ (1 - t) * 1e-4 := mul_le_mul_of_nonneg_left h2 h1t
        nlinarith
      rw [hset, flip_hull, map_smul, flip_flip] at this
      exact this
    · rw [dot6_smul, dot6_comm, dot6_smul]
      apply le_of_eq; ring

/-- **C110 (no hull, does not hold).** A grasp is also reported to be force closed if no hull could be
computed: if there are fewer than four sampled forces, or if qhull fails. In particular every grasp with a
single contact is, for cones of one to three samples and any answers of qhull; yet no convex combination of
its wrenches is zero. -/
theorem C110_nohull_false :
    (∀ (cfg : Cfg) (s : St) (infos : List ContactInfo), infos ≠ [] →
      ((pointsOf cfg infos).length < 4 ∨ cfg.qhull (pointsOf cfg infos) = none) →
      ((s.setInfos cfg infos).isGraspForceClosure cfg).2 = true) ∧
    (∀ (cfg : Cfg) (s : St) (k : ℕ) (μ u : ℝ) (x : ContactInfo), 1 ≤ k → k ≤ 3 → 0 < u →
      cfg.cone = ConeGen.new k μ u → (contactOfInfo cfg.centerOfModel x).n ≠ 0 →
      0 < (contactOfInfo cfg.centerOfModel x).force →
      ((s.setInfos cfg [x]).isGraspForceClosure cfg).2 = true ∧
      (0 : Wrench) ∉ convexHull ℝ (graspWrenches 1 (dirs cfg.cone) (setInfos cfg.centerOfModel [x]).contactPointsM)) := by
  have h1 : ∀ (cfg : Cfg) (s : St) (infos : List ContactInfo), infos ≠ [] →
      ((pointsOf cfg infos).length < 4 ∨ cfg.qhull (pointsOf cfg infos) = none) →
      ((s.setInfos cfg infos).isGraspForceClosure cfg).2 = true := by
    intro cfg s infos hne h
    rw [answer_eq cfg s infos hne]
    have : createConvexHull cfg.qhull (pointsOf cfg infos) = emptyHull := by
      by_cases h4 : (pointsOf cfg infos).length < 4
      · simp only [createConvexHull, if_pos h4]
      · simp only [createConvexHull, if_neg h4, h.resolve_left h4]
    rw [this]
    rfl
  refine ⟨h1, ?_⟩
  intro cfg s k μ u x hk1 hk3 hu hcone hn hf
  set c := contactOfInfo cfg.centerOfModel x with hc
  have hM : (setInfos cfg.centerOfModel [x]).contactPointsM = [{ c with p := (1 / 1000 : ℝ) • c.p }] := rfl
  constructor
  · apply h1 _ _ _ (by simp)
    left
    rw [pointsOf, hM, createWrenchPoints, List.length_map, conesOf_eq, hcone]
    simp [computeConePoints, ConeGen.new]
    omega
  · rw [hM]
    -- all forces have a negative component along the normal
    intro h0
    have hconv : Convex ℝ { w : Wrench | w.1 ⬝ᵥ c.n ≤ -(1 / Real.sqrt 2) * nrm c.n } := by
      intro a ha b hb s t hs ht hst
      have ha : a.1 ⬝ᵥ c.n ≤ -(1 / Real.sqrt 2) * nrm c.n := ha
      have hb : b.1 ⬝ᵥ c.n ≤ -(1 / Real.sqrt 2) * nrm c.n := hb
      change (s • a.1 + t • b.1) ⬝ᵥ c.n ≤ _
      rw [add_dotProduct, smul_dotProduct, smul_dotProduct, smul_eq_mul, smul_eq_mul]
      have e1 := mul_le_mul_of_nonneg_left ha hs
      have e2 := mul_le_mul_of_nonneg_left hb ht
      have : s * (-(1 / Real.sqrt 2) * nrm c.n) + t * (-(1 / Real.sqrt 2) * nrm c.n) = -(1 / Real.sqrt 2) * nrm c.n := by
        rw [← add_mul, hst, one_mul]
      linarith
    have hsub : graspWrenches 1 (dirs cfg.cone) [{ c with p := (1 / 1000 : ℝ) • c.p }] ⊆
        { w : Wrench | w.1 ⬝ᵥ c.n ≤ -(1 / Real.sqrt 2) * nrm c.n } := by
      rintro w ⟨c', hc', f, ⟨d, hd, rfl⟩, rfl⟩
      rw [List.mem_singleton] at hc'
      subst hc'
      rw [hcone, cone_eq k μ hu (c := { c with p := (1 / 1000 : ℝ) • c.p }) hn hf, List.nil_append, List.mem_map] at hd
      obtain ⟨i, -, rfl⟩ := hd
      change (-coneDir c.n _) ⬝ᵥ c.n ≤ _
      have hd := coneDir_normal hn (i * 2 * Real.pi / ((k : ℤ) : ℝ))
      generalize coneDir c.n (i * 2 * Real.pi / ((k : ℤ) : ℝ)) = v at *
      have : v ⬝ᵥ c.n = nrm c.n * (1 / Real.sqrt 2) := by
        conv_lhs => rw [← smul_normalize hn]
        rw [dotProduct_smul, hd, smul_eq_mul]
      rw [neg_dotProduct, this]
      apply le_of_eq; ring
    have := convexHull_min hsub hconv h0
    have h2 : (0 : V3) ⬝ᵥ c.n ≤ -(1 / Real.sqrt 2) * nrm c.n := this
    rw [zero_dotProduct] at h2
    have hp := nrm_pos hn
    have : 0 < (1 / Real.sqrt 2) * nrm c.n := by positivity
    linarith

/-- Not vacuous: a contact on the top of an object, the finger coming from above. -/
example : (contactOfInfo 0 ⟨![0, 0, 5], ![0, 0, 7], ![0, 0, 5], ![0, 0, 7], ![0, 0, -1]⟩).n ≠ 0 ∧
    0 < (contactOfInfo 0 ⟨![0, 0, 5], ![0, 0, 7], ![0, 0, 5], ![0, 0, 7], ![0, 0, -1]⟩).force := by
  have hd : (![0, 0, 7] : V3) - ![0, 0, 5] ≠ 0 := by
    intro h
    have : (7 : ℝ) - 5 = 0 := congrFun h 2
    norm_num at this
  have e : nrm ((![0, 0, 5] : V3) - ![0, 0, 7]) = 2 := by
    rw [nrm, show ((![0, 0, 5] : V3) - ![0, 0, 7]) ⬝ᵥ ((![0, 0, 5] : V3) - ![0, 0, 7]) = 2 ^ 2 by
      rw [dot3]; simp; norm_num]
    exact Real.sqrt_sq (by norm_num)
  constructor
  · intro h
    have := normalize_unit hd
    rw [show Rot.normalize ((![0, 0, 7] : V3) - ![0, 0, 5]) = 0 from h] at this
    simp at this
  · simp only [contactOfInfo, e]
    rw [if_pos (by norm_num), dot3]
    simp
    norm_num

/-- **C110 (touching contact, does not hold).** If the two points of one of the contacts coincide (nearly: in
global coordinates, at most 1e-10 apart), its force counts as 0 and its sampled wrenches are all zero. So
with a right answer of qhull the grasp is reported to be force closed, whatever the other contacts. -/
theorem C110_touching_false (cfg : Cfg) (hq : Exact cfg.qhull) (s : St) (infos : List ContactInfo) (x : ContactInfo)
    (hx : x ∈ infos) (k : ℕ) (μ u : ℝ) (hk : 1 ≤ k) (hcone : cfg.cone = ConeGen.new k μ u)
    (hd : let l := x.contactPointObstacleGlobal - x.contactPointFingerGlobal
      Real.sqrt (l ⬝ᵥ l) ≤ 1e-10)
    (r : QResult) (hr : cfg.qhull (pointsOf cfg infos) = some r) :
    ((s.setInfos cfg infos).isGraspForceClosure cfg).2 = true := by
  have hne : infos ≠ [] := List.ne_nil_of_mem hx
  rw [answer_eq cfg s infos hne]
  by_cases h4 : 4 ≤ (pointsOf cfg infos).length
  · rw [createConvexHull_some h4 hr, originInHull_hullOf]
    have hh := hq _ _ hr
    have h0 : (0 : Wrench) ∈ pointsOf cfg infos := by
      have hf : (contactOfInfo cfg.centerOfModel x).force = 0 := if_neg (not_lt.2 hd)
      rw [pointsOf, createWrenchPoints, List.mem_map]
      refine ⟨coneContact { contactOfInfo cfg.centerOfModel x with p := (1 / 1000 : ℝ) • (contactOfInfo cfg.centerOfModel x).p }
        (rimPoint u (Real.arctan μ) (u * Real.cos (Real.arctan μ)) k 0), ?_, ?_⟩
      · rw [conesOf_eq, List.mem_flatMap]
        refine ⟨{ contactOfInfo cfg.centerOfModel x with p := (1 / 1000 : ℝ) • (contactOfInfo cfg.centerOfModel x).p }, ?_, ?_⟩
        · simp only [setInfos, convertMM2M, List.mem_map]
          exact ⟨_, ⟨x, hx, rfl⟩, rfl⟩
        · rw [computeConePoints, List.nil_append, hcone]
          apply List.mem_map_of_mem
          simp only [ConeGen.new]
          apply List.mem_map_of_mem
          rw [List.mem_range]
          change 0 < k
          exact hk
      · have hz : conePoint { contactOfInfo cfg.centerOfModel x with p := (1 / 1000 : ℝ) • (contactOfInfo cfg.centerOfModel x).p }
            (rimPoint u (Real.arctan μ) (u * Real.cos (Real.arctan μ)) k 0) = 0 := by
          rw [conePoint_eq]
          change (contactOfInfo cfg.centerOfModel x).force • _ = _
          rw [hf, zero_smul]
        simp only [coneContact, hz, wrenchOf]
        simp [Rot.normalize]
    intro f hf
    have := (hh.hull 0).1 (subset_convexHull ℝ _ h0) f hf
    rw [dot6_zero, zero_add] at this
    exact this.trans (by norm_num)
  · simp only [createConvexHull, if_pos (not_le.1 h4)]
    rfl

end Simox.Gpl
