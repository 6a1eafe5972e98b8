import Verif.Gpn.ApproachLemmas

/-!
# C114: approach movements
-/

namespace Simox.Gpn

open Matrix Jac Rot Kin

variable {H : Type}

/-- The half turn around the first axis. -/
def halfTurn : SO3 :=
  ⟨!![1, 0, 0; 0, -1, 0; 0, 0, -1], by
    rw [Matrix.mem_specialOrthogonalGroup_iff, Matrix.mem_orthogonalGroup_iff']
    constructor
    · ext i j
      fin_cases i <;> fin_cases j <;> simp [Matrix.mul_apply, Fin.sum_univ_three]
    · rw [Matrix.det_fin_three]
      simp⟩

theorem halfTurn_ne : halfTurn ≠ 1 := by
  intro h
  have h2 := congrArg (fun R : SO3 => R.1 1 1) h
  simp only [halfTurn] at h2
  norm_num at h2

/-- A hand whose grasp centre is turned over against the root; it touches the object if the root is
less than 3 above the ground. -/
noncomputable def toyEef : Eef Unit where
  gcp := fun _ => ⟨halfTurn, ![0, 0, 0]⟩
  preshapeTcp := none
  opened := id
  hits := fun r _ => by classical exact decide (r.pos 2 < 3)

/-- The position an approach starts from is a point of the face, and every point of the face can be
drawn. -/
theorem C114_point_on_face (f : Face) (p : V3) :
    (∃ r0 r1 : ℝ, 0 ≤ r0 ∧ r0 ≤ 1 ∧ 0 ≤ r1 ∧ r1 ≤ 1 ∧ positionOn f r0 r1 = p) ↔ InTriangle f.v1 f.v2 f.v3 p := by
  constructor
  · rintro ⟨r0, r1, h0, h1, h2, h3, rfl⟩
    refine ⟨r0, (1 - r0) * r1, 1 - r0 - (1 - r0) * r1, h0, mul_nonneg (by linarith) h2, ?_, by ring, rfl⟩
    have : (1 - r0) * r1 ≤ (1 - r0) * 1 := mul_le_mul_of_nonneg_left h3 (by linarith)
    linarith
  · rintro ⟨a, b, c, ha, hb, hc, hs, rfl⟩
    by_cases h1 : a = 1
    · refine ⟨1, 0, by norm_num, le_refl _, le_refl _, by norm_num, ?_⟩
      have hb0 : b = 0 := by linarith
      have hc0 : c = 0 := by linarith
      subst h1 hb0 hc0
      simp [positionOn, randomPointInTriangle]
    · have hpos : 0 < 1 - a := by
        rcases lt_or_eq_of_le (show a ≤ 1 by linarith) with h | h
        · linarith
        · exact absurd h h1
      refine ⟨a, b / (1 - a), ha, by linarith, div_nonneg hb hpos.le, (div_le_one hpos).2 (by linarith), ?_⟩
      have e1 : (1 - a) * (b / (1 - a)) = b := by field_simp
      have e2 : 1 - a - b = c := by linarith
      simp [positionOn, randomPointInTriangle, e1, e2]

/-- The approach direction is the normal of the face, made a unit vector unless it is one up to
`0.000001`. -/
theorem C114_direction (f : Face) (hn : f.normal ≠ 0) :
    (∃ c : ℝ, 0 < c ∧ directionOn f = c • f.normal) ∧ |directionOn f ⬝ᵥ directionOn f - 1| ≤ 1e-6 := by
  unfold directionOn
  by_cases h : |f.normal ⬝ᵥ f.normal - 1| > 1e-6
  · rw [if_pos h]
    refine ⟨⟨1 / nrm f.normal, by have := nrm_pos hn; positivity, normalize_of_ne hn⟩, ?_⟩
    rw [normalize_unit hn]
    norm_num
  · rw [if_neg h]
    exact ⟨⟨1, by norm_num, by simp⟩, not_lt.1 h⟩

/-- The hand is placed at the given position with the third axis of its main node against the approach
direction, whatever random vectors are drawn and however the hand was before (for a direction that does
not point straight down: there the hand may come out unturned, and C40 applies). -/
theorem C114_approach_pose (e : Eef H) (position dir : V3) (zs ys : List V3) (h h' : Hand H)
    (hdir : 1e-10 ≤ nrm dir) (hdown : ¬ ∃ c : ℝ, 0 < c ∧ dir = ![0, 0, -c])
    (hr : e.toApproach position dir zs ys h = some (true, h')) :
    (e.getPose h').pos = position ∧ nrm dir • axisZ (e.getPose h').rot = -dir ∧ h'.cfg = h.cfg := by
  have hne : dir ≠ 0 := by
    intro h0; rw [h0, nrm_eq_zero.2 rfl] at hdir; norm_num at hdir
  have hl : longEnough dir zs = some dir := by
    cases zs <;> simp [longEnough, not_lt.2 hdir]
  unfold Eef.toApproach at hr
  rw [hl] at hr
  dsimp only at hr
  have hz : (-Rot.normalize dir) ⬝ᵥ (-Rot.normalize dir) = 1 := by
    rw [neg_dotProduct_neg]; exact normalize_unit hne
  cases hb : basisLoop (-Rot.normalize dir) 1000 ys with
  | more => rw [hb] at hr; cases hr
  | failed => rw [hb] at hr; simp at hr
  | found x y =>
      rw [hb] at hr
      obtain ⟨hx, hxz, rfl⟩ := basisLoop_spec hz _ _ hb
      have hv := rotOf_val hx hz hxz
      have ha := axisZ_columns hv
      have hrot : rotOf x (crossProduct (-Rot.normalize dir) x) (-Rot.normalize dir) ≠ 1 := by
        intro h1
        rw [h1, axisZ_one] at ha
        refine hdown ⟨nrm dir, nrm_pos hne, ?_⟩
        have h2 := smul_normalize hne
        have h3 : Rot.normalize dir = ![0, 0, -1] := by
          rw [← neg_neg (Rot.normalize dir), ← ha]
          funext i; fin_cases i <;> simp
        rw [← h2, h3]
        have h4 : nrm (nrm dir • (![0, 0, -1] : V3)) = nrm dir := by
          rw [← h3, h2]
        rw [h4]
        funext i; fin_cases i <;> simp
      simp only [Option.some.injEq, Prod.mk.injEq, true_and] at hr
      subst hr
      rw [getPose_setPose e _ h hrot]
      refine ⟨rfl, ?_, rfl⟩
      dsimp only
      rw [ha, smul_neg, smul_normalize hne]

example : toyEef.toApproach ![1, 2, 3] ![2, 0, 0] [] [![0, 0, 0], ![5, 0, 0], ![0, 3, 0]] ⟨⟨1, ![0, 0, 0]⟩, ()⟩ ≠ none := by
  have hl : longEnough ![2, 0, 0] [] = some ![2, 0, 0] := by
    have : nrm ![2, 0, 0] = (2:ℝ) := nrm_lit (by norm_num) (by norm_num)
    unfold longEnough
    rw [this, if_neg (by norm_num)]
  have hz : -Rot.normalize ![2, 0, 0] = ![-1, 0, 0] := by
    have h0 : (![2, 0, 0] : V3) ≠ 0 := fun h => by have := congrFun h 0; norm_num at this
    have : nrm ![2, 0, 0] = (2:ℝ) := nrm_lit (by norm_num) (by norm_num)
    rw [normalize_of_ne h0, this]
    funext i; fin_cases i <;> norm_num
  have hn5 : Rot.normalize ![5, 0, 0] = ![1, 0, 0] := by
    have h0 : (![5, 0, 0] : V3) ≠ 0 := fun h => by have := congrFun h 0; norm_num at this
    have : nrm ![5, 0, 0] = 5 := nrm_lit (by norm_num) (by norm_num)
    rw [normalize_of_ne h0, this]
    funext i; fin_cases i <;> norm_num
  have hn3 : Rot.normalize ![0, 3, 0] = ![0, 1, 0] := by
    have h0 : (![0, 3, 0] : V3) ≠ 0 := fun h => by have := congrFun h 1; norm_num at this
    have : nrm ![0, 3, 0] = 3 := nrm_lit (by norm_num) (by norm_num)
    rw [normalize_of_ne h0, this]
    funext i; fin_cases i <;> norm_num
  have t0 : tryBasis ![-1, 0, 0] ![0, 0, 0] = none := by
    unfold tryBasis
    rw [if_pos]
    rw [nrm_lit (le_refl 0) (by norm_num)]; norm_num
  have t1 : tryBasis ![-1, 0, 0] ![5, 0, 0] = none := by
    unfold tryBasis
    have : nrm ![5, 0, 0] = 5 := nrm_lit (by norm_num) (by norm_num)
    rw [this, if_neg (by norm_num), hn5]
    dsimp only
    rw [if_pos]
    rw [cross_lit, nrm_lit (le_refl 0) (by norm_num)]; norm_num
  have hx : crossProduct ![0, 1, 0] ![-1, 0, 0] = (![0, 0, 1] : V3) := by
    rw [cross_lit]; norm_num
  have hy : crossProduct ![-1, 0, 0] ![0, 0, 1] = (![0, 1, 0] : V3) := by
    rw [cross_lit]; norm_num
  have n1 : nrm ![0, 0, 1] = 1 := nrm_lit (by norm_num) (by norm_num)
  have n2 : nrm ![0, 1, 0] = 1 := nrm_lit (by norm_num) (by norm_num)
  have t2 : tryBasis ![-1, 0, 0] ![0, 3, 0] = some (![0, 0, 1], ![0, 1, 0]) := by
    unfold tryBasis
    have : nrm ![0, 3, 0] = 3 := nrm_lit (by norm_num) (by norm_num)
    rw [this, if_neg (by norm_num), hn3]
    dsimp only
    rw [hx, n1, if_neg (by norm_num), normalize_of_unit (by rw [dot_lit]; norm_num), hy, n2, if_neg (by norm_num),
      normalize_of_unit (by rw [dot_lit]; norm_num)]
  unfold Eef.toApproach
  rw [hl]
  dsimp only
  rw [hz]
  simp [basisLoop, t0, t1, t2]

/-- `moveEEFAway`: the hand is shifted along the direction by whole steps, as few as possible: at every
step before it touches the object, and at the end it does not, unless the steps are used up. (For hands
without a grasp preshape with its own tool centre point.) -/
theorem C114_move_away_partial (e : Eef H) (dir : V3) (n : ℕ) (h : Hand H) (hm : e.preshapeTcp = none)
    (hs : Settable h (h.root * e.gcp h.cfg)) :
    ∃ k ≤ n, e.moveAway dir n h = h.shift ((k : ℝ) • dir) ∧ (∀ j < k, ¬ Free e (h.shift ((j : ℝ) • dir))) ∧
      (k < n → Free e (h.shift ((k : ℝ) • dir))) :=
  moveAway_spec e dir hm n h hs

/-- The toy hand is lifted by three steps. -/
example : toyEef.moveAway ![0, 0, 1] 1000 ⟨⟨1, ![0, 0, 0]⟩, ()⟩ =
    (⟨⟨1, ![0, 0, 0]⟩, ()⟩ : Hand Unit).shift ((3 : ℝ) • ![0, 0, 1]) := by
  obtain ⟨k, hk, h1, h2, h3⟩ := C114_move_away_partial toyEef ![0, 0, 1] 1000 ⟨⟨1, ![0, 0, 0]⟩, ()⟩ rfl (.inr rfl)
  have hf : ∀ j : ℕ, Free toyEef ((⟨⟨1, ![0, 0, 0]⟩, ()⟩ : Hand Unit).shift ((j : ℝ) • ![0, 0, 1])) ↔ 3 ≤ j := by
    intro j
    unfold Free toyEef Hand.shift
    simp only [Pi.add_apply, Pi.smul_apply, smul_eq_mul, Matrix.cons_val]
    norm_num
  have hk3 : k = 3 := by
    have h4 : ¬ 3 < k := fun h => h2 3 h ((hf 3).2 (le_refl _))
    by_cases h5 : k < 1000
    · have := (hf k).1 (h3 h5); omega
    · omega
  subst hk3
  exact_mod_cast h1

/-- With a preshape that has its own tool centre point, `updateEEFPose` does not shift the hand: even a
shift by zero moves it, from where the tool centre point is to where the grasp centre point is. -/
theorem C114_move_away_false :
    ∃ (e : Eef Unit) (h : Hand Unit), Settable h (h.root * e.gcp h.cfg) ∧ e.update 0 h ≠ h ∧
      e.getPose (e.update 0 h) ≠ e.getPose h := by
  refine ⟨{ toyEef with preshapeTcp := some fun _ => ⟨halfTurn, ![0, 0, 10]⟩ }, ⟨⟨1, 0⟩, ()⟩, .inr rfl, ?_, ?_⟩
  · intro h
    have h2 := congrArg (fun x : Hand Unit => x.root.pos 2) h
    simp only [Eef.update, Eef.setPose, Eef.main, toyEef] at h2
    rw [set_pose (by simpa [mul_def] using halfTurn_ne)] at h2
    simp [mul_def, Kin.inv_def] at h2
  · intro h
    have h2 := congrArg (fun x : Pose3 => x.pos 2) h
    simp only [Eef.update] at h2
    rw [getPose_setPose _ _ _ (by simpa [toyEef, mul_def] using halfTurn_ne)] at h2
    simp [Eef.getPose, Eef.main, toyEef, mul_def] at h2

/-- A new approach pose without a random distance: the hand set to it has its fingers opened, its main node
is the drawn point of the face shifted by whole steps along the direction, with the third axis against the
direction, and the hand does not touch the object unless all the 1000 steps were needed. -/
theorem C114_new_pose_partial (e : Eef H) (g : Gen) (faces : List Face) (f : Face) (maxRetreat : ℝ) (orig : Bool)
    (d : Draws) (dir0 : V3) (h h' : Hand H) (dir : V3) (hm : e.preshapeTcp = none) (hmax : maxRetreat ≤ 0)
    (hf : faces[g.faceIndex d.byArea d.uniform]? = some f) (hn : f.normal ≠ 0)
    (hdown : ¬ ∃ c : ℝ, 0 < c ∧ directionOn f = ![0, 0, -c])
    (hbasis : ∃ x y, basisLoop (-Rot.normalize (directionOn f)) 1000 d.ys = .found x y)
    (hr : e.setToRandomApproachPose g faces maxRetreat orig d dir0 h = some (h', dir)) :
    dir = directionOn f ∧ h'.cfg = e.opened h.cfg ∧
    ∃ k : ℕ, k ≤ 1000 ∧ (e.getPose h').pos = positionOn f d.r0 d.r1 + (k : ℝ) • dir ∧
      nrm dir • axisZ (e.getPose h').rot = -dir ∧
      (∀ j : ℕ, j < k → ¬ Free e (h'.shift (((j : ℝ) - k) • dir))) ∧ (k < 1000 → Free e h') := by
  have hunit := (C114_direction f hn).2
  have hlong : 1e-10 ≤ nrm (directionOn f) := by
    have h1 : (0.5 : ℝ) ≤ directionOn f ⬝ᵥ directionOn f := by
      have := (abs_le.1 hunit).1
      norm_num at this ⊢
      linarith
    have h2 := nrm_mul_self (directionOn f)
    by_contra hc
    have h3 : nrm (directionOn f) < 1e-10 := not_le.1 hc
    have h4 : 0 ≤ nrm (directionOn f) := Real.sqrt_nonneg _
    have h5 : nrm (directionOn f) * nrm (directionOn f) ≤ 1e-10 * 1 := by
      apply mul_le_mul h3.le _ h4 (by norm_num)
      norm_num at h3 ⊢
      linarith
    rw [h2] at h5
    norm_num at h5 h1
    linarith
  unfold Eef.setToRandomApproachPose Eef.createNewApproachPose at hr
  rw [hf] at hr
  dsimp only at hr
  obtain ⟨x, y, hxy⟩ := hbasis
  have hl : longEnough (directionOn f) d.zs = some (directionOn f) := by
    cases d.zs <;> simp [longEnough, not_lt.2 hlong]
  obtain ⟨h1, ht⟩ : ∃ h1, e.toApproach (positionOn f d.r0 d.r1) (directionOn f) d.zs d.ys (e.openHand h) = some (true, h1) := by
    unfold Eef.toApproach
    rw [hl]
    dsimp only
    rw [hxy]
    exact ⟨_, rfl⟩
  obtain ⟨hp, hz, hc⟩ := C114_approach_pose e _ _ _ _ _ _ hlong hdown ht
  rw [ht] at hr
  dsimp only at hr
  rw [if_neg (not_lt.2 hmax)] at hr
  have hrot : (e.getPose h1).rot ≠ 1 := by
    intro h0
    rw [h0, axisZ_one] at hz
    have hpos : 0 < nrm (directionOn f) := by norm_num at hlong ⊢; linarith
    refine hdown ⟨nrm (directionOn f), hpos, ?_⟩
    rw [← neg_neg (directionOn f), ← hz, nrm_neg]
    have h4 : nrm (nrm (directionOn f) • (![0, 0, 1] : V3)) = nrm (directionOn f) := by
      rw [hz, nrm_neg]
    rw [h4]
    funext i; fin_cases i <;> simp
  have hmain : e.main = e.gcp := by simp [Eef.main, hm]
  have hgp : ∀ h : Hand H, e.getPose h = h.root * e.gcp h.cfg := by intro h; simp [Eef.getPose, hmain]
  obtain ⟨k, hk, hk1, hk2, hk3⟩ := C114_move_away_partial e (directionOn f) 1000 h1 hm
    (.inl (by rw [← hgp]; exact hrot))
  rw [hk1] at hr
  have hsh : ∀ v : V3, e.getPose (h1.shift v) = ⟨(e.getPose h1).rot, (e.getPose h1).pos + v⟩ := by
    intro v
    rw [hgp, hgp]
    simp only [Hand.shift, mul_def]
    congr 1
    abel
  simp only [Option.map_some, Option.some.injEq, Prod.mk.injEq] at hr
  obtain ⟨hr1, hr2⟩ := hr
  have hback : e.setPose (e.getPose (h1.shift ((k : ℝ) • directionOn f)))
      (e.setPose (e.getPose h) (h1.shift ((k : ℝ) • directionOn f))) = h1.shift ((k : ℝ) • directionOn f) := by
    apply setPose_of_getPose
    · rfl
    · rw [hsh]; exact hrot
  rw [hback] at hr1
  subst hr1 hr2
  refine ⟨rfl, ?_, k, hk, ?_, ?_, ?_, hk3⟩
  · exact hc
  · rw [hsh, hp]
  · rw [hsh]; exact hz
  · intro j hj
    rw [shift_shift, ← add_smul]
    have : (k : ℝ) + ((j : ℝ) - k) = j := by ring
    rw [this]
    exact hk2 j hj

/-- The random distance: the check that the hand does not touch the object there looks at the original
hand and not at the clone that was moved. So the new pose can be one where the hand touches the object although
the hand was clear of it before. -/
theorem C114_new_pose_false :
    ∃ (e : Eef Unit) (g : Gen) (faces : List Face) (maxRetreat : ℝ) (d : Draws) (h : Hand Unit),
      e.preshapeTcp = none ∧ 0 < maxRetreat ∧ 0 ≤ d.distance ∧ d.distance ≤ maxRetreat ∧
      (∃ h₀ dir, e.setToRandomApproachPose g faces 0 false d 0 h = some (h₀, dir) ∧ Free e h₀) ∧
      (∃ h₁ dir, e.setToRandomApproachPose g faces maxRetreat false d 0 h = some (h₁, dir) ∧ ¬ Free e h₁) := by
  let e : Eef Unit :=
    { gcp := fun _ => ⟨1, 0⟩, preshapeTcp := none, opened := id, hits := fun r _ => by classical exact decide (1 < r.pos 0) }
  let f : Face := ⟨![0, 0, 0], ![0, 0, 0], ![0, 0, 0], ![1, 0, 0]⟩
  let d : Draws := ⟨0, 0, 0, 0, [], [![0, 1, 0]], 2⟩
  have n1 : nrm ![1, 0, 0] = 1 := nrm_lit (by norm_num) (by norm_num)
  have n2 : nrm ![0, 1, 0] = 1 := nrm_lit (by norm_num) (by norm_num)
  have n3 : nrm ![0, 0, 1] = 1 := nrm_lit (by norm_num) (by norm_num)
  have u1 : Rot.normalize ![1, 0, 0] = ![1, 0, 0] := normalize_of_unit (by rw [dot_lit]; norm_num)
  have u2 : Rot.normalize ![0, 1, 0] = ![0, 1, 0] := normalize_of_unit (by rw [dot_lit]; norm_num)
  have u3 : Rot.normalize ![0, 0, 1] = ![0, 0, 1] := normalize_of_unit (by rw [dot_lit]; norm_num)
  have hdir : directionOn f = ![1, 0, 0] := by
    unfold directionOn
    rw [if_neg]
    change ¬ |(![1, 0, 0] : V3) ⬝ᵥ ![1, 0, 0] - 1| > 1e-6
    rw [dot_lit]; norm_num
  have hpos : positionOn f d.r0 d.r1 = 0 := by
    have h0 : (![0, 0, 0] : V3) = 0 := by funext i; fin_cases i <;> rfl
    simp [positionOn, randomPointInTriangle, f, h0]
  have hm1 : -(![1, 0, 0] : V3) = ![-1, 0, 0] := by funext i; fin_cases i <;> norm_num
  have hx : crossProduct ![0, 1, 0] ![-1, 0, 0] = (![0, 0, 1] : V3) := by
    rw [cross_lit]; norm_num
  have hy : crossProduct ![-1, 0, 0] ![0, 0, 1] = (![0, 1, 0] : V3) := by
    rw [cross_lit]; norm_num
  have hxx : (![0, 0, 1] : V3) ⬝ᵥ ![0, 0, 1] = 1 := by rw [dot_lit]; norm_num
  have hzz : (![-1, 0, 0] : V3) ⬝ᵥ ![-1, 0, 0] = 1 := by rw [dot_lit]; norm_num
  have hxz : (![0, 0, 1] : V3) ⬝ᵥ ![-1, 0, 0] = 0 := by rw [dot_lit]; norm_num
  have hv := rotOf_val hxx hzz hxz
  rw [hy] at hv
  have t2 : tryBasis ![-1, 0, 0] ![0, 1, 0] = some (![0, 0, 1], ![0, 1, 0]) := by
    unfold tryBasis
    rw [n2, if_neg (by norm_num), u2]
    dsimp only
    rw [hx, n3, if_neg (by norm_num), u3, hy, n2, if_neg (by norm_num), u2]
  generalize hR : rotOf ![0, 0, 1] ![0, 1, 0] ![-1, 0, 0] = R at hv
  have hRne : R ≠ 1 := by
    intro h1
    have := congrFun (axisZ_columns hv) 0
    rw [h1, axisZ_one] at this
    norm_num at this
  have ht : ∀ h : Hand Unit, e.toApproach 0 ![1, 0, 0] [] [![0, 1, 0]] h = some (true, e.setPose ⟨R, 0⟩ h) := by
    intro h
    unfold Eef.toApproach
    have : longEnough ![1, 0, 0] [] = some ![1, 0, 0] := by
      unfold longEnough; rw [n1, if_neg (by norm_num)]
    rw [this]
    dsimp only
    rw [u1, hm1]
    simp [basisLoop, t2, hR]
  have hset : ∀ (v : V3) (h : Hand Unit), e.setPose ⟨R, v⟩ h = ⟨⟨R, v⟩, ()⟩ := by
    intro v h
    unfold Eef.setPose
    rw [set_pose (T := ⟨R, v⟩) hRne]
    congr 1
    have : (⟨1, 0⟩ : Pose3) = 1 := rfl
    simp only [Eef.main, e, Option.getD_none, this]
    group
  have hmove : e.moveAway ![1, 0, 0] 1000 ⟨⟨R, 0⟩, ()⟩ = ⟨⟨R, 0⟩, ()⟩ := by
    unfold Eef.moveAway
    rw [if_neg]
    simp [e]
  have hget : ∀ v : V3, e.getPose ⟨⟨R, v⟩, ()⟩ = ⟨R, v⟩ := by
    intro v
    have : (⟨1, 0⟩ : Pose3) = 1 := rfl
    simp [Eef.getPose, Eef.main, e, this]
  have hupd : e.update ((2 : ℝ) • ![1, 0, 0]) ⟨⟨R, 0⟩, ()⟩ = ⟨⟨R, (2 : ℝ) • ![1, 0, 0]⟩, ()⟩ := by
    rw [update_shift e _ _ rfl (.inl ?_)]
    · simp [Hand.shift]
    · have : (⟨1, 0⟩ : Pose3) = 1 := rfl
      simpa [e, this] using hRne
  refine ⟨e, ⟨false⟩, [f], 2, d, ⟨⟨1, 0⟩, ()⟩, rfl, by norm_num, by norm_num [d], by norm_num [d], ?_, ?_⟩
  · refine ⟨⟨⟨R, 0⟩, ()⟩, ![1, 0, 0], ?_, by simp [Free, e]⟩
    unfold Eef.setToRandomApproachPose Eef.createNewApproachPose
    simp only [Gen.faceIndex, d, Bool.false_eq_true, if_false, List.getElem?_cons_zero]
    rw [show positionOn f 0 0 = 0 from hpos, hdir, ht]
    simp [hset, hmove, hget]
  · refine ⟨⟨⟨R, (2 : ℝ) • ![1, 0, 0]⟩, ()⟩, ![1, 0, 0], ?_, by simp [Free, e]⟩
    unfold Eef.setToRandomApproachPose Eef.createNewApproachPose
    simp only [Gen.faceIndex, d, Bool.false_eq_true, if_false, List.getElem?_cons_zero]
    rw [show positionOn f 0 0 = 0 from hpos, hdir, ht]
    have h2 : ((2 : ℝ) • ![1, 0, 0] : V3) = ![2, 0, 0] := by simp
    rw [h2] at hupd ⊢
    simp [hset, hmove, hget, hupd]

/-- A mesh without faces: the pose the hand has is returned. -/
theorem C114_no_face (e : Eef H) (g : Gen) (maxRetreat : ℝ) (orig : Bool) (d : Draws) (dir : V3) (h : Hand H) :
    e.createNewApproachPose g [] maxRetreat orig d dir h = some ⟨e.openHand h, dir, e.getPose h⟩ := by
  simp [Eef.createNewApproachPose]

/-- Faces are always drawn uniformly: asking the constructor for a choice by area has no effect. -/
theorem C114_face_areas_false : ∀ (byArea uniform : ℕ), (Gen.new true).faceIndex byArea uniform = uniform := by
  intro a b
  simp [Gen.new, Gen.faceIndex]

/-- The pose of the object is not taken into account: for an object that is somewhere else the approach
starts from a point that is not on its surface. -/
theorem C114_object_pose_false :
    ∃ (O : Pose3) (f : Face) (r0 r1 : ℝ), 0 ≤ r0 ∧ r0 ≤ 1 ∧ 0 ≤ r1 ∧ r1 ≤ 1 ∧
      ¬ InTriangle (O.pos + O.rot • f.v1) (O.pos + O.rot • f.v2) (O.pos + O.rot • f.v3) (positionOn f r0 r1) := by
  refine ⟨⟨1, ![0, 0, 1]⟩, ⟨0, 0, 0, ![0, 0, 1]⟩, 0, 0, le_refl _, by norm_num, le_refl _, by norm_num, ?_⟩
  rintro ⟨a, b, c, -, -, -, hs, h⟩
  have h2 := congrFun h 2
  simp [positionOn, randomPointInTriangle] at h2
  linarith

end Simox.Gpn
