import Verif.Cst.WrongProps

/-!
# Constraints: values and tolerances
-/

namespace Simox.Cst

open Matrix Kin Kin.Spec Jac Jac.Spec Ik Spec

theorem posError_one (t p : V3) : Ik.Spec.posError 1 t p = |p 0 - t 0| := by
  unfold Ik.Spec.posError
  rw [Fin.sum_univ_three]
  have h : Nat.testBit 1 0 = true ∧ Nat.testBit 1 1 = false ∧ Nat.testBit 1 2 = false := by decide
  simp only [Fin.val_zero, Fin.val_one, Fin.val_two, h, if_true, Bool.false_eq_true, if_false, add_zero]
  rw [Real.sqrt_sq_eq_abs, abs_sub_comm]

theorem posError_two (t p : V3) : Ik.Spec.posError 2 t p = |p 1 - t 1| := by
  unfold Ik.Spec.posError
  rw [Fin.sum_univ_three]
  have h : Nat.testBit 2 0 = false ∧ Nat.testBit 2 1 = true ∧ Nat.testBit 2 2 = false := by decide
  simp only [Fin.val_zero, Fin.val_one, Fin.val_two, h, if_true, Bool.false_eq_true, if_false, add_zero, zero_add]
  rw [Real.sqrt_sq_eq_abs, abs_sub_comm]

theorem posError_four (t p : V3) : Ik.Spec.posError 4 t p = |p 2 - t 2| := by
  unfold Ik.Spec.posError
  rw [Fin.sum_univ_three]
  have h : Nat.testBit 4 0 = false ∧ Nat.testBit 4 1 = false ∧ Nat.testBit 4 2 = true := by decide
  simp only [Fin.val_zero, Fin.val_one, Fin.val_two, h, if_true, Bool.false_eq_true, if_false, zero_add]
  rw [Real.sqrt_sq_eq_abs, abs_sub_comm]

theorem posError_pos {sel : Nat} (hs : sel = 7 ∨ sel = 15) (t p : V3) : Ik.Spec.posError sel t p = norm3 (p - t) := by
  unfold Ik.Spec.posError norm3
  rw [Fin.sum_univ_three]
  have h : Nat.testBit sel 0 = true ∧ Nat.testBit sel 1 = true ∧ Nat.testBit sel 2 = true := by rcases hs with rfl | rfl <;> decide
  simp only [Fin.val_zero, Fin.val_one, Fin.val_two, h, if_true, Pi.sub_apply]
  congr 1
  ring

theorem posError_rot (t p : V3) : Ik.Spec.posError 8 t p = 0 := by
  unfold Ik.Spec.posError
  rw [Fin.sum_univ_three]
  have h : Nat.testBit 8 0 = false ∧ Nat.testBit 8 1 = false ∧ Nat.testBit 8 2 = false := by decide
  simp [h]

/-- The selections there are names for: x, y, z, position, orientation, all. -/
def Named (sel : Nat) : Prop := sel = 1 ∨ sel = 2 ∨ sel = 4 ∨ sel = 7 ∨ sel = 8 ∨ sel = 15

theorem sq_norm3 (d : V3) : norm3 d ^ 2 = d 0 * d 0 + d 1 * d 1 + d 2 * d 2 := by
  unfold norm3
  rw [Real.sq_sqrt (by nlinarith [mul_self_nonneg (d 0), mul_self_nonneg (d 1), mul_self_nonneg (d 2)])]

/-- **The value of the position constraint** is the factor times the square of the distance from the target in the selected coordinates. -/
theorem C105_position_value (c : Position) (s : St Pose3) (h : Named c.sel) :
    c.value s = c.factor * Ik.Spec.posError c.sel c.target (s.pose c.obj).pos ^ 2 := by
  rcases h with h | h | h | h | h | h <;> simp only [Position.value, h, flagX, flagY, flagZ, flagPosition, flagAll, Position.diff]
  · rw [posError_one, sq_abs]; simp; ring
  · rw [posError_two, sq_abs]; simp; ring
  · rw [posError_four, sq_abs]; simp; ring
  · rw [posError_pos (.inl rfl), sq_norm3]; simp
  · rw [posError_rot]; simp
  · rw [posError_pos (.inr rfl), sq_norm3]; simp

/-- **The value of the orientation constraint** is the factor times the square of the angle between orientation and target, if the orientation is
selected. -/
theorem C105_orientation_value (aa : AngleAxes) (c : Orientation) (s : St Pose3) (h : Named c.sel) (a : ℝ)
    (ha : Ik.Spec.IsRotError c.sel c.target (s.pose c.obj).rot a) : c.value aa s = c.factor * a ^ 2 := by
  unfold Ik.Spec.IsRotError at ha
  have hb : ∀ n, n = 1 ∨ n = 2 ∨ n = 4 ∨ n = 7 → Nat.testBit n 3 = false := by rintro n (rfl | rfl | rfl | rfl) <;> decide
  have hb' : ∀ n, n = 8 ∨ n = 15 → Nat.testBit n 3 = true := by rintro n (rfl | rfl) <;> decide
  unfold Orientation.value
  by_cases h1 : c.sel = flagOrientation ∨ c.sel = flagAll
  · rw [if_pos h1]
    rw [if_pos (hb' _ h1)] at ha
    obtain ⟨D, hD, ha⟩ := ha
    have : D = c.target * (s.pose c.obj).rot⁻¹ := by rw [← hD]; group
    subst this
    rw [isAngle_unique (isAngle_aa aa _) ha]
    ring
  · rw [if_neg h1]
    simp only [flagOrientation, flagAll] at h1
    have hs : c.sel = 1 ∨ c.sel = 2 ∨ c.sel = 4 ∨ c.sel = 7 := by
      simp only [Named] at h
      tauto
    rw [hb _ hs] at ha
    simp at ha
    rw [ha]; ring

/-- **The tolerance of the position constraint**, if the whole position is selected (or only the orientation): the check holds exactly if the distance from
the target is within the tolerance. Missing for the property: single coordinates. -/
theorem C105_position_check_partial (c : Position) (s : St Pose3) (h : c.sel = flagPosition ∨ c.sel = flagAll ∨ c.sel = flagOrientation)
    (ht : 0 ≤ c.tolerance) : c.check s = some true ↔ Ik.Spec.posError c.sel c.target (s.pose c.obj).pos ≤ c.tolerance := by
  rcases h with h | h | h <;> simp only [Position.check, h, flagX, flagY, flagZ, flagPosition, flagAll, flagOrientation, Position.diff]
  · rw [posError_pos (.inl rfl)]; simp; exact decide_eq_true_iff
  · rw [posError_pos (.inr rfl)]; simp; exact decide_eq_true_iff
  · rw [posError_rot]; simp [ht]

/-- For a single coordinate the check holds if the distance is within the tolerance, but it also holds however far the tcp is below the target. -/
theorem C105_position_check_single (c : Position) (s : St Pose3) (k : Fin 3) (h : c.sel = 2 ^ (k : Nat)) :
    c.check s = some true ↔ (s.pose c.obj).pos k ≤ c.target k + c.tolerance := by
  fin_cases k <;> simp only [Fin.mk_one, Fin.reduceFinMk, Fin.val_zero, Fin.val_one, Fin.val_two, Nat.reducePow] at h <;>
    simp [Position.check, h, flagX, flagY, flagZ, Position.diff, add_comm]

/-- **The tolerance check of a single coordinate is wrong**: a tcp at 0 passes the check against the target 1000 with tolerance 1. -/
theorem C105_position_check_false : ∃ (c : Position) (s : St Pose3), c.sel = flagX ∧ c.tolerance = 1 ∧ c.check s = some true ∧
    Ik.Spec.posError c.sel c.target (s.pose c.obj).pos = 1000 := by
  refine ⟨⟨1, [0], .node 0, 0, ![1000, 0, 0], flagX, 1⟩, ⟨1, fun _ => 0, fun _ => 1⟩, rfl, rfl, ?_, ?_⟩
  · rw [C105_position_check_single _ _ 0 rfl]
    simp [Kin.one_def]
    norm_num
  · rw [show flagX = 1 from rfl, posError_one]
    simp [Kin.one_def]

/-- **The tolerance of the orientation constraint**: for a named selection the check does not throw, and holds exactly if the angle between orientation and
target is within the tolerance, or the orientation is not selected. -/
theorem C105_orientation_check (aa : AngleAxes) (c : Orientation) (s : St Pose3) (h : Named c.sel) (ht : 0 ≤ c.tolerance) (a : ℝ)
    (ha : Ik.Spec.IsRotError c.sel c.target (s.pose c.obj).rot a) : (c.check aa s).isSome = true ∧ (c.check aa s = some true ↔ a ≤ c.tolerance) := by
  unfold Ik.Spec.IsRotError at ha
  have hb : ∀ n, n = 1 ∨ n = 2 ∨ n = 4 ∨ n = 7 → Nat.testBit n 3 = false := by rintro n (rfl | rfl | rfl | rfl) <;> decide
  have hb' : ∀ n, n = 8 ∨ n = 15 → Nat.testBit n 3 = true := by rintro n (rfl | rfl) <;> decide
  unfold Orientation.check
  by_cases h1 : c.sel = flagX ∨ c.sel = flagY ∨ c.sel = flagZ ∨ c.sel = flagPosition
  · rw [if_pos h1]
    rw [hb _ h1] at ha
    simp at ha
    simp [ha, ht]
  · rw [if_neg h1]
    have h2 : c.sel = flagOrientation ∨ c.sel = flagAll := by
      simp only [Named, flagX, flagY, flagZ, flagPosition, flagOrientation, flagAll] at h h1 ⊢
      tauto
    rw [if_pos h2]
    rw [if_pos (hb' _ h2)] at ha
    obtain ⟨D, hD, ha⟩ := ha
    have : D = c.target * (s.pose c.obj).rot⁻¹ := by rw [← hD]; group
    subst this
    rw [isAngle_unique (isAngle_aa aa _) ha]
    simp [abs_of_nonneg ha.1]

/-- A selection without a name: both checks throw, both values are zero, whatever the pose. -/
theorem C105_unnamed (aa : AngleAxes) (c : Position) (o : Orientation) (s : St Pose3) (hc : ¬ Named c.sel) (ho : ¬ Named o.sel) :
    c.check s = none ∧ c.value s = 0 ∧ o.check aa s = none ∧ o.value aa s = 0 := by
  simp only [Named, not_or] at hc ho
  obtain ⟨a1, a2, a3, a4, a5, a6⟩ := hc
  obtain ⟨b1, b2, b3, b4, b5, b6⟩ := ho
  simp [Position.check, Position.value, Orientation.check, Orientation.value, flagX, flagY, flagZ, flagPosition, flagAll, flagOrientation, *]

/-- **The tolerances of the pose constraint** hold exactly if its goal is met (C57), and after a change of the target those of the new one. -/
theorem C105_pose_check (aa : AngleAxes) (c : PoseC) (s : St Pose3) (t : Pose3) :
    ((c.updateTarget t).check aa s = true ↔ Ik.Spec.Met s ⟨c.obj, c.tcp, t, c.sel, c.tolPos, c.tolRot⟩) ∧
      (c.check aa s = true ↔ Ik.Spec.Met s ⟨c.obj, c.tcp, c.target, c.sel, c.tolPos, c.tolRot⟩) := by
  have h : ∀ c : PoseC, c.check aa s = true ↔ Ik.Spec.Met s c.goal := fun c => by
    unfold PoseC.check
    rw [check_iff]
    simp [Ik.Spec.AllMet]
  exact ⟨h (c.updateTarget t), h c⟩

/-- **The tolerance of the centre of mass constraint** holds exactly if the distance from the target (in the plane for two dimensions) is within the
tolerance; its square times the factor is the value. -/
theorem C105_com (m : Masses) (c : CoM) (s : St Pose3) (hd : c.dim = 2 ∨ c.dim = 3) :
    (c.check m s = true ↔ Real.sqrt (∑ k : Fin 3, if (k : Nat) < c.dim then (getCoM m s c.bodies k - c.target k) ^ 2 else 0) ≤ c.tolerance) ∧
      c.value m s = c.factor * ∑ k : Fin 3, if (k : Nat) < c.dim then (getCoM m s c.bodies k - c.target k) ^ 2 else 0 := by
  rcases hd with hd | hd <;> simp [CoM.check, CoM.value, hd, Fin.sum_univ_three, norm3, sq]
  exact decide_eq_true_iff

/-- **A new target does not reach the centre of mass constraint**: after `updateTarget` value, gradient and check are still those of the old target. -/
theorem C105_com_target_false : ∃ (r : JRobot) (m : Masses) (c : CoM) (s : St Pose3) (t : V3), FK r.toRobot s ∧ getCoM m s c.bodies = t ∧
    (c.updateTarget t).check m s = false ∧ 0 < (c.updateTarget t).value m s := by
  have hp : (slideState.pose 0) = 1 := slide_pose
  have hc : getCoM slideMasses slideState [0] = 0 := by
    have h1 : setMass slideMasses [0] = 1 := by simp [setMass, slideMasses]
    rw [getCoM, h1, if_neg (by norm_num)]
    have h2 : comGlobal slideMasses slideState 0 = 0 := by rw [comGlobal_eq, hp]; simp [Kin.one_def, slideMasses]
    simp [comSum, h2]
  refine ⟨slide, slideMasses, ⟨1, [0], [0], ![5, 0, 0], ![5, 0, 0], 2, 1⟩, slideState, 0, slide_fk, hc, ?_, ?_⟩
  · simp [CoM.check, CoM.updateTarget, hc]
  · simp [CoM.value, CoM.updateTarget, hc]

/-- **Task space regions**: for bounds in the right order, the position component is zero exactly if the position of the end effector in the region's frame
is within the bounds; and it never is negative, for a positive factor. -/
theorem C105_tsr_position (aa : AngleAxes) (c : Tsr) (s : St Pose3) (hf : 0 < c.factor) (hb : ∀ k, c.lo k ≤ c.hi k) :
    0 ≤ c.value aa 0 s ∧
      (c.value aa 0 s = 0 ↔ ∀ k, c.lo k ≤ (c.transformation⁻¹ * s.pose c.obj * c.offset).pos k ∧ (c.transformation⁻¹ * s.pose c.obj * c.offset).pos k ≤ c.hi k) := by
  have h0 : ∀ k, c.posError s k = 0 ↔ c.lo k ≤ (c.current s).pos k ∧ (c.current s).pos k ≤ c.hi k := fun k => by
    have := hb k
    rw [Tsr.posError, outside, clampTo]
    generalize (c.current s).pos k = x
    by_cases a : x ≤ c.lo k
    · rw [if_pos a]
      constructor
      · intro e; constructor <;> linarith
      · rintro ⟨h1, h2⟩; linarith
    · rw [if_neg a]
      by_cases b : x ≥ c.hi k
      · rw [if_pos b]
        constructor
        · intro e; constructor <;> linarith
        · rintro ⟨h1, h2⟩; linarith
      · rw [if_neg b, sub_self]
        simp; constructor <;> linarith
  have hv : c.value aa 0 s = c.factor * (1 / 100) * (c.posError s 0 * c.posError s 0 + c.posError s 1 * c.posError s 1 + c.posError s 2 * c.posError s 2) := by
    simp only [Tsr.value, sq3, tradeoff, Pi.smul_apply, smul_eq_mul]
    ring
  have p0 := mul_self_nonneg (c.posError s 0)
  have p1 := mul_self_nonneg (c.posError s 1)
  have p2 := mul_self_nonneg (c.posError s 2)
  refine ⟨by rw [hv]; positivity, ?_⟩
  rw [hv]
  have hfac : c.factor * (1 / 100) ≠ 0 := by positivity
  constructor
  · intro e
    have e := (mul_eq_zero.1 e).resolve_left hfac
    intro k
    refine (h0 k).1 ?_
    fin_cases k
    · exact mul_self_eq_zero.1 (by simp only [Fin.zero_eta]; linarith)
    · exact mul_self_eq_zero.1 (by simp only [Fin.mk_one]; linarith)
    · exact mul_self_eq_zero.1 (by simp only [Fin.reduceFinMk]; linarith)
  · intro h
    rw [(h0 0).2 (h 0), (h0 1).2 (h 1), (h0 2).2 (h 2)]
    ring

theorem sigmoid_pos (x : ℝ) : 0 < sigmoid x := by unfold sigmoid; positivity

theorem sigmoid_lt_one (x : ℝ) : sigmoid x < 1 := by
  unfold sigmoid
  have := Real.exp_pos (-(1 / 10) * x)
  rw [div_lt_one (by linarith)]
  linarith

theorem sigmoid_half (x : ℝ) : 1 / 2 ≤ sigmoid x ↔ 0 ≤ x := by
  unfold sigmoid
  have hp := Real.exp_pos (-(1 / 10) * x)
  rw [div_le_div_iff₀ (by norm_num) (by linarith)]
  constructor
  · intro h
    have : Real.exp (-(1 / 10) * x) ≤ 1 := by linarith
    rw [Real.exp_le_one_iff] at this
    linarith
  · intro h
    have : Real.exp (-(1 / 10) * x) ≤ 1 := Real.exp_le_one_iff.2 (by linarith)
    linarith

theorem sigmoid_mono {x y : ℝ} (h : x ≤ y) : sigmoid x ≤ sigmoid y := by
  unfold sigmoid
  have : Real.exp (-(1 / 10) * y) ≤ Real.exp (-(1 / 10) * x) := Real.exp_le_exp.2 (by linarith)
  exact one_div_le_one_div_of_le (by positivity) (by linarith)

/-- The cross product of the segment with the vector from its start to the point: positive on the left. -/
def left (com : P2) (seg : P2 × P2) : ℝ :=
  (seg.2.1 - seg.1.1) * (com.2 - seg.1.2) - (seg.2.2 - seg.1.2) * (com.1 - seg.1.1)

theorem side_left (com : P2) (seg : P2 × P2) (h : seg.1 ≠ seg.2) :
    side com seg = left com seg / Real.sqrt ((seg.2.1 - seg.1.1) ^ 2 + (seg.2.2 - seg.1.2) ^ 2) := by
  have hz : 0 < (seg.2.1 - seg.1.1) * (seg.2.1 - seg.1.1) + (seg.2.2 - seg.1.2) * (seg.2.2 - seg.1.2) := by
    by_contra hc
    have a := mul_self_nonneg (seg.2.1 - seg.1.1)
    have b := mul_self_nonneg (seg.2.2 - seg.1.2)
    have e1 := mul_self_eq_zero.1 (show (seg.2.1 - seg.1.1) * (seg.2.1 - seg.1.1) = 0 by linarith)
    have e2 := mul_self_eq_zero.1 (show (seg.2.2 - seg.1.2) * (seg.2.2 - seg.1.2) = 0 by linarith)
    exact h (Prod.ext (by linarith) (by linarith))
  simp only [side, normal, if_pos hz, left, sq]
  ring

theorem prod_bounds : ∀ l : List ℝ, (∀ x ∈ l, 0 < x ∧ x < 1) → 0 < l.prod ∧ l.prod ≤ 1 ∧ (l ≠ [] → l.prod < 1) ∧ ∀ x ∈ l, l.prod ≤ x
  | [], _ => by simp
  | x :: l, h => by
    obtain ⟨h1, h2, h3, h4⟩ := prod_bounds l fun y hy => h y (List.mem_cons_of_mem _ hy)
    obtain ⟨hx, hx'⟩ := h x (by simp)
    rw [List.prod_cons]
    refine ⟨mul_pos hx h1, by nlinarith, fun _ => by nlinarith, fun y hy => ?_⟩
    rcases List.mem_cons.1 hy with rfl | hy
    · nlinarith
    · have := h4 y hy
      nlinarith

/-- **The value of the balance constraint** lies between 0 and 1, strictly if there is a segment; it is at least 1/2 if the centre of mass is not strictly
on the left of each segment of the support polygon, and at least the value of every single segment. -/
theorem C105_balance (segs : List (P2 × P2)) (com : P2) (hs : ∀ g ∈ segs, g.1 ≠ g.2) :
    0 ≤ balanceValue segs com ∧ balanceValue segs com < 1 ∧ (segs ≠ [] → 0 < balanceValue segs com) ∧
      ∀ g ∈ segs, left com g ≤ 0 → 1 / 2 ≤ balanceValue segs com := by
  obtain ⟨h1, h2, h3, h4⟩ := prod_bounds (segs.map fun g => sigmoid (side com g)) (by
    intro x hx
    obtain ⟨g, -, rfl⟩ := List.mem_map.1 hx
    exact ⟨sigmoid_pos _, sigmoid_lt_one _⟩)
  unfold balanceValue
  refine ⟨by linarith, by linarith, fun hne => ?_, fun g hg hl => ?_⟩
  · have := h3 (by simpa using hne)
    linarith
  · have := h4 _ (List.mem_map.2 ⟨g, hg, rfl⟩)
    have hside : side com g ≤ 0 := by
      rw [side_left com g (hs g hg)]
      exact div_nonpos_of_nonpos_of_nonneg hl (Real.sqrt_nonneg _)
    have h5 := sigmoid_mono hside
    have h6 : sigmoid 0 = 1 / 2 := by simp [sigmoid]; norm_num
    linarith

/-- Further inside is better: if each segment is at least as far to the right, the value is not larger. -/
theorem C105_balance_mono (segs : List (P2 × P2)) (a b : P2) (h : ∀ g ∈ segs, side a g ≤ side b g) : balanceValue segs b ≤ balanceValue segs a := by
  unfold balanceValue
  have : (segs.map fun g => sigmoid (side a g)).prod ≤ (segs.map fun g => sigmoid (side b g)).prod := by
    induction segs with
    | nil => simp
    | cons g segs ih =>
      simp only [List.map_cons, List.prod_cons]
      have hp : 0 ≤ (segs.map fun g => sigmoid (side a g)).prod := List.prod_nonneg fun x hx => by
        obtain ⟨g, -, rfl⟩ := List.mem_map.1 hx
        exact (sigmoid_pos _).le
      exact mul_le_mul (sigmoid_mono (h g (by simp))) (ih fun g' hg' => h g' (List.mem_cons_of_mem _ hg')) hp (sigmoid_pos _).le
  linarith

/-- A square around the origin meets the hypotheses of `C105_balance`. -/
example : ∀ g ∈ ([((1, -1), (1, 1)), ((1, 1), (-1, 1)), ((-1, 1), (-1, -1)), ((-1, -1), (1, -1))] : List (P2 × P2)), g.1 ≠ g.2 := by
  intro g hg
  fin_cases hg <;> norm_num [Prod.ext_iff]

end Simox.Cst
