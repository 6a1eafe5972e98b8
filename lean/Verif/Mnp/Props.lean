import Verif.Mnp.Lemmas
import Mathlib.Analysis.SpecialFunctions.Log.Basic

/-!
# C173, C174: manipulability
-/

namespace Simox.Mnp

open Matrix Spec

/-- **C173.** The quality is determined by the Jacobian: any two singular value decompositions give the same
value, whatever the choice of singular vectors. -/
theorem C173_well_defined {n : ℕ} (J : Matrix (Fin 6) (Fin n) ℝ) {sv sv' : List ℝ}
    (h : IsSVD (penalize J) sv) (h' : IsSVD (penalize J) sv') (i : Index) (first : ℤ) (pen : Option ℝ)
    (js : List Joint) : getManipulability sv i first pen js = getManipulability sv' i first pen js := by
  rw [isSVD_unique h h' ⟨fun _ => rfl, fun _ => rfl⟩]

/-- **C173.** It does not depend on the frame in which the Jacobian is given. -/
theorem C173_frame {n : ℕ} (R : Matrix (Fin 3) (Fin 3) ℝ) (hR : Rᵀ * R = 1) {J J' : Matrix (Fin 6) (Fin n) ℝ}
    (hJ : Rotated R J J') {sv sv' : List ℝ} (h : IsSVD (penalize J) sv) (h' : IsSVD (penalize J') sv')
    (i : Index) (first : ℤ) (pen : Option ℝ) (js : List Joint) :
    getManipulability sv i first pen js = getManipulability sv' i first pen js := by
  have e : IsSVD (penalize J') sv := by
    rw [both_mul hJ]
    exact isSVD_rotate (both_orth hR) h
  rw [isSVD_unique e h' ⟨fun _ => rfl, fun _ => rfl⟩]

/-- **C173.** With at least six joints the product of the singular values is Yoshikawa's measure
√det(J Jᵀ), times 0.15³ for the weight of rotations; with one to six joints it is √det(Aᵀ A) for the weighted
Jacobian `A`. -/
theorem C173_volume {n : ℕ} (hn : 1 ≤ n) (J : Matrix (Fin 6) (Fin n) ℝ) {sv : List ℝ} (h : IsSVD (penalize J) sv)
    (first : ℤ) (hf : first ≤ 0 ∨ first ≥ min 6 n) (js : List Joint) :
    (6 ≤ n → getManipulability sv .multiplySV first none js = (15 / 100) ^ 3 * Real.sqrt (J * Jᵀ).det) ∧
    (n ≤ 6 → ∀ A, Weighted (15 / 100) J A →
      getManipulability sv .multiplySV first none js = Real.sqrt (Aᵀ * A).det) := by
  have hlen := isSVD_length h
  have hne : sv ≠ [] := by
    intro e
    rw [e] at hlen
    simp at hlen
    omega
  have hg : getManipulability sv .multiplySV first none js = sv.prod := by
    have hc : considered first sv.length = sv.length := by
      unfold considered
      split
      · rfl
      · rw [hlen] at *
        omega
    show product sv (considered first sv.length) = _
    rw [hc, product_full sv hne]
  obtain ⟨h0, hl, hr⟩ := prod_sq h
  rw [hg]
  refine ⟨fun h6 => ?_, fun h6 A hA => ?_⟩
  · have hd : (penalize J * (penalize J)ᵀ).det = ((15 / 100 : ℝ) ^ 3) ^ 2 * (J * Jᵀ).det := by
      have ht : wdiagᵀ = wdiag := by unfold wdiag; rw [diagonal_transpose]
      rw [penalize_eq, transpose_mul, ht, Matrix.mul_assoc, ← Matrix.mul_assoc J, det_mul, det_mul, wdiag_det]
      ring
    rw [← Real.sqrt_mul_self h0, hl h6, hd, Real.sqrt_mul (by positivity), Real.sqrt_sq (by positivity)]
  · have : A = penalize J := by
      ext i j
      rcases Nat.lt_or_ge i.val 3 with hi | hi
      · rw [hA.1 i j hi, (weighted_penalize J).1 i j hi]
      · rw [hA.2 i j hi, (weighted_penalize J).2 i j hi]
    rw [this, ← Real.sqrt_mul_self h0, hr h6]

/-- **C173.** The product of all singular values is zero exactly at singular configurations; so is the ratio
of the smallest to the largest one, for at least two joints. Both are never negative, and the ratio of any
number of singular values is at most 1. -/
theorem C173_singular {n : ℕ} (J : Matrix (Fin 6) (Fin n) ℝ) {sv : List ℝ} (h : IsSVD (penalize J) sv)
    (js : List Joint) :
    (1 ≤ n → (getManipulability sv .multiplySV (-1) none js = 0 ↔ Singular J)) ∧
    (2 ≤ n → (getManipulability sv .minMaxRatio (-1) none js = 0 ↔ Singular J)) ∧
    (∀ first, 0 ≤ getManipulability sv .multiplySV first none js) ∧
    ∀ first, 0 ≤ getManipulability sv .minMaxRatio first none js ∧
      getManipulability sv .minMaxRatio first none js ≤ 1 := by
  have hlen := isSVD_length h
  obtain ⟨h0, hsort⟩ := isSVD_sorted h
  have hc : considered (-1) sv.length = sv.length := by
    unfold considered
    rw [if_pos (Or.inl (by norm_num))]
  have hS : 1 ≤ n → (sv.prod = 0 ↔ Singular J) := by
    intro hn
    obtain ⟨hp, hl, hr⟩ := prod_sq h
    rw [← penalize_singular]
    unfold Singular
    rcases Nat.lt_or_ge n 7 with h6 | h6
    · have e : sv.prod = 0 ↔ ((penalize J)ᵀ * penalize J).det = 0 := by rw [← hr (by omega), mul_self_eq_zero]
      have g := gram_det_zero (penalize J)ᵀ
      rw [transpose_transpose] at g
      rw [e, g]
      constructor
      · intro hk
        refine ⟨fun h6' => ?_, fun _ => hk⟩
        rw [← gram_det_zero, ← hl h6', mul_self_eq_zero, e, g]
        exact hk
      · intro hk
        exact hk.2 (by omega)
    · have e : sv.prod = 0 ↔ (penalize J * (penalize J)ᵀ).det = 0 := by rw [← hl (by omega), mul_self_eq_zero]
      rw [e, gram_det_zero]
      exact ⟨fun hk => ⟨fun _ => hk, fun h => by omega⟩, fun hk => hk.1 (by omega)⟩
  have hne : 1 ≤ n → sv ≠ [] := by
    intro hn e
    rw [e] at hlen
    simp at hlen
    omega
  refine ⟨fun hn => ?_, fun hn => ?_, fun first => ?_, fun first => ?_⟩
  · rw [← hS hn]
    show product sv (considered (-1) sv.length) = 0 ↔ _
    rw [hc, product_full sv (hne hn)]
  · rw [← hS (by omega), list_prod_zero_last h0 hsort (hne (by omega))]
    show ratio sv (considered (-1) sv.length) = 0 ↔ _
    rw [hc]
    unfold ratio
    rw [if_pos (by rw [hlen]; omega)]
    by_cases hz : sv.getD 0 0 = 0
    · rw [if_neg (not_not.mpr hz)]
      have hl0 : 0 < sv.length := by omega
      have hlt : sv.length - 1 < sv.length := by omega
      have e1 : sv.getD (sv.length - 1) 0 = sv[sv.length - 1] := by simp [List.getD, hlt]
      have e0 : sv.getD 0 0 = sv[0] := by simp [List.getD, hl0]
      have : sv[sv.length - 1] ≤ sv[0] := List.pairwise_iff_getElem.mp hsort 0 (sv.length - 1) hl0 hlt (by omega)
      refine ⟨fun _ => le_antisymm ?_ ?_, fun _ => rfl⟩
      · rw [e1]
        rw [e0] at hz
        exact hz ▸ this
      · rw [e1]
        exact h0 _ (List.getElem_mem _)
    · rw [if_pos hz, div_eq_zero_iff, or_iff_left hz]
  · show 0 ≤ product sv (considered first sv.length)
    generalize considered first sv.length = k
    cases sv with
    | nil => exact le_refl _
    | cons s r =>
      show 0 ≤ (r.take (k - 1)).foldl (· * ·) s
      rw [foldl_mul]
      exact mul_nonneg (h0 s List.mem_cons_self)
        (List.prod_nonneg fun x hx => h0 x (List.mem_cons_of_mem _ (List.mem_of_mem_take hx)))
  · show 0 ≤ ratio sv (considered first sv.length) ∧ ratio sv (considered first sv.length) ≤ 1
    unfold ratio
    by_cases h2 : 2 ≤ sv.length
    · rw [if_pos h2]
      have hl0 : 0 < sv.length := by omega
      have hk := considered_le first sv.length
      have hk0 := considered_pos first hl0
      have hlt : considered first sv.length - 1 < sv.length := by omega
      have e1 : sv.getD (considered first sv.length - 1) 0 = sv[considered first sv.length - 1] := by
        simp [List.getD, hlt]
      have e0 : sv.getD 0 0 = sv[0] := by simp [List.getD, hl0]
      have hle : sv[considered first sv.length - 1] ≤ sv[0] := by
        rcases Nat.eq_zero_or_pos (considered first sv.length - 1) with hz | hz
        · simp only [hz]
          exact le_refl _
        · exact List.pairwise_iff_getElem.mp hsort 0 _ hl0 hlt hz
      rw [e0, e1]
      by_cases hz : sv[0] = 0
      · rw [if_neg (not_not.mpr hz)]
        exact ⟨le_refl _, zero_le_one⟩
      · rw [if_pos hz]
        have hp : (0 : ℝ) < sv[0] := lt_of_le_of_ne (h0 _ (List.getElem_mem _)) (Ne.symm hz)
        exact ⟨div_nonneg (h0 _ (List.getElem_mem _)) hp.le, (div_le_one hp).mpr hle⟩
    · rw [if_neg h2]
      exact ⟨le_refl _, zero_le_one⟩

/-- **C173**, refuted for a single joint: the ratio is then 0 although the chain is not singular. -/
theorem C173_one_joint_false :
    ∃ (J : Matrix (Fin 6) (Fin 1) ℝ) (sv : List ℝ), IsSVD (penalize J) sv ∧ ¬ Singular J ∧
      getManipulability sv .minMaxRatio (-1) none [] = 0 := by
  refine ⟨fun i _ => if i = 0 then 1 else 0, [1], ⟨1, fun i _ => if i = 0 then 1 else 0, fun _ _ => 1, fun _ => 1,
    rfl, rfl, ?_, ?_, ?_, fun _ => zero_le_one, fun _ _ _ => le_refl _⟩, ?_, ?_⟩
  · ext a b
    fin_cases a
    fin_cases b
    show ∑ i : Fin 6, (if i = 0 then (1 : ℝ) else 0) * (if i = 0 then (1 : ℝ) else 0) = 1
    simp
  · ext a b
    fin_cases a
    fin_cases b
    show ∑ i : Fin 1, (1 : ℝ) * 1 = 1
    simp
  · ext a b
    show (if 3 ≤ a.val then (if a = 0 then (1 : ℝ) else 0) * (15 / 100) else (if a = 0 then (1 : ℝ) else 0)) =
      ∑ x : Fin 1, (∑ y : Fin 1, (if a = 0 then (1 : ℝ) else 0) * diagonal (fun _ => (1 : ℝ)) y x) * 1
    by_cases ha : a = 0
    · subst ha
      simp
    · simp [ha]
  · intro h
    obtain ⟨q, hq, e⟩ := h.2 (by norm_num)
    apply hq
    ext x
    have := congrFun e 0
    simp [mulVec, dotProduct] at this
    rw [Subsingleton.elim x 0, this]
    rfl
  · show ratio [1] _ = 0
    unfold ratio
    rw [if_neg (by simp)]

/-- **C173.** The quality in a direction is the length of the motion of the joints that belongs to it: never
negative, proportional to the direction, and zero exactly if no joint moves the TCP along the weighted
direction. A direction in space is one without rotation. -/
theorem C173_direction {n : ℕ} (J : Matrix (Fin 6) (Fin n) ℝ) (js : List Joint) :
    (∀ d, 0 ≤ getManipulabilityDir J d none js) ∧
    (∀ (c : ℝ) (d : Fin 6 → ℝ), getManipulabilityDir J (.inr (c • d)) none js =
      |c| * getManipulabilityDir J (.inr d) none js) ∧
    (∀ d : Fin 6 → ℝ, getManipulabilityDir J (.inr d) none js = 0 ↔
      ∀ j, ∑ i, (if 3 ≤ i.val then 15 / 100 * J i j else J i j) * d i = 0) ∧
    ∀ d : Fin 3 → ℝ, getManipulabilityDir J (.inl d) none js =
      getManipulabilityDir J (.inr ![d 0, d 1, d 2, 0, 0, 0]) none js := by
  have hn : ∀ g : Fin n → ℝ, 0 ≤ ∑ j, g j * g j := fun g => Finset.sum_nonneg fun j _ => mul_self_nonneg _
  refine ⟨fun d => Real.sqrt_nonneg _, fun c d => ?_, fun d => ?_, fun d => ?_⟩
  · have hs : sixDim (.inr (c • d)) = c • sixDim (.inr d) := rfl
    show Real.sqrt (∑ j, ((penalize J)ᵀ *ᵥ sixDim (.inr (c • d))) j * ((penalize J)ᵀ *ᵥ sixDim (.inr (c • d))) j) =
      |c| * Real.sqrt (∑ j, ((penalize J)ᵀ *ᵥ sixDim (.inr d)) j * ((penalize J)ᵀ *ᵥ sixDim (.inr d)) j)
    rw [hs, mulVec_smul]
    have e : ∑ j, (c • (penalize J)ᵀ *ᵥ sixDim (.inr d)) j * (c • (penalize J)ᵀ *ᵥ sixDim (.inr d)) j =
        c * c * ∑ j, ((penalize J)ᵀ *ᵥ sixDim (.inr d)) j * ((penalize J)ᵀ *ᵥ sixDim (.inr d)) j := by
      rw [Finset.mul_sum]
      refine Finset.sum_congr rfl fun j _ => ?_
      simp only [Pi.smul_apply, smul_eq_mul]
      ring
    rw [e, Real.sqrt_mul (mul_self_nonneg c), Real.sqrt_mul_self_eq_abs]
  · show Real.sqrt (∑ j, ((penalize J)ᵀ *ᵥ sixDim (.inr d)) j * ((penalize J)ᵀ *ᵥ sixDim (.inr d)) j) = 0 ↔ _
    rw [Real.sqrt_eq_zero (hn _), Finset.sum_eq_zero_iff_of_nonneg (fun j _ => mul_self_nonneg _)]
    refine ⟨fun h j => ?_, fun h j _ => ?_⟩
    · have := mul_self_eq_zero.mp (h j (Finset.mem_univ _))
      rw [← this]
      show _ = ∑ i, penalize J i j * d i
      refine Finset.sum_congr rfl fun i _ => ?_
      unfold penalize
      split
      · ring
      · rfl
    · have e : ((penalize J)ᵀ *ᵥ sixDim (.inr d)) j = 0 := by
        rw [← h j]
        show ∑ i, penalize J i j * d i = _
        refine Finset.sum_congr rfl fun i _ => ?_
        unfold penalize
        split
        · ring
        · rfl
      rw [e, mul_zero]
  · have : sixDim (.inl d) = sixDim (.inr ![d 0, d 1, d 2, 0, 0, 0]) := by
      ext i
      fin_cases i <;> rfl
    unfold getManipulabilityDir
    rw [this]

/-- A concrete case of C173: six joints, each of which moves one coordinate. -/
example : IsSVD (penalize (1 : Matrix (Fin 6) (Fin 6) ℝ)) [1, 1, 1, 15 / 100, 15 / 100, 15 / 100] ∧
    ¬ Singular (1 : Matrix (Fin 6) (Fin 6) ℝ) := by
  refine ⟨⟨6, 1, 1, fun i => if 3 ≤ i.val then 15 / 100 else 1, rfl, ?_, by simp, by simp, ?_, ?_, ?_⟩, ?_⟩
  · simp [List.ofFn_succ, Fin.val_succ]
  · rw [penalize_eq]
    simp [wdiag]
  · intro i
    dsimp only
    split <;> norm_num
  · intro a b hab
    have : a.val ≤ b.val := hab
    dsimp only
    by_cases h : 3 ≤ b.val
    · rw [if_pos h]
      split <;> norm_num
    · rw [if_neg h, if_neg (by omega)]
  · intro h
    obtain ⟨d, hd, e⟩ := h.1 (le_refl _)
    simp at e
    exact hd e

/-! ## Joint limits -/

/-- **C174.** As long as all joints are within their limits the penalty is a factor between 0 and 1: zero
exactly if a joint stands at one of its limits, always smaller than 1. So the penalized quality is not
negative and not larger than the quality, and it vanishes at singular configurations and at the limits. -/
theorem C174_within (k : ℝ) (hk : 0 < k) (js : List Joint) (h : ∀ j ∈ js, Within j) :
    (0 ≤ limitFactor k js ∧ limitFactor k js < 1) ∧ (limitFactor k js = 0 ↔ ∃ j ∈ js, AtLimit j) ∧
    ∀ (sv : List ℝ) (i : Index) (first : ℤ), 0 ≤ getManipulability sv i first none js →
      0 ≤ getManipulability sv i first (some k) js ∧
      getManipulability sv i first (some k) js ≤ getManipulability sv i first none js ∧
      (getManipulability sv i first (some k) js = 0 ↔
        getManipulability sv i first none js = 0 ∨ ∃ j ∈ js, AtLimit j) := by
  obtain ⟨h0, h1, hz⟩ := limits_within h
  have hf : limitFactor k js = 1 - Real.exp (-k * (js.map part).prod) := by
    unfold limitFactor
    rw [limits_prod, one_mul]
  have hle : Real.exp (-k * (js.map part).prod) ≤ 1 := by
    rw [Real.exp_le_one_iff]
    nlinarith [mul_nonneg hk.le h0]
  have hb : 0 ≤ limitFactor k js ∧ limitFactor k js < 1 := by
    rw [hf]
    exact ⟨by linarith, by linarith [Real.exp_pos (-k * (js.map part).prod)]⟩
  have hzero : limitFactor k js = 0 ↔ ∃ j ∈ js, AtLimit j := by
    rw [hf, ← hz, sub_eq_zero, eq_comm, Real.exp_eq_one_iff, mul_eq_zero, or_iff_right (by linarith)]
  refine ⟨hb, hzero, fun sv i first hq => ?_⟩
  have e : getManipulability sv i first (some k) js = getManipulability sv i first none js * limitFactor k js := rfl
  rw [e]
  exact ⟨mul_nonneg hq hb.1, mul_le_of_le_one_right hq hb.2.le, by rw [mul_eq_zero, hzero]⟩

/-- **C174.** The value of the factor: with `m` joints that can move and are in the middle of their ranges it is
`1 - exp(-k / 4^m)`, and this is the largest value it takes within the limits. Joints whose limits coincide
do not count. -/
theorem C174_value (k : ℝ) (hk : 0 < k) (js : List Joint) (h : ∀ j ∈ js, Within j ∧ j.lo < j.hi) :
    limitFactor k js ≤ 1 - Real.exp (-k * (1 / 4) ^ js.length) ∧
    ((∀ j ∈ js, j.q = (j.lo + j.hi) / 2) → limitFactor k js = 1 - Real.exp (-k * (1 / 4) ^ js.length)) ∧
    ∀ fixed : List Joint, (∀ j ∈ fixed, j.lo = j.hi) → limitFactor k (js ++ fixed) = limitFactor k js := by
  have hp : ∀ l : List Joint, (∀ j ∈ l, Within j ∧ j.lo < j.hi) → (l.map part).prod ≤ (1 / 4) ^ l.length := by
    intro l hl
    induction l with
    | nil => simp
    | cons j r ih =>
      obtain ⟨hw, hlt⟩ := hl j List.mem_cons_self
      obtain ⟨a, -, b, -⟩ := part_within hw
      rw [List.map_cons, List.prod_cons, List.length_cons, pow_succ, mul_comm]
      exact mul_le_mul (ih fun x hx => hl x (List.mem_cons_of_mem _ hx)) (b hlt) a (by positivity)
  have hf : ∀ l : List Joint, limitFactor k l = 1 - Real.exp (-k * (l.map part).prod) := by
    intro l
    unfold limitFactor
    rw [limits_prod, one_mul]
  refine ⟨?_, fun hm => ?_, fun fixed hfix => ?_⟩
  · rw [hf]
    have : Real.exp (-k * (1 / 4) ^ js.length) ≤ Real.exp (-k * (js.map part).prod) := by
      rw [Real.exp_le_exp]
      nlinarith [hp js h]
    linarith
  · have : (js.map part).prod = (1 / 4) ^ js.length := by
      clear hp hf
      induction js with
      | nil => simp
      | cons j r ih =>
        rw [List.map_cons, List.prod_cons, List.length_cons, pow_succ, mul_comm,
          ih (fun x hx => h x (List.mem_cons_of_mem _ hx)) (fun x hx => hm x (List.mem_cons_of_mem _ hx))]
        congr 1
        have hlt := (h j List.mem_cons_self).2
        have hne : j.hi - j.lo ≠ 0 := by linarith
        have hq := hm j List.mem_cons_self
        unfold part limitStep
        rw [if_pos (mul_ne_zero hne hne), one_mul, div_eq_div_iff (mul_ne_zero hne hne) (by norm_num), hq]
        ring
    rw [hf, this]
  · rw [hf, hf, List.map_append, List.prod_append]
    have : (fixed.map part).prod = 1 := by
      clear hp hf
      induction fixed with
      | nil => simp
      | cons j r ih =>
        rw [List.map_cons, List.prod_cons, ih fun x hx => hfix x (List.mem_cons_of_mem _ hx), mul_one]
        unfold part limitStep
        rw [if_neg (by rw [hfix j List.mem_cons_self]; simp)]
    rw [this, mul_one]

/-- **C174**, refuted for joints outside their limits: one such joint makes the quality negative, two of them
cancel out and the pose counts as a good one. -/
theorem C174_outside_false :
    ∃ j : Joint, ¬ Within j ∧ limitFactor 50 [j] < 0 ∧ 0 < limitFactor 50 [j, j] := by
  refine ⟨⟨0, 1, 2⟩, fun h => ?_, ?_, ?_⟩
  · have : (2 : ℝ) ≤ 1 := h.2
    norm_num at this
  · have e : limitFactor 50 [⟨0, 1, 2⟩] = 1 - Real.exp 100 := by
      unfold limitFactor
      simp only [List.foldl_cons, List.foldl_nil]
      unfold limitStep
      norm_num
    rw [e, sub_neg]
    exact Real.one_lt_exp_iff.mpr (by norm_num)
  · have e : limitFactor 50 [⟨0, 1, 2⟩, ⟨0, 1, 2⟩] = 1 - Real.exp (-200) := by
      unfold limitFactor
      simp only [List.foldl_cons, List.foldl_nil]
      unfold limitStep
      norm_num
    rw [e, sub_pos]
    exact Real.exp_lt_one_iff.mpr (by norm_num)

/-- A concrete case of C174. -/
example : (∀ j ∈ [(⟨-1, 1, 0⟩ : Joint), ⟨0, 2, 1⟩], Within j ∧ j.lo < j.hi) ∧ AtLimit ⟨0, 2, 2⟩ := by
  unfold Within AtLimit
  constructor
  · intro j hj
    simp only [List.mem_cons, List.not_mem_nil, or_false] at hj
    rcases hj with rfl | rfl <;> norm_num
  · norm_num

end Simox.Mnp
