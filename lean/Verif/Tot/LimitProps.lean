import Verif.Tot.Limits
import Mathlib.Analysis.Calculus.Deriv.Abs
import Mathlib.Analysis.Calculus.Deriv.Inv

/-!
# C129: limits of the speed along a path
-/

namespace Simox.Tot

variable {n : ℕ}

theorem le_foldl_min (x : ℝ) (l : List ℝ) (m : ℝ) : x ≤ l.foldl min m ↔ x ≤ m ∧ ∀ y ∈ l, x ≤ y := by
  induction l generalizing m with
  | nil => simp
  | cons a l ih => rw [List.foldl_cons, ih, le_min_iff]; simp [and_assoc]

theorem dblMax_big : 4 ≤ dblMax := by
  have e : (2 : ℝ) ^ 1024 = 2 ^ 971 * 2 ^ 53 := (pow_add (2 : ℝ) 971 53)
  have h : (1 : ℝ) ≤ 2 ^ 971 := one_le_pow₀ (by norm_num)
  unfold dblMax
  rw [e]
  clear e
  generalize (2 : ℝ) ^ 971 = x at *
  norm_num
  linarith

/-- **C129** (speed): a speed along the path keeps every joint below its maximal speed exactly if it is below
`getVelocityMaxPathVelocity`. -/
theorem C129_velocity (vmax : Fin n → ℝ) (t : Cfg n) {v : ℝ} (h0 : 0 ≤ v) (h1 : v ≤ dblMax) (hv : ∀ i, 0 ≤ vmax i) :
    v ≤ velocityMaxPathVelocity vmax t ↔ ∀ i, |t i * v| ≤ vmax i := by
  unfold velocityMaxPathVelocity
  rw [le_foldl_min]
  simp only [List.mem_filterMap, List.mem_finRange, true_and]
  constructor
  · rintro ⟨-, h⟩ i
    rw [abs_mul, abs_of_nonneg h0]
    by_cases hi : t i = 0
    · rw [hi]; simpa using hv i
    · have := h _ ⟨i, by rw [if_pos hi]⟩
      rwa [le_div_iff₀ (abs_pos.2 hi), mul_comm] at this
  · intro h
    refine ⟨h1, ?_⟩
    rintro y ⟨i, hi⟩
    by_cases hz : t i = 0
    · simp [hz] at hi
    · rw [if_pos hz] at hi
      simp only [Option.some.injEq] at hi
      rw [← hi, le_div_iff₀ (abs_pos.2 hz), mul_comm]
      have := h i
      rwa [abs_mul, abs_of_nonneg h0] at this

/-- **C129** (acceleration): an acceleration along the path keeps every moving joint below its maximal acceleration exactly if
it is between the values of `getMinMaxPathAcceleration`. -/
theorem C129_acceleration (amax : Fin n → ℝ) (t k : Cfg n) (v : ℝ) {a : ℝ} (ha : |a| ≤ dblMax) :
    (minMaxPathAcceleration amax t k v false ≤ a ∧ a ≤ minMaxPathAcceleration amax t k v true) ↔
      ∀ i, t i ≠ 0 → |t i * a + k i * v ^ 2| ≤ amax i := by
  have ha' := abs_le.1 ha
  have hmem : ∀ factor x, (∀ y ∈ accCandidates amax t k v factor, x ≤ y) ↔ ∀ i, t i ≠ 0 → x ≤ amax i / |t i| - factor * k i * v * v / t i := by
    intro factor x
    simp only [accCandidates, List.mem_filterMap, List.mem_finRange, true_and]
    constructor
    · intro h i hi; exact h _ ⟨i, by rw [if_pos hi]⟩
    · rintro h y ⟨i, hi⟩
      by_cases hz : t i = 0
      · simp [hz] at hi
      · rw [if_pos hz] at hi
        simp only [Option.some.injEq] at hi
        rw [← hi]; exact h i hz
  have e1 : a ≤ minMaxPathAcceleration amax t k v true ↔ ∀ i, t i ≠ 0 → a ≤ amax i / |t i| - 1 * k i * v * v / t i := by
    unfold minMaxPathAcceleration
    simp only [if_true]
    rw [one_mul, le_foldl_min, hmem]
    exact ⟨fun h => h.2, fun h => ⟨ha'.2, h⟩⟩
  have e2 : minMaxPathAcceleration amax t k v false ≤ a ↔ ∀ i, t i ≠ 0 → -a ≤ amax i / |t i| - (-1) * k i * v * v / t i := by
    unfold minMaxPathAcceleration
    simp only [Bool.false_eq_true, if_false]
    rw [neg_one_mul, neg_le, le_foldl_min, hmem]
    exact ⟨fun h => h.2, fun h => ⟨by linarith, h⟩⟩
  rw [e1, e2]
  have hone : ∀ i, t i ≠ 0 → ((-a ≤ amax i / |t i| - (-1) * k i * v * v / t i ∧ a ≤ amax i / |t i| - 1 * k i * v * v / t i) ↔ |t i * a + k i * v ^ 2| ≤ amax i) := by
    intro i hi
    rw [abs_le]
    rcases lt_or_gt_of_ne hi with h | h
    · rw [abs_of_neg h]
      have c1 : (-a ≤ amax i / -t i - (-1) * k i * v * v / t i) ↔ t i * a + k i * v ^ 2 ≤ amax i := by
        rw [show amax i / -t i - (-1) * k i * v * v / t i = (amax i - k i * v ^ 2) / -t i by field_simp; ring1, le_div_iff₀ (neg_pos.2 h)]
        constructor <;> intro h' <;> linarith
      have c2 : (a ≤ amax i / -t i - 1 * k i * v * v / t i) ↔ -amax i ≤ t i * a + k i * v ^ 2 := by
        rw [show amax i / -t i - 1 * k i * v * v / t i = (amax i + k i * v ^ 2) / -t i by field_simp; ring1, le_div_iff₀ (neg_pos.2 h)]
        constructor <;> intro h' <;> linarith
      rw [c1, c2, and_comm]
    · rw [abs_of_pos h]
      have c1 : (-a ≤ amax i / t i - (-1) * k i * v * v / t i) ↔ -amax i ≤ t i * a + k i * v ^ 2 := by
        rw [show amax i / t i - (-1) * k i * v * v / t i = (amax i + k i * v ^ 2) / t i by field_simp; ring1, le_div_iff₀ h]
        constructor <;> intro h' <;> linarith
      have c2 : (a ≤ amax i / t i - 1 * k i * v * v / t i) ↔ t i * a + k i * v ^ 2 ≤ amax i := by
        rw [show amax i / t i - 1 * k i * v * v / t i = (amax i - k i * v ^ 2) / t i by field_simp, le_div_iff₀ h]
        constructor <;> intro h' <;> linarith
      rw [c1, c2]
  constructor
  · rintro ⟨h2, h1⟩ i hi; exact (hone i hi).1 ⟨h2 i hi, h1 i hi⟩
  · intro h; exact ⟨fun i hi => ((hone i hi).2 (h i hi)).1, fun i hi => ((hone i hi).2 (h i hi)).2⟩

/-- Intervals of which every two meet have a common point. -/
theorem common_point (S : Finset (Fin n)) (lo hi : Fin n → ℝ) (h : ∀ i ∈ S, ∀ j ∈ S, lo i ≤ hi j) : ∃ a, ∀ i ∈ S, lo i ≤ a ∧ a ≤ hi i := by
  rcases S.eq_empty_or_nonempty with rfl | hne
  · exact ⟨0, by simp⟩
  · obtain ⟨j, hj, hmax⟩ := S.exists_max_image lo hne
    exact ⟨lo j, fun i hi' => ⟨hmax i hi', h j hj i hi'⟩⟩

/-- **C129** (speed for accelerations): with a speed along the path there is an acceleration along the path that keeps every
joint below its maximal acceleration, exactly if the speed is not above `getAccelerationMaxPathVelocity`. -/
theorem C129_acceleration_velocity (amax : Fin n → ℝ) (t k : Cfg n) {v : ℝ} (h0 : 0 ≤ v) (hA : ∀ i, 0 ≤ amax i) :
    (∀ m ∈ accelerationMaxPathVelocity amax t k, v ≤ m) ↔ ∃ a : ℝ, ∀ i, |t i * a + k i * v ^ 2| ≤ amax i := by
  have e0 : (∀ m ∈ accelerationMaxPathVelocity amax t k, v ≤ m) ↔ ∀ y ∈ velCandidates amax t k, v ≤ y := by
    unfold accelerationMaxPathVelocity
    match velCandidates amax t k with
    | [] => simp
    | c :: cs => simp [le_foldl_min]
  have e1 : (∀ y ∈ velCandidates amax t k, v ≤ y) ↔
      (∀ i j, i < j → t i ≠ 0 → t j ≠ 0 → |k i / t i - k j / t j| * v ^ 2 ≤ amax i / |t i| + amax j / |t j|) ∧
        ∀ i, t i = 0 → |k i| * v ^ 2 ≤ amax i := by
    have hsq : ∀ x y : ℝ, 0 < y → 0 ≤ x → (v ≤ √(x / y) ↔ y * v ^ 2 ≤ x) := by
      intro x y hy hx
      rw [Real.le_sqrt h0 (div_nonneg hx hy.le), le_div_iff₀ hy, mul_comm]
    unfold velCandidates
    simp only [List.mem_flatMap, List.mem_finRange, true_and]
    constructor
    · intro h
      refine ⟨?_, ?_⟩
      · intro i j hij hi hj
        by_cases hz : k i / t i - k j / t j = 0
        · rw [hz, abs_zero, zero_mul]
          exact add_nonneg (div_nonneg (hA i) (abs_nonneg _)) (div_nonneg (hA j) (abs_nonneg _))
        · rw [← hsq _ _ (abs_pos.2 hz) (add_nonneg (div_nonneg (hA i) (abs_nonneg _)) (div_nonneg (hA j) (abs_nonneg _)))]
          refine h _ ⟨i, ?_⟩
          rw [if_pos hi, List.mem_filterMap]
          exact ⟨j, List.mem_finRange j, by rw [if_pos ⟨hij, hj, hz⟩]⟩
      · intro i hi
        by_cases hz : k i = 0
        · rw [hz, abs_zero, zero_mul]; exact hA i
        · rw [← hsq _ _ (abs_pos.2 hz) (hA i)]
          refine h _ ⟨i, ?_⟩
          rw [if_neg (by simpa using hi), if_pos hz]; simp
    · rintro ⟨h1, h2⟩ y ⟨i, hi⟩
      by_cases hz : t i = 0
      · rw [if_neg (by simpa using hz)] at hi
        by_cases hk : k i = 0
        · rw [if_neg (by simpa using hk)] at hi; cases hi
        · rw [if_pos hk, List.mem_singleton] at hi
          rw [hi, hsq _ _ (abs_pos.2 hk) (hA i)]
          exact h2 i hz
      · rw [if_pos hz, List.mem_filterMap] at hi
        obtain ⟨j, -, hj⟩ := hi
        by_cases hc : i < j ∧ t j ≠ 0 ∧ k i / t i - k j / t j ≠ 0
        · rw [if_pos hc] at hj
          simp only [Option.some.injEq] at hj
          rw [← hj, hsq _ _ (abs_pos.2 hc.2.2) (add_nonneg (div_nonneg (hA i) (abs_nonneg _)) (div_nonneg (hA j) (abs_nonneg _)))]
          exact h1 i j hc.1 hz hc.2.1
        · rw [if_neg hc] at hj; cases hj
  rw [e0, e1]
  -- the interval of accelerations a joint allows
  have hone : ∀ i a, t i ≠ 0 → (|t i * a + k i * v ^ 2| ≤ amax i ↔
      -(k i / t i) * v ^ 2 - amax i / |t i| ≤ a ∧ a ≤ -(k i / t i) * v ^ 2 + amax i / |t i|) := by
    intro i a hi
    have e : t i * a + k i * v ^ 2 = t i * (a + k i / t i * v ^ 2) := by field_simp
    rw [e, abs_mul, mul_comm, ← le_div_iff₀ (abs_pos.2 hi), abs_le]
    constructor <;> rintro ⟨h1, h2⟩ <;> constructor <;> linarith
  constructor
  · rintro ⟨h1, h2⟩
    obtain ⟨a, ha⟩ := common_point (Finset.univ.filter fun i => t i ≠ 0) (fun i => -(k i / t i) * v ^ 2 - amax i / |t i|)
      (fun i => -(k i / t i) * v ^ 2 + amax i / |t i|) (by
        intro i hi j hj
        have hi := (Finset.mem_filter.1 hi).2
        have hj := (Finset.mem_filter.1 hj).2
        have key : ∀ i j, i < j → t i ≠ 0 → t j ≠ 0 → |(k i / t i - k j / t j) * v ^ 2| ≤ amax i / |t i| + amax j / |t j| := by
          intro i j hij hi hj
          rw [abs_mul, abs_of_nonneg (sq_nonneg v)]; exact h1 i j hij hi hj
        rcases lt_trichotomy i j with hij | rfl | hij
        · have := (abs_le.1 (key i j hij hi hj)).1
          simp only; nlinarith
        · have : 0 ≤ amax i / |t i| := div_nonneg (hA i) (abs_nonneg _)
          simp only; linarith
        · have := (abs_le.1 (key j i hij hj hi)).2
          simp only; nlinarith)
    refine ⟨a, fun i => ?_⟩
    by_cases hz : t i = 0
    · rw [hz, zero_mul, zero_add, abs_mul, abs_of_nonneg (sq_nonneg v)]; exact h2 i hz
    · exact (hone i a hz).2 (ha i (Finset.mem_filter.2 ⟨Finset.mem_univ i, hz⟩))
  · rintro ⟨a, ha⟩
    refine ⟨?_, ?_⟩
    · intro i j _ hi hj
      have hi' := (hone i a hi).1 (ha i)
      have hj' := (hone j a hj).1 (ha j)
      rw [show |k i / t i - k j / t j| * v ^ 2 = |(k i / t i - k j / t j) * v ^ 2| by rw [abs_mul, abs_of_nonneg (sq_nonneg v)], abs_le]
      constructor <;> nlinarith [hi'.1, hi'.2, hj'.1, hj'.2]
    · intro i hi
      have := ha i
      rwa [hi, zero_mul, zero_add, abs_mul, abs_of_nonneg (sq_nonneg v)] at this

/-- The loop of `getVelocityMaxPathVelocityDeriv` finds the joint that decides. -/
theorem activeConstraint_eq (vmax : Fin n → ℝ) (t : Cfg n) {i : Fin n} (hi : t i ≠ 0) (hd : vmax i / |t i| < dblMax)
    (hmin : ∀ j, j ≠ i → |t j| * (vmax i / |t i|) < vmax j) : activeConstraint vmax t = (vmax i / |t i|, some i) := by
  have hother : ∀ j, j ≠ i → t j ≠ 0 → vmax i / |t i| < vmax j / |t j| := by
    intro j hj hz
    rw [lt_div_iff₀ (abs_pos.2 hz), mul_comm]; exact hmin j hj
  have key : ∀ (l : List (Fin n)) (s : ℝ × Option (Fin n)), (vmax i / |t i| < s.1 → i ∈ l) → (vmax i / |t i| ≤ s.1) → (s.1 = vmax i / |t i| → s.2 = some i) →
      l.foldl (fun s i => if t i ≠ 0 ∧ vmax i / |t i| < s.1 then (vmax i / |t i|, some i) else s) s = (vmax i / |t i|, some i) := by
    intro l
    induction l with
    | nil =>
        intro s h1 h2 h3
        have : s.1 = vmax i / |t i| := le_antisymm (not_lt.1 fun h => by cases h1 h) h2
        exact Prod.ext this (h3 this)
    | cons j l ih =>
        intro s h1 h2 h3
        rw [List.foldl_cons]
        by_cases hc : t j ≠ 0 ∧ vmax j / |t j| < s.1
        · rw [if_pos hc]
          by_cases hji : j = i
          · subst hji
            exact ih _ (fun h => absurd h (lt_irrefl _)) le_rfl (fun _ => rfl)
          · have ho := hother j hji hc.1
            refine ih _ (fun h => ?_) ho.le (fun h => absurd h ho.ne')
            rcases List.mem_cons.1 (h1 (ho.trans hc.2)) with h | h
            · exact absurd h.symm hji
            · exact h
        · rw [if_neg hc]
          refine ih _ (fun h => ?_) h2 h3
          rcases List.mem_cons.1 (h1 h) with h' | h'
          · exact absurd ⟨h' ▸ hi, h' ▸ h⟩ hc
          · exact h'
  exact key _ _ (fun _ => List.mem_finRange i) hd.le (fun h => absurd h hd.ne')

/-- **C129** (slope of the limit): where one joint decides about the maximal speed, `getVelocityMaxPathVelocityDeriv` is the
derivative of the maximal speed along the path. -/
theorem C129_derivative (vmax : Fin n → ℝ) {T K : ℝ → Cfg n} {s : ℝ} (hT : HasDerivAt T (K s) s) (hv : ∀ i, 0 ≤ vmax i) {i : Fin n}
    (hi : T s i ≠ 0) (hd : vmax i / |T s i| < dblMax) (hmin : ∀ j, j ≠ i → |T s j| * (vmax i / |T s i|) < vmax j) :
    ∃ d, velocityMaxPathVelocityDeriv vmax (T s) (K s) = some d ∧ HasDerivAt (fun s => velocityMaxPathVelocity vmax (T s)) d s := by
  refine ⟨-(vmax i * K s i) / (T s i * |T s i|), by rw [velocityMaxPathVelocityDeriv, activeConstraint_eq vmax (T s) hi hd hmin]; rfl, ?_⟩
  have hcomp : ∀ j, HasDerivAt (fun s => T s j) (K s j) s := fun j => (EuclideanSpace.proj j : Cfg n →L[ℝ] ℝ).hasFDerivAt.comp_hasDerivAt s hT
  have hcont : ∀ j, ContinuousAt (fun s => T s j) s := fun j => (hcomp j).continuousAt
  have hq : ContinuousAt (fun s => vmax i / |T s i|) s := continuousAt_const.div (hcont i).abs (abs_ne_zero.2 hi)
  have hev : ∀ᶠ x in nhds s, velocityMaxPathVelocity vmax (T x) = vmax i / |T x i| := by
    have h1 : ∀ᶠ x in nhds s, T x i ≠ 0 := (hcont i).eventually_ne hi
    have h2 : ∀ᶠ x in nhds s, vmax i / |T x i| < dblMax := hq.eventually_lt continuousAt_const hd
    have h3 : ∀ᶠ x in nhds s, ∀ j, j ≠ i → |T x j| * (vmax i / |T x i|) < vmax j := by
      rw [Filter.eventually_all]
      intro j
      by_cases hj : j = i
      · exact Filter.Eventually.of_forall fun x h => absurd hj h
      · exact (((hcont j).abs.mul hq).eventually_lt continuousAt_const (hmin j hj)).mono fun x h _ => h
    filter_upwards [h1, h2, h3] with x x1 x2 x3
    have hnn : 0 ≤ vmax i / |T x i| := div_nonneg (hv i) (abs_nonneg _)
    apply le_antisymm
    · have hle : velocityMaxPathVelocity vmax (T x) ≤ velocityMaxPathVelocity vmax (T x) := le_rfl
      unfold velocityMaxPathVelocity at hle ⊢
      rw [le_foldl_min] at hle
      exact hle.2 _ (by rw [List.mem_filterMap]; exact ⟨i, List.mem_finRange i, by rw [if_pos x1]⟩)
    · rw [C129_velocity vmax (T x) hnn x2.le hv]
      intro j
      rw [abs_mul, abs_of_nonneg hnn]
      by_cases hj : j = i
      · subst hj
        rw [mul_div_cancel₀ _ (abs_ne_zero.2 x1)]
      · exact (x3 j hj).le
  refine HasDerivAt.congr_of_eventuallyEq ?_ hev
  have habs : HasDerivAt (fun s => |T s i|) (SignType.sign (T s i) * K s i) s := HasDerivAt.comp (h₂ := fun x : ℝ => |x|) s (hasDerivAt_abs hi) (hcomp i)
  have := (hasDerivAt_const s (vmax i)).div habs (abs_ne_zero.2 hi)
  refine HasDerivAt.congr_deriv this ?_
  rcases lt_or_gt_of_ne hi with h | h
  · rw [abs_of_neg h, sign_neg h]; simp; field_simp
  · rw [abs_of_pos h, sign_pos h]; simp; field_simp

/-- Two joints, one on the straight part of its way: the limits decide. -/
example : velocityMaxPathVelocity (fun _ : Fin 2 => 1) !₂[(3 / 5 : ℝ), 4 / 5] = 5 / 4 ∧
    velocityMaxPathVelocityDeriv (fun _ : Fin 2 => 1) !₂[(3 / 5 : ℝ), 4 / 5] !₂[(-4 / 5 : ℝ), 3 / 5] = some (-15 / 16) := by
  have hd : (5 / 4 : ℝ) < dblMax := by linarith [dblMax_big]
  refine ⟨?_, ?_⟩
  · apply le_antisymm
    · have hle : velocityMaxPathVelocity (fun _ : Fin 2 => 1) !₂[(3 / 5 : ℝ), 4 / 5] ≤ velocityMaxPathVelocity (fun _ : Fin 2 => 1) !₂[(3 / 5 : ℝ), 4 / 5] := le_rfl
      conv_rhs at hle => unfold velocityMaxPathVelocity
      rw [le_foldl_min] at hle
      exact hle.2 _ (by rw [List.mem_filterMap]; exact ⟨1, List.mem_finRange 1, by norm_num⟩)
    · rw [C129_velocity _ _ (by norm_num) hd.le (fun _ => zero_le_one)]
      intro i
      fin_cases i <;> norm_num [abs_le]
  · rw [velocityMaxPathVelocityDeriv, activeConstraint_eq (i := 1) _ _ (by norm_num) (by norm_num; linarith) (by
      intro j hj
      fin_cases j
      · norm_num [abs_of_pos]
      · exact absurd rfl hj)]
    norm_num [abs_of_pos]

end Simox.Tot
