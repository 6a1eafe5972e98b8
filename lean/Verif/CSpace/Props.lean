import Verif.CSpace.Lemmas2
import Mathlib.Algebra.Order.BigOperators.Ring.Finset

/-!
# Properties C19 – C22, C38, C39: C-space metric, boundaries and local paths
-/

namespace Simox.CSpace

open Real Classical Spec

variable {n : Nat} {Q : Type}

/-! ## C38: the metric -/

/-- **C38.** The angular difference used in borderless dimensions is congruent to the plain difference
modulo a full turn, and no congruent value is smaller in magnitude. -/
theorem C38_angle_delta_shortest (a b : ℝ) :
    (∃ k : ℤ, angleDelta a b = b - a + 2 * π * k) ∧
    ∀ k : ℤ, |angleDelta a b| ≤ |b - a + 2 * π * k| := by
  obtain ⟨h1, h2, l, hl⟩ := angleDelta_spec a b
  refine ⟨⟨l, hl⟩, fun k => ?_⟩
  have hp := Real.pi_pos
  have e : b - a + 2 * π * k = angleDelta a b + 2 * π * ((k - l : ℤ) : ℝ) := by
    rw [hl]; push_cast; ring
  rw [e]
  have habs : |angleDelta a b| ≤ π := abs_le.mpr ⟨h1, h2.le⟩
  rcases lt_trichotomy (k - l) 0 with hk | hk | hk
  · have : ((k - l : ℤ) : ℝ) ≤ -1 := by exact_mod_cast Int.le_sub_one_of_lt hk
    refine habs.trans ?_
    rw [le_abs]; right; nlinarith
  · rw [hk]; simp
  · have : (1 : ℝ) ≤ ((k - l : ℤ) : ℝ) := by exact_mod_cast hk
    refine habs.trans ?_
    rw [le_abs]; left; nlinarith

theorem distDim_triangle (S : Space n) (a b c : Config n) (i : Fin n) :
    |S.distDim a c i| ≤ |S.distDim a b i| + |S.distDim b c i| := by
  unfold Space.distDim
  split
  · rw [abs_abs, abs_abs, abs_abs]
    obtain ⟨k, hk⟩ := (C38_angle_delta_shortest (a i) (b i)).1
    obtain ⟨l, hl⟩ := (C38_angle_delta_shortest (b i) (c i)).1
    refine ((C38_angle_delta_shortest (a i) (c i)).2 (k + l)).trans ?_
    rw [show c i - a i + 2 * π * ((k + l : ℤ) : ℝ) = angleDelta (a i) (b i) + angleDelta (b i) (c i) by
      rw [hk, hl]; push_cast; ring]
    exact abs_add_le _ _
  · rw [show a i - c i = (a i - b i) + (b i - c i) by ring]; exact abs_add_le _ _

theorem sqrt_sum_triangle (x y z : Fin n → ℝ)
    (hz : ∀ i, 0 ≤ z i) (h : ∀ i, z i ≤ x i + y i) :
    √(∑ i, z i ^ 2) ≤ √(∑ i, x i ^ 2) + √(∑ i, y i ^ 2) := by
  have hX : 0 ≤ ∑ i, x i ^ 2 := Finset.sum_nonneg fun i _ => sq_nonneg _
  have hY : 0 ≤ ∑ i, y i ^ 2 := Finset.sum_nonneg fun i _ => sq_nonneg _
  rw [Real.sqrt_le_left (by positivity), add_sq, Real.sq_sqrt hX, Real.sq_sqrt hY]
  have hcs : ∑ i, x i * y i ≤ √(∑ i, x i ^ 2) * √(∑ i, y i ^ 2) := by
    rw [← Real.sqrt_mul hX]
    apply Real.le_sqrt_of_sq_le
    exact Finset.sum_mul_sq_le_sq_mul_sq _ _ _
  have : ∑ i, z i ^ 2 ≤ ∑ i, (x i ^ 2 + 2 * (x i * y i) + y i ^ 2) := by
    apply Finset.sum_le_sum
    intro i _
    nlinarith [h i, hz i]
  rw [Finset.sum_add_distrib, Finset.sum_add_distrib, ← Finset.mul_sum] at this
  nlinarith

/-- **C38.** For every C-space, weighted or not, with or without borderless dimensions, `calcDist` is a
pseudo-metric. -/
theorem C38_dist_pseudo_metric (S : Space n) (force : Bool) (a b c : Config n) :
    0 ≤ S.calcDist a b force ∧ S.calcDist a a force = 0 ∧
    S.calcDist a b force = S.calcDist b a force ∧
    S.calcDist a c force ≤ S.calcDist a b force + S.calcDist b c force := by
  refine ⟨Real.sqrt_nonneg _, ?_, ?_, ?_⟩
  · have : S.calcDist a a force = 0 * S.calcDist a a force := by
      apply calcDist_scaled S a a a a force 0 (le_refl _)
      intro i
      unfold Space.distDim
      split <;> simp [angleDelta_self]
    rw [this]; ring
  · have := calcDist_scaled S b a a b force 1 (by norm_num) (by
      intro i
      unfold Space.distDim
      split
      · rw [abs_abs, one_mul, abs_abs]; exact abs_angleDelta_comm _ _
      · rw [one_mul, abs_sub_comm])
    rw [this]; ring
  · unfold Space.calcDist
    rw [calcDist2_eq, calcDist2_eq, calcDist2_eq]
    have key := sqrt_sum_triangle (fun i => |S.scale force i * S.distDim a b i|)
      (fun i => |S.scale force i * S.distDim b c i|) (fun i => |S.scale force i * S.distDim a c i|)
      (fun i => abs_nonneg _) (by
        intro i
        simp only [abs_mul, ← mul_add]
        exact mul_le_mul_of_nonneg_left (distDim_triangle S a b c i) (abs_nonneg _))
    simpa only [sq_abs] using key

/-- **C38.** Two configurations have distance zero exactly when they agree in every dimension with a
non-zero weight, up to full turns in borderless dimensions. -/
theorem C38_dist_zero_iff (S : Space n) (hw : S.useMetricWeights = true) (a b : Config n) :
    S.calcDist a b false = 0 ↔ ∀ i, S.metricWeights i = 0 ∨
      if S.borderless i then ∃ k : ℤ, b i = a i + 2 * π * k else a i = b i := by
  unfold Space.calcDist
  rw [Real.sqrt_eq_zero (by rw [calcDist2_eq]; exact Finset.sum_nonneg fun i _ => sq_nonneg _),
    calcDist2_eq, Finset.sum_eq_zero_iff_of_nonneg fun i _ => sq_nonneg _]
  simp only [Finset.mem_univ, forall_true_left, pow_eq_zero_iff (two_ne_zero), mul_eq_zero]
  apply forall_congr'
  intro i
  have : S.scale false i = S.metricWeights i := by simp [Space.scale, hw]
  rw [this]
  apply or_congr Iff.rfl
  unfold Space.distDim
  split
  · rw [abs_eq_zero]
    constructor
    · intro h
      obtain ⟨k, hk⟩ := (C38_angle_delta_shortest (a i) (b i)).1
      exact ⟨-k, by rw [h] at hk; push_cast; linarith⟩
    · rintro ⟨k, hk⟩
      have := (C38_angle_delta_shortest (a i) (b i)).2 (-k)
      rw [show b i - a i + 2 * π * ((-k : ℤ) : ℝ) = 0 by rw [hk]; push_cast; ring, abs_zero] at this
      exact abs_eq_zero.mp (le_antisymm this (abs_nonneg _))
  · exact sub_eq_zero

/-- **C38.** Interpolating by a fraction `f` between two configurations divides the distance in that
proportion (translational joints must not be declared limitless). -/
theorem C38_interpolation_proportional (S : Space n)
    (hS : ∀ i, S.borderless i = true → S.translational i = false) (a b : Config n) (f : ℝ)
    (h0 : 0 ≤ f) (h1 : f ≤ 1) (force : Bool) :
    S.calcDist a (S.interpolate a b f) force = f * S.calcDist a b force ∧
    S.calcDist (S.interpolate a b f) b force = (1 - f) * S.calcDist a b force :=
  ⟨calcDist_scaled S a b a _ force f h0 (fun i => (distDim_interp S hS a b f h0 h1 i).1),
   calcDist_scaled S a b _ b force (1 - f) (by linarith)
      (fun i => (distDim_interp S hS a b f h0 h1 i).2)⟩

/-- **C38.** An interpolated value of a borderless dimension lies within half a turn of the centre of its
boundary; in the other dimensions it lies between the two ends. -/
theorem C38_interpolation_range (S : Space n) (a b : Config n) (f : ℝ) (h0 : 0 ≤ f) (h1 : f ≤ 1)
    (i : Fin n) :
    if S.borderless i = true ∧ S.translational i = false then
      (S.boundaryMin i + S.boundaryMax i) / 2 - π ≤ S.interpolate a b f i ∧
      S.interpolate a b f i < (S.boundaryMin i + S.boundaryMax i) / 2 + π
    else min (a i) (b i) ≤ S.interpolate a b f i ∧ S.interpolate a b f i ≤ max (a i) (b i) := by
  have lin : min (a i) (b i) ≤ a i + f * (b i - a i) ∧ a i + f * (b i - a i) ≤ max (a i) (b i) := by
    rcases le_total (a i) (b i) with h | h
    · rw [min_eq_left h, max_eq_right h]; constructor <;> nlinarith
    · rw [min_eq_right h, max_eq_left h]; constructor <;> nlinarith
  unfold Space.interpolate
  cases hb : S.borderless i <;> cases ht : S.translational i
  · simpa using lin
  · simpa using lin
  · simp only [and_self, if_true, Bool.false_eq_true, if_false, Bool.true_eq_false]
    obtain ⟨h1, h2, _⟩ := angleModX_spec (angleLerp (a i) (b i) f)
      (1 / 2 * (S.boundaryMax i + S.boundaryMin i))
    constructor <;> linarith
  · simpa using lin

/-! ## C20: boundaries -/

theorem setBoundaries_fold (lo hi : Config n) (l : List (Fin n)) (S : Space n) :
    let S' := l.foldl (fun S i => S.setBoundary i (lo i) (hi i)) S
    ∀ i, (i ∈ l → S'.boundaryMin i = min (lo i) (hi i) ∧ S'.boundaryMax i = max (lo i) (hi i)) ∧
      (i ∉ l → S'.boundaryMin i = S.boundaryMin i ∧ S'.boundaryMax i = S.boundaryMax i) := by
  induction l generalizing S with
  | nil => intro S' i; exact ⟨by simp, fun _ => ⟨rfl, rfl⟩⟩
  | cons j l ih =>
    intro S' i
    have := ih (S.setBoundary j (lo j) (hi j)) i
    refine ⟨fun hi' => ?_, fun hi' => ?_⟩
    · by_cases hl : i ∈ l
      · exact this.1 hl
      · have hij : i = j := by simpa [hl] using hi'
        subst hij
        have e := this.2 hl
        refine ⟨e.1.trans ?_, e.2.trans ?_⟩
        · simp only [Space.setBoundary, Function.update_self]
          split
          · rename_i h; rw [min_eq_right h.le]
          · rename_i h; rw [min_eq_left (not_lt.mp h)]
        · simp only [Space.setBoundary, Function.update_self]
          split
          · rename_i h; rw [max_eq_left h.le]
          · rename_i h; rw [max_eq_right (not_lt.mp h)]
    · simp only [List.mem_cons, not_or] at hi'
      have e := this.2 hi'.2
      refine ⟨e.1.trans ?_, e.2.trans ?_⟩ <;>
        simp [Space.setBoundary, Function.update_of_ne hi'.1]

/-- **C20.** Setting the boundaries with limits in either order, a configuration is inside exactly when
each value lies between the two limits. -/
theorem C20_boundaries_either_order (S0 : Space n) (lo hi c : Config n) :
    (S0.setBoundaries lo hi).isInBoundary c ↔
      ∀ i, min (lo i) (hi i) ≤ c i ∧ c i ≤ max (lo i) (hi i) := by
  unfold Space.isInBoundary Space.setBoundaries
  push Not
  apply forall_congr'
  intro i
  obtain ⟨e1, e2⟩ := (setBoundaries_fold lo hi (List.finRange n) S0 i).1 (List.mem_finRange i)
  rw [e1, e2]

/-- **C20.** After `setBoundaries`, clamping a configuration puts it inside the boundary, changes
nothing if it was inside already, is idempotent, and gives in each dimension the admissible value
nearest to the given one. -/
theorem C20_clamping (S0 : Space n) (lo hi c : Config n) :
    let S := S0.setBoundaries lo hi
    S.isInBoundary (S.respectBoundaries c) ∧
    (S.isInBoundary c → S.respectBoundaries c = c) ∧
    S.respectBoundaries (S.respectBoundaries c) = S.respectBoundaries c ∧
    ∀ d, S.isInBoundary d → ∀ i, |c i - S.respectBoundaries c i| ≤ |c i - d i| := by
  intro S
  have hle : ∀ i, S.boundaryMin i ≤ S.boundaryMax i := by
    intro i
    obtain ⟨e1, e2⟩ := (setBoundaries_fold lo hi (List.finRange n) S0 i).1 (List.mem_finRange i)
    exact e1.trans_le ((min_le_left _ _).trans ((le_max_left _ _).trans_eq e2.symm))
  have key : ∀ c i, S.boundaryMin i ≤ S.respectBoundaries c i ∧
      S.respectBoundaries c i ≤ S.boundaryMax i := by
    intro c i
    have := hle i
    unfold Space.respectBoundaries
    simp only
    split
    · rw [if_neg (not_lt.mpr this)]; exact ⟨le_refl _, this⟩
    · rename_i h
      split
      · exact ⟨this, le_refl _⟩
      · rename_i h'; exact ⟨not_lt.mp h, not_lt.mp h'⟩
  have hin : ∀ c, S.isInBoundary c ↔ ∀ i, S.boundaryMin i ≤ c i ∧ c i ≤ S.boundaryMax i := by
    intro c; unfold Space.isInBoundary; push Not; rfl
  have keep : ∀ c, S.isInBoundary c → S.respectBoundaries c = c := by
    intro c hc
    funext i
    obtain ⟨h1, h2⟩ := (hin c).mp hc i
    unfold Space.respectBoundaries
    simp [not_lt.mpr h1, h2]
  refine ⟨(hin _).mpr (key c), keep c, keep _ ((hin _).mpr (key c)), ?_⟩
  intro d hd i
  obtain ⟨d1, d2⟩ := (hin d).mp hd i
  have := hle i
  unfold Space.respectBoundaries
  simp only
  by_cases h1 : c i < S.boundaryMin i
  · simp only [h1, if_true, not_lt.mpr this, if_false]
    rw [abs_of_nonpos (by linarith), abs_of_nonpos (by linarith)]; linarith
  · simp only [h1, if_false]
    split
    · rename_i h2
      rw [abs_of_nonneg (by linarith), abs_of_nonneg (by linarith)]; linarith
    · simp

/-- **C20.** A uniformly sampled configuration is inside the boundary, and every configuration inside
can be sampled. -/
theorem C20_random_config_inside (S0 : Space n) (lo hi : Config n) :
    let S := S0.setBoundaries lo hi
    (∀ t : Fin n → ℝ, (∀ i, 0 ≤ t i ∧ t i ≤ 1) → S.isInBoundary (S.randomConfig t)) ∧
    ∀ c, S.isInBoundary c → ∃ t : Fin n → ℝ, (∀ i, 0 ≤ t i ∧ t i ≤ 1) ∧ S.randomConfig t = c := by
  intro S
  have hle : ∀ i, S.boundaryMin i ≤ S.boundaryMax i := by
    intro i
    obtain ⟨e1, e2⟩ := (setBoundaries_fold lo hi (List.finRange n) S0 i).1 (List.mem_finRange i)
    exact e1.trans_le ((min_le_left _ _).trans ((le_max_left _ _).trans_eq e2.symm))
  constructor
  · rintro t ht ⟨i, hi⟩
    have := hle i
    obtain ⟨t0, t1⟩ := ht i
    unfold Space.randomConfig at hi
    rw [abs_of_nonneg (by linarith)] at hi
    rcases hi with h | h <;> nlinarith
  · intro c hc
    have hc : ∀ i, S.boundaryMin i ≤ c i ∧ c i ≤ S.boundaryMax i := by
      intro i; unfold Space.isInBoundary at hc; push Not at hc; exact hc i
    refine ⟨fun i => (c i - S.boundaryMin i) / (S.boundaryMax i - S.boundaryMin i), ?_, ?_⟩
    · intro i
      obtain ⟨h1, h2⟩ := hc i
      have := hle i
      exact ⟨div_nonneg (by linarith) (by linarith), div_le_one_of_le₀ (by linarith) (by linarith)⟩
    · funext i
      obtain ⟨h1, h2⟩ := hc i
      unfold Space.randomConfig
      rw [abs_of_nonneg (by linarith [hle i])]
      rcases eq_or_lt_of_le (hle i) with e | e
      · rw [← e]; simp; linarith
      · have : S.boundaryMax i - S.boundaryMin i ≠ 0 := by linarith
        field_simp; ring

/-- **C20.** `isConfigValid` accepts exactly the configurations that pass all the checks asked for. -/
theorem C20_config_valid_iff (inB free cons : Prop) (cb cc ck : Bool) :
    isConfigValid inB free cons cb cc ck ↔
      (cb = true → inB) ∧ (cc = true → free) ∧ (ck = true → cons) := by
  unfold isConfigValid
  by_cases h1 : inB <;> by_cases h2 : free <;> by_cases h3 : cons <;>
    cases cb <;> cases cc <;> cases ck <;> simp [h1, h2, h3]

/-! ## C21: sampled paths -/

/-- **C21** (partial). For every C-space whose interpolation is proportional (C38: all of them), every
positive sampling size and every two configurations at non-zero distance, `createPath` terminates;
the path begins with the start, consecutive configurations are at most 1.05 sampling sizes apart, and
it ends with a configuration that is the goal or less than `1e-6` away from it.
Missing: the end is not always the goal, see `C21_goal_missed`. -/
theorem C21_path_partial (S : Space n)
    (hS : ∀ i, S.borderless i = true → S.translational i = false) {ss : ℝ} (hss : 0 < ss)
    (start goal : Config n) (hne : S.calcDist start goal false ≠ 0) :
    ∃ p e, (start :: p ++ [e]).IsChain (fun u v => S.calcDist u v false ≤ ss * 1.05) ∧
      (e = goal ∨ S.calcDist e goal false < 1e-6) ∧
      ∃ N, ∀ fuel, N ≤ fuel → S.geo.createPath ss start goal fuel = some (start :: p ++ [e]) := by
  have hG := geoOK S hS
  have hd : S.geo.dist start goal ≠ 0 := hne
  obtain ⟨k, hk⟩ := exists_nat_ge (S.geo.dist start goal / ss)
  have hk : S.geo.dist start goal ≤ (k + 1) * ss := by
    rw [div_le_iff₀ hss] at hk; nlinarith
  obtain ⟨p, e, h1, h2, h3⟩ := createPathLoop_spec hG hss goal k start
    (decide (S.geo.dist start goal < ss)) [] hk
    (by intro h; have := of_decide_eq_true h; linarith)
    (by intro h; have := of_decide_eq_false h; linarith) (by simp)
  refine ⟨p, e, h2, h3, k + 2, fun fuel hf => ?_⟩
  unfold Geo.createPath
  simp only [hd, if_false]
  simpa using h1 fuel hf

/-- **C21.** If the distance is not within `1e-6` above the sampling size (and the sampling size is at
least `2e-5`), the path ends exactly at the goal. -/
theorem C21_path_reaches_goal (S : Space n)
    (hS : ∀ i, S.borderless i = true → S.translational i = false) {ss : ℝ} (hss : 2e-5 ≤ ss)
    (start goal : Config n) (hne : S.calcDist start goal false ≠ 0)
    (hw : S.calcDist start goal false < ss ∨ ss + 1e-6 ≤ S.calcDist start goal false)
    (fuel : Nat) (p : List (Config n)) (hp : S.geo.createPath ss start goal fuel = some p) :
    p.head? = some start ∧ p.getLast? = some goal := by
  have hG := geoOK S hS
  have hd : S.geo.dist start goal ≠ 0 := hne
  constructor
  · obtain ⟨p', e, _, _, N, h⟩ := C21_path_partial S hS (ss := ss) (by linarith) start goal hne
    have mono : ∀ (f : Nat) last d b acc q, S.geo.createPathLoop ss goal f last d b acc = some q →
        S.geo.createPathLoop ss goal (f + N) last d b acc = some q := by
      intro f
      induction f with
      | zero => intro last d b acc q h; simp [Geo.createPathLoop] at h
      | succ f ih =>
        intro last d b acc q h
        rw [Nat.succ_add]
        unfold Geo.createPathLoop at h ⊢
        simp only at h ⊢
        generalize (if b = true then goal else S.geo.interp last goal (ss / d)) = last' at h ⊢
        split at h
        · rename_i h1
          rw [if_pos h1]
          split at h
          · rename_i h2; rw [if_pos h2]; exact h
          · rename_i h2; rw [if_neg h2]; exact ih _ _ _ _ _ h
        · rename_i h1; rw [if_neg h1]; exact ih _ _ _ _ _ h
    have e2 := h (fuel + N) (by omega)
    unfold Geo.createPath at hp e2
    simp only [hd, if_false] at hp e2
    rw [mono _ _ _ _ _ _ hp] at e2
    injection e2 with e2
    rw [e2]; rfl
  · unfold Geo.createPath at hp
    simp only [hd, if_false] at hp
    refine createPathLoop_exact hG hss goal fuel start _ _ p ?_ hp
    intro h
    have := of_decide_eq_false h
    rcases hw with hw | hw
    · exact absurd hw this
    · exact hw

/-- **C21** is violated: when the distance exceeds the sampling size by less than `1e-6`, the path stops
short of the goal, at the distance of the excess. -/
theorem C21_goal_missed (S : Space n)
    (hS : ∀ i, S.borderless i = true → S.translational i = false) {ss : ℝ} (hss : 2e-5 ≤ ss)
    (start goal : Config n) (h1 : ss < S.calcDist start goal false)
    (h2 : S.calcDist start goal false < ss + 1e-6) (fuel : Nat) (hf : 0 < fuel) :
    ∃ e, S.geo.createPath ss start goal fuel = some [start, e] ∧ e ≠ goal ∧
      S.calcDist e goal false = S.calcDist start goal false - ss := by
  have hG := geoOK S hS
  have hpos : (0 : ℝ) < ss := by linarith
  obtain ⟨s1, s2⟩ := step_dist hG start goal hpos h1.le
  change ss < S.geo.dist start goal at h1
  change S.geo.dist start goal < ss + 1e-6 at h2
  refine ⟨S.geo.interp start goal (ss / S.geo.dist start goal), ?_, ?_, s2⟩
  · unfold Geo.createPath
    obtain ⟨f, rfl⟩ : ∃ f, fuel = f + 1 := ⟨fuel - 1, by omega⟩
    have a1 : S.geo.dist start goal ≠ 0 := by linarith
    have a2 : ¬ S.geo.dist start goal < ss := by linarith
    generalize hl : S.geo.interp start goal (ss / S.geo.dist start goal) = last' at s1 s2
    have a3 : S.geo.dist last' goal ≤ ss * 1.05 := by rw [s2]; norm_num at *; linarith
    have a4 : S.geo.dist last' goal < 1e-6 := by rw [s2]; linarith
    simp only [a1, if_false, a2, decide_false, Geo.createPathLoop, Bool.false_eq_true, hl, a3, if_true,
      a4, or_true, List.singleton_append]
  · intro h
    rw [h, hG.self] at s2
    linarith

/-! ## C22: path validity -/

/-- **C22**, soundness: whatever the metric, the validity predicate, the moment of a stop request and
the initial content of the scratch buffer, a positive answer means that the end is valid and that
there is a way from `q1` to `q2` through valid configurations only, in steps of at most 1.001 DCD
sampling sizes. -/
theorem C22_valid_sound (G : Geo Q) (valid : Q → Prop) (dcd : ℝ) (stop : Nat → Bool) (q1 q2 : Q)
    (buf : Nat → Q) (h : G.isPathValid valid dcd stop q1 q2 buf = true) :
    valid q2 ∧ ∃ l, ValidWay G.dist valid (dcd * 1.001) q1 q2 l := by
  obtain ⟨l, w⟩ := (isPathValidMem_sound G valid dcd stop 1000 1000 0 (by omega) (.ext q1) (.ext q2)
    buf 0 trivial trivial).2 h
  exact ⟨w.valid _ (List.mem_of_getLast? w.last), l, w⟩

/-- **C22**, completeness: without a stop request, and for configurations at most `2^999` sampling sizes
apart (so that the depth limit of 1000 does not bite), a negative answer means that one of the
configurations tested by bisection is invalid. -/
theorem C22_invalid_has_reason (S : Space n)
    (hS : ∀ i, S.borderless i = true → S.translational i = false) (valid : Config n → Prop) {dcd : ℝ}
    (hd : 0 < dcd) (q1 q2 : Config n) (buf : Nat → Config n)
    (hdist : S.calcDist q1 q2 false ≤ dcd * 1.001 * 2 ^ 999)
    (h : S.geo.isPathValid valid dcd (fun _ => false) q1 q2 buf = false) :
    ∃ c, Tested (fun a b => S.interpolate a b (1 / 2)) q1 q2 c ∧ ¬ valid c :=
  isPathValidMem_complete (geoOK S hS) valid hd 1000 999 0 rfl (.ext q1) (.ext q2) buf 0 trivial
    trivial hdist h

/-- **C22.** A zero DCD sampling size makes every check of two configurations at positive distance fail,
even if everything is valid. -/
theorem C22_zero_dcd_rejects (G : Geo Q) (hG : GeoOK G) (valid : Q → Prop) (stop : Nat → Bool)
    (q1 q2 : Q) (buf : Nat → Q) (hd : 0 < G.dist q1 q2) :
    G.isPathValid valid 0 stop q1 q2 buf = false := by
  cases h : G.isPathValid valid 0 stop q1 q2 buf with
  | false => rfl
  | true =>
    exfalso
    have key : ∀ (m idx : Nat), 1000 - idx ≤ m → ∀ (r1 r2 : Ref Q) (buf : Nat → Q) (k : Nat),
        0 < G.dist (r1.get buf) (r2.get buf) → r1.Below idx → r2.Below idx →
        (G.isPathValidMem valid 0 stop 1000 idx r1 r2 buf k).1 = false := by
      intro m
      induction m with
      | zero =>
        intro idx hm r1 r2 buf k hp _ _
        rw [Geo.isPathValidMem.eq_def]
        split
        · rfl
        · simp only
          rw [if_neg (by simpa using hp), dif_pos (by omega)]
      | succ m ih =>
        intro idx hm r1 r2 buf k hp b1 b2
        rw [Geo.isPathValidMem.eq_def]
        split
        · rfl
        · simp only
          rw [if_neg (by simpa using hp)]
          split
          · rfl
          · rw [mid_eq G hp]
            generalize hb1 : (fun j => if j = idx + 1
              then G.interp (r1.get buf) (r2.get buf) (1 / 2) else buf j) = buf1
            have hbuf : ∀ j, j ≤ idx → buf1 j = buf j := by
              intro j hj; rw [← hb1]; simp only; rw [if_neg (by omega)]
            have hmid : (Ref.tmp (idx + 1) : Ref Q).get buf1 =
                G.interp (r1.get buf) (r2.get buf) (1 / 2) := by
              rw [← hb1]; simp [Ref.get]
            have := ih (idx + 1) (by omega) r1 (.tmp (idx + 1)) buf1 (k + 1) (by
              rw [Ref.get_congr b1 hbuf, hmid, hG.left _ _ _ (by norm_num) (by norm_num)]
              positivity) (b1.mono (by omega)) (Nat.le_refl _)
            rw [this]; simp [this]
    have := key 1000 0 (by omega) (.ext q1) (.ext q2) buf 0 hd trivial trivial
    unfold Geo.isPathValid at h
    rw [this] at h
    exact Bool.noConfusion h

/-! ## C39: local paths until the first invalid configuration -/

/-- **C39.** `createPathUntilInvalid` terminates; every configuration it adds behind the start lies on a
way of valid configurations leaving the start in steps of at most the DCD sampling size; it reports
full length exactly if it reached the goal; otherwise the goal or a configuration on the way is
invalid. -/
theorem C39_until_invalid (S : Space n)
    (hS : ∀ i, S.borderless i = true → S.translational i = false)
    (validB validN : Config n → Prop) (hBN : ∀ c, validB c → validN c) {dcd : ℝ} (hd : 0 < dcd)
    (ss : ℝ) (start goal : Config n) (hne : S.calcDist start goal false ≠ 0) :
    ∃ (res : PartialPath (Config n)) (x way : List (Config n)) (N : Nat),
      (∀ fuel, N ≤ fuel →
        S.geo.createPathUntilInvalid validB validN dcd ss start goal fuel = some res) ∧
      res.points = start :: x ∧ x.Sublist way ∧ (∀ c ∈ way, validN c) ∧
      (start :: way).IsChain (fun u v => S.calcDist u v false ≤ dcd) ∧
      (res.added = 1 → x.getLast? = some goal) ∧
      (res.added ≠ 1 → ¬ validN goal ∨
        ∃ c, ¬ validB c ∧ S.calcDist c goal false < S.calcDist start goal false) := by
  have hG := geoOK S hS
  have hdist : S.geo.dist start goal ≠ 0 := hne
  have hpos : 0 < S.geo.dist start goal := lt_of_le_of_ne (hG.nonneg _ _) (Ne.symm hdist)
  obtain ⟨k, hk⟩ := exists_nat_ge (S.geo.dist start goal / dcd)
  have hk : S.geo.dist start goal ≤ (k + 1) * dcd := by
    rw [div_le_iff₀ hd] at hk; nlinarith
  obtain ⟨res, x, p, q1, q2, q3, q4, q5, q6, q7⟩ := untilInvalidLoop_spec hG validB validN hBN hd ss
    goal hpos k start 0 ⟨[start], 0⟩ hk hpos (le_refl _) (by norm_num)
  refine ⟨res, x, p, k + 1, ?_, q4, q5, q3, q2, q6, q7⟩
  intro fuel hf
  unfold Geo.createPathUntilInvalid
  simp only [hdist, if_false]
  exact q1 fuel hf

/-- **C39.** At distance zero full length is reported without adding the goal and without checking it,
whatever its validity. -/
theorem C39_zero_distance_unchecked (S : Space n) (validB validN : Config n → Prop) (dcd ss : ℝ)
    (start goal : Config n) (h : S.calcDist start goal false = 0) (fuel : Nat) :
    S.geo.createPathUntilInvalid validB validN dcd ss start goal fuel =
      some { points := [start], added := 1 } := by
  have : S.geo.dist start goal = 0 := h
  simp [Geo.createPathUntilInvalid, this]

/-! ## C19: path length and metric weights -/

theorem calcDist_norm (S : Space n) (b : Bool) :
    (fun x y => S.calcDist x y b) = fun x y =>
      wnorm (if S.useMetricWeights = true ∧ (!b) = true then S.metricWeights else fun _ => 1)
        (S.distDim x y) := by
  funext x y
  unfold Space.calcDist wnorm
  rw [calcDist2_eq]
  congr 1
  apply Finset.sum_congr rfl
  intro i _
  unfold Space.scale
  cases S.useMetricWeights <;> cases b <;> simp

/-- **C19** is violated: `getLength` returns the length that the *opposite* flag asks for. -/
theorem C19_length_flag_inverted (S : Space n) (useCSpaceWeights : Bool) (l : List (Config n)) :
    pathLength S useCSpaceWeights l = intendedLength S (!useCSpaceWeights) l := by
  rw [pathLength_eq, calcDist_norm, intendedLength]

/-- **C19** (partial): without metric weights the flag is irrelevant and the length is right. -/
theorem C19_length_partial (S : Space n) (hw : S.useMetricWeights = false) (b : Bool)
    (l : List (Config n)) : pathLength S b l = intendedLength S b l := by
  rw [pathLength_eq, calcDist_norm, intendedLength]
  simp [hw]

/-- **C19.** The time of the last point is the weighted length divided by the unweighted one; it is 1 only
if these agree. -/
theorem C19_time_at_end (S : Space n) (l : List (Config n)) :
    pathTime S l (l.length - 1) = intendedLength S true l / intendedLength S false l := by
  unfold pathTime
  have e : pathLength S true l = intendedLength S false l := C19_length_flag_inverted S true l
  rw [e]
  rw [show intendedLength S true l = polylineLength (fun a b => S.calcDist a b false) l by
    rw [calcDist_norm]; rfl, ← polyline_sum, div_eq_mul_inv, Finset.sum_mul]
  apply Finset.sum_congr rfl
  intro i _
  cases l[i]? <;> cases l[i + 1]? <;> simp [div_eq_mul_inv]

/-- A one-dimensional C-space with metric weight `w`. -/
noncomputable def lineSpace (w : ℝ) : Space 1 where
  useMetricWeights := true
  metricWeights := fun _ => w
  borderless := fun _ => false
  translational := fun _ => false
  boundaryMin := fun _ => 0
  boundaryMax := fun _ => 10

theorem lineSpace_dist {w : ℝ} (hw : 0 ≤ w) (a b : Config 1) :
    (lineSpace w).calcDist a b false = w * |a 0 - b 0| ∧
    (lineSpace w).calcDist a b true = |a 0 - b 0| := by
  constructor
  · simp only [Space.calcDist, Space.calcDist2, lineSpace, Space.distDim]
    simp only [Bool.not_false, Bool.and_self, if_true, Bool.false_eq_true, if_false,
      Finset.univ_unique, Fin.default_eq_zero, Fin.isValue, Finset.sum_singleton]
    rw [show w * w * (a 0 - b 0) * (a 0 - b 0) = (w * |a 0 - b 0|) ^ 2 by rw [mul_pow, sq_abs]; ring]
    exact Real.sqrt_sq (by positivity)
  · simp only [Space.calcDist, Space.calcDist2, lineSpace, Space.distDim]
    simp only [Bool.not_true, Bool.and_false, Bool.false_eq_true, if_false,
      Finset.univ_unique, Fin.default_eq_zero, Fin.isValue, Finset.sum_singleton]
    exact Real.sqrt_mul_self_eq_abs _

/-- **C19**, consequence: in a one-dimensional C-space with weight 2, the point "half way" (`t = 1/2`)
on the straight path from 0 to 2 is 0.5, and the time of the end point is 2. -/
theorem C19_half_way_is_quarter :
    (pathInterpolate (lineSpace 2) [fun _ => 0, fun _ => 2] (1 / 2) = some fun _ => 1 / 2) ∧
    pathTime (lineSpace 2) [fun _ => 0, fun _ => 2] 1 = 2 := by
  have d1 := (lineSpace_dist (w := 2) (by norm_num) (fun _ => 0) (fun _ => 2)).1
  have d2 := (lineSpace_dist (w := 2) (by norm_num) (fun _ => 0) (fun _ => 2)).2
  norm_num at d1 d2
  constructor
  · unfold pathInterpolate
    simp only [pathLength, d2, segmentSearch, d1]
    norm_num
    simp [lineSpace]
  · have := C19_time_at_end (lineSpace 2) [fun _ => 0, fun _ => 2]
    simp only [List.length_cons, List.length_nil, Nat.zero_add, Nat.add_one_sub_one, Nat.reduceAdd]
      at this
    rw [this]
    have e1 : intendedLength (lineSpace 2) true [fun _ => 0, fun _ => 2] = 4 := by
      have := C19_length_flag_inverted (lineSpace 2) false [fun _ => 0, fun _ => 2]
      simp only [Bool.not_false] at this
      rw [← this]; simp [pathLength, d1]
    have e2 : intendedLength (lineSpace 2) false [fun _ => 0, fun _ => 2] = 2 := by
      have := C19_length_flag_inverted (lineSpace 2) true [fun _ => 0, fun _ => 2]
      simp only [Bool.not_true] at this
      rw [← this]; simp [pathLength, d2]
    rw [e1, e2]; norm_num

/-! ## Non-vacuity -/

example : (lineSpace 2).calcDist (fun _ => 0) (fun _ => 2) false = 4 := by
  rw [(lineSpace_dist (w := 2) (by norm_num) _ _).1]; norm_num

/-- The window of `C21_goal_missed` is met by a concrete pair. -/
example : (1 : ℝ) < (lineSpace 1).calcDist (fun _ => 0) (fun _ => 1 + 1e-7) false ∧
    (lineSpace 1).calcDist (fun _ => 0) (fun _ => 1 + 1e-7) false < 1 + 1e-6 := by
  rw [(lineSpace_dist (w := 1) (by norm_num) _ _).1]; norm_num

/-- A positive answer of `isPathValid` that needed bisection. -/
example : (lineSpace 1).geo.isPathValid (fun c => 0 ≤ c 0) 1 (fun _ => false) (fun _ => 0)
    (fun _ => 2) (fun _ _ => 0) = true := by
  cases h : (lineSpace 1).geo.isPathValid (fun c => 0 ≤ c 0) 1 (fun _ => false) (fun _ => 0)
    (fun _ => 2) (fun _ _ => 0) with
  | true => rfl
  | false =>
    obtain ⟨c, hc, hv⟩ := C22_invalid_has_reason (lineSpace 1) (by simp [lineSpace])
      (fun c => 0 ≤ c 0) (dcd := 1) (by norm_num) (fun _ => 0) (fun _ => 2) (fun _ _ => 0)
      (by
        rw [(lineSpace_dist (w := 1) (by norm_num) _ _).1]
        have : (2 : ℝ) ^ 1 ≤ 2 ^ 999 := pow_le_pow_right₀ (by norm_num) (by norm_num)
        rw [pow_one] at this; rw [show |(0:ℝ) - 2| = 2 by norm_num]; generalize (2:ℝ)^999 = x at this ⊢; norm_num; linarith) h
    refine absurd ?_ hv
    have key : ∀ a b c : Config 1, Tested (fun a b => (lineSpace 1).interpolate a b (1 / 2)) a b c →
        0 ≤ a 0 → 0 ≤ b 0 → 0 ≤ c 0 := by
      intro a b c ht
      have mid : ∀ a b : Config 1, 0 ≤ a 0 → 0 ≤ b 0 →
          0 ≤ (lineSpace 1).interpolate a b (1 / 2) 0 := by
        intro a b ha hb
        simp [Space.interpolate, lineSpace]; linarith
      induction ht with
      | endpoint a b => intro _ hb; exact hb
      | left _ ih => intro ha hb; exact ih ha (mid _ _ ha hb)
      | right _ ih => intro ha hb; exact ih (mid _ _ ha hb) hb
    exact key _ _ _ hc (by norm_num) (by norm_num)

end Simox.CSpace
