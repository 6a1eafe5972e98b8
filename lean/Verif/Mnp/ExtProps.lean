import Verif.Mnp.Props
import Mathlib.Tactic.FinCases

/-!
# C175: the extended measure
-/

namespace Simox.Mnp

open Matrix Spec

/-! ## Lemmas -/

theorem steepness_nonneg (j : Joint) : 0 ≤ steepness j := abs_nonneg _

theorem inv_sqrt_bounds {w : ℝ} (hw : 0 ≤ w) : 0 < 1 / Real.sqrt (1 + w) ∧ 1 / Real.sqrt (1 + w) ≤ 1 := by
  have h1 : 1 ≤ Real.sqrt (1 + w) := by
    rw [Real.one_le_sqrt]
    linarith
  exact ⟨by positivity, by rw [div_le_one (by linarith)]; exact h1⟩

theorem inv_sqrt_mono {w w' : ℝ} (hw : 0 ≤ w) (h : w ≤ w') :
    1 / Real.sqrt (1 + w') ≤ 1 / Real.sqrt (1 + w) := by
  have h1 : 1 ≤ Real.sqrt (1 + w) := by
    rw [Real.one_le_sqrt]
    linarith
  exact one_div_le_one_div_of_le (by linarith) (Real.sqrt_le_sqrt (by linarith))

theorem pen_upper {j : Joint} (h : |j.q - j.lo| > |j.q - j.hi|) :
    penLo j = 1 ∧ penHi j = 1 / Real.sqrt (1 + steepness j) := by
  unfold penLo penHi weights
  rw [if_pos h]
  simp

theorem pen_lower {j : Joint} (h : ¬ |j.q - j.lo| > |j.q - j.hi|) :
    penHi j = 1 ∧ penLo j = 1 / Real.sqrt (1 + steepness j) := by
  unfold penLo penHi weights
  rw [if_neg h]
  simp

theorem pen_bounds (j : Joint) : (0 < penLo j ∧ penLo j ≤ 1) ∧ 0 < penHi j ∧ penHi j ≤ 1 := by
  have hb := inv_sqrt_bounds (steepness_nonneg j)
  by_cases h : |j.q - j.lo| > |j.q - j.hi|
  · rw [(pen_upper h).1, (pen_upper h).2]
    exact ⟨⟨one_pos, le_refl _⟩, hb⟩
  · rw [(pen_lower h).1, (pen_lower h).2]
    exact ⟨hb, one_pos, le_refl _⟩

theorem steepness_limit {j : Joint} (h : j.q = j.lo ∨ j.q = j.hi) : steepness j = 10 ^ 10 := by
  unfold steepness
  rw [if_neg, abs_of_pos (by positivity)]
  rintro ⟨a, b⟩
  rcases h with h | h
  · rw [h, sub_self, abs_zero] at b
    have : (0 : ℝ) < 1 / 10 ^ 10 := by positivity
    linarith
  · rw [h, sub_self, abs_zero] at a
    have : (0 : ℝ) < 1 / 10 ^ 10 := by positivity
    linarith

/-- The steepness of a joint that is neither at the lower nor at the upper limit, by its distances to them. -/
theorem steepness_inner {j : Joint} {a b : ℝ} (ha : j.q - j.lo = a) (hb : j.hi - j.q = b) (h1 : 1 / 10 ^ 10 < a)
    (h2 : 1 / 10 ^ 10 < b) : steepness j = (a + b) * (a + b) * |a - b| / (4 * (b * b) * (a * a)) := by
  have hp : (0 : ℝ) < 1 / 10 ^ 10 := by positivity
  have ha0 : 0 < a := by linarith
  have hb0 : 0 < b := by linarith
  unfold steepness
  rw [if_pos ⟨by rw [hb, abs_of_pos hb0]; exact h2, by rw [ha, abs_of_pos ha0]; exact h1⟩]
  have e1 : j.hi - j.lo = a + b := by linarith
  have e2 : 2 * j.q - j.hi - j.lo = a - b := by linarith
  have e3 : 4 * (j.hi - j.q) * (j.hi - j.q) * (j.q - j.lo) * (j.q - j.lo) = 4 * (b * b) * (a * a) := by
    rw [ha, hb]; ring
  rw [e1, e2, e3, abs_div, abs_mul, abs_of_pos (by positivity : 0 < (a + b) * (a + b)),
    abs_of_pos (by positivity : 0 < 4 * (b * b) * (a * a))]

theorem upperCounts_pos {dir a : ℝ} (h : 0 < dir * a) : upperCounts dir a = true := by
  unfold upperCounts
  rcases mul_pos_iff.mp h with ⟨h1, h2⟩ | ⟨h1, h2⟩
  · rw [if_neg (by linarith), if_neg (by linarith)]; rfl
  · rw [if_pos h1, if_pos h2]; rfl

theorem upperCounts_neg {dir a : ℝ} (h : dir * a < 0) : upperCounts dir a = false := by
  unfold upperCounts
  rcases mul_neg_iff.mp h with ⟨h1, h2⟩ | ⟨h1, h2⟩
  · rw [if_pos h2, if_neg (by linarith)]; rfl
  · rw [if_pos h1, if_neg (by linarith)]; rfl

theorem fold_smaller_le (l : List ℝ) (t : ℝ) : l.foldl smaller t ≤ t ∧ ∀ x ∈ l, l.foldl smaller t ≤ x := by
  induction l generalizing t with
  | nil => simp
  | cons y r ih =>
    have hs : smaller t y ≤ t ∧ smaller t y ≤ y := by
      unfold smaller
      split
      · exact ⟨le_of_lt ‹_›, le_refl _⟩
      · exact ⟨le_refl _, not_lt.mp ‹_›⟩
    rw [List.foldl_cons]
    obtain ⟨a, b⟩ := ih (smaller t y)
    refine ⟨a.trans hs.1, fun x hx => ?_⟩
    rcases List.mem_cons.mp hx with rfl | hx
    · exact a.trans hs.2
    · exact b x hx

theorem fold_smaller_mem (l : List ℝ) (t : ℝ) : l.foldl smaller t = t ∨ l.foldl smaller t ∈ l := by
  induction l generalizing t with
  | nil => simp
  | cons y r ih =>
    rw [List.foldl_cons]
    rcases ih (smaller t y) with h | h
    · rw [h]
      unfold smaller
      split
      · exact Or.inr List.mem_cons_self
      · exact Or.inl rfl
    · exact Or.inr (List.mem_cons_of_mem _ h)

/-- The smallest of a list of numbers that are not larger than the start. -/
theorem fold_smaller_min {l : List ℝ} {t : ℝ} (hl : l ≠ []) (ht : ∀ x ∈ l, x ≤ t) :
    l.foldl smaller t ∈ l ∧ ∀ x ∈ l, l.foldl smaller t ≤ x := by
  refine ⟨?_, (fold_smaller_le l t).2⟩
  rcases fold_smaller_mem l t with h | h
  · obtain ⟨x, hx⟩ := List.exists_mem_of_ne_nil l hl
    have := (fold_smaller_le l t).2 x hx
    rw [h] at this ⊢
    rw [le_antisymm this (ht x hx)]
    exact hx
  · exact h

theorem fold_larger_le (l : List ℝ) (t : ℝ) : t ≤ l.foldl larger t ∧ ∀ x ∈ l, x ≤ l.foldl larger t := by
  induction l generalizing t with
  | nil => simp
  | cons y r ih =>
    have hs : t ≤ larger t y ∧ y ≤ larger t y := by
      unfold larger
      split
      · exact ⟨le_of_lt ‹_›, le_refl _⟩
      · exact ⟨le_refl _, not_lt.mp ‹_›⟩
    rw [List.foldl_cons]
    obtain ⟨a, b⟩ := ih (larger t y)
    refine ⟨hs.1.trans a, fun x hx => ?_⟩
    rcases List.mem_cons.mp hx with rfl | hx
    · exact hs.2.trans a
    · exact b x hx

theorem fold_larger_mem (l : List ℝ) (t : ℝ) : l.foldl larger t = t ∨ l.foldl larger t ∈ l := by
  induction l generalizing t with
  | nil => simp
  | cons y r ih =>
    rw [List.foldl_cons]
    rcases ih (larger t y) with h | h
    · rw [h]
      unfold larger
      split
      · exact Or.inr List.mem_cons_self
      · exact Or.inl rfl
    · exact Or.inr (List.mem_cons_of_mem _ h)

theorem foldl_sq (l : List ℝ) (a : ℝ) : l.foldl (fun a x => a * (x * x)) (a * a) = (a * l.prod) * (a * l.prod) := by
  induction l generalizing a with
  | nil => simp
  | cons x r ih =>
    rw [List.foldl_cons, List.prod_cons]
    have : a * a * (x * x) = (a * x) * (a * x) := by ring
    rw [this, ih]
    ring

/-- The volume of an octant is the product of its singular values. -/
theorem extVolume_eq {sv : List ℝ} (h : ∀ x ∈ sv, 0 ≤ x) (k : ℕ) : extVolume sv k = product sv k := by
  cases sv with
  | nil => rfl
  | cons s r =>
    show Real.sqrt ((r.take (k - 1)).foldl (fun a x => a * (x * x)) (s * s)) = (r.take (k - 1)).foldl (· * ·) s
    rw [foldl_sq, foldl_mul, Real.sqrt_mul_self]
    exact mul_nonneg (h s List.mem_cons_self)
      (List.prod_nonneg fun x hx => h x (List.mem_cons_of_mem _ (List.mem_of_mem_take hx)))

/-- The ratio of an octant is the ratio of the last to the first singular value. -/
theorem extRatio_eq {top : ℝ} {sv : List ℝ} (h : ∀ x ∈ sv, 0 ≤ x ∧ x ≤ top) (hs : sv.Pairwise (fun a b => b ≤ a))
    (hl : 2 ≤ sv.length) {k : ℕ} (h0 : 0 < k) (hk : k ≤ sv.length) : extRatio top sv k = ratio sv k := by
  have hlt : k - 1 < sv.length := by omega
  have hl0 : 0 < sv.length := by omega
  have e1 : sv.getD (k - 1) 0 = sv[k - 1] := by simp [List.getD, hlt]
  have e0 : sv.getD 0 0 = sv[0] := by simp [List.getD, hl0]
  have mem : ∀ x ∈ sv.take k, sv[k - 1] ≤ x ∧ x ≤ sv[0] := by
    intro x hx
    obtain ⟨i, hi, rfl⟩ := List.mem_iff_getElem.mp hx
    rw [List.length_take] at hi
    rw [List.getElem_take]
    refine ⟨?_, ?_⟩
    · rcases Nat.lt_or_ge i (k - 1) with h' | h'
      · exact List.pairwise_iff_getElem.mp hs i (k - 1) (by omega) hlt h'
      · have : i = k - 1 := by omega
        subst this
        exact le_refl _
    · rcases Nat.eq_zero_or_pos i with rfl | h'
      · exact le_refl _
      · exact List.pairwise_iff_getElem.mp hs 0 i hl0 (by omega) h'
  have m1 : sv[k - 1] ∈ sv.take k := by
    rw [List.mem_iff_getElem]
    exact ⟨k - 1, by rw [List.length_take]; omega, by rw [List.getElem_take]⟩
  have m0 : sv[0] ∈ sv.take k := by
    rw [List.mem_iff_getElem]
    exact ⟨0, by rw [List.length_take]; omega, by rw [List.getElem_take]⟩
  have hlo : (sv.take k).foldl smaller top = sv[k - 1] := by
    obtain ⟨a, b⟩ := fold_smaller_min (l := sv.take k) (t := top) (fun e => by rw [e] at m0; simp at m0)
      fun x hx => (h x (List.mem_of_mem_take hx)).2
    exact le_antisymm (b _ m1) (mem _ a).1
  have hhi : (sv.take k).foldl larger 0 = sv[0] := by
    refine le_antisymm ?_ ((fold_larger_le _ _).2 _ m0)
    rcases fold_larger_mem (sv.take k) 0 with e | e
    · rw [e]
      exact (h _ (List.getElem_mem _)).1
    · exact (mem _ e).2
  show (if (sv.take k).foldl larger 0 ≠ 0 then (sv.take k).foldl smaller top / (sv.take k).foldl larger 0 else 0) = _
  unfold ratio
  rw [if_pos hl, hlo, hhi, e1, e0]

theorem fold_map {β : Type} (f : β → ℝ) (l : List β) (t : ℝ) :
    l.foldl (fun acc x => smaller acc (f x)) t = (l.map f).foldl smaller t := by
  rw [List.foldl_map]

theorem fold_ratio {top : ℝ} {svs : List (List ℝ)} {k m : ℕ} (h0 : 0 < k) (hk : k ≤ m) (hm : 2 ≤ m)
    (h : ∀ sv ∈ svs, sv.length = m ∧ (∀ x ∈ sv, 0 ≤ x ∧ x ≤ top) ∧ sv.Pairwise (fun a b => b ≤ a)) (t : ℝ) :
    svs.foldl (fun acc sv => if 2 ≤ sv.length then smaller acc (extRatio top sv k) else acc) t =
      (svs.map fun sv => ratio sv k).foldl smaller t := by
  induction svs generalizing t with
  | nil => rfl
  | cons sv r ih =>
    obtain ⟨hl, hx, hs⟩ := h sv List.mem_cons_self
    rw [List.foldl_cons, List.map_cons, List.foldl_cons, if_pos (by omega),
      extRatio_eq hx hs (by omega) h0 (by omega)]
    exact ih (fun sv hsv => h sv (List.mem_cons_of_mem _ hsv)) _

/-! ## Properties -/

/-- **C175.** The penalties for joint limits are factors between 0 and 1. Only the limit that is nearer counts;
in the middle of the range there is no penalty, and towards a limit it grows until 1e-10 before it. -/
theorem C175_limits (j : Joint) :
    (0 < penLo j ∧ penLo j ≤ 1 ∧ 0 < penHi j ∧ penHi j ≤ 1) ∧
    (j.lo ≤ j.q → j.q ≤ j.hi → (j.q - j.lo > j.hi - j.q → penLo j = 1) ∧ (j.q - j.lo ≤ j.hi - j.q → penHi j = 1)) ∧
    (2 / 10 ^ 10 < j.hi - j.lo → j.q = (j.lo + j.hi) / 2 → penLo j = 1 ∧ penHi j = 1) ∧
    (∀ q', j.q - j.lo > j.hi - j.q → j.q < q' → 1 / 10 ^ 10 < j.hi - q' →
      penHi ⟨j.lo, j.hi, q'⟩ < penHi j) ∧
    (j.lo < j.hi → (j.q = j.hi → penHi j = 1 / Real.sqrt (1 + 10 ^ 10)) ∧
      (j.q = j.lo → penLo j = 1 / Real.sqrt (1 + 10 ^ 10))) := by
  have hp : (0 : ℝ) < 1 / 10 ^ 10 := by positivity
  refine ⟨⟨(pen_bounds j).1.1, (pen_bounds j).1.2, (pen_bounds j).2.1, (pen_bounds j).2.2⟩, ?_, ?_, ?_, ?_⟩
  · intro h1 h2
    refine ⟨fun h => (pen_upper ?_).1, fun h => (pen_lower ?_).1⟩
    · rw [abs_of_nonneg (by linarith), abs_of_nonpos (by linarith)]
      linarith
    · rw [abs_of_nonneg (by linarith), abs_of_nonpos (by linarith)]
      linarith
  · intro h1 h2
    have e : 2 / 10 ^ 10 = 1 / 10 ^ 10 + (1 : ℝ) / 10 ^ 10 := by ring
    rw [e] at h1
    have hs : steepness j = 0 := by
      rw [steepness_inner (a := (j.hi - j.lo) / 2) (b := (j.hi - j.lo) / 2) (by linarith) (by linarith) (by linarith)
        (by linarith), sub_self, abs_zero, mul_zero, zero_div]
    have hl : ¬ |j.q - j.lo| > |j.q - j.hi| := by
      rw [abs_of_nonneg (by linarith), abs_of_nonpos (by linarith)]
      linarith
    refine ⟨?_, (pen_lower hl).1⟩
    rw [(pen_lower hl).2, hs]
    simp
  · intro q' h1 h2 h3
    have hu : |j.q - j.lo| > |j.q - j.hi| := by
      rw [abs_of_pos (by linarith), abs_of_neg (by linarith)]
      linarith
    have hu' : |(⟨j.lo, j.hi, q'⟩ : Joint).q - (⟨j.lo, j.hi, q'⟩ : Joint).lo| >
        |(⟨j.lo, j.hi, q'⟩ : Joint).q - (⟨j.lo, j.hi, q'⟩ : Joint).hi| := by
      show |q' - j.lo| > |q' - j.hi|
      rw [abs_of_pos (by linarith), abs_of_neg (by linarith)]
      linarith
    rw [(pen_upper hu).2, (pen_upper hu').2]
    obtain ⟨a, ha⟩ : ∃ a, j.q - j.lo = a := ⟨_, rfl⟩
    obtain ⟨b, hb⟩ : ∃ b, j.hi - j.q = b := ⟨_, rfl⟩
    obtain ⟨a', ha'⟩ : ∃ a', q' - j.lo = a' := ⟨_, rfl⟩
    obtain ⟨b', hb'⟩ : ∃ b', j.hi - q' = b' := ⟨_, rfl⟩
    have hw := steepness_inner ha hb (by linarith) (by linarith)
    have hw' := steepness_inner (j := ⟨j.lo, j.hi, q'⟩) ha' hb' (by linarith) (by linarith)
    have hb0 : 0 < b' := by linarith
    have hbb : b' < b := by linarith
    have hab : b < a := by linarith
    have hsum : a' + b' = a + b := by linarith
    have haa : a < a' := by linarith
    have ha0 : 0 < a' := by linarith
    have hlt : steepness j < steepness ⟨j.lo, j.hi, q'⟩ := by
      rw [hw, hw', hsum, abs_of_pos (by linarith : 0 < a - b), abs_of_pos (by linarith : 0 < a' - b')]
      have hprod : b' * a' < b * a := by nlinarith
      have hprod0 : 0 < b' * a' := by nlinarith
      have hL : 0 < (a + b) * (a + b) := by nlinarith
      have hD : 4 * (b' * b') * (a' * a') ≤ 4 * (b * b) * (a * a) := by
        have e1 : 4 * (b' * b') * (a' * a') = 4 * ((b' * a') * (b' * a')) := by ring
        have e2 : 4 * (b * b) * (a * a) = 4 * ((b * a) * (b * a)) := by ring
        rw [e1, e2]
        nlinarith
      exact div_lt_div₀ (mul_lt_mul_of_pos_left (by linarith) hL) hD
        (mul_nonneg hL.le (by linarith)) (by positivity)
    have h0 := steepness_nonneg j
    exact one_div_lt_one_div_of_lt (Real.sqrt_pos.mpr (by linarith)) (Real.sqrt_lt_sqrt (by linarith) (by linarith))
  · intro hlt
    refine ⟨fun h => ?_, fun h => ?_⟩
    · have hu : |j.q - j.lo| > |j.q - j.hi| := by
        rw [h, sub_self, abs_zero, abs_of_pos (by linarith)]
        linarith
      rw [(pen_upper hu).2, steepness_limit (Or.inr h)]
    · have hu : ¬ |j.q - j.lo| > |j.q - j.hi| := by
        rw [h, sub_self, abs_zero]
        exact not_lt.mpr (abs_nonneg _)
      rw [(pen_lower hu).2, steepness_limit (Or.inl h)]

/-- **C175**, refuted at the limit itself: there the penalty is smaller than a little before, so that standing
at the limit counts as better than being near it. -/
theorem C175_at_limit_false :
    ∃ j : Joint, j.lo < j.q ∧ j.q < j.hi ∧ penHi j < penHi ⟨j.lo, j.hi, j.hi⟩ := by
  refine ⟨⟨0, 1, 1 - 1 / 10 ^ 6⟩, by norm_num, by norm_num, ?_⟩
  have hu : |(⟨0, 1, 1 - 1 / 10 ^ 6⟩ : Joint).q - (⟨0, 1, 1 - 1 / 10 ^ 6⟩ : Joint).lo| >
      |(⟨0, 1, 1 - 1 / 10 ^ 6⟩ : Joint).q - (⟨0, 1, 1 - 1 / 10 ^ 6⟩ : Joint).hi| := by
    show |(1 - 1 / 10 ^ 6 : ℝ) - 0| > |(1 - 1 / 10 ^ 6 : ℝ) - 1|
    norm_num [abs_of_neg, abs_of_pos]
  rw [((C175_limits ⟨0, 1, 1⟩).2.2.2.2 (by norm_num)).1 rfl, (pen_upper hu).2,
    steepness_inner (a := 1 - 1 / 10 ^ 6) (b := 1 / 10 ^ 6) (by norm_num) (by norm_num) (by norm_num) (by norm_num)]
  apply one_div_lt_one_div_of_lt (Real.sqrt_pos.mpr (by norm_num))
  apply Real.sqrt_lt_sqrt (by norm_num)
  rw [abs_of_pos (by norm_num)]
  norm_num

/-- **C175.** Penalizing keeps the sign of each entry of the Jacobian and never enlarges it. An entry is
penalized for the upper limit if the motion in the chosen direction moves the joint up, and for the lower limit
if it moves it down. -/
theorem C175_entries {n : ℕ} (J : Matrix (Fin 6) (Fin n) ℝ) (dir : Fin 6 → ℝ) (js : Fin n → Joint) (i : Fin 6)
    (j : Fin n) :
    (∃ c, 0 < c ∧ c ≤ 1 ∧ weighted J dir js i j = c * J i j) ∧
    (0 < dir i * J i j → weighted J dir js i j = penHi (js j) * J i j) ∧
    (dir i * J i j < 0 → weighted J dir js i j = penLo (js j) * J i j) := by
  unfold weighted
  refine ⟨?_, fun h => ?_, fun h => ?_⟩
  · obtain ⟨⟨a, b⟩, c, d⟩ := pen_bounds (js j)
    cases upperCounts (dir i) (J i j)
    · exact ⟨_, a, b, by rw [if_neg (by simp), mul_comm]⟩
    · exact ⟨_, c, d, by rw [if_pos rfl, mul_comm]⟩
  · rw [upperCounts_pos h, if_pos rfl, mul_comm]
  · rw [upperCounts_neg h, if_neg (by simp), mul_comm]

/-- **C175.** The penalties for an obstacle are factors between 0 and 1. Contact removes all mobility.
Otherwise every factor is positive, rotations are not penalized, and motions away from the obstacle are not
penalized. -/
theorem C175_obstacle {n : ℕ} (p : ObstPar) (v : Fin 3 → ℝ) (J : Matrix (Fin 6) (Fin n) ℝ) (up : Bool) (i : Fin 6)
    (j : Fin n) :
    (0 ≤ obstPen p v J up i j ∧ obstPen p v J up i j ≤ 1) ∧
    (norm3 v < 1 / 10 ^ 10 → obstPen p v J up i j = 0) ∧
    (1 / 10 ^ 10 ≤ norm3 v → 0 < obstPen p v J up i j ∧ (3 ≤ i.val → obstPen p v J up i j = 1) ∧
      ∀ h : i.val < 3, (0 < v ⟨i.val, h⟩ → obstPen p v J false i j = 1) ∧
        (v ⟨i.val, h⟩ < 0 → obstPen p v J true i j = 1)) := by
  have hb : 0 < obstJoint p v J j ∧ obstJoint p v J j ≤ 1 := inv_sqrt_bounds (abs_nonneg _)
  have hpos : 1 / 10 ^ 10 ≤ norm3 v → 0 < obstPen p v J up i j ∧ obstPen p v J up i j ≤ 1 := by
    intro h
    unfold obstPen
    rw [if_neg (not_lt.mpr h)]
    split
    · split
      · exact hb
      · exact ⟨one_pos, le_refl _⟩
    · exact ⟨one_pos, le_refl _⟩
  refine ⟨?_, fun h => ?_, fun h => ⟨(hpos h).1, fun h3 => ?_, fun h3 => ⟨fun hv => ?_, fun hv => ?_⟩⟩⟩
  · by_cases h : norm3 v < 1 / 10 ^ 10
    · unfold obstPen
      rw [if_pos h]
      exact ⟨le_refl _, zero_le_one⟩
    · have := hpos (not_lt.mp h)
      exact ⟨this.1.le, this.2⟩
  · unfold obstPen
    rw [if_pos h]
  · unfold obstPen
    rw [if_neg (not_lt.mpr h), dif_neg (by omega)]
  · unfold obstPen
    rw [if_neg (not_lt.mpr h), dif_pos h3, if_neg (by simpa using hv)]
  · unfold obstPen
    rw [if_neg (not_lt.mpr h), dif_pos h3, if_neg (by simpa using not_lt.mpr hv.le)]

/-- **C175**, refuted for coordinates in which the obstacle is neither in front nor behind: these are penalized
in the negative direction, and only there. -/
theorem C175_perpendicular_false :
    ∃ (p : ObstPar) (v : Fin 3 → ℝ) (J : Matrix (Fin 6) (Fin 1) ℝ), v 1 = 0 ∧ obstPen p v J true 1 0 = 1 ∧
      obstPen p v J false 1 0 < 1 := by
  have hn : norm3 ![1000, 0, 0] = 1000 := by
    unfold norm3
    rw [Fin.sum_univ_three]
    simp
  have hlt : ¬ norm3 ![1000, 0, 0] < 1 / 10 ^ 10 := by rw [hn]; norm_num
  refine ⟨⟨1, 1⟩, ![1000, 0, 0], fun i _ => if i = 0 then 1 else 0, rfl, ?_, ?_⟩
  · unfold obstPen
    rw [if_neg hlt, dif_pos (by decide), if_neg (by simp)]
  · unfold obstPen
    rw [if_neg hlt, dif_pos (by decide), if_pos (by simp)]
    have hw : 0 < |Matrix.mulVec (Matrix.transpose (fun (i : Fin 6) (_ : Fin 1) => if i = 0 then (1 : ℝ) else 0))
        (fun i => sixDim (.inl ![1000, 0, 0]) i * (1 / 1000)) 0 / (norm3 ![1000, 0, 0] * (1 / 1000)) *
        obstSlope ⟨1, 1⟩ (norm3 ![1000, 0, 0] * (1 / 1000))| := by
      apply abs_pos.mpr
      have e : Matrix.mulVec (Matrix.transpose (fun (i : Fin 6) (_ : Fin 1) => if i = 0 then (1 : ℝ) else 0))
          (fun i => sixDim (.inl ![1000, 0, 0]) i * (1 / 1000)) 0 = 1 := by
        show ∑ i : Fin 6, (if i = 0 then (1 : ℝ) else 0) * (sixDim (.inl ![1000, 0, 0]) i * (1 / 1000)) = 1
        rw [Fin.sum_univ_six]
        simp [sixDim]
      rw [e, hn]
      unfold obstSlope
      norm_num
    show 1 / Real.sqrt (1 + _) < 1
    rw [div_lt_one (Real.sqrt_pos.mpr (by linarith))]
    exact Real.lt_sqrt_of_sq_lt (by linarith)

/-- **C175.** The 64 directions are all combinations of signs, each once. -/
theorem C175_octants (b : Fin 6 → Bool) : ∃! k : Fin 64, ∀ i, octant k.val i = if b i then 1 else -1 := by
  have h : ∀ b : Fin 6 → Bool, ∃ k : Fin 64, (∀ i, octant k.val i = if b i then 1 else -1) ∧
      ∀ k' : Fin 64, (∀ i, octant k'.val i = if b i then 1 else -1) → k' = k := by decide +kernel
  exact h b

/-- **C175.** The extended measures are the smallest values over the octants: the smallest product of singular
values, and for at least two joints the smallest ratio, which lies between 0 and 1. (`top` is the largest
float; all values are assumed to be below it.) -/
theorem C175_minimum (top : ℝ) (svs : List (List ℝ)) (first : ℤ) (m : ℕ) (hne : svs ≠ []) (hm6 : m ≤ 6) (hm : 1 ≤ m)
    (h : ∀ sv ∈ svs, sv.length = m ∧ (∀ x ∈ sv, 0 ≤ x ∧ x ≤ top) ∧ sv.Pairwise (fun a b => b ≤ a)) (js : List Joint) :
    ((∀ sv ∈ svs, getManipulability sv .multiplySV first none js ≤ top) →
      (∃ sv ∈ svs, extQuality top svs .multiplySV first = getManipulability sv .multiplySV first none js) ∧
      ∀ sv ∈ svs, extQuality top svs .multiplySV first ≤ getManipulability sv .multiplySV first none js) ∧
    (1 ≤ top → 2 ≤ m →
      (∃ sv ∈ svs, extQuality top svs .minMaxRatio first = getManipulability sv .minMaxRatio first none js) ∧
      (∀ sv ∈ svs, extQuality top svs .minMaxRatio first ≤ getManipulability sv .minMaxRatio first none js) ∧
      0 ≤ extQuality top svs .minMaxRatio first ∧ extQuality top svs .minMaxRatio first ≤ 1) := by
  have hhead : (svs.headD []).length = m := by
    cases svs with
    | nil => exact absurd rfl hne
    | cons sv r => exact (h sv List.mem_cons_self).1
  have hk : considered (if first ≤ 0 ∨ first > 6 then 6 else first) m = considered first m := by
    unfold considered
    by_cases hf : first ≤ 0 ∨ first > 6
    · rw [if_pos hf, if_pos (show first ≤ 0 ∨ first > (m : ℤ) by omega)]
      split
      · rfl
      · omega
    · rw [if_neg hf]
  obtain ⟨k, hkd⟩ : ∃ k, considered first m = k := ⟨_, rfl⟩
  have hk0 : 0 < k := hkd ▸ considered_pos first hm
  have hkm : k ≤ m := hkd ▸ considered_le first m
  have hg : ∀ sv ∈ svs, ∀ i : Index, getManipulability sv i first none js =
      match i with | .multiplySV => product sv k | .minMaxRatio => ratio sv k := by
    intro sv hsv i
    unfold getManipulability
    rw [(h sv hsv).1, hkd]
    cases i <;> rfl
  have hv : extQuality top svs .multiplySV first = (svs.map fun sv => product sv k).foldl smaller top := by
    show svs.foldl (fun acc sv => smaller acc (extVolume sv (considered _ (svs.headD []).length))) top = _
    rw [hhead, hk, hkd, fold_map]
    congr 1
    exact List.map_congr_left fun sv hsv => extVolume_eq (fun x hx => ((h sv hsv).2.1 x hx).1) k
  refine ⟨fun ht => ?_, fun ht hm2 => ?_⟩
  · rw [hv]
    obtain ⟨a, b⟩ := fold_smaller_min (l := svs.map fun sv => product sv k) (t := top) (by simpa using hne) (by
      intro x hx
      obtain ⟨sv, hsv, rfl⟩ := List.mem_map.mp hx
      have := ht sv hsv
      rwa [hg sv hsv] at this)
    obtain ⟨sv, hsv, e⟩ := List.mem_map.mp a
    refine ⟨⟨sv, hsv, by rw [hg sv hsv]; exact e.symm⟩, fun sv hsv => ?_⟩
    rw [hg sv hsv]
    exact b _ (List.mem_map.mpr ⟨sv, hsv, rfl⟩)
  · have hr : extQuality top svs .minMaxRatio first = (svs.map fun sv => ratio sv k).foldl smaller top := by
      show svs.foldl (fun acc sv => if 2 ≤ sv.length then smaller acc (extRatio top sv
        (considered _ (svs.headD []).length)) else acc) top = _
      rw [hhead, hk, hkd, fold_ratio hk0 hkm hm2 h]
    have hb : ∀ sv ∈ svs, 0 ≤ ratio sv k ∧ ratio sv k ≤ 1 := by
      intro sv hsv
      obtain ⟨hl, hx, hs⟩ := h sv hsv
      have hl0 : 0 < sv.length := by omega
      have hlt : k - 1 < sv.length := by omega
      have e1 : sv.getD (k - 1) 0 = sv[k - 1] := by simp [List.getD, hlt]
      have e0 : sv.getD 0 0 = sv[0] := by simp [List.getD, hl0]
      unfold ratio
      rw [if_pos (by omega), e0, e1]
      have hle : sv[k - 1] ≤ sv[0] := by
        rcases Nat.eq_zero_or_pos (k - 1) with hz | hz
        · simp only [hz]
          exact le_refl _
        · exact List.pairwise_iff_getElem.mp hs 0 _ hl0 hlt hz
      by_cases hz : sv[0] = 0
      · rw [if_neg (not_not.mpr hz)]
        exact ⟨le_refl _, zero_le_one⟩
      · rw [if_pos hz]
        have hp : (0 : ℝ) < sv[0] := lt_of_le_of_ne (hx _ (List.getElem_mem _)).1 (Ne.symm hz)
        exact ⟨div_nonneg (hx _ (List.getElem_mem _)).1 hp.le, (div_le_one hp).mpr hle⟩
    rw [hr]
    obtain ⟨a, b⟩ := fold_smaller_min (l := svs.map fun sv => ratio sv k) (t := top) (by simpa using hne) (by
      intro x hx
      obtain ⟨sv, hsv, rfl⟩ := List.mem_map.mp hx
      exact (hb sv hsv).2.trans ht)
    obtain ⟨sv, hsv, e⟩ := List.mem_map.mp a
    refine ⟨⟨sv, hsv, by rw [hg sv hsv]; exact e.symm⟩, fun sv hsv => ?_, ?_, ?_⟩
    · rw [hg sv hsv]
      exact b _ (List.mem_map.mpr ⟨sv, hsv, rfl⟩)
    · rw [← e]
      exact (hb sv hsv).1
    · rw [← e]
      exact (hb sv hsv).2

/-- **C175**, refuted for a single joint: the ratio of the extended measure is then the largest float. -/
theorem C175_one_joint_false (top : ℝ) (svs : List (List ℝ)) (h : ∀ sv ∈ svs, sv.length = 1) (first : ℤ) :
    extQuality top svs .minMaxRatio first = top := by
  show svs.foldl (fun acc sv => if 2 ≤ sv.length then smaller acc (extRatio top sv
    (considered _ (svs.headD []).length)) else acc) top = _
  generalize considered _ (svs.headD []).length = k
  have : ∀ t : ℝ, svs.foldl (fun acc sv => if 2 ≤ sv.length then smaller acc (extRatio top sv k) else acc) t = t := by
    induction svs with
    | nil => intro t; rfl
    | cons sv r ih =>
      intro t
      rw [List.foldl_cons, if_neg (by rw [h sv List.mem_cons_self]; omega)]
      exact ih (fun sv hsv => h sv (List.mem_cons_of_mem _ hsv)) t
  exact this top

/-- **C175.** If all joints are in the middle of their ranges and no obstacle is considered, the extended
measure is the plain one. -/
theorem C175_middle {n : ℕ} (hn : 1 ≤ n) (J : Matrix (Fin 6) (Fin n) ℝ) (js : Fin n → Joint)
    (hj : ∀ j, 2 / 10 ^ 10 < (js j).hi - (js j).lo ∧ (js j).q = ((js j).lo + (js j).hi) / 2) (top : ℝ)
    (svs : List (List ℝ)) (hlen : svs.length = 64)
    (hsvd : ∀ (k : ℕ) (hk : k < svs.length), IsSVD (jacPen J js none (fun _ => true) k) svs[k]) {sv : List ℝ}
    (h : IsSVD (penalize J) sv) (ht : 1 ≤ top) (hx : ∀ x ∈ sv, x ≤ top) (first : ℤ)
    (hp : getManipulability sv .multiplySV first none [] ≤ top) :
    extQuality top svs .multiplySV first = getManipulability sv .multiplySV first none [] ∧
    (2 ≤ n → extQuality top svs .minMaxRatio first = getManipulability sv .minMaxRatio first none []) := by
  have hpen : ∀ k, jacPen J js none (fun _ => true) k = penalize J := by
    intro k
    ext i j
    obtain ⟨a, b⟩ := (C175_limits (js j)).2.2.1 (hj j).1 (hj j).2
    show (if true then weighted (penalize J) (fun i => (octant k i : ℝ)) js i j else 0) = _
    rw [if_pos rfl]
    unfold weighted
    rw [a, b]
    simp
  have hall : ∀ s ∈ svs, s = sv := by
    intro s hs
    obtain ⟨k, hk, rfl⟩ := List.mem_iff_getElem.mp hs
    have := hsvd k hk
    rw [hpen] at this
    exact isSVD_unique this h ⟨fun _ => rfl, fun _ => rfl⟩
  have hl := isSVD_length h
  obtain ⟨h0, hs⟩ := isSVD_sorted h
  have hne : svs ≠ [] := fun e => by rw [e] at hlen; simp at hlen
  obtain ⟨h1, h2⟩ := C175_minimum top svs first (min 6 n) hne (by omega) (by omega)
    (fun s hs' => by rw [hall s hs']; exact ⟨hl, fun x hxs => ⟨h0 x hxs, hx x hxs⟩, hs⟩) []
  refine ⟨?_, fun hn2 => ?_⟩
  · obtain ⟨s, hs', e⟩ := (h1 fun s hs' => by rw [hall s hs']; exact hp).1
    rw [e, hall s hs']
  · obtain ⟨s, hs', e⟩ := (h2 ht (by omega)).1
    rw [e, hall s hs']

/-- A concrete case of C175: six joints in the middle of their ranges, each moving one coordinate. -/
example : ∃ (J : Matrix (Fin 6) (Fin 6) ℝ) (js : Fin 6 → Joint) (sv : List ℝ),
    (∀ j, 2 / 10 ^ 10 < (js j).hi - (js j).lo ∧ (js j).q = ((js j).lo + (js j).hi) / 2) ∧ IsSVD (penalize J) sv ∧
      (∀ x ∈ sv, x ≤ 1) ∧ sv.length = 6 := by
  refine ⟨1, fun _ => ⟨-1, 1, 0⟩, [1, 1, 1, 15 / 100, 15 / 100, 15 / 100], fun _ => by norm_num, ?_, ?_, rfl⟩
  · refine ⟨6, 1, 1, fun i => if 3 ≤ i.val then 15 / 100 else 1, rfl, ?_, by simp, by simp, ?_, ?_, ?_⟩
    · simp [List.ofFn_succ, Fin.val_succ]
    · rw [penalize_eq]
      simp [wdiag]
    · intro i
      dsimp only
      split <;> norm_num
    · intro a b hab
      have : a.val ≤ b.val := hab
      dsimp only
      by_cases h : 3 ≤ b.val
      · rw [if_pos h]
        split <;> norm_num
      · rw [if_neg h, if_neg (by omega)]
  · intro x hx
    simp only [List.mem_cons, List.not_mem_nil, or_false] at hx
    rcases hx with rfl | rfl | rfl | rfl | rfl | rfl <;> norm_num

end Simox.Mnp
