import Verif.Gpl.HullLemmas

/-!
# A hull in six dimensions: the simplex

An example of a right answer of qhull, for the hypotheses and the counterexamples of the theorems.
-/

namespace Simox.Gpl

open Matrix Jac Rot Spec

/-- The unit vectors. -/
def unit6 : Fin 6 → Wrench
  | 0 => (![1, 0, 0], ![0, 0, 0])
  | 1 => (![0, 1, 0], ![0, 0, 0])
  | 2 => (![0, 0, 1], ![0, 0, 0])
  | 3 => (![0, 0, 0], ![1, 0, 0])
  | 4 => (![0, 0, 0], ![0, 1, 0])
  | 5 => (![0, 0, 0], ![0, 0, 1])

/-- The vector of ones. -/
def ones6 : Wrench := (![1, 1, 1], ![1, 1, 1])

theorem unit6_dot (i j : Fin 6) : dot6 (unit6 i) (unit6 j) = if i = j then 1 else 0 := by
  fin_cases i <;> fin_cases j <;> simp [unit6, dot6]

theorem unit6_ones (i : Fin 6) : dot6 (unit6 i) ones6 = 1 := by
  fin_cases i <;> simp [unit6, ones6, dot6]

theorem ones6_unit (i : Fin 6) : dot6 ones6 (unit6 i) = 1 := by rw [dot6_comm, unit6_ones]

theorem ones6_ones : dot6 ones6 ones6 = 6 := by simp [ones6, dot6]; norm_num

theorem expand6 (x : Wrench) : x = ∑ i : Fin 6, dot6 x (unit6 i) • unit6 i := by
  ext j
  · fin_cases j <;> simp [Fin.sum_univ_six, unit6, dot6, dot3]
  · fin_cases j <;> simp [Fin.sum_univ_six, unit6, dot6, dot3]

theorem dot_ones (x : Wrench) : dot6 x ones6 = ∑ i : Fin 6, dot6 x (unit6 i) := by
  simp only [Fin.sum_univ_six, dot6, dot3]
  simp [unit6, ones6]; ring

/-- The corners: `u` and `u` plus a unit vector. -/
def corners6 (u : Wrench) : List Wrench := u :: List.ofFn fun i => u + unit6 i

/-- The facet on which the coordinate `i` is that of `u`. -/
noncomputable def lowFacet (u : Wrench) (i : Fin 6) : QFacet :=
  { vertices := fun c => if c = i then u else u + unit6 c
    normal := -unit6 i
    offset := dot6 u (unit6 i) }

/-- The facet opposite to `u`. -/
noncomputable def topFacet (u : Wrench) : QFacet :=
  { vertices := fun c => u + unit6 c
    normal := (1 / Real.sqrt 6) • ones6
    offset := -((dot6 u ones6 + 1) / Real.sqrt 6) }

/-- The answer for the simplex. -/
noncomputable def simplex (u : Wrench) : QResult :=
  { vertices := corners6 u
    facets := topFacet u :: List.ofFn (lowFacet u)
    totvol := 1 / 720 }

theorem dot6_neg_right (a b : Wrench) : dot6 a (-b) = -dot6 a b := by simp [dot6]; ring

theorem dot6_smul_right (t : ℝ) (a b : Wrench) : dot6 a (t • b) = t * dot6 a b := by
  rw [dot6_comm, dot6_smul, dot6_comm]

theorem dist_low (u x : Wrench) (i : Fin 6) : dist x (lowFacet u i) = -dot6 (x - u) (unit6 i) := by
  simp only [dist, lowFacet, dot6_neg_right, dot6_sub]; ring

theorem dist_top (u x : Wrench) : dist x (topFacet u) = (dot6 (x - u) ones6 - 1) / Real.sqrt 6 := by
  simp only [dist, topFacet, dot6_smul_right, dot6_sub]
  have : Real.sqrt 6 ≠ 0 := by positivity
  field_simp
  ring

theorem simplex_inner (u x : Wrench) : (∀ f ∈ (simplex u).facets, dot6 x f.normal + f.offset ≤ 0) ↔
    dot6 (x - u) ones6 ≤ 1 ∧ ∀ i, 0 ≤ dot6 (x - u) (unit6 i) := by
  have h6 : (0 : ℝ) < Real.sqrt 6 := by positivity
  change (∀ f ∈ topFacet u :: List.ofFn (lowFacet u), dist x f ≤ 0) ↔ _
  rw [List.forall_mem_cons, List.forall_mem_ofFn_iff, dist_top, div_le_iff₀ h6, zero_mul, sub_nonpos]
  simp only [dist_low, Left.neg_nonpos_iff]

theorem simplex_isHull (u : Wrench) : IsHull (simplex u) (corners6 u) where
  unit := by
    change ∀ f ∈ topFacet u :: List.ofFn (lowFacet u), dot6 f.normal f.normal = 1
    rw [List.forall_mem_cons, List.forall_mem_ofFn_iff]
    constructor
    · simp only [topFacet, dot6_smul_right, dot6_smul, ones6_ones]
      have : Real.sqrt 6 * Real.sqrt 6 = 6 := Real.mul_self_sqrt (by norm_num)
      have h0 : Real.sqrt 6 ≠ 0 := by positivity
      field_simp
      nlinarith
    · intro i
      simp only [lowFacet, dot6_neg_right]
      rw [dot6_comm, dot6_neg_right, unit6_dot, if_pos rfl]
      norm_num
  hull := by
    intro x
    rw [simplex_inner]
    constructor
    · intro hx
      have hconv : Convex ℝ { x : Wrench | dot6 (x - u) ones6 ≤ 1 ∧ ∀ i, 0 ≤ dot6 (x - u) (unit6 i) } := by
        have e : ∀ (a b y : Wrench) (s t : ℝ), s + t = 1 →
            dot6 (s • a + t • b - u) y = s * dot6 (a - u) y + t * dot6 (b - u) y := by
          intro a b y s t hst
          simp only [dot6_sub, dot6_add, dot6_smul]
          linear_combination dot6 u y * (hst)
        rintro a ⟨ha1, ha2⟩ b ⟨hb1, hb2⟩ s t hs ht hst
        refine ⟨?_, fun i => ?_⟩
        · rw [e _ _ _ _ _ hst]
          nlinarith
        · rw [e _ _ _ _ _ hst]
          exact add_nonneg (mul_nonneg hs (ha2 i)) (mul_nonneg ht (hb2 i))
      have hsub : { w | w ∈ corners6 u } ⊆ { x : Wrench | dot6 (x - u) ones6 ≤ 1 ∧ ∀ i, 0 ≤ dot6 (x - u) (unit6 i) } := by
        intro w hw
        have hw : w ∈ u :: List.ofFn fun i => u + unit6 i := hw
        rw [List.mem_cons, List.mem_ofFn] at hw
        rcases hw with rfl | ⟨i, rfl⟩
        · refine ⟨by rw [sub_self, dot6_zero]; norm_num, fun i => by rw [sub_self, dot6_zero]⟩
        · refine ⟨by rw [add_sub_cancel_left, unit6_ones], fun j => ?_⟩
          rw [add_sub_cancel_left, unit6_dot]
          split_ifs <;> norm_num
      exact convexHull_min hsub hconv hx
    · rintro ⟨h1, h2⟩
      let w : Fin 7 → ℝ := Fin.cons (1 - dot6 (x - u) ones6) fun i => dot6 (x - u) (unit6 i)
      let z : Fin 7 → Wrench := Fin.cons u fun i => u + unit6 i
      have hs : ∑ i, w i = 1 := by
        rw [Fin.sum_univ_succ]
        simp only [w, Fin.cons_zero, Fin.cons_succ]
        rw [← dot_ones]; ring
      have hz : ∑ i, w i • z i = x := by
        rw [Fin.sum_univ_succ]
        simp only [w, z, Fin.cons_zero, Fin.cons_succ, smul_add, Finset.sum_add_distrib]
        rw [← expand6, ← Finset.sum_smul, ← dot_ones, sub_smul, one_smul]
        abel
      rw [← hz]
      apply (convex_convexHull ℝ _).sum_mem
      · intro i _
        refine Fin.cases ?_ (fun i => ?_) i
        · change 0 ≤ 1 - _; linarith
        · exact h2 i
      · exact hs
      · intro i _
        apply subset_convexHull ℝ
        change z i ∈ u :: List.ofFn fun i => u + unit6 i
        refine Fin.cases ?_ (fun i => ?_) i
        · exact List.mem_cons_self
        · exact List.mem_cons_of_mem _ (List.mem_ofFn.2 ⟨i, rfl⟩)
  some_facet := List.cons_ne_nil _ _
  some_vertex := List.cons_ne_nil _ _
  vertices := fun v hv => hv
  corners := by
    have hm : ∀ i, u + unit6 i ∈ corners6 u := fun i => List.mem_cons_of_mem _ (List.mem_ofFn.2 ⟨i, rfl⟩)
    change ∀ f ∈ topFacet u :: List.ofFn (lowFacet u), ∀ c, f.vertices c ∈ corners6 u ∧ dist (f.vertices c) f = 0
    rw [List.forall_mem_cons, List.forall_mem_ofFn_iff]
    constructor
    · intro c
      refine ⟨hm c, ?_⟩
      rw [dist_top]
      change (dot6 (u + unit6 c - u) ones6 - 1) / _ = _
      rw [add_sub_cancel_left, unit6_ones, sub_self, zero_div]
    · intro i c
      rw [dist_low]
      change (if c = i then u else u + unit6 c) ∈ _ ∧ -dot6 ((if c = i then u else u + unit6 c) - u) _ = 0
      by_cases h : c = i
      · rw [if_pos h, sub_self, dot6_zero]
        exact ⟨List.mem_cons_self, by norm_num⟩
      · rw [if_neg h, add_sub_cancel_left, unit6_dot, if_neg h]
        exact ⟨hm c, by norm_num⟩

open Classical in
/-- A qhull that knows a single set of points. -/
noncomputable def knows (pts : List Wrench) (r : QResult) : Qhull := fun p => if p = pts then some r else none

theorem knows_exact {pts : List Wrench} {r : QResult} (h : IsHull r pts) : Exact (knows pts r) := by
  intro p r' hr
  rw [knows] at hr
  split_ifs at hr with he
  · subst he
    rw [Option.some.injEq] at hr
    exact hr ▸ h

theorem knows_self (pts : List Wrench) (r : QResult) : knows pts r pts = some r := if_pos rfl

theorem simplex_mean (u : Wrench) : meanOf (simplex u).vertices - u = (1 / 7 : ℝ) • ones6 := by
  have hl : (simplex u).vertices.length = 7 := by simp [simplex, corners6]
  have hs : (simplex u).vertices.sum = (7 : ℝ) • u + ones6 := by
    have : ones6 = ∑ i : Fin 6, unit6 i := by
      conv_lhs => rw [expand6 ones6]
      exact Finset.sum_congr rfl fun i _ => by rw [ones6_unit, one_smul]
    simp only [simplex, corners6, List.sum_cons, List.sum_ofFn, Finset.sum_add_distrib, Finset.sum_const,
      Finset.card_univ, Fintype.card_fin]
    rw [← this]
    module
  rw [meanOf, hl, hs]
  norm_num
  module

/-- The offset of the simplex. -/
theorem simplex_offset (u : Wrench) : 1 / 21 ≤ minOffset (some (hullOf (simplex u))) := by
  rw [minOffset_hullOf _ (mean_dist (simplex_isHull u))]
  constructor
  · rw [fltMax]; norm_num
  · change ∀ f ∈ topFacet u :: List.ofFn (lowFacet u), _
    rw [List.forall_mem_cons, List.forall_mem_ofFn_iff]
    rw [dist_top, simplex_mean]
    constructor
    · rw [dot6_smul, ones6_ones]
      have h3 : Real.sqrt 6 ≤ 3 := by
        rw [Real.sqrt_le_left (by norm_num)]; norm_num
      have h0 : (0 : ℝ) < Real.sqrt 6 := by positivity
      rw [neg_div', le_div_iff₀ h0]
      linarith
    · intro i
      rw [dist_low, simplex_mean, dot6_smul, ones6_unit]
      norm_num

end Simox.Gpl
