import Verif.Gpl.SimplexLemmas

/-!
# Every finite set of wrenches has a right answer

The convex hull of finitely many points is an intersection of finitely many half spaces (Fourier-Motzkin
elimination on the homogenised cone). So the hypothesis `Exact` of the theorems can be met for all points.
-/

namespace Simox.Gpl

open Matrix Jac Rot Spec

/-- A linear functional on the homogenised space. -/
noncomputable def ev (a y : Wrench × ℝ) : ℝ := dot6 y.1 a.1 + a.2 * y.2

theorem ev_sub_smul (a y v : Wrench × ℝ) (t : ℝ) : ev a (y - t • v) = ev a y - t * ev a v := by
  simp only [ev, Prod.fst_sub, Prod.snd_sub, Prod.smul_fst, Prod.smul_snd, dot6_sub, dot6_smul, smul_eq_mul]
  ring

theorem ev_comb (a b y : Wrench × ℝ) (s t : ℝ) : ev (s • b - t • a) y = s * ev b y - t * ev a y := by
  simp only [ev, Prod.fst_sub, Prod.snd_sub, Prod.smul_fst, Prod.smul_snd, smul_eq_mul]
  rw [dot6_comm, dot6_sub, dot6_smul, dot6_smul, dot6_comm b.1, dot6_comm a.1]
  ring

/-- The least admissible value of the variable that is eliminated. -/
theorem exists_least (y v : Wrench × ℝ) (A : List (Wrench × ℝ)) :
    ∃ t : ℝ, 0 ≤ t ∧ (∀ a ∈ A, 0 < ev a v → ev a y ≤ t * ev a v) ∧
      (t = 0 ∨ ∃ a ∈ A, 0 < ev a v ∧ ev a y = t * ev a v) := by
  induction A with
  | nil => exact ⟨0, le_rfl, by simp, Or.inl rfl⟩
  | cons a A ih =>
      obtain ⟨t, ht, h1, h2⟩ := ih
      by_cases ha : 0 < ev a v ∧ t * ev a v < ev a y
      · have hq : t < ev a y / ev a v := (lt_div_iff₀ ha.1).2 ha.2
        refine ⟨ev a y / ev a v, ht.trans hq.le, ?_, Or.inr ⟨a, List.mem_cons_self, ha.1, ?_⟩⟩
        · intro b hb hb'
          rcases List.mem_cons.1 hb with rfl | hb
          · rw [div_mul_cancel₀ _ ha.1.ne']
          · exact (h1 b hb hb').trans (mul_le_mul_of_nonneg_right hq.le hb'.le)
        · rw [div_mul_cancel₀ _ ha.1.ne']
      · refine ⟨t, ht, ?_, ?_⟩
        · intro b hb hb'
          rcases List.mem_cons.1 hb with rfl | hb
          · by_contra hc
            exact ha ⟨hb', not_le.1 hc⟩
          · exact h1 b hb hb'
        · rcases h2 with h2 | ⟨b, hb, h2⟩
          · exact Or.inl h2
          · exact Or.inr ⟨b, List.mem_cons_of_mem _ hb, h2⟩

open Classical in
/-- One step of the elimination. -/
noncomputable def eliminate (v : Wrench × ℝ) (A : List (Wrench × ℝ)) : List (Wrench × ℝ) :=
  (A.filter fun a => ev a v ≤ 0) ++
    (A.filter fun a => 0 < ev a v).flatMap fun a =>
      (A.filter fun b => ev b v < 0).map fun b => ev a v • b - ev b v • a

theorem eliminate_spec (v : Wrench × ℝ) (A : List (Wrench × ℝ)) (y : Wrench × ℝ) :
    (∀ b ∈ eliminate v A, ev b y ≤ 0) ↔ ∃ t : ℝ, 0 ≤ t ∧ ∀ a ∈ A, ev a (y - t • v) ≤ 0 := by
  constructor
  · intro h
    obtain ⟨t, ht, h1, h2⟩ := exists_least y v A
    refine ⟨t, ht, ?_⟩
    intro a ha
    rw [ev_sub_smul]
    by_cases hp : 0 < ev a v
    · linarith [h1 a ha hp]
    · have hn := not_lt.1 hp
      have hay : ev a y ≤ 0 := h a (by simp [eliminate, ha, hn])
      rcases h2 with rfl | ⟨c, hc, hcv, hcy⟩
      · linarith
      · rcases hn.lt_or_eq with hlt | heq
        · have := h (ev c v • a - ev a v • c) (by
            simp only [eliminate, List.mem_append, List.mem_flatMap, List.mem_map, List.mem_filter, decide_eq_true_eq]
            exact Or.inr ⟨c, ⟨hc, hcv⟩, a, ⟨ha, hlt⟩, rfl⟩)
          rw [ev_comb, hcy] at this
          have h3 : ev c v * (ev a y - t * ev a v) ≤ 0 := by linarith
          by_contra hpos
          have := mul_pos hcv (not_le.1 hpos)
          linarith
        · rw [heq]; linarith
  · rintro ⟨t, ht, h⟩ b hb
    simp only [eliminate, List.mem_append, List.mem_flatMap, List.mem_map, List.mem_filter, decide_eq_true_eq] at hb
    rcases hb with ⟨hb, hb'⟩ | ⟨a, ⟨ha, ha'⟩, b', ⟨hb, hb'⟩, rfl⟩
    · have := h b hb
      rw [ev_sub_smul] at this
      have := mul_nonneg ht (neg_nonneg.2 hb')
      linarith
    · have h1 := h a ha
      have h2 := h b' hb
      rw [ev_sub_smul] at h1 h2
      rw [ev_comb]
      have h3 := mul_nonneg ha'.le (sub_nonneg.2 (sub_nonpos.1 h2))
      have h4 := mul_nonneg (neg_nonneg.2 hb'.le) (sub_nonneg.2 (sub_nonpos.1 h1))
      nlinarith

/-- The cone over a list of points. -/
def InCone : List Wrench → Wrench × ℝ → Prop
  | [], y => y = 0
  | p :: l, y => ∃ t : ℝ, 0 ≤ t ∧ InCone l (y - t • (p, 1))

/-- The functionals that vanish together only at the origin. -/
noncomputable def zeros : List (Wrench × ℝ) :=
  (0, 1) :: (0, -1) :: (List.ofFn (fun i => (unit6 i, (0 : ℝ))) ++ List.ofFn (fun i => (-unit6 i, (0 : ℝ))))

theorem zeros_spec (y : Wrench × ℝ) : (∀ a ∈ zeros, ev a y ≤ 0) ↔ y = 0 := by
  constructor
  · intro h
    have h1 := h (0, 1) (by simp [zeros])
    have h2 := h (0, -1) (by simp [zeros])
    have e0 : dot6 y.1 0 = 0 := by rw [dot6_comm, dot6_zero]
    simp only [ev, e0] at h1 h2
    have hs : y.2 = 0 := by linarith
    have hi : ∀ i, dot6 y.1 (unit6 i) = 0 := by
      intro i
      have h3 := h (unit6 i, 0) (by simp only [zeros, List.mem_cons, List.mem_append, List.mem_ofFn]; exact Or.inr (Or.inr (Or.inl ⟨i, rfl⟩)))
      have h4 := h (-unit6 i, 0) (by simp only [zeros, List.mem_cons, List.mem_append, List.mem_ofFn]; exact Or.inr (Or.inr (Or.inr ⟨i, rfl⟩)))
      simp only [ev, dot6_neg_right] at h3 h4
      linarith
    refine Prod.ext ?_ hs
    rw [expand6 y.1]
    simp [hi]
  · rintro rfl a -
    simp [ev, dot6_zero]

theorem cone_polyhedral (l : List Wrench) : ∃ A : List (Wrench × ℝ), ∀ y, (∀ a ∈ A, ev a y ≤ 0) ↔ InCone l y := by
  induction l with
  | nil => exact ⟨zeros, zeros_spec⟩
  | cons p l ih =>
      obtain ⟨A, hA⟩ := ih
      refine ⟨eliminate (p, 1) A, fun y => ?_⟩
      rw [eliminate_spec, InCone]
      simp only [hA]

theorem inCone_zero (l : List Wrench) : InCone l 0 := by
  induction l with
  | nil => rfl
  | cons p l ih => exact ⟨0, le_rfl, by simpa using ih⟩

theorem inCone_add (l : List Wrench) : ∀ y z, InCone l y → InCone l z → InCone l (y + z) := by
  induction l with
  | nil => rintro y z rfl rfl; simp [InCone]
  | cons p l ih =>
      rintro y z ⟨t, ht, h1⟩ ⟨u, hu, h2⟩
      refine ⟨t + u, add_nonneg ht hu, ?_⟩
      have := ih _ _ h1 h2
      rwa [show y - t • (p, (1 : ℝ)) + (z - u • (p, 1)) = y + z - (t + u) • (p, 1) by module] at this

theorem inCone_smul (l : List Wrench) : ∀ (s : ℝ) y, 0 ≤ s → InCone l y → InCone l (s • y) := by
  induction l with
  | nil => rintro s y - rfl; simp [InCone]
  | cons p l ih =>
      rintro s y hs ⟨t, ht, h1⟩
      refine ⟨s * t, mul_nonneg hs ht, ?_⟩
      have := ih s _ hs h1
      rwa [smul_sub, smul_smul] at this

theorem inCone_mem (l : List Wrench) : ∀ p ∈ l, InCone l (p, 1) := by
  induction l with
  | nil => simp
  | cons q l ih =>
      intro p hp
      rcases List.mem_cons.1 hp with rfl | hp
      · exact ⟨1, zero_le_one, by rw [one_smul, sub_self]; exact inCone_zero l⟩
      · exact ⟨0, le_rfl, by rw [zero_smul, sub_zero]; exact ih p hp⟩

theorem inCone_convex {K : Set Wrench} (hK : Convex ℝ K) {z0 : Wrench} (hz0 : z0 ∈ K) (l : List Wrench) :
    ∀ y, (∀ p ∈ l, p ∈ K) → InCone l y → 0 ≤ y.2 ∧ ∃ z ∈ K, y.1 = y.2 • z := by
  induction l with
  | nil => rintro y - rfl; exact ⟨le_rfl, z0, hz0, by simp⟩
  | cons p l ih =>
      rintro y hl ⟨t, ht, h⟩
      obtain ⟨h0, z, hz, he⟩ := ih _ (fun q hq => hl q (List.mem_cons_of_mem _ hq)) h
      simp only [Prod.snd_sub, Prod.smul_snd, smul_eq_mul, mul_one, Prod.fst_sub, Prod.smul_fst] at h0 he
      have hs : 0 ≤ y.2 := by linarith
      refine ⟨hs, ?_⟩
      rcases hs.lt_or_eq with hlt | heq
      · refine ⟨(t / y.2) • p + ((y.2 - t) / y.2) • z, hK (hl p List.mem_cons_self) hz (div_nonneg ht hs)
          (div_nonneg h0 hs) (by field_simp; ring), ?_⟩
        rw [smul_add, smul_smul, smul_smul, mul_div_cancel₀ _ hlt.ne', mul_div_cancel₀ _ hlt.ne', ← he]
        module
      · have ht0 : t = 0 := by linarith
        refine ⟨z0, hz0, ?_⟩
        rw [ht0, ← heq] at he
        rw [← heq]
        simpa using he

theorem hull_iff (l : List Wrench) (hl : l ≠ []) (x : Wrench) : x ∈ convexHull ℝ { w | w ∈ l } ↔ InCone l (x, 1) := by
  constructor
  · intro hx
    have hc : Convex ℝ { x | InCone l (x, 1) } := by
      intro a ha b hb s t hs ht hst
      have := inCone_add l _ _ (inCone_smul l s _ hs ha) (inCone_smul l t _ ht hb)
      have e : s • ((a, 1) : Wrench × ℝ) + t • (b, 1) = (s • a + t • b, 1) := by
        refine Prod.ext rfl ?_
        simpa using hst
      rw [e] at this
      exact this
    exact convexHull_min (fun p hp => inCone_mem l p hp) hc hx
  · intro h
    obtain ⟨p, hp⟩ := List.exists_mem_of_ne_nil _ hl
    obtain ⟨-, z, hz, he⟩ := inCone_convex (convex_convexHull ℝ { w | w ∈ l }) (subset_convexHull ℝ _ hp) l (x, 1)
      (fun q hq => subset_convexHull ℝ _ hq) h
    simp only [one_smul] at he
    rw [he]
    exact hz

/-- The furthest point in a direction. -/
theorem exists_far (n : Wrench) (l : List Wrench) (hl : l ≠ []) : ∃ p ∈ l, ∀ q ∈ l, dot6 q n ≤ dot6 p n := by
  induction l with
  | nil => exact absurd rfl hl
  | cons a l ih =>
      by_cases h : l = []
      · subst h
        exact ⟨a, by simp, by simp⟩
      · obtain ⟨p, hp, hmax⟩ := ih h
        by_cases hc : dot6 p n ≤ dot6 a n
        · refine ⟨a, List.mem_cons_self, fun q hq => ?_⟩
          rcases List.mem_cons.1 hq with rfl | hq
          · exact le_rfl
          · exact (hmax q hq).trans hc
        · refine ⟨p, List.mem_cons_of_mem _ hp, fun q hq => ?_⟩
          rcases List.mem_cons.1 hq with rfl | hq
          · exact (not_le.1 hc).le
          · exact hmax q hq

theorem hull_le (n : Wrench) (c : ℝ) (l : List Wrench) (h : ∀ q ∈ l, dot6 q n ≤ c) {x : Wrench}
    (hx : x ∈ convexHull ℝ { w | w ∈ l }) : dot6 x n ≤ c := by
  have hc : Convex ℝ { x : Wrench | dot6 x n ≤ c } := by
    intro a ha b hb s t hs ht hst
    simp only [Set.mem_ofPred_eq] at ha hb ⊢
    rw [dot6_add, dot6_smul, dot6_smul]
    calc s * dot6 a n + t * dot6 b n ≤ s * c + t * c := add_le_add (mul_le_mul_of_nonneg_left ha hs) (mul_le_mul_of_nonneg_left hb ht)
      _ = c := by rw [← add_mul, hst, one_mul]
  exact convexHull_min (fun q hq => h q hq) hc hx

theorem dot6_self_pos {n : Wrench} (h : n ≠ 0) : 0 < dot6 n n := by
  rcases (dot6_self_nonneg n).lt_or_eq with h1 | h1
  · exact h1
  · exfalso
    have h2 : n.1 ⬝ᵥ n.1 = 0 := by have := dot_nonneg n.1; have := dot_nonneg n.2; simp only [dot6] at h1; linarith
    have h3 : n.2 ⬝ᵥ n.2 = 0 := by have := dot_nonneg n.1; have := dot_nonneg n.2; simp only [dot6] at h1; linarith
    have z : ∀ v : V3, v ⬝ᵥ v = 0 → v = 0 := fun v hv => by
      by_contra hne
      exact (dot_pos hne).ne' hv
    exact h (Prod.ext (z _ h2) (z _ h3))

/-- Every finite set of wrenches that is not empty has a right answer. -/
theorem exists_isHull (pts : List Wrench) (h : pts ≠ []) (vol : ℝ) : ∃ r, IsHull r pts ∧ r.totvol = vol := by
  classical
  obtain ⟨A, hA⟩ := cone_polyhedral pts
  choose far hfar hmax using fun n => exists_far n pts h
  -- unit normals
  let N : List Wrench := unit6 0 :: ((A.map (·.1)).filter fun n => n ≠ 0).map fun n => (1 / Real.sqrt (dot6 n n)) • n
  let facet : Wrench → QFacet := fun n => ⟨fun _ => far n, n, -dot6 (far n) n⟩
  have hunit : ∀ n ∈ N, dot6 n n = 1 := by
    intro n hn
    rcases List.mem_cons.1 hn with rfl | hn
    · simp [unit6_dot]
    · obtain ⟨m, hm, rfl⟩ := List.mem_map.1 hn
      have hm0 : m ≠ 0 := by simpa using (List.mem_filter.1 hm).2
      have hp := dot6_self_pos hm0
      rw [dot6_smul, dot6_smul_right, ← mul_assoc, ← sq, div_pow, one_pow, Real.sq_sqrt hp.le]
      field_simp
  refine ⟨⟨pts, N.map facet, vol⟩, ⟨?_, ?_, by simp [N], h, fun v hv => hv, ?_⟩, rfl⟩
  · intro f hf
    obtain ⟨n, hn, rfl⟩ := List.mem_map.1 hf
    exact hunit n hn
  · intro x
    constructor
    · intro hx f hf
      obtain ⟨n, hn, rfl⟩ := List.mem_map.1 hf
      have := hull_le n _ pts (hmax n) hx
      simp only [facet]
      linarith
    · intro hx
      rw [hull_iff pts h, ← hA]
      intro a ha
      have hpos := (hA (far a.1, 1)).2 ((hull_iff pts h _).1 (subset_convexHull ℝ _ (hfar a.1))) a ha
      simp only [ev, mul_one] at hpos ⊢
      by_cases h0 : a.1 = 0
      · rw [h0, dot6_comm, dot6_zero]
        rw [h0, dot6_comm, dot6_zero] at hpos
        exact hpos
      · set k := 1 / Real.sqrt (dot6 a.1 a.1) with hk
        have hkp : 0 < k := one_div_pos.2 (Real.sqrt_pos.2 (dot6_self_pos h0))
        have hmem : k • a.1 ∈ N := by
          refine List.mem_cons_of_mem _ (List.mem_map.2 ⟨a.1, ?_, rfl⟩)
          rw [List.mem_filter]
          exact ⟨List.mem_map.2 ⟨a, ha, rfl⟩, by simpa using h0⟩
        have h1 := hx (facet (k • a.1)) (List.mem_map.2 ⟨_, hmem, rfl⟩)
        simp only [facet, dot6_smul_right] at h1
        have h2 := hmax a.1 (far (k • a.1)) (hfar _)
        have h3 : k * (dot6 x a.1 - dot6 (far (k • a.1)) a.1) ≤ 0 := by linarith
        have h4 : dot6 x a.1 - dot6 (far (k • a.1)) a.1 ≤ 0 := by
          by_contra hc
          have := mul_pos hkp (not_le.1 hc)
          linarith
        linarith
  · intro f hf c
    obtain ⟨n, hn, rfl⟩ := List.mem_map.1 hf
    exact ⟨hfar n, by simp [facet]⟩

/-- There is an exact qhull that answers for all points, with volume `vol`. -/
theorem exists_exact (vol : ℝ) : ∃ q : Qhull, Exact q ∧ ∀ pts, pts ≠ [] → ∃ r, q pts = some r ∧ r.totvol = vol := by
  classical
  choose r hr hv using fun (pts : List Wrench) (h : pts ≠ []) => exists_isHull pts h vol
  refine ⟨fun pts => if h : pts ≠ [] then some (r pts h) else none, ?_, ?_⟩
  · intro pts s hs
    dsimp only at hs
    by_cases h : pts ≠ []
    · rw [dif_pos h] at hs
      obtain rfl := Option.some.inj hs
      exact hr pts h
    · rw [dif_neg h] at hs
      cases hs
  · intro pts h
    exact ⟨r pts h, dif_pos h, hv pts h⟩

end Simox.Gpl
