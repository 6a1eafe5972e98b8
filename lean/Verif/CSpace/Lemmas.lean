import Verif.CSpace.Model
import Mathlib.Data.List.Chain

namespace Simox.CSpace

open Real Classical

/-! ## Angles -/

theorem cfmod_bound (x : ℝ) {m : ℝ} (hm : 0 < m) : -m < cfmod x m ∧ cfmod x m < m ∧
    ∃ k : ℤ, cfmod x m = x - m * k := by
  unfold cfmod
  have hx : m * (x / m) = x := by field_simp
  split
  · refine ⟨?_, ?_, _, rfl⟩
    · have := Int.floor_le (x / m); nlinarith
    · have := Int.lt_floor_add_one (x / m); nlinarith
  · refine ⟨?_, ?_, _, rfl⟩
    · have := Int.ceil_lt_add_one (x / m); nlinarith
    · have := Int.le_ceil (x / m); nlinarith

theorem fmodRange_spec (v : ℝ) {lo hi : ℝ} (h : lo < hi) :
    lo ≤ fmodRange v lo hi ∧ fmodRange v lo hi < hi ∧
    ∃ k : ℤ, fmodRange v lo hi = v + (hi - lo) * k := by
  obtain ⟨h1, h2, k, hk⟩ := cfmod_bound (v - lo) (m := hi - lo) (by linarith)
  unfold fmodRange
  simp only
  split
  · refine ⟨by linarith, by linarith, -k + 1, ?_⟩
    rw [hk]; push_cast; ring
  · refine ⟨by linarith, by linarith, -k, ?_⟩
    rw [hk]; push_cast; ring

theorem angleMod2PI_spec (v : ℝ) : 0 ≤ angleMod2PI v ∧ angleMod2PI v < 2 * π ∧
    ∃ k : ℤ, angleMod2PI v = v + 2 * π * k := by
  have := fmodRange_spec v (lo := 0) (hi := 2 * π) (by positivity)
  simpa [angleMod2PI] using this

theorem angleModPI_spec (v : ℝ) : -π ≤ angleModPI v ∧ angleModPI v < π ∧
    ∃ k : ℤ, angleModPI v = v + 2 * π * k := by
  obtain ⟨h1, h2, k, hk⟩ := angleMod2PI_spec (v + π)
  unfold angleModPI
  exact ⟨by linarith, by linarith, k, by rw [hk]; ring⟩

theorem angleModX_spec (v c : ℝ) : c - π ≤ angleModX v c ∧ angleModX v c < c + π ∧
    ∃ k : ℤ, angleModX v c = v + 2 * π * k := by
  obtain ⟨h1, h2, k, hk⟩ := angleMod2PI_spec (v + π - c)
  unfold angleModX
  exact ⟨by linarith, by linarith, k, by rw [hk]; ring⟩

/-- Representatives modulo `2π` in a half-open interval of that length are unique. -/
theorem rep_unique {x y lo : ℝ} (hx1 : lo ≤ x) (hx2 : x < lo + 2 * π) (hy1 : lo ≤ y)
    (hy2 : y < lo + 2 * π) (h : ∃ k : ℤ, x = y + 2 * π * k) : x = y := by
  obtain ⟨k, hk⟩ := h
  have hp := Real.pi_pos
  have h1 : (k : ℝ) < 1 := by nlinarith
  have h2 : (-1 : ℝ) < k := by nlinarith
  have h1 : k < 1 := by exact_mod_cast h1
  have h2 : -1 < k := by exact_mod_cast h2
  obtain rfl : k = 0 := by omega
  simpa using hk

theorem angleModPI_eq {v x : ℝ} (h1 : -π ≤ x) (h2 : x < π) (h : ∃ k : ℤ, x = v + 2 * π * k) :
    angleModPI v = x := by
  obtain ⟨g1, g2, k, hk⟩ := angleModPI_spec v
  obtain ⟨l, hl⟩ := h
  refine rep_unique (lo := -π) g1 (by linarith) h1 (by linarith) ⟨k - l, ?_⟩
  rw [hk, hl]; push_cast; ring

theorem angleLerp_eq (a b f : ℝ) : angleLerp a b f = a + f * angleDelta a b := by
  have hp := Real.pi_pos
  obtain ⟨h1, h2, k, hk⟩ := fmodRange_spec b (lo := a - π) (hi := a + π) (by linarith)
  have : angleDelta a b = fmodRange b (a - π) (a + π) - a := by
    unfold angleDelta
    refine angleModPI_eq (by linarith) (by linarith) ⟨k, ?_⟩
    rw [hk]; ring
  unfold angleLerp lerp
  rw [this]; ring

theorem angleDelta_spec (a b : ℝ) : -π ≤ angleDelta a b ∧ angleDelta a b < π ∧
    ∃ k : ℤ, angleDelta a b = b - a + 2 * π * k := angleModPI_spec _

theorem scale_range {d f : ℝ} (h1 : -π ≤ d) (h2 : d < π) (hf0 : 0 ≤ f) (hf1 : f ≤ 1) :
    -π ≤ f * d ∧ f * d < π := by
  have hp := Real.pi_pos
  constructor
  · rcases le_total 0 d with hd | hd <;> nlinarith
  · rcases le_total 0 d with hd | hd <;> nlinarith

/-- The shortest-arc interpolation splits the angular distance. -/
theorem angle_interp (a b f c : ℝ) (hf0 : 0 ≤ f) (hf1 : f ≤ 1) :
    angleDelta a (angleModX (angleLerp a b f) c) = f * angleDelta a b ∧
    angleDelta (angleModX (angleLerp a b f) c) b = (1 - f) * angleDelta a b := by
  obtain ⟨_, _, k, hk⟩ := angleModX_spec (angleLerp a b f) c
  obtain ⟨d1, d2, l, hl⟩ := angleDelta_spec a b
  rw [hk, angleLerp_eq]
  constructor
  · obtain ⟨r1, r2⟩ := scale_range d1 d2 hf0 hf1
    exact angleModPI_eq r1 r2 ⟨-k, by push_cast; ring⟩
  · obtain ⟨r1, r2⟩ := scale_range d1 d2 (f := 1 - f) (by linarith) (by linarith)
    refine angleModPI_eq r1 r2 ⟨k + l, ?_⟩
    push_cast
    linear_combination hl

/-! ## Metric -/

variable {n : Nat}

/-- What a C-space needs for its local paths: the distance is not negative, zero from a point to
itself, and interpolation divides the distance proportionally. -/
structure GeoOK {Q : Type} (G : Geo Q) : Prop where
  nonneg : ∀ a b, 0 ≤ G.dist a b
  self : ∀ a, G.dist a a = 0
  comm : ∀ a b, G.dist a b = G.dist b a
  left : ∀ a b f, 0 ≤ f → f ≤ 1 → G.dist a (G.interp a b f) = f * G.dist a b
  right : ∀ a b f, 0 ≤ f → f ≤ 1 → G.dist (G.interp a b f) b = (1 - f) * G.dist a b

theorem angleDelta_self (a : ℝ) : angleDelta a a = 0 := by
  have hp := Real.pi_pos
  exact angleModPI_eq (by linarith) hp ⟨0, by simp⟩

theorem abs_angleDelta_comm (a b : ℝ) : |angleDelta a b| = |angleDelta b a| := by
  obtain ⟨d1, d2, l, hl⟩ := angleDelta_spec a b
  by_cases h : angleDelta a b = -π
  · have : angleDelta b a = -π := by
      refine angleModPI_eq (le_refl _) (by linarith [Real.pi_pos]) ⟨-l - 1, ?_⟩
      push_cast; linear_combination h - hl
    rw [h, this]
  · have : angleDelta b a = -angleDelta a b := by
      refine angleModPI_eq (by linarith) (by
        have := lt_of_le_of_ne d1 (Ne.symm h); linarith) ⟨-l, ?_⟩
      push_cast; linear_combination -hl
    rw [this, abs_neg]

/-- Each dimension contributes `(scale · |distance|)²` with a scale that does not depend on the
points. -/
noncomputable def Space.scale (S : Space n) (force : Bool) (i : Fin n) : ℝ :=
  if S.useMetricWeights && !force then S.metricWeights i else 1

theorem calcDist2_eq (S : Space n) (c1 c2 : Config n) (force : Bool) :
    S.calcDist2 c1 c2 force = ∑ i, (S.scale force i * S.distDim c1 c2 i) ^ 2 := by
  unfold Space.calcDist2 Space.scale
  apply Finset.sum_congr rfl
  intro i _
  split <;> ring

theorem calcDist2_scaled (S : Space n) (a b a' b' : Config n) (force : Bool) (f : ℝ)
    (h : ∀ i, |S.distDim a' b' i| = |f * S.distDim a b i|) :
    S.calcDist2 a' b' force = f ^ 2 * S.calcDist2 a b force := by
  rw [calcDist2_eq, calcDist2_eq, Finset.mul_sum]
  apply Finset.sum_congr rfl
  intro i _
  have := h i
  rw [mul_pow, ← sq_abs (S.distDim a' b' i), this, sq_abs]; ring

theorem calcDist_scaled (S : Space n) (a b a' b' : Config n) (force : Bool) (f : ℝ) (hf : 0 ≤ f)
    (h : ∀ i, |S.distDim a' b' i| = |f * S.distDim a b i|) :
    S.calcDist a' b' force = f * S.calcDist a b force := by
  unfold Space.calcDist
  rw [calcDist2_scaled S a b a' b' force f h, Real.sqrt_mul (sq_nonneg f), Real.sqrt_sq hf]

theorem distDim_interp (S : Space n) (hS : ∀ i, S.borderless i = true → S.translational i = false)
    (a b : Config n) (f : ℝ) (hf0 : 0 ≤ f) (hf1 : f ≤ 1) (i : Fin n) :
    |S.distDim a (S.interpolate a b f) i| = |f * S.distDim a b i| ∧
    |S.distDim (S.interpolate a b f) b i| = |(1 - f) * S.distDim a b i| := by
  unfold Space.distDim Space.interpolate
  cases hb : S.borderless i with
  | true =>
    have ht := hS i hb
    simp only [ht, if_true, Bool.false_eq_true, if_false, Bool.true_eq_false]
    obtain ⟨e1, e2⟩ := angle_interp (a i) (b i) f (1 / 2 * (S.boundaryMax i + S.boundaryMin i)) hf0 hf1
    rw [e1, e2]
    simp [abs_mul]
  | false =>
    simp only [Bool.false_eq_true, if_false, if_true, ite_self]
    constructor
    · rw [show a i - (a i + f * (b i - a i)) = f * (a i - b i) by ring]
    · rw [show a i + f * (b i - a i) - b i = (1 - f) * (a i - b i) by ring]

theorem geoOK (S : Space n) (hS : ∀ i, S.borderless i = true → S.translational i = false) :
    GeoOK S.geo where
  nonneg a b := Real.sqrt_nonneg _
  self a := by
    have : S.calcDist a a false = 0 * S.calcDist a a false := by
      apply calcDist_scaled S a a a a false 0 (le_refl _)
      intro i
      unfold Space.distDim
      split <;> simp [angleDelta_self]
    show S.calcDist a a false = 0
    rw [this]; ring
  comm a b := by
    show S.calcDist a b false = S.calcDist b a false
    have := calcDist_scaled S b a a b false 1 (by norm_num) (by
      intro i
      unfold Space.distDim
      split
      · rw [abs_abs, one_mul, abs_abs]; exact abs_angleDelta_comm _ _
      · rw [one_mul, abs_sub_comm])
    rw [this]; ring
  left a b f h0 h1 :=
    calcDist_scaled S a b a _ false f h0 (fun i => (distDim_interp S hS a b f h0 h1 i).1)
  right a b f h0 h1 :=
    calcDist_scaled S a b _ b false (1 - f) (by linarith)
      (fun i => (distDim_interp S hS a b f h0 h1 i).2)

/-! ## createPath -/

variable {Q : Type}

/-- One step of length `s ≤ dist` towards the goal. -/
theorem step_dist {G : Geo Q} (hG : GeoOK G) (a b : Q) {s : ℝ} (hs : 0 < s) (h : s ≤ G.dist a b) :
    G.dist a (G.interp a b (s / G.dist a b)) = s ∧
    G.dist (G.interp a b (s / G.dist a b)) b = G.dist a b - s := by
  have hd : 0 < G.dist a b := lt_of_lt_of_le hs h
  have h0 : 0 ≤ s / G.dist a b := by positivity
  have h1 : s / G.dist a b ≤ 1 := by rw [div_le_one hd]; exact h
  rw [hG.left a b _ h0 h1, hG.right a b _ h0 h1]
  constructor
  · field_simp
  · field_simp

theorem chain_snoc {α : Type} {R : α → α → Prop} {l : List α} {a x : α} (h : (l ++ [a]).IsChain R)
    (hr : R a x) : ((l ++ [a]) ++ [x]).IsChain R := by
  rw [List.append_assoc]
  refine List.isChain_append.mpr ⟨(List.isChain_append.mp h).1, ?_, ?_⟩
  · simp [hr]
  · intro y hy z hz
    have := (List.isChain_append.mp h).2.2 y hy z
    simp at hz; subst hz
    exact this (by simp)

/-- Loop invariant of `createPath`: the path so far, `pre ++ [last]`, is a chain of the given spacing
and the rest is finished within `k + 2` iterations when the remaining distance is at most
`(k + 1) · ss`. -/
theorem createPathLoop_spec {G : Geo Q} (hG : GeoOK G) {ss : ℝ} (hss : 0 < ss) (goal : Q) :
    ∀ (k : Nat) (last : Q) (lastNode : Bool) (pre : List Q),
    G.dist last goal ≤ (k + 1) * ss →
    (lastNode = true → G.dist last goal ≤ ss * 1.05) →
    (lastNode = false → ss ≤ G.dist last goal) →
    (pre ++ [last]).IsChain (fun u v => G.dist u v ≤ ss * 1.05) →
    ∃ p e, (∀ fuel, k + 2 ≤ fuel →
        G.createPathLoop ss goal fuel last (G.dist last goal) lastNode (pre ++ [last]) =
          some (pre ++ last :: (p ++ [e]))) ∧
      (pre ++ last :: (p ++ [e])).IsChain (fun u v => G.dist u v ≤ ss * 1.05) ∧
      (e = goal ∨ G.dist e goal < 1e-6) := by
  intro k
  induction k with
  | zero =>
    intro last lastNode pre hk ht hf hc
    cases lastNode with
    | true =>
      refine ⟨[], goal, ?_, ?_, Or.inl rfl⟩
      · intro fuel hfuel
        obtain ⟨f, rfl⟩ : ∃ f, fuel = f + 1 := ⟨fuel - 1, by omega⟩
        have : (0 : ℝ) ≤ ss * 1.05 := by positivity
        simp [Geo.createPathLoop, hG.self, this]
      · have := chain_snoc hc (ht rfl); simpa using this
    | false =>
      have hge := hf rfl
      obtain ⟨s1, s2⟩ := step_dist hG last goal hss hge
      generalize hl : G.interp last goal (ss / G.dist last goal) = last' at s1 s2
      have hd' : G.dist last' goal < 1e-6 := by
        rw [s2]; norm_num at hk ⊢; linarith
      refine ⟨[], last', ?_, ?_, Or.inr hd'⟩
      · intro fuel hfuel
        obtain ⟨f, rfl⟩ : ∃ f, fuel = f + 1 := ⟨fuel - 1, by omega⟩
        have h1 : G.dist last' goal ≤ ss * 1.05 := by
          rw [s2]; norm_num at hk; linarith
        simp only [Geo.createPathLoop, Bool.false_eq_true, if_false, hl, h1, if_true, false_or, hd']
        simp
      · have := chain_snoc hc (x := last') (by rw [s1]; linarith); simpa using this
  | succ k ih =>
    intro last lastNode pre hk ht hf hc
    cases lastNode with
    | true =>
      refine ⟨[], goal, ?_, ?_, Or.inl rfl⟩
      · intro fuel hfuel
        obtain ⟨f, rfl⟩ : ∃ f, fuel = f + 1 := ⟨fuel - 1, by omega⟩
        have : (0 : ℝ) ≤ ss * 1.05 := by positivity
        simp [Geo.createPathLoop, hG.self, this]
      · have := chain_snoc hc (ht rfl); simpa using this
    | false =>
      have hge := hf rfl
      obtain ⟨s1, s2⟩ := step_dist hG last goal hss hge
      generalize hl : G.interp last goal (ss / G.dist last goal) = last' at s1 s2
      have hc' := chain_snoc hc (x := last') (by rw [s1]; linarith)
      have hk' : G.dist last' goal ≤ (k + 1) * ss := by rw [s2]; push_cast at hk; linarith
      by_cases h1 : G.dist last' goal ≤ ss * 1.05
      · by_cases h2 : G.dist last' goal < 1e-6
        · refine ⟨[], last', ?_, by simpa using hc', Or.inr h2⟩
          intro fuel hfuel
          obtain ⟨f, rfl⟩ : ∃ f, fuel = f + 1 := ⟨fuel - 1, by omega⟩
          simp only [Geo.createPathLoop, Bool.false_eq_true, if_false, hl, h1, if_true, false_or, h2]
          simp
        · obtain ⟨p, e, q1, q2, q3⟩ := ih last' true (pre ++ [last]) hk' (fun _ => h1)
            (fun h => by simp at h) hc'
          refine ⟨last' :: p, e, ?_, by simpa using q2, q3⟩
          intro fuel hfuel
          obtain ⟨f, rfl⟩ : ∃ f, fuel = f + 1 := ⟨fuel - 1, by omega⟩
          have := q1 f (by omega)
          simp only [Geo.createPathLoop, Bool.false_eq_true, if_false, hl, h1, if_true, false_or, h2]
          rw [this]; simp
      · obtain ⟨p, e, q1, q2, q3⟩ := ih last' false (pre ++ [last]) hk' (fun h => by simp at h)
          (fun _ => by norm_num at h1; nlinarith) hc'
        refine ⟨last' :: p, e, ?_, by simpa using q2, q3⟩
        intro fuel hfuel
        obtain ⟨f, rfl⟩ : ∃ f, fuel = f + 1 := ⟨fuel - 1, by omega⟩
        have := q1 f (by omega)
        simp only [Geo.createPathLoop, Bool.false_eq_true, if_false, hl, h1]
        rw [this]; simp

/-- If the first distance is not in the critical window, and the sampling size is not tiny, the last
point is exactly the goal. -/
theorem createPathLoop_exact {G : Geo Q} (hG : GeoOK G) {ss : ℝ} (hss : 2e-5 ≤ ss) (goal : Q) :
    ∀ (fuel : Nat) (last : Q) (lastNode : Bool) (acc : List Q) (p : List Q),
    (lastNode = false → ss + 1e-6 ≤ G.dist last goal) →
    G.createPathLoop ss goal fuel last (G.dist last goal) lastNode acc = some p →
    p.getLast? = some goal := by
  have hpos : (0 : ℝ) < ss := by linarith
  intro fuel
  induction fuel with
  | zero => intro last lastNode acc p _ h; simp [Geo.createPathLoop] at h
  | succ f ih =>
    intro last lastNode acc p hf h
    cases lastNode with
    | true =>
      have : (0 : ℝ) ≤ ss * 1.05 := by positivity
      simp [Geo.createPathLoop, hG.self, this] at h
      rw [← h]; simp
    | false =>
      have hge := hf rfl
      obtain ⟨s1, s2⟩ := step_dist hG last goal hpos (by linarith)
      simp only [Geo.createPathLoop, Bool.false_eq_true, if_false, false_or] at h
      generalize hl : G.interp last goal (ss / G.dist last goal) = last' at s1 s2 h
      have h2 : ¬ G.dist last' goal < 1e-6 := by rw [s2]; linarith
      by_cases h1 : G.dist last' goal ≤ ss * 1.05
      · simp only [h1, if_true, h2, if_false] at h
        exact ih _ _ _ _ (fun h => by simp at h) h
      · simp only [h1, if_false] at h
        exact ih _ _ _ _ (fun _ => by norm_num at h1 hss ⊢; linarith) h

end Simox.CSpace
