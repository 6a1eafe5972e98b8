import Verif.Sph.Lemmas

/-!
# Approximations of spheres: cones, triangles and nearest vertices
-/

namespace Simox.Sph

/-! ### Cones -/

theorem InCone.mono {d a b c a' b' c' : Vec} (h : InCone d a b c) (ha : Along a a') (hb : Along b b') (hc : Along c c') : InCone d a' b' c' := by
  obtain ⟨α, β, γ, h1, h2, h3, rfl⟩ := h
  obtain ⟨i, hi, rfl⟩ := ha
  obtain ⟨j, hj, rfl⟩ := hb
  obtain ⟨k, hk, rfl⟩ := hc
  refine ⟨α * i, β * j, γ * k, mul_nonneg h1 hi, mul_nonneg h2 hj, mul_nonneg h3 hk, ?_⟩
  ext <;> simp <;> ring

theorem Along.refl (a : Vec) : Along a a := ⟨1, zero_le_one, by ext <;> simp⟩

/-- A cone is covered by the four of the divided face. -/
theorem InCone.divide {d a b c : Vec} (h : InCone d a b c) : InCone d a (mid a b) (mid c a) ∨ InCone d (mid a b) b (mid b c) ∨ InCone d (mid c a) (mid b c) c ∨ InCone d (mid a b) (mid b c) (mid c a) := by
  obtain ⟨α, β, γ, h1, h2, h3, rfl⟩ := h
  by_cases ha : β + γ ≤ α
  · refine Or.inl ⟨α - β - γ, 2 * β, 2 * γ, by linarith, by linarith, by linarith, ?_⟩
    ext <;> simp [mid] <;> ring
  · by_cases hb : α + γ ≤ β
    · refine Or.inr (Or.inl ⟨2 * α, β - α - γ, 2 * γ, by linarith, by linarith, by linarith, ?_⟩)
      ext <;> simp [mid] <;> ring
    · by_cases hc : α + β ≤ γ
      · refine Or.inr (Or.inr (Or.inl ⟨2 * α, 2 * β, γ - α - β, by linarith, by linarith, by linarith, ?_⟩))
        ext <;> simp [mid] <;> ring
      · push Not at ha hb hc
        refine Or.inr (Or.inr (Or.inr ⟨α + β - γ, β + γ - α, γ + α - β, by linarith, by linarith, by linarith, ?_⟩))
        ext <;> simp [mid] <;> ring

/-- A face of a direction, by its ids. -/
def Has (vs : List Vec) (f : Face) (d : Vec) : Prop := ∃ a b c, vs[f.a]? = some a ∧ vs[f.b]? = some b ∧ vs[f.c]? = some c ∧ InCone d a b c

theorem Has.mono {vs vs' : List Vec} (h : vs <+: vs') {f : Face} {d : Vec} : Has vs f d → Has vs' f d := by
  rintro ⟨a, b, c, ha, hb, hc, hd⟩
  exact ⟨a, b, c, prefix_get h ha, prefix_get h hb, prefix_get h hc, hd⟩

theorem divideFace_has {eps : ℝ} {vs : List Vec} {f : Face} {d : Vec} (h : Has vs f d)
    (hcl : ∀ a b c, vs[f.a]? = some a → vs[f.b]? = some b → vs[f.c]? = some c →
      CleanLookup eps (mid a b) vs ∧ CleanLookup eps (mid b c) (lookup eps (mid a b) vs).1 ∧ CleanLookup eps (mid c a) (lookup eps (mid b c) (lookup eps (mid a b) vs).1).1)
    {vs' : List Vec} {new : List Face} (e : divideFace eps vs f = some (vs', new)) : ∃ g ∈ new, Has vs' g d := by
  obtain ⟨a, b, c, ha, hb, hc, hd⟩ := h
  obtain ⟨c1, c2, c3⟩ := hcl a b c ha hb hc
  unfold divideFace at e
  rw [ha, hb, hc] at e
  simp only [Option.some.injEq, Prod.mk.injEq] at e
  obtain ⟨m1, g1, a1⟩ := lookup_along c1
  obtain ⟨m2, g2, a2⟩ := lookup_along c2
  obtain ⟨m3, g3, a3⟩ := lookup_along c3
  have p1 := lookup_prefix eps (mid a b) vs
  have p2 := lookup_prefix eps (mid b c) (lookup eps (mid a b) vs).1
  have p3 := lookup_prefix eps (mid c a) (lookup eps (mid b c) (lookup eps (mid a b) vs).1).1
  obtain ⟨rfl, rfl⟩ := e
  have qa := prefix_get (p1.trans (p2.trans p3)) ha
  have qb := prefix_get (p1.trans (p2.trans p3)) hb
  have qc := prefix_get (p1.trans (p2.trans p3)) hc
  have q1 := prefix_get (p2.trans p3) g1
  have q2 := prefix_get p3 g2
  rcases hd.divide with h | h | h | h
  · exact ⟨⟨f.a, (lookup eps (mid a b) vs).2, (lookup eps (mid c a) (lookup eps (mid b c) (lookup eps (mid a b) vs).1).1).2⟩, by simp, a, m1, m3, qa, q1, g3, h.mono (.refl _) a1 a3⟩
  · exact ⟨⟨(lookup eps (mid a b) vs).2, f.b, (lookup eps (mid b c) (lookup eps (mid a b) vs).1).2⟩, by simp, m1, b, m2, q1, qb, q2, h.mono a1 (.refl _) a2⟩
  · exact ⟨⟨(lookup eps (mid c a) (lookup eps (mid b c) (lookup eps (mid a b) vs).1).1).2, (lookup eps (mid b c) (lookup eps (mid a b) vs).1).2, f.c⟩, by simp, m3, m2, c, g3, q2, qc, h.mono a3 a2 (.refl _)⟩
  · exact ⟨⟨(lookup eps (mid a b) vs).2, (lookup eps (mid b c) (lookup eps (mid a b) vs).1).2, (lookup eps (mid c a) (lookup eps (mid b c) (lookup eps (mid a b) vs).1).1).2⟩, by simp,
      m1, m2, m3, q1, q2, g3, h.mono a1 a2 a3⟩

theorem divideFaces_has {eps : ℝ} {d : Vec} : ∀ (fs : List Face) (vs : List Vec), Clean eps vs fs → (∀ f ∈ fs, f.a < vs.length ∧ f.b < vs.length ∧ f.c < vs.length) → (∃ f ∈ fs, Has vs f d) →
    ∀ vs' new, divideFaces eps vs fs = some (vs', new) → ∃ g ∈ new, Has vs' g d := by
  intro fs
  induction fs with
  | nil => intro vs _ _ ⟨f, hf, _⟩; cases hf
  | cons f fs ih =>
    intro vs hcl hv hf vs2 new e
    obtain ⟨ha, hb, hc⟩ := hv f (by simp)
    obtain ⟨vs1, new1, e1, p1, n1, v1⟩ := divideFace_some (eps := eps) ha hb hc
    rw [divideFaces, e1] at e
    simp only at e
    have hle := p1.length_le
    have hv1 : ∀ g ∈ fs, g.a < vs1.length ∧ g.b < vs1.length ∧ g.c < vs1.length := by
      intro g hg
      obtain ⟨h1, h2, h3⟩ := hv g (List.mem_cons_of_mem _ hg)
      omega
    obtain ⟨vs3, new3, e3, p3, -, -⟩ := divideFaces_some (eps := eps) fs vs1 hv1
    rw [e3] at e
    simp only [Option.some.injEq, Prod.mk.injEq] at e
    obtain ⟨rfl, rfl⟩ := e
    obtain ⟨h, hh, hd⟩ := hf
    rcases List.mem_cons.1 hh with rfl | hh
    · obtain ⟨g, hg, hgd⟩ := divideFace_has hd hcl.1 e1
      exact ⟨g, List.mem_append_left _ hg, hgd.mono p3⟩
    · obtain ⟨g, hg, hgd⟩ := ih vs1 (hcl.2 _ _ e1) hv1 ⟨h, hh, hd.mono p1⟩ _ _ e3
      exact ⟨g, List.mem_append_right _ hg, hgd⟩

theorem project_has {radius : ℝ} (hr : 0 < radius) {vs : List Vec} {f : Face} {d : Vec} : Has vs f d → Has (vs.map (project radius)) f d := by
  rintro ⟨a, b, c, ha, hb, hc, hd⟩
  refine ⟨_, _, _, by rw [List.getElem?_map, ha]; rfl, by rw [List.getElem?_map, hb]; rfl, by rw [List.getElem?_map, hc]; rfl, hd.mono ?_ ?_ ?_⟩ <;> exact project_along hr _

theorem levels_covers {eps radius : ℝ} (hr : 0 < radius) : ∀ (n : ℕ) (g : Graph), g.Valid → Covers g.vertices g.faces → CleanLevels eps radius n g → ∀ g', levels eps radius n g = some g' → Covers g'.vertices g'.faces := by
  intro n
  induction n with
  | zero =>
    intro g _ hc _ g' e
    cases e
    exact hc
  | succ n ih =>
    intro g hv hc hcl g' e
    obtain ⟨g1, e1, v1, -, -⟩ := subDivide_some (eps := eps) hv
    rw [levels, e1] at e
    refine ih (g1.project radius) (project_valid v1) ?_ (hcl.2 g1 e1) g' e
    intro d
    obtain ⟨vs', new, e2, -, -, -⟩ := divideFaces_some (eps := eps) g.faces g.vertices hv
    have e3 : g1 = ⟨vs', new⟩ := by
      rw [Graph.subDivide, e2] at e1
      exact (Option.some.inj e1).symm
    obtain ⟨f, hf, hd⟩ := divideFaces_has g.faces g.vertices hcl.1 hv (hc d) vs' new e2
    rw [e3]
    exact ⟨f, hf, project_has hr hd⟩

/-! ### Triangles -/

theorem cross_expand (e1 e2 q : Vec) (h : (e1.cross e2).dot q = 0) : ((e1.cross e2).dot (e1.cross e2)) • q = ((q.cross e2).dot (e1.cross e2)) • e1 + ((e1.cross q).dot (e1.cross e2)) • e2 := by
  have e : ((e1.cross e2).dot (e1.cross e2)) • q = ((e1.cross e2).dot q) • (e1.cross e2) + (((q.cross e2).dot (e1.cross e2)) • e1 + ((e1.cross q).dot (e1.cross e2)) • e2) := by
    ext <;> simp [Vec.cross, Vec.dot] <;> ring
  rw [e, h]
  ext <;> simp

theorem sameClock_iff (p1 p2 p3 n : Vec) : sameClock p1 p2 p3 n ↔ 0 ≤ ((p2 - p1).cross (p3 - p1)).dot n := by
  unfold sameClock
  simp only [not_lt, Vec.cross, Vec.dot, sub_x, sub_y, sub_z]
  constructor <;> intro h <;> nlinarith [h]

/-- In the plane of a triangle, the three tests tell the points of the triangle. -/
theorem inTriangle_iff {a b c q n : Vec} (en : n = (b - a).cross (c - b)) (hn : 0 < n.dot n) (hq : n.dot (q - a) = 0) : sameClock a b q n ∧ sameClock b c q n ∧ sameClock c a q n ↔ InTriangle q a b c := by
  simp only [sameClock_iff]
  have en' : n = (b - a).cross (c - a) := by rw [en]; ext <;> simp [Vec.cross] <;> ring
  constructor
  · rintro ⟨h1, h2, h3⟩
    refine ⟨((c - b).cross (q - b)).dot n / n.dot n, ((a - c).cross (q - c)).dot n / n.dot n, ((b - a).cross (q - a)).dot n / n.dot n, div_nonneg h2 hn.le, div_nonneg h3 hn.le, div_nonneg h1 hn.le, ?_, ?_⟩
    · rw [← add_div, ← add_div, div_eq_one_iff_eq hn.ne', en]
      simp [Vec.cross, Vec.dot]
      ring
    · have h := cross_expand (b - a) (c - a) (q - a) (by rw [← en']; exact hq)
      rw [← en'] at h
      have hs : ((c - b).cross (q - b)).dot n + ((a - c).cross (q - c)).dot n + ((b - a).cross (q - a)).dot n = n.dot n := by
        rw [en]
        simp [Vec.cross, Vec.dot]
        ring
      have h4 : ((q - a).cross (c - a)).dot n = ((a - c).cross (q - c)).dot n := by
        simp [Vec.cross, Vec.dot]
        ring
      rw [h4] at h
      generalize ((c - b).cross (q - b)).dot n = u at hs ⊢
      generalize ((a - c).cross (q - c)).dot n = v at hs h ⊢
      generalize ((b - a).cross (q - a)).dot n = w at hs h ⊢
      generalize n.dot n = m at hs h hn ⊢
      have hx := congrArg Vec.x h
      have hy := congrArg Vec.y h
      have hz := congrArg Vec.z h
      simp at hx hy hz
      have hm := hn.ne'
      ext <;> simp <;> field_simp
      · have : u = m - v - w := by linarith
        rw [this]; linarith
      · have : u = m - v - w := by linarith
        rw [this]; linarith
      · have : u = m - v - w := by linarith
        rw [this]; linarith
  · rintro ⟨α, β, γ, h1, h2, h3, hs, rfl⟩
    have hα : α = 1 - β - γ := by linarith
    have e1 : ((b - a).cross (α • a + β • b + γ • c - a)).dot n = γ * n.dot n := by
      rw [en, hα]
      simp [Vec.cross, Vec.dot]
      ring
    have e2 : ((c - b).cross (α • a + β • b + γ • c - b)).dot n = α * n.dot n := by
      rw [en, hα]
      simp [Vec.cross, Vec.dot]
      ring
    have e3 : ((a - c).cross (α • a + β • b + γ • c - c)).dot n = β * n.dot n := by
      rw [en, hα]
      simp [Vec.cross, Vec.dot]
      ring
    rw [e1, e2, e3]
    exact ⟨mul_nonneg h3 hn.le, mul_nonneg h1 hn.le, mul_nonneg h2 hn.le⟩

theorem dot_self_pos {n v : Vec} (h : n.dot v < 0) : 0 < n.dot n := by
  have h0 : 0 ≤ n.dot n := by unfold Vec.dot; nlinarith [mul_self_nonneg n.x, mul_self_nonneg n.y, mul_self_nonneg n.z]
  rcases h0.lt_or_eq with h1 | h1
  · exact h1
  · exfalso
    unfold Vec.dot at h h1
    have hx : n.x = 0 := by nlinarith [mul_self_nonneg n.x, mul_self_nonneg n.y, mul_self_nonneg n.z]
    have hy : n.y = 0 := by nlinarith [mul_self_nonneg n.x, mul_self_nonneg n.y, mul_self_nonneg n.z]
    have hz : n.z = 0 := by nlinarith [mul_self_nonneg n.x, mul_self_nonneg n.y, mul_self_nonneg n.z]
    rw [hx, hy, hz] at h
    simp at h

/-! ### The nearest vertex -/

/-- The loop finds the least angle, and the first vertex with it. -/
theorem nearest_spec (p : Vec) (all : List Vec) : ∀ (vs : List Vec) (i : ℕ) (best : Option (ℝ × ℕ)), all.drop i = vs → i ≤ all.length →
    (match best with
      | none => i = 0
      | some (d, j) => j < i ∧ (∃ v, all[j]? = some v ∧ d = angle p v) ∧ ∀ k w, k < i → all[k]? = some w → d ≤ angle p w ∧ (k < j → d < angle p w)) →
    (all = [] ∧ nearest p vs i best = none) ∨ ∃ d j, nearest p vs i best = some (d, j) ∧ (∃ v, all[j]? = some v ∧ d = angle p v) ∧ ∀ k w, all[k]? = some w → d ≤ angle p w ∧ (k < j → d < angle p w)
  | [], i, best, hd, hi, hb => by
    have hlen : all.length = i := le_antisymm (List.drop_eq_nil_iff.1 hd) hi
    match best, hb with
    | none, hb =>
      left
      refine ⟨List.length_eq_zero_iff.1 (hlen.trans hb), rfl⟩
    | some (d, j), hb =>
      right
      refine ⟨d, j, rfl, hb.2.1, fun k w hk => hb.2.2 k w ?_ hk⟩
      have := (List.getElem?_eq_some_iff.1 hk).1
      omega
  | v :: vs, i, best, hd, hi, hb => by
    have hlt : i < all.length := by
      by_contra h
      rw [List.drop_eq_nil_of_le (not_lt.1 h)] at hd
      cases hd
    have hv : all[i]? = some v := by
      have := List.getElem?_drop (xs := all) (i := i) (j := 0)
      rw [hd] at this
      simpa using this.symm
    have hd' : all.drop (i + 1) = vs := by
      rw [← List.tail_drop, hd]
      rfl
    match best, hb with
    | none, hb =>
      refine nearest_spec p all vs (i + 1) (some (angle p v, i)) hd' hlt ⟨Nat.lt_succ_self i, ⟨v, hv, rfl⟩, fun k w hk hw => ?_⟩
      have hb' : i = 0 := hb
      have hk0 : k = i := by omega
      subst hk0
      rw [hv] at hw
      cases hw
      exact ⟨le_rfl, fun h => absurd h (lt_irrefl _)⟩
    | some (d, j), hb =>
      obtain ⟨hj, hjv, hall⟩ := hb
      rw [nearest]
      by_cases hlt' : angle p v < d
      · rw [if_pos hlt']
        refine nearest_spec p all vs (i + 1) (some (angle p v, i)) hd' hlt ⟨Nat.lt_succ_self i, ⟨v, hv, rfl⟩, fun k w hk hw => ?_⟩
        rcases Nat.lt_succ_iff_lt_or_eq.1 hk with h | rfl
        · have := (hall k w h hw).1
          exact ⟨(hlt'.trans_le this).le, fun _ => hlt'.trans_le this⟩
        · rw [hv] at hw
          cases hw
          exact ⟨le_rfl, fun h => absurd h (lt_irrefl _)⟩
      · rw [if_neg hlt']
        refine nearest_spec p all vs (i + 1) (some (d, j)) hd' hlt ⟨hj.trans (Nat.lt_succ_self i), hjv, fun k w hk hw => ?_⟩
        rcases Nat.lt_succ_iff_lt_or_eq.1 hk with h | rfl
        · exact hall k w h hw
        · rw [hv] at hw
          cases hw
          exact ⟨not_lt.1 hlt', fun h => absurd (h.trans hj) (lt_irrefl _)⟩

/-- Cauchy and Schwarz. -/
theorem dot_le (v w : Vec) : |v.dot w| ≤ v.norm * w.norm := by
  rw [← Real.sqrt_sq_eq_abs]
  unfold Vec.norm
  rw [← Real.sqrt_mul (by nlinarith [mul_self_nonneg v.x, mul_self_nonneg v.y, mul_self_nonneg v.z])]
  apply Real.sqrt_le_sqrt
  unfold Vec.dot
  nlinarith [sq_nonneg (v.x * w.y - v.y * w.x), sq_nonneg (v.x * w.z - v.z * w.x), sq_nonneg (v.y * w.z - v.z * w.y)]

/-- The angle of vectors that are not too short. -/
theorem angle_eq {v w : Vec} (h : 1 / 10 ^ 12 ≤ v.norm * w.norm) : angle v w = Real.arccos (v.dot w / (v.norm * w.norm)) := by
  have hp : 0 < v.norm * w.norm := lt_of_lt_of_le (by norm_num) h
  have hd := abs_le.1 (dot_le v w)
  have h1 : v.dot w / (v.norm * w.norm) ≤ 1 := (div_le_one hp).2 hd.2
  have h2 : -1 ≤ v.dot w / (v.norm * w.norm) := by
    rw [le_div_iff₀ hp]
    linarith
  unfold angle
  simp only
  rw [abs_of_pos hp, if_neg (not_lt.2 h), if_neg (not_lt.2 h1), if_neg (not_lt.2 h2)]

theorem angle_le_iff {p v w : Vec} (hv : 1 / 10 ^ 12 ≤ p.norm * v.norm) (hw : 1 / 10 ^ 12 ≤ p.norm * w.norm) : angle p v ≤ angle p w ↔ p.dot w / (p.norm * w.norm) ≤ p.dot v / (p.norm * v.norm) := by
  have hpv : 0 < p.norm * v.norm := lt_of_lt_of_le (by norm_num) hv
  have hpw : 0 < p.norm * w.norm := lt_of_lt_of_le (by norm_num) hw
  have dv := abs_le.1 (dot_le p v)
  have dw := abs_le.1 (dot_le p w)
  rw [angle_eq hv, angle_eq hw]
  exact Real.strictAntiOn_arccos.le_iff_ge ⟨by rw [le_div_iff₀ hpv]; linarith, (div_le_one hpv).2 dv.2⟩ ⟨by rw [le_div_iff₀ hpw]; linarith, (div_le_one hpw).2 dw.2⟩

end Simox.Sph
