/-
Triangles: edges, interior, crossing the boundary, closest points.
-/
import Verif.Pqp.Seg
import Verif.Pqp.Spec
import Mathlib.Analysis.Convex.StdSimplex
import Mathlib.Data.Fintype.Lattice

namespace Simox.Pqp

/-- Points of a triangle given by its corners. -/
def inS (S : Corners) (p : V3) : Prop := inTri (S 0) (S 1) (S 2) p

/-- The normal, as computed. -/
def normal3 (S : Corners) : V3 := cross (sideVec S 0) (sideVec S 1)

/-- Points of an edge. -/
def onEdge (S : Corners) (i : Fin 3) (z : V3) : Prop :=
  ∃ t, 0 ≤ t ∧ t ≤ 1 ∧ z = vaddScaled (S i) (sideVec S i) t

/-- The test whether a point is on the inner side of an edge. -/
def bary (S : Corners) (i : Fin 3) (z : V3) : ℝ := dot (vsub z (S i)) (cross (normal3 S) (sideVec S i))

/-- Points of the plane of the triangle. -/
def inPlane (S : Corners) (z : V3) : Prop := dot (vsub z (S 0)) (normal3 S) = 0

/-- Points inside the triangle. -/
def inside (S : Corners) (z : V3) : Prop := ∀ i, 0 < bary S i z

theorem side0 (S : Corners) : sideVec S 0 = vsub (S 1) (S 0) := rfl
theorem side1 (S : Corners) : sideVec S 1 = vsub (S 2) (S 1) := rfl
theorem side2 (S : Corners) : sideVec S 2 = vsub (S 0) (S 2) := rfl

theorem forall_fin3 {p : Fin 3 → Prop} (h0 : p 0) (h1 : p 1) (h2 : p 2) : ∀ i, p i := by
  intro i
  fin_cases i
  · exact h0
  · exact h1
  · exact h2

theorem corner_inS (S : Corners) : ∀ i, inS S (S i) := by
  refine forall_fin3 ?_ ?_ ?_
  · exact ⟨1, 0, 0, by norm_num, by norm_num, by norm_num, by norm_num, by ext <;> simp⟩
  · exact ⟨0, 1, 0, by norm_num, by norm_num, by norm_num, by norm_num, by ext <;> simp⟩
  · exact ⟨0, 0, 1, by norm_num, by norm_num, by norm_num, by norm_num, by ext <;> simp⟩

theorem inS_segment {S : Corners} {p q : V3} (hp : inS S p) (hq : inS S q) {t : ℝ} (t0 : 0 ≤ t)
    (t1 : t ≤ 1) : inS S (vaddScaled p (vsub q p) t) := by
  obtain ⟨u, v, w, hu, hv, hw, h1, rfl⟩ := hp
  obtain ⟨u', v', w', hu', hv', hw', h1', rfl⟩ := hq
  have s0 : 0 ≤ 1 - t := by linarith
  refine ⟨(1 - t) * u + t * u', (1 - t) * v + t * v', (1 - t) * w + t * w', ?_, ?_, ?_, ?_, ?_⟩
  · exact add_nonneg (mul_nonneg s0 hu) (mul_nonneg t0 hu')
  · exact add_nonneg (mul_nonneg s0 hv) (mul_nonneg t0 hv')
  · exact add_nonneg (mul_nonneg s0 hw) (mul_nonneg t0 hw')
  · linear_combination (1 - t) * h1 + t * h1'
  · ext <;> simp only [vaddScaled, vsub] <;> ring

theorem onEdge_inS {S : Corners} {i : Fin 3} {z : V3} (h : onEdge S i z) : inS S z := by
  obtain ⟨t, t0, t1, rfl⟩ := h
  exact inS_segment (corner_inS S i) (corner_inS S (i + 1)) t0 t1

theorem dot_inS {S : Corners} {z : V3} (h : inS S z) {d : V3} {c : ℝ} (hc : ∀ i, dot (S i) d ≤ c) :
    dot z d ≤ c := by
  obtain ⟨u, v, w, hu, hv, hw, h1, rfl⟩ := h
  have a := mul_le_mul_of_nonneg_left (hc 0) hu
  have b := mul_le_mul_of_nonneg_left (hc 1) hv
  have e := mul_le_mul_of_nonneg_left (hc 2) hw
  have : c = u * c + v * c + w * c := by rw [← add_mul, ← add_mul, h1, one_mul]
  simp only [dot] at *
  nlinarith

theorem dot_inS_ge {S : Corners} {z : V3} (h : inS S z) {d : V3} {c : ℝ} (hc : ∀ i, c ≤ dot (S i) d) :
    c ≤ dot z d := by
  have := dot_inS h (d := vscale d (-1)) (c := -c) (fun i => by
    have := hc i
    simp only [dot, vscale] at *; linarith)
  simp only [dot, vscale] at *; linarith

theorem normal_plane (S : Corners) {z : V3} (h : inS S z) : inPlane S z := by
  obtain ⟨u, v, w, hu, hv, hw, h1, rfl⟩ := h
  have : u = 1 - v - w := by linarith
  subst this
  simp only [inPlane, normal3, side0, side1, dot, vsub, cross]
  ring

/-! ### Barycentric coordinates -/

theorem bary_inS {S : Corners} {u v w : ℝ} (h1 : u + v + w = 1) {z : V3}
    (e : z = ⟨u * (S 0).x + v * (S 1).x + w * (S 2).x, u * (S 0).y + v * (S 1).y + w * (S 2).y,
      u * (S 0).z + v * (S 1).z + w * (S 2).z⟩) :
    bary S 0 z = w * dot (normal3 S) (normal3 S) ∧ bary S 1 z = u * dot (normal3 S) (normal3 S) ∧
      bary S 2 z = v * dot (normal3 S) (normal3 S) := by
  have : u = 1 - v - w := by linarith
  subst this
  subst e
  simp only [bary, normal3, side0, side1, side2, dot, vsub, cross]
  refine ⟨?_, ?_, ?_⟩ <;> ring

theorem bary_sum (S : Corners) (z : V3) :
    bary S 0 z + bary S 1 z + bary S 2 z = dot (normal3 S) (normal3 S) := by
  simp only [bary, normal3, side0, side1, side2, dot, vsub, cross]
  ring

theorem bary_comb {S : Corners} {z : V3} (hp : inPlane S z) (c : V3 → ℝ)
    (hc : c = V3.x ∨ c = V3.y ∨ c = V3.z) :
    c z * dot (normal3 S) (normal3 S) = bary S 1 z * c (S 0) + bary S 2 z * c (S 1) + bary S 0 z * c (S 2) := by
  simp only [inPlane] at hp
  have hn : normal3 S = cross (vsub (S 1) (S 0)) (vsub (S 2) (S 1)) := rfl
  rcases hc with rfl | rfl | rfl
  · have : z.x * dot (normal3 S) (normal3 S)
        - (bary S 1 z * (S 0).x + bary S 2 z * (S 1).x + bary S 0 z * (S 2).x)
        = (normal3 S).x * dot (vsub z (S 0)) (normal3 S) := by
      simp only [bary, hn, side0, side1, side2, dot, vsub, cross]
      ring
    rw [hp] at this
    linarith
  · have : z.y * dot (normal3 S) (normal3 S)
        - (bary S 1 z * (S 0).y + bary S 2 z * (S 1).y + bary S 0 z * (S 2).y)
        = (normal3 S).y * dot (vsub z (S 0)) (normal3 S) := by
      simp only [bary, hn, side0, side1, side2, dot, vsub, cross]
      ring
    rw [hp] at this
    linarith
  · have : z.z * dot (normal3 S) (normal3 S)
        - (bary S 1 z * (S 0).z + bary S 2 z * (S 1).z + bary S 0 z * (S 2).z)
        = (normal3 S).z * dot (vsub z (S 0)) (normal3 S) := by
      simp only [bary, hn, side0, side1, side2, dot, vsub, cross]
      ring
    rw [hp] at this
    linarith

theorem inS_of_bary {S : Corners} {z : V3} (hn : 0 < dot (normal3 S) (normal3 S)) (hp : inPlane S z)
    (hb : ∀ i, 0 ≤ bary S i z) : inS S z := by
  have h := bary_sum S z
  have cx := bary_comb hp V3.x (.inl rfl)
  have cy := bary_comb hp V3.y (.inr (.inl rfl))
  have cz := bary_comb hp V3.z (.inr (.inr rfl))
  have b0 := hb 0
  have b1 := hb 1
  have b2 := hb 2
  generalize dot (normal3 S) (normal3 S) = n at *
  refine ⟨bary S 1 z / n, bary S 2 z / n, bary S 0 z / n, div_nonneg b1 hn.le, div_nonneg b2 hn.le,
    div_nonneg b0 hn.le, ?_, ?_⟩
  · rw [← add_div, ← add_div, div_eq_one_iff_eq hn.ne']; linarith
  · have hn' := hn.ne'
    ext
    · simp only
      rw [div_mul_eq_mul_div, div_mul_eq_mul_div, div_mul_eq_mul_div, ← add_div, ← add_div, ← cx,
        mul_div_assoc, div_self hn', mul_one]
    · simp only
      rw [div_mul_eq_mul_div, div_mul_eq_mul_div, div_mul_eq_mul_div, ← add_div, ← add_div, ← cy,
        mul_div_assoc, div_self hn', mul_one]
    · simp only
      rw [div_mul_eq_mul_div, div_mul_eq_mul_div, div_mul_eq_mul_div, ← add_div, ← add_div, ← cz,
        mul_div_assoc, div_self hn', mul_one]

/-- Between two corners is on an edge. -/
theorem onEdge_mid (S : Corners) {a b : ℝ} (ha : 0 ≤ a) (hb : 0 ≤ b) (h : a + b = 1) :
    onEdge S 0 (vadd (vscale (S 0) a) (vscale (S 1) b)) ∧
    onEdge S 1 (vadd (vscale (S 1) a) (vscale (S 2) b)) ∧
    onEdge S 2 (vadd (vscale (S 2) a) (vscale (S 0) b)) := by
  have : a = 1 - b := by linarith
  subst this
  refine ⟨⟨b, hb, by linarith, ?_⟩, ⟨b, hb, by linarith, ?_⟩, ⟨b, hb, by linarith, ?_⟩⟩ <;>
  · simp only [side0, side1, side2]
    ext <;> simp only [vadd, vscale, vaddScaled, vsub] <;> ring

theorem onEdge_of_weight {S : Corners} {u v w : ℝ} (hu : 0 ≤ u) (hv : 0 ≤ v) (hw : 0 ≤ w)
    (h1 : u + v + w = 1) {z : V3}
    (e : z = ⟨u * (S 0).x + v * (S 1).x + w * (S 2).x, u * (S 0).y + v * (S 1).y + w * (S 2).y,
      u * (S 0).z + v * (S 1).z + w * (S 2).z⟩) (h0 : u = 0 ∨ v = 0 ∨ w = 0) : ∃ i, onEdge S i z := by
  rcases h0 with rfl | rfl | rfl
  · refine ⟨1, ?_⟩
    have := (onEdge_mid S hv hw (by linarith)).2.1
    convert this using 1
    rw [e]; ext <;> simp only [vadd, vscale] <;> ring
  · refine ⟨2, ?_⟩
    have := (onEdge_mid S hw hu (by linarith)).2.2
    convert this using 1
    rw [e]; ext <;> simp only [vadd, vscale] <;> ring
  · refine ⟨0, ?_⟩
    have := (onEdge_mid S hu hv (by linarith)).1
    convert this using 1
    rw [e]; ext <;> simp only [vadd, vscale] <;> ring

/-- Every point of a triangle with corners on one line is on an edge. -/
theorem onEdge_of_degenerate {S : Corners} (hn : normal3 S = zero3) {z : V3} (h : inS S z) :
    ∃ i, onEdge S i z := by
  obtain ⟨u, v, w, hu, hv, hw, h1, e⟩ := h
  by_cases h0 : sideVec S 0 = zero3
  · -- two equal corners
    refine ⟨1, ?_⟩
    have := (onEdge_mid S (add_nonneg hu hv) hw h1).2.1
    convert this using 1
    rw [side0] at h0
    simp only [vsub, zero3, V3.mk.injEq] at h0
    obtain ⟨a, b, c⟩ := h0
    rw [e]; ext <;> simp only [vadd, vscale]
    · linear_combination -u * a
    · linear_combination -u * b
    · linear_combination -u * c
  · obtain ⟨k, hk⟩ : ∃ k, sideVec S 1 = vscale (sideVec S 0) k := by
      have hd : dot (sideVec S 0) (sideVec S 0) ≠ 0 := fun h => h0 (dot_self_eq_zero h)
      refine ⟨dot (sideVec S 0) (sideVec S 1) / dot (sideVec S 0) (sideVec S 0), ?_⟩
      have : cross (sideVec S 0) (normal3 S) = zero3 := by
        rw [hn]; ext <;> simp [cross, zero3]
      rw [normal3, cross_cross] at this
      simp only [vsub, vscale, zero3, V3.mk.injEq] at this
      obtain ⟨a, b, c⟩ := this
      ext <;> simp only [vscale] <;> rw [mul_div_assoc', eq_div_iff hd] <;> linarith
    rw [side0, side1] at hk
    simp only [vsub, vscale, V3.mk.injEq] at hk
    obtain ⟨a, b, c⟩ := hk
    rcases le_or_gt 0 k with hk0 | hk0
    · -- the second corner is in the middle
      have hp : (1 + k) ≠ 0 := by linarith
      refine ⟨2, ?_⟩
      have hd : 0 ≤ v / (1 + k) := div_nonneg hv (by linarith)
      have := (onEdge_mid S (a := w + v / (1 + k)) (b := u + k * (v / (1 + k)))
        (add_nonneg hw hd) (add_nonneg hu (mul_nonneg hk0 hd)) (by
          have : v / (1 + k) * (1 + k) = v := div_mul_cancel₀ _ hp
          linarith)).2.2
      have hv' : v = v / (1 + k) * (1 + k) := (div_mul_cancel₀ _ hp).symm
      generalize v / (1 + k) = y at *
      convert this using 1
      rw [e, hv']; ext <;> simp only [vadd, vscale]
      · linear_combination -y * a
      · linear_combination -y * b
      · linear_combination -y * c
    · rcases le_or_gt (-1) k with hk1 | hk1
      · -- the third corner is in the middle
        refine ⟨0, ?_⟩
        have := (onEdge_mid S (a := u + w * (-k)) (b := v + w * (1 + k))
          (add_nonneg hu (mul_nonneg hw (by linarith))) (add_nonneg hv (mul_nonneg hw (by linarith)))
          (by linarith)).1
        convert this using 1
        rw [e]; ext <;> simp only [vadd, vscale]
        · linear_combination w * a
        · linear_combination w * b
        · linear_combination w * c
      · -- the first corner is in the middle
        refine ⟨1, ?_⟩
        have hp : -k ≠ 0 := by linarith
        have hd : 0 ≤ u / (-k) := div_nonneg hu (by linarith)
        have hu' : u = u / (-k) * (-k) := (div_mul_cancel₀ _ hp).symm
        generalize u / (-k) = y at *
        have := (onEdge_mid S (a := v + y * (-1 - k)) (b := w + y)
          (add_nonneg hv (mul_nonneg hd (by linarith))) (add_nonneg hw hd)
          (by linarith)).2.1
        convert this using 1
        rw [e, hu']; ext <;> simp only [vadd, vscale]
        · linear_combination -y * a
        · linear_combination -y * b
        · linear_combination -y * c

/-- A point of a triangle is on an edge or inside. -/
theorem edge_or_inside {S : Corners} {z : V3} (h : inS S z) :
    (∃ i, onEdge S i z) ∨ (normal3 S ≠ zero3 ∧ inside S z) := by
  by_cases hn : normal3 S = zero3
  · exact .inl (onEdge_of_degenerate hn h)
  · obtain ⟨u, v, w, hu, hv, hw, h1, e⟩ := h
    by_cases h0 : u = 0 ∨ v = 0 ∨ w = 0
    · exact .inl (onEdge_of_weight hu hv hw h1 e h0)
    · push Not at h0
      right
      refine ⟨hn, ?_⟩
      have hp : 0 < dot (normal3 S) (normal3 S) :=
        lt_of_le_of_ne (dot_self_nonneg _) (fun h => hn (dot_self_eq_zero h.symm))
      obtain ⟨b0, b1, b2⟩ := bary_inS h1 e
      refine forall_fin3 ?_ ?_ ?_
      · rw [b0]; exact mul_pos (lt_of_le_of_ne hw (Ne.symm h0.2.2)) hp
      · rw [b1]; exact mul_pos (lt_of_le_of_ne hu (Ne.symm h0.1)) hp
      · rw [b2]; exact mul_pos (lt_of_le_of_ne hv (Ne.symm h0.2.1)) hp

/-! ### Crossing the boundary -/

theorem bary_line (S : Corners) (i : Fin 3) (p q : V3) (t : ℝ) :
    bary S i (vaddScaled p (vsub q p) t) = (1 - t) * bary S i p + t * bary S i q := by
  simp only [bary, dot, vsub, vaddScaled]; ring

theorem plane_line {S : Corners} {p q : V3} (hp : inPlane S p) (hq : inPlane S q) (t : ℝ) :
    inPlane S (vaddScaled p (vsub q p) t) := by
  simp only [inPlane, dot, vsub, vaddScaled] at *
  linear_combination (1 - t) * hp + t * hq

/-- On the way from a point inside to a point of the plane that is not inside there is a point of an
edge. -/
theorem crossing {S : Corners} (hn : normal3 S ≠ zero3) {p q : V3} (hp : inPlane S p) (hq : inPlane S q)
    (ip : inside S p) (iq : ¬ inside S q) :
    ∃ t, 0 ≤ t ∧ t ≤ 1 ∧ ∃ i, onEdge S i (vaddScaled p (vsub q p) t) := by
  have hpos : 0 < dot (normal3 S) (normal3 S) :=
    lt_of_le_of_ne (dot_self_nonneg _) (fun h => hn (dot_self_eq_zero h.symm))
  obtain ⟨i, hi⟩ := Finite.exists_min (fun i : Fin 3 => bary S i q / bary S i p)
  have hneg : bary S i q / bary S i p ≤ 0 := by
    simp only [inside, not_forall, not_lt] at iq
    obtain ⟨j, hj⟩ := iq
    exact (hi j).trans (div_nonpos_of_nonpos_of_nonneg hj (ip j).le)
  have hq' : ∀ j, bary S j q = bary S j q / bary S j p * bary S j p :=
    fun j => (div_mul_cancel₀ _ (ip j).ne').symm
  generalize hr : bary S i q / bary S i p = r at *
  have h1r : 0 < 1 - r := by linarith
  have ht : 1 / (1 - r) * (1 - r) = 1 := div_mul_cancel₀ _ h1r.ne'
  have t0 : 0 ≤ 1 / (1 - r) := div_nonneg one_pos.le h1r.le
  generalize 1 / (1 - r) = t at *
  have t1 : t ≤ 1 := by nlinarith
  refine ⟨t, t0, t1, ?_⟩
  have hz : bary S i (vaddScaled p (vsub q p) t) = 0 := by
    rw [bary_line, hq' i, hr]
    linear_combination -(bary S i p) * ht
  have hall : ∀ j, 0 ≤ bary S j (vaddScaled p (vsub q p) t) := by
    intro j
    rw [bary_line, hq' j]
    have a := mul_le_mul_of_nonneg_right (mul_le_mul_of_nonneg_left (hi j) t0) (ip j).le
    have b : (1 - t) * bary S j p + t * r * bary S j p = 0 := by
      linear_combination -(bary S j p) * ht
    linarith
  have hin := inS_of_bary hpos (plane_line hp hq t) hall
  rcases edge_or_inside hin with h | ⟨_, h⟩
  · exact h
  · exact absurd (h i) (by rw [hz]; exact lt_irrefl _)

/-! ### Closest points -/

theorem exists_closest (S T : Corners) : ∃ x y, inS S x ∧ inS T y ∧
    ∀ x' y', inS S x' → inS T y' → dot (vsub y x) (vsub y x) ≤ dot (vsub y' x') (vsub y' x') := by
  let pt : Corners → (Fin 3 → ℝ) → V3 := fun S a =>
    ⟨a 0 * (S 0).x + a 1 * (S 1).x + a 2 * (S 2).x, a 0 * (S 0).y + a 1 * (S 1).y + a 2 * (S 2).y,
      a 0 * (S 0).z + a 1 * (S 1).z + a 2 * (S 2).z⟩
  have hpt : ∀ S a, a ∈ stdSimplex ℝ (Fin 3) → inS S (pt S a) := by
    intro S a ha
    refine ⟨a 0, a 1, a 2, ha.1 0, ha.1 1, ha.1 2, ?_, rfl⟩
    have := ha.2
    rw [Fin.sum_univ_three] at this
    exact this
  have hpt' : ∀ S z, inS S z → ∃ a ∈ stdSimplex ℝ (Fin 3), z = pt S a := by
    rintro S z ⟨u, v, w, hu, hv, hw, h1, e⟩
    refine ⟨![u, v, w], ⟨forall_fin3 hu hv hw, ?_⟩, e⟩
    rw [Fin.sum_univ_three]
    exact h1
  let F : (Fin 3 → ℝ) × (Fin 3 → ℝ) → ℝ := fun ab =>
    dot (vsub (pt T ab.2) (pt S ab.1)) (vsub (pt T ab.2) (pt S ab.1))
  have hF : Continuous F := by
    simp only [F, pt, dot, vsub]
    fun_prop
  have hc : IsCompact (stdSimplex ℝ (Fin 3) ×ˢ stdSimplex ℝ (Fin 3)) :=
    (isCompact_stdSimplex ℝ (Fin 3)).prod (isCompact_stdSimplex ℝ (Fin 3))
  have hne : (stdSimplex ℝ (Fin 3) ×ˢ stdSimplex ℝ (Fin 3)).Nonempty := by
    refine ⟨(![1, 0, 0], ![1, 0, 0]), ?_⟩
    constructor <;> refine ⟨forall_fin3 (by simp) (by simp) (by simp), ?_⟩ <;> simp [Fin.sum_univ_three]
  obtain ⟨ab, hab, hmin⟩ := hc.exists_isMinOn hne hF.continuousOn
  refine ⟨pt S ab.1, pt T ab.2, hpt S _ hab.1, hpt T _ hab.2, ?_⟩
  intro x' y' hx hy
  obtain ⟨a, ha, rfl⟩ := hpt' S x' hx
  obtain ⟨b, hb, rfl⟩ := hpt' T y' hy
  exact hmin (a := (a, b)) ⟨ha, hb⟩

theorem nonpos_of_small {a D : ℝ} (h : ∀ e, 0 < e → e ≤ 1 → 2 * a ≤ e * D) : a ≤ 0 := by
  by_contra ha
  push Not at ha
  have h1 := h 1 one_pos (le_refl _)
  have hD : 0 < D := by linarith
  have h2 := h (a / D) (div_pos ha hD) (by rw [div_le_one hD]; linarith)
  rw [div_mul_cancel₀ _ hD.ne'] at h2
  linarith

/-- First-order conditions for closest points of two triangles. -/
theorem closest_dot {S T : Corners} {x y : V3} (hx : inS S x) (hy : inS T y)
    (hmin : ∀ x' y', inS S x' → inS T y' → dot (vsub y x) (vsub y x) ≤ dot (vsub y' x') (vsub y' x')) :
    (∀ z, inS S z → dot (vsub z x) (vsub y x) ≤ 0) ∧ (∀ z, inS T z → 0 ≤ dot (vsub z y) (vsub y x)) := by
  constructor
  · intro z hz
    refine nonpos_of_small (D := dot (vsub z x) (vsub z x)) ?_
    intro e e0 e1
    have := hmin _ y (inS_segment hx hz e0.le e1) hy
    have id : dot (vsub y (vaddScaled x (vsub z x) e)) (vsub y (vaddScaled x (vsub z x) e))
        = dot (vsub y x) (vsub y x) - e * (2 * dot (vsub z x) (vsub y x))
          + e * (e * dot (vsub z x) (vsub z x)) := by
      simp only [dot, vsub, vaddScaled]; ring
    rw [id] at this
    have : e * (2 * dot (vsub z x) (vsub y x)) ≤ e * (e * dot (vsub z x) (vsub z x)) := by linarith
    exact le_of_mul_le_mul_left this e0
  · intro z hz
    have : -dot (vsub z y) (vsub y x) ≤ 0 := by
      refine nonpos_of_small (D := dot (vsub z y) (vsub z y)) ?_
      intro e e0 e1
      have := hmin x _ hx (inS_segment hy hz e0.le e1)
      have id : dot (vsub (vaddScaled y (vsub z y) e) x) (vsub (vaddScaled y (vsub z y) e) x)
          = dot (vsub y x) (vsub y x) + e * (2 * dot (vsub z y) (vsub y x))
            + e * (e * dot (vsub z y) (vsub z y)) := by
        simp only [dot, vsub, vaddScaled]; ring
      rw [id] at this
      have : e * (2 * -dot (vsub z y) (vsub y x)) ≤ e * (e * dot (vsub z y) (vsub z y)) := by linarith
      exact le_of_mul_le_mul_left this e0
    linarith

/-- First-order conditions are sufficient. -/
theorem closest_of_dot {S T : Corners} {x y : V3}
    (h1 : ∀ z, inS S z → dot (vsub z x) (vsub y x) ≤ 0) (h2 : ∀ z, inS T z → 0 ≤ dot (vsub z y) (vsub y x)) :
    ∀ x' y', inS S x' → inS T y' → dot (vsub y x) (vsub y x) ≤ dot (vsub y' x') (vsub y' x') := by
  intro x' y' hx hy
  refine le_of_dot ?_
  have a := h1 x' hx
  have b := h2 y' hy
  have : dot (vsub y' x') (vsub y x) = dot (vsub y x) (vsub y x) + dot (vsub y' y) (vsub y x)
      - dot (vsub x' x) (vsub y x) := by
    simp only [dot, vsub]; ring
  linarith

end Simox.Pqp
