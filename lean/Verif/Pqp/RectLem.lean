/-
The distance of rectangles is not overestimated.
-/
import Verif.Pqp.DistModel
import Verif.Pqp.Geom2

namespace Simox.Pqp

theorem clip_range {v a : ℝ} (ha : 0 ≤ a) : 0 ≤ clip v 0 a ∧ clip v 0 a ≤ a := by
  unfold clip
  split_ifs <;> constructor <;> linarith

theorem clip_opt {v a : ℝ} {s : ℝ} (h0 : 0 ≤ s) (h1 : s ≤ a) :
    0 ≤ (clip v 0 a - v) * (s - clip v 0 a) := by
  unfold clip
  split_ifs with h h'
  · nlinarith
  · nlinarith
  · simp

/-- The parameters of the closest points of two segments: in range, and no better in any direction. -/
structure SegOpt (a b AB AT BT t u : ℝ) : Prop where
  t0 : 0 ≤ t
  ta : t ≤ a
  u0 : 0 ≤ u
  ub : u ≤ b
  optT : ∀ s, 0 ≤ s → s ≤ a → 0 ≤ (t - AT - u * AB) * (s - t)
  optU : ∀ s, 0 ≤ s → s ≤ b → 0 ≤ (u + BT - t * AB) * (s - u)

theorem SegOpt.symm {a b AB AT BT t u : ℝ} (h : SegOpt a b AB AT BT t u) :
    SegOpt b a AB (-BT) (-AT) u t := by
  refine ⟨h.u0, h.ub, h.t0, h.ta, ?_, ?_⟩
  · intro s h0 h1
    have := h.optU s h0 h1
    linarith
  · intro s h0 h1
    have := h.optT s h0 h1
    linarith

theorem segCoords_opt {a b AB AT BT : ℝ} (ha : 0 ≤ a) (hb : 0 ≤ b) (h1 : AB * AB ≤ 1)
    (hp : AB * AB = 1 → AT = BT * AB) :
    SegOpt a b AB AT BT (segCoords a b AB AT BT).1 (segCoords a b AB AT BT).2 := by
  -- the first guess for `t`
  obtain ⟨t, ht, ht0, hta, hopt⟩ : ∃ t, t = (if 1 - AB * AB = 0 then 0 else
      clip ((AT - BT * AB) / (1 - AB * AB)) 0 a) ∧ 0 ≤ t ∧ t ≤ a ∧
      ∀ s, 0 ≤ s → s ≤ a → 0 ≤ (t * (1 - AB * AB) - (AT - BT * AB)) * (s - t) := by
    refine ⟨_, rfl, ?_⟩
    split_ifs with hd
    · refine ⟨le_refl _, ha, ?_⟩
      intro s _ _
      have := hp (by linarith)
      rw [hd, this]
      simp
    · have hpos : 0 < 1 - AB * AB := lt_of_le_of_ne (by linarith) (Ne.symm hd)
      refine ⟨(clip_range ha).1, (clip_range ha).2, ?_⟩
      intro s s0 s1
      have := clip_opt (v := (AT - BT * AB) / (1 - AB * AB)) s0 s1
      have h2 := mul_nonneg hpos.le this
      have e : (AT - BT * AB) = (AT - BT * AB) / (1 - AB * AB) * (1 - AB * AB) :=
        (div_mul_cancel₀ _ hd).symm
      generalize (AT - BT * AB) / (1 - AB * AB) = v at *
      rw [e]
      linarith
  -- the point found after restricting `u`
  have key : ∀ u', 0 ≤ u' → u' ≤ b → (u' = 0 ∧ t * AB - BT < 0 ∨ u' = b ∧ t * AB - BT > b) →
      SegOpt a b AB AT BT (clip (u' * AB + AT) 0 a) u' := by
    intro u' hu0 hub hc
    obtain ⟨c0, c1⟩ := clip_range (v := u' * AB + AT) ha
    refine ⟨c0, c1, hu0, hub, ?_, ?_⟩
    · intro s s0 s1
      have := clip_opt (v := u' * AB + AT) s0 s1
      linarith
    · intro s s0 s1
      have o1 := clip_opt (v := u' * AB + AT) ht0 hta
      have o2 := hopt _ c0 c1
      generalize clip (u' * AB + AT) 0 a = t' at *
      -- x is the change of t, y the change of u
      have hx : (t' - t) * (t' - t) ≤ (u' - (t * AB - BT)) * AB * (t' - t) := by linarith
      rcases hc with ⟨rfl, hu⟩ | ⟨rfl, hu⟩
      · have : 0 ≤ 0 + BT - t' * AB := by
          by_contra hneg
          push Not at hneg
          have y : 0 < AB * (t' - t) - (0 - (t * AB - BT)) := by linarith
          have z : 0 < 0 - (t * AB - BT) := by linarith
          nlinarith [mul_nonneg (sub_nonneg.mpr h1) (mul_self_nonneg (t' - t))]
        have := mul_nonneg this s0
        linarith
      · have : u' + BT - t' * AB ≤ 0 := by
          by_contra hneg
          push Not at hneg
          have y : AB * (t' - t) - (u' - (t * AB - BT)) < 0 := by linarith
          have z : u' - (t * AB - BT) < 0 := by linarith
          nlinarith [mul_nonneg (sub_nonneg.mpr h1) (mul_self_nonneg (t' - t))]
        nlinarith
  unfold segCoords
  simp only [← ht]
  split_ifs with hu hu'
  · have := key 0 (le_refl _) hb (.inl ⟨rfl, hu⟩)
    simp only [zero_mul, zero_add] at this
    exact this
  · exact key b hb (le_refl _) (.inr ⟨rfl, hu'⟩)
  · push Not at hu hu'
    refine ⟨ht0, hta, hu, hu', ?_, ?_⟩
    · intro s s0 s1
      have := hopt s s0 s1
      simp only
      linarith
    · intro s _ _
      simp

/-- The closest point on the second segment is in the half space of a normal of the first. -/
theorem inVoronoi_pos {a b AnB AnT AB AT BT t u : ℝ} (ha : 0 ≤ a) (h1 : AB * AB ≤ 1)
    (ho : SegOpt a b AB AT BT t u) (hpos : 0 < AnT ∨ 0 < AnT + b * AnB)
    (h : inVoronoi a b AnB AnT AB AT BT = true) : 0 ≤ AnT + u * AnB := by
  unfold inVoronoi at h
  by_cases hs : |AnB| < 1 / 10000000
  · rw [if_pos hs] at h
    cases h
  rw [if_neg hs] at h
  have hb : 0 ≤ b := le_trans ho.u0 ho.ub
  have hne : AnB ≠ 0 := by
    intro h0
    rw [h0] at hs
    norm_num at hs
  obtain ⟨k0, kb⟩ := clip_range (v := -AnT / AnB) hb
  have hside : 0 ≤ AnT + clip (-AnT / AnB) 0 b * AnB := by
    unfold clip
    have e : -AnT = -AnT / AnB * AnB := by field_simp
    generalize -AnT / AnB = v at *
    split_ifs with h2 h3
    · rcases lt_or_gt_of_ne hne with hn | hn
      · have : 0 < v * AnB := mul_pos_of_neg_of_neg h2 hn
        rcases hpos with hp | hp
        · linarith
        · nlinarith
      · have : v * AnB < 0 := mul_neg_of_neg_of_pos h2 hn
        linarith
    · rcases lt_or_gt_of_ne hne with hn | hn
      · nlinarith
      · rcases hpos with hp | hp
        · nlinarith
        · linarith
    · linarith
  simp only at h
  obtain ⟨c0, c1⟩ := clip_range (v := clip (-AnT / AnB) 0 b * AB + AT) ha
  have o1 := clip_opt (v := clip (-AnT / AnB) 0 b * AB + AT) ho.t0 ho.ta
  have o2 := ho.optT _ c0 c1
  have o3 := ho.optU _ k0 kb
  generalize clip (-AnT / AnB) 0 b = u1 at *
  generalize clip (u1 * AB + AT) 0 a = t1 at *
  have hx : (t1 - t) * (t1 - t) ≤ (u1 - u) * AB * (t1 - t) := by linarith
  have hxx := mul_nonneg (sub_nonneg.mpr h1) (mul_self_nonneg (t1 - t))
  split_ifs at h with hp
  · rw [decide_eq_true_iff] at h
    have : u1 ≤ u := by
      by_contra hlt
      push Not at hlt
      have g : 0 ≤ u + BT - t * AB := by
        by_contra hneg
        push Not at hneg
        nlinarith
      have y : 0 < AB * (t1 - t) - (u1 - u) := by linarith
      nlinarith
    nlinarith
  · rw [decide_eq_true_iff] at h
    have hn : AnB < 0 := lt_of_le_of_ne (not_lt.mp hp) hne
    have : u ≤ u1 := by
      by_contra hlt
      push Not at hlt
      have g : u + BT - t * AB ≤ 0 := by
        by_contra hneg
        push Not at hneg
        nlinarith
      have y : AB * (t1 - t) - (u1 - u) < 0 := by linarith
      nlinarith
    nlinarith

theorem dot_sq_le (a b : V3) : dot a b * dot a b ≤ dot a a * dot b b := by
  simp only [dot]
  nlinarith [sq_nonneg (a.x * b.y - a.y * b.x), sq_nonneg (a.x * b.z - a.z * b.x),
    sq_nonneg (a.y * b.z - a.z * b.y)]

theorem sub_sq_eq {A B : V3} (hA : dot A A = 1) (hB : dot B B = 1) (h : dot A B * dot A B = 1) (v : V3) :
    dot A v = dot B v * dot A B := by
  have hz : dot (vsub A (vscale B (dot A B))) (vsub A (vscale B (dot A B))) = 0 := by
    have : dot (vsub A (vscale B (dot A B))) (vsub A (vscale B (dot A B)))
        = dot A A - 2 * (dot A B * dot A B) + dot A B * dot A B * dot B B := by
      simp only [dot, vsub, vscale]; ring
    rw [this, hA, hB, h]; norm_num
  have hv := dot_sq_le (vsub A (vscale B (dot A B))) v
  rw [hz] at hv
  have h0 : dot (vsub A (vscale B (dot A B))) v = 0 := by
    have : dot (vsub A (vscale B (dot A B))) v * dot (vsub A (vscale B (dot A B))) v = 0 :=
      le_antisymm (by linarith) (mul_self_nonneg _)
    exact mul_self_eq_zero.mp this
  have e : dot (vsub A (vscale B (dot A B))) v = dot A v - dot B v * dot A B := by
    simp only [dot, vsub, vscale]; ring
  linarith

/-- If the vector from the one to the other closest point cannot be shortened in first order, it is the
shortest. -/
theorem le_of_dot {S D : V3} (h : dot S S ≤ dot D S) : dot S S ≤ dot D D := by
  have : 0 ≤ dot (vsub D S) (vsub D S) := by
    simp only [dot]
    nlinarith [mul_self_nonneg (vsub D S).x, mul_self_nonneg (vsub D S).y, mul_self_nonneg (vsub D S).z]
  have e : dot (vsub D S) (vsub D S) = dot D D - 2 * dot D S + dot S S := by
    simp only [dot, vsub]; ring
  linarith

/-- One edge of the first rectangle (origin `P`, unit direction `A`, outward normal `An`) and one of the
second, with vector `T` between the origins: if the tests succeed, no two points of the rectangles are
closer than the points found. -/
theorem edge_case {A An B Bn T S D : V3} {a b AB AT BT : ℝ} (ha : 0 ≤ a) (hb : 0 ≤ b)
    (hA : dot A A = 1) (hB : dot B B = 1) (hAn : dot An A = 0) (hBn : dot Bn B = 0)
    (eAB : AB = dot A B) (eAT : AT = dot A T) (eBT : BT = dot B T)
    {nT nB mT mA AT' BT' : ℝ}
    (enT : nT = dot An T) (enB : nB = dot An B) (emT : mT = -dot Bn T) (emA : mA = dot Bn A)
    (hp1 : 0 < mT ∨ 0 < mT + a * mA)
    (hv1 : 0 ≤ mT ∧ 0 ≤ mT + a * mA ∨ inVoronoi b a mA mT AB BT' AT' = true)
    (eAT' : AT' = -AT) (eBT' : BT' = -BT)
    (hp2 : 0 < nT ∨ 0 < nT + b * nB)
    (hv2 : 0 ≤ nT ∧ 0 ≤ nT + b * nB ∨ inVoronoi a b nB nT AB AT BT = true)
    (hS : S = vsub (vadd T (vscale B (segCoords a b AB AT BT).2)) (vscale A (segCoords a b AB AT BT).1))
    {s s' r r' : ℝ} (s0 : 0 ≤ s) (sa : s ≤ a) (s0' : 0 ≤ s') (sb : s' ≤ b) (hr : 0 ≤ r) (hr' : 0 ≤ r')
    (hD : D = vsub (vadd T (vsub (vscale B s') (vscale Bn r'))) (vsub (vscale A s) (vscale An r))) :
    dot S S ≤ dot D D := by
  have hAB : AB * AB ≤ 1 := by
    have := dot_sq_le A B
    rw [hA, hB] at this
    rw [eAB]; linarith
  have ho := segCoords_opt (AT := AT) (BT := BT) ha hb hAB (by
    intro h
    rw [eAB] at h
    rw [eAT, eBT, eAB]
    exact sub_sq_eq hA hB h T)
  generalize (segCoords a b AB AT BT).1 = t at *
  generalize (segCoords a b AB AT BT).2 = u at *
  have n1 : 0 ≤ mT + t * mA := by
    rcases hv1 with ⟨g0, g1⟩ | hv
    · rcases le_or_gt 0 mA with hm | hm
      · have := mul_nonneg ho.t0 hm; linarith
      · have := ho.ta; nlinarith
    · rw [eAT', eBT'] at hv
      exact inVoronoi_pos hb hAB ho.symm hp1 hv
  have n2 : 0 ≤ nT + u * nB := by
    rcases hv2 with ⟨g0, g1⟩ | hv
    · rcases le_or_gt 0 nB with hm | hm
      · have := mul_nonneg ho.u0 hm; linarith
      · have := ho.ub; nlinarith
    · exact inVoronoi_pos ha hAB ho hp2 hv
  refine le_of_dot ?_
  have q1 := ho.optT s s0 sa
  have q2 := ho.optU s' s0' sb
  have q3 := mul_nonneg hr n2
  have q4 := mul_nonneg hr' n1
  have e : dot D S - dot S S = (s' - u) * (u * dot B B + dot B T - t * dot A B)
      + (s - t) * (t * dot A A - dot A T - u * dot A B)
      + r * (dot An T + u * dot An B - t * dot An A) + r' * (-dot Bn T - u * dot Bn B + t * dot Bn A) := by
    rw [hS, hD]
    simp only [dot, vsub, vadd, vscale]
    ring
  rw [hA, hB, hAn, hBn, ← eAB, ← eAT, ← eBT, ← enT, ← enB, ← emA] at e
  have : -dot Bn T = mT := emT.symm
  rw [this] at e
  linarith

end Simox.Pqp
