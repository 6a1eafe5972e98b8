/-
Completeness of the triangle test: triangles without common point are separated by one of its axes.
-/
import Verif.Pqp.Geom2
import Mathlib.Analysis.LocallyConvex.Separation
import Mathlib.Analysis.Convex.Topology

namespace Simox.Pqp

/-- The vector as an element of a normed space. -/
def toE (v : V3) : ℝ × ℝ × ℝ := (v.x, v.y, v.z)

theorem toE_inj {u v : V3} (h : toE u = toE v) : u = v := by
  simp only [toE, Prod.mk.injEq] at h
  exact V3.ext h.1 h.2.1 h.2.2

theorem hull_inTri {a b c : V3} {x : ℝ × ℝ × ℝ}
    (h : x ∈ convexHull ℝ ({toE a, toE b, toE c} : Set (ℝ × ℝ × ℝ))) : ∃ p, inTri a b c p ∧ x = toE p := by
  have hconv : Convex ℝ {x | ∃ p, inTri a b c p ∧ x = toE p} := by
    rintro x ⟨p, ⟨u, v, w, hu, hv, hw, hs, hp⟩, rfl⟩ y ⟨q, ⟨u', v', w', hu', hv', hw', hs', hq⟩, rfl⟩
      s t hs0 ht0 hst
    refine ⟨⟨s * p.x + t * q.x, s * p.y + t * q.y, s * p.z + t * q.z⟩,
      ⟨s * u + t * u', s * v + t * v', s * w + t * w', by positivity, by positivity, by positivity,
        by linear_combination s * hs + t * hs' + hst, ?_⟩, ?_⟩
    · subst hp; subst hq
      ext <;> simp only <;> ring
    · simp [toE]
  refine convexHull_min ?_ hconv h
  intro y hy
  simp only [Set.mem_insert_iff, Set.mem_singleton_iff] at hy
  rcases hy with rfl | rfl | rfl
  · exact ⟨a, ⟨1, 0, 0, by norm_num, by norm_num, by norm_num, by norm_num, by ext <;> simp⟩, rfl⟩
  · exact ⟨b, ⟨0, 1, 0, by norm_num, by norm_num, by norm_num, by norm_num, by ext <;> simp⟩, rfl⟩
  · exact ⟨c, ⟨0, 0, 1, by norm_num, by norm_num, by norm_num, by norm_num, by ext <;> simp⟩, rfl⟩

/-- Triangles without common point are separated by a direction. -/
theorem separated {p1 p2 p3 q1 q2 q3 : V3} (h : ¬ ∃ x, inTri p1 p2 p3 x ∧ inTri q1 q2 q3 x) :
    ∃ d, ∀ p ∈ [p1, p2, p3], ∀ q ∈ [q1, q2, q3], 0 < dot d (vsub p q) := by
  have hfp : ({toE p1, toE p2, toE p3} : Set (ℝ × ℝ × ℝ)).Finite := by simp
  have hfq : ({toE q1, toE q2, toE q3} : Set (ℝ × ℝ × ℝ)).Finite := by simp
  have hd : Disjoint (convexHull ℝ ({toE q1, toE q2, toE q3} : Set (ℝ × ℝ × ℝ)))
      (convexHull ℝ ({toE p1, toE p2, toE p3} : Set (ℝ × ℝ × ℝ))) := by
    rw [Set.disjoint_left]
    intro x hx hx'
    obtain ⟨q, hq, e⟩ := hull_inTri hx
    obtain ⟨p, hp, e'⟩ := hull_inTri hx'
    have : p = q := toE_inj (by rw [← e, ← e'])
    exact h ⟨p, hp, this ▸ hq⟩
  obtain ⟨f, u, v, hu, huv, hv⟩ := geometric_hahn_banach_compact_closed (convex_convexHull ℝ _)
    (hfq.isCompact_convexHull ℝ) (convex_convexHull ℝ _) (hfp.isCompact_convexHull ℝ).isClosed hd
  have hf : ∀ w : V3, f (toE w) = dot ⟨f (1, 0, 0), f (0, 1, 0), f (0, 0, 1)⟩ w := by
    intro w
    have : toE w = w.x • ((1 : ℝ), (0 : ℝ), (0 : ℝ)) + w.y • ((0 : ℝ), (1 : ℝ), (0 : ℝ))
        + w.z • ((0 : ℝ), (0 : ℝ), (1 : ℝ)) := by
      simp [toE]
    rw [this, map_add, map_add, map_smul, map_smul, map_smul]
    simp only [dot, smul_eq_mul]; ring
  refine ⟨⟨f (1, 0, 0), f (0, 1, 0), f (0, 0, 1)⟩, ?_⟩
  intro p hp q hq
  have e : ∀ d, dot d (vsub p q) = dot d p - dot d q := by intro d; simp only [dot, vsub]; ring
  rw [e, ← hf, ← hf]
  have h1 : v < f (toE p) := by
    refine hv _ (subset_convexHull ℝ _ ?_)
    simp only [List.mem_cons, List.not_mem_nil, or_false] at hp
    rcases hp with rfl | rfl | rfl <;> simp
  have h2 : f (toE q) < u := by
    refine hu _ (subset_convexHull ℝ _ ?_)
    simp only [List.mem_cons, List.not_mem_nil, or_false] at hq
    rcases hq with rfl | rfl | rfl <;> simp
  linarith

/-- A direction that cannot be turned without leaving a constraint behind: every vector orthogonal to
the tight constraints is orthogonal to all. -/
theorem exists_tight (W : List V3) : ∀ (n : Nat) (d : V3), (∀ w ∈ W, 1 ≤ dot d w) →
    (W.filter (fun w => decide (dot d w ≠ 1))).length ≤ n →
    ∃ d, (∀ w ∈ W, 1 ≤ dot d w) ∧
      ∀ v, (∀ w ∈ W, dot d w = 1 → dot v w = 0) → ∀ w ∈ W, dot v w = 0 := by
  intro n
  induction n with
  | zero =>
    intro d hd hn
    refine ⟨d, hd, ?_⟩
    intro v hv w hw
    refine hv w hw ?_
    by_contra hne
    have : w ∈ W.filter (fun w => decide (dot d w ≠ 1)) := by simp [hw, hne]
    have := List.length_pos_of_mem this
    omega
  | succ n ih =>
    intro d hd hn
    by_cases hall : ∀ v, (∀ w ∈ W, dot d w = 1 → dot v w = 0) → ∀ w ∈ W, dot v w = 0
    · exact ⟨d, hd, hall⟩
    push Not at hall
    obtain ⟨v0, hv0, w0, hw0, hne0⟩ := hall
    -- a direction decreasing some constraint
    obtain ⟨v, hv, w1, hw1, hneg⟩ : ∃ v, (∀ w ∈ W, dot d w = 1 → dot v w = 0) ∧
        ∃ w ∈ W, dot v w < 0 := by
      rcases lt_or_gt_of_ne hne0 with h | h
      · exact ⟨v0, hv0, w0, hw0, h⟩
      · refine ⟨vscale v0 (-1), ?_, w0, hw0, ?_⟩
        · intro w hw h1
          have := hv0 w hw h1
          simp only [dot, vscale] at this ⊢
          linarith
        · simp only [dot, vscale] at h ⊢
          linarith
    -- the first constraint that becomes tight
    obtain ⟨w2, hw2, hneg2, hmin⟩ : ∃ w2 ∈ W, dot v w2 < 0 ∧ ∀ w ∈ W, dot v w < 0 →
        (dot d w2 - 1) / (-dot v w2) ≤ (dot d w - 1) / (-dot v w) := by
      have hne : (W.filter (fun w => decide (dot v w < 0))) ≠ [] := by
        intro h
        have : w1 ∈ W.filter (fun w => decide (dot v w < 0)) := by simp [hw1, hneg]
        rw [h] at this
        simp at this
      clear hw1 hneg w1 hn ih hv hd
      obtain ⟨x, hx, hmx⟩ : ∃ x ∈ W.filter (fun w => decide (dot v w < 0)),
          ∀ y ∈ W.filter (fun w => decide (dot v w < 0)),
          (dot d x - 1) / (-dot v x) ≤ (dot d y - 1) / (-dot v y) := by
        generalize W.filter (fun w => decide (dot v w < 0)) = L at hne
        induction L with
        | nil => exact absurd rfl hne
        | cons a L ihL =>
          by_cases hL : L = []
          · subst hL
            exact ⟨a, by simp, by simp⟩
          · obtain ⟨x, hx, hm⟩ := ihL hL
            by_cases hc : (dot d a - 1) / (-dot v a) ≤ (dot d x - 1) / (-dot v x)
            · refine ⟨a, by simp, ?_⟩
              intro y hy
              rcases List.mem_cons.mp hy with rfl | hy
              · exact le_refl _
              · exact hc.trans (hm y hy)
            · refine ⟨x, by simp [hx], ?_⟩
              intro y hy
              rcases List.mem_cons.mp hy with rfl | hy
              · exact (not_le.mp hc).le
              · exact hm y hy
      simp only [List.mem_filter, decide_eq_true_eq] at hx hmx
      exact ⟨x, hx.1, hx.2, fun y hy hy' => hmx y ⟨hy, hy'⟩⟩
    set t := (dot d w2 - 1) / (-dot v w2) with ht
    have ht0 : 0 ≤ t := div_nonneg (by linarith [hd w2 hw2]) (by linarith)
    have hdot : ∀ w, dot (vaddScaled d v t) w = dot d w + t * dot v w := by
      intro w; simp only [dot, vaddScaled]; ring
    refine ih (vaddScaled d v t) ?_ ?_
    · intro w hw
      rw [hdot]
      by_cases hc : dot v w < 0
      · have := hmin w hw hc
        rw [le_div_iff₀ (by linarith)] at this
        linarith
      · have := mul_nonneg ht0 (not_lt.mp hc)
        linarith [hd w hw]
    · have hsub : (W.filter (fun w => decide (dot (vaddScaled d v t) w ≠ 1))).length
          < (W.filter (fun w => decide (dot d w ≠ 1))).length := by
        have e : W.filter (fun w => decide (dot (vaddScaled d v t) w ≠ 1))
            = (W.filter (fun w => decide (dot d w ≠ 1))).filter
              (fun w => decide (dot (vaddScaled d v t) w ≠ 1)) := by
          rw [List.filter_filter]
          refine List.filter_congr ?_
          intro w hw
          by_cases h1 : dot d w = 1
          · have : dot (vaddScaled d v t) w = 1 := by rw [hdot, hv w hw h1, h1]; ring
            simp [this]
          · simp [h1]
        rw [e]
        refine List.length_filter_lt_length_iff_exists.mpr ⟨w2, ?_, ?_⟩
        · simp only [List.mem_filter, hw2, true_and, decide_eq_true_eq]
          intro h1
          have := hv w2 hw2 h1
          linarith
        · have : dot (vaddScaled d v t) w2 = 1 := by
            have h0 : -dot v w2 ≠ 0 := by linarith
            have := div_mul_cancel₀ (dot d w2 - 1) h0
            rw [hdot]
            rw [← ht] at this
            linarith
          simp [this]
      omega

/-! ### Directions and axes -/

theorem project6_of_sep {ax p1 p2 p3 q1 q2 q3 : V3} (s : ℝ)
    (h : ∀ p ∈ [p1, p2, p3], ∀ q ∈ [q1, q2, q3], 0 < s * dot ax (vsub p q)) :
    project6 ax p1 p2 p3 q1 q2 q3 = false := by
  have e : ∀ p q, dot ax (vsub p q) = dot ax p - dot ax q := by intro p q; simp only [dot, vsub]; ring
  simp only [e] at h
  simp only [List.mem_cons, List.not_mem_nil, or_false, forall_eq_or_imp, forall_eq] at h
  obtain ⟨⟨h11, h12, h13⟩, ⟨h21, h22, h23⟩, ⟨h31, h32, h33⟩⟩ := h
  rcases lt_trichotomy s 0 with hs | hs | hs
  · have k : ∀ x, 0 < s * x → x < 0 := fun x hx => by nlinarith
    have := k _ h11; have := k _ h12; have := k _ h13
    have := k _ h21; have := k _ h22; have := k _ h23
    have := k _ h31; have := k _ h32; have := k _ h33
    unfold project6
    split_ifs with c1 c2
    · rfl
    · rfl
    · exfalso
      apply c2
      rcases min3_cases (dot ax q1) (dot ax q2) (dot ax q3) with m | m | m <;>
      rcases max3_cases (dot ax p1) (dot ax p2) (dot ax p3) with n | n | n <;>
      rw [m, n] <;> linarith
  · simp [hs] at h11
  · have k : ∀ x, 0 < s * x → 0 < x := fun x hx => by
      by_contra hc
      nlinarith
    have := k _ h11; have := k _ h12; have := k _ h13
    have := k _ h21; have := k _ h22; have := k _ h23
    have := k _ h31; have := k _ h32; have := k _ h33
    unfold project6
    split_ifs with c1 c2
    · rfl
    · rfl
    · exfalso
      apply c1
      rcases min3_cases (dot ax p1) (dot ax p2) (dot ax p3) with m | m | m <;>
      rcases max3_cases (dot ax q1) (dot ax q2) (dot ax q3) with n | n | n <;>
      rw [m, n] <;> linarith

/-- A vector orthogonal to `a` and `b` is a multiple of their cross product. -/
theorem eq_cross_of_orth {d a b : V3} (ha : dot d a = 0) (hb : dot d b = 0) (h : cross a b ≠ zero3) :
    ∃ s, ∀ w, dot d w = s * dot (cross a b) w := by
  have hn : dot (cross a b) (cross a b) ≠ 0 := by
    intro h0
    apply h
    simp only [dot] at h0
    have hx : (cross a b).x = 0 := by nlinarith [mul_self_nonneg (cross a b).x, mul_self_nonneg (cross a b).y, mul_self_nonneg (cross a b).z]
    have hy : (cross a b).y = 0 := by nlinarith [mul_self_nonneg (cross a b).x, mul_self_nonneg (cross a b).y, mul_self_nonneg (cross a b).z]
    have hz : (cross a b).z = 0 := by nlinarith [mul_self_nonneg (cross a b).x, mul_self_nonneg (cross a b).y, mul_self_nonneg (cross a b).z]
    exact V3.ext hx hy hz
  refine ⟨dot d (cross a b) / dot (cross a b) (cross a b), ?_⟩
  intro w
  rw [div_mul_eq_mul_div, eq_div_iff hn]
  -- `d × (a × b) = 0`
  have k : cross d (cross a b) = zero3 := by
    have : cross d (cross a b) = vsub (vscale a (dot d b)) (vscale b (dot d a)) := by
      ext <;> simp only [cross, vsub, vscale, dot] <;> ring
    rw [this, ha, hb]
    ext <;> simp [vsub, vscale, zero3]
  generalize cross a b = n at k
  have kx := congrArg V3.x k
  have ky := congrArg V3.y k
  have kz := congrArg V3.z k
  simp only [cross, zero3] at kx ky kz
  simp only [dot]
  linear_combination -(n.y * w.z - n.z * w.y) * kx - (n.z * w.x - n.x * w.z) * ky - (n.x * w.y - n.y * w.x) * kz

theorem dot_vsub (d p q : V3) : dot d (vsub p q) = dot d p - dot d q := by
  simp only [dot, vsub]; ring

/-- The corners where a function `d · p` is smallest: all three, those of an edge, or a single one. -/
theorem argmin_cases (d p1 p2 p3 : V3) :
    (dot d (vsub p2 p1) = 0 ∧ dot d (vsub p3 p2) = 0) ∨
    (∃ e ∈ [vsub p2 p1, vsub p3 p2, vsub p1 p3], dot d e = 0 ∧ ∃ p0 ∈ [p1, p2, p3],
      (∀ p ∈ [p1, p2, p3], dot d p0 ≤ dot d p) ∧
      ∀ p ∈ [p1, p2, p3], dot d p = dot d p0 → ∃ s, p = vaddScaled p0 e s) ∨
    (∃ p0 ∈ [p1, p2, p3], (∀ p ∈ [p1, p2, p3], dot d p0 ≤ dot d p) ∧
      ∀ p ∈ [p1, p2, p3], dot d p = dot d p0 → p = p0) := by
  have z : ∀ a b : V3, a = vaddScaled a b 0 := by intro a b; ext <;> simp [vaddScaled]
  have o : ∀ a b : V3, b = vaddScaled a (vsub b a) 1 := by intro a b; ext <;> simp [vaddScaled, vsub]
  have n : ∀ a b : V3, b = vaddScaled a (vsub a b) (-1) := by intro a b; ext <;> simp [vaddScaled, vsub]
  have all : ∀ P : V3 → Prop, P p1 → P p2 → P p3 → ∀ p ∈ [p1, p2, p3], P p := by
    intro P h1 h2 h3 p hp
    simp only [List.mem_cons, List.not_mem_nil, or_false] at hp
    rcases hp with rfl | rfl | rfl <;> assumption
  rcases lt_trichotomy (dot d p1) (dot d p2) with a | a | a <;>
  rcases lt_trichotomy (dot d p2) (dot d p3) with b | b | b <;>
  rcases lt_trichotomy (dot d p3) (dot d p1) with c | c | c <;>
  first
  | (exfalso; linarith)
  | (left; refine ⟨?_, ?_⟩ <;> rw [dot_vsub] <;> linarith)
  | (right; right
     refine ⟨p1, by simp, all _ (le_refl _) ?_ ?_, all _ (fun _ => rfl) ?_ ?_⟩ <;>
     first | linarith | (intro h; linarith))
  | (right; right
     refine ⟨p2, by simp, all _ ?_ (le_refl _) ?_, all _ ?_ (fun _ => rfl) ?_⟩ <;>
     first | linarith | (intro h; linarith))
  | (right; right
     refine ⟨p3, by simp, all _ ?_ ?_ (le_refl _), all _ ?_ ?_ (fun _ => rfl)⟩ <;>
     first | linarith | (intro h; linarith))
  | (right; left
     refine ⟨vsub p2 p1, by simp, ?_, p1, by simp, all _ (le_refl _) ?_ ?_,
       all _ (fun _ => ⟨0, z _ _⟩) (fun _ => ⟨1, o _ _⟩) ?_⟩ <;>
     first | linarith | (rw [dot_vsub]; linarith) | (intro h; linarith))
  | (right; left
     refine ⟨vsub p3 p2, by simp, ?_, p2, by simp, all _ ?_ (le_refl _) ?_,
       all _ ?_ (fun _ => ⟨0, z _ _⟩) (fun _ => ⟨1, o _ _⟩)⟩ <;>
     first | linarith | (rw [dot_vsub]; linarith) | (intro h; linarith))
  | (right; left
     refine ⟨vsub p1 p3, by simp, ?_, p3, by simp, all _ ?_ ?_ (le_refl _),
       all _ (fun _ => ⟨1, o _ _⟩) ?_ (fun _ => ⟨0, z _ _⟩)⟩ <;>
     first | linarith | (rw [dot_vsub]; linarith) | (intro h; linarith))

end Simox.Pqp
