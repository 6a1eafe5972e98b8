import Verif.Stb.MarginLemmas

/-!
# Properties C182 and C183: the support polygon and the stability index
-/

namespace Simox.Stb

open Classical Simox.Hull

theorem update_eq (contacts : List (List Jac.V3)) :
    contacts.flatten.map toFloor = shadow contacts := by
  unfold shadow
  exact List.map_congr_left fun p _ => toFloor_eq p

theorem apart_sort (points : List Pt) :
    (sortPoints points).Pairwise fun a b => (1 / 10 ^ 4) ^ 2 ≤ sqDist a b := (thinned points).apart

/-! ## C182 -/

/-- C182. Of the contacts of all models the heights are dropped, and points closer than 1e-4 to another one are
left out. If fewer than three remain there is no support polygon; otherwise it is the convex hull of the
remaining points. No contacts make the update throw or write outside of an array. -/
theorem C182_polygon (contacts : List (List Jac.V3)) :
    ∃ kept, Thinned (shadow contacts) kept ∧
      (kept.length < 3 → updateSupportPolygon contacts = .ok none) ∧
      (3 ≤ kept.length → ∃ H, updateSupportPolygon contacts = .ok (some H) ∧ Polygon kept H ∧
        ∀ p, isInside p (some H) = true ↔ p ∈ hullSet kept) := by
  refine ⟨sortPoints (shadow contacts), thinned _, ?_, ?_⟩
  · intro h
    unfold updateSupportPolygon
    dsimp only
    rw [update_eq, if_pos h]
  · intro h
    have ha := apart_sort (shadow contacts)
    obtain ⟨H, h1, h2, h3⟩ := create_result (points := sortPoints (shadow contacts))
      (by rw [sortPoints_length_of_apart ha]; exact h)
    have hm := sortPoints_mem_of_apart ha
    refine ⟨H, ?_, h2.congr hm, ?_⟩
    · unfold updateSupportPolygon
      dsimp only
      rw [update_eq, if_neg (by omega), h1]
    · intro p
      rw [h3, hullSet_congr hm]

/-- The converse reading: what a returned polygon is. -/
theorem update_some {contacts : List (List Jac.V3)} {H : ConvexHull2D}
    (h : updateSupportPolygon contacts = .ok (some H)) :
    ∃ kept, Thinned (shadow contacts) kept ∧ 3 ≤ kept.length ∧ Polygon kept H ∧
      ∀ p, isInside p (some H) = true ↔ p ∈ hullSet kept := by
  obtain ⟨kept, ht, h1, h2⟩ := C182_polygon contacts
  by_cases hn : kept.length < 3
  · rw [h1 hn] at h; injection h with h; cases h
  · obtain ⟨H', g1, g2, g3⟩ := h2 (by omega)
    rw [g1] at h
    injection h with h
    injection h with h
    subst h
    exact ⟨kept, ht, by omega, g2, g3⟩

/-- C182. Only the position over the floor counts: contacts with the same shadow make the same polygon. -/
theorem C182_height (a b : List (List Jac.V3)) (h : shadow a = shadow b) :
    updateSupportPolygon a = updateSupportPolygon b := by
  unfold updateSupportPolygon
  rw [update_eq, update_eq, h]

/-- Three contacts, of two models and at different heights. -/
def corner : List (List Jac.V3) := [[![0, 0, 1], ![4, 0, 0]], [![0, 4, -2]]]

theorem shadow_corner : shadow corner = [(0, 0), (4, 0), (0, 4)] := by
  simp [shadow, corner]

theorem corner_apart : ([(0, 0), (4, 0), (0, 4)] : List Pt).Pairwise
    fun a b => (1 / 10 ^ 4) ^ 2 ≤ sqDist a b := by
  simp only [List.pairwise_cons, List.mem_cons, List.not_mem_nil, or_false, forall_eq_or_imp, forall_eq, sqDist]
  norm_num

theorem corner_kept {kept : List Pt} (h : Thinned (shadow corner) kept) :
    ∀ q, q ∈ kept ↔ q ∈ ([(0, 0), (4, 0), (0, 4)] : List Pt) := by
  rw [shadow_corner] at h
  have key : ∀ p ∈ ([(0, 0), (4, 0), (0, 4)] : List Pt), ∀ k ∈ ([(0, 0), (4, 0), (0, 4)] : List Pt),
      sqDist k p < (1 / 10 ^ 4) ^ 2 → k = p := by
    simp only [List.mem_cons, List.not_mem_nil, or_false, forall_eq_or_imp, forall_eq, sqDist]
    norm_num
  intro q
  refine ⟨h.sub q, fun hq => ?_⟩
  obtain ⟨k, hk, hd⟩ := h.near q hq
  rw [← key q hq k (h.sub k hk) hd]
  exact hk

/-- The contacts `corner` have a polygon, the triangle below them. -/
theorem corner_update : ∃ H, updateSupportPolygon corner = .ok (some H) ∧
    Polygon [(0, 0), (4, 0), (0, 4)] H := by
  obtain ⟨kept, ht, _, h2⟩ := C182_polygon corner
  have hk := corner_kept ht
  have hl : 3 ≤ kept.length := by
    have hn : ([(0, 0), (4, 0), (0, 4)] : List Pt).Nodup := by simp
    have := (hn.subperm fun q hq => (hk q).mpr hq).length_le
    simpa using this
  obtain ⟨H, g1, g2, _⟩ := h2 hl
  exact ⟨H, g1, g2.congr hk⟩

/-- Two contacts: no polygon. -/
example : updateSupportPolygon [[![0, 0, 0]], [![1, 0, 0]]] = .ok none := by
  obtain ⟨kept, ht, h1, _⟩ := C182_polygon [[![0, 0, 0]], [![1, 0, 0]]]
  refine h1 ?_
  have hsub : kept ⊆ ([(0, 0), (1, 0)] : List Pt) := by
    intro k hk
    have := ht.sub k hk
    simpa [shadow] using this
  have hn : kept.Nodup := ht.apart.imp fun {a b} h e => by
    subst e
    simp only [sqDist, sub_self] at h
    norm_num at h
  have := (hn.subperm hsub).length_le
  simp at this
  omega

/-! ## C183 -/

/-- C183. The index is a number between 0 and 1. -/
theorem C183_range (ch : Option ConvexHull2D) (com : Option Jac.V3) :
    0 ≤ getStabilityIndex ch com ∧ getStabilityIndex ch com ≤ 1 := by
  match com, ch with
  | none, _ => exact ⟨le_refl _, zero_le_one⟩
  | some _, none => exact ⟨le_refl _, zero_le_one⟩
  | some c, some H =>
    unfold getStabilityIndex
    dsimp only
    by_cases h1 : H.vertices.length < 2
    · rw [if_pos h1]; norm_num
    · rw [if_neg h1]
      by_cases h2 : isInside (c 0, c 1) (some H) = false
      · rw [if_pos h2]; norm_num
      · rw [if_neg h2]
        split
        · split
          · norm_num
          · rename_i h
            exact ⟨div_nonneg (Real.sqrt_nonneg _) (Real.sqrt_nonneg _), not_lt.mp h⟩
        · norm_num

/-- C183. Without a polygon, or without a node set, the index is 0. -/
theorem C183_none (ch : Option ConvexHull2D) (com : Option Jac.V3) (h : ch = none ∨ com = none) :
    getStabilityIndex ch com = 0 := by
  rcases h with rfl | rfl
  · cases com <;> rfl
  · rfl

/-- C183. The index for a polygon that the update has made, with contacts less than 1e18 from the origin. It is 0
if the centre of mass is not above the polygon. Otherwise it is the radius of the largest disc around it that is
inside of the polygon, divided by that of the largest disc around the centre of the bounding box, but at most 1;
and 0 if the latter radius is at most 1e-8. -/
theorem C183_index (contacts : List (List Jac.V3)) (H : ConvexHull2D)
    (h : updateSupportPolygon contacts = .ok (some H))
    (hbox : ∀ p ∈ shadow contacts, |p.1| ≤ 10 ^ 18 ∧ |p.2| ≤ 10 ^ 18) (com : Jac.V3) :
    ∃ kept, Thinned (shadow contacts) kept ∧
      ((com 0, com 1) ∉ hullSet kept → getStabilityIndex (some H) (some com) = 0) ∧
      ((com 0, com 1) ∈ hullSet kept → ∃ c rc r, BoxCentre (hullSet kept) c ∧ Margin (hullSet kept) c rc ∧
        Margin (hullSet kept) (com 0, com 1) r ∧
        getStabilityIndex (some H) (some com) = if rc > 1 / 10 ^ 8 then min 1 (r / rc) else 0) := by
  obtain ⟨kept, ht, hl, hP, hin⟩ := update_some h
  refine ⟨kept, ht, ?_, ?_⟩
  · intro hc
    unfold getStabilityIndex
    dsimp only
    by_cases h1 : H.vertices.length < 2
    · rw [if_pos h1]
    · rw [if_neg h1, if_pos]
      by_contra hb
      exact hc ((hin _).mp (by simpa using hb))
  · intro hc
    have hboxk : ∀ q ∈ kept, |q.1| ≤ 10 ^ 18 ∧ |q.2| ≤ 10 ^ 18 := fun q hq => hbox q (ht.sub q hq)
    have h2 : ∃ p ∈ kept, ∃ q ∈ kept, p ≠ q := by
      match kept, hl, ht.apart with
      | a :: b :: _, _, hap =>
        refine ⟨a, by simp, b, by simp, fun e => ?_⟩
        have := (List.pairwise_cons.mp hap).1 b (by simp)
        rw [e] at this
        simp only [sqDist, sub_self] at this
        norm_num at this
    obtain ⟨e, he, hne⟩ := exists_edge hP h2
    have hlen : ¬ H.vertices.length < 2 := by
      obtain ⟨i, j, hi, hj, _, he', _⟩ := edge_vertices hP he
      intro hc
      have : i = j := by omega
      rw [he', this] at hne
      exact hne rfl
    have hcr : ∃ points, createConvexHull2D points = .ok H := by
      unfold updateSupportPolygon at h
      dsimp only at h
      split at h
      · injection h with h; cases h
      · split at h
        · rename_i H' g
          injection h with h
          injection h with h
          subst h
          exact ⟨_, g⟩
        · cases h
        · cases h
    obtain ⟨points, hcr⟩ := hcr
    obtain ⟨hci, x0, x1, y0, y1, hce, b1, b2, b3, b4⟩ := C67_center points H hcr
    have hmc := margin_of hP hin h2 hboxk ((hin _).mp hci)
    have hmp := margin_of hP hin h2 hboxk hc
    simp only [hin] at b1 b2 b3 b4
    refine ⟨_, _, _, ⟨x0, x1, y0, y1, hce, b1, b2, b3, b4⟩, hmc, hmp, ?_⟩
    unfold getStabilityIndex
    dsimp only
    rw [if_neg hlen, if_neg (by rw [(hin _).mpr hc]; simp), foldl_distStep]
    dsimp only
    rw [abs_of_nonneg (Real.sqrt_nonneg _)]
    split
    · split
      · rename_i g; rw [min_eq_left g.le]
      · rename_i g; rw [min_eq_right (not_lt.mp g)]
    · rw [if_neg (by norm_num)]

theorem Margin.unique {K : Set Pt} {p : Pt} {a b : ℝ} (h : Margin K p a) (g : Margin K p b) : a = b :=
  IsGreatest.unique h g

theorem BoxCentre.unique {K : Set Pt} {c d : Pt} (h : BoxCentre K c) (g : BoxCentre K d) : c = d := by
  obtain ⟨x0, x1, y0, y1, rfl, a1, a2, a3, a4⟩ := h
  obtain ⟨x0', x1', y0', y1', rfl, b1, b2, b3, b4⟩ := g
  rw [a1.unique b1, a2.unique b2, a3.unique b3, a4.unique b4]

/-- C183. Where the largest disc around the centre `c` has a radius above 1e-8: the index is positive exactly if
the centre of mass is above an inner point of the polygon, and it is 1 exactly if every disc that fits around `c`
also fits around the centre of mass. -/
theorem C183_meaning (contacts : List (List Jac.V3)) (H : ConvexHull2D)
    (h : updateSupportPolygon contacts = .ok (some H))
    (hbox : ∀ p ∈ shadow contacts, |p.1| ≤ 10 ^ 18 ∧ |p.2| ≤ 10 ^ 18) (com : Jac.V3) :
    ∃ kept, Thinned (shadow contacts) kept ∧
      ∀ c rc, BoxCentre (hullSet kept) c → Margin (hullSet kept) c rc → 1 / 10 ^ 8 < rc →
        (0 < getStabilityIndex (some H) (some com) ↔ ∃ ε > 0, DiscIn (hullSet kept) (com 0, com 1) ε) ∧
        (getStabilityIndex (some H) (some com) = 1 ↔
          ∀ r, 0 ≤ r → DiscIn (hullSet kept) c r → DiscIn (hullSet kept) (com 0, com 1) r) := by
  obtain ⟨kept, ht, h1, h2⟩ := C183_index contacts H h hbox com
  refine ⟨kept, ht, ?_⟩
  intro c rc hc hm hrc
  have hrp : 0 < rc := lt_trans (by norm_num) hrc
  have hself : ∀ (p : Pt) r, 0 < r → DiscIn (hullSet kept) p r → p ∈ hullSet kept := by
    intro p r hr hd
    refine hd p ?_
    unfold sqDist
    simp only [sub_self]
    have := sq_pos_of_pos hr
    linarith
  by_cases hin : ((com 0, com 1) : Pt) ∈ hullSet kept
  · obtain ⟨c', rc', r, k1, k2, k3, k4⟩ := h2 hin
    have e := k1.unique hc
    subst e
    have e := k2.unique hm
    subst e
    rw [k4, if_pos hrc]
    constructor
    · rw [lt_min_iff]
      constructor
      · rintro ⟨_, g⟩
        refine ⟨r, ?_, k3.1.2⟩
        by_contra hc
        exact absurd g (not_lt.mpr (div_nonpos_of_nonpos_of_nonneg (not_lt.mp hc) hrp.le))
      · rintro ⟨ε, he, hd⟩
        have : ε ≤ r := k3.2 ⟨he.le, hd⟩
        exact ⟨one_pos, div_pos (by linarith) hrp⟩
    · rw [min_eq_left_iff, one_le_div hrp]
      constructor
      · intro hle s hs hd q hq
        refine k3.1.2 q (lt_of_lt_of_le hq ?_)
        have : s ≤ rc' := hm.2 ⟨hs, hd⟩
        exact pow_le_pow_left₀ hs (by linarith) 2
      · intro g
        exact k3.2 ⟨hrp.le, g _ hrp.le hm.1.2⟩
  · rw [h1 hin]
    constructor
    · refine ⟨fun g => absurd g (lt_irrefl _), ?_⟩
      rintro ⟨ε, he, hd⟩
      exact absurd (hself _ _ he hd) hin
    · refine ⟨fun g => by norm_num at g, fun g => ?_⟩
      exact absurd (hself _ _ hrp (g _ hrp.le hm.1.2)) hin

/-! ### Where it fails -/

theorem corner_hull_le : ∀ q ∈ hullSet ([(0, 0), (4, 0), (0, 4)] : List Pt), 0 ≤ q.1 ∧ 0 ≤ q.2 ∧ q.1 + q.2 ≤ 4 := by
  intro q hq
  have hc : Convex ℝ {q : Pt | 0 ≤ q.1 ∧ 0 ≤ q.2 ∧ q.1 + q.2 ≤ 4} := by
    rintro u ⟨u1, u2, u3⟩ w ⟨w1, w2, w3⟩ s t hs ht hst
    show 0 ≤ s * u.1 + t * w.1 ∧ 0 ≤ s * u.2 + t * w.2 ∧ (s * u.1 + t * w.1) + (s * u.2 + t * w.2) ≤ 4
    have ht' : t = 1 - s := by linarith
    subst ht'
    refine ⟨by nlinarith, by nlinarith, by nlinarith⟩
  refine convexHull_min ?_ hc hq
  intro x hx
  simp only [Set.mem_ofPred_eq, List.mem_cons, List.not_mem_nil, or_false] at hx
  rcases hx with rfl | rfl | rfl <;> norm_num

theorem corner_hull_mem {q : Pt} (h1 : 0 ≤ q.1) (h2 : 0 ≤ q.2) (h3 : q.1 + q.2 ≤ 4) :
    q ∈ hullSet ([(0, 0), (4, 0), (0, 4)] : List Pt) := by
  have hc := convex_convexHull ℝ {q | q ∈ ([(0, 0), (4, 0), (0, 4)] : List Pt)}
  have m0 : ((0, 0) : Pt) ∈ hullSet ([(0, 0), (4, 0), (0, 4)] : List Pt) := subset_convexHull ℝ _ (by simp)
  have m1 : ((4, 0) : Pt) ∈ hullSet ([(0, 0), (4, 0), (0, 4)] : List Pt) := subset_convexHull ℝ _ (by simp)
  have m2 : ((0, 4) : Pt) ∈ hullSet ([(0, 0), (4, 0), (0, 4)] : List Pt) := subset_convexHull ℝ _ (by simp)
  have hsum := hc.sum_mem (t := (Finset.univ : Finset (Fin 3)))
    (w := ![1 - q.1 / 4 - q.2 / 4, q.1 / 4, q.2 / 4]) (z := ![(0, 0), (4, 0), (0, 4)])
    (by intro i _; fin_cases i <;> simp <;> linarith)
    (by simp [Fin.sum_univ_three]; ring)
    (by intro i _; fin_cases i <;> [exact m0; exact m1; exact m2])
  have e : q = ∑ i, (![1 - q.1 / 4 - q.2 / 4, q.1 / 4, q.2 / 4] : Fin 3 → ℝ) i •
      (![(0, 0), (4, 0), (0, 4)] : Fin 3 → Pt) i := by
    simp only [Fin.sum_univ_three]
    refine Prod.ext ?_ ?_
    · simp
    · simp
  rw [e]
  exact hsum

/-- C183, a defect: the index does not tell a safe stance from a falling one. On the contacts `corner` (a right
angle) the centre of the bounding box is on the border of the polygon, and the index is 0 wherever the centre of
mass is, even at (1, 1), one unit from the nearest edge. -/
theorem C183_corner_false :
    ¬ ∀ (contacts : List (List Jac.V3)) (H : ConvexHull2D) (com : Jac.V3),
      updateSupportPolygon contacts = .ok (some H) →
      (∀ kept, Thinned (shadow contacts) kept → DiscIn (hullSet kept) (com 0, com 1) 1) →
      0 < getStabilityIndex (some H) (some com) := by
  intro hall
  obtain ⟨H, hH, _⟩ := corner_update
  have hpos := hall corner H ![1, 1, 0] hH (by
    intro kept ht q hq
    rw [hullSet_congr (corner_kept ht)]
    simp only [sqDist, Matrix.cons_val_zero, Matrix.cons_val_one] at hq
    refine corner_hull_mem ?_ ?_ ?_
    · nlinarith [sq_nonneg (1 - q.2)]
    · nlinarith [sq_nonneg (1 - q.1)]
    · nlinarith [sq_nonneg ((1 - q.1) - (1 - q.2)), sq_nonneg (q.1 + q.2 - 4)])
  obtain ⟨kept, ht, h1, h2⟩ := C183_index corner H hH (by
    rw [shadow_corner]
    intro p hp
    simp only [List.mem_cons, List.not_mem_nil, or_false] at hp
    rcases hp with rfl | rfl | rfl <;> norm_num) ![1, 1, 0]
  have hk := hullSet_congr (corner_kept ht)
  rw [hk] at h1 h2
  obtain ⟨c, rc, r, b1, b2, _, b4⟩ := h2 (corner_hull_mem (by simp) (by simp) (by norm_num))
  have hc : c = (2, 2) := by
    refine b1.unique ⟨0, 4, 0, 4, by norm_num, ⟨⟨(0, 0), ?_, rfl⟩, ?_⟩, ⟨⟨(4, 0), ?_, rfl⟩, ?_⟩,
      ⟨⟨(0, 0), ?_, rfl⟩, ?_⟩, ⟨⟨(0, 4), ?_, rfl⟩, ?_⟩⟩
    · exact corner_hull_mem (by norm_num) (by norm_num) (by norm_num)
    · rintro x ⟨p, hp, rfl⟩; exact (corner_hull_le p hp).1
    · exact corner_hull_mem (by norm_num) (by norm_num) (by norm_num)
    · rintro x ⟨p, hp, rfl⟩; obtain ⟨a, b, d⟩ := corner_hull_le p hp; linarith
    · exact corner_hull_mem (by norm_num) (by norm_num) (by norm_num)
    · rintro x ⟨p, hp, rfl⟩; exact (corner_hull_le p hp).2.1
    · exact corner_hull_mem (by norm_num) (by norm_num) (by norm_num)
    · rintro x ⟨p, hp, rfl⟩; obtain ⟨a, b, d⟩ := corner_hull_le p hp; linarith
  subst hc
  have hrc : ¬ rc > 1 / 10 ^ 8 := by
    intro hgt
    have hp : 0 < rc := lt_trans (by norm_num) hgt
    have := (corner_hull_le _ (b2.1.2 (2 + rc / 2, 2) (by
      unfold sqDist
      dsimp only
      nlinarith))).2.2
    dsimp only at this
    linarith
  rw [b4, if_neg hrc] at hpos
  exact lt_irrefl _ hpos

/-- The hypotheses of `C183_index` hold for the contacts `corner`. -/
example : ∃ H, updateSupportPolygon corner = .ok (some H) ∧
    ∀ p ∈ shadow corner, |p.1| ≤ 10 ^ 18 ∧ |p.2| ≤ 10 ^ 18 := by
  obtain ⟨H, hH, _⟩ := corner_update
  refine ⟨H, hH, ?_⟩
  rw [shadow_corner]
  intro p hp
  simp only [List.mem_cons, List.not_mem_nil, or_false] at hp
  rcases hp with rfl | rfl | rfl <;> norm_num

end Simox.Stb
