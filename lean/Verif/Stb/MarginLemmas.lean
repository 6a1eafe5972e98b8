import Verif.Stb.Spec
import Verif.Hull.Props
import Verif.Rot.PlaneProps

namespace Simox.Stb

open Classical Simox.Hull

theorem toFloor_eq (p : Jac.V3) : toFloor p = (p 0, p 1) := by
  have hn : Rot.normalize ![0, 0, 1] = ![0, 0, 1] := Rot.normalize_of_unit Rot.up_unit
  have hr : Rot.getRotation (![0, 0, 1] : Jac.V3) ![0, 0, 1] = Rot.Quat.one := by
    unfold Rot.getRotation
    dsimp only
    rw [hn, cross_self, if_pos (by simp [Rot.nrm]), if_pos (by simp [dotProduct, Fin.sum_univ_three])]
  unfold toFloor Rot.projectPointToPlane2D floorPlane Rot.Plane.mk'
  dsimp only
  rw [hn, hr]
  refine Prod.ext ?_ ?_ <;>
    simp [Rot.setPos, Rot.quat2eigen4f, Rot.block4, Rot.Quat.one, Rot.projectPointToPlane,
      Rot.getDistancePointPlane, Matrix.mulVec, dotProduct, Fin.sum_univ_three, Fin.sum_univ_four,
      Rot.toRotationMatrix]

theorem distLine_eq (p a b : Pt) (h : a ≠ b) :
    getSquaredDistLine p a b * sqDist a b = isLeft a b p ^ 2 := by
  have hs : 0 < (b.1 - a.1) * (b.1 - a.1) + (b.2 - a.2) * (b.2 - a.2) := by
    by_contra hc
    have h1 := mul_self_nonneg (b.1 - a.1)
    have h2 := mul_self_nonneg (b.2 - a.2)
    have e1 : b.1 - a.1 = 0 := by nlinarith
    have e2 : b.2 - a.2 = 0 := by nlinarith
    exact h (Prod.ext (by linarith) (by linarith))
  have hn := Real.sqrt_pos.mpr hs
  have hq := Real.mul_self_sqrt hs.le
  unfold getSquaredDistLine normalize2
  dsimp only
  rw [if_pos hn]
  generalize Real.sqrt ((b.1 - a.1) * (b.1 - a.1) + (b.2 - a.2) * (b.2 - a.2)) = n at hn hq
  unfold sqDist isLeft
  dsimp only
  have hsq : (a.1 - b.1) ^ 2 + (a.2 - b.2) ^ 2 = n * n := by rw [hq]; ring
  rw [hsq]
  have hn0 : n ≠ 0 := hn.ne'
  obtain ⟨u, hu⟩ : ∃ u, u = b.1 - a.1 := ⟨_, rfl⟩
  obtain ⟨w, hw⟩ : ∃ w, w = b.2 - a.2 := ⟨_, rfl⟩
  obtain ⟨x, hx⟩ : ∃ x, x = p.1 - a.1 := ⟨_, rfl⟩
  obtain ⟨y, hy⟩ : ∃ y, y = p.2 - a.2 := ⟨_, rfl⟩
  have e1 : a.1 + ((b.1 - a.1) / n * (p.1 - a.1) + (b.2 - a.2) / n * (p.2 - a.2)) * ((b.1 - a.1) / n) - p.1 =
      (u * x + w * y) * u / (n * n) - x := by rw [hu, hw, hx, hy]; field_simp; ring
  have e2 : a.2 + ((b.1 - a.1) / n * (p.1 - a.1) + (b.2 - a.2) / n * (p.2 - a.2)) * ((b.2 - a.2) / n) - p.2 =
      (u * x + w * y) * w / (n * n) - y := by rw [hu, hw, hx, hy]; field_simp; ring
  rw [e1, e2, ← hu, ← hw, ← hx, ← hy]
  rw [← hu, ← hw] at hq
  have hnn : n * n ≠ 0 := mul_ne_zero hn0 hn0
  rw [hq]
  rw [hq] at hnn
  have hnn' : u ^ 2 + w ^ 2 ≠ 0 := by rwa [sq, sq]
  field_simp
  ring

theorem distLine_nonneg (p a b : Pt) : 0 ≤ getSquaredDistLine p a b := by
  unfold getSquaredDistLine
  dsimp only
  exact add_nonneg (mul_self_nonneg _) (mul_self_nonneg _)

theorem sqDist_pos {a b : Pt} (h : a ≠ b) : 0 < sqDist a b := by
  unfold sqDist
  by_contra hc
  have h1 := sq_nonneg (a.1 - b.1)
  have h2 := sq_nonneg (a.2 - b.2)
  have e1 : (a.1 - b.1) ^ 2 = 0 := by linarith
  have e2 : (a.2 - b.2) ^ 2 = 0 := by linarith
  exact h (Prod.ext (by linarith [pow_eq_zero_iff (two_ne_zero) |>.mp e1])
    (by linarith [pow_eq_zero_iff (two_ne_zero) |>.mp e2]))

/-- Cauchy's inequality for the change of `isLeft`. -/
theorem isLeft_change (a b p q : Pt) : (isLeft a b q - isLeft a b p) ^ 2 ≤ sqDist a b * sqDist p q := by
  have e : isLeft a b q - isLeft a b p = (b.1 - a.1) * (q.2 - p.2) - (q.1 - p.1) * (b.2 - a.2) := by
    unfold isLeft; ring
  rw [e]
  unfold sqDist
  nlinarith [sq_nonneg ((b.1 - a.1) * (q.1 - p.1) + (b.2 - a.2) * (q.2 - p.2))]

/-- A disc that is closer than the line stays to the left of it. -/
theorem left_of_disc {a b p q : Pt} {r : ℝ} (h : a ≠ b) (hp : 0 ≤ isLeft a b p)
    (hr : r ^ 2 ≤ getSquaredDistLine p a b) (hq : sqDist p q < r ^ 2) : 0 < isLeft a b q := by
  have h1 := isLeft_change a b p q
  have h2 := distLine_eq p a b h
  have h3 := sqDist_pos h
  have h4 : sqDist a b * sqDist p q < isLeft a b p ^ 2 := by
    rw [← h2]; nlinarith
  by_contra hc
  nlinarith

/-- A disc to the left of a line is not larger than the distance of the line. -/
theorem disc_of_left {a b p : Pt} {r : ℝ} {K : Set Pt} (h : a ≠ b) (hK : ∀ q ∈ K, 0 ≤ isLeft a b q)
    (hr : 0 ≤ r) (hd : DiscIn K p r) : r ^ 2 ≤ getSquaredDistLine p a b := by
  by_contra hc
  have hlt := not_le.mp hc
  have h3 := sqDist_pos h
  have h2 := distLine_eq p a b h
  have hrp : 0 < r := by
    rcases hr.lt_or_eq with g | g
    · exact g
    · rw [← g] at hlt; have := distLine_nonneg p a b; nlinarith
  have hp : 0 ≤ isLeft a b p := hK p (hd p (by unfold sqDist; simp; positivity))
  -- the number `t` such that the point `p + t n` is just behind the line
  obtain ⟨n, hn⟩ : ∃ n, n = Real.sqrt (sqDist a b) := ⟨_, rfl⟩
  have hnp : 0 < n := hn ▸ Real.sqrt_pos.mpr h3
  have hnn : n * n = sqDist a b := hn ▸ Real.mul_self_sqrt h3.le
  obtain ⟨d, hdd⟩ : ∃ d, d = isLeft a b p / n := ⟨_, rfl⟩
  have hd0 : 0 ≤ d := hdd ▸ div_nonneg hp hnp.le
  have hdn : d * n = isLeft a b p := by rw [hdd]; field_simp
  have hdr : d < r := by
    have : d ^ 2 = getSquaredDistLine p a b := by
      rw [← hdn, ← hnn] at h2
      have : getSquaredDistLine p a b * (n * n) = d ^ 2 * (n * n) := by rw [h2]; ring
      exact (mul_right_cancel₀ (mul_pos hnp hnp).ne' this).symm
    nlinarith
  obtain ⟨t, ht⟩ : ∃ t, t = (d + r) / 2 := ⟨_, rfl⟩
  let q : Pt := (p.1 + t * (b.2 - a.2) / n, p.2 - t * (b.1 - a.1) / n)
  have hq1 : sqDist p q = t ^ 2 := by
    unfold sqDist
    show (p.1 - (p.1 + t * (b.2 - a.2) / n)) ^ 2 + (p.2 - (p.2 - t * (b.1 - a.1) / n)) ^ 2 = _
    have : (p.1 - (p.1 + t * (b.2 - a.2) / n)) ^ 2 + (p.2 - (p.2 - t * (b.1 - a.1) / n)) ^ 2 =
        t ^ 2 * sqDist a b / (n * n) := by unfold sqDist; field_simp; ring
    rw [this, ← hnn]
    field_simp
  have hq2 : isLeft a b q = (d - t) * n := by
    have : isLeft a b q = isLeft a b p - t * sqDist a b / n := by
      unfold isLeft sqDist
      show (b.1 - a.1) * ((p.2 - t * (b.1 - a.1) / n) - a.2) - ((p.1 + t * (b.2 - a.2) / n) - a.1) * (b.2 - a.2) = _
      field_simp
      ring
    rw [this, ← hnn, ← hdn]
    field_simp
  have hin := hK q (hd q (by rw [hq1]; nlinarith))
  rw [hq2] at hin
  nlinarith

/-! ## The loop -/

/-- The smallest of the distances and the start value. -/
noncomputable def minD (p : Pt) (es : List (Pt × Pt)) (m : ℝ) : ℝ :=
  es.foldl (fun m e => if getSquaredDistLine p e.1 e.2 < m then getSquaredDistLine p e.1 e.2 else m) m

theorem foldl_distStep (vs : List Pt) (c p : Pt) : ∀ (is : List Nat) (m : ℝ × ℝ),
    is.foldl (distStep vs c p) m = (minD c (is.map (edgeAt vs)) m.1, minD p (is.map (edgeAt vs)) m.2)
  | [], m => rfl
  | i :: is, m => by
    rw [List.foldl_cons, foldl_distStep vs c p is]
    rfl

theorem minD_le (p : Pt) : ∀ (es : List (Pt × Pt)) (m : ℝ),
    minD p es m ≤ m ∧ ∀ e ∈ es, minD p es m ≤ getSquaredDistLine p e.1 e.2
  | [], m => ⟨le_refl _, fun e he => by cases he⟩
  | e :: es, m => by
    have e1 : minD p (e :: es) m =
      minD p es (if getSquaredDistLine p e.1 e.2 < m then getSquaredDistLine p e.1 e.2 else m) := rfl
    obtain ⟨h1, h2⟩ := minD_le p es (if getSquaredDistLine p e.1 e.2 < m then getSquaredDistLine p e.1 e.2 else m)
    rw [e1]
    by_cases g : getSquaredDistLine p e.1 e.2 < m
    · rw [if_pos g] at h1 h2 ⊢
      refine ⟨by linarith, ?_⟩
      intro x hx
      rcases List.mem_cons.mp hx with rfl | hx
      · exact h1
      · exact h2 x hx
    · rw [if_neg g] at h1 h2 ⊢
      refine ⟨h1, ?_⟩
      intro x hx
      rcases List.mem_cons.mp hx with rfl | hx
      · linarith [not_lt.mp g]
      · exact h2 x hx

theorem minD_mem (p : Pt) : ∀ (es : List (Pt × Pt)) (m : ℝ),
    minD p es m = m ∨ ∃ e ∈ es, minD p es m = getSquaredDistLine p e.1 e.2
  | [], m => .inl rfl
  | e :: es, m => by
    have e1 : minD p (e :: es) m =
      minD p es (if getSquaredDistLine p e.1 e.2 < m then getSquaredDistLine p e.1 e.2 else m) := rfl
    rw [e1]
    rcases minD_mem p es (if getSquaredDistLine p e.1 e.2 < m then getSquaredDistLine p e.1 e.2 else m) with h | h
    · rw [h]
      by_cases g : getSquaredDistLine p e.1 e.2 < m
      · rw [if_pos g]; exact .inr ⟨e, by simp, rfl⟩
      · rw [if_neg g]; exact .inl rfl
    · obtain ⟨x, hx, h⟩ := h
      exact .inr ⟨x, List.mem_cons_of_mem _ hx, h⟩

theorem minD_nonneg (p : Pt) (es : List (Pt × Pt)) {m : ℝ} (hm : 0 ≤ m) : 0 ≤ minD p es m := by
  rcases minD_mem p es m with h | ⟨e, _, h⟩
  · rw [h]; exact hm
  · rw [h]; exact distLine_nonneg _ _ _

/-- The lines of the loop are the segments of the polygon. -/
theorem edges_iff {S : List Pt} {H : ConvexHull2D} (hP : Polygon S H) (e : Pt × Pt) :
    e ∈ (List.range H.vertices.length).map (edgeAt H.vertices) ↔ e ∈ hullEdges H := by
  unfold hullEdges
  rw [hP.ring]
  simp only [List.mem_map, List.mem_range, exists_exists_and_eq_and]
  constructor
  · rintro ⟨i, hi, rfl⟩
    unfold edgeAt
    by_cases g : i > 0
    · refine ⟨i - 1, by omega, ?_⟩
      rw [if_pos g, show i - 1 + 1 = i by omega, Nat.mod_eq_of_lt hi]
    · refine ⟨H.vertices.length - 1, by omega, ?_⟩
      rw [if_neg g, show H.vertices.length - 1 + 1 = H.vertices.length by omega, Nat.mod_self]
  · rintro ⟨u, hu, rfl⟩
    by_cases g : u + 1 < H.vertices.length
    · refine ⟨u + 1, g, ?_⟩
      unfold edgeAt
      rw [if_pos (by omega), Nat.mod_eq_of_lt g, Nat.add_sub_cancel]
    · have : u + 1 = H.vertices.length := by omega
      refine ⟨0, by omega, ?_⟩
      unfold edgeAt
      rw [if_neg (by omega), this, Nat.mod_self, ← this, Nat.add_sub_cancel]

/-! ## The margin -/

theorem at'_get {l : List Pt} {i : Nat} (h : i < l.length) : at' l i = l[i] :=
  at'_some (List.getElem?_eq_getElem h)

theorem at'_mem {l : List Pt} {i : Nat} (h : i < l.length) : at' l i ∈ l := by
  rw [at'_get h]
  exact List.getElem_mem h

theorem hull_left {S : List Pt} {a b : Pt} (h : ∀ q ∈ S, 0 ≤ isLeft a b q) : ∀ q ∈ hullSet S, 0 ≤ isLeft a b q := by
  intro q hq
  have hc : Convex ℝ {q : Pt | 0 ≤ isLeft a b q} := by
    intro x hx y hy s t hs ht hst
    show 0 ≤ isLeft a b (s • x + t • y)
    rw [isLeft_affine a b x y hst]
    exact add_nonneg (mul_nonneg hs hx) (mul_nonneg ht hy)
  exact convexHull_min (fun x hx => h x hx) hc hq

theorem hull_fst {S : List Pt} {x : ℝ} (h : ∀ q ∈ S, q.1 = x) : ∀ q ∈ hullSet S, q.1 = x := by
  intro q hq
  have hc : Convex ℝ {q : Pt | q.1 = x} := by
    intro u hu w hw s t _ _ hst
    show s * u.1 + t * w.1 = x
    rw [hu, hw, ← add_mul, hst, one_mul]
  exact convexHull_min (fun x hx => h x hx) hc hq

theorem hull_box {S : List Pt} {R : ℝ} (h : ∀ q ∈ S, |q.1| ≤ R ∧ |q.2| ≤ R) :
    ∀ q ∈ hullSet S, |q.1| ≤ R ∧ |q.2| ≤ R := by
  intro q hq
  have hc : Convex ℝ {q : Pt | |q.1| ≤ R ∧ |q.2| ≤ R} := by
    intro u hu w hw s t hs ht hst
    obtain ⟨u1, u2⟩ := hu
    obtain ⟨w1, w2⟩ := hw
    rw [abs_le] at u1 u2 w1 w2
    show |s * u.1 + t * w.1| ≤ R ∧ |s * u.2 + t * w.2| ≤ R
    have ht' : t = 1 - s := by linarith
    subst ht'
    constructor <;> rw [abs_le] <;> constructor <;> nlinarith
  exact convexHull_min (fun x hx => h x hx) hc hq

theorem distLine_le (p a b : Pt) (h : a ≠ b) : getSquaredDistLine p a b ≤ sqDist p a := by
  have h1 := distLine_eq p a b h
  have h2 := isLeft_change a b a p
  have h3 := sqDist_pos h
  have e : isLeft a b a = 0 := by unfold isLeft; ring
  have e2 : sqDist a p = sqDist p a := by unfold sqDist; ring
  rw [e, sub_zero, ← h1, e2] at h2
  by_contra hc
  nlinarith [not_le.mp hc]

/-- There is an edge between two different vertices. -/
theorem exists_edge {S : List Pt} {H : ConvexHull2D} (hP : Polygon S H) (h2 : ∃ p ∈ S, ∃ q ∈ S, p ≠ q) :
    ∃ e ∈ hullEdges H, e.1 ≠ e.2 := by
  by_contra hc
  push Not at hc
  obtain ⟨p, hp, q, hq, hne⟩ := h2
  have hall : ∀ i, i < H.vertices.length → at' H.vertices i = at' H.vertices 0 := by
    intro i
    induction i with
    | zero => intro _; rfl
    | succ i ih =>
      intro hi
      rw [← ih (by omega)]
      have hm : (at' H.vertices i, at' H.vertices (i + 1)) ∈ hullEdges H := by
        rw [← edges_iff hP]
        refine List.mem_map.mpr ⟨i + 1, List.mem_range.mpr hi, ?_⟩
        unfold edgeAt
        rw [if_pos (by omega), Nat.add_sub_cancel]
      exact (hc _ hm).symm
  have hv : ∀ v ∈ H.vertices, v = at' H.vertices 0 := by
    intro v hv
    obtain ⟨i, hi, rfl⟩ := List.getElem_of_mem hv
    rw [← hall i hi, at'_get hi]
  have hsub : hullSet H.vertices ⊆ {at' H.vertices 0} :=
    convexHull_min (fun v hm => hv v hm) (convex_singleton _)
  rw [hP.span] at hsub
  have h1 := hsub (subset_convexHull ℝ _ hp)
  have h2 := hsub (subset_convexHull ℝ _ hq)
  exact hne (h1.trans h2.symm)

theorem edge_vertices {S : List Pt} {H : ConvexHull2D} (hP : Polygon S H) {e : Pt × Pt} (he : e ∈ hullEdges H) :
    ∃ i j, i < H.vertices.length ∧ j < H.vertices.length ∧ (i, j) ∈ H.segments ∧
      e = (at' H.vertices i, at' H.vertices j) ∧ (2 ≤ H.vertices.length → i ≠ j) := by
  unfold hullEdges at he
  obtain ⟨s, hs, rfl⟩ := List.mem_map.mp he
  have hs' := hs
  rw [hP.ring] at hs'
  obtain ⟨u, hu, rfl⟩ := List.mem_map.mp hs'
  have hu := List.mem_range.mp hu
  refine ⟨u, _, hu, Nat.mod_lt _ (by omega), hs, rfl, ?_⟩
  intro hl h
  by_cases g : u + 1 < H.vertices.length
  · rw [Nat.mod_eq_of_lt g] at h; omega
  · have : u + 1 = H.vertices.length := by omega
    rw [this, Nat.mod_self] at h; omega

theorem margin_of {S : List Pt} {H : ConvexHull2D} (hP : Polygon S H)
    (hin : ∀ p, isInside p (some H) = true ↔ p ∈ hullSet S) (h2 : ∃ p ∈ S, ∃ q ∈ S, p ≠ q)
    (hbox : ∀ q ∈ S, |q.1| ≤ 10 ^ 18 ∧ |q.2| ≤ 10 ^ 18) {p : Pt} (hp : p ∈ hullSet S) :
    Margin (hullSet S) p
      (Real.sqrt (minD p ((List.range H.vertices.length).map (edgeAt H.vertices)) fltMax)) := by
  obtain ⟨m, hm⟩ : ∃ m, m = minD p ((List.range H.vertices.length).map (edgeAt H.vertices)) fltMax := ⟨_, rfl⟩
  have hle : ∀ e ∈ hullEdges H, m ≤ getSquaredDistLine p e.1 e.2 := by
    intro e he
    rw [hm]
    exact (minD_le p _ _).2 e ((edges_iff hP e).mpr he)
  have hm0 : 0 ≤ m := hm ▸ minD_nonneg p _ (by unfold fltMax; norm_num)
  have hleft : ∀ e ∈ hullEdges H, ∀ q ∈ hullSet S, 0 ≤ isLeft e.1 e.2 q := by
    intro e he
    obtain ⟨i, j, hi, hj, hs, rfl, _⟩ := edge_vertices hP he
    refine hull_left fun q hq => ?_
    rw [← leftOf_iff]
    refine hP.left i j _ _ hs ?_ ?_ q hq
    · rw [at'_get hi]; exact List.getElem?_eq_getElem hi
    · rw [at'_get hj]; exact List.getElem?_eq_getElem hj
  obtain ⟨e0, he0, hne0⟩ := exists_edge hP h2
  have hvert : ∀ i, i < H.vertices.length → at' H.vertices i ∈ hullSet S := by
    intro i hi
    rw [← hP.span]
    exact subset_convexHull ℝ _ (at'_mem hi)
  -- the minimum is a distance
  have hmem : ∃ e ∈ hullEdges H, m = getSquaredDistLine p e.1 e.2 := by
    rcases minD_mem p ((List.range H.vertices.length).map (edgeAt H.vertices)) fltMax with h | ⟨e, he, h⟩
    · exfalso
      have h1 := hle e0 he0
      have h3 := distLine_le p e0.1 e0.2 hne0
      obtain ⟨i, j, hi, hj, hs, rfl, _⟩ := edge_vertices hP he0
      obtain ⟨b1, b2⟩ := hull_box hbox _ (hvert i hi)
      obtain ⟨p1, p2⟩ := hull_box hbox _ hp
      dsimp only at h1 h3
      rw [hm, h] at h1
      have h4 := h1.trans h3
      rw [abs_le] at b1 b2 p1 p2
      unfold sqDist at h4
      have c1 : (p.1 - (at' H.vertices i).1) ^ 2 ≤ (2 * 10 ^ 18) ^ 2 := by
        apply sq_le_sq'
        · linarith
        · linarith
      have c2 : (p.2 - (at' H.vertices i).2) ^ 2 ≤ (2 * 10 ^ 18) ^ 2 := by
        apply sq_le_sq'
        · linarith
        · linarith
      unfold fltMax at h4
      norm_num at c1 c2 h4
      linarith
    · exact ⟨e, (edges_iff hP e).mp he, by rw [hm]; exact h⟩
  rw [← hm]
  have hsq : Real.sqrt m ^ 2 = m := Real.sq_sqrt hm0
  by_cases hx : ∃ p ∈ S, ∃ q ∈ S, p.1 ≠ q.1
  · have hnd := hP.once hx
    have hlen : 2 ≤ H.vertices.length := by
      obtain ⟨i, j, hi, hj, hs, he, _⟩ := edge_vertices hP he0
      by_contra hc
      have : i = j := by omega
      rw [he, this] at hne0
      exact hne0 rfl
    have hdiff : ∀ e ∈ hullEdges H, e.1 ≠ e.2 := by
      intro e he h
      obtain ⟨i, j, hi, hj, hs, rfl, hij⟩ := edge_vertices hP he
      refine hij hlen ?_
      dsimp only at h
      rw [at'_get hi, at'_get hj] at h
      exact (hnd.getElem_inj_iff).mp h
    refine ⟨⟨Real.sqrt_nonneg _, ?_⟩, ?_⟩
    · intro q hq
      rw [hsq] at hq
      rw [← hin, isInside_some]
      refine insideE_of fun e he => ?_
      have hq' : sqDist p q < Real.sqrt m ^ 2 := by rw [hsq]; exact hq
      have := left_of_disc (hdiff e he) (hleft e he p hp) (by rw [hsq]; exact hle e he) hq'
      exact ⟨this.le, fun g => absurd g this.ne'⟩
    · rintro r ⟨hr, hd⟩
      obtain ⟨e, he, hme⟩ := hmem
      refine Real.le_sqrt_of_sq_le ?_
      rw [hme]
      exact disc_of_left (hdiff e he) (hleft e he) hr hd
  · push Not at hx
    obtain ⟨p0, hp0, _⟩ := h2
    have hS : ∀ q ∈ hullSet S, q.1 = p0.1 := hull_fst fun q hq => (hx p0 hp0 q hq).symm
    have hz : getSquaredDistLine p e0.1 e0.2 = 0 := by
      have h1 := distLine_eq p e0.1 e0.2 hne0
      obtain ⟨i, j, hi, hj, hs, he, _⟩ := edge_vertices hP he0
      have a1 : e0.1.1 = p0.1 := by rw [he]; exact hS _ (hvert i hi)
      have a2 : e0.2.1 = p0.1 := by rw [he]; exact hS _ (hvert j hj)
      have a3 := hS p hp
      have : isLeft e0.1 e0.2 p = 0 := by unfold isLeft; rw [a1, a2, a3]; ring
      rw [this] at h1
      have h3 := sqDist_pos hne0
      have h0 := distLine_nonneg p e0.1 e0.2
      by_contra hc
      have : 0 < getSquaredDistLine p e0.1 e0.2 := lt_of_le_of_ne h0 (Ne.symm hc)
      nlinarith
    have hmz : m = 0 := le_antisymm (hz ▸ hle e0 he0) hm0
    rw [hmz, Real.sqrt_zero]
    refine ⟨⟨le_refl _, ?_⟩, ?_⟩
    · intro q hq
      exfalso
      have : 0 ≤ sqDist p q := by unfold sqDist; positivity
      norm_num at hq
      linarith
    · rintro r ⟨hr, hd⟩
      have := disc_of_left hne0 (hleft e0 he0) hr hd
      rw [hz] at this
      nlinarith

end Simox.Stb
