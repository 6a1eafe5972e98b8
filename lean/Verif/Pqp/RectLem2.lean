/-
The sixteen pairs of edges of two rectangles, and the separation along their normals.
-/
import Verif.Pqp.RectLem

namespace Simox.Pqp

set_option linter.unusedSimpArgs false

theorem ite_some {c : Prop} [Decidable c] {x d : ℝ} {e : Option ℝ}
    (h : (if c then some x else e) = some d) : c ∧ x = d ∨ e = some d := by
  by_cases hc : c
  · rw [if_pos hc] at h
    exact .inl ⟨hc, Option.some.inj h⟩
  · rw [if_neg hc] at h
    exact .inr h

theorem sel_gt {p q x y L : ℝ} (h : sel p q x y > L) : L < x ∨ L < y := by
  unfold sel at h
  split_ifs at h
  · exact .inl h
  · exact .inr h

theorem sel_lt {p q x y L : ℝ} (h : sel p q x y < L) : x < L ∨ y < L := by
  unfold sel at h
  split_ifs at h
  · exact .inl h
  · exact .inr h

theorem sel_min_gt {p q x y L : ℝ} (e : q - p = y - x) (h : sel p q x y > L) : L < x ∧ L < y := by
  unfold sel at h
  split_ifs at h <;> constructor <;> linarith

theorem sel_max_lt {p q x y L : ℝ} (e : q - p = x - y) (h : sel p q x y < L) : x < L ∧ y < L := by
  unfold sel at h
  split_ifs at h <;> constructor <;> linarith

/-- The vector from a point of the first to a point of the second rectangle. -/
def rectDiff (R : M3) (T : V3) (x0 x1 y0 y1 : ℝ) : V3 :=
  vsub (mulVpV R ⟨y0, y1, 0⟩ T) ⟨x0, x1, 0⟩

/-- `x`, `y` are coordinates of points of the rectangles. -/
structure RectPts (a0 a1 b0 b1 x0 x1 y0 y1 : ℝ) : Prop where
  hx0 : 0 ≤ x0
  hx0' : x0 ≤ a0
  hx1 : 0 ≤ x1
  hx1' : x1 ≤ a1
  hy0 : 0 ≤ y0
  hy0' : y0 ≤ b0
  hy1 : 0 ≤ y1
  hy1' : y1 ≤ b1


theorem rectA1B1_le {R : M3} (hR : Orthonormal R) {T : V3} {a0 a1 b0 b1 x0 x1 y0 y1 d : ℝ}
    (hP : RectPts a0 a1 b0 b1 x0 x1 y0 y1) (h : rectA1B1 R T a0 a1 b0 b1 = some d) :
    d ≤ len3 (rectDiff R T x0 x1 y0 y1) := by
  obtain ⟨h00, h11, -, h01, -, -⟩ := hR
  obtain ⟨gx0, gx0', gx1, gx1', gy0, gy0', gy1, gy1'⟩ := hP
  simp only [dot] at h00 h11 h01
  unfold rectA1B1 at h
  simp only [tmulV] at h
  rcases ite_some h with ⟨c1, h⟩ | h
  on_goal 2 => rcases ite_some h with ⟨c2, h⟩ | h
  on_goal 3 => rcases ite_some h with ⟨c3, h⟩ | h
  on_goal 4 => rcases ite_some h with ⟨c4, h⟩ | h
  on_goal 5 => exact absurd h (by simp)

  · obtain ⟨⟨g1, g2⟩, v1, v2⟩ := c1
    subst h
    refine Real.sqrt_le_sqrt ?_
    refine edge_case (A := ⟨0, 1, 0⟩) (An := ⟨1, 0, 0⟩) (B := R.c1) (Bn := R.c0) (T := (vsub (vadd T (vscale R.c0 b0)) ⟨a0, 0, 0⟩))
      (a := a1) (b := b1) (AB := R.c1.y) (AT := (T.y + b0 * R.c0.y)) (BT := (dot R.c1 T - a0 * R.c1.x))
      (s := x1) (s' := y1) (r := (a0 - x0)) (r' := (b0 - y0)) (by linarith) (by linarith) (by norm_num [dot])
      (by simp only [dot]; linarith) (by norm_num [dot])
      (by simp only [dot, vsub, vadd, vscale, zero3]; linear_combination h01)
      (by simp only [dot, vsub, vadd, vscale, zero3]; ring) (by simp only [dot, vsub, vadd, vscale, zero3]; ring) (by simp only [dot, vsub, vadd, vscale, zero3]; linear_combination -b0 * h01)
      (by simp only [dot, vsub, vadd, vscale, zero3]; ring) (by simp only [dot, vsub, vadd, vscale, zero3]; ring) (by simp only [dot, vsub, vadd, vscale, zero3]; linear_combination b0 * h00) (by simp only [dot, vsub, vadd, vscale, zero3]; ring)
      ?_ (v1.imp_left fun h => ?_) (by ring) (by simp only [dot]; ring) ?_ (v2.imp_left fun h => ?_) ?_
      (by linarith) (by linarith) (by linarith) (by linarith) (by linarith) (by linarith) ?_
    · rcases sel_gt g1 with h | h
      all_goals first | exact Or.inl (by linarith) | exact Or.inr (by linarith)
    · have := sel_min_gt (by ring) h
      constructor <;> linarith [this.1, this.2]
    · rcases sel_gt g2 with h | h
      all_goals first | exact Or.inl (by linarith) | exact Or.inr (by linarith)
    · have := sel_min_gt (by ring) h
      constructor <;> linarith [this.1, this.2]
    · simp only [vsub, vadd, vscale, zero3, dot]
      ext <;> simp only <;> ring
    · simp only [rectDiff, mulVpV, vsub, vadd, vscale, zero3]
      ext <;> simp only <;> ring

  · obtain ⟨⟨g1, g2⟩, v1, v2⟩ := c2
    subst h
    refine Real.sqrt_le_sqrt ?_
    refine edge_case (A := ⟨0, 1, 0⟩) (An := ⟨1, 0, 0⟩) (B := R.c1) (Bn := (vscale R.c0 (-1))) (T := (vsub T ⟨a0, 0, 0⟩))
      (a := a1) (b := b1) (AB := R.c1.y) (AT := T.y) (BT := (dot R.c1 T - a0 * R.c1.x))
      (s := x1) (s' := y1) (r := (a0 - x0)) (r' := y0) (by linarith) (by linarith) (by norm_num [dot])
      (by simp only [dot]; linarith) (by norm_num [dot])
      (by simp only [dot, vsub, vadd, vscale, zero3]; linear_combination -h01)
      (by simp only [dot, vsub, vadd, vscale, zero3]; ring) (by simp only [dot, vsub, vadd, vscale, zero3]; ring) (by simp only [dot, vsub, vadd, vscale, zero3]; ring)
      (by simp only [dot, vsub, vadd, vscale, zero3]; ring) (by simp only [dot, vsub, vadd, vscale, zero3]; ring) (by simp only [dot, vsub, vadd, vscale, zero3]; ring) (by simp only [dot, vsub, vadd, vscale, zero3]; ring)
      ?_ (v1.imp_left fun h => ?_) (by ring) (by simp only [dot]; ring) ?_ (v2.imp_left fun h => ?_) ?_
      (by linarith) (by linarith) (by linarith) (by linarith) (by linarith) (by linarith) ?_
    · rcases sel_lt g1 with h | h
      all_goals first | exact Or.inl (by linarith) | exact Or.inr (by linarith)
    · have := sel_max_lt (by ring) h
      constructor <;> linarith [this.1, this.2]
    · rcases sel_gt g2 with h | h
      all_goals first | exact Or.inl (by linarith) | exact Or.inr (by linarith)
    · have := sel_min_gt (by ring) h
      constructor <;> linarith [this.1, this.2]
    · simp only [vsub, vadd, vscale, zero3, dot]
      ext <;> simp only <;> ring
    · simp only [rectDiff, mulVpV, vsub, vadd, vscale, zero3]
      ext <;> simp only <;> ring

  · obtain ⟨⟨g1, g2⟩, v1, v2⟩ := c3
    subst h
    refine Real.sqrt_le_sqrt ?_
    refine edge_case (A := ⟨0, 1, 0⟩) (An := ⟨-1, 0, 0⟩) (B := R.c1) (Bn := R.c0) (T := (vsub (vadd T (vscale R.c0 b0)) zero3))
      (a := a1) (b := b1) (AB := R.c1.y) (AT := (T.y + b0 * R.c0.y)) (BT := (dot R.c1 T))
      (s := x1) (s' := y1) (r := x0) (r' := (b0 - y0)) (by linarith) (by linarith) (by norm_num [dot])
      (by simp only [dot]; linarith) (by norm_num [dot])
      (by simp only [dot, vsub, vadd, vscale, zero3]; linear_combination h01)
      (by simp only [dot, vsub, vadd, vscale, zero3]; ring) (by simp only [dot, vsub, vadd, vscale, zero3]; ring) (by simp only [dot, vsub, vadd, vscale, zero3]; linear_combination -b0 * h01)
      (by simp only [dot, vsub, vadd, vscale, zero3]; ring) (by simp only [dot, vsub, vadd, vscale, zero3]; ring) (by simp only [dot, vsub, vadd, vscale, zero3]; linear_combination b0 * h00) (by simp only [dot, vsub, vadd, vscale, zero3]; ring)
      ?_ (v1.imp_left fun h => ?_) (by ring) (by simp only [dot]) ?_ (v2.imp_left fun h => ?_) ?_
      (by linarith) (by linarith) (by linarith) (by linarith) (by linarith) (by linarith) ?_
    · rcases sel_gt g1 with h | h
      all_goals first | exact Or.inl (by linarith) | exact Or.inr (by linarith)
    · have := sel_min_gt (by ring) h
      constructor <;> linarith [this.1, this.2]
    · rcases sel_lt g2 with h | h
      all_goals first | exact Or.inl (by linarith) | exact Or.inr (by linarith)
    · have := sel_max_lt (by ring) h
      constructor <;> linarith [this.1, this.2]
    · simp only [vsub, vadd, vscale, zero3, dot]
      ext <;> simp only <;> ring
    · simp only [rectDiff, mulVpV, vsub, vadd, vscale, zero3]
      ext <;> simp only <;> ring

  · obtain ⟨⟨g1, g2⟩, v1, v2⟩ := c4
    subst h
    refine Real.sqrt_le_sqrt ?_
    refine edge_case (A := ⟨0, 1, 0⟩) (An := ⟨-1, 0, 0⟩) (B := R.c1) (Bn := (vscale R.c0 (-1))) (T := (vsub T zero3))
      (a := a1) (b := b1) (AB := R.c1.y) (AT := T.y) (BT := (dot R.c1 T))
      (s := x1) (s' := y1) (r := x0) (r' := y0) (by linarith) (by linarith) (by norm_num [dot])
      (by simp only [dot]; linarith) (by norm_num [dot])
      (by simp only [dot, vsub, vadd, vscale, zero3]; linear_combination -h01)
      (by simp only [dot, vsub, vadd, vscale, zero3]; ring) (by simp only [dot, vsub, vadd, vscale, zero3]; ring) (by simp only [dot, vsub, vadd, vscale, zero3]; ring)
      (by simp only [dot, vsub, vadd, vscale, zero3]; ring) (by simp only [dot, vsub, vadd, vscale, zero3]; ring) (by simp only [dot, vsub, vadd, vscale, zero3]; ring) (by simp only [dot, vsub, vadd, vscale, zero3]; ring)
      ?_ (v1.imp_left fun h => ?_) (by ring) (by simp only [dot]) ?_ (v2.imp_left fun h => ?_) ?_
      (by linarith) (by linarith) (by linarith) (by linarith) (by linarith) (by linarith) ?_
    · rcases sel_lt g1 with h | h
      all_goals first | exact Or.inl (by linarith) | exact Or.inr (by linarith)
    · have := sel_max_lt (by ring) h
      constructor <;> linarith [this.1, this.2]
    · rcases sel_lt g2 with h | h
      all_goals first | exact Or.inl (by linarith) | exact Or.inr (by linarith)
    · have := sel_max_lt (by ring) h
      constructor <;> linarith [this.1, this.2]
    · simp only [vsub, vadd, vscale, zero3, dot]
      ext <;> simp only <;> ring
    · simp only [rectDiff, mulVpV, vsub, vadd, vscale, zero3]
      ext <;> simp only <;> ring


theorem rectA1B0_le {R : M3} (hR : Orthonormal R) {T : V3} {a0 a1 b0 b1 x0 x1 y0 y1 d : ℝ}
    (hP : RectPts a0 a1 b0 b1 x0 x1 y0 y1) (h : rectA1B0 R T a0 a1 b0 b1 = some d) :
    d ≤ len3 (rectDiff R T x0 x1 y0 y1) := by
  obtain ⟨h00, h11, -, h01, -, -⟩ := hR
  obtain ⟨gx0, gx0', gx1, gx1', gy0, gy0', gy1, gy1'⟩ := hP
  simp only [dot] at h00 h11 h01
  unfold rectA1B0 at h
  simp only [tmulV] at h
  rcases ite_some h with ⟨c1, h⟩ | h
  on_goal 2 => rcases ite_some h with ⟨c2, h⟩ | h
  on_goal 3 => rcases ite_some h with ⟨c3, h⟩ | h
  on_goal 4 => rcases ite_some h with ⟨c4, h⟩ | h
  on_goal 5 => exact absurd h (by simp)

  · obtain ⟨⟨g1, g2⟩, v1, v2⟩ := c1
    subst h
    refine Real.sqrt_le_sqrt ?_
    refine edge_case (A := ⟨0, 1, 0⟩) (An := ⟨1, 0, 0⟩) (B := R.c0) (Bn := R.c1) (T := (vsub (vadd T (vscale R.c1 b1)) ⟨a0, 0, 0⟩))
      (a := a1) (b := b0) (AB := R.c0.y) (AT := (T.y + b1 * R.c1.y)) (BT := (dot R.c0 T - a0 * R.c0.x))
      (s := x1) (s' := y0) (r := (a0 - x0)) (r' := (b1 - y1)) (by linarith) (by linarith) (by norm_num [dot])
      (by simp only [dot]; linarith) (by norm_num [dot])
      (by simp only [dot, vsub, vadd, vscale, zero3]; linear_combination h01)
      (by simp only [dot, vsub, vadd, vscale, zero3]; ring) (by simp only [dot, vsub, vadd, vscale, zero3]; ring) (by simp only [dot, vsub, vadd, vscale, zero3]; linear_combination -b1 * h01)
      (by simp only [dot, vsub, vadd, vscale, zero3]; ring) (by simp only [dot, vsub, vadd, vscale, zero3]; ring) (by simp only [dot, vsub, vadd, vscale, zero3]; linear_combination b1 * h11) (by simp only [dot, vsub, vadd, vscale, zero3]; ring)
      ?_ (v1.imp_left fun h => ?_) (by ring) (by simp only [dot]; ring) ?_ (v2.imp_left fun h => ?_) ?_
      (by linarith) (by linarith) (by linarith) (by linarith) (by linarith) (by linarith) ?_
    · rcases sel_gt g1 with h | h
      all_goals first | exact Or.inl (by linarith) | exact Or.inr (by linarith)
    · have := sel_min_gt (by ring) h
      constructor <;> linarith [this.1, this.2]
    · rcases sel_gt g2 with h | h
      all_goals first | exact Or.inl (by linarith) | exact Or.inr (by linarith)
    · have := sel_min_gt (by ring) h
      constructor <;> linarith [this.1, this.2]
    · simp only [vsub, vadd, vscale, zero3, dot]
      ext <;> simp only <;> ring
    · simp only [rectDiff, mulVpV, vsub, vadd, vscale, zero3]
      ext <;> simp only <;> ring

  · obtain ⟨⟨g1, g2⟩, v1, v2⟩ := c2
    subst h
    refine Real.sqrt_le_sqrt ?_
    refine edge_case (A := ⟨0, 1, 0⟩) (An := ⟨1, 0, 0⟩) (B := R.c0) (Bn := (vscale R.c1 (-1))) (T := (vsub T ⟨a0, 0, 0⟩))
      (a := a1) (b := b0) (AB := R.c0.y) (AT := T.y) (BT := (dot R.c0 T - a0 * R.c0.x))
      (s := x1) (s' := y0) (r := (a0 - x0)) (r' := y1) (by linarith) (by linarith) (by norm_num [dot])
      (by simp only [dot]; linarith) (by norm_num [dot])
      (by simp only [dot, vsub, vadd, vscale, zero3]; linear_combination -h01)
      (by simp only [dot, vsub, vadd, vscale, zero3]; ring) (by simp only [dot, vsub, vadd, vscale, zero3]; ring) (by simp only [dot, vsub, vadd, vscale, zero3]; ring)
      (by simp only [dot, vsub, vadd, vscale, zero3]; ring) (by simp only [dot, vsub, vadd, vscale, zero3]; ring) (by simp only [dot, vsub, vadd, vscale, zero3]; ring) (by simp only [dot, vsub, vadd, vscale, zero3]; ring)
      ?_ (v1.imp_left fun h => ?_) (by ring) (by simp only [dot]; ring) ?_ (v2.imp_left fun h => ?_) ?_
      (by linarith) (by linarith) (by linarith) (by linarith) (by linarith) (by linarith) ?_
    · rcases sel_lt g1 with h | h
      all_goals first | exact Or.inl (by linarith) | exact Or.inr (by linarith)
    · have := sel_max_lt (by ring) h
      constructor <;> linarith [this.1, this.2]
    · rcases sel_gt g2 with h | h
      all_goals first | exact Or.inl (by linarith) | exact Or.inr (by linarith)
    · have := sel_min_gt (by ring) h
      constructor <;> linarith [this.1, this.2]
    · simp only [vsub, vadd, vscale, zero3, dot]
      ext <;> simp only <;> ring
    · simp only [rectDiff, mulVpV, vsub, vadd, vscale, zero3]
      ext <;> simp only <;> ring

  · obtain ⟨⟨g1, g2⟩, v1, v2⟩ := c3
    subst h
    refine Real.sqrt_le_sqrt ?_
    refine edge_case (A := ⟨0, 1, 0⟩) (An := ⟨-1, 0, 0⟩) (B := R.c0) (Bn := R.c1) (T := (vsub (vadd T (vscale R.c1 b1)) zero3))
      (a := a1) (b := b0) (AB := R.c0.y) (AT := (T.y + b1 * R.c1.y)) (BT := (dot R.c0 T))
      (s := x1) (s' := y0) (r := x0) (r' := (b1 - y1)) (by linarith) (by linarith) (by norm_num [dot])
      (by simp only [dot]; linarith) (by norm_num [dot])
      (by simp only [dot, vsub, vadd, vscale, zero3]; linear_combination h01)
      (by simp only [dot, vsub, vadd, vscale, zero3]; ring) (by simp only [dot, vsub, vadd, vscale, zero3]; ring) (by simp only [dot, vsub, vadd, vscale, zero3]; linear_combination -b1 * h01)
      (by simp only [dot, vsub, vadd, vscale, zero3]; ring) (by simp only [dot, vsub, vadd, vscale, zero3]; ring) (by simp only [dot, vsub, vadd, vscale, zero3]; linear_combination b1 * h11) (by simp only [dot, vsub, vadd, vscale, zero3]; ring)
      ?_ (v1.imp_left fun h => ?_) (by ring) (by simp only [dot]) ?_ (v2.imp_left fun h => ?_) ?_
      (by linarith) (by linarith) (by linarith) (by linarith) (by linarith) (by linarith) ?_
    · rcases sel_gt g1 with h | h
      all_goals first | exact Or.inl (by linarith) | exact Or.inr (by linarith)
    · have := sel_min_gt (by ring) h
      constructor <;> linarith [this.1, this.2]
    · rcases sel_lt g2 with h | h
      all_goals first | exact Or.inl (by linarith) | exact Or.inr (by linarith)
    · have := sel_max_lt (by ring) h
      constructor <;> linarith [this.1, this.2]
    · simp only [vsub, vadd, vscale, zero3, dot]
      ext <;> simp only <;> ring
    · simp only [rectDiff, mulVpV, vsub, vadd, vscale, zero3]
      ext <;> simp only <;> ring

  · obtain ⟨⟨g1, g2⟩, v1, v2⟩ := c4
    subst h
    refine Real.sqrt_le_sqrt ?_
    refine edge_case (A := ⟨0, 1, 0⟩) (An := ⟨-1, 0, 0⟩) (B := R.c0) (Bn := (vscale R.c1 (-1))) (T := (vsub T zero3))
      (a := a1) (b := b0) (AB := R.c0.y) (AT := T.y) (BT := (dot R.c0 T))
      (s := x1) (s' := y0) (r := x0) (r' := y1) (by linarith) (by linarith) (by norm_num [dot])
      (by simp only [dot]; linarith) (by norm_num [dot])
      (by simp only [dot, vsub, vadd, vscale, zero3]; linear_combination -h01)
      (by simp only [dot, vsub, vadd, vscale, zero3]; ring) (by simp only [dot, vsub, vadd, vscale, zero3]; ring) (by simp only [dot, vsub, vadd, vscale, zero3]; ring)
      (by simp only [dot, vsub, vadd, vscale, zero3]; ring) (by simp only [dot, vsub, vadd, vscale, zero3]; ring) (by simp only [dot, vsub, vadd, vscale, zero3]; ring) (by simp only [dot, vsub, vadd, vscale, zero3]; ring)
      ?_ (v1.imp_left fun h => ?_) (by ring) (by simp only [dot]) ?_ (v2.imp_left fun h => ?_) ?_
      (by linarith) (by linarith) (by linarith) (by linarith) (by linarith) (by linarith) ?_
    · rcases sel_lt g1 with h | h
      all_goals first | exact Or.inl (by linarith) | exact Or.inr (by linarith)
    · have := sel_max_lt (by ring) h
      constructor <;> linarith [this.1, this.2]
    · rcases sel_lt g2 with h | h
      all_goals first | exact Or.inl (by linarith) | exact Or.inr (by linarith)
    · have := sel_max_lt (by ring) h
      constructor <;> linarith [this.1, this.2]
    · simp only [vsub, vadd, vscale, zero3, dot]
      ext <;> simp only <;> ring
    · simp only [rectDiff, mulVpV, vsub, vadd, vscale, zero3]
      ext <;> simp only <;> ring


theorem rectA0B1_le {R : M3} (hR : Orthonormal R) {T : V3} {a0 a1 b0 b1 x0 x1 y0 y1 d : ℝ}
    (hP : RectPts a0 a1 b0 b1 x0 x1 y0 y1) (h : rectA0B1 R T a0 a1 b0 b1 = some d) :
    d ≤ len3 (rectDiff R T x0 x1 y0 y1) := by
  obtain ⟨h00, h11, -, h01, -, -⟩ := hR
  obtain ⟨gx0, gx0', gx1, gx1', gy0, gy0', gy1, gy1'⟩ := hP
  simp only [dot] at h00 h11 h01
  unfold rectA0B1 at h
  simp only [tmulV] at h
  rcases ite_some h with ⟨c1, h⟩ | h
  on_goal 2 => rcases ite_some h with ⟨c2, h⟩ | h
  on_goal 3 => rcases ite_some h with ⟨c3, h⟩ | h
  on_goal 4 => rcases ite_some h with ⟨c4, h⟩ | h
  on_goal 5 => exact absurd h (by simp)

  · obtain ⟨⟨g1, g2⟩, v1, v2⟩ := c1
    subst h
    refine Real.sqrt_le_sqrt ?_
    refine edge_case (A := ⟨1, 0, 0⟩) (An := ⟨0, 1, 0⟩) (B := R.c1) (Bn := R.c0) (T := (vsub (vadd T (vscale R.c0 b0)) ⟨0, a1, 0⟩))
      (a := a0) (b := b1) (AB := R.c1.x) (AT := (T.x + b0 * R.c0.x)) (BT := (dot R.c1 T - a1 * R.c1.y))
      (s := x0) (s' := y1) (r := (a1 - x1)) (r' := (b0 - y0)) (by linarith) (by linarith) (by norm_num [dot])
      (by simp only [dot]; linarith) (by norm_num [dot])
      (by simp only [dot, vsub, vadd, vscale, zero3]; linear_combination h01)
      (by simp only [dot, vsub, vadd, vscale, zero3]; ring) (by simp only [dot, vsub, vadd, vscale, zero3]; ring) (by simp only [dot, vsub, vadd, vscale, zero3]; linear_combination -b0 * h01)
      (by simp only [dot, vsub, vadd, vscale, zero3]; ring) (by simp only [dot, vsub, vadd, vscale, zero3]; ring) (by simp only [dot, vsub, vadd, vscale, zero3]; linear_combination b0 * h00) (by simp only [dot, vsub, vadd, vscale, zero3]; ring)
      ?_ (v1.imp_left fun h => ?_) (by ring) (by simp only [dot]; ring) ?_ (v2.imp_left fun h => ?_) ?_
      (by linarith) (by linarith) (by linarith) (by linarith) (by linarith) (by linarith) ?_
    · rcases sel_gt g1 with h | h
      all_goals first | exact Or.inl (by linarith) | exact Or.inr (by linarith)
    · have := sel_min_gt (by ring) h
      constructor <;> linarith [this.1, this.2]
    · rcases sel_gt g2 with h | h
      all_goals first | exact Or.inl (by linarith) | exact Or.inr (by linarith)
    · have := sel_min_gt (by ring) h
      constructor <;> linarith [this.1, this.2]
    · simp only [vsub, vadd, vscale, zero3, dot]
      ext <;> simp only <;> ring
    · simp only [rectDiff, mulVpV, vsub, vadd, vscale, zero3]
      ext <;> simp only <;> ring

  · obtain ⟨⟨g1, g2⟩, v1, v2⟩ := c2
    subst h
    refine Real.sqrt_le_sqrt ?_
    refine edge_case (A := ⟨1, 0, 0⟩) (An := ⟨0, 1, 0⟩) (B := R.c1) (Bn := (vscale R.c0 (-1))) (T := (vsub T ⟨0, a1, 0⟩))
      (a := a0) (b := b1) (AB := R.c1.x) (AT := T.x) (BT := (dot R.c1 T - a1 * R.c1.y))
      (s := x0) (s' := y1) (r := (a1 - x1)) (r' := y0) (by linarith) (by linarith) (by norm_num [dot])
      (by simp only [dot]; linarith) (by norm_num [dot])
      (by simp only [dot, vsub, vadd, vscale, zero3]; linear_combination -h01)
      (by simp only [dot, vsub, vadd, vscale, zero3]; ring) (by simp only [dot, vsub, vadd, vscale, zero3]; ring) (by simp only [dot, vsub, vadd, vscale, zero3]; ring)
      (by simp only [dot, vsub, vadd, vscale, zero3]; ring) (by simp only [dot, vsub, vadd, vscale, zero3]; ring) (by simp only [dot, vsub, vadd, vscale, zero3]; ring) (by simp only [dot, vsub, vadd, vscale, zero3]; ring)
      ?_ (v1.imp_left fun h => ?_) (by ring) (by simp only [dot]; ring) ?_ (v2.imp_left fun h => ?_) ?_
      (by linarith) (by linarith) (by linarith) (by linarith) (by linarith) (by linarith) ?_
    · rcases sel_lt g1 with h | h
      all_goals first | exact Or.inl (by linarith) | exact Or.inr (by linarith)
    · have := sel_max_lt (by ring) h
      constructor <;> linarith [this.1, this.2]
    · rcases sel_gt g2 with h | h
      all_goals first | exact Or.inl (by linarith) | exact Or.inr (by linarith)
    · have := sel_min_gt (by ring) h
      constructor <;> linarith [this.1, this.2]
    · simp only [vsub, vadd, vscale, zero3, dot]
      ext <;> simp only <;> ring
    · simp only [rectDiff, mulVpV, vsub, vadd, vscale, zero3]
      ext <;> simp only <;> ring

  · obtain ⟨⟨g1, g2⟩, v1, v2⟩ := c3
    subst h
    refine Real.sqrt_le_sqrt ?_
    refine edge_case (A := ⟨1, 0, 0⟩) (An := ⟨0, -1, 0⟩) (B := R.c1) (Bn := R.c0) (T := (vsub (vadd T (vscale R.c0 b0)) zero3))
      (a := a0) (b := b1) (AB := R.c1.x) (AT := (T.x + b0 * R.c0.x)) (BT := (dot R.c1 T))
      (s := x0) (s' := y1) (r := x1) (r' := (b0 - y0)) (by linarith) (by linarith) (by norm_num [dot])
      (by simp only [dot]; linarith) (by norm_num [dot])
      (by simp only [dot, vsub, vadd, vscale, zero3]; linear_combination h01)
      (by simp only [dot, vsub, vadd, vscale, zero3]; ring) (by simp only [dot, vsub, vadd, vscale, zero3]; ring) (by simp only [dot, vsub, vadd, vscale, zero3]; linear_combination -b0 * h01)
      (by simp only [dot, vsub, vadd, vscale, zero3]; ring) (by simp only [dot, vsub, vadd, vscale, zero3]; ring) (by simp only [dot, vsub, vadd, vscale, zero3]; linear_combination b0 * h00) (by simp only [dot, vsub, vadd, vscale, zero3]; ring)
      ?_ (v1.imp_left fun h => ?_) (by ring) (by simp only [dot]) ?_ (v2.imp_left fun h => ?_) ?_
      (by linarith) (by linarith) (by linarith) (by linarith) (by linarith) (by linarith) ?_
    · rcases sel_gt g1 with h | h
      all_goals first | exact Or.inl (by linarith) | exact Or.inr (by linarith)
    · have := sel_min_gt (by ring) h
      constructor <;> linarith [this.1, this.2]
    · rcases sel_lt g2 with h | h
      all_goals first | exact Or.inl (by linarith) | exact Or.inr (by linarith)
    · have := sel_max_lt (by ring) h
      constructor <;> linarith [this.1, this.2]
    · simp only [vsub, vadd, vscale, zero3, dot]
      ext <;> simp only <;> ring
    · simp only [rectDiff, mulVpV, vsub, vadd, vscale, zero3]
      ext <;> simp only <;> ring

  · obtain ⟨⟨g1, g2⟩, v1, v2⟩ := c4
    subst h
    refine Real.sqrt_le_sqrt ?_
    refine edge_case (A := ⟨1, 0, 0⟩) (An := ⟨0, -1, 0⟩) (B := R.c1) (Bn := (vscale R.c0 (-1))) (T := (vsub T zero3))
      (a := a0) (b := b1) (AB := R.c1.x) (AT := T.x) (BT := (dot R.c1 T))
      (s := x0) (s' := y1) (r := x1) (r' := y0) (by linarith) (by linarith) (by norm_num [dot])
      (by simp only [dot]; linarith) (by norm_num [dot])
      (by simp only [dot, vsub, vadd, vscale, zero3]; linear_combination -h01)
      (by simp only [dot, vsub, vadd, vscale, zero3]; ring) (by simp only [dot, vsub, vadd, vscale, zero3]; ring) (by simp only [dot, vsub, vadd, vscale, zero3]; ring)
      (by simp only [dot, vsub, vadd, vscale, zero3]; ring) (by simp only [dot, vsub, vadd, vscale, zero3]; ring) (by simp only [dot, vsub, vadd, vscale, zero3]; ring) (by simp only [dot, vsub, vadd, vscale, zero3]; ring)
      ?_ (v1.imp_left fun h => ?_) (by ring) (by simp only [dot]) ?_ (v2.imp_left fun h => ?_) ?_
      (by linarith) (by linarith) (by linarith) (by linarith) (by linarith) (by linarith) ?_
    · rcases sel_lt g1 with h | h
      all_goals first | exact Or.inl (by linarith) | exact Or.inr (by linarith)
    · have := sel_max_lt (by ring) h
      constructor <;> linarith [this.1, this.2]
    · rcases sel_lt g2 with h | h
      all_goals first | exact Or.inl (by linarith) | exact Or.inr (by linarith)
    · have := sel_max_lt (by ring) h
      constructor <;> linarith [this.1, this.2]
    · simp only [vsub, vadd, vscale, zero3, dot]
      ext <;> simp only <;> ring
    · simp only [rectDiff, mulVpV, vsub, vadd, vscale, zero3]
      ext <;> simp only <;> ring


theorem rectA0B0_le {R : M3} (hR : Orthonormal R) {T : V3} {a0 a1 b0 b1 x0 x1 y0 y1 d : ℝ}
    (hP : RectPts a0 a1 b0 b1 x0 x1 y0 y1) (h : rectA0B0 R T a0 a1 b0 b1 = some d) :
    d ≤ len3 (rectDiff R T x0 x1 y0 y1) := by
  obtain ⟨h00, h11, -, h01, -, -⟩ := hR
  obtain ⟨gx0, gx0', gx1, gx1', gy0, gy0', gy1, gy1'⟩ := hP
  simp only [dot] at h00 h11 h01
  unfold rectA0B0 at h
  simp only [tmulV] at h
  rcases ite_some h with ⟨c1, h⟩ | h
  on_goal 2 => rcases ite_some h with ⟨c2, h⟩ | h
  on_goal 3 => rcases ite_some h with ⟨c3, h⟩ | h
  on_goal 4 => rcases ite_some h with ⟨c4, h⟩ | h
  on_goal 5 => exact absurd h (by simp)

  · obtain ⟨⟨g1, g2⟩, v1, v2⟩ := c1
    subst h
    refine Real.sqrt_le_sqrt ?_
    refine edge_case (A := ⟨1, 0, 0⟩) (An := ⟨0, 1, 0⟩) (B := R.c0) (Bn := R.c1) (T := (vsub (vadd T (vscale R.c1 b1)) ⟨0, a1, 0⟩))
      (a := a0) (b := b0) (AB := R.c0.x) (AT := (T.x + b1 * R.c1.x)) (BT := (dot R.c0 T - a1 * R.c0.y))
      (s := x0) (s' := y0) (r := (a1 - x1)) (r' := (b1 - y1)) (by linarith) (by linarith) (by norm_num [dot])
      (by simp only [dot]; linarith) (by norm_num [dot])
      (by simp only [dot, vsub, vadd, vscale, zero3]; linear_combination h01)
      (by simp only [dot, vsub, vadd, vscale, zero3]; ring) (by simp only [dot, vsub, vadd, vscale, zero3]; ring) (by simp only [dot, vsub, vadd, vscale, zero3]; linear_combination -b1 * h01)
      (by simp only [dot, vsub, vadd, vscale, zero3]; ring) (by simp only [dot, vsub, vadd, vscale, zero3]; ring) (by simp only [dot, vsub, vadd, vscale, zero3]; linear_combination b1 * h11) (by simp only [dot, vsub, vadd, vscale, zero3]; ring)
      ?_ (v1.imp_left fun h => ?_) (by ring) (by simp only [dot]; ring) ?_ (v2.imp_left fun h => ?_) ?_
      (by linarith) (by linarith) (by linarith) (by linarith) (by linarith) (by linarith) ?_
    · rcases sel_gt g1 with h | h
      all_goals first | exact Or.inl (by linarith) | exact Or.inr (by linarith)
    · have := sel_min_gt (by ring) h
      constructor <;> linarith [this.1, this.2]
    · rcases sel_gt g2 with h | h
      all_goals first | exact Or.inl (by linarith) | exact Or.inr (by linarith)
    · have := sel_min_gt (by ring) h
      constructor <;> linarith [this.1, this.2]
    · simp only [vsub, vadd, vscale, zero3, dot]
      ext <;> simp only <;> ring
    · simp only [rectDiff, mulVpV, vsub, vadd, vscale, zero3]
      ext <;> simp only <;> ring

  · obtain ⟨⟨g1, g2⟩, v1, v2⟩ := c2
    subst h
    refine Real.sqrt_le_sqrt ?_
    refine edge_case (A := ⟨1, 0, 0⟩) (An := ⟨0, 1, 0⟩) (B := R.c0) (Bn := (vscale R.c1 (-1))) (T := (vsub T ⟨0, a1, 0⟩))
      (a := a0) (b := b0) (AB := R.c0.x) (AT := T.x) (BT := (dot R.c0 T - a1 * R.c0.y))
      (s := x0) (s' := y0) (r := (a1 - x1)) (r' := y1) (by linarith) (by linarith) (by norm_num [dot])
      (by simp only [dot]; linarith) (by norm_num [dot])
      (by simp only [dot, vsub, vadd, vscale, zero3]; linear_combination -h01)
      (by simp only [dot, vsub, vadd, vscale, zero3]; ring) (by simp only [dot, vsub, vadd, vscale, zero3]; ring) (by simp only [dot, vsub, vadd, vscale, zero3]; ring)
      (by simp only [dot, vsub, vadd, vscale, zero3]; ring) (by simp only [dot, vsub, vadd, vscale, zero3]; ring) (by simp only [dot, vsub, vadd, vscale, zero3]; ring) (by simp only [dot, vsub, vadd, vscale, zero3]; ring)
      ?_ (v1.imp_left fun h => ?_) (by ring) (by simp only [dot]; ring) ?_ (v2.imp_left fun h => ?_) ?_
      (by linarith) (by linarith) (by linarith) (by linarith) (by linarith) (by linarith) ?_
    · rcases sel_lt g1 with h | h
      all_goals first | exact Or.inl (by linarith) | exact Or.inr (by linarith)
    · have := sel_max_lt (by ring) h
      constructor <;> linarith [this.1, this.2]
    · rcases sel_gt g2 with h | h
      all_goals first | exact Or.inl (by linarith) | exact Or.inr (by linarith)
    · have := sel_min_gt (by ring) h
      constructor <;> linarith [this.1, this.2]
    · simp only [vsub, vadd, vscale, zero3, dot]
      ext <;> simp only <;> ring
    · simp only [rectDiff, mulVpV, vsub, vadd, vscale, zero3]
      ext <;> simp only <;> ring

  · obtain ⟨⟨g1, g2⟩, v1, v2⟩ := c3
    subst h
    refine Real.sqrt_le_sqrt ?_
    refine edge_case (A := ⟨1, 0, 0⟩) (An := ⟨0, -1, 0⟩) (B := R.c0) (Bn := R.c1) (T := (vsub (vadd T (vscale R.c1 b1)) zero3))
      (a := a0) (b := b0) (AB := R.c0.x) (AT := (T.x + b1 * R.c1.x)) (BT := (dot R.c0 T))
      (s := x0) (s' := y0) (r := x1) (r' := (b1 - y1)) (by linarith) (by linarith) (by norm_num [dot])
      (by simp only [dot]; linarith) (by norm_num [dot])
      (by simp only [dot, vsub, vadd, vscale, zero3]; linear_combination h01)
      (by simp only [dot, vsub, vadd, vscale, zero3]; ring) (by simp only [dot, vsub, vadd, vscale, zero3]; ring) (by simp only [dot, vsub, vadd, vscale, zero3]; linear_combination -b1 * h01)
      (by simp only [dot, vsub, vadd, vscale, zero3]; ring) (by simp only [dot, vsub, vadd, vscale, zero3]; ring) (by simp only [dot, vsub, vadd, vscale, zero3]; linear_combination b1 * h11) (by simp only [dot, vsub, vadd, vscale, zero3]; ring)
      ?_ (v1.imp_left fun h => ?_) (by ring) (by simp only [dot]) ?_ (v2.imp_left fun h => ?_) ?_
      (by linarith) (by linarith) (by linarith) (by linarith) (by linarith) (by linarith) ?_
    · rcases sel_gt g1 with h | h
      all_goals first | exact Or.inl (by linarith) | exact Or.inr (by linarith)
    · have := sel_min_gt (by ring) h
      constructor <;> linarith [this.1, this.2]
    · rcases sel_lt g2 with h | h
      all_goals first | exact Or.inl (by linarith) | exact Or.inr (by linarith)
    · have := sel_max_lt (by ring) h
      constructor <;> linarith [this.1, this.2]
    · simp only [vsub, vadd, vscale, zero3, dot]
      ext <;> simp only <;> ring
    · simp only [rectDiff, mulVpV, vsub, vadd, vscale, zero3]
      ext <;> simp only <;> ring

  · obtain ⟨⟨g1, g2⟩, v1, v2⟩ := c4
    subst h
    refine Real.sqrt_le_sqrt ?_
    refine edge_case (A := ⟨1, 0, 0⟩) (An := ⟨0, -1, 0⟩) (B := R.c0) (Bn := (vscale R.c1 (-1))) (T := (vsub T zero3))
      (a := a0) (b := b0) (AB := R.c0.x) (AT := T.x) (BT := (dot R.c0 T))
      (s := x0) (s' := y0) (r := x1) (r' := y1) (by linarith) (by linarith) (by norm_num [dot])
      (by simp only [dot]; linarith) (by norm_num [dot])
      (by simp only [dot, vsub, vadd, vscale, zero3]; linear_combination -h01)
      (by simp only [dot, vsub, vadd, vscale, zero3]; ring) (by simp only [dot, vsub, vadd, vscale, zero3]; ring) (by simp only [dot, vsub, vadd, vscale, zero3]; ring)
      (by simp only [dot, vsub, vadd, vscale, zero3]; ring) (by simp only [dot, vsub, vadd, vscale, zero3]; ring) (by simp only [dot, vsub, vadd, vscale, zero3]; ring) (by simp only [dot, vsub, vadd, vscale, zero3]; ring)
      ?_ (v1.imp_left fun h => ?_) (by ring) (by simp only [dot]) ?_ (v2.imp_left fun h => ?_) ?_
      (by linarith) (by linarith) (by linarith) (by linarith) (by linarith) (by linarith) ?_
    · rcases sel_lt g1 with h | h
      all_goals first | exact Or.inl (by linarith) | exact Or.inr (by linarith)
    · have := sel_max_lt (by ring) h
      constructor <;> linarith [this.1, this.2]
    · rcases sel_lt g2 with h | h
      all_goals first | exact Or.inl (by linarith) | exact Or.inr (by linarith)
    · have := sel_max_lt (by ring) h
      constructor <;> linarith [this.1, this.2]
    · simp only [vsub, vadd, vscale, zero3, dot]
      ext <;> simp only <;> ring
    · simp only [rectDiff, mulVpV, vsub, vadd, vscale, zero3]
      ext <;> simp only <;> ring


theorem abs_dot_le_len {n v : V3} (hn : dot n n = 1) : |dot n v| ≤ len3 v := by
  refine Real.abs_le_sqrt ?_
  have := dot_sq_le n v
  rw [hn] at this
  nlinarith

theorem low_le {s c y b : ℝ} (h0 : 0 ≤ y) (h1 : y ≤ b) : (if c < 0 then s + b * c else s) ≤ s + y * c := by
  split_ifs with hc <;> nlinarith

theorem high_le {s c y b : ℝ} (h0 : 0 ≤ y) (h1 : y ≤ b) : (if 0 < c then s - b * c else s) ≤ s - y * c := by
  split_ifs with hc <;> nlinarith

theorem rectSep1_le {R : M3} {T : V3} {a0 a1 b0 b1 x0 x1 y0 y1 : ℝ}
    (hP : RectPts a0 a1 b0 b1 x0 x1 y0 y1) :
    rectSep1 R T b0 b1 ≤ len3 (rectDiff R T x0 x1 y0 y1) := by
  have h := abs_le.mp (abs_dot_le_len (n := ⟨0, 0, 1⟩) (v := rectDiff R T x0 x1 y0 y1) (by norm_num [dot]))
  obtain ⟨-, -, -, -, gy0, gy0', gy1, gy1'⟩ := hP
  generalize len3 (rectDiff R T x0 x1 y0 y1) = d at h ⊢
  simp only [dot, rectDiff, mulVpV, vsub] at h
  unfold rectSep1
  simp only [gt_iff_lt]
  by_cases hz : 0 < T.z
  · rw [if_pos hz]
    refine le_trans (low_le gy1 gy1') (le_trans (add_le_add_left (low_le gy0 gy0') _) ?_)
    linarith [h.2]
  · rw [if_neg hz]
    refine le_trans (high_le gy1 gy1') (le_trans (sub_le_sub_right (high_le gy0 gy0') _) ?_)
    linarith [h.1]

theorem rectSep2_le {R : M3} (hR : Orthonormal R) {T : V3} {a0 a1 b0 b1 x0 x1 y0 y1 : ℝ}
    (hP : RectPts a0 a1 b0 b1 x0 x1 y0 y1) :
    rectSep2 R T a0 a1 ≤ len3 (rectDiff R T x0 x1 y0 y1) := by
  obtain ⟨-, -, h22, -, h02, h12⟩ := hR
  have h := abs_le.mp (abs_dot_le_len (n := R.c2) (v := rectDiff R T x0 x1 y0 y1) h22)
  have e : dot R.c2 (rectDiff R T x0 x1 y0 y1) = dot R.c2 T - x0 * R.c2.x - x1 * R.c2.y := by
    simp only [dot, rectDiff, mulVpV, vsub] at h02 h12 ⊢
    linear_combination y0 * h02 + y1 * h12
  rw [e] at h
  obtain ⟨gx0, gx0', gx1, gx1', -, -, -, -⟩ := hP
  generalize len3 (rectDiff R T x0 x1 y0 y1) = d at h ⊢
  unfold rectSep2
  simp only [gt_iff_lt, tmulV]
  generalize dot R.c2 T = z at *
  by_cases hz : z < 0
  · rw [if_pos hz]
    refine le_trans (low_le gx1 gx1') (le_trans (add_le_add_left (low_le gx0 gx0') _) ?_)
    linarith [h.1]
  · rw [if_neg hz]
    refine le_trans (high_le gx1 gx1') (le_trans (sub_le_sub_right (high_le gx0 gx0') _) ?_)
    linarith [h.2]

/-- No points of the rectangles are closer than the computed distance. -/
theorem rectDist_le {R : M3} (hR : Orthonormal R) {T : V3} {a0 a1 b0 b1 x0 x1 y0 y1 : ℝ}
    (hP : RectPts a0 a1 b0 b1 x0 x1 y0 y1) :
    rectDist R T a0 a1 b0 b1 ≤ len3 (rectDiff R T x0 x1 y0 y1) := by
  unfold rectDist
  split
  · next h => exact rectA1B1_le hR hP h
  · split
    · next h => exact rectA1B0_le hR hP h
    · split
      · next h => exact rectA0B1_le hR hP h
      · split
        · next h => exact rectA0B0_le hR hP h
        · have h1 := rectSep1_le (R := R) (T := T) hP
          have h2 := rectSep2_le hR (T := T) hP
          have h3 : 0 ≤ len3 (rectDiff R T x0 x1 y0 y1) := Real.sqrt_nonneg _
          simp only
          split_ifs <;> assumption

end Simox.Pqp